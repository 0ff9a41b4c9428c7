import Verif.Lemmas.HaloLaunches
import Mathlib.Tactic.Tauto
/-
A halo update between programs of the user never conflicts, and what it gives.
-/
namespace NDSL.Streams
variable {V : Type} [Neg V]

def streams (t : Trans) : List Stream := t.infos.map fun i => .cuda i.stream

omit [Neg V] in
theorem syncs_eq (t : Trans) : (syncs t : List (Act Stream Loc V)) = (streams t).map Act.sync := by
  simp [syncs, streams, Function.comp_def]

/-- Transfers that are posted one after the other, each after synchronising its transformer. -/
theorem safe_loop (kern : Trans → Stream × Kernel Loc V) (ts : List Trans) {P : Stream → Op Loc V → Prop}
    {r : List (Act Stream Loc V)} (hr : NoRace (flat (ts.map kern)))
    (hP : ∀ s p, P s p → ∀ t ∈ ts, s ∉ streams t → ∀ o ∈ (kern t).2, ¬ Conflict p o)
    (h : Safe (fun s o => (P s o ∧ ∀ t ∈ ts, s ∉ streams t) ∨ ∃ t ∈ ts, (kern t).1 = s ∧ o ∈ (kern t).2) r) :
    Safe P ((ts.flatMap fun t => syncs t ++ launches [kern t]) ++ r) := by
  induction ts generalizing P with
  | nil => exact safe_mono h fun s o ho => .inl ⟨ho, fun _ h => (by cases h)⟩
  | cons t ts ih =>
    have hr' : NoRace ((kern t).2 ++ flat (ts.map kern)) := hr
    obtain ⟨r1, r2, r3⟩ := List.pairwise_append.mp hr'
    rw [List.flatMap_cons, syncs_eq, List.append_assoc, List.append_assoc]
    apply safe_syncs
    refine ⟨r1, fun s' _ p hp o ho => hP s' p hp.2 t List.mem_cons_self hp.1 o ho, ?_⟩
    refine ih r2 (fun s p hp t' ht' hs o ho => ?_) (safe_mono h fun s o ho => ?_)
    · rcases hp with hp | hp
      · exact hP s p hp.2 t' (List.mem_cons_of_mem _ ht') hs o ho
      · exact r3 p hp.2 o (List.mem_flatMap.mpr ⟨kern t', List.mem_map.mpr ⟨t', ht', rfl⟩, ho⟩)
    · rcases ho with ⟨ho | ho, hn⟩ | ⟨t', ht', ho⟩
      · refine .inl ⟨ho.2, fun t' ht' => ?_⟩
        rcases List.mem_cons.mp ht' with rfl | ht'
        · exact ho.1
        · exact hn t' ht'
      · exact .inr ⟨t, List.mem_cons_self, ho.1.symm, ho.2⟩
      · exact .inr ⟨t', List.mem_cons_of_mem _ ht', ho⟩

omit [Neg V] in
theorem does_user {p : List (Act Stream Loc V)} (h : UserOnly p) {s : Stream} {o : Op Loc V} (hd : Does p s o) :
    (∃ n, s = .user n) ∧ IsQty o.src ∧ IsQty o.dst := by
  obtain ⟨k, hk, ho⟩ := hd
  have := h _ hk
  exact ⟨this.1, this.2 o ho⟩

omit [Neg V] in
theorem does_avoids {p : List (Act Stream Loc V)} {ls : List Loc} (h : Avoids p ls) {s : Stream} {o : Op Loc V}
    (hd : Does p s o) : o.src ∉ ls ∧ o.dst ∉ ls := by
  obtain ⟨k, hk, ho⟩ := hd
  exact h _ hk o ho

omit [Neg V] in
theorem rank_inj {ts : List Trans} (h : Proper ts) {t t' : Trans} (ht : t ∈ ts) (ht' : t' ∈ ts) (e : t.rank = t'.rank) : t = t' :=
  List.inj_on_of_nodup_map h.ranks ht ht' e

omit [Neg V] in
theorem not_conflict {a b : Op Loc V} (h1 : a.dst ≠ b.dst) (h2 : a.dst ≠ b.src) (h3 : b.dst ≠ a.src) : ¬ Conflict a b := by
  rintro (h | h | h)
  · exact h1 h
  · exact h2 h
  · exact h3 h

omit [Neg V] in
theorem qty_ne {a b : Loc} (ha : IsQty a) (hb : ¬ IsQty b) : a ≠ b := fun e => hb (e ▸ ha)

omit [Neg V] in
theorem ne_qty {a b : Loc} (hb : IsQty b) (ha : ¬ IsQty a) : a ≠ b := fun e => ha (e ▸ hb)

omit [Neg V] in
theorem launches_flatMap {α : Type} (ts : List α) (f : α → List (Stream × Kernel Loc V)) :
    (ts.flatMap fun t => launches (f t)) = launches (ts.flatMap f) := by
  unfold launches
  rw [List.map_flatMap]

omit [Neg V] in
theorem mem_flat_of {ls : List (Stream × Kernel Loc V)} {e : Stream × Kernel Loc V} {o : Op Loc V} (he : e ∈ ls) (ho : o ∈ e.2) :
    o ∈ flat ls := List.mem_flatMap.mpr ⟨e, he, ho⟩

/-- A thread of a launch of packing is on a stream of the transformer whose buffer it writes. -/
theorem packs_stream {ts : List Trans} (h : Proper ts) {e : Stream × Kernel Loc V} {o : Op Loc V} (he : e ∈ packs ts) (ho : o ∈ e.2) :
    ∃ t ∈ ts, e.1 ∈ streams t ∧ (∃ i, o.dst = .pack t.rank i) ∧ IsQty o.src := by
  obtain ⟨t, ht, he⟩ := List.mem_flatMap.mp he
  refine ⟨t, ht, ?_, ?_⟩
  · obtain ⟨i, hi, e'⟩ := pack_streams _ _ _ _ _ he
    exact List.mem_map.mpr ⟨i, hi, e'.symm⟩
  · have hf := mem_flat_of he ho
    rw [flat_pack t (h.supported t ht) 0 0 t.infos (h.turns t ht)] at hf
    obtain ⟨i, p, hp, rfl⟩ := (mem_packKernel _ _ _ _).mp hf
    exact ⟨⟨_, rfl⟩, allSources_qty _ _ _ p (List.mem_of_getElem? hp)⟩

/-- The whole program never conflicts. -/
theorem safe_update {ts : List Trans} (h : Proper ts) {user mid r : List (Act Stream Loc V)}
    (hu : RaceFree user) (hm : RaceFree mid) (um : UserOnly mid) (am : Avoids mid (ts.flatMap halo))
    (hr : Safe (after (fun _ _ => False) mid) r) :
    RaceFree (user ++ (start ts ++ (mid ++ (wait ts ++ r)))) := by
  unfold RaceFree at *
  refine safe_append hu ?_
  unfold start
  show Safe (fun _ _ => False) (((_ ++ _) ++ _) ++ (mid ++ (wait ts ++ r)))
  rw [List.append_assoc, List.append_assoc]
  -- receives
  refine safe_loop (fun t => (.recv t.rank, recvKernel t)) ts (noRace_recvs h) (fun _ _ hp => hp.elim) ?_
  rw [launches_flatMap]
  -- packing
  refine safe_launches (packs ts) (noRace_packs h) (fun s p hp o ho => ?_) ?_
  · rcases hp with hp | ⟨t, ht, _, hp⟩
    · exact hp.1.elim
    · obtain ⟨i, _, rfl⟩ := List.mem_map.mp hp
      obtain ⟨t', _, j, q, hq, rfl⟩ := (mem_packs h o).mp ho
      exact not_conflict (by simp) (ne_qty (allSources_qty _ _ _ q (List.mem_of_getElem? hq)) (fun h => h)) (by simp)
  -- sends
  refine safe_loop (fun t => (.send t.rank, sendKernel t)) ts (noRace_sends h) (fun s p hp t ht hs o ho => ?_) ?_
  · obtain ⟨i, _, rfl⟩ := List.mem_map.mp ho
    rcases hp with (hp | ⟨t', _, _, hp⟩) | ⟨e, he, hes, hp⟩
    · exact hp.1.elim
    · obtain ⟨j, _, rfl⟩ := List.mem_map.mp hp
      exact not_conflict (by simp) (by simp) (by simp)
    · obtain ⟨t', ht', hst, ⟨j, hd⟩, hq⟩ := packs_stream h he hp
      refine not_conflict (by rw [hd]; simp) ?_ (ne_qty hq (fun h => h))
      rw [hd]
      intro e'
      have : t'.rank = t.rank := by injection e'
      rw [rank_inj h ht' ht this] at hst
      exact hs (hes ▸ hst)
  -- what the user does in the meantime
  refine safe_mono (P := fun s o => ((∃ t ∈ ts, s = .recv t.rank ∧ o ∈ recvKernel t) ∨
    ∃ t ∈ ts, s = .send t.rank ∧ o ∈ sendKernel t) ∨ False) ?_ fun s o ho => ?_
  rotate_left
  · rcases ho with ⟨(ho | ⟨t, ht, e, ho⟩) | ⟨e, he, hes, ho⟩, hn⟩ | ⟨t, ht, e, ho⟩
    · exact ho.1.elim
    · exact .inl (.inl ⟨t, ht, e.symm, ho⟩)
    · obtain ⟨t, ht, hst, _⟩ := packs_stream h he ho
      exact absurd (hes ▸ hst) (hn t ht)
    · exact .inl (.inr ⟨t, ht, e.symm, ho⟩)
  refine safe_frame mid hm (fun s o ho s' o' hd => ?_) ?_
  · obtain ⟨_, hq1, hq2⟩ := does_user um hd
    rcases ho with ⟨t, _, _, ho⟩ | ⟨t, _, _, ho⟩ <;> obtain ⟨i, _, rfl⟩ := List.mem_map.mp ho <;>
      exact not_conflict (ne_qty hq2 (fun h => h)) (ne_qty hq1 (fun h => h)) (qty_ne hq2 (fun h => h))
  -- waiting for the requests
  unfold wait
  have e1 : (ts.map fun t => (Act.sync (.send t.rank) : Act Stream Loc V)) = (ts.map fun t => Stream.send t.rank).map Act.sync := by
    simp [Function.comp_def]
  have e2 : (ts.map fun t => (Act.sync (.recv t.rank) : Act Stream Loc V)) = (ts.map fun t => Stream.recv t.rank).map Act.sync := by
    simp [Function.comp_def]
  have e3 : (ts.flatMap fun t => (syncs t : List (Act Stream Loc V))) = (ts.flatMap streams).map Act.sync := by
    rw [List.map_flatMap]; exact List.flatMap_congr fun t _ => syncs_eq t
  rw [e1, e2, e3, launches_flatMap, List.append_assoc, List.append_assoc, List.append_assoc]
  apply safe_syncs
  apply safe_syncs
  refine safe_mono (P := after (fun _ _ => False) mid) ?_ fun s o ho => ?_
  rotate_left
  · obtain ⟨h1, h2, (⟨t, ht, e, _⟩ | ⟨t, ht, e, _⟩) | ho⟩ := ho
    · exact absurd (List.mem_map.mpr ⟨t, ht, e.symm⟩) h1
    · exact absurd (List.mem_map.mpr ⟨t, ht, e.symm⟩) h2
    · exact ho
  -- unpacking
  refine safe_launches (unpacks ts) (noRace_unpacks h) (fun s p hp o ho => ?_) ?_
  · rcases after_sub mid s p hp with hp | hp
    · exact hp.elim
    · obtain ⟨_, hq1, hq2⟩ := does_user um hp
      obtain ⟨ha1, ha2⟩ := does_avoids am hp
      obtain ⟨t, ht, i, l, hl, rfl⟩ := (mem_unpacks h o).mp ho
      have hmem : l ∈ ts.flatMap halo := List.mem_flatMap.mpr ⟨t, ht, List.mem_of_getElem? hl⟩
      exact not_conflict (fun e => ha2 (by rw [e]; exact hmem)) (qty_ne hq2 (fun h => h)) (fun e => ha1 (by rw [← e]; exact hmem))
  apply safe_syncs
  refine safe_mono hr fun s o ho => ?_
  rcases ho with ⟨hn, ho | ⟨e, he, hes, _⟩⟩
  · exact ho
  · obtain ⟨t, ht, he⟩ := List.mem_flatMap.mp he
    obtain ⟨i, hi, e'⟩ := unpack_streams _ _ _ _ _ he
    exact absurd (List.mem_flatMap.mpr ⟨t, ht, List.mem_map.mpr ⟨i, hi, by rw [← hes, e']⟩⟩) hn

/-! ### What the update gives -/

theorem seq_loop (kern : Trans → Stream × Kernel Loc V) (ts : List Trans) (m : Loc → V) :
    seq (ts.flatMap fun t => syncs t ++ launches [kern t]) m = runOps (flat (ts.map kern)) m := by
  induction ts generalizing m with
  | nil => rfl
  | cons t ts ih =>
    rw [List.flatMap_cons, syncs_eq, seq_append, seq_append, seq_syncs, ih]
    show runOps _ (runOps (kern t).2 m) = runOps ((kern t).2 ++ flat (ts.map kern)) m
    rw [runOps_append]

theorem seq_start (ts : List Trans) (m : Loc → V) :
    seq (start ts) m = runOps (flat (sends ts)) (runOps (flat (packs ts)) (runOps (flat (recvs ts)) m)) := by
  unfold start
  show seq ((_ ++ _) ++ _) m = _
  rw [seq_append, seq_append, launches_flatMap]
  rw [seq_loop (fun t => (.recv t.rank, recvKernel t)), seq_loop (fun t => (.send t.rank, sendKernel t))]
  unfold launches
  rw [seq_launches]
  rfl

theorem seq_wait (ts : List Trans) (m : Loc → V) : seq (wait ts) m = runOps (flat (unpacks ts)) m := by
  unfold wait
  have e1 : (ts.map fun t => (Act.sync (.send t.rank) : Act Stream Loc V)) = (ts.map fun t => Stream.send t.rank).map Act.sync := by
    simp [Function.comp_def]
  have e2 : (ts.map fun t => (Act.sync (.recv t.rank) : Act Stream Loc V)) = (ts.map fun t => Stream.recv t.rank).map Act.sync := by
    simp [Function.comp_def]
  have e3 : (ts.flatMap fun t => (syncs t : List (Act Stream Loc V))) = (ts.flatMap streams).map Act.sync := by
    rw [List.map_flatMap]; exact List.flatMap_congr fun t _ => syncs_eq t
  rw [e1, e2, e3, launches_flatMap]
  rw [seq_append, seq_append, seq_append, seq_syncs, seq_syncs, seq_syncs]
  unfold launches
  rw [seq_launches]
  rfl

/-- A receive writes only its buffer, a send only its message, packing only the buffer. -/
theorem start_qty {ts : List Trans} (h : Proper ts) (m : Loc → V) (l : Loc) (hl : IsQty l) : seq (start ts) m l = m l := by
  rw [seq_start, run_other, run_other, run_other]
  · intro o ho; obtain ⟨t, _, i, _, rfl⟩ := (mem_recvs ts o).mp ho; intro e; rw [← e] at hl; exact hl
  · intro o ho; obtain ⟨t, _, i, p, _, rfl⟩ := (mem_packs h o).mp ho; intro e; rw [← e] at hl; exact hl
  · intro o ho; obtain ⟨t, _, i, _, rfl⟩ := (mem_sends ts o).mp ho; intro e; rw [← e] at hl; exact hl

theorem start_unpack {ts : List Trans} (h : Proper ts) (m : Loc → V) {t : Trans} (ht : t ∈ ts) {i : Nat} (hi : i < bufferSize t) :
    seq (start ts) m (.unpack t.rank i) = m (.inbox t.rank i) := by
  rw [seq_start, run_other, run_other]
  · exact run_written _ (noRace_recvs h) m ⟨.inbox t.rank i, .unpack t.rank i, id⟩ ((mem_recvs ts _).mpr ⟨t, ht, i, hi, rfl⟩)
  · intro o ho; obtain ⟨t, _, i, p, _, rfl⟩ := (mem_packs h o).mp ho; simp
  · intro o ho; obtain ⟨t, _, i, _, rfl⟩ := (mem_sends ts o).mp ho; simp

theorem start_outbox {ts : List Trans} (h : Proper ts) (hneg : ∀ v : V, - -v = v) (m : Loc → V) {t : Trans} (ht : t ∈ ts) (i : Nat) :
    seq (start ts) m (.outbox t.rank i) = ((message m t)[i]?).getD (m (.outbox t.rank i)) := by
  rw [seq_start, message_eq hneg m t (h.turns t ht), List.getElem?_map]
  have hlen := allSources_length (V := V) t.vector 0 t.infos (h.turns t ht)
  by_cases hi : i < bufferSize t
  · have hs := run_written (flat (sends ts)) (noRace_sends h) (runOps (flat (packs ts)) (runOps (flat (recvs ts)) m))
      ⟨.pack t.rank i, .outbox t.rank i, id⟩ ((mem_sends ts _).mpr ⟨t, ht, i, hi, rfl⟩)
    simp only at hs
    rw [hs]
    have hi' : i < (allSources t.vector 0 t.infos : List (Loc × (V → V))).length := by rw [hlen]; exact hi
    have hp := List.getElem?_eq_getElem hi'
    generalize (allSources t.vector 0 t.infos : List (Loc × (V → V)))[i] = p at hp
    have hk := run_written (flat (packs ts)) (noRace_packs h) (runOps (flat (recvs ts)) m)
      ⟨p.1, .pack t.rank i, p.2⟩ ((mem_packs h _).mpr ⟨t, ht, i, p, hp, rfl⟩)
    simp only at hk
    rw [hk, hp, run_other]
    · rfl
    · intro o ho
      obtain ⟨t', _, j, _, rfl⟩ := (mem_recvs ts o).mp ho
      have hq := allSources_qty _ _ _ p (List.mem_of_getElem? hp)
      intro e; simp only at e; rw [← e] at hq; exact hq
  · have hn : (allSources t.vector 0 t.infos : List (Loc × (V → V)))[i]? = none := by
      rw [List.getElem?_eq_none_iff, hlen]
      exact Nat.not_lt.mp hi
    rw [hn, run_other, run_other, run_other]
    · rfl
    · intro o ho; obtain ⟨t', _, j, _, rfl⟩ := (mem_recvs ts o).mp ho; simp
    · intro o ho; obtain ⟨t', _, j, p, _, rfl⟩ := (mem_packs h o).mp ho; simp
    · intro o ho
      obtain ⟨t', ht', j, hj, rfl⟩ := (mem_sends ts o).mp ho
      intro e
      have e1 : t'.rank = t.rank := by injection e
      have e2 : j = i := by injection e
      rw [rank_inj h ht' ht e1, e2] at hj
      exact hi hj

theorem seq_update {ts : List Trans} (h : Proper ts) {mid : List (Act Stream Loc V)} (um : UserOnly mid) (m : Loc → V)
    (l : Loc) (hl : IsQty l) : seq (wait ts) (seq mid (seq (start ts) m)) l = filled ts (seq mid m) l := by
  rw [seq_wait]
  unfold filled
  have hmid : ∀ m (l : Loc), ¬ IsQty l → seq mid m l = m l := fun m l hn =>
    seq_other mid m l fun s o hd e => hn (e ▸ (does_user um hd).2.2)
  cases hf : (received ts).find? fun p => p.1 = l with
  | some p =>
    have hpl : p.1 = l := by simpa using List.find?_some hf
    obtain ⟨t, ht, hp⟩ := List.mem_flatMap.mp (List.mem_of_find?_eq_some hf)
    obtain ⟨⟨l', i⟩, hq, rfl⟩ := List.mem_map.mp hp
    have hi := List.mem_zipIdx_iff_getElem?.mp hq
    simp only at hpl hi ⊢
    subst hpl
    have hx := run_written (flat (unpacks ts)) (noRace_unpacks h) (seq mid (seq (start ts) m))
      ⟨.unpack t.rank i, l', id⟩ ((mem_unpacks h _).mpr ⟨t, ht, i, l', hi, rfl⟩)
    simp only at hx
    have hlt : i < bufferSize t := by
      have := (List.getElem?_eq_some_iff.mp hi).1
      rw [h.sizes t ht] at this
      exact this
    rw [hx, hmid _ (.unpack t.rank i) (fun h => h), start_unpack h m ht hlt, hmid _ (.inbox t.rank i) (fun h => h)]
    rfl
  | none =>
    rw [run_other]
    · exact seq_congr mid IsQty (fun s o hd => (does_user um hd).2.1) _ _ (fun l hl => start_qty h m l hl) l hl
    · intro o ho e
      obtain ⟨t, ht, i, l', hi, rfl⟩ := (mem_unpacks h o).mp ho
      have := List.find?_eq_none.mp hf (l', .inbox t.rank i)
        (List.mem_flatMap.mpr ⟨t, ht, List.mem_map.mpr ⟨(l', i), List.mem_zipIdx_iff_getElem?.mpr hi, rfl⟩⟩)
      exact this (by simpa using e)

/-- Nothing of the update is in use after it. -/
theorem clean_update {ts : List Trans} {user mid : List (Act Stream Loc V)} (uu : UserOnly user) (um : UserOnly mid)
    (s : Stream) (hs : ∀ n, s ≠ .user n) :
    ¬ dirty (fun _ => False) (user ++ (start ts ++ (mid ++ wait ts))) s := by
  intro hd
  have e1 : (ts.map fun t => (Act.sync (.send t.rank) : Act Stream Loc V)) = (ts.map fun t => Stream.send t.rank).map Act.sync := by
    simp [Function.comp_def]
  have e2 : (ts.map fun t => (Act.sync (.recv t.rank) : Act Stream Loc V)) = (ts.map fun t => Stream.recv t.rank).map Act.sync := by
    simp [Function.comp_def]
  have e3 : (ts.flatMap fun t => (syncs t : List (Act Stream Loc V))) = (ts.flatMap streams).map Act.sync := by
    rw [List.map_flatMap]; exact List.flatMap_congr fun t _ => syncs_eq t
  -- what is launched is on streams that are synchronised at the end
  have hwait : ∀ k, Act.launch s k ∈ (wait ts : List (Act Stream Loc V)) → s ∈ ts.flatMap streams := by
    intro k hk
    unfold wait at hk
    rw [e1, e2, e3, launches_flatMap] at hk
    simp only [List.mem_append, List.mem_map] at hk
    rcases hk with ((⟨_, _, e⟩ | ⟨_, _, e⟩) | hk) | ⟨_, _, e⟩
    · cases e
    · cases e
    · obtain ⟨e, he, e'⟩ := List.mem_map.mp hk
      obtain ⟨t, ht, he⟩ := List.mem_flatMap.mp he
      obtain ⟨i, hi, e''⟩ := unpack_streams _ _ _ _ _ he
      injection e' with e1 _
      exact List.mem_flatMap.mpr ⟨t, ht, List.mem_map.mpr ⟨i, hi, by rw [← e1, e'']⟩⟩
    · cases e
  have hlast : s ∉ ts.flatMap streams := by
    intro hmem
    have hd' := hd
    unfold wait at hd'
    rw [e3] at hd'
    have := dirty_since (D := fun _ => False) (user ++ (start ts ++ (mid ++ ((ts.map fun t => Act.sync (.send t.rank)) ++
      (ts.map fun t => Act.sync (.recv t.rank)) ++ ts.flatMap fun t => launches (unpackLaunches t 0 0 t.infos)))))
      [] (ts.flatMap streams) s (by simpa [List.append_assoc] using hd') hmem
    obtain ⟨k, hk⟩ := this
    cases hk
  have hsend : s ∉ ts.map fun t => Stream.send t.rank := by
    intro hmem
    have hd' := hd
    unfold wait at hd'
    rw [e1] at hd'
    have := dirty_since (D := fun _ => False) (user ++ (start ts ++ mid))
      ((ts.map fun t => Act.sync (.recv t.rank)) ++ ((ts.flatMap fun t => launches (unpackLaunches t 0 0 t.infos)) ++
        ts.flatMap fun t => syncs t)) _ s (by simpa only [List.append_assoc] using hd') hmem
    obtain ⟨k, hk⟩ := this
    exact hlast (hwait k (by unfold wait; simp only [List.mem_append] at hk ⊢; tauto))
  have hrecv : s ∉ ts.map fun t => Stream.recv t.rank := by
    intro hmem
    have hd' := hd
    unfold wait at hd'
    rw [e2] at hd'
    have := dirty_since (D := fun _ => False) (user ++ (start ts ++ (mid ++ ts.map fun t => Act.sync (.send t.rank))))
      ((ts.flatMap fun t => launches (unpackLaunches t 0 0 t.infos)) ++ ts.flatMap fun t => syncs t) _ s
      (by simpa only [List.append_assoc] using hd') hmem
    obtain ⟨k, hk⟩ := this
    exact hlast (hwait k (by unfold wait; simp only [List.mem_append] at hk ⊢; tauto))
  have huser : ∀ p : List (Act Stream Loc V), UserOnly p → ∀ k, Act.launch s k ∉ p := by
    intro p hp k hk
    obtain ⟨⟨n, e⟩, _⟩ := hp _ hk
    exact hs n e
  rcases dirty_sub _ s hd with hd | ⟨k, hk⟩
  · exact hd
  · rcases List.mem_append.mp hk with hk | hk
    · exact huser _ uu k hk
    rcases List.mem_append.mp hk with hk | hk
    · unfold start at hk
      rw [launches_flatMap] at hk
      rcases List.mem_cons.mp hk with hk | hk
      · cases hk
      rcases List.mem_append.mp hk with hk | hk
      · rcases List.mem_append.mp hk with hk | hk
        · obtain ⟨t, ht, hk⟩ := List.mem_flatMap.mp hk
          rcases List.mem_append.mp hk with hk | hk
          · obtain ⟨_, _, e⟩ := List.mem_map.mp hk; cases e
          · simp only [launches, List.map_cons, List.map_nil, List.mem_singleton] at hk
            injection hk with e _
            exact hrecv (List.mem_map.mpr ⟨t, ht, e.symm⟩)
        · obtain ⟨e, he, e'⟩ := List.mem_map.mp hk
          obtain ⟨t, ht, he⟩ := List.mem_flatMap.mp he
          obtain ⟨i, hi, e''⟩ := pack_streams _ _ _ _ _ he
          injection e' with e1 _
          exact hlast (List.mem_flatMap.mpr ⟨t, ht, List.mem_map.mpr ⟨i, hi, by rw [← e1, e'']⟩⟩)
      · obtain ⟨t, ht, hk⟩ := List.mem_flatMap.mp hk
        rcases List.mem_append.mp hk with hk | hk
        · obtain ⟨_, _, e⟩ := List.mem_map.mp hk; cases e
        · simp only [launches, List.map_cons, List.map_nil, List.mem_singleton] at hk
          injection hk with e _
          exact hsend (List.mem_map.mpr ⟨t, ht, e.symm⟩)
    rcases List.mem_append.mp hk with hk | hk
    · exact huser _ um k hk
    · exact hlast (hwait k hk)

end NDSL.Streams
