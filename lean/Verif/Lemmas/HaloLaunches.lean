import Verif.Lemmas.HaloStreams
import Mathlib.Data.List.Nodup
/-
The launches of a halo update: what they read and write, that they never conflict, and what they give.
-/
namespace NDSL.Streams
variable {V : Type} [Neg V]

/-! ### What the kernels read and write -/

def allSources (vector : Bool) : Nat → List Info → List (Loc × (V → V))
  | _, [] => []
  | k, i :: r => sources vector k i ++ allSources vector (k + 1) r

def allTargets (vector : Bool) : Nat → List Info → List Loc
  | _, [] => []
  | k, i :: r => targets vector k i ++ allTargets vector (k + 1) r

theorem sources_length (vector : Bool) (k : Nat) (info : Info) (h : info.rotate < 4) :
    (sources vector k info : List (Loc × (V → V))).length = sendSize vector info := by
  unfold sources sendSize
  cases vector with
  | false => simp
  | true =>
    have : info.rotate = 0 ∨ info.rotate = 1 ∨ info.rotate = 2 ∨ info.rotate = 3 := by omega
    rcases this with e | e | e | e <;> simp [e] <;> omega

theorem targets_length (vector : Bool) (k : Nat) (info : Info) : (targets vector k info).length = recvSize vector info := by
  unfold targets recvSize
  cases vector <;> simp

theorem allSources_length (vector : Bool) (k : Nat) (infos : List Info) (h : ∀ i ∈ infos, i.rotate < 4) :
    (allSources vector k infos : List (Loc × (V → V))).length = (infos.map (sendSize vector)).sum := by
  induction infos generalizing k with
  | nil => rfl
  | cons i r ih =>
    simp only [allSources, List.length_append, List.map_cons, List.sum_cons]
    rw [sources_length _ _ _ (h i List.mem_cons_self), ih _ fun j hj => h j (List.mem_cons_of_mem _ hj)]

theorem packKernel_append (t off : Nat) (a b : List (Loc × (V → V))) :
    packKernel t off (a ++ b) = packKernel t off a ++ packKernel t (off + a.length) b := by
  unfold packKernel
  rw [List.zipIdx_append, List.map_append]
  congr 1
  rw [List.zipIdx_eq_map_add, List.map_map]
  apply List.map_congr_left
  intro p _
  simp [Nat.add_assoc, Nat.add_comm p.2]

theorem unpackKernel_append (t off : Nat) (a b : List Loc) :
    (unpackKernel t off (a ++ b) : Kernel Loc V) = unpackKernel t off a ++ unpackKernel t (off + a.length) b := by
  unfold unpackKernel
  rw [List.zipIdx_append, List.map_append]
  congr 1
  rw [List.zipIdx_eq_map_add, List.map_map]
  apply List.map_congr_left
  intro p _
  simp [Nat.add_assoc, Nat.add_comm p.2]

theorem flat_pack (t : Trans) (hs : t.supported = true) (k off : Nat) (infos : List Info) (h : ∀ i ∈ infos, i.rotate < 4) :
    flat (packLaunches t k off infos : List (Stream × Kernel Loc V)) = packKernel t.rank off (allSources t.vector k infos) := by
  induction infos generalizing k off with
  | nil => rfl
  | cons i r ih =>
    have ih' := ih (k + 1) (off + sendSize t.vector i) fun j hj => h j (List.mem_cons_of_mem _ hj)
    simp only [packLaunches, hs, if_true, allSources]
    rw [packKernel_append, sources_length _ _ _ (h i List.mem_cons_self), ← ih']
    rfl

theorem flat_unpack (t : Trans) (hs : t.supported = true) (k off : Nat) (infos : List Info) :
    flat (unpackLaunches t k off infos : List (Stream × Kernel Loc V)) = unpackKernel t.rank off (allTargets t.vector k infos) := by
  induction infos generalizing k off with
  | nil => rfl
  | cons i r ih =>
    have ih' := ih (k + 1) (off + recvSize t.vector i)
    simp only [unpackLaunches, hs, if_true, allTargets]
    rw [unpackKernel_append, targets_length, ← ih']
    rfl

theorem pack_streams (t : Trans) (k off : Nat) (infos : List Info) (e : Stream × Kernel Loc V)
    (h : e ∈ packLaunches t k off infos) : ∃ i ∈ infos, e.1 = .cuda i.stream := by
  induction infos generalizing k off with
  | nil => cases h
  | cons i r ih =>
    rcases List.mem_append.mp h with h | h
    · split at h
      · rw [List.mem_singleton] at h; subst h; exact ⟨i, List.mem_cons_self, rfl⟩
      · cases h
    · obtain ⟨j, hj, e⟩ := ih _ _ h
      exact ⟨j, List.mem_cons_of_mem _ hj, e⟩

theorem unpack_streams (t : Trans) (k off : Nat) (infos : List Info) (e : Stream × Kernel Loc V)
    (h : e ∈ unpackLaunches t k off infos) : ∃ i ∈ infos, e.1 = .cuda i.stream := by
  induction infos generalizing k off with
  | nil => cases h
  | cons i r ih =>
    rcases List.mem_append.mp h with h | h
    · split at h
      · rw [List.mem_singleton] at h; subst h; exact ⟨i, List.mem_cons_self, rfl⟩
      · cases h
    · obtain ⟨j, hj, e⟩ := ih _ _ h
      exact ⟨j, List.mem_cons_of_mem _ hj, e⟩

theorem sources_qty (vector : Bool) (k : Nat) (info : Info) : ∀ p ∈ (sources vector k info : List (Loc × (V → V))), IsQty p.1 := by
  intro p hp
  unfold sources at hp
  cases vector with
  | false =>
    simp only [Bool.false_eq_true, if_false, List.mem_map] at hp
    obtain ⟨i, _, rfl⟩ := hp; trivial
  | true =>
    simp only [if_true] at hp
    split at hp <;> simp only [List.mem_append, List.mem_map, List.not_mem_nil] at hp <;>
      first
      | exact hp.elim
      | (rcases hp with ⟨i, _, rfl⟩ | ⟨i, _, rfl⟩ <;> trivial)

theorem allSources_qty (vector : Bool) (k : Nat) (infos : List Info) :
    ∀ p ∈ (allSources vector k infos : List (Loc × (V → V))), IsQty p.1 := by
  induction infos generalizing k with
  | nil => intro p hp; cases hp
  | cons i r ih =>
    intro p hp
    rcases List.mem_append.mp hp with hp | hp
    · exact sources_qty _ _ _ p hp
    · exact ih _ p hp

/-! ### The specification -/

theorem contribution_eq (hneg : ∀ v : V, - -v = v) (m : Loc → V) (vector : Bool) (k : Nat) (info : Info) (h : info.rotate < 4) :
    contribution m vector k info = (sources vector k info).map fun p => p.2 (m p.1) := by
  unfold contribution sources
  cases vector with
  | false => simp
  | true =>
    have : info.rotate = 0 ∨ info.rotate = 1 ∨ info.rotate = 2 ∨ info.rotate = 3 := by omega
    rcases this with e | e | e | e <;>
      simp [e, turned, turn, hneg, Function.comp_def]

theorem message_eq (hneg : ∀ v : V, - -v = v) (m : Loc → V) (t : Trans) (h : ∀ i ∈ t.infos, i.rotate < 4) :
    message m t = (allSources t.vector 0 t.infos).map fun p => p.2 (m p.1) := by
  unfold message
  generalize 0 = k
  generalize t.infos = l at h ⊢
  induction l generalizing k with
  | nil => rfl
  | cons i r ih =>
    simp only [List.zipIdx_cons, List.flatMap_cons, allSources, List.map_append]
    rw [ih _ (fun j hj => h j (List.mem_cons_of_mem _ hj)), contribution_eq hneg _ _ _ _ (h i List.mem_cons_self)]

omit [Neg V] in
theorem halo_eq (t : Trans) : halo t = allTargets t.vector 0 t.infos := by
  unfold halo
  generalize 0 = k
  generalize t.infos = l
  induction l generalizing k with
  | nil => rfl
  | cons i r ih =>
    simp only [List.zipIdx_cons, List.flatMap_cons, allTargets]
    rw [ih]
    rfl

omit [Neg V] in
theorem halo_qty (t : Trans) : ∀ l ∈ halo t, IsQty l := by
  intro l hl
  obtain ⟨p, _, hl⟩ := List.mem_flatMap.mp hl
  rcases List.mem_append.mp hl with hl | hl
  · obtain ⟨i, _, rfl⟩ := List.mem_map.mp hl; trivial
  · split at hl
    · obtain ⟨i, _, rfl⟩ := List.mem_map.mp hl; trivial
    · cases hl

/-! ### All threads of a phase -/

def recvs (ts : List Trans) : List (Stream × Kernel Loc V) := ts.map fun t => (.recv t.rank, recvKernel t)
def sends (ts : List Trans) : List (Stream × Kernel Loc V) := ts.map fun t => (.send t.rank, sendKernel t)
def packs (ts : List Trans) : List (Stream × Kernel Loc V) := ts.flatMap fun t => packLaunches t 0 0 t.infos
def unpacks (ts : List Trans) : List (Stream × Kernel Loc V) := ts.flatMap fun t => unpackLaunches t 0 0 t.infos

omit [Neg V] in
theorem nodup_tagged (g : Nat → Nat → Loc) (hg : ∀ a b c d, g a b = g c d → a = c ∧ b = d) (ts : List Trans)
    (h : (ts.map fun t => t.rank).Nodup) (n : Trans → Nat) :
    (ts.flatMap fun t => (List.range (n t)).map (g t.rank)).Nodup := by
  induction ts with
  | nil => exact .nil
  | cons t ts ih =>
    rw [List.map_cons, List.nodup_cons] at h
    rw [List.flatMap_cons, List.nodup_append']
    refine ⟨?_, ih h.2, ?_⟩
    · exact List.Nodup.map (fun a b e => (hg _ _ _ _ e).2) List.nodup_range
    · intro l hl hl'
      obtain ⟨i, _, rfl⟩ := List.mem_map.mp hl
      obtain ⟨t', ht', hl'⟩ := List.mem_flatMap.mp hl'
      obtain ⟨j, _, e⟩ := List.mem_map.mp hl'
      exact h.1 (List.mem_map.mpr ⟨t', ht', (hg _ _ _ _ e).1⟩)

theorem mem_recvs (ts : List Trans) (o : Op Loc V) :
    o ∈ flat (recvs ts) ↔ ∃ t ∈ ts, ∃ i < bufferSize t, o = ⟨.inbox t.rank i, .unpack t.rank i, id⟩ := by
  simp only [flat, recvs, recvKernel, List.mem_flatMap, List.mem_map, List.mem_range]
  constructor
  · rintro ⟨e, ⟨t, ht, rfl⟩, ho⟩
    obtain ⟨i, hi, rfl⟩ := List.mem_map.mp ho
    exact ⟨t, ht, i, List.mem_range.mp hi, rfl⟩
  · rintro ⟨t, ht, i, hi, rfl⟩
    exact ⟨_, ⟨t, ht, rfl⟩, List.mem_map.mpr ⟨i, List.mem_range.mpr hi, rfl⟩⟩

theorem mem_sends (ts : List Trans) (o : Op Loc V) :
    o ∈ flat (sends ts) ↔ ∃ t ∈ ts, ∃ i < bufferSize t, o = ⟨.pack t.rank i, .outbox t.rank i, id⟩ := by
  simp only [flat, sends, sendKernel, List.mem_flatMap, List.mem_map, List.mem_range]
  constructor
  · rintro ⟨e, ⟨t, ht, rfl⟩, ho⟩
    obtain ⟨i, hi, rfl⟩ := List.mem_map.mp ho
    exact ⟨t, ht, i, List.mem_range.mp hi, rfl⟩
  · rintro ⟨t, ht, i, hi, rfl⟩
    exact ⟨_, ⟨t, ht, rfl⟩, List.mem_map.mpr ⟨i, List.mem_range.mpr hi, rfl⟩⟩

theorem mem_packKernel (t off : Nat) (src : List (Loc × (V → V))) (o : Op Loc V) :
    o ∈ packKernel t off src ↔ ∃ i p, src[i]? = some p ∧ o = ⟨p.1, .pack t (off + i), p.2⟩ := by
  unfold packKernel
  rw [List.mem_map]
  constructor
  · rintro ⟨⟨p, i⟩, hp, rfl⟩; exact ⟨i, p, List.mem_zipIdx_iff_getElem?.mp hp, rfl⟩
  · rintro ⟨i, p, hp, rfl⟩; exact ⟨(p, i), List.mem_zipIdx_iff_getElem?.mpr hp, rfl⟩

theorem mem_unpackKernel (t off : Nat) (dst : List Loc) (o : Op Loc V) :
    o ∈ unpackKernel t off dst ↔ ∃ i l, dst[i]? = some l ∧ o = ⟨.unpack t (off + i), l, id⟩ := by
  unfold unpackKernel
  rw [List.mem_map]
  constructor
  · rintro ⟨⟨p, i⟩, hp, rfl⟩; exact ⟨i, p, List.mem_zipIdx_iff_getElem?.mp hp, rfl⟩
  · rintro ⟨i, p, hp, rfl⟩; exact ⟨(p, i), List.mem_zipIdx_iff_getElem?.mpr hp, rfl⟩

omit [Neg V] in
theorem flat_flatMap {α : Type} (ts : List α) (f : α → List (Stream × Kernel Loc V)) :
    flat (ts.flatMap f) = ts.flatMap fun t => flat (f t) := by
  unfold flat
  rw [List.flatMap_assoc]

theorem flat_packs {ts : List Trans} (h : Proper ts) :
    (flat (packs ts) : List (Op Loc V)) = ts.flatMap fun t => packKernel t.rank 0 (allSources t.vector 0 t.infos) := by
  unfold packs
  rw [flat_flatMap]
  apply List.flatMap_congr
  intro t ht
  exact flat_pack t (h.supported t ht) 0 0 t.infos (h.turns t ht)

theorem flat_unpacks {ts : List Trans} (h : Proper ts) :
    (flat (unpacks ts) : List (Op Loc V)) = ts.flatMap fun t => unpackKernel t.rank 0 (halo t) := by
  unfold unpacks
  rw [flat_flatMap]
  apply List.flatMap_congr
  intro t ht
  rw [flat_unpack t (h.supported t ht) 0 0 t.infos, halo_eq]

theorem mem_packs {ts : List Trans} (h : Proper ts) (o : Op Loc V) :
    o ∈ flat (packs ts) ↔
      ∃ t ∈ ts, ∃ i p, (allSources t.vector 0 t.infos)[i]? = some p ∧ o = ⟨p.1, .pack t.rank i, p.2⟩ := by
  rw [flat_packs h, List.mem_flatMap]
  constructor
  · rintro ⟨t, ht, ho⟩
    obtain ⟨i, p, hp, rfl⟩ := (mem_packKernel _ _ _ _).mp ho
    exact ⟨t, ht, i, p, hp, by rw [Nat.zero_add]⟩
  · rintro ⟨t, ht, i, p, hp, rfl⟩
    exact ⟨t, ht, (mem_packKernel _ _ _ _).mpr ⟨i, p, hp, by rw [Nat.zero_add]⟩⟩

theorem mem_unpacks {ts : List Trans} (h : Proper ts) (o : Op Loc V) :
    o ∈ flat (unpacks ts) ↔ ∃ t ∈ ts, ∃ i l, (halo t)[i]? = some l ∧ o = ⟨.unpack t.rank i, l, id⟩ := by
  rw [flat_unpacks h, List.mem_flatMap]
  constructor
  · rintro ⟨t, ht, ho⟩
    obtain ⟨i, p, hp, rfl⟩ := (mem_unpackKernel _ _ _ _).mp ho
    exact ⟨t, ht, i, p, hp, by rw [Nat.zero_add]⟩
  · rintro ⟨t, ht, i, p, hp, rfl⟩
    exact ⟨t, ht, (mem_unpackKernel _ _ _ _).mpr ⟨i, p, hp, by rw [Nat.zero_add]⟩⟩

theorem noRace_recvs {ts : List Trans} (h : Proper ts) : NoRace (flat (recvs ts) : List (Op Loc V)) := by
  apply noRace_of
  · have := nodup_tagged Loc.unpack (fun _ _ _ _ e => by injection e; exact ⟨‹_›, ‹_›⟩) ts h.ranks bufferSize
    have e : ((flat (recvs ts) : List (Op Loc V)).map fun o => o.dst)
        = ts.flatMap fun t => (List.range (bufferSize t)).map (Loc.unpack t.rank) := by
      simp [flat, recvs, recvKernel, List.flatMap_map, List.map_flatMap, Function.comp_def]
    rw [e]; exact this
  · intro a ha b hb e
    obtain ⟨t, _, i, _, rfl⟩ := (mem_recvs ts a).mp ha
    obtain ⟨t', _, j, _, rfl⟩ := (mem_recvs ts b).mp hb
    cases e

theorem noRace_sends {ts : List Trans} (h : Proper ts) : NoRace (flat (sends ts) : List (Op Loc V)) := by
  apply noRace_of
  · have := nodup_tagged Loc.outbox (fun _ _ _ _ e => by injection e; exact ⟨‹_›, ‹_›⟩) ts h.ranks bufferSize
    have e : ((flat (sends ts) : List (Op Loc V)).map fun o => o.dst)
        = ts.flatMap fun t => (List.range (bufferSize t)).map (Loc.outbox t.rank) := by
      simp [flat, sends, sendKernel, List.flatMap_map, List.map_flatMap, Function.comp_def]
    rw [e]; exact this
  · intro a ha b hb e
    obtain ⟨t, _, i, _, rfl⟩ := (mem_sends ts a).mp ha
    obtain ⟨t', _, j, _, rfl⟩ := (mem_sends ts b).mp hb
    cases e

theorem noRace_packs {ts : List Trans} (h : Proper ts) : NoRace (flat (packs ts) : List (Op Loc V)) := by
  apply noRace_of
  · have := nodup_tagged Loc.pack (fun _ _ _ _ e => by injection e; exact ⟨‹_›, ‹_›⟩) ts h.ranks
      fun t => (allSources t.vector 0 t.infos : List (Loc × (V → V))).length
    have e : ((flat (packs ts) : List (Op Loc V)).map fun o => o.dst)
        = ts.flatMap fun t => (List.range (allSources t.vector 0 t.infos : List (Loc × (V → V))).length).map (Loc.pack t.rank) := by
      rw [flat_packs h, List.map_flatMap]
      apply List.flatMap_congr
      intro t _
      unfold packKernel
      rw [List.range_eq_range', ← List.zipIdx_map_snd, List.map_map, List.map_map]
      apply List.map_congr_left
      intro p _
      simp
    rw [e]; exact this
  · intro a ha b hb e
    obtain ⟨t, _, i, p, _, rfl⟩ := (mem_packs h a).mp ha
    obtain ⟨t', _, j, q, hq, rfl⟩ := (mem_packs h b).mp hb
    have := allSources_qty _ _ _ q (List.mem_of_getElem? hq)
    simp only at e
    rw [← e] at this
    exact this

theorem noRace_unpacks {ts : List Trans} (h : Proper ts) : NoRace (flat (unpacks ts) : List (Op Loc V)) := by
  apply noRace_of
  · have e : ((flat (unpacks ts) : List (Op Loc V)).map fun o => o.dst) = ts.flatMap halo := by
      rw [flat_unpacks h, List.map_flatMap]
      apply List.flatMap_congr
      intro t _
      unfold unpackKernel
      rw [List.map_map]
      exact List.zipIdx_map_fst 0 (halo t)
    rw [e]; exact h.once
  · intro a ha b hb e
    obtain ⟨t, _, i, p, hp, rfl⟩ := (mem_unpacks h a).mp ha
    obtain ⟨t', _, j, q, _, rfl⟩ := (mem_unpacks h b).mp hb
    have := halo_qty t p (List.mem_of_getElem? hp)
    simp only at e
    rw [e] at this
    exact this

end NDSL.Streams
