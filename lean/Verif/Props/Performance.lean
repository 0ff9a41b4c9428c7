import Verif.Spec.Performance
import Verif.Props.Timer
import Verif.Props.Snapshots
import Mathlib.Tactic.FieldSimp
import Mathlib.Tactic.NormNum
import Mathlib.Algebra.Field.Rat

/-! Property C74: the performance report. -/
namespace NDSL.Perf
open Timing

variable {T : Type}

/-! ### The sorted names -/

theorem mem_insertKey (k x : String) (l : List String) : x ∈ insertKey k l ↔ x = k ∨ x ∈ l := by
  induction l with
  | nil => simp [insertKey]
  | cons y ys ih =>
    unfold insertKey
    by_cases h1 : k < y
    · rw [if_pos h1]; simp
    · rw [if_neg h1]
      by_cases h2 : y < k
      · rw [if_pos h2]; simp only [List.mem_cons, ih]; grind
      · rw [if_neg h2]
        have : k = y := String.le_antisymm (Std.not_lt.mp h2) (Std.not_lt.mp h1)
        subst this; simp

theorem sorted_insertKey (k : String) (l : List String) (h : l.Pairwise (· < ·)) :
    (insertKey k l).Pairwise (· < ·) := by
  induction l with
  | nil => simp [insertKey]
  | cons y ys ih =>
    rw [List.pairwise_cons] at h
    unfold insertKey
    by_cases h1 : k < y
    · rw [if_pos h1, List.pairwise_cons]
      refine ⟨fun z hz => ?_, List.pairwise_cons.mpr h⟩
      rcases List.mem_cons.mp hz with rfl | hz
      · exact h1
      · exact String.lt_trans h1 (h.1 z hz)
    · rw [if_neg h1]
      by_cases h2 : y < k
      · rw [if_pos h2, List.pairwise_cons]
        refine ⟨fun z hz => ?_, ih h.2⟩
        rcases (mem_insertKey k z ys).mp hz with rfl | hz
        · exact h2
        · exact h.1 z hz
      · rw [if_neg h2]; exact List.pairwise_cons.mpr h

theorem foldl_insertKey (names acc : List String) :
    (∀ x, x ∈ names.foldl (fun ks k => insertKey k ks) acc ↔ x ∈ names ∨ x ∈ acc) ∧
    (acc.Pairwise (· < ·) → (names.foldl (fun ks k => insertKey k ks) acc).Pairwise (· < ·)) := by
  induction names generalizing acc with
  | nil => simp
  | cons k names ih =>
    rw [List.foldl_cons]
    refine ⟨fun x => ?_, fun h => (ih _).2 (sorted_insertKey k acc h)⟩
    rw [(ih _).1 x, mem_insertKey, List.mem_cons]; tauto

theorem sorted_ext (a b : List String) (ha : a.Pairwise (· < ·)) (hb : b.Pairwise (· < ·))
    (h : ∀ x, x ∈ a ↔ x ∈ b) : a = b := by
  induction a generalizing b with
  | nil =>
    cases b with
    | nil => rfl
    | cons y ys => exact absurd ((h y).mpr List.mem_cons_self) (by simp)
  | cons x xs ih =>
    cases b with
    | nil => exact absurd ((h x).mp List.mem_cons_self) (by simp)
    | cons y ys =>
      rw [List.pairwise_cons] at ha hb
      have hxy : x = y := by
        rcases List.mem_cons.mp ((h x).mp List.mem_cons_self) with e | hx
        · exact e
        · rcases List.mem_cons.mp ((h y).mpr List.mem_cons_self) with e | hy
          · exact e.symm
          · exact absurd (String.lt_trans (ha.1 y hy) (hb.1 x hx)) (String.lt_irrefl x)
      subst hxy
      rw [ih ys ha.2 hb.2]
      intro z
      constructor
      · intro hz
        rcases List.mem_cons.mp ((h z).mp (List.mem_cons_of_mem _ hz)) with e | hz'
        · subst e; exact absurd (ha.1 z hz) (String.lt_irrefl z)
        · exact hz'
      · intro hz
        rcases List.mem_cons.mp ((h z).mpr (List.mem_cons_of_mem _ hz)) with e | hz'
        · subst e; exact absurd (hb.1 z hz) (String.lt_irrefl z)
        · exact hz'

theorem isSome_iff_mem {V : Type} (d : List (String × V)) (n : String) :
    (dictGet d n).isSome ↔ n ∈ d.map (·.1) := by
  unfold dictGet
  simp only [Option.isSome_map, List.find?_isSome, List.mem_map, beq_iff_eq]

theorem mem_collectKeys (times : List (List (String × T))) (n : String) :
    n ∈ collectKeys times ↔ dataOf times n ≠ [] := by
  unfold collectKeys dataOf
  rw [(foldl_insertKey _ []).1 n]
  simp only [List.not_mem_nil, or_false, List.mem_flatMap, ne_eq, List.filterMap_eq_nil_iff, not_forall]
  constructor
  · rintro ⟨d, hd, hn⟩
    have := (isSome_iff_mem d n).mpr hn
    exact ⟨d, hd, by intro h0; rw [h0] at this; simp at this⟩
  · rintro ⟨d, hd, hn⟩
    exact ⟨d, hd, (isSome_iff_mem d n).mp (by
      cases h0 : dictGet d n with
      | none => exact absurd h0 hn
      | some _ => rfl)⟩

theorem sorted_collectKeys (times : List (List (String × T))) :
    (collectKeys times).Pairwise (· < ·) := (foldl_insertKey _ []).2 List.Pairwise.nil

/-! ### What a collector holds -/

/-- The two dictionaries of a step show what was measured. -/
structure Shows [Add T] (t : List (String × T)) (g : List (String × Nat)) (d : String → List T) : Prop where
  times : ∀ n, dictGet t n = Timing.total (d n)
  hits : ∀ n, dictGet g n = if (d n).length = 0 then none else some (d n).length
  nodup : (g.map (·.1)).Nodup

variable [Add T] [Sub T]

theorem step_nodup (τ : Timer T) (o : Timing.Op T) (h : (τ.hits.map (·.1)).Nodup) :
    ((τ.step o).1.hits.map (·.1)).Nodup := by
  cases o with
  | start n t =>
    show ((τ.start n t).1.hits.map (·.1)).Nodup
    unfold Timer.start
    split
    · exact h
    · split <;> exact h
  | stop n t =>
    show ((τ.stop n t).1.hits.map (·.1)).Nodup
    unfold Timer.stop
    split
    · exact h
    · split
      · exact h
      · show (List.map Prod.fst (match dictGet τ.hits n with
          | none => dictSet τ.hits n 1
          | some x => dictSet τ.hits n (x + 1))).Nodup
        split <;> exact Snap.nodup_dictSet _ _ _ h
  | reset => exact List.nodup_nil
  | enable => exact h
  | disable =>
    show ((τ.disable).1.hits.map (·.1)).Nodup
    unfold Timer.disable
    split <;> exact h

theorem run_nodup (τ : Timer T) (ops : List (Timing.Op T)) (h : (τ.hits.map (·.1)).Nodup) :
    ((τ.run ops).hits.map (·.1)).Nodup := by
  induction ops generalizing τ with
  | nil => exact h
  | cons o ops ih => exact ih _ (step_nodup τ o h)

theorem shows_of_measured (ops : List (Timing.Op T)) (d : String → List T) (h : Measured ops d) :
    Shows ((Timer.new true).run ops).times ((Timer.new true).run ops).hits d := by
  obtain ⟨log, b, hl, hd⟩ := h
  have k := run_agrees true ops log b hl
  refine ⟨fun n => ?_, fun n => ?_, run_nodup _ _ List.nodup_nil⟩
  · rw [k.times n, hd]
  · rw [k.hits n, hd]

/-- The collector after a history, in terms of the histories of its timers. -/
theorem run_state (h : List (Op T)) (past tot : List (Timing.Op T)) (acc : List (List (Timing.Op T)))
    (c : Coll T)
    (hs : c.stepTimer = (Timer.new true).run past) (ht : c.totalTimer = (Timer.new true).run tot)
    (htm : c.times = acc.map fun p => ((Timer.new true).run p).times)
    (hht : c.hits = acc.map fun p => ((Timer.new true).run p).hits) :
    (c.run h).times = (stepHistories past acc h).map (fun p => ((Timer.new true).run p).times) ∧
    (c.run h).hits = (stepHistories past acc h).map (fun p => ((Timer.new true).run p).hits) ∧
    (c.run h).totalTimer = (Timer.new true).run (tot ++ totalHistory h) := by
  induction h generalizing past tot acc c with
  | nil => exact ⟨htm, hht, by rw [show c.run [] = c from rfl, ht]; simp [totalHistory]⟩
  | cons o h ih =>
    rw [show c.run (o :: h) = (c.op o).run h from rfl]
    have hsnoc : ∀ (q : List (Timing.Op T)) (x : Timing.Op T), (Timer.new true : Timer T).run (q ++ [x]) =
        (((Timer.new true : Timer T).run q).step x).1 := by
      intro q x; unfold Timer.run; rw [List.foldl_append]; rfl
    cases o with
    | step x =>
      exact ih (past ++ [x]) tot acc _ (by rw [hsnoc, ← hs]; rfl) ht htm hht
    | total x =>
      have := ih past (tot ++ [x]) acc (c.op (.total x)) hs (by rw [hsnoc, ← ht]; rfl) htm hht
      rw [List.append_assoc] at this
      exact this
    | collect =>
      refine ih (past ++ [.reset]) tot (acc ++ [past]) (c.op .collect) (by rw [hsnoc, ← hs]; rfl) ht ?_ ?_
      · rw [List.map_append, ← htm, List.map_singleton, ← hs]; rfl
      · rw [List.map_append, ← hht, List.map_singleton, ← hs]; rfl
    | clear => exact ih past tot [] _ hs ht rfl rfl

/-! ### Times and hits of a list of steps -/

/-- The dictionaries of all steps show what was measured. -/
def AllShow (times : List (List (String × T))) (hits : List (List (String × Nat)))
    (D : List (String → List T)) : Prop :=
  ∃ ps : List (List (Timing.Op T)), List.Forall₂ Measured ps D ∧
    times = ps.map (fun p => ((Timer.new true).run p).times) ∧
    hits = ps.map (fun p => ((Timer.new true).run p).hits)

theorem dataOf_show {times : List (List (String × T))} {hits : List (List (String × Nat))}
    {D : List (String → List T)} (h : AllShow times hits D) (n : String) :
    dataOf times n = timesOf D n := by
  obtain ⟨ps, hps, rfl, -⟩ := h
  unfold dataOf timesOf
  induction hps with
  | nil => rfl
  | @cons p d ps D hp _ ih =>
    rw [List.map_cons, List.filterMap_cons, List.filterMap_cons, ih, (shows_of_measured p d hp).times n]

theorem timesOf_ne_nil (D : List (String → List T)) (n : String) : timesOf D n ≠ [] ↔ Timed D n := by
  unfold timesOf Timed
  simp only [ne_eq, List.filterMap_eq_nil_iff, not_forall]
  constructor
  · rintro ⟨d, hd, hn⟩
    exact ⟨d, hd, fun e => hn (by rw [e]; rfl)⟩
  · rintro ⟨d, hd, hn⟩
    refine ⟨d, hd, ?_⟩
    cases he : d n with
    | nil => exact absurd he hn
    | cons x l => simp [Timing.total]

/-- The sum of the values of a name in a list of entries. -/
def sumOf (l : List (String × Nat)) (n : String) : Nat :=
  ((l.filter fun e => e.1 == n).map (·.2)).sum

theorem sumOf_append (a b : List (String × Nat)) (n : String) :
    sumOf (a ++ b) n = sumOf a n + sumOf b n := by
  unfold sumOf; rw [List.filter_append, List.map_append, List.sum_append]

theorem sumOf_dict (g : List (String × Nat)) (h : (g.map (·.1)).Nodup) (n : String) :
    sumOf g n = (dictGet g n).getD 0 := by
  induction g with
  | nil => rfl
  | cons e g ih =>
    rw [List.map_cons, List.nodup_cons] at h
    unfold sumOf dictGet at *
    rw [List.filter_cons, List.find?_cons]
    by_cases he : e.1 == n
    · simp only [he, if_true]
      have hnone : g.filter (fun e => e.1 == n) = [] := by
        rw [List.filter_eq_nil_iff]
        intro x hx hxe
        refine h.1 ?_
        rw [beq_iff_eq.mp he, ← beq_iff_eq.mp hxe]
        exact List.mem_map_of_mem hx
      rw [hnone]; simp
    · simp only [he]
      exact ih h.2

theorem hits_show {times : List (List (String × T))} {hits : List (List (String × Nat))}
    {D : List (String → List T)} (h : AllShow times hits D) (n : String) :
    sumOf (hits.filter fun d => !d.isEmpty).flatten n = hitsOf D n := by
  obtain ⟨ps, hps, -, rfl⟩ := h
  unfold hitsOf
  induction hps with
  | nil => rfl
  | @cons p d ps D hp _ ih =>
    rw [List.map_cons, List.map_cons, List.sum_cons, List.filter_cons]
    have hs := shows_of_measured p d hp
    have h1 : sumOf ((Timer.new true).run p).hits n = (d n).length := by
      rw [sumOf_dict _ hs.nodup, hs.hits n]
      by_cases h0 : (d n).length = 0
      · rw [if_pos h0]; exact h0.symm
      · rw [if_neg h0]; rfl
    by_cases he : (!((Timer.new true).run p).hits.isEmpty) = true
    · rw [if_pos he, List.flatten_cons, sumOf_append, ih, h1]
    · rw [if_neg he, ih]
      have : ((Timer.new true).run p).hits = [] := by simpa using he
      rw [this] at h1
      rw [← h1]; simp [sumOf]

theorem hits_names {times : List (List (String × T))} {hits : List (List (String × Nat))}
    {D : List (String → List T)} (h : AllShow times hits D) (e : String × Nat)
    (he : e ∈ (hits.filter fun d => !d.isEmpty).flatten) : e.1 ∈ collectKeys times := by
  rw [mem_collectKeys, dataOf_show h, timesOf_ne_nil]
  obtain ⟨ps, hps, -, rfl⟩ := h
  rw [List.mem_flatten] at he
  obtain ⟨g, hg, heg⟩ := he
  replace hg := List.mem_of_mem_filter hg
  induction hps with
  | nil => simp at hg
  | @cons p d ps D hp _ ih =>
    rcases List.mem_cons.mp hg with rfl | hg
    · refine ⟨d, List.mem_cons_self, fun h0 => ?_⟩
      have hs := (shows_of_measured p d hp).hits e.1
      rw [h0, List.length_nil, if_pos rfl] at hs
      have := (isSome_iff_mem _ e.1).mpr (List.mem_map_of_mem (f := (·.1)) heg)
      rw [hs] at this
      cases this
    · obtain ⟨d', hd', hn⟩ := ih hg
      exact ⟨d', List.mem_cons_of_mem _ hd', hn⟩

theorem active_show {times : List (List (String × T))} {hits : List (List (String × Nat))}
    {D : List (String → List T)} (h : AllShow times hits D) :
    ActiveSteps D (hits.filter fun d => !d.isEmpty).length := by
  obtain ⟨ps, hps, -, rfl⟩ := h
  refine ⟨ps.map fun p => !((Timer.new true).run p).hits.isEmpty, ?_, ?_⟩
  · induction hps with
    | nil => exact .nil
    | @cons p d ps D hp _ ih =>
      refine .cons ?_ ih
      have hs := (shows_of_measured p d hp).hits
      constructor
      · intro hne
        replace hne : (!((Timer.new true).run p).hits.isEmpty) = true := hne
        cases hg : ((Timer.new true).run p).hits with
        | nil => rw [hg] at hne; simp at hne
        | cons e g =>
          refine ⟨e.1, fun h0 => ?_⟩
          have := hs e.1
          rw [h0, List.length_nil, if_pos rfl, hg] at this
          simp [dictGet] at this
      · rintro ⟨n, hn⟩
        show (!((Timer.new true).run p).hits.isEmpty) = true
        cases hg : ((Timer.new true).run p).hits with
        | nil =>
          have := hs n
          rw [hg, if_neg (by simpa using hn)] at this
          simp [dictGet] at this
        | cons e g => rfl
  · rw [List.count_eq_countP, List.countP_map, List.filter_map, List.length_map, List.countP_eq_length_filter]
    congr 2
    funext p
    simp

/-! ### Adding the hits -/

theorem dictSet_keys {V : Type} (d : List (String × V)) (k : String) (v : V) (h : k ∈ d.map (·.1)) :
    (dictSet d k v).map (·.1) = d.map (·.1) := by
  induction d with
  | nil => simp at h
  | cons e d ih =>
    unfold dictSet
    by_cases he : e.1 = k
    · rw [if_pos he]; simp [he]
    · rw [if_neg he, List.map_cons, List.map_cons, ih]
      rcases List.mem_cons.mp h with h | h
      · exact absurd h.symm he
      · exact h

theorem gatherHits_spec {D : Type} (l : List (String × Nat)) (info : List (String × TimeReport D))
    (hl : ∀ e ∈ l, e.1 ∈ info.map (·.1)) :
    ∃ info', l.foldlM addHits info = .ok info' ∧ info'.map (·.1) = info.map (·.1) ∧
      ∀ n, dictGet info' n =
        (dictGet info n).map fun r => { r with hits := r.hits + sumOf l n } := by
  induction l generalizing info with
  | nil =>
    refine ⟨info, rfl, rfl, fun n => ?_⟩
    cases dictGet info n <;> simp [sumOf]
  | cons e l ih =>
    have he := (isSome_iff_mem info e.1).mpr (hl e List.mem_cons_self)
    cases hg : dictGet info e.1 with
    | none => rw [hg] at he; cases he
    | some r =>
      have hkeys : (dictSet info e.1 { r with hits := r.hits + e.2 }).map (·.1) = info.map (·.1) := by
        exact dictSet_keys _ _ _ (hl e List.mem_cons_self)
      obtain ⟨info', h1, h2, h3⟩ := ih (dictSet info e.1 { r with hits := r.hits + e.2 })
        (fun x hx => by rw [hkeys]; exact hl x (List.mem_cons_of_mem _ hx))
      refine ⟨info', ?_, h2.trans hkeys, fun n => ?_⟩
      · rw [List.foldlM_cons]
        have : addHits info e = .ok (dictSet info e.1 { r with hits := r.hits + e.2 }) := by
          unfold addHits; rw [hg]
        rw [this]; exact h1
      · rw [h3 n, dictGet_set]
        by_cases hn : n = e.1
        · subst hn
          rw [if_pos rfl, hg]
          simp [sumOf, List.filter_cons, Nat.add_assoc]
        · rw [if_neg hn]
          have : (e.1 == n) = false := by simpa using fun x : e.1 = n => hn x.symm
          simp [sumOf, List.filter_cons, this]

theorem gatherHits_names {D : Type} (l : List (String × Nat)) (names : List String)
    (hsort : names.Pairwise (· < ·)) (f : String → D) (hl : ∀ e ∈ l, e.1 ∈ names) :
    ∃ info', l.foldlM addHits (names.map fun k => (k, TimeReport.mk 0 (f k))) = .ok info' ∧
      info'.map (·.1) = names ∧
      ∀ n, dictGet info' n = if n ∈ names then some ⟨sumOf l n, f n⟩ else none := by
  have hmap : (names.map fun k => (k, TimeReport.mk 0 (f k))).map (·.1) = names := by
    rw [List.map_map]; exact List.map_id' names
  obtain ⟨info', h1, h2, h3⟩ := gatherHits_spec l (names.map fun k => (k, TimeReport.mk 0 (f k)))
    (fun e he => by rw [hmap]; exact hl e he)
  refine ⟨info', h1, h2.trans hmap, fun n => ?_⟩
  rw [h3 n]
  have hget : dictGet (names.map fun k => (k, TimeReport.mk 0 (f k))) n =
      if n ∈ names then some (TimeReport.mk 0 (f n)) else none := by
    clear hl h1 h2 h3 hmap hsort
    unfold dictGet
    induction names with
    | nil => simp
    | cons k ks ih =>
      rw [List.map_cons, List.find?_cons]
      by_cases hk : k = n
      · subst hk; simp
      · have : ((k, TimeReport.mk 0 (f k)).1 == n) = false := by simpa using hk
        rw [this]
        simp only [List.mem_cons, Ne.symm hk, false_or]
        exact ih
  rw [hget]
  by_cases hn : n ∈ names
  · rw [if_pos hn, if_pos hn]; simp
  · rw [if_neg hn, if_neg hn]; rfl

/-! ### The reports -/

theorem allShow_run (h : List (Op T)) (D : List (String → List T)) (hD : Steps h D) :
    AllShow ((Coll.new : Coll T).run h).times ((Coll.new : Coll T).run h).hits D := by
  obtain ⟨h1, h2, -⟩ := run_state h [] [] [] (Coll.new : Coll T) rfl rfl rfl rfl
  exact ⟨_, hD, h1, h2⟩

theorem allShow_total (h : List (Op T)) (D : List (String → List T)) (hD : Steps h D)
    (d : String → List T) (hd : Measured (totalHistory h) d) :
    AllShow ((Coll.new : Coll T).run h).addTotal.times ((Coll.new : Coll T).run h).addTotal.hits
      (D ++ [d]) := by
  obtain ⟨h1, h2, h3⟩ := run_state h [] [] [] (Coll.new : Coll T) rfl rfl rfl rfl
  refine ⟨stepHistories [] [] h ++ [totalHistory h], ?_, ?_, ?_⟩
  · exact List.rel_append hD (.cons hd .nil)
  · rw [List.map_append, ← h1, List.map_singleton]
    unfold Coll.addTotal
    rw [h3]; rfl
  · rw [List.map_append, ← h2, List.map_singleton]
    unfold Coll.addTotal
    rw [h3]; rfl

/-- **C74** (a report always exists): every history measures something in its steps and in total. -/
theorem C74_measured (h : List (Op T)) : (∃ D, Steps h D) ∧ ∃ d, Measured (totalHistory h) d := by
  have hm : ∀ p : List (Timing.Op T), ∃ d, Measured p d := by
    intro p
    obtain ⟨log, b, hl⟩ := C55_log_exists true p
    exact ⟨fun n => durations n log, log, b, hl, fun _ => rfl⟩
  refine ⟨?_, hm _⟩
  unfold Steps
  generalize stepHistories [] [] h = ps
  induction ps with
  | nil => exact ⟨[], .nil⟩
  | cons p ps ih =>
    obtain ⟨D, hD⟩ := ih
    obtain ⟨d, hd⟩ := hm p
    exact ⟨d :: D, .cons hd hD⟩

/-- **C74** (one rank): after any history the report of rank 0 can be written. It has an entry for
exactly the names measured in some collected step, sorted by name: how often the name was measured,
and its total in each step in which it was, in the order of the steps. The number of time steps is one
less than the number of steps in which something was measured. -/
theorem C74_rank0 (h : List (Op T)) (D : List (String → List T)) (hD : Steps h D) :
    ∃ r, ((Coll.new : Coll T).run h).writeRank0 = .ok r ∧
      (r.info.map (·.1)).Pairwise (· < ·) ∧
      (∀ n, (Timed D n → dictGet r.info n = some ⟨hitsOf D n, timesOf D n⟩) ∧
        (¬ Timed D n → dictGet r.info n = none)) ∧
      ∃ k : Nat, ActiveSteps D k ∧ r.timesteps = k - 1 := by
  have hs := allShow_run h D hD
  generalize hc : ((Coll.new : Coll T).run h) = c at hs
  obtain ⟨info, h1, h2, h3⟩ := gatherHits_names (c.hits.filter fun d => !d.isEmpty).flatten
    (collectKeys c.times) (sorted_collectKeys _) (dataOf c.times) (fun e he => hits_names hs e he)
  refine ⟨⟨((c.hits.filter fun d => !d.isEmpty).length : Int) - 1, info⟩, ?_, ?_, ?_, ?_⟩
  · unfold Coll.writeRank0 gatherHits
    show (List.foldlM addHits _ (c.hits.filter fun d => !d.isEmpty).flatten >>= _) = _
    rw [show (List.foldlM addHits ((collectKeys c.dropEmpty.times).map fun k =>
      (k, TimeReport.mk 0 (dataOf c.dropEmpty.times k))) (c.hits.filter fun d => !d.isEmpty).flatten) = _
      from h1]
    rfl
  · show (info.map (·.1)).Pairwise (· < ·)
    rw [h2]; exact sorted_collectKeys _
  · intro n
    have hm : n ∈ collectKeys c.times ↔ Timed D n := by
      rw [mem_collectKeys, dataOf_show hs, timesOf_ne_nil]
    refine ⟨fun ht => ?_, fun ht => ?_⟩
    · show dictGet info n = _
      rw [h3 n, if_pos (hm.mpr ht), hits_show hs, dataOf_show hs]
    · show dictGet info n = _
      rw [h3 n, if_neg (fun x => ht (hm.mp x))]
  · exact ⟨_, active_show hs, rfl⟩

/-- What happened on a rank: a history, and what was measured in it. -/
structure Rank (T : Type) [Sub T] where
  h : List (Op T)
  D : List (String → List T)
  d : String → List T
  steps : Steps h D
  total : Measured (totalHistory h) d

/-- The steps and, last, the total timer. -/
def Rank.all (r : Rank T) : List (String → List T) := r.D ++ [r.d]

/-- The collector of a rank. -/
def Rank.coll (r : Rank T) : Coll T := (Coll.new : Coll T).run r.h

omit [Add T] [Sub T] in
theorem zipIdx_get {α : Type} (l : List α) (e : α × Nat) (he : e ∈ l.zipIdx) : l[e.2]? = some e.1 := by
  have := List.mem_zipIdx_iff_getElem?.mp he
  exact this

/-- **C74** (all ranks): if every rank measured the same names as rank 0, each in as many steps, then
the report can be written; it has an entry for exactly these names, sorted by name: how often rank 0
measured it, and for each rank its totals in the steps. -/
theorem C74_all_ranks (root : Rank T) (others : List (Rank T))
    (hnames : ∀ r ∈ others, ∀ n, Timed r.all n ↔ Timed root.all n)
    (hcount : ∀ r ∈ others, ∀ n, (timesOf r.all n).length = (timesOf root.all n).length) :
    ∃ rep, writeAll ((root :: others).map Rank.coll) = .ok rep ∧
      (rep.info.map (·.1)).Pairwise (· < ·) ∧
      (∀ n, (Timed root.all n → dictGet rep.info n =
          some ⟨hitsOf root.all n, (root :: others).map fun r => timesOf r.all n⟩) ∧
        (¬ Timed root.all n → dictGet rep.info n = none)) ∧
      ∃ k : Nat, ActiveSteps root.all k ∧ rep.timesteps = k - 1 := by
  have hshow : ∀ r : Rank T, AllShow r.coll.addTotal.times r.coll.addTotal.hits r.all :=
    fun r => allShow_total r.h r.D r.steps r.d r.total
  have hs := hshow root
  have hkeys : ∀ r ∈ root :: others,
      collectKeys r.coll.addTotal.times = collectKeys root.coll.addTotal.times := by
    intro r hr
    refine sorted_ext _ _ (sorted_collectKeys _) (sorted_collectKeys _) fun n => ?_
    rw [mem_collectKeys, mem_collectKeys, dataOf_show (hshow r), dataOf_show hs, timesOf_ne_nil,
      timesOf_ne_nil]
    rcases List.mem_cons.mp hr with rfl | hr
    · exact Iff.rfl
    · exact hnames r hr n
  have hlen : ∀ r ∈ root :: others, ∀ n, (dataOf r.coll.addTotal.times n).length =
      (dataOf root.coll.addTotal.times n).length := by
    intro r hr n
    rw [dataOf_show (hshow r), dataOf_show hs]
    rcases List.mem_cons.mp hr with rfl | hr
    · rfl
    · exact hcount r hr n
  have hnth : ∀ e ∈ (collectKeys root.coll.addTotal.times).zipIdx,
      gatherNth (((root :: others).map Rank.coll).map fun c => c.addTotal.dropEmpty.times)
        (dataOf root.coll.addTotal.times e.1).length e.2 =
      .ok ((root :: others).map fun r => timesOf r.all e.1) := by
    intro e he
    have hget := zipIdx_get _ e he
    unfold gatherNth
    rw [List.map_map]
    generalize hrs : root :: others = rs at hkeys hlen
    clear hrs
    induction rs with
    | nil => rfl
    | cons r rs ih =>
      rw [List.map_cons, List.mapM_cons, ih (fun r hr => hkeys r (List.mem_cons_of_mem _ hr))
        (fun r hr => hlen r (List.mem_cons_of_mem _ hr))]
      show ((match (collectKeys r.coll.addTotal.times)[e.2]? with
        | none => Except.error Err.runtimeError
        | some k => if (dataOf r.coll.addTotal.times k).length = _ then
            Except.ok (dataOf r.coll.addTotal.times k) else Except.error Err.valueError) >>= _) = _
      rw [hkeys r List.mem_cons_self, hget]
      simp only
      rw [if_pos (hlen r List.mem_cons_self e.1), dataOf_show (hshow r)]
      rfl
  have hgt : gatherTimes root.coll.addTotal.times
      (((root :: others).map Rank.coll).map fun c => c.addTotal.dropEmpty.times) =
      .ok ((collectKeys root.coll.addTotal.times).map fun k =>
        (k, TimeReport.mk 0 ((root :: others).map fun r => timesOf r.all k))) := by
    unfold gatherTimes
    have : ∀ (l : List (String × Nat)),
        (∀ e ∈ l, gatherNth (((root :: others).map Rank.coll).map fun c => c.addTotal.dropEmpty.times)
          (dataOf root.coll.addTotal.times e.1).length e.2 =
          .ok ((root :: others).map fun r => timesOf r.all e.1)) →
        (l.mapM fun e => do
          let rows ← gatherNth (((root :: others).map Rank.coll).map fun c => c.addTotal.dropEmpty.times)
            (dataOf root.coll.addTotal.times e.1).length e.2
          return (e.1, TimeReport.mk 0 rows)) =
        (Except.ok (l.map fun e => (e.1, TimeReport.mk 0 ((root :: others).map fun r => timesOf r.all e.1))) :
          Except Err _) := by
      intro l hl
      induction l with
      | nil => rfl
      | cons e l ih =>
        rw [List.mapM_cons, hl e List.mem_cons_self, ih (fun e he => hl e (List.mem_cons_of_mem _ he))]
        rfl
    rw [this _ hnth]
    congr 1
    rw [show (fun e : String × Nat => (e.1, TimeReport.mk 0 ((root :: others).map fun r => timesOf r.all e.1)))
      = (fun k : String => (k, TimeReport.mk 0 ((root :: others).map fun r => timesOf r.all k))) ∘ Prod.fst
      from rfl, ← List.map_map, List.zipIdx_map_fst]
  obtain ⟨info, h1, h2, h3⟩ := gatherHits_names
    (root.coll.addTotal.hits.filter fun d => !d.isEmpty).flatten
    (collectKeys root.coll.addTotal.times) (sorted_collectKeys _)
    (fun k => (root :: others).map fun r => timesOf r.all k) (fun e he => hits_names hs e he)
  refine ⟨⟨((root.coll.addTotal.hits.filter fun d => !d.isEmpty).length : Int) - 1, info⟩, ?_, ?_, ?_, ?_⟩
  · rw [List.map_cons]
    unfold writeAll
    show (gatherTimes root.coll.addTotal.times
      (((root :: others).map Rank.coll).map fun c => c.addTotal.dropEmpty.times) >>= _) = _
    rw [hgt]
    show (gatherHits (root.coll.addTotal.hits.filter fun d => !d.isEmpty) _ >>= _) = _
    unfold gatherHits
    rw [h1]
    rfl
  · show (info.map (·.1)).Pairwise (· < ·)
    rw [h2]; exact sorted_collectKeys _
  · intro n
    have hm : n ∈ collectKeys root.coll.addTotal.times ↔ Timed root.all n := by
      rw [mem_collectKeys, dataOf_show hs, timesOf_ne_nil]
    refine ⟨fun ht => ?_, fun ht => ?_⟩
    · show dictGet info n = _
      rw [h3 n, if_pos (hm.mpr ht), hits_show hs]
    · show dictGet info n = _
      rw [h3 n, if_neg (fun x => ht (hm.mp x))]
  · exact ⟨_, active_show hs, rfl⟩

omit [Add T] [Sub T] in
/-- **C74** (speed): the simulated years per day of the report are the simulated time (one time step
of `dt` seconds for every time of the main loop on every rank) in years of 365 days, divided by the
measured time in days. -/
theorem C74_sypd {K : Type} [Field K] [CharZero K] (info : List (String × TimeReport (List (List K))))
    (dt : K) (r : TimeReport (List (List K))) (hr : dictGet info "mainloop" = some r) :
    sypd info dt = ((r.times.flatten.length : K) * dt / (365 * 86400)) / (r.times.flatten.sum / 86400) := by
  have h1 : (86400 : K) ≠ 0 := by norm_num
  have h2 : (365 : K) ≠ 0 := by norm_num
  unfold sypd
  rw [hr]
  simp only
  by_cases h3 : (r.times.flatten.length : K) = 0
  · rw [h3]; simp
  · by_cases h4 : r.times.flatten.sum = 0
    · rw [h4]; simp
    · field_simp

omit [Add T] [Sub T] in
/-- Without a main loop there is no speed. -/
theorem C74_sypd_none {K : Type} [Field K] (info : List (String × TimeReport (List (List K)))) (dt : K)
    (hr : dictGet info "mainloop" = none) : sypd info dt = -999 := by
  unfold sypd; rw [hr]

/-! ### Examples -/

/-- A step in which "dyn" runs twice and one in which "dyn" and "phys" run; "main" in total. -/
def exHistory (shift : Int) : List (Op Int) :=
  [.total (.start "main" 0),
   .step (.start "dyn" 1), .step (.stop "dyn" (3 + shift)), .step (.start "dyn" 10),
   .step (.stop "dyn" (11 + shift)), .collect,
   .step (.start "phys" 20), .step (.start "dyn" 21), .step (.stop "dyn" 25), .step (.stop "phys" 26),
   .collect, .total (.stop "main" 30)]

/-- The report of two ranks. -/
example : writeAll [(Coll.new : Coll Int).run (exHistory 0), (Coll.new : Coll Int).run (exHistory 1)] =
    .ok ⟨2, [("dyn", ⟨3, [[3, 4], [5, 4]]⟩), ("main", ⟨1, [[30], [30]]⟩),
      ("phys", ⟨1, [[6], [6]]⟩)]⟩ := by decide +kernel

/-- The hypotheses of `C74_all_ranks` hold for them. -/
theorem exSteps (s : Int) : ∃ r : Rank Int, r.h = exHistory s ∧
    (∀ n, (timesOf r.all n).length = if n = "dyn" then 2 else if n = "main" then 1
      else if n = "phys" then 1 else 0) ∧
    (∀ n, Timed r.all n ↔ n = "dyn" ∨ n = "main" ∨ n = "phys") := by
  obtain ⟨⟨D, hD⟩, d, hd⟩ := C74_measured (exHistory s)
  have hs := allShow_total (exHistory s) D hD d hd
  have ht : ((Coll.new : Coll Int).run (exHistory s)).addTotal.times =
      [[("dyn", (3 + s - 1) + (11 + s - 10))], [("dyn", 25 - 21), ("phys", 26 - 20)], [("main", 30 - 0)]] := by
    rfl
  have hlen : ∀ n, (timesOf (D ++ [d]) n).length = if n = "dyn" then 2 else if n = "main" then 1
      else if n = "phys" then 1 else 0 := by
    intro n
    rw [← dataOf_show hs n, ht]
    unfold dataOf dictGet
    by_cases h1 : n = "dyn"
    · subst h1; rfl
    · by_cases h2 : n = "main"
      · subst h2; rfl
      · by_cases h3 : n = "phys"
        · subst h3; rfl
        · simp [h1, h2, h3, Ne.symm h1, Ne.symm h2, Ne.symm h3]
  refine ⟨⟨exHistory s, D, d, hD, hd⟩, rfl, hlen, fun n => ?_⟩
  show Timed (D ++ [d]) n ↔ _
  rw [← timesOf_ne_nil, ← List.length_pos_iff, hlen n]
  by_cases h1 : n = "dyn"
  · simp [h1]
  · by_cases h2 : n = "main"
    · simp [h2]
    · by_cases h3 : n = "phys"
      · simp [h3]
      · simp [h1, h2, h3]

example : ∃ (root : Rank Int) (others : List (Rank Int)), others ≠ [] ∧
    (∀ r ∈ others, ∀ n, Timed r.all n ↔ Timed root.all n) ∧
    (∀ r ∈ others, ∀ n, (timesOf r.all n).length = (timesOf root.all n).length) := by
  obtain ⟨r0, -, a0, b0⟩ := exSteps 0
  obtain ⟨r1, -, a1, b1⟩ := exSteps 1
  refine ⟨r0, [r1], by simp, ?_, ?_⟩
  · intro r hr n
    rw [List.mem_singleton.mp hr, b0, b1]
  · intro r hr n
    rw [List.mem_singleton.mp hr, a0, a1]

/-- **C74** fails for ranks that measure different names: the time rank 1 measured for "b" is reported
as its time of "a". -/
theorem C74_names_violated :
    writeAll [(Coll.new : Coll Int).run [.step (.start "a" 0), .step (.stop "a" 1), .collect],
      (Coll.new : Coll Int).run [.step (.start "b" 0), .step (.stop "b" 5), .collect]] =
    .ok ⟨0, [("a", ⟨1, [[1], [5]]⟩)]⟩ := by decide +kernel

/-- **C74** fails when the report is written twice: the second one counts the total timer twice. -/
theorem C74_twice_violated :
    writeAll [((Coll.new : Coll Int).run [.total (.start "a" 0), .total (.stop "a" 1)]).addTotal.dropEmpty] =
    .ok ⟨1, [("a", ⟨2, [[1, 1]]⟩)]⟩ := by decide +kernel

/-- The number of time steps is that of the steps only if the total timer was used: here one step is
reported as none. -/
theorem C74_timesteps_violated :
    writeAll [(Coll.new : Coll Int).run [.step (.start "a" 0), .step (.stop "a" 1), .collect]] =
    .ok ⟨0, [("a", ⟨1, [[1]]⟩)]⟩ := by decide +kernel

example : sypd [("mainloop", TimeReport.mk 2 [[(1 : ℚ), 3]])] 730 = 1 := by
  unfold sypd dictGet
  simp
  norm_num

end NDSL.Perf
