import Mathlib.Tactic.FieldSimp
import Mathlib.Tactic.Ring
import Mathlib.Tactic.NormNum
import Verif.Spec.ZarrStates
import Verif.Props.Zarr
import Verif.Props.StencilFactory
/-
C115: states, times and constants in the monitors.
-/
namespace NDSL.ZarrStates

variable {M V : Type} [DecidableEq M]

/-! ### Times -/

/-- The array of times after `n` stores, counted from `b`. -/
structure TimeOk (c : String) (b : Int) (ts : List Int) (w : TimeW) : Prop where
  base : w.base = some (.date c b)
  cells : w.cells = ts.map fun t => some (((t - b : Int) : ℚ) / 1000000)
  count : w.iTime = ts.length

theorem set_last {α : Type} (l : List α) (a b : α) : (l ++ [a]).set l.length b = l ++ [b] := by
  induction l with
  | nil => rfl
  | cons x xs ih => simp [ih]

theorem time_step (root : Bool) (c : String) (b t : Int) (ts : List Int) (w : TimeW) (h : TimeOk c b ts w) :
    (appendTime root w (.date c t)).2 = .done ∧ TimeOk c b (ts ++ [t]) (appendTime root w (.date c t)).1 := by
  obtain ⟨h1, h2, h3⟩ := h
  have e : appendTime root w (.date c t) = (⟨some (.date c b), (ts ++ [t]).map fun t => some (((t - b : Int) : ℚ) / 1000000),
      ts.length + 1⟩, .done) := by
    unfold appendTime
    have hl : w.cells.length ≤ w.iTime := by rw [h2, h3, List.length_map]
    simp only [h1, Option.getD_some, Option.isNone_some, Bool.false_eq_true, if_false, if_pos hl]
    simp only [encode, getCalendar, ne_eq, not_true_eq_false, if_false, date2num]
    have hs : (w.cells ++ [none]).set w.iTime (some (((t - b : Int) : ℚ) / 1000000)) =
        w.cells ++ [some (((t - b : Int) : ℚ) / 1000000)] := by
      have : w.iTime = w.cells.length := by rw [h2, h3, List.length_map]
      rw [this]; exact set_last _ _ _
    rw [hs, h2, h3, List.map_append]
    rfl
  rw [e]
  exact ⟨rfl, rfl, rfl, by simp⟩

theorem time_first (root : Bool) (c : String) (t : Int) :
    (appendTime root ⟨none, [], 0⟩ (.date c t)).2 = .done ∧ TimeOk c t [t] (appendTime root ⟨none, [], 0⟩ (.date c t)).1 := by
  have e : appendTime root ⟨none, [], 0⟩ (.date c t) = (⟨some (.date c t), [some (((t - t : Int) : ℚ) / 1000000)], 1⟩, .done) := by
    unfold appendTime encode getCalendar date2num
    simp
  rw [e]
  exact ⟨rfl, rfl, rfl, rfl⟩

theorem TimeOk.read {c : String} {b : Int} {ts : List Int} {w : TimeW} (h : TimeOk c b ts w) (k : Nat) :
    w.read k = (ts[k]?).map fun t => (c, (t : ℚ)) := by
  unfold TimeW.read
  rw [h.base, h.cells, List.getElem?_map]
  cases ts[k]? with
  | none => rfl
  | some t =>
    show some (c, (b : ℚ) + (((t - b : Int) : ℚ) / 1000000) * 1000000) = some (c, (t : ℚ))
    have e : (b : ℚ) + (((t - b : Int) : ℚ) / 1000000) * 1000000 = t := by
      push_cast
      field_simp
      ring
    rw [e]

/-! ### The loop over the entries of a state -/

/-- What the loop does to entries with distinct names that all writers accept. -/
theorem loop_ok (root : Bool) (es : List (String × ((M × V) ⊕ Time))) (mon : Mon M V) (hn : (es.map (·.1)).Nodup)
    (ht : ∀ n t, (n, .inr t) ∈ es → n = "time" ∧ (appendTime root mon.time t).2 = .done)
    (hf : ∀ n m v, (n, .inl (m, v)) ∈ es → (mon.vars n).first = none ∨ (mon.vars n).first = some m) :
    (loop root mon es).2 = .done ∧ (loop root mon es).1.names = mon.names ∧
    (∀ n m v, (n, .inl (m, v)) ∈ es → (loop root mon es).1.vars n = ⟨some m, (mon.vars n).vals ++ [v]⟩) ∧
    (∀ n, (∀ m v, (n, .inl (m, v)) ∉ es) → (loop root mon es).1.vars n = mon.vars n) ∧
    (∀ n t, (n, .inr t) ∈ es → (loop root mon es).1.time = (appendTime root mon.time t).1) ∧
    ((∀ n t, (n, .inr t) ∉ es) → (loop root mon es).1.time = mon.time) := by
  induction es generalizing mon with
  | nil => exact ⟨rfl, rfl, by simp, fun _ _ => rfl, by simp, fun _ => rfl⟩
  | cons e es ih =>
    obtain ⟨n, x⟩ := e
    rw [List.map_cons, List.nodup_cons] at hn
    have hnot : ∀ y, (n, y) ∉ es := fun y hy => hn.1 (List.mem_map.mpr ⟨_, hy, rfl⟩)
    cases x with
    | inl mv =>
      obtain ⟨m, v⟩ := mv
      have hap : appendVar (mon.vars n) m v = (⟨some m, (mon.vars n).vals ++ [v]⟩, .done) := by
        unfold appendVar
        rcases hf n m v List.mem_cons_self with h | h
        · rw [h]
        · rw [h]; simp
      have hl : loop root mon ((n, .inl (m, v)) :: es) =
          loop root { mon with vars := fun k => if k = n then ⟨some m, (mon.vars n).vals ++ [v]⟩ else mon.vars k } es := by
        rw [loop, hap]
      obtain ⟨i1, i2, i3, i4, i5, i6⟩ := ih { mon with vars := fun k => if k = n then ⟨some m, (mon.vars n).vals ++ [v]⟩ else mon.vars k }
        hn.2 (fun k t h => ht k t (List.mem_cons_of_mem _ h)) (by
          intro k m' v' h
          have hk : k ≠ n := fun c => hnot _ (c ▸ h)
          simp only [hk, if_false]
          exact hf k m' v' (List.mem_cons_of_mem _ h))
      rw [hl]
      refine ⟨i1, i2, ?_, ?_, ?_, ?_⟩
      · intro k m' v' h
        rcases List.mem_cons.mp h with h | h
        · injection h with h1 h2
          injection h2 with h2
          injection h2 with h2 h3
          subst h1; subst h2; subst h3
          rw [i4 k (fun _ _ => hnot _)]
          simp
        · have hk : k ≠ n := fun c => hnot _ (c ▸ h)
          rw [i3 k m' v' h]
          simp [hk]
      · intro k h
        have hk : k ≠ n := by
          intro c; subst c; exact h m v List.mem_cons_self
        rw [i4 k (fun m' v' c => h m' v' (List.mem_cons_of_mem _ c))]
        simp [hk]
      · intro k t h
        rcases List.mem_cons.mp h with h | h
        · injection h with _ h; cases h
        · exact i5 k t h
      · intro h
        exact i6 fun k t c => h k t (List.mem_cons_of_mem _ c)
    | inr t =>
      obtain ⟨e1, e2⟩ := ht n t List.mem_cons_self
      have hl : loop root mon ((n, .inr t) :: es) = loop root { mon with time := (appendTime root mon.time t).1 } es := by
        rw [loop]
        revert e2
        cases hx : appendTime root mon.time t with
        | mk w r =>
          intro e2
          simp only at e2
          subst e2
          rfl
      have hno : ∀ k s, (k, Sum.inr s) ∉ es := by
        intro k s h
        have := (ht k s (List.mem_cons_of_mem _ h)).1
        rw [this, ← e1] at h
        exact hnot _ h
      obtain ⟨i1, i2, i3, i4, i5, i6⟩ := ih { mon with time := (appendTime root mon.time t).1 }
        hn.2 (fun k t h => absurd h (hno k t)) (fun k m' v' h => hf k m' v' (List.mem_cons_of_mem _ h))
      rw [hl]
      refine ⟨i1, i2, ?_, ?_, ?_, ?_⟩
      · intro k m' v' h
        rcases List.mem_cons.mp h with h | h
        · injection h with _ h; cases h
        · exact i3 k m' v' h
      · intro k h
        exact i4 k fun m' v' c => h m' v' (List.mem_cons_of_mem _ c)
      · intro k s h
        rcases List.mem_cons.mp h with h | h
        · injection h with _ h
          injection h with h
          subst h
          exact i6 hno
        · exact absurd h (hno k s)
      · intro h
        exact absurd List.mem_cons_self (h n t)

/-! ### States that agree -/

/-- Microseconds of the date of a state. -/
def us (s : State M V) : Int :=
  match s.time with
  | some (.date _ t) => t
  | _ => 0

/-- What the monitor holds after `done`. -/
structure Holds (names : List String) (md : String → M) (c : String) (done : List (State M V)) (mon : Mon M V) : Prop where
  noNames : done = [] → mon.names = none
  writers : done ≠ [] → ∃ w, mon.names = some w ∧ ∀ k, k ∈ w ↔ k = "time" ∨ k ∈ names
  vars : ∀ n ∈ names, (mon.vars n).first = (if done = [] then none else some (md n)) ∧
    (mon.vars n).vals.map some = done.map fun s => (dictGet s.fields n).map (·.2)
  time : (done = [] ∧ mon.time = ⟨none, [], 0⟩) ∨ ∃ b, TimeOk c b (done.map us) mon.time

theorem entries_keys {names : List String} {md : String → M} {c : String} {s : State M V} (h : Agree names md c s) :
    (s.entries.map (·.1)).Perm (names ++ ["time"]) := by
  obtain ⟨t, ht⟩ := h.time
  unfold State.entries
  rw [ht, List.map_append, List.map_map]
  exact List.Perm.append h.keys (List.Perm.refl _)

theorem store_step (root : Bool) {names : List String} {md : String → M} {c : String} {done : List (State M V)} {mon : Mon M V}
    (hm : Holds names md c done mon) {s : State M V} (h : Agree names md c s) :
    (store root mon s).2 = .done ∧ Holds names md c (done ++ [s]) (store root mon s).1 := by
  obtain ⟨t, ht⟩ := h.time
  have hk := entries_keys h
  have hmem : ∀ k, k ∈ s.entries.map (·.1) ↔ k = "time" ∨ k ∈ names := by
    intro k
    rw [hk.mem_iff]
    simp [or_comm]
  -- the names
  obtain ⟨w, hw, hwm⟩ : ∃ w, Zarr.ensureWriters mon.names (s.entries.map (·.1)) = .ok w ∧ ∀ k, k ∈ w ↔ k = "time" ∨ k ∈ names := by
    by_cases hd : done = []
    · have hn : mon.names = none := hm.noNames hd
      refine ⟨_, by rw [hn]; rfl, ?_⟩
      intro k
      rw [List.mem_append, List.mem_filter, hmem]
      by_cases hk : k = "time" <;> simp [hk]
    · obtain ⟨w, hw, hwm⟩ := hm.writers hd
      refine ⟨w, ?_, hwm⟩
      rw [hw]
      unfold Zarr.ensureWriters
      simp only
      rw [if_neg (by
        simp only [not_not]
        intro k hk
        exact (hwm k).mpr ((hmem k).mp hk)), if_neg (by
        simp only [not_not]
        intro k hk
        exact (hmem k).mpr ((hwm k).mp hk))]
  have hst : store root mon s = loop root { mon with names := some w } s.sorted := by
    unfold store; rw [hw]
  -- the entries
  have hperm : s.sorted.Perm s.entries := List.mergeSort_perm _ _
  have hnd : (s.sorted.map (·.1)).Nodup := by
    rw [(hperm.map (·.1)).nodup_iff, hk.nodup_iff, List.nodup_append]
    refine ⟨h.nodup, by simp, ?_⟩
    intro a ha b hb
    rw [List.mem_singleton] at hb
    subst hb
    intro e
    subst e
    exact h.notTime ha
  have hinl : ∀ n m v, (n, Sum.inl (m, v)) ∈ s.sorted ↔ (n, (m, v)) ∈ s.fields := by
    intro n m v
    rw [hperm.mem_iff]
    unfold State.entries
    rw [ht]
    simp
  have hinr : ∀ n t', (n, Sum.inr t') ∈ s.sorted ↔ n = "time" ∧ t' = .date c t := by
    intro n t'
    rw [hperm.mem_iff]
    unfold State.entries
    rw [ht]
    simp
  have hfield : ∀ n ∈ names, ∃ v, (n, (md n, v)) ∈ s.fields ∧ dictGet s.fields n = some (md n, v) := by
    intro n hn
    have : n ∈ s.fields.map (·.1) := (h.keys.mem_iff).mpr hn
    obtain ⟨e, he, e1⟩ := List.mem_map.mp this
    obtain ⟨n', m, v⟩ := e
    simp only at e1
    subst e1
    have hm := h.metas n' m v he
    subst hm
    refine ⟨v, he, ?_⟩
    unfold dictGet
    have hnd : (s.fields.map (·.1)).Nodup := h.keys.nodup_iff.mpr h.nodup
    have : s.fields.find? (fun e => e.1 == n') = some (n', (md n', v)) := by
      clear hm ht hk hmem hw hst hperm hinl hinr
      revert he hnd
      generalize s.fields = l
      intro he hnd
      induction l with
      | nil => cases he
      | cons x xs ih =>
        rw [List.map_cons, List.nodup_cons] at hnd
        rw [List.find?_cons]
        rcases List.mem_cons.mp he with e | he
        · subst e; simp
        · have hx : x.1 ≠ n' := fun c => hnd.1 (c ▸ List.mem_map.mpr ⟨_, he, rfl⟩)
          have : (x.1 == n') = false := by simpa using hx
          rw [this]
          exact ih he hnd.2
    rw [this]
    rfl
  have hTime : (appendTime root mon.time (.date c t)).2 = .done ∧
      ∃ b, TimeOk c b ((done ++ [s]).map us) (appendTime root mon.time (.date c t)).1 := by
    have hus : us s = t := by unfold us; rw [ht]
    rcases hm.time with ⟨e, e2⟩ | ⟨b, hb⟩
    · rw [e2]
      obtain ⟨a1, a2⟩ := time_first root c t
      refine ⟨a1, t, ?_⟩
      rw [e]
      simpa [hus] using a2
    · obtain ⟨a1, a2⟩ := time_step root c b t _ _ hb
      refine ⟨a1, b, ?_⟩
      rw [List.map_append, List.map_cons, hus]
      exact a2
  obtain ⟨l1, l2, l3, l4, l5, l6⟩ := loop_ok root s.sorted { mon with names := some w } hnd
    (by
      intro n t' hx
      obtain ⟨e1, e2⟩ := (hinr n t').mp hx
      subst e2
      exact ⟨e1, hTime.1⟩)
    (by
      intro n m v hx
      have hf := (hinl n m v).mp hx
      have hm' := h.metas n m v hf
      have hn : n ∈ names := (h.keys.mem_iff).mp (List.mem_map.mpr ⟨_, hf, rfl⟩)
      have := (hm.vars n hn).1
      by_cases hd : done = []
      · left; rw [if_pos hd] at this; exact this
      · right; rw [if_neg hd] at this; rw [hm']; exact this)
  rw [hst]
  refine ⟨l1, ⟨?_, ?_, ?_, ?_⟩⟩
  · intro h
    simp at h
  · intro _
    exact ⟨w, l2, hwm⟩
  · intro n hn
    obtain ⟨v, hv, hg⟩ := hfield n hn
    rw [l3 n (md n) v ((hinl _ _ _).mpr hv)]
    refine ⟨by simp, ?_⟩
    rw [List.map_append, List.map_append, (hm.vars n hn).2]
    simp [hg]
  · right
    obtain ⟨b, hb⟩ := hTime.2
    refine ⟨b, ?_⟩
    rw [l5 "time" (.date c t) ((hinr _ _).mpr ⟨rfl, rfl⟩)]
    exact hb

/-- C115: after any number of stores of states with the same names and metadata and dates of one calendar, all have returned, on
every rank; every variable has one value for each store, in order, and the array of times says, at the same index, exactly the date
of that store. -/
theorem C115_aligned (root : Bool) (names : List String) (md : String → M) (c : String) (ss : List (State M V))
    (h : ∀ s ∈ ss, Agree names md c s) :
    (∀ r ∈ (storeAll root Mon.new ss).2, r = .done) ∧
    (∀ n ∈ names, ((storeAll root Mon.new ss).1.vars n).vals.map some = ss.map fun s => (dictGet s.fields n).map (·.2)) ∧
    ∀ k, (storeAll root Mon.new ss).1.time.read k = (ss[k]?).bind fun s => match s.time with
      | some (.date c t) => some (c, (t : ℚ))
      | _ => none := by
  have key : ∀ (rest done : List (State M V)) (mon : Mon M V), (∀ s ∈ rest, Agree names md c s) → Holds names md c done mon →
      (∀ r ∈ (storeAll root mon rest).2, r = .done) ∧ Holds names md c (done ++ rest) (storeAll root mon rest).1 := by
    intro rest
    induction rest with
    | nil => intro done mon _ hm; exact ⟨by simp [storeAll], by rw [List.append_nil]; exact hm⟩
    | cons s rest ih =>
      intro done mon hr hm
      obtain ⟨a1, a2⟩ := store_step root hm (hr s List.mem_cons_self)
      obtain ⟨b1, b2⟩ := ih (done ++ [s]) (store root mon s).1 (fun x hx => hr x (List.mem_cons_of_mem _ hx)) a2
      rw [List.append_assoc] at b2
      refine ⟨?_, b2⟩
      intro r hr'
      have : r ∈ (store root mon s).2 :: (storeAll root (store root mon s).1 rest).2 := hr'
      rcases List.mem_cons.mp this with e | hr'
      · rw [e]; exact a1
      · exact b1 r hr'
  obtain ⟨h1, h2⟩ := key ss [] Mon.new h ⟨fun _ => rfl, fun c => absurd rfl c, fun _ _ => ⟨rfl, rfl⟩, .inl ⟨rfl, rfl⟩⟩
  rw [List.nil_append] at h2
  refine ⟨h1, fun n hn => (h2.vars n hn).2, ?_⟩
  intro k
  rcases h2.time with ⟨e, e2⟩ | ⟨b, hb⟩
  · rw [e2, e]; rfl
  · rw [hb.read, List.getElem?_map]
    cases hs : ss[k]? with
    | none => rfl
    | some s =>
      obtain ⟨t, ht⟩ := (h s (List.mem_of_getElem? hs)).time
      simp [us, ht]

/-- C115: a state with other names is refused before anything is stored. -/
theorem C115_names (root : Bool) (mon : Mon M V) (w : List String) (hw : mon.names = some w) (s : State M V)
    (h : ∃ k, (k ∈ s.entries.map (·.1) ∧ k ∉ w) ∨ (k ∈ w ∧ k ∉ s.entries.map (·.1))) :
    store root mon s = (mon, .raised .valueError) := by
  unfold store Zarr.ensureWriters
  rw [hw]
  simp only
  by_cases h1 : ∀ k ∈ s.entries.map (·.1), k ∈ w
  · have h2 : ¬ ∀ k ∈ w, k ∈ s.entries.map (·.1) := by
      intro c
      obtain ⟨k, h | h⟩ := h
      · exact h.2 (h1 k h.1)
      · exact h.2 (c k h.1)
    rw [if_neg (by simpa using h1), if_pos h2]
  · rw [if_pos h1]

/-! ### What does not hold -/

/-- A state with a field before and one after "time" in the alphabet. -/
def sample (a : Nat) (z : Nat) (units : String) (t : Int) : State String Nat :=
  ⟨[("a", ("m", a)), ("z", (units, z))], some (.date "noleap" t)⟩

theorem sample_sorted (a z : Nat) (u : String) (t : Int) :
    (sample a z u t).sorted = [("a", .inl ("m", a)), ("time", .inr (.date "noleap" t)), ("z", .inl (u, z))] := by
  have hp : ([("a", .inl ("m", a)), ("time", .inr (.date "noleap" t)), ("z", .inl (u, z))] :
      List (String × ((String × Nat) ⊕ Time))).Perm (sample a z u t).entries := by
    show List.Perm _ [("a", Sum.inl ("m", a)), ("z", Sum.inl (u, z)), ("time", Sum.inr (Time.date "noleap" t))]
    exact List.Perm.cons _ (List.Perm.swap _ _ _)
  unfold State.sorted
  have hle : ∀ x y : String × ((String × Nat) ⊕ Time), ∀ w, decide (x.1 ≤ y.1) = true → decide (y.1 ≤ w.1) = true →
      decide (x.1 ≤ (w : String × ((String × Nat) ⊕ Time)).1) = true := by
    intro x y w h1 h2
    simp only [decide_eq_true_eq] at *
    exact String.le_trans h1 h2
  refine List.Perm.eq_of_pairwise (le := fun x y => x.1 ≤ y.1) ?_ ?_ ?_ ?_
  · intro x y hx hy h1 h2
    have e := String.le_antisymm h1 h2
    have hx' := (List.mergeSort_perm _ _).mem_iff.mp hx
    simp only [sample, State.entries, List.map_cons, List.map_nil, List.cons_append, List.nil_append, List.mem_cons, List.not_mem_nil,
      or_false] at hx'
    simp only [List.mem_cons, List.not_mem_nil, or_false] at hy
    rcases hx' with hx' | hx' | hx' <;> rcases hy with hy | hy | hy <;> subst hx' <;> subst hy <;> simp at e ⊢
  · have := List.pairwise_mergeSort (le := fun x y : String × ((String × Nat) ⊕ Time) => decide (x.1 ≤ y.1))
      (fun x y w => hle x y w) (fun x y => by
        simp only [Bool.or_eq_true, decide_eq_true_eq]
        exact String.le_total _ _) (sample a z u t).entries
    exact this.imp fun h => by simpa using h
  · simp only [List.pairwise_cons, List.mem_cons, List.not_mem_nil, or_false, forall_eq_or_imp, forall_eq, List.Pairwise.nil, and_true,
      false_implies, implies_true]
    decide
  · exact (List.mergeSort_perm _ _).trans hp.symm

/-- C115 (not so): the values at one index belong to one state. When a state is refused for one of its fields, the fields before it
in the alphabet, and the time, are stored already; from then on the other fields are one index behind. -/
theorem C115_refused_violated :
    let mon := storeAll true Mon.new [sample 1 10 "K" 0, sample 2 20 "m" 5000000, sample 3 30 "K" 9000000]
    mon.2 = [.done, .raised .valueError, .done] ∧
    (mon.1.vars "a").vals = [1, 2, 3] ∧ (mon.1.vars "z").vals = [10, 30] ∧
    mon.1.time.read 1 = some ("noleap", 5000000) := by
  intro mon
  have e : ∀ (mon : Mon String Nat) (a z : Nat) (u : String) (t : Int), store true mon (sample a z u t) =
      match Zarr.ensureWriters mon.names ["a", "z", "time"] with
      | .error e => (mon, .raised e)
      | .ok names => loop true { mon with names := some names }
        [("a", .inl ("m", a)), ("time", .inr (.date "noleap" t)), ("z", .inl (u, z))] := by
    intro mon a z u t
    unfold store
    rw [sample_sorted]
    rfl
  have hmon : mon = (let r := store true Mon.new (sample 1 10 "K" 0)
      let r' := store true r.1 (sample 2 20 "m" 5000000)
      let r'' := store true r'.1 (sample 3 30 "K" 9000000)
      (r''.1, [r.2, r'.2, r''.2])) := rfl
  rw [hmon]
  simp only [e]
  refine ⟨by decide +kernel, by decide +kernel, by decide +kernel, by decide +kernel⟩

/-- C115 (not so): a time that cannot be stored is an error on every rank. For a date of another calendar than the first, the first
rank raises and the others wait for it. -/
theorem C115_calendar_violated (w : TimeW) (c c' : String) (b t : Int) (hb : w.base = some (.date c b)) (hc : c' ≠ c) :
    (appendTime true w (.date c' t)).2 = .raised .valueError ∧ (appendTime false w (.date c' t)).2 = .waiting := by
  unfold appendTime
  simp only [hb, Option.getD_some]
  have : encode (.date c b) (.date c' t) = .error .valueError := by
    unfold encode getCalendar
    simp [hc]
  rw [this]
  exact ⟨rfl, rfl⟩

/-- C115 (not so): a duration, which the annotation of the time allows, can be stored as time. The first rank raises and the others
wait; and no later store succeeds, whatever its time. -/
theorem C115_duration_violated (d : Int) (t : Time) :
    (appendTime true ⟨none, [], 0⟩ (.delta d)).2 = .raised .typeError ∧ (appendTime false ⟨none, [], 0⟩ (.delta d)).2 = .waiting ∧
    (appendTime true (appendTime true ⟨none, [], 0⟩ (.delta d)).1 t).2 ≠ .done := by
  have e : ∀ r, appendTime r ⟨none, [], 0⟩ (.delta d) =
      (⟨some (.delta d), [none], 0⟩, if r then .raised .typeError else .waiting) := by
    intro r
    unfold appendTime encode getCalendar date2num
    simp
  rw [e, e]
  refine ⟨rfl, rfl, ?_⟩
  unfold appendTime
  simp only [Option.getD_some]
  have : ∃ x, encode (.delta d) t = .error x := by
    unfold encode
    by_cases h : getCalendar t ≠ getCalendar (.delta d)
    · exact ⟨_, if_pos h⟩
    · rw [if_neg h]; exact ⟨.typeError, rfl⟩
  obtain ⟨x, hx⟩ := this
  rw [hx]
  simp

/-! ### Constants -/

section
open Zarr
variable {W : Type} (fl : FloatOps) (hfl : EvenOps fl) (ly lx : Int) (hy : 0 < ly) (hx : 0 < lx)
  (dims : List Dim) (hd : TileDims dims) (e : Dim → Int) (hg : GoodExtents dims e)

include hfl hy hx hd hg in
/-- C115: a constant given by all ranks with the same dimensions, in the same order, is stored once: every point of every tile has
the value of the one rank it belongs to. -/
theorem C115_constant (hJ : ∃ d ∈ dims, d.isJ = true) (hI : ∃ d ∈ dims, d.isI = true) (u : String)
    (order : List Int) (q : Int → Fld W) (hord : ∀ r, r ∈ order ↔ IsRank ⟨⟨(ly, lx)⟩⟩ r)
    (hq : ∀ r, IsRank ⟨⟨(ly, lx)⟩⟩ r → (q r).dims = dims ∧ (q r).extent = dims.map e ∧ (q r).units = u)
    (h0 : IsRank ⟨⟨(ly, lx)⟩⟩ 0) :
    ∃ a, constantField ⟨⟨(ly, lx)⟩⟩ fl order q = .ok a ∧ a.dims = dims ∧ a.units = u ∧ a.shape = tileShape e (ly, lx) dims ∧
      ∀ t g, 0 ≤ t → t < 6 → InExtent a.shape g →
        ∃ r j i, (IsRank ⟨⟨(ly, lx)⟩⟩ r ∧ (CubePart.mk ⟨(ly, lx)⟩).At r t j i ∧ Owns e (ly, lx) (j, i) dims g) ∧
          (∀ r' j' i', IsRank ⟨⟨(ly, lx)⟩⟩ r' → (CubePart.mk ⟨(ly, lx)⟩).At r' t j' i' →
            Owns e (ly, lx) (j', i') dims g → r' = r) ∧
          a.data 0 t g = some ((q r).val (byName dims (localIndex e (j, i) dims g))) := by
  have hfit : Fits ⟨⟨(ly, lx)⟩⟩ dims e u q :=
    ⟨fun r hr d => by rw [(hq r hr).1], fun r hr => by rw [(hq r hr).2.1, (hq r hr).1], fun r hr => (hq r hr).2.2⟩
  obtain ⟨a, hr, h1, h2, _, h4, h5⟩ := C59_stored fl hfl ly lx hy hx dims hd e hg hJ hI u [(order, q)] (by simp)
    (by intro s hs; rw [List.mem_singleton] at hs; subst hs; exact hord)
    (by intro s hs; rw [List.mem_singleton] at hs; subst hs; exact hfit)
    (by intro s hs; simp at hs; subst hs; exact (hq 0 h0).1)
  refine ⟨a, ?_, h1, h2, h4, fun t g ht0 ht1 hin => h5 0 (order, q) rfl t g ht0 ht1 hin⟩
  have hfold : ∀ (l : List Int) (a0 : ZArray W), (∀ r ∈ l, IsRank ⟨⟨(ly, lx)⟩⟩ r) → a0.dims = dims →
      l.foldlM (fun a r => writeRank ⟨⟨(ly, lx)⟩⟩ fl 0 r (matchDims a.dims (q r)) a) a0 =
      l.foldlM (fun a r => writeRank ⟨⟨(ly, lx)⟩⟩ fl 0 r (q r) a) a0 := by
    intro l
    induction l with
    | nil => intro a0 _ _; rfl
    | cons r l ih =>
      intro a0 hl ha
      rw [List.foldlM_cons, List.foldlM_cons]
      have hm : matchDims a0.dims (q r) = q r := by
        unfold matchDims
        rw [ha, (hq r (hl r List.mem_cons_self)).1]
        simp
      rw [hm]
      cases hw : writeRank ⟨⟨(ly, lx)⟩⟩ fl 0 r (q r) a0 with
      | error x => rfl
      | ok a1 =>
        refine ih a1 (fun x hx => hl x (List.mem_cons_of_mem _ hx)) ?_
        unfold writeRank at hw
        simp only [bind, Except.bind] at hw
        split at hw
        · cases hw
        · split at hw
          · cases hw
          · split at hw
            · simp only [pure, Except.pure] at hw
              injection hw with hw
              rw [← hw]; exact ha
            · cases hw
  have hrun : (Writer.new : Writer W).run ⟨⟨(ly, lx)⟩⟩ fl [(order, q)] =
      (Writer.new : Writer W).append ⟨⟨(ly, lx)⟩⟩ fl order q := by
    unfold Writer.run
    rw [List.foldlM_cons]
    simp only [List.foldlM_nil, bind_pure]
  rw [hrun] at hr
  unfold Writer.append at hr
  simp only [bind, Except.bind] at hr
  split at hr
  · cases hr
  · split at hr
    · cases hr
    · rename_i _ _ _ a' ha'
      simp only [pure, Except.pure] at hr
      injection hr with hr
      injection hr with _ hr
      injection hr with hr
      rw [← hr]
      unfold constantField
      rw [← hfold order (initZarr ⟨⟨(ly, lx)⟩⟩ (q 0)) (fun r hr => (hord r).mp hr) (hq 0 h0).1]
      exact ha'
end

/-- C115 (not so): as for other fields, the order of the dimensions may differ between ranks. A constant with the axes exchanged on
a rank is stored with its values exchanged, without an error. -/
theorem C115_constant_order_violated :
    let q : Int → Zarr.Fld Int := fun r =>
      if r = 3 then ⟨[.i, .j], [2, 2], "m", fun f => 100 * r + 10 * f .j + f .i⟩
      else ⟨[.j, .i], [2, 2], "m", fun f => 100 * r + 10 * f .j + f .i⟩
    ((constantField ⟨⟨(1, 1)⟩⟩ exactOps [0, 1, 2, 3, 4, 5] q).map fun a => (a.dims, a.data 0 2 [1, 0], a.data 0 3 [1, 0])) =
      .ok ([.j, .i], some 210, some 301) := by
  decide +kernel

theorem constantFile_inj (a b : String) (h : constantFile a = constantFile b) : a = b := by
  unfold constantFile at h
  have := congrArg String.toList h
  simp only [String.toList_append, List.append_cancel_right_eq, List.append_cancel_left_eq] at this
  exact String.toList_inj.mp this

/-- C115: in a directory that exists, storing constants as NetCDF keeps for every name the value stored last, and changes no
other. -/
theorem C115_netcdf_constant {V : Type} (d : Disk V) (s : List (String × V)) (hd : d.dir = true) (hn : (s.map (·.1)).Nodup) :
    (netcdfStoreConstant true d s).2 = .done ∧ ∀ n, (netcdfStoreConstant true d s).1.constant n =
      match dictGet s n with
      | some v => some v
      | none => d.constant n := by
  show (netcdfConstants d s).2 = .done ∧ ∀ n, (netcdfConstants d s).1.constant n = _
  induction s generalizing d with
  | nil => exact ⟨rfl, fun _ => rfl⟩
  | cons x s ih =>
    obtain ⟨k, v⟩ := x
    rw [List.map_cons, List.nodup_cons] at hn
    rw [netcdfConstants]
    simp only [hd, if_true]
    obtain ⟨i1, i2⟩ := ih { dir := true, files := dictSet d.files (constantFile k) (match dictGet d.files (constantFile k) with
      | some old => dictSet old k v
      | none => [(k, v)]) } rfl hn.2
    refine ⟨i1, ?_⟩
    intro n
    refine (i2 n).trans ?_
    have hk : dictGet ((k, v) :: s) n = if k = n then some v else dictGet s n := by
      unfold dictGet
      rw [List.find?_cons]
      by_cases h : k = n
      · subst h; simp
      · have hb : (k == n) = false := by simpa using h
        rw [if_neg h]
        simp only [hb]
    rw [hk]
    by_cases h : k = n
    · subst h
      have hs : dictGet s k = none := by
        unfold dictGet
        rw [Option.map_eq_none_iff, List.find?_eq_none]
        intro e he c
        exact hn.1 (List.mem_map.mpr ⟨e, he, by simpa using c⟩)
      rw [hs, if_pos rfl]
      unfold Disk.constant
      simp only [StencilFactory.get_dictSet, if_true, Option.bind_some]
      cases dictGet d.files (constantFile k) with
      | none => simp [dictGet]
      | some old => simp [StencilFactory.get_dictSet]
    · rw [if_neg h]
      cases dictGet s n with
      | some _ => rfl
      | none =>
        unfold Disk.constant
        have hne : ¬ constantFile n = constantFile k := fun c => h (constantFile_inj _ _ c).symm
        have hne' : ¬ constantFile k = constantFile n := fun c => hne c.symm
        simp only [StencilFactory.get_dictSet, hne, hne', if_false]

/-- C115 (not so): constants can be stored first. The directory is only made when states are written: before, the first rank raises
and the others return. -/
theorem C115_netcdf_directory_violated {V : Type} (d : Disk V) (n : String) (v : V) (hd : d.dir = false) :
    netcdfStoreConstant true d [(n, v)] = (d, .raised .valueError) ∧ netcdfStoreConstant false d [(n, v)] = (d, .done) := by
  refine ⟨?_, rfl⟩
  show netcdfConstants d [(n, v)] = _
  rw [netcdfConstants]
  simp [hd]

/-! ### Instances -/

/-- Two states that agree: `C115_aligned` applies to them. -/
example : ∀ s ∈ [sample 1 10 "K" 0, sample 2 20 "K" 5000000],
    Agree ["a", "z"] (fun n => if n = "a" then "m" else "K") "noleap" s := by
  intro s hs
  simp only [List.mem_cons, List.not_mem_nil, or_false] at hs
  rcases hs with e | e <;> subst e <;>
    exact ⟨List.Perm.refl _, by decide, by decide, by intro n m v h; simp [sample] at h; rcases h with ⟨a, b, _⟩ | ⟨a, b, _⟩ <;> simp [a, b], ⟨_, rfl⟩⟩

example : (netcdfStoreConstant true ⟨true, []⟩ [("lat", 1), ("lon", 2)]).1.files =
    [("constants_lat.nc", [("lat", 1)]), ("constants_lon.nc", [("lon", 2)])] := by decide +kernel

end NDSL.ZarrStates
