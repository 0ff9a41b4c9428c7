import Verif.Lemmas.RefineTransients
import Mathlib.Data.List.Perm.Basic
import Mathlib.Data.List.Nodup
import Mathlib.Tactic.Tauto
/-
C87: reducing an axis of a temporary to one element does not change results.
-/
namespace NDSL.Refine

open NDSL.AxisMerge

variable {V : Type}

/-! ### Which axes are reduced -/

/-- The box has one element along dimension `k`, at index `e`. -/
def One (b : Option Box) (k : Nat) (e : Ix) : Prop := ∃ l, b = some l ∧ l[k]? = some (some e)

theorem joinIx_some (a b : Option Ix) (e : Ix) : joinIx a b = some e ↔ a = some e ∧ b = some e := by
  unfold joinIx
  split
  · rename_i h; subst h; simp
  · rename_i h
    constructor
    · intro h'; cases h'
    · rintro ⟨rfl, rfl⟩; exact absurd rfl h

theorem one_union (x y : Option Box) (k : Nat) (e : Ix) :
    One (union x y) k e ↔ (One x k e ∨ x = none) ∧ (One y k e ∨ y = none) ∧ ¬ (x = none ∧ y = none) := by
  cases x with
  | none =>
    cases y with
    | none => simp [union, One]
    | some b => simp [union, One]
  | some a =>
    cases y with
    | none => simp [union, One]
    | some b =>
      simp only [union, One, Option.some.injEq, exists_eq_left', reduceCtorEq, or_false, false_and,
        not_false_eq_true, and_true, List.getElem?_zipWith]
      cases ha : a[k]? with
      | none => simp
      | some p =>
        cases hb : b[k]? with
        | none => simp
        | some q => simp [joinIx_some]

theorem union_none (x y : Option Box) : union x y = none ↔ x = none ∧ y = none := by
  cases x <;> cases y <;> simp [union]

theorem boxOf_get (m : Memlet) (k : Nat) (e : Ix) :
    (boxOf m)[k]? = some (some e) ↔ m.subset[k]? = some (e, 1) := by
  unfold boxOf
  rw [List.getElem?_map]
  cases m.subset[k]? with
  | none => simp
  | some s =>
    obtain ⟨a, n⟩ := s
    simp only [Option.map_some, Option.some.injEq, Prod.mk.injEq]
    by_cases h : n = 1 <;> simp [h]

theorem record_fold (d : Nat) (k : Nat) (e : Ix) : ∀ (ms : List Memlet) (acc : Option Box),
    (One (ms.foldl (fun acc m => if m.data = d then union acc (some (boxOf m)) else acc) acc) k e ↔
      (One acc k e ∨ acc = none) ∧ (∀ m ∈ ms, m.data = d → m.subset[k]? = some (e, 1)) ∧
        ¬ (acc = none ∧ ∀ m ∈ ms, m.data ≠ d)) ∧
    (ms.foldl (fun acc m => if m.data = d then union acc (some (boxOf m)) else acc) acc = none ↔
      acc = none ∧ ∀ m ∈ ms, m.data ≠ d) := by
  intro ms
  induction ms with
  | nil =>
    intro acc
    refine ⟨?_, by simp⟩
    cases acc <;> simp [One]
  | cons m ms ih =>
    intro acc
    simp only [List.foldl_cons]
    by_cases hd : m.data = d
    · rw [if_pos hd]
      obtain ⟨h1, h2⟩ := ih (union acc (some (boxOf m)))
      have hb : One (some (boxOf m)) k e ↔ m.subset[k]? = some (e, 1) := by
        rw [← boxOf_get]; simp [One]
      have hn : union acc (some (boxOf m)) ≠ none := by rw [Ne, union_none]; simp
      refine ⟨?_, ?_⟩
      · rw [h1, one_union, hb]
        simp only [hn, reduceCtorEq, or_false, and_false, not_false_eq_true, and_true, false_and,
          List.forall_mem_cons, hd, forall_const, ne_eq, not_true_eq_false]
        tauto
      · rw [h2]; simp [hn, hd]
    · rw [if_neg hd]
      obtain ⟨h1, h2⟩ := ih acc
      refine ⟨?_, ?_⟩
      · rw [h1]; simp [hd]
      · rw [h2]; simp [hd]

/-- The accesses of the container have, along the dimension, one and the same index. -/
def OneIndex (d a : Nat) (t : Tree V) (e : Ix) : Prop :=
  accesses d t ≠ [] ∧ ∀ m ∈ accesses d t, m.subset[a]? = some (e, 1)

theorem one_ranges (d a : Nat) (t : Tree V) (e : Ix) :
    One (union (rangeReads d t) (rangeWrites d t)) a e ↔ OneIndex d a t e := by
  obtain ⟨h1, h2⟩ := record_fold d a e t.outMemlets none
  obtain ⟨h3, h4⟩ := record_fold d a e t.inMemlets none
  rw [one_union]
  unfold rangeReads rangeWrites record
  rw [h1, h2, h3, h4]
  have hne : accesses d t ≠ [] ↔
      ¬ ((∀ m ∈ t.outMemlets, m.data ≠ d) ∧ (∀ m ∈ t.inMemlets, m.data ≠ d)) := by
    unfold accesses
    rw [Ne, List.filter_eq_nil_iff]
    simp only [List.mem_append, decide_eq_true_eq]
    constructor
    · rintro h ⟨ho, hi⟩; exact h fun m hm => hm.elim (hi m) (ho m)
    · intro h h'; exact h ⟨fun m hm => h' m (.inr hm), fun m hm => h' m (.inl hm)⟩
  have hall : (∀ m ∈ accesses d t, m.subset[a]? = some (e, 1)) ↔
      ((∀ m ∈ t.outMemlets, m.data = d → m.subset[a]? = some (e, 1)) ∧
        (∀ m ∈ t.inMemlets, m.data = d → m.subset[a]? = some (e, 1))) := by
    unfold accesses
    simp only [List.mem_filter, List.mem_append, decide_eq_true_eq]
    constructor
    · intro h; exact ⟨fun m hm hd => h m ⟨.inr hm, hd⟩, fun m hm hd => h m ⟨.inl hm, hd⟩⟩
    · rintro ⟨ho, hi⟩ m ⟨hm | hm, hd⟩
      · exact hi m hm hd
      · exact ho m hm hd
  unfold OneIndex
  rw [hne, hall]
  have hno : (∀ m ∈ t.outMemlets, m.data ≠ d) →
      ∀ m ∈ t.outMemlets, m.data = d → m.subset[a]? = some (e, 1) :=
    fun h m hm hd => absurd hd (h m hm)
  have hni : (∀ m ∈ t.inMemlets, m.data ≠ d) →
      ∀ m ∈ t.inMemlets, m.data = d → m.subset[a]? = some (e, 1) :=
    fun h m hm hd => absurd hd (h m hm)
  simp only [or_true, true_and]
  generalize (∀ m ∈ t.outMemlets, m.data ≠ d) = A at *
  generalize (∀ m ∈ t.inMemlets, m.data ≠ d) = B at *
  generalize (∀ m ∈ t.outMemlets, m.data = d → m.subset[a]? = some (e, 1)) = P at *
  generalize (∀ m ∈ t.inMemlets, m.data = d → m.subset[a]? = some (e, 1)) = Q at *
  clear h1 h2 h3 h4 hne hall
  by_cases hA : A <;> by_cases hB : B <;> by_cases hP : P <;> by_cases hQ : Q <;> simp_all

/-- The axis is reduced. -/
def Reduced (isAxis : Nat → Nat → Bool) (d : Nat) (t : Tree V) (c : Container) (a : Nat) : Prop :=
  a < 3 ∧ 3 ≤ c.shape.length ∧ mapCount (isAxis a) d t ≤ 1 ∧ ∃ e, OneIndex d a t e

open Classical in
theorem refineAxis_shape (layoutMap : List Nat) (isAxis : Nat → Nat → Bool) (d : Nat) (t : Tree V)
    (a : Nat) (ha : a < 3) (c : Container) :
    (refineAxis layoutMap isAxis d t a c).shape
      = if Reduced isAxis d t c a then c.shape.set a 1 else c.shape := by
  unfold refineAxis
  by_cases hm : mapCount (isAxis a) d t > 1
  · rw [if_pos hm, if_neg (by rintro ⟨-, -, h, -⟩; omega)]
  · rw [if_neg hm]
    unfold reduceAxis
    by_cases hl : c.shape.length < 3
    · rw [if_pos hl, if_neg (by rintro ⟨-, h, -, -⟩; omega)]
    · rw [if_neg hl]
      have key := fun e => one_ranges d a t e
      cases hu : union (rangeReads d t) (rangeWrites d t) with
      | none =>
        rw [hu] at key
        rw [if_neg]
        rintro ⟨-, -, -, e, he⟩
        obtain ⟨l, h, -⟩ := (key e).mpr he
        cases h
      | some box =>
        rw [hu] at key
        simp only
        cases hb : box[a]? with
        | none =>
          rw [if_neg]
          rintro ⟨-, -, -, e, he⟩
          obtain ⟨l, h, h'⟩ := (key e).mpr he
          cases h
          rw [hb] at h'; cases h'
        | some o =>
          cases o with
          | none =>
            rw [if_neg]
            rintro ⟨-, -, -, e, he⟩
            obtain ⟨l, h, h'⟩ := (key e).mpr he
            cases h
            rw [hb] at h'; cases h'
          | some e =>
            rw [if_pos ⟨ha, by omega, by omega, e, (key e).mp ⟨box, rfl, hb⟩⟩]
            rfl

theorem reduced_congr (isAxis : Nat → Nat → Bool) (d : Nat) (t : Tree V) (c c' : Container) (a : Nat)
    (h : c'.shape.length = c.shape.length) : Reduced isAxis d t c' a ↔ Reduced isAxis d t c a := by
  unfold Reduced; rw [h]

theorem refineAxis_length (layoutMap : List Nat) (isAxis : Nat → Nat → Bool) (d : Nat) (t : Tree V)
    (a : Nat) (ha : a < 3) (c : Container) :
    (refineAxis layoutMap isAxis d t a c).shape.length = c.shape.length := by
  classical
  rw [refineAxis_shape layoutMap isAxis d t a ha c]
  split <;> simp

theorem refineAxis_transient (layoutMap : List Nat) (isAxis : Nat → Nat → Bool) (d : Nat) (t : Tree V)
    (a : Nat) (c : Container) : (refineAxis layoutMap isAxis d t a c).transient = c.transient := by
  unfold refineAxis reduceAxis
  split
  · rfl
  · split
    · rfl
    · split
      · rfl
      · split <;> rfl

theorem refineAxis_get (layoutMap : List Nat) (isAxis : Nat → Nat → Bool) (d : Nat) (t : Tree V)
    (a : Nat) (ha : a < 3) (c : Container) (b : Nat) :
    (b = a → Reduced isAxis d t c a → b < c.shape.length →
      (refineAxis layoutMap isAxis d t a c).shape[b]? = some 1) ∧
    ((b ≠ a ∨ ¬ Reduced isAxis d t c a) →
      (refineAxis layoutMap isAxis d t a c).shape[b]? = c.shape[b]?) := by
  classical
  rw [refineAxis_shape layoutMap isAxis d t a ha c]
  refine ⟨?_, ?_⟩
  · rintro rfl hr hb
    rw [if_pos hr]
    simp [hb]
  · intro h
    split
    · rename_i hr
      rcases h with h | h
      · rw [List.getElem?_set_ne (by omega)]
      · exact absurd hr h
    · rfl

/-- **C87** (which axes): an axis of a temporary is reduced to one element exactly when the
temporary has at least three dimensions, is accessed, always at one and the same index along the
axis, and from at most one map over the axis; everything else about the shape stays. -/
theorem C87_decision (layoutMap : List Nat) (isAxis : Nat → Nat → Bool) (cs : Containers)
    (t : Tree V) (d : Nat) (c : Container) (hc : cs d = some c) :
    ∃ c', (refine layoutMap isAxis cs t).1 d = some c' ∧ c'.transient = c.transient ∧
      c'.shape.length = c.shape.length ∧
      (∀ a, a < c.shape.length →
        c.transient = true ∧ a < 3 ∧ 3 ≤ c.shape.length ∧ mapCount (isAxis a) d t ≤ 1 ∧
          accesses d t ≠ [] ∧ (∃ e, ∀ m ∈ accesses d t, m.subset[a]? = some (e, 1)) →
        c'.shape[a]? = some 1) ∧
      (∀ a, ¬ (c.transient = true ∧ a < 3 ∧ 3 ≤ c.shape.length ∧ mapCount (isAxis a) d t ≤ 1 ∧
          accesses d t ≠ [] ∧ (∃ e, ∀ m ∈ accesses d t, m.subset[a]? = some (e, 1))) →
        c'.shape[a]? = c.shape[a]?) := by
  refine ⟨refineContainer layoutMap isAxis d t c, ?_, ?_⟩
  · simp only [refine, refineContainers, hc, Option.map_some]
  unfold refineContainer
  cases ht : c.transient with
  | false => simp [ht]
  | true =>
    simp only [if_true, true_and]
    generalize h0 : refineAxis layoutMap isAxis d t 0 c = c0
    generalize h1 : refineAxis layoutMap isAxis d t 1 c0 = c1
    generalize h2 : refineAxis layoutMap isAxis d t 2 c1 = c2
    have l0 : c0.shape.length = c.shape.length := by
      rw [← h0]; exact refineAxis_length layoutMap isAxis d t 0 (by omega) c
    have l1 : c1.shape.length = c.shape.length := by
      rw [← h1, refineAxis_length layoutMap isAxis d t 1 (by omega) c0, l0]
    have l2 : c2.shape.length = c.shape.length := by
      rw [← h2, refineAxis_length layoutMap isAxis d t 2 (by omega) c1, l1]
    have t2 : c2.transient = true := by
      rw [← h2, refineAxis_transient, ← h1, refineAxis_transient, ← h0, refineAxis_transient, ht]
    have r1 := reduced_congr isAxis d t c c0 1 l0
    have r2 := reduced_congr isAxis d t c c1 2 l1
    have g0 := refineAxis_get layoutMap isAxis d t 0 (by omega) c
    have g1 := refineAxis_get layoutMap isAxis d t 1 (by omega) c0
    have g2 := refineAxis_get layoutMap isAxis d t 2 (by omega) c1
    rw [h0] at g0; rw [h1] at g1; rw [h2] at g2
    have hred : ∀ a, (a < 3 ∧ 3 ≤ c.shape.length ∧ mapCount (isAxis a) d t ≤ 1 ∧
          accesses d t ≠ [] ∧ (∃ e, ∀ m ∈ accesses d t, m.subset[a]? = some (e, 1))) ↔
        Reduced isAxis d t c a := by
      intro a
      unfold Reduced OneIndex
      constructor
      · rintro ⟨a1, a2, a3, a4, e, a5⟩; exact ⟨a1, a2, a3, e, a4, a5⟩
      · rintro ⟨a1, a2, a3, e, a4, a5⟩; exact ⟨a1, a2, a3, a4, e, a5⟩
    refine ⟨t2, l2, ?_, ?_⟩
    · intro a hal h
      rw [hred] at h
      have ha := h.1
      have : a = 0 ∨ a = 1 ∨ a = 2 := by omega
      rcases this with rfl | rfl | rfl
      · rw [(g2 0).2 (.inl (by omega)), (g1 0).2 (.inl (by omega)), (g0 0).1 rfl h hal]
      · rw [(g2 1).2 (.inl (by omega)), (g1 1).1 rfl (r1.mpr h) (by omega)]
      · rw [(g2 2).1 rfl (r2.mpr h) (by omega)]
    · intro a h
      rw [hred] at h
      have k2 : c2.shape[a]? = c1.shape[a]? := by
        apply (g2 a).2
        by_cases e : a = 2
        · right; subst e; rw [r2]; exact h
        · exact .inl e
      have k1 : c1.shape[a]? = c0.shape[a]? := by
        apply (g1 a).2
        by_cases e : a = 1
        · right; subst e; rw [r1]; exact h
        · exact .inl e
      have k0 : c0.shape[a]? = c.shape[a]? := by
        apply (g0 a).2
        by_cases e : a = 0
        · right; subst e; exact h
        · exact .inl e
      rw [k2, k1, k0]

/-- **C87** (other containers): containers that are not temporaries are left alone, and so are
all accesses to them. -/
theorem C87_others (layoutMap : List Nat) (isAxis : Nat → Nat → Bool) (cs : Containers) (t : Tree V)
    (d : Nat) (h : ¬ IsTransient cs d) :
    (refine layoutMap isAxis cs t).1 d = cs d ∧
      ∀ m : Memlet, m.data = d → rebuildMemlet (refine layoutMap isAxis cs t).1 m = m := by
  have e : (refine layoutMap isAxis cs t).1 d = cs d := by
    simp only [refine, refineContainers]
    cases hc : cs d with
    | none => rfl
    | some c =>
      have ht : c.transient = false := by
        cases ht : c.transient with
        | false => rfl
        | true => exact absurd ⟨c, hc, ht⟩ h
      simp [refineContainer, ht]
  refine ⟨e, ?_⟩
  rintro m rfl
  exact rebuild_other _ m (by rintro ⟨c, hc, ht⟩; exact h ⟨c, by rw [← e]; exact hc, ht⟩)

theorem accesses_cons (d : Nat) (t : Tree V) (ins outs : List Memlet)
    (hi : t.inMemlets = ins) (ho : t.outMemlets = outs) :
    accesses d t ≠ [] ↔ ∃ m ∈ ins ++ outs, m.data = d := by
  subst hi ho
  simp only [accesses, ne_eq, List.filter_eq_nil_iff, decide_eq_true_eq, not_forall, not_not,
    exists_prop]

/-- An access is either outside the maps over the axis or counted. -/
theorem accesses_counted (isAxis : Nat → Bool) (d : Nat) (t : Tree V) (h : accesses d t ≠ []) :
    accessedHere isAxis d t = true ∨ 1 ≤ mapCount isAxis d t := by
  rw [accesses_cons d t _ _ rfl rfl] at h
  obtain ⟨m, hm, hd⟩ := h
  induction t with
  | done => simp [Tree.inMemlets, Tree.outMemlets] at hm
  | tasklet t rest ih =>
    simp only [Tree.inMemlets, Tree.outMemlets, List.mem_append] at hm ih
    simp only [accessedHere, mapCount, Bool.or_eq_true]
    rcases hm with (hm | hm) | (hm | hm)
    · exact .inl (.inl (by simp only [touches, List.any_eq_true]; exact ⟨m, by simp [hm], by simp [hd]⟩))
    · rcases ih (.inl hm) with h | h
      · exact .inl (.inr h)
      · exact .inr h
    · exact .inl (.inl (by simp only [touches, List.any_eq_true]; exact ⟨m, by simp [hm], by simp [hd]⟩))
    · rcases ih (.inr hm) with h | h
      · exact .inl (.inr h)
      · exact .inr h
  | ifS g body rest ih1 ih2 =>
    simp only [Tree.inMemlets, Tree.outMemlets, List.mem_append] at hm ih1 ih2
    simp only [accessedHere, mapCount, Bool.or_eq_true]
    have : (accessedHere isAxis d body = true ∨ 1 ≤ mapCount isAxis d body) ∨
        (accessedHere isAxis d rest = true ∨ 1 ≤ mapCount isAxis d rest) := by
      rcases hm with (hm | hm) | (hm | hm)
      · exact .inl (ih1 (.inl hm))
      · exact .inr (ih2 (.inl hm))
      · exact .inl (ih1 (.inr hm))
      · exact .inr (ih2 (.inr hm))
    rcases this with (h | h) | (h | h)
    · exact .inl (.inl h)
    · exact .inr (by omega)
    · exact .inl (.inr h)
    · exact .inr (by omega)
  | forS p r body rest ih1 ih2 =>
    simp only [Tree.inMemlets, Tree.outMemlets, List.mem_append] at hm ih1 ih2
    simp only [accessedHere, mapCount, Bool.or_eq_true]
    have : (accessedHere isAxis d body = true ∨ 1 ≤ mapCount isAxis d body) ∨
        (accessedHere isAxis d rest = true ∨ 1 ≤ mapCount isAxis d rest) := by
      rcases hm with (hm | hm) | (hm | hm)
      · exact .inl (ih1 (.inl hm))
      · exact .inr (ih2 (.inl hm))
      · exact .inl (ih1 (.inr hm))
      · exact .inr (ih2 (.inr hm))
    rcases this with (h | h) | (h | h)
    · exact .inl (.inl h)
    · exact .inr (by omega)
    · exact .inl (.inr h)
    · exact .inr (by omega)
  | mapS p r body rest ih1 ih2 =>
    simp only [Tree.inMemlets, Tree.outMemlets, List.mem_append] at hm ih1 ih2
    simp only [accessedHere, mapCount, Bool.or_eq_true]
    have : (accessedHere isAxis d body = true ∨ 1 ≤ mapCount isAxis d body) ∨
        (accessedHere isAxis d rest = true ∨ 1 ≤ mapCount isAxis d rest) := by
      rcases hm with (hm | hm) | (hm | hm)
      · exact .inl (ih1 (.inl hm))
      · exact .inr (ih2 (.inl hm))
      · exact .inl (ih1 (.inr hm))
      · exact .inr (ih2 (.inr hm))
    rcases this with (h | h) | (h | h)
    · cases hp : isAxis p with
      | true => right; simp only [h, Bool.and_self, if_true]; omega
      | false => left; left; simp [h]
    · exact .inr (by omega)
    · exact .inl (.inr h)
    · exact .inr (by omega)

theorem mapCount_map (isAxis : Nat → Bool) (d p : Nat) (r : Rng) (body rest : Tree V)
    (hp : isAxis p = true) (h : accesses d body ≠ []) :
    1 + mapCount isAxis d rest ≤ mapCount isAxis d (.mapS p r body rest) := by
  rcases accesses_counted isAxis d body h with h | h
  · simp only [mapCount, hp, h, Bool.and_self, if_true]
    omega
  · simp only [mapCount]
    omega

theorem mapCount_append (isAxis : Nat → Bool) (d : Nat) (t u : Tree V) :
    mapCount isAxis d (t.append u) = mapCount isAxis d t + mapCount isAxis d u := by
  induction t with
  | done => simp [Tree.append, mapCount]
  | tasklet t rest ih => simp only [Tree.append, mapCount, ih]
  | ifS g body rest _ ih => simp only [Tree.append, mapCount, ih]; omega
  | mapS p r body rest _ ih => simp only [Tree.append, mapCount, ih]; omega
  | forS p r body rest _ ih => simp only [Tree.append, mapCount, ih]; omega

/-- **C87** (several maps): a temporary that is used in two maps over an axis, at any depth, keeps its
size along that axis. -/
theorem C87_two_maps (layoutMap : List Nat) (isAxis : Nat → Nat → Bool) (cs : Containers)
    (pre mid post b1 b2 : Tree V) (p1 p2 : Nat) (q1 q2 : Rng) (d a : Nat) (c : Container)
    (hc : cs d = some c) (h1 : isAxis a p1 = true) (h2 : isAxis a p2 = true)
    (a1 : accesses d b1 ≠ []) (a2 : accesses d b2 ≠ []) :
    ∃ c', (refine layoutMap isAxis cs
        (pre.append (.mapS p1 q1 b1 (mid.append (.mapS p2 q2 b2 post))))).1 d = some c' ∧
      c'.shape[a]? = c.shape[a]? := by
  obtain ⟨c', e, -, -, -, h⟩ := C87_decision layoutMap isAxis cs
    (pre.append (.mapS p1 q1 b1 (mid.append (.mapS p2 q2 b2 post)))) d c hc
  refine ⟨c', e, h a ?_⟩
  rintro ⟨-, -, -, hm, -⟩
  rw [mapCount_append] at hm
  have k1 := mapCount_map (isAxis a) d p1 q1 b1 (mid.append (.mapS p2 q2 b2 post)) h1 a1
  have k2 := mapCount_map (isAxis a) d p2 q2 b2 post h2 a2
  rw [mapCount_append] at k1
  omega

/-! ### Results -/

theorem within_get (env : Env) : ∀ (shape : List Nat) (ss : List (Ix × Nat)), Within env shape ss →
    shape.length = ss.length ∧ ∀ (a n : Nat) (s : Ix × Nat), shape[a]? = some n → ss[a]? = some s →
      0 ≤ s.1.eval env ∧ 1 ≤ s.2 ∧ s.1.eval env + s.2 ≤ n := by
  intro shape
  induction shape with
  | nil =>
    intro ss h
    cases ss with
    | nil => exact ⟨rfl, by intro a n s h; simp at h⟩
    | cons s ss => exact h.elim
  | cons n shape ih =>
    intro ss h
    cases ss with
    | nil => exact h.elim
    | cons s ss =>
      obtain ⟨h1, h2⟩ := ih ss h.2
      refine ⟨by simp [h1], ?_⟩
      intro a
      cases a with
      | zero =>
        intro m s' hm hs
        simp only [List.getElem?_cons_zero, Option.some.injEq] at hm hs
        subst hm; subst hs
        exact h.1
      | succ a =>
        intro m s' hm hs
        simp only [List.getElem?_cons_succ] at hm hs
        exact h2 a m s' hm hs

theorem fixed_of (env : Env) : ∀ (shape : List Nat) (v : List Int) (ss : List (Ix × Nat)),
    v.length = shape.length → ss.length = shape.length →
    (∀ (a : Nat) (x : Int) (s : Ix × Nat), shape[a]? = some 1 → v[a]? = some x → ss[a]? = some s →
      s.1.eval env = x ∧ s.2 = 1) → Fixed env shape v ss := by
  intro shape
  induction shape with
  | nil =>
    intro v ss hv hs _
    cases v <;> cases ss <;> first | trivial | (simp at hv hs)
  | cons n shape ih =>
    intro v ss hv hs h
    cases v with
    | nil => simp at hv
    | cons x v =>
      cases ss with
      | nil => simp at hs
      | cons s ss =>
        refine ⟨fun hn => h 0 x s (by simp [hn]) (by simp) (by simp), ?_⟩
        exact ih v ss (by simpa using hv) (by simpa using hs)
          (fun a x' s' h1 h2 h3 => h (a + 1) x' s' (by simpa using h1) (by simpa using h2)
            (by simpa using h3))

theorem relative_length (env : Env) : ∀ (ss : List (Ix × Nat)) (i : List Int),
    (relative env ss i).isSome → i.length = ss.length := by
  intro ss
  induction ss with
  | nil => intro i h; cases i with
    | nil => rfl
    | cons => simp [relative] at h
  | cons s ss ih =>
    intro i h
    cases i with
    | nil => simp [relative] at h
    | cons i is =>
      obtain ⟨e, k⟩ := s
      simp only [relative] at h
      by_cases hc : e.eval env ≤ i ∧ i < e.eval env + k
      · rw [if_pos hc] at h
        have := ih is (by
          cases hr : relative env ss is with
          | none => rw [hr] at h; simp at h
          | some r => rfl)
        simp [this]
      · rw [if_neg hc] at h; simp at h

theorem relative_get (env : Env) : ∀ (ss : List (Ix × Nat)) (i : List Int),
    (relative env ss i).isSome → ∀ (a : Nat) (s : Ix × Nat), ss[a]? = some s →
      ∃ x, i[a]? = some x ∧ s.1.eval env ≤ x ∧ x < s.1.eval env + s.2 := by
  intro ss
  induction ss with
  | nil => intro i h a s hs; simp at hs
  | cons s ss ih =>
    intro i h a s' hs
    cases i with
    | nil => simp [relative] at h
    | cons i is =>
      obtain ⟨e, k⟩ := s
      simp only [relative] at h
      by_cases hc : e.eval env ≤ i ∧ i < e.eval env + k
      · rw [if_pos hc] at h
        cases a with
        | zero =>
          simp only [List.getElem?_cons_zero, Option.some.injEq] at hs
          subst hs
          exact ⟨i, rfl, hc⟩
        | succ a =>
          simp only [List.getElem?_cons_succ] at hs ⊢
          exact ih is (by
            cases hr : relative env ss is with
            | none => rw [hr] at h; simp at h
            | some r => rfl) a s' hs
      · rw [if_neg hc] at h; simp at h

theorem squeeze_ext : ∀ (shape : List Nat) (i j : List Int), i.length = shape.length →
    j.length = shape.length → squeeze shape i = squeeze shape j →
    (∀ a : Nat, shape[a]? = some 1 → i[a]? = j[a]?) → i = j := by
  intro shape
  induction shape with
  | nil =>
    intro i j hi hj _ _
    cases i <;> cases j <;> first | rfl | (simp at hi hj)
  | cons n shape ih =>
    intro i j hi hj h ha
    cases i with
    | nil => simp at hi
    | cons i is =>
      cases j with
      | nil => simp at hj
      | cons j js =>
        simp only [squeeze, List.cons.injEq] at h
        have := ih is js (by simpa using hi) (by simpa using hj) h.2
          (fun a h1 => by simpa using ha (a + 1) (by simpa using h1))
        subst this
        by_cases hn : n = 1
        · have := ha 0 (by simp [hn])
          simpa using this
        · rw [if_neg hn, if_neg hn] at h
          rw [h.1]

theorem last_split {α : Type} (P : α → Prop) (l : List α) (h : ∃ x ∈ l, P x) :
    ∃ a w b, l = a ++ w :: b ∧ P w ∧ ∀ x ∈ b, ¬ P x := by
  classical
  induction l with
  | nil => obtain ⟨x, hx, -⟩ := h; simp at hx
  | cons y l ih =>
    by_cases h' : ∃ x ∈ l, P x
    · obtain ⟨a, w, b, e, hw, hb⟩ := ih h'
      exact ⟨y :: a, w, b, by rw [e]; rfl, hw, hb⟩
    · obtain ⟨x, hx, hp⟩ := h
      rcases List.mem_cons.mp hx with rfl | hx
      · exact ⟨[], x, l, rfl, hp, fun z hz hz' => h' ⟨z, hz, hz'⟩⟩
      · exact absurd ⟨x, hx, hp⟩ h'

theorem suffix_mem {α : Type} (a b a1 a2 : List α) (w w' : α) (h : a ++ w :: b = a1 ++ w' :: a2)
    (hw : w' ∉ b) : ∀ x ∈ b, x ∈ a2 := by
  intro x hx
  rcases List.append_eq_append_iff.mp h with ⟨z, h1, h2⟩ | ⟨z, h1, h2⟩
  · cases z with
    | nil =>
      simp only [List.nil_append, List.cons.injEq] at h2
      rw [← h2.2]; exact hx
    | cons y z =>
      simp only [List.cons_append, List.cons.injEq] at h2
      exact absurd (by rw [h2.2]; simp) hw
  · cases z with
    | nil =>
      simp only [List.nil_append, List.cons.injEq] at h2
      rw [h2.2]; exact hx
    | cons y z =>
      simp only [List.cons_append, List.cons.injEq] at h2
      rw [h2.2]; simp [hx]

/-- An array that is local to a loop is written before it is read. -/
theorem writtenFirst_of_local (σ : Sched) (hσ : σ.Fair) (d p : Nat) (t : Tree V) (env : Env)
    (h : LocalTo σ d p t) : WrittenFirst d (steps σ t env) := by
  intro a s b e i hi
  obtain ⟨a1, w, a2, rfl, hw, -⟩ := fresh_local σ hσ d p t env h a s b e i hi
  exact ⟨w, by simp, hw⟩

/-- **C87**: the refined program computes the same values of everything that is not temporary, for
each order of the iterations of the maps and whatever the temporaries contain at the start,
provided accesses to temporaries are inside them, no temporary is read before it is written, and
each temporary that is accessed only at one index `p + off` along an axis, with `p` the variable of
a loop or map, is local to the iterations of loops and maps over `p`. -/
theorem C87_preserved [Inhabited V] (layoutMap : List Nat) (isAxis : Nat → Nat → Bool)
    (cs : Containers) (t : Tree V) (σ : Sched) (hσ : σ.Fair) (env : Env)
    (hbounds : InBounds σ cs t env)
    (hinit : ∀ d, IsTransient cs d → WrittenFirst d (steps σ t env))
    (hlocal : ∀ d, IsTransient cs d → ∀ (a p : Nat) (off : Int), a < 3 → accesses d t ≠ [] →
      (∀ m ∈ accesses d t, m.subset[a]? = some (Ix.var p off, 1)) → LocalTo σ d p t)
    (mem mem' : Mem V) (hmem : ∀ c, ¬ IsTransient cs c.1 → mem' c = mem c)
    (c : Cell) (hc : ¬ IsTransient cs c.1) :
    (refine layoutMap isAxis cs t).2.exec σ env mem' c = t.exec σ env mem c := by
  classical
  generalize hcs : (refine layoutMap isAxis cs t).1 = cs'
  have e2 : (refine layoutMap isAxis cs t).2 = rebuild cs' t := by rw [← hcs]; rfl
  have htr : ∀ d, IsTransient cs' d ↔ IsTransient cs d := by
    intro d
    cases hd : cs d with
    | none =>
      have : cs' d = none := by rw [← hcs]; simp [refine, refineContainers, hd]
      simp [IsTransient, hd, this]
    | some k =>
      obtain ⟨k', h1, h2, -⟩ := C87_decision layoutMap isAxis cs t d k hd
      rw [hcs] at h1
      simp [IsTransient, hd, h1, h2]
  -- what is known about the accesses of a temporary
  have hacc : ∀ d, ∀ s ∈ steps σ t env, ∀ m ∈ s.2.ins ++ s.2.outs, m.data = d → m ∈ accesses d t := by
    intro d s hs m hm hmd
    unfold accesses
    rw [List.mem_filter]
    exact ⟨steps_mem σ t env s hs m hm, by simp [hmd]⟩
  have hdim : ∀ d k', cs' d = some k' → k'.transient = true → ∀ s ∈ steps σ t env,
      ∀ m ∈ s.2.ins ++ s.2.outs, m.data = d → m.subset.length = k'.shape.length ∧
        ∀ a, k'.shape[a]? = some 1 →
          (∃ e, a < 3 ∧ accesses d t ≠ [] ∧ ∀ m ∈ accesses d t, m.subset[a]? = some (e, 1)) ∨
          (¬ (∃ e, a < 3 ∧ accesses d t ≠ [] ∧ ∀ m ∈ accesses d t, m.subset[a]? = some (e, 1)) ∧
            ∀ q, m.subset[a]? = some q → q.1.eval s.1 = 0 ∧ q.2 = 1) := by
    intro d k' hk' ht' s hs m hm hmd
    cases hd : cs d with
    | none =>
      have : cs' d = none := by rw [← hcs]; simp [refine, refineContainers, hd]
      rw [this] at hk'; cases hk'
    | some k =>
      obtain ⟨k'', h1, h2, h3, h4, h5⟩ := C87_decision layoutMap isAxis cs t d k hd
      rw [hcs, hk'] at h1
      cases h1
      have htk : k.transient = true := by rw [← h2]; exact ht'
      obtain ⟨g1, g2⟩ := within_get s.1 k.shape m.subset
        (hbounds s hs m hm k (by rw [hmd]; exact hd) htk)
      refine ⟨by omega, ?_⟩
      intro a ha
      by_cases hex : ∃ e, a < 3 ∧ accesses d t ≠ [] ∧ ∀ m ∈ accesses d t, m.subset[a]? = some (e, 1)
      · exact .inl hex
      · right
        refine ⟨hex, ?_⟩
        intro q hq
        rw [h5 a (by rintro ⟨-, u1, -, -, u2, e, u3⟩; exact hex ⟨e, u1, u2, u3⟩)] at ha
        have := g2 a 1 q ha hq
        omega
  -- all memlets of a run use the same indices
  have hfix : ∀ s ∈ steps σ t env, FixedStep cs' s := by
    intro s hs d k' hk' ht'
    let v : Nat → Int := fun a =>
      if h : ∃ e, a < 3 ∧ accesses d t ≠ [] ∧ ∀ m ∈ accesses d t, m.subset[a]? = some (e, 1) then
        (Classical.choose h).eval s.1 else 0
    refine ⟨(List.range k'.shape.length).map v, ?_⟩
    intro m hm hmd
    obtain ⟨u1, u2⟩ := hdim d k' hk' ht' s hs m hm hmd
    refine fixed_of s.1 k'.shape _ m.subset (by simp) u1 ?_
    intro a x q h1 h2 h3
    have hx : x = v a := by
      rw [List.getElem?_map] at h2
      cases hr : (List.range k'.shape.length)[a]? with
      | none => rw [hr] at h2; cases h2
      | some b =>
        rw [hr] at h2
        simp only [Option.map_some, Option.some.injEq] at h2
        rw [List.getElem?_range (by
          have := List.getElem?_eq_some_iff.mp hr; simpa using this.1)] at hr
        cases hr
        exact h2.symm
    rcases u2 a h1 with hex | ⟨hex, hz⟩
    · have hv : v a = (Classical.choose hex).eval s.1 := dif_pos hex
      have := (Classical.choose_spec hex).2.2 m (hacc d s hs m hm hmd)
      rw [h3] at this
      simp only [Option.some.injEq] at this
      rw [hx, hv, this]
      exact ⟨rfl, rfl⟩
    · have hv : v a = 0 := dif_neg hex
      rw [hx, hv]
      exact hz q h3
  -- what is read is still there
  have hkept : ∀ a s b, steps σ t env = a ++ s :: b → ∀ d k', cs' d = some k' → k'.transient = true →
      ∀ i, Reads d s i → Kept d k'.shape ([] ++ a) i := by
    intro a s b e d k' hk' ht' i hi
    have htd : IsTransient cs d := (htr d).mp ⟨k', hk', ht'⟩
    obtain ⟨w, hw, hwi⟩ := hinit d htd a s b e i hi
    obtain ⟨a1, w, a2, ea, hwi, hlast⟩ := last_split (fun x => Writes d x i) a ⟨w, hw, hwi⟩
    refine ⟨a1, w, a2, by simpa using ea, hwi, ?_⟩
    intro x hx j hj hsq
    have hsm : s ∈ steps σ t env := by rw [e]; simp
    have hxm : x ∈ steps σ t env := by rw [e, ea]; simp [hx]
    obtain ⟨mi, hmi, hmid, hmir⟩ := hi
    obtain ⟨mj, hmj, hmjd, hmjr⟩ := hj
    have hmi' : mi ∈ s.2.ins ++ s.2.outs := by simp [hmi]
    have hmj' : mj ∈ x.2.ins ++ x.2.outs := by simp [hmj]
    obtain ⟨li, di⟩ := hdim d k' hk' ht' s hsm mi hmi' hmid
    obtain ⟨lj, dj⟩ := hdim d k' hk' ht' x hxm mj hmj' hmjd
    refine squeeze_ext k'.shape j i (by rw [relative_length _ _ _ hmjr, lj])
      (by rw [relative_length _ _ _ hmir, li]) hsq ?_
    intro ax hax
    rcases di ax hax with ⟨ex, hex⟩ | ⟨hex, hz⟩
    · have si := hex.2.2 mi (hacc d s hsm mi hmi' hmid)
      have sj := hex.2.2 mj (hacc d x hxm mj hmj' hmjd)
      obtain ⟨xi, gi, gi1, gi2⟩ := relative_get _ _ _ hmir ax _ si
      obtain ⟨xj, gj, gj1, gj2⟩ := relative_get _ _ _ hmjr ax _ sj
      have key : ex.eval x.1 = ex.eval s.1 := by
        cases ex with
        | const k => rfl
        | var p off =>
          obtain ⟨b1, w', b2, eb, hw', henv⟩ := fresh_local σ hσ d p t env
            (hlocal d htd ax p off hex.1 hex.2.1 hex.2.2) a s b e i ⟨mi, hmi, hmid, hmir⟩
          have hin := suffix_mem a1 a2 b1 b2 w w' (by rw [← ea, eb])
            (fun hmem => hlast w' hmem hw') x hx
          simp only [Ix.eval]
          rw [henv x hin ⟨j, mj, hmj, hmjd, hmjr⟩]
      simp only at gi1 gi2 gj1 gj2
      rw [gi, gj]
      congr 1
      omega
    · have hlt : ax < mi.subset.length := by
        rw [li]; exact (List.getElem?_eq_some_iff.mp hax).1
      have hlt' : ax < mj.subset.length := by
        rw [lj]; exact (List.getElem?_eq_some_iff.mp hax).1
      have si : mi.subset[ax]? = some mi.subset[ax] := List.getElem?_eq_getElem hlt
      have sj : mj.subset[ax]? = some mj.subset[ax] := List.getElem?_eq_getElem hlt'
      obtain ⟨xi, gi, gi1, gi2⟩ := relative_get _ _ _ hmir ax _ si
      obtain ⟨xj, gj, gj1, gj2⟩ := relative_get _ _ _ hmjr ax _ sj
      have zi := hz _ si
      have zj : mj.subset[ax].1.eval x.1 = 0 ∧ mj.subset[ax].2 = 1 := by
        rcases dj ax hax with hex' | ⟨-, hz'⟩
        · exact absurd hex' hex
        · exact hz' _ sj
      rw [gi, gj]
      congr 1
      omega
  have hrel := related_run cs' (steps σ t env) [] mem mem'
    ⟨fun c hc => hmem c (by rw [← htr]; exact hc), by
      rintro d k - - i ⟨a, w, b, hl, -⟩
      simp at hl⟩ hfix hkept
  rw [e2, exec_steps, exec_steps, steps_rebuild]
  exact hrel.1 c (by rw [htr]; exact hc)

/-! ### Cases -/

/-- Variables 0, 1 and 2 run along the axes 0, 1 and 2. -/
def axisVar (a p : Nat) : Bool := a == p

/-- The point at the iteration variables, shifted along the axes. -/
def here (i j k : Int) : List (Ix × Nat) := [(.var 0 i, 1), (.var 1 j, 1), (.var 2 k, 1)]

/-- Read a point of container `a` and write the point of container `b`, plus one. -/
def copy (a b : Nat) (src : List (Ix × Nat)) : Tasklet Int :=
  ⟨[⟨a, src⟩], [⟨b, here 0 0 0⟩], fun i _ r => i 0 r + 1⟩

/-- Containers 0 and 2 are fields, container 1 is a temporary. -/
def boxes : Containers := fun d =>
  if d = 1 then some ⟨[2, 2, 3], [6, 3, 1], true⟩
  else if d = 0 ∨ d = 2 then some ⟨[2, 2, 3], [6, 3, 1], false⟩ else none

def points : Mem Int := fun c => 100 * c.1 + c.2.foldl (fun a i => 10 * a + i) 0

/-- Maps run in increasing order. -/
def inOrder : Sched := fun _ l => l

/-- Two pointwise stencils in one nest: the temporary becomes a scalar. -/
def nest : Tree Int :=
  .mapS 0 ⟨0, 1, 1⟩ (.mapS 1 ⟨0, 1, 1⟩ (.mapS 2 ⟨0, 2, 1⟩
    (.tasklet (copy 0 1 (here 0 0 0)) (.tasklet (copy 1 2 (here 0 0 0)) .done)) .done) .done) .done

example : ((refine [2, 1, 0] axisVar boxes nest).1 1).map (·.shape) = some [1, 1, 1] := by decide

theorem iters_range (n : Int) (i : Int) (h : i ∈ (⟨0, n, 1⟩ : Rng).iters) : 0 ≤ i ∧ i ≤ n := by
  rw [mem_iters _ (by simp)] at h
  obtain ⟨k, h1, h2⟩ := h
  simp only at h1 h2
  omega

theorem transient_one (d : Nat) (h : IsTransient boxes d) : d = 1 := by
  obtain ⟨c, h1, h2⟩ := h
  unfold boxes at h1
  split at h1
  · assumption
  · split at h1
    · cases h1; cases h2
    · cases h1

theorem nest_pair (env : Env) (σ : Sched) :
    WrittenFirst 1 (steps σ (.tasklet (copy 0 1 (here 0 0 0))
      (.tasklet (copy 1 2 (here 0 0 0)) .done)) env) := by
  intro a s b e i hi
  simp only [steps] at e
  cases a with
  | nil =>
    simp only [List.nil_append, List.cons.injEq] at e
    obtain ⟨rfl, -⟩ := e
    obtain ⟨m, hm, hd, -⟩ := hi
    simp only [copy, List.mem_singleton] at hm
    subst hm
    cases hd
  | cons x a =>
    simp only [List.cons_append, List.cons.injEq] at e
    obtain ⟨rfl, e⟩ := e
    cases a with
    | nil =>
      simp only [List.nil_append, List.cons.injEq] at e
      obtain ⟨rfl, -⟩ := e
      obtain ⟨m, hm, hd, hr⟩ := hi
      simp only [copy, List.mem_singleton] at hm
      subst hm
      exact ⟨_, List.mem_singleton.mpr rfl, ⟨1, here 0 0 0⟩, List.mem_singleton.mpr rfl, rfl, hr⟩
    | cons y a =>
      simp only [List.cons_append, List.cons.injEq] at e
      obtain ⟨-, e⟩ := e
      simp at e

/-- The innermost map of the nest, and the two inner ones. -/
def nest2 : Tree Int :=
  .mapS 2 ⟨0, 2, 1⟩
    (.tasklet (copy 0 1 (here 0 0 0)) (.tasklet (copy 1 2 (here 0 0 0)) .done)) .done

def nest1 : Tree Int := .mapS 1 ⟨0, 1, 1⟩ nest2 .done

theorem nest_local (σ : Sched) (hσ : σ.Fair) (p : Nat) (hp : p < 3) : LocalTo σ 1 p nest := by
  have l2 : LocalTo σ 1 2 nest2 := ⟨⟨⟨⟩, fun env i _ => nest_pair _ σ⟩, trivial⟩
  have l1 : LocalTo σ 1 2 nest1 := ⟨l2, trivial⟩
  have : p = 0 ∨ p = 1 ∨ p = 2 := by omega
  rcases this with rfl | rfl | rfl
  · exact ⟨⟨⟨by decide, ⟨by decide, ⟨⟩, ⟨⟩⟩, ⟨⟩⟩, fun env i _ =>
      writtenFirst_of_local σ hσ 1 2 nest1 _ l1⟩, trivial⟩
  · exact ⟨⟨⟨⟨by decide, ⟨⟩, ⟨⟩⟩, fun env i _ => writtenFirst_of_local σ hσ 1 2 nest2 _ l2⟩, trivial⟩,
      trivial⟩
  · exact ⟨l1, trivial⟩

theorem nest_bounds (σ : Sched) (hσ : σ.Fair) (env : Env) : InBounds σ boxes nest env := by
  intro s hs m hm c hc ht
  have hd : m.data = 1 := transient_one _ ⟨c, hc, ht⟩
  rw [hd] at hc
  have : c = ⟨[2, 2, 3], [6, 3, 1], true⟩ := by
    have : boxes 1 = some ⟨[2, 2, 3], [6, 3, 1], true⟩ := rfl
    rw [this] at hc; exact (Option.some.inj hc).symm
  subst this
  simp only [nest, steps, List.append_nil, List.mem_flatMap] at hs
  obtain ⟨i, hi, j, hj, k, hk, hs⟩ := hs
  have hi := iters_range 1 i ((hσ _ _).mem_iff.mp hi)
  have hj := iters_range 1 j ((hσ _ _).mem_iff.mp hj)
  have hk := iters_range 2 k ((hσ _ _).mem_iff.mp hk)
  have hsub : m.subset = here 0 0 0 := by
    simp only [List.mem_cons, List.not_mem_nil, or_false] at hs
    rcases hs with rfl | rfl <;>
      (simp only [copy, List.cons_append, List.nil_append, List.mem_cons, List.not_mem_nil,
        or_false] at hm
       rcases hm with rfl | rfl <;> rfl)
  have henv : s.1 = ((env.set 0 i).set 1 j).set 2 k := by
    simp only [List.mem_cons, List.not_mem_nil, or_false] at hs
    rcases hs with rfl | rfl <;> rfl
  rw [hsub, henv]
  simp only [Within, here, Ix.eval, Env.set]
  simp
  omega

/-- The nest meets the conditions of `C87_preserved`. -/
example (σ : Sched) (hσ : σ.Fair) (env : Env) (mem mem' : Mem Int)
    (hmem : ∀ c : Cell, c.1 ≠ 1 → mem' c = mem c) (i : List Int) :
    (refine [2, 1, 0] axisVar boxes nest).2.exec σ env mem' (2, i) = nest.exec σ env mem (2, i) := by
  have h2 : ¬ IsTransient boxes 2 := fun h => by have := transient_one 2 h; omega
  refine C87_preserved [2, 1, 0] axisVar boxes nest σ hσ env (nest_bounds σ hσ env) ?_ ?_ mem mem' ?_
    (2, i) h2
  · intro d hd
    rw [transient_one d hd]
    exact writtenFirst_of_local σ hσ 1 2 nest env (nest_local σ hσ 2 (by omega))
  · intro d hd a p off ha _ h
    rw [transient_one d hd] at h ⊢
    apply nest_local σ hσ
    have := h ⟨1, here 0 0 0⟩ (by simp [accesses, nest, Tree.inMemlets, Tree.outMemlets, copy])
    have : a = 0 ∨ a = 1 ∨ a = 2 := by omega
    rcases this with rfl | rfl | rfl <;> simp [here] at this <;> omega
  · intro c hc
    apply hmem
    intro e
    exact hc ⟨⟨[2, 2, 3], [6, 3, 1], true⟩, by rw [e]; rfl, rfl⟩

/-- Two sequential loops over the levels, inside the maps over the other axes: the first computes
the temporary, the second uses it. -/
def twoLoops : Tree Int :=
  .mapS 0 ⟨0, 1, 1⟩ (.mapS 1 ⟨0, 1, 1⟩
    (.forS 2 ⟨0, 2, 1⟩ (.tasklet (copy 0 1 (here 0 0 0)) .done)
      (.forS 2 ⟨0, 2, 1⟩ (.tasklet (copy 1 2 (here 0 0 0)) .done) .done)) .done) .done

/-- **C87** (sequential loops): the class says it refuses a temporary that is used in several loops
over an axis, but only maps are counted: here the temporary is reduced along the levels, and the
second loop sees the last level everywhere. -/
theorem C87_loops_violated :
    ((refine [2, 1, 0] axisVar boxes twoLoops).1 1).map (·.shape) = some [1, 1, 1] ∧
      twoLoops.exec inOrder (fun _ => 0) points (2, [0, 0, 0]) = 2 ∧
      (refine [2, 1, 0] axisVar boxes twoLoops).2.exec inOrder (fun _ => 0) points (2, [0, 0, 0]) = 4 := by
  decide +kernel

/-- A loop over the levels around the maps over the other axes, in which a level uses what the level
below computed. -/
def recurrence : Tree Int :=
  .forS 2 ⟨1, 2, 1⟩ (.mapS 0 ⟨0, 1, 1⟩ (.mapS 1 ⟨0, 1, 1⟩
    (.tasklet (copy 0 1 (here 0 0 0)) (.tasklet (copy 1 2 (here 0 0 (-1))) .done)) .done) .done) .done

/-- **C87** (loop around the maps): the temporary is used in a single map over each horizontal axis,
always at the point itself, and is reduced along both; but the values are needed in the next
iteration of the loop around the maps. -/
theorem C87_recurrence_violated :
    ((refine [2, 1, 0] axisVar boxes recurrence).1 1).map (·.shape) = some [1, 1, 3] ∧
      recurrence.exec inOrder (fun _ => 0) points (2, [0, 0, 2]) = 3 ∧
      (refine [2, 1, 0] axisVar boxes recurrence).2.exec inOrder (fun _ => 0) points (2, [0, 0, 2])
        = 113 := by
  decide +kernel

/-! ### Memory of the reduced array -/

/-- Sum of index times running product. -/
def mixed (shape i : Nat → Nat) : List Nat → Nat → Nat
  | [], _ => 0
  | d :: ds, total => i d * total + mixed shape i ds (total * shape d)

theorem stridesGo_other (shape : List Nat) (a : Nat) : ∀ (ds : List Nat) (total : Nat) (st : List Nat),
    a ∉ ds → (stridesGo shape ds total st)[a]? = st[a]? := by
  intro ds
  induction ds with
  | nil => intros; rfl
  | cons d ds ih =>
    intro total st h
    simp only [List.mem_cons, not_or] at h
    simp only [stridesGo]
    rw [ih _ _ h.2, List.getElem?_set_ne (Ne.symm h.1)]

theorem stridesGo_length (shape : List Nat) : ∀ (ds : List Nat) (total : Nat) (st : List Nat),
    (stridesGo shape ds total st).length = st.length := by
  intro ds
  induction ds with
  | nil => intros; rfl
  | cons d ds ih => intro total st; simp only [stridesGo]; rw [ih]; simp

theorem stridesGo_sum (shape : List Nat) (i : Nat → Nat) : ∀ (ds : List Nat) (total : Nat)
    (st : List Nat), ds.Nodup → (∀ d ∈ ds, d < st.length) →
    (ds.map fun a => i a * (stridesGo shape ds total st).getD a 0).sum
      = mixed (fun a => shape.getD a 1) i ds total := by
  intro ds
  induction ds with
  | nil => intros; rfl
  | cons d ds ih =>
    intro total st hn hl
    obtain ⟨hd, hn⟩ := List.nodup_cons.mp hn
    simp only [stridesGo, List.map_cons, List.sum_cons, mixed]
    rw [ih _ (st.set d total) hn (fun x hx => by simpa using hl x (by simp [hx]))]
    congr 2
    rw [List.getD_eq_getElem?_getD, stridesGo_other shape d ds _ _ hd]
    simp [hl d (by simp)]

theorem mixed_dvd (shape i : Nat → Nat) : ∀ (ds : List Nat) (total : Nat),
    total ∣ mixed shape i ds total := by
  intro ds
  induction ds with
  | nil => intro total; exact Nat.dvd_zero total
  | cons d ds ih =>
    intro total
    exact Nat.dvd_add (Nat.dvd_mul_left _ _)
      (Nat.dvd_trans (Nat.dvd_mul_right _ _) (ih (total * shape d)))

theorem mixed_inj (shape i j : Nat → Nat) : ∀ (ds : List Nat) (total : Nat), 0 < total →
    (∀ d ∈ ds, i d < shape d) → (∀ d ∈ ds, j d < shape d) →
    mixed shape i ds total = mixed shape j ds total → ∀ d ∈ ds, i d = j d := by
  intro ds
  induction ds with
  | nil => intro _ _ _ _ _ d hd; simp at hd
  | cons d ds ih =>
    intro total ht hi hj h
    simp only [mixed] at h
    obtain ⟨x, hx⟩ := mixed_dvd shape i ds (total * shape d)
    obtain ⟨y, hy⟩ := mixed_dvd shape j ds (total * shape d)
    have hid := hi d (by simp)
    have hjd := hj d (by simp)
    have li : i d * total < total * shape d := by
      rw [Nat.mul_comm]; exact Nat.mul_lt_mul_of_pos_left hid ht
    have lj : j d * total < total * shape d := by
      rw [Nat.mul_comm]; exact Nat.mul_lt_mul_of_pos_left hjd ht
    have hm : i d * total = j d * total := by
      have h' := congrArg (· % (total * shape d)) h
      rw [hx, hy, Nat.add_mul_mod_self_left, Nat.add_mul_mod_self_left, Nat.mod_eq_of_lt li,
        Nat.mod_eq_of_lt lj] at h'
      exact h'
    have he : i d = j d := Nat.eq_of_mul_eq_mul_right ht hm
    have hpos : 0 < total * shape d := Nat.mul_pos ht (by omega)
    have hrest : mixed shape i ds (total * shape d) = mixed shape j ds (total * shape d) := by
      omega
    intro x hx
    rcases List.mem_cons.mp hx with rfl | hx
    · exact he
    · exact ih _ hpos (fun y hy => hi y (by simp [hy])) (fun y hy => hj y (by simp [hy])) hrest x hx

theorem mixed_lt (shape i : Nat → Nat) : ∀ (ds : List Nat) (total : Nat), 0 < total →
    (∀ d ∈ ds, i d < shape d) → mixed shape i ds total + total ≤ total * (ds.map shape).prod := by
  intro ds
  induction ds with
  | nil => intro total _ _; simp [mixed]
  | cons d ds ih =>
    intro total ht hi
    have hid := hi d (by simp)
    have := ih (total * shape d) (Nat.mul_pos ht (by omega)) (fun y hy => hi y (by simp [hy]))
    simp only [mixed, List.map_cons, List.prod_cons]
    rw [← Nat.mul_assoc]
    have h2 : i d * total + total ≤ total * shape d := by
      rw [← Nat.succ_mul, Nat.mul_comm]; exact Nat.mul_le_mul_left _ hid
    omega

theorem address_sum : ∀ (i st : List Nat), i.length = st.length →
    address i st = ((List.range st.length).map fun a => i.getD a 0 * st.getD a 0).sum := by
  intro i
  induction i with
  | nil =>
    intro st h
    cases st with
    | nil => rfl
    | cons => simp at h
  | cons x i ih =>
    intro st h
    cases st with
    | nil => simp at h
    | cons s st =>
      simp only [address, List.length_cons, List.range_succ_eq_map, List.map_cons, List.sum_cons,
        List.map_map]
      rw [ih st (by simpa using h)]
      rfl

theorem range_get (l : List Nat) : (List.range l.length).map (fun a => l.getD a 1) = l := by
  induction l with
  | nil => rfl
  | cons x l ih =>
    simp only [List.length_cons, List.range_succ_eq_map, List.map_cons, List.map_map]
    congr 1

theorem perm_sum {l l' : List Nat} (h : l.Perm l') : l.sum = l'.sum := by
  induction h with
  | nil => rfl
  | cons x _ ih => simp [ih]
  | swap x y l => simp only [List.sum_cons]; omega
  | trans _ _ ih1 ih2 => rw [ih1, ih2]

theorem perm_prod {l l' : List Nat} (h : l.Perm l') : l.prod = l'.prod := by
  induction h with
  | nil => rfl
  | cons x _ ih => simp [ih]
  | swap x y l => simp only [List.prod_cons]; exact Nat.mul_left_comm _ _ _
  | trans _ _ ih1 ih2 => rw [ih1, ih2]

/-- **C87** (memory): with the strides set from any order of all dimensions, different elements of
the array are at different places, all within as many places as the array has elements. -/
theorem C87_strides (shape layout i j : List Nat)
    (hl : layout.Perm (List.range shape.length)) (hi : Inside shape i) (hj : Inside shape j) :
    (address i (stridesFor shape layout) = address j (stridesFor shape layout) → i = j) ∧
      address i (stridesFor shape layout) < shape.prod := by
  have hn : layout.Nodup := hl.nodup_iff.mpr List.nodup_range
  have hlen : (stridesFor shape layout).length = shape.length := by
    unfold stridesFor; rw [stridesGo_length]; simp
  have hmem : ∀ d, d ∈ layout ↔ d < shape.length := by
    intro d; rw [hl.mem_iff]; simp
  have key : ∀ k : List Nat, Inside shape k →
      address k (stridesFor shape layout)
        = mixed (fun a => shape.getD a 1) (fun a => k.getD a 0) layout 1 := by
    intro k hk
    rw [address_sum k _ (by rw [hk.1, hlen]), hlen]
    rw [← perm_sum (hl.map fun a => k.getD a 0 * (stridesFor shape layout).getD a 0)]
    exact stridesGo_sum shape _ layout 1 _ hn (fun d hd => by simpa using (hmem d).mp hd)
  have hin : ∀ k : List Nat, Inside shape k → ∀ d ∈ layout, k.getD d 0 < shape.getD d 1 := by
    intro k hk d hd
    have hd' := (hmem d).mp hd
    have hdk : d < k.length := by rw [hk.1]; exact hd'
    have h1 : shape[d]? = some shape[d] := List.getElem?_eq_getElem hd'
    have h2 : k[d]? = some k[d] := List.getElem?_eq_getElem hdk
    have := hk.2 d _ _ h1 h2
    rw [List.getD_eq_getElem?_getD, List.getD_eq_getElem?_getD, h1, h2]
    exact this
  refine ⟨fun h => ?_, ?_⟩
  · rw [key i hi, key j hj] at h
    have heq := mixed_inj _ _ _ layout 1 (by omega) (hin i hi) (hin j hj) h
    apply List.ext_getElem (by rw [hi.1, hj.1])
    intro a ha hb
    have := heq a ((hmem a).mpr (by rw [← hi.1]; exact ha))
    rw [List.getD_eq_getElem?_getD, List.getD_eq_getElem?_getD, List.getElem?_eq_getElem ha,
      List.getElem?_eq_getElem hb] at this
    exact this
  · rw [key i hi]
    have := mixed_lt _ _ layout 1 (by omega) (hin i hi)
    have hp : (layout.map fun a => shape.getD a 1).prod = shape.prod := by
      rw [perm_prod (hl.map fun a => shape.getD a 1), range_get]
    rw [hp] at this
    omega

/-- **C87** (order of the dimensions): from an order of the three axes, the pass makes an order of
all dimensions of the array. -/
theorem C87_layout (layoutMap : List Nat) (h : layoutMap.Perm [0, 1, 2]) (n : Nat) (hn : 3 ≤ n) :
    (layoutOf layoutMap n).Perm (List.range n) := by
  unfold layoutOf
  split
  · rename_i e; subst e; exact h
  · have h1 : (layoutMap.map (· + (n - 3))).Perm ((List.range 3).map (· + (n - 3))) := h.map _
    have h2 : (List.range (n - 3)).reverse.Perm (List.range (n - 3)) := List.reverse_perm _
    have h3 : List.range n = List.range (n - 3) ++ (List.range 3).map ((n - 3) + ·) := by
      rw [← List.range_add]; congr 1; omega
    rw [h3]
    refine (List.Perm.append h1 h2).trans ?_
    rw [show (fun x => x + (n - 3)) = ((n - 3) + ·) from funext fun x => Nat.add_comm _ _]
    exact List.perm_append_comm

/-- The strides were set from the shape. -/
def Strided (layoutMap : List Nat) (c : Container) : Prop :=
  c.strides = stridesFor c.shape (layoutOf layoutMap c.shape.length)

theorem refineAxis_strides (layoutMap : List Nat) (isAxis : Nat → Nat → Bool) (d : Nat) (t : Tree V)
    (a : Nat) (c : Container) : Strided layoutMap (refineAxis layoutMap isAxis d t a c) ∨
      refineAxis layoutMap isAxis d t a c = c := by
  unfold refineAxis reduceAxis
  split
  · exact .inr rfl
  · split
    · exact .inr rfl
    · split
      · exact .inr rfl
      · split
        · exact .inl rfl
        · exact .inr rfl

/-- **C87** (reduced arrays): the elements of a temporary of which the pass changed the shape are at
different places, within as many places as it now has elements. -/
theorem C87_memory (layoutMap : List Nat) (hl : layoutMap.Perm [0, 1, 2])
    (isAxis : Nat → Nat → Bool) (cs : Containers) (t : Tree V) (d : Nat) (c c' : Container)
    (hc : cs d = some c) (hc' : (refine layoutMap isAxis cs t).1 d = some c')
    (hne : c'.shape ≠ c.shape) (i j : List Nat) (hi : Inside c'.shape i) (hj : Inside c'.shape j) :
    (address i c'.strides = address j c'.strides → i = j) ∧ address i c'.strides < c'.shape.prod := by
  have e : c' = refineContainer layoutMap isAxis d t c := by
    simp only [refine, refineContainers, hc, Option.map_some, Option.some.injEq] at hc'
    exact hc'.symm
  have hlen : 3 ≤ c'.shape.length := by
    obtain ⟨k, h1, -, h3, -, h5⟩ := C87_decision layoutMap isAxis cs t d c hc
    rw [hc'] at h1
    cases h1
    rw [h3]
    by_cases hlt : 3 ≤ c.shape.length
    · exact hlt
    · exact absurd (List.ext_getElem? fun a => h5 a (by rintro ⟨-, -, h, -⟩; exact hlt h)) hne
  have hs : Strided layoutMap c' := by
    rw [e]
    unfold refineContainer at e ⊢
    cases ht : c.transient with
    | false =>
      rw [ht] at e
      simp only [Bool.false_eq_true, if_false] at e
      exact absurd (by rw [e]) hne
    | true =>
      rw [ht] at e
      simp only [if_true] at e ⊢
      have s0 := refineAxis_strides layoutMap isAxis d t 0 c
      generalize refineAxis layoutMap isAxis d t 0 c = c0 at *
      have s1 := refineAxis_strides layoutMap isAxis d t 1 c0
      generalize refineAxis layoutMap isAxis d t 1 c0 = c1 at *
      have s2 := refineAxis_strides layoutMap isAxis d t 2 c1
      generalize refineAxis layoutMap isAxis d t 2 c1 = c2 at *
      rcases s2 with s2 | s2
      · exact s2
      · rcases s1 with s1 | s1
        · rw [s2]; exact s1
        · rcases s0 with s0 | s0
          · rw [s2, s1]; exact s0
          · exact absurd (by rw [e, s2, s1, s0]) hne
  unfold Strided at hs
  rw [hs]
  exact C87_strides c'.shape _ i j (C87_layout layoutMap hl _ hlen) hi hj

example : stridesFor [2, 1, 3, 5] (layoutOf [2, 1, 0] 4) = [15, 15, 5, 1] := by decide
example : Inside [2, 1, 3, 5] [1, 0, 2, 4] ∧
    address [1, 0, 2, 4] (stridesFor [2, 1, 3, 5] (layoutOf [2, 1, 0] 4)) = 29 := by
  refine ⟨⟨rfl, ?_⟩, by decide⟩
  intro a n x h1 h2
  match a with
  | 0 => simp at h1 h2; omega
  | 1 => simp at h1 h2; omega
  | 2 => simp at h1 h2; omega
  | 3 => simp at h1 h2; omega
  | (a + 4) => simp at h1

end NDSL.Refine
