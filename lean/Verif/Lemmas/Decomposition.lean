import Verif.Model.Decomposition
import Mathlib.Tactic.Linarith

/-! Facts about the axis loop and the edge size search. -/
namespace NDSL

/-- number of ranks along the axis of a dimension -/
def cnt (layout : Int × Int) (d : Dim) : Int :=
  if d.isJ then layout.1 else if d.isI then layout.2 else 1

/-- position of a rank along the axis of a dimension -/
def idx (sub : Int × Int) (d : Dim) : Int := if d.isJ then sub.1 else sub.2

/-- number of cells of a dimension with extent `n` -/
def cells (d : Dim) (n : Int) : Int := if d.isInterface then n - 1 else n

/-- `exts` are the accepted `(interior, edge)` pairs for `dims`/`extent`. -/
def Accepted (fl : FloatOps) (layout : Int × Int) :
    List Dim → List Int → List (Int × Int) → Prop
  | [], [], [] => True
  | d :: ds, n :: ns, x :: xs =>
    dimExtents fl d (cnt layout d) n = .ok x ∧ Accepted fl layout ds ns xs
  | _, _, _ => False

theorem subtileExtents_cons (fl : FloatOps) (d : Dim) (ds : List Dim) (n : Int) (ns : List Int)
    (layout : Int × Int) :
    subtileExtents fl (d :: ds) (n :: ns) layout =
      (do let x ← dimExtents fl d (cnt layout d) n
          let xs ← subtileExtents fl ds ns layout
          return x :: xs) := by
  simp only [subtileExtents, listByDims, List.map_cons, List.zip_cons_cons, List.mapM_cons, cnt]

theorem subtileExtents_accepted (fl : FloatOps) (layout : Int × Int) :
    ∀ (dims : List Dim) (ext : List Int) (xs : List (Int × Int)), dims.length = ext.length →
      (subtileExtents fl dims ext layout = .ok xs ↔ Accepted fl layout dims ext xs)
  | [], [], xs, _ => by
    cases xs <;> simp [subtileExtents, listByDims, Accepted, pure, Except.pure]
  | d :: ds, n :: ns, xs, h => by
    rw [subtileExtents_cons]
    have ih := subtileExtents_accepted fl layout ds ns
    simp only [List.length_cons, Nat.add_right_cancel_iff] at h
    cases hx : dimExtents fl d (cnt layout d) n with
    | error e => cases xs <;> simp [Accepted, hx, bind, Except.bind]
    | ok x =>
      cases hxs : subtileExtents fl ds ns layout with
      | error e =>
        cases xs with
        | nil => simp [Accepted, bind, Except.bind]
        | cons y ys =>
          have := ih ys h
          rw [hxs] at this
          simp only [bind, Except.bind, Accepted, ← this]
          simp
      | ok zs =>
        cases xs with
        | nil => simp [Accepted, bind, Except.bind, pure, Except.pure]
        | cons y ys =>
          have := ih ys h
          rw [hxs] at this
          simp only [bind, Except.bind, Accepted, ← this, hx, pure, Except.pure]
          simp
  | [], _ :: _, _, h => by simp at h
  | _ :: _, [], _, h => by simp at h

theorem discard_none {α : Type} : ∀ (dims : List Dim) (data : List α), Dim.tile ∉ dims →
    dims.length = data.length → discardDim dims .tile data = data
  | [], [], _, _ => rfl
  | d :: ds, x :: xs, h, hl => by
    simp only [List.mem_cons, not_or] at h
    have ih := discard_none ds xs h.2 (by simpa using hl)
    have hd : d ≠ Dim.tile := fun e => h.1 e.symm
    simp only [discardDim, List.zip_cons_cons, List.filterMap_cons, if_pos hd] at ih ⊢
    rw [ih]
  | [], _ :: _, _, h => by simp at h
  | _ :: _, [], _, h => by simp at h

theorem discard_cons_tile {α : Type} (dims : List Dim) (x : α) (data : List α) :
    discardDim (.tile :: dims) .tile (x :: data) = discardDim dims .tile data := by
  simp [discardDim]

/-! ### the loop -/

theorem axisLoop_start (E I c : Int) (k : Nat) :
    (axisLoop E I c (k + 1)).1 = (axisLoop E I c k).2 := by
  simp only [axisLoop]
  split
  · rename_i h; subst h; simp [axisLoop]
  · split <;> rfl

/-- right ends of the slices -/
def bnd (E I c : Int) (k : Nat) : Int := (axisLoop E I c k).2

theorem bnd_zero (E I c : Int) : bnd E I c 0 = 0 := rfl

theorem bnd_succ (E I c : Int) (k : Nat) :
    bnd E I c (k + 1) = bnd E I c k + (if k = 0 ∨ (k : Int) = c - 1 then E else I) := by
  simp only [bnd, axisLoop]
  by_cases h : k = 0
  · simp [h]
  · by_cases h2 : (k : Int) = c - 1 <;> simp [h, h2]

theorem bnd_mono (E I c : Int) (hE : 0 ≤ E) (hI : 0 ≤ I ∨ c ≤ 2) (k : Nat) (hk : (k : Int) < c) :
    bnd E I c k ≤ bnd E I c (k + 1) := by
  rw [bnd_succ]; split <;> omega

theorem bnd_le (E I c : Int) (hE : 0 ≤ E) (hI : 0 ≤ I ∨ c ≤ 2) (a b : Nat) (hab : a ≤ b)
    (hb : (b : Int) ≤ c) : bnd E I c a ≤ bnd E I c b := by
  induction b with
  | zero => have : a = 0 := by omega
            subst this; exact Int.le_refl _
  | succ b ih =>
    by_cases h : a = b + 1
    · rw [h]
    · have := ih (by omega) (by omega)
      have := bnd_mono E I c hE hI b (by omega)
      omega

theorem bnd_mid (E I c : Int) (k : Nat) (hk : (k : Int) + 1 < c) :
    bnd E I c (k + 1) = E + k * I := by
  induction k with
  | zero => rw [bnd_succ]; simp [bnd_zero]
  | succ k ih =>
    have h := ih (by omega)
    rw [bnd_succ, h, if_neg (by omega)]
    push_cast
    rw [Int.add_mul]
    try omega

/-- total length: the last right end -/
theorem bnd_last (E I : Int) (m : Nat) :
    bnd E I ((m : Int) + 2) (m + 2) = 2 * E + m * I := by
  rw [bnd_succ, bnd_mid _ _ _ _ (by omega), if_pos (Or.inr (by omega))]
  omega

theorem bnd_one (E I c : Int) : bnd E I c 1 = E := by
  rw [bnd_succ]; simp [bnd_zero]

/-- some slice contains `g` -/
theorem bnd_find (E I c g : Int) (k : Nat) (h0 : 0 ≤ g) (hk : g < bnd E I c k) :
    ∃ a : Nat, a < k ∧ bnd E I c a ≤ g ∧ g < bnd E I c (a + 1) := by
  induction k with
  | zero => rw [bnd_zero] at hk; omega
  | succ k ih =>
    by_cases h : g < bnd E I c k
    · obtain ⟨a, ha, h1, h2⟩ := ih h
      exact ⟨a, by omega, h1, h2⟩
    · exact ⟨k, by omega, by omega, hk⟩

/-! ### the search -/

theorem edgeStep_sizes (top start : Int) (s : EdgeSearch)
    (h : ∀ x ∈ s.sizes, 1 ≤ x ∧ x < top) : ∀ x ∈ (edgeStep top start s).sizes, 1 ≤ x ∧ x < top := by
  intro x hx
  simp only [edgeStep] at hx
  by_cases hc : ((1 ≤ start + s.factor * s.offset ∧ start + s.factor * s.offset < top) ∧
      start + s.factor * s.offset ∉ s.sizes)
  · simp only [if_pos hc] at hx
    have : x ∈ s.sizes ++ [start + s.factor * s.offset] := by split at hx <;> exact hx
    rcases List.mem_append.1 this with h1 | h1
    · exact h x h1
    · rw [List.mem_singleton.1 h1]; exact hc.1
  · simp only [if_neg hc] at hx
    have : x ∈ s.sizes := by split at hx <;> exact hx
    exact h x this

theorem validEdgeSizes_range (n c start x : Int) (h : x ∈ validEdgeSizes n c start) :
    1 ≤ x ∧ x < edgeTop n c := by
  have key : ∀ k, ∀ y ∈ (Nat.repeat (edgeStep (edgeTop n c) start) k
      { sizes := [], offset := 0, factor := -1 }).sizes, 1 ≤ y ∧ y < edgeTop n c := by
    intro k
    induction k with
    | zero => intro y hy; simp [Nat.repeat] at hy
    | succ k ih => exact edgeStep_sizes _ _ _ ih
  exact key _ x h

/-- what the search guarantees whatever the floating point rounding -/
theorem dimExtents_sound (fl : FloatOps) (d : Dim) (c n I E : Int) (hc : 1 ≤ c)
    (hh : d.isHorizontal = true ∨ c = 1) (h : dimExtents fl d c n = .ok (I, E)) :
    (c = 1 ∧ I = cells d n ∧ E = cells d n) ∨ (c = 2 ∧ I = E ∧ 2 * E = cells d n) ∨
    (3 ≤ c ∧ 1 ≤ E ∧ 1 ≤ I ∧ 2 * E + (c - 2) * I = cells d n) := by
  unfold dimExtents at h
  rw [show (if d.isInterface then n - 1 else n) = cells d n from rfl] at h
  generalize cells d n = N at h ⊢
  simp only at h
  split at h
  · cases h
  · rename_i hodd
    split at h
    · rename_i h3
      right; right
      split at h
      · cases h
      · rename_i e hf
        have hm := List.mem_of_find?_eq_some hf
        have hp := List.find?_some hf
        have hr := validEdgeSizes_range _ _ _ _ hm
        simp only [beq_iff_eq] at hp
        simp only [Except.ok.injEq, Prod.mk.injEq] at h
        obtain ⟨h1, h2⟩ := h
        subst h2
        rw [h1] at hp
        refine ⟨h3.1, hr.1, ?_, by omega⟩
        have h2 := hr.2
        unfold edgeTop at h2
        have h4 : 2 * e ≤ N - c + 2 := by
          rcases Int.le_total 0 (N - c + 2) with hp | hp
          · rw [Int.tdiv_eq_ediv_of_nonneg hp] at h2; omega
          · have h5 := hr.1
            have : (N - c + 2).tdiv 2 = -((-(N - c + 2)) / 2) := by
              rw [show N - c + 2 = -(-(N - c + 2)) by omega, Int.neg_tdiv,
                Int.tdiv_eq_ediv_of_nonneg (by omega)]
              simp
            omega
        by_contra hI
        have : (c - 2) * I ≤ 0 := Int.mul_nonpos_of_nonneg_of_nonpos (by omega) (by omega)
        omega
    · rename_i h3
      have hc2 : c = 1 ∨ c = 2 := by
        rcases hh with hh | hh
        · have : ¬ c ≥ 3 := fun h => h3 ⟨h, hh⟩
          omega
        · exact Or.inl hh
      simp only [Except.ok.injEq, Prod.mk.injEq] at h
      obtain ⟨h1, h2⟩ := h
      rcases hc2 with rfl | rfl
      · left; simp at h1 h2; omega
      · right; left
        refine ⟨rfl, by omega, ?_⟩
        have hN : N % 2 = 0 := by
          by_contra hne
          exact hodd ⟨by decide, hne⟩
        have : N.tdiv 2 * 2 = N := Int.tdiv_mul_cancel (Int.dvd_of_emod_eq_zero hN)
        omega

/-- consequence: nonnegative sizes and exact total, for nonnegative number of cells -/
theorem dimExtents_bnd (fl : FloatOps) (d : Dim) (c n I E : Int) (hc : 1 ≤ c)
    (hh : d.isHorizontal = true ∨ c = 1) (hn : 0 ≤ cells d n)
    (h : dimExtents fl d c n = .ok (I, E)) :
    0 ≤ E ∧ (0 ≤ I ∨ c ≤ 2) ∧ bnd E I c c.toNat = cells d n := by
  rcases dimExtents_sound fl d c n I E hc hh h with ⟨h1, h2, h3⟩ | ⟨h1, h2, h3⟩ | ⟨h1, h2, h3, h4⟩
  · subst h1; exact ⟨by omega, Or.inr (by omega), by simpa [bnd_one] using h3⟩
  · subst h1
    refine ⟨by omega, Or.inr (by omega), ?_⟩
    have := bnd_last E I 0
    simp at this
    simpa [this] using h3
  · refine ⟨by omega, Or.inl (by omega), ?_⟩
    obtain ⟨m, rfl⟩ : ∃ m : Nat, c = m + 2 := ⟨(c - 2).toNat, by omega⟩
    rw [show ((m : Int) + 2).toNat = m + 2 by omega, bnd_last]
    rw [show (m : Int) + 2 - 2 = m by omega] at h4
    exact h4

theorem cnt_horizontal (layout : Int × Int) (d : Dim) : d.isHorizontal = true ∨ cnt layout d = 1 := by
  cases d <;> simp [Dim.isHorizontal, Dim.isI, Dim.isJ, cnt]

theorem cnt_pos (layout : Int × Int) (d : Dim) (h1 : 0 < layout.1) (h2 : 0 < layout.2) :
    1 ≤ cnt layout d := by
  unfold cnt; split
  · omega
  · split <;> omega

/-- closed form of a horizontal slice -/
theorem dimSlice_horizontal (layout sub : Int × Int) (ov : Bool) (d : Dim) (I E : Int)
    (hd : d.isHorizontal = true) (hi : 0 ≤ idx sub d) :
    dimSlice layout sub ov d I E =
      ⟨bnd E I (cnt layout d) (idx sub d).toNat,
       bnd E I (cnt layout d) ((idx sub d).toNat + 1) +
        (if d.isInterface = true ∧ (ov = true ∨ idx sub d = cnt layout d - 1) then 1 else 0)⟩ := by
  have key : ∀ (i c : Int), 0 ≤ i →
      (let (s, e) := axisLoop E I c (i + 1).toNat
       if d.isInterface && (ov || i == c - 1) then (⟨s, e + 1⟩ : Slice) else ⟨s, e⟩) =
      ⟨bnd E I c i.toNat, bnd E I c (i.toNat + 1) +
        (if d.isInterface = true ∧ (ov = true ∨ i = c - 1) then 1 else 0)⟩ := by
    intro i c hi
    rw [show (i + 1).toNat = i.toNat + 1 by omega]
    have h1 := axisLoop_start E I c i.toNat
    simp only [bnd]
    rcases h : axisLoop E I c (i.toNat + 1) with ⟨s, e⟩
    rw [h] at h1
    simp only at h1
    simp only [Bool.and_eq_true, Bool.or_eq_true, beq_iff_eq]
    split <;> simp [h1]
  unfold dimSlice
  rw [if_pos hd]
  by_cases hJ : d.isJ = true
  · have e1 : idx sub d = sub.1 := by simp [idx, hJ]
    have e2 : cnt layout d = layout.1 := by simp [cnt, hJ]
    rw [e1] at hi
    rw [e1, e2, ← key sub.1 layout.1 hi]
    simp only [hJ, if_true]
  · have hI : d.isI = true := by
      cases d <;> simp_all [Dim.isHorizontal, Dim.isI, Dim.isJ]
    have e1 : idx sub d = sub.2 := by simp [idx, hJ]
    have e2 : cnt layout d = layout.2 := by simp [cnt, hJ, hI]
    rw [e1] at hi
    rw [e1, e2, ← key sub.2 layout.2 hi]
    simp only [hJ, if_false, Bool.false_eq_true]

theorem dimSlice_other (fl : FloatOps) (layout sub : Int × Int) (ov : Bool) (d : Dim) (n I E : Int)
    (hd : d.isHorizontal = false) (h : dimExtents fl d (cnt layout d) n = .ok (I, E)) :
    dimSlice layout sub ov d I E = ⟨0, n⟩ := by
  have hc : cnt layout d = 1 := by
    rcases cnt_horizontal layout d with h | h
    · rw [h] at hd; cases hd
    · exact h
  rw [hc] at h
  rcases dimExtents_sound fl d 1 n I E (by omega) (Or.inr rfl) h with ⟨_, h2, h3⟩ | h | h
  · unfold dimSlice
    rw [if_neg (by simp [hd]), h2]
    unfold cells
    split <;> simp
  · omega
  · omega

end NDSL
