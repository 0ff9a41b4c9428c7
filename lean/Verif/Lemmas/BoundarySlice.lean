import Verif.Spec.Halo

/-! Closed form of the boundary slices. -/
namespace NDSL

/-- region of one dimension -/
def win (b : BType) (n : Int) (interior : Bool) (d : DimSpec) : Slice :=
  let ov := if d.dim.isInterface then 1 else 0
  if b.along d.dim = 0 then ⟨d.origin, d.origin + d.extent⟩
  else if b.along d.dim = -1 then
    if interior then ⟨d.origin + ov, d.origin + ov + n⟩ else ⟨d.origin - n, d.origin⟩
  else
    if interior then ⟨d.origin + d.extent - ov - n, d.origin + d.extent - ov⟩
    else ⟨d.origin + d.extent, d.origin + d.extent + n⟩

theorem win_zero {b : BType} {n : Int} {i : Bool} {d : DimSpec} (h : b.along d.dim = 0) :
    win b n i d = ⟨d.origin, d.origin + d.extent⟩ := by simp [win, h]

theorem win_start {b : BType} {n : Int} {i : Bool} {d : DimSpec} (h : b.along d.dim = -1) :
    win b n i d = if i then ⟨d.origin + (if d.dim.isInterface then 1 else 0),
      d.origin + (if d.dim.isInterface then 1 else 0) + n⟩ else ⟨d.origin - n, d.origin⟩ := by
  simp [win, h]

theorem win_end {b : BType} {n : Int} {i : Bool} {d : DimSpec} (h : b.along d.dim = 1) :
    win b n i d = if i then ⟨d.origin + d.extent - (if d.dim.isInterface then 1 else 0) - n,
      d.origin + d.extent - (if d.dim.isInterface then 1 else 0)⟩
      else ⟨d.origin + d.extent, d.origin + d.extent + n⟩ := by
  simp [win, h]

theorem atStart_along (b : BType) (d : Dim) :
    atStart b d = if b.along d = 0 then none else some (decide (b.along d = -1)) := by
  cases b <;> cases d <;> rfl

theorem along_cases (b : BType) (d : Dim) : b.along d = 0 ∨ b.along d = -1 ∨ b.along d = 1 := by
  cases b <;> cases d <;> simp [BType.along, BType.dir, Dim.isI, Dim.isJ]

theorem along_not_horizontal (b : BType) (d : Dim) (h : d.isHorizontal = false) :
    b.along d = 0 := by
  cases d <;> first | rfl | cases h

theorem dimBoundarySlice_eq (b : BType) (n : Int) (i : Bool) (d : DimSpec) :
    dimBoundarySlice b n i d =
      if (win b n i d).start < 0 ∨ d.shape < (win b n i d).stop then .error .indexError
      else .ok (win b n i d) := by
  have key : rawBoundarySlice b n i d = win b n i d := by
    unfold rawBoundarySlice
    rw [atStart_along]
    unfold win
    by_cases hh : d.dim.isHorizontal = true
    · rcases along_cases b d.dim with h | h | h <;> simp [hh, h]
    · have := along_not_horizontal b d.dim (by simpa using hh)
      simp [hh, this]
  unfold dimBoundarySlice
  simp only [key]
  by_cases h1 : (win b n i d).start < 0
  · simp [h1]
  · by_cases h2 : (win b n i d).stop > d.shape <;> simp [h1, h2]

theorem boundarySlice_ok (b : BType) (n : Int) (i : Bool) :
    ∀ (ds : List DimSpec) (s : List Slice), boundarySlice b n i ds = .ok s ↔
      (s = ds.map (win b n i) ∧
        ∀ d ∈ ds, 0 ≤ (win b n i d).start ∧ (win b n i d).stop ≤ d.shape)
  | [], s => by
    simp only [boundarySlice, List.mapM_nil, pure, Except.pure, Except.ok.injEq, List.map_nil]
    constructor
    · rintro rfl; simp
    · rintro ⟨rfl, _⟩; rfl
  | d :: ds, s => by
    have ih := boundarySlice_ok b n i ds
    unfold boundarySlice at ih ⊢
    rw [List.mapM_cons, dimBoundarySlice_eq]
    by_cases h : (win b n i d).start < 0 ∨ d.shape < (win b n i d).stop
    · rw [if_pos h]
      simp only [bind, Except.bind, reduceCtorEq, List.map_cons, List.mem_cons, forall_eq_or_imp,
        false_iff, not_and]
      intro _ h1
      omega
    · rw [if_neg h]
      cases hm : ds.mapM (dimBoundarySlice b n i) with
      | error e =>
        simp only [bind, Except.bind, reduceCtorEq, List.map_cons, List.mem_cons,
          forall_eq_or_imp, false_iff, not_and]
        intro _ _ h2
        have := (ih _).2 ⟨rfl, h2⟩
        rw [hm] at this; cases this
      | ok xs =>
        have hx := (ih xs).1 hm
        simp only [bind, Except.bind, pure, Except.pure, Except.ok.injEq, List.map_cons,
          List.mem_cons, forall_eq_or_imp]
        constructor
        · rintro rfl
          exact ⟨by rw [hx.1], ⟨by omega, by omega⟩, hx.2⟩
        · rintro ⟨rfl, _⟩
          rw [hx.1]

theorem boundarySlice_error (b : BType) (n : Int) (i : Bool) (ds : List DimSpec) (e : Err)
    (h : boundarySlice b n i ds = .error e) : e = .indexError := by
  induction ds generalizing e with
  | nil => simp [boundarySlice, pure, Except.pure] at h
  | cons d ds ih =>
    unfold boundarySlice at h ih
    rw [List.mapM_cons, dimBoundarySlice_eq] at h
    split at h
    · simp only [bind, Except.bind, Except.error.injEq] at h; exact h.symm
    · cases hm : ds.mapM (dimBoundarySlice b n i) with
      | error e' =>
        rw [hm] at h
        simp only [bind, Except.bind, Except.error.injEq] at h
        subst h; exact ih _ hm
      | ok xs => rw [hm] at h; simp [bind, Except.bind, pure, Except.pure] at h

theorem win_len (b : BType) (n : Int) (i : Bool) (d : DimSpec) :
    (win b n i d).len = if b.along d.dim = 0 then d.extent else n := by
  unfold win Slice.len
  rcases along_cases b d.dim with h | h | h <;> cases i <;> simp [h] <;> omega

theorem selects_map (f : DimSpec → Slice) :
    ∀ (ds : List DimSpec) (g : List Int), Selects (ds.map f) g ↔
      List.Forall₂ (fun d x => (f d).Has x) ds g := by
  intro ds g
  unfold Selects
  rw [List.forall₂_map_left_iff]

end NDSL
