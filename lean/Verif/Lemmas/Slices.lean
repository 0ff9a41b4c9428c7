import Verif.Lemmas.Decomposition
import Verif.Lemmas.Partitioner
import Verif.Spec.Decomposition

/-! Slices of a list of dims, assembled from the per-dimension facts. -/
namespace NDSL

/-- the slices of one rank, from accepted extents -/
def slices (layout sub : Int × Int) (ov : Bool) (dims : List Dim) (exts : List (Int × Int)) :
    List Slice :=
  (dims.zip exts).map fun (d, i, e) => dimSlice layout sub ov d i e

theorem slices_cons (layout sub : Int × Int) (ov : Bool) (d : Dim) (ds : List Dim) (x : Int × Int)
    (xs : List (Int × Int)) :
    slices layout sub ov (d :: ds) (x :: xs) =
      dimSlice layout sub ov d x.1 x.2 :: slices layout sub ov ds xs := rfl

theorem rankSlice_eq (fl : FloatOps) (dims : List Dim) (ext : List Int) (layout sub : Int × Int)
    (ov : Bool) (ht : Dim.tile ∉ dims) (hl : dims.length = ext.length) (s : List Slice) :
    rankSlice fl dims ext layout sub ov = .ok s ↔
      ∃ exts, Accepted fl layout dims ext exts ∧ s = slices layout sub ov dims exts := by
  unfold rankSlice
  rw [discard_none dims dims ht rfl, discard_none dims ext ht hl]
  simp only [← subtileExtents_accepted fl layout dims ext _ hl]
  cases h : subtileExtents fl dims ext layout with
  | error e => simp [bind, Except.bind]
  | ok xs =>
    simp only [bind, Except.bind, pure, Except.pure, Except.ok.injEq]
    constructor
    · intro h; exact ⟨xs, rfl, h.symm⟩
    · rintro ⟨_, rfl, h⟩; exact h.symm

theorem valid_length {dims : List Dim} {ext : List Int} (h : ValidExtents dims ext) :
    dims.length = ext.length := List.Forall₂.length_eq h

theorem valid_cells {d : Dim} {n : Int} (h : 0 ≤ n ∧ (d.isInterface = true → 1 ≤ n)) :
    0 ≤ cells d n := by
  unfold cells; split
  · have := h.2 (by assumption); omega
  · exact h.1

/-- position within the axis -/
theorem idx_of (j i : Int) (d : Dim) : idx (j, i) d = if d.isJ then j else i := rfl

section OneDim
variable {fl : FloatOps} {layout : Int × Int} {d : Dim} {n I E : Int}

/-- non-overlapping slices of one horizontal dimension: some position has `g` -/
theorem dim_exists (h1 : 0 < layout.1) (h2 : 0 < layout.2)
    (hn : 0 ≤ n ∧ (d.isInterface = true → 1 ≤ n)) (hd : d.isHorizontal = true)
    (h : dimExtents fl d (cnt layout d) n = .ok (I, E)) (g : Int) (hg : 0 ≤ g ∧ g < n) :
    ∃ a, 0 ≤ a ∧ a < cnt layout d ∧ ∀ sub, idx sub d = a →
      (dimSlice layout sub false d I E).Has g := by
  have hc := cnt_pos layout d h1 h2
  have hN := valid_cells hn
  obtain ⟨hE, hI, hl⟩ := dimExtents_bnd fl d _ n I E hc (cnt_horizontal _ _) hN h
  by_cases hlt : g < cells d n
  · rw [← hl] at hlt
    obtain ⟨a, ha, h3, h4⟩ := bnd_find E I _ g _ hg.1 hlt
    refine ⟨a, by omega, by omega, ?_⟩
    intro sub hs
    rw [dimSlice_horizontal _ _ _ _ _ _ hd (by omega), hs]
    refine ⟨by simpa using h3, ?_⟩
    simp only [Int.toNat_natCast]
    split <;> omega
  · -- the closing interface line
    have hif : d.isInterface = true := by
      unfold cells at hlt
      by_contra hne
      rw [if_neg hne] at hlt; omega
    have hgc : g = cells d n := by
      unfold cells at hlt ⊢
      rw [if_pos hif] at hlt ⊢; omega
    refine ⟨cnt layout d - 1, by omega, by omega, ?_⟩
    intro sub hs
    rw [dimSlice_horizontal _ _ _ _ _ _ hd (by omega), hs]
    have e : (cnt layout d - 1).toNat + 1 = (cnt layout d).toNat := by omega
    have hm := bnd_le E I (cnt layout d) hE hI (cnt layout d - 1).toNat (cnt layout d).toNat
      (by omega) (by omega)
    refine ⟨?_, ?_⟩
    · show bnd _ _ _ _ ≤ g
      omega
    · show g < _
      rw [e, if_pos ⟨hif, Or.inr rfl⟩]; show g < _ + 1; omega

/-- positions of the same row cannot both have `g` -/
theorem dim_unique (h1 : 0 < layout.1) (h2 : 0 < layout.2)
    (hn : 0 ≤ n ∧ (d.isInterface = true → 1 ≤ n)) (hd : d.isHorizontal = true)
    (h : dimExtents fl d (cnt layout d) n = .ok (I, E)) (g : Int) (sub sub' : Int × Int)
    (hs : 0 ≤ idx sub d ∧ idx sub d < cnt layout d)
    (hs' : 0 ≤ idx sub' d ∧ idx sub' d < cnt layout d)
    (hg : (dimSlice layout sub false d I E).Has g)
    (hg' : (dimSlice layout sub' false d I E).Has g) : idx sub d = idx sub' d := by
  have hc := cnt_pos layout d h1 h2
  have hN := valid_cells hn
  obtain ⟨hE, hI, hl⟩ := dimExtents_bnd fl d _ n I E hc (cnt_horizontal _ _) hN h
  rw [dimSlice_horizontal _ _ _ _ _ _ hd hs.1] at hg
  rw [dimSlice_horizontal _ _ _ _ _ _ hd hs'.1] at hg'
  have key : ∀ a b : Int, 0 ≤ a → a < b → b < cnt layout d →
      bnd E I (cnt layout d) b.toNat ≤ g →
      g < bnd E I (cnt layout d) (a.toNat + 1) +
        (if d.isInterface = true ∧ (false = true ∨ a = cnt layout d - 1) then 1 else 0) → False := by
    intro a b h3 h4 h5 h6 h7
    have := bnd_le E I (cnt layout d) hE hI (a.toNat + 1) b.toNat (by omega) (by omega)
    rw [if_neg (by rintro ⟨_, h | h⟩ <;> [cases h; omega])] at h7
    omega
  rcases Int.lt_trichotomy (idx sub d) (idx sub' d) with hlt | heq | hlt
  · exact (key _ _ hs.1 hlt hs'.2 hg'.1 hg.2).elim
  · exact heq
  · exact (key _ _ hs'.1 hlt hs.2 hg.1 hg'.2).elim

/-- slices stay inside the tile, with or without overlap -/
theorem dim_inside (h1 : 0 < layout.1) (h2 : 0 < layout.2)
    (hn : 0 ≤ n ∧ (d.isInterface = true → 1 ≤ n))
    (h : dimExtents fl d (cnt layout d) n = .ok (I, E)) (ov : Bool) (sub : Int × Int)
    (hs : d.isHorizontal = true → 0 ≤ idx sub d ∧ idx sub d < cnt layout d) :
    0 ≤ (dimSlice layout sub ov d I E).start ∧
    (dimSlice layout sub ov d I E).start ≤ (dimSlice layout sub ov d I E).stop ∧
    (dimSlice layout sub ov d I E).stop ≤ n := by
  by_cases hd : d.isHorizontal = true
  · have hc := cnt_pos layout d h1 h2
    have hN := valid_cells hn
    have hs := hs hd
    obtain ⟨hE, hI, hl⟩ := dimExtents_bnd fl d _ n I E hc (cnt_horizontal _ _) hN h
    rw [dimSlice_horizontal _ _ _ _ _ _ hd hs.1]
    have m0 := bnd_le E I (cnt layout d) hE hI 0 (idx sub d).toNat (by omega) (by omega)
    have m1 := bnd_le E I (cnt layout d) hE hI (idx sub d).toNat ((idx sub d).toNat + 1)
      (by omega) (by omega)
    have m2 := bnd_le E I (cnt layout d) hE hI ((idx sub d).toNat + 1) (cnt layout d).toNat
      (by omega) (by omega)
    rw [bnd_zero] at m0
    have hcl : cells d n = if d.isInterface = true then n - 1 else n := rfl
    refine ⟨m0, ?_, ?_⟩
    · show bnd _ _ _ _ ≤ bnd _ _ _ _ + _
      split <;> omega
    · show bnd _ _ _ _ + _ ≤ n
      split
      · rename_i hi; rw [if_pos hi.1] at hcl; omega
      · split at hcl <;> omega
  · rw [dimSlice_other fl layout sub ov d n I E (by simpa using hd) h]
    exact ⟨by simp, by simpa using hn.1, by simp⟩

end OneDim

/-- slices depend only on the axes present -/
theorem slices_congr (layout sub sub' : Int × Int) (ov : Bool) :
    ∀ (dims : List Dim) (exts : List (Int × Int)),
      (∀ d ∈ dims, d.isHorizontal = true → idx sub d = idx sub' d) →
      slices layout sub ov dims exts = slices layout sub' ov dims exts
  | [], _, _ => rfl
  | _ :: _, [], _ => rfl
  | d :: ds, x :: xs, h => by
    rw [slices_cons, slices_cons, slices_congr layout sub sub' ov ds xs
      (fun d' hd' => h d' (List.mem_cons_of_mem _ hd'))]
    congr 1
    have := h d (by simp)
    unfold dimSlice
    by_cases hd : d.isHorizontal = true
    · have e := this hd
      rw [if_pos hd, if_pos hd]
      unfold idx at e
      by_cases hJ : d.isJ = true
      · simp only [hJ, if_true] at e ⊢; rw [e]
      · simp only [hJ, if_false, Bool.false_eq_true] at e ⊢; rw [e]
    · rw [if_neg hd, if_neg hd]

theorem idx_cnt_range {layout sub : Int × Int} (hj : 0 ≤ sub.1 ∧ sub.1 < layout.1)
    (hi : 0 ≤ sub.2 ∧ sub.2 < layout.2) (d : Dim) (hd : d.isHorizontal = true) :
    0 ≤ idx sub d ∧ idx sub d < cnt layout d := by
  unfold idx cnt
  by_cases hJ : d.isJ = true
  · simpa [hJ] using hj
  · have : d.isI = true := by cases d <;> simp_all [Dim.isHorizontal, Dim.isI, Dim.isJ]
    simpa [hJ, this] using hi

theorem filter_le_one_cons {p : Dim → Bool} {d : Dim} {ds : List Dim}
    (h : ((d :: ds).filter p).length ≤ 1) :
    (ds.filter p).length ≤ 1 ∧ (p d = true → ∀ x ∈ ds, ¬ p x = true) := by
  by_cases hp : p d = true
  · rw [List.filter_cons_of_pos hp] at h
    simp only [List.length_cons] at h
    have h0 : (ds.filter p).length = 0 := by omega
    refine ⟨by omega, fun _ x hx hpx => ?_⟩
    have : x ∈ ds.filter p := List.mem_filter.2 ⟨hx, hpx⟩
    rw [List.length_eq_zero_iff.1 h0] at this
    simp at this
  · rw [List.filter_cons_of_neg hp] at h
    exact ⟨h, fun h' => absurd h' hp⟩

/-- every index of the tile is in the slices of some position -/
theorem slices_exists (fl : FloatOps) (layout : Int × Int) (h1 : 0 < layout.1)
    (h2 : 0 < layout.2) :
    ∀ (dims : List Dim) (ext : List Int) (exts : List (Int × Int)) (g : List Int),
      (dims.filter Dim.isJ).length ≤ 1 → (dims.filter Dim.isI).length ≤ 1 →
      ValidExtents dims ext → Accepted fl layout dims ext exts → InExtent ext g →
      ∃ sub : Int × Int, (0 ≤ sub.1 ∧ sub.1 < layout.1) ∧ (0 ≤ sub.2 ∧ sub.2 < layout.2) ∧
        Selects (slices layout sub false dims exts) g
  | [], [], [], [], _, _, _, _, _ => ⟨(0, 0), by simpa using h1, by simpa using h2, .nil⟩
  | d :: ds, n :: ns, x :: xs, g :: gs, hJ, hI, hv, ha, hg => by
    obtain ⟨hJ1, hJ2⟩ := filter_le_one_cons hJ
    obtain ⟨hI1, hI2⟩ := filter_le_one_cons hI
    cases hv with
    | cons hn hv =>
    cases hg with
    | cons hgn hg =>
    obtain ⟨ha1, ha2⟩ := ha
    obtain ⟨sub, hsj, hsi, hsel⟩ := slices_exists fl layout h1 h2 ds ns xs gs hJ1 hI1 hv ha2 hg
    by_cases hd : d.isHorizontal = true
    · obtain ⟨a, a0, a1, ha⟩ := dim_exists h1 h2 hn hd ha1 g hgn
      by_cases hdJ : d.isJ = true
      · refine ⟨(a, sub.2), ?_, hsi, ?_⟩
        · simp only [cnt, hdJ, if_true] at a1; exact ⟨a0, a1⟩
        · rw [slices_cons, slices_congr layout (a, sub.2) sub false ds xs]
          · exact .cons (ha _ (by simp [idx, hdJ])) hsel
          · intro d' hd' _
            simp [idx, hJ2 hdJ d' hd']
      · have hdI : d.isI = true := by cases d <;> simp_all [Dim.isHorizontal, Dim.isI, Dim.isJ]
        refine ⟨(sub.1, a), hsj, ?_, ?_⟩
        · simp only [cnt, hdJ, hdI, if_true, if_false, Bool.false_eq_true] at a1
          exact ⟨a0, a1⟩
        · rw [slices_cons, slices_congr layout (sub.1, a) sub false ds xs]
          · exact .cons (ha _ (by simp [idx, hdJ])) hsel
          · intro d' hd' hh
            have h' := hI2 hdI d' hd'
            have : d'.isJ = true := by cases d' <;> simp_all [Dim.isHorizontal, Dim.isI, Dim.isJ]
            simp [idx, this]
    · refine ⟨sub, hsj, hsi, ?_⟩
      rw [slices_cons, dimSlice_other fl layout sub false d n x.1 x.2 (by simpa using hd) ha1]
      exact .cons hgn hsel

/-- two positions whose slices share an index agree on every axis present -/
theorem slices_unique (fl : FloatOps) (layout : Int × Int) (h1 : 0 < layout.1)
    (h2 : 0 < layout.2) (sub sub' : Int × Int)
    (hj : 0 ≤ sub.1 ∧ sub.1 < layout.1) (hi : 0 ≤ sub.2 ∧ sub.2 < layout.2)
    (hj' : 0 ≤ sub'.1 ∧ sub'.1 < layout.1) (hi' : 0 ≤ sub'.2 ∧ sub'.2 < layout.2) :
    ∀ (dims : List Dim) (ext : List Int) (exts : List (Int × Int)) (g : List Int),
      ValidExtents dims ext → Accepted fl layout dims ext exts →
      Selects (slices layout sub false dims exts) g →
      Selects (slices layout sub' false dims exts) g →
      ∀ d ∈ dims, d.isHorizontal = true → idx sub d = idx sub' d
  | [], _, _, _, _, _, _, _, d, hd, _ => by simp at hd
  | d :: ds, n :: ns, x :: xs, g :: gs, hv, ha, hs, hs', d', hd', hh => by
    rw [slices_cons] at hs hs'
    cases hv with
    | cons hn hv =>
    cases hs with
    | cons hs1 hs2 =>
    cases hs' with
    | cons hs1' hs2' =>
    obtain ⟨ha1, ha2⟩ := ha
    rcases List.mem_cons.1 hd' with rfl | hd'
    · exact dim_unique h1 h2 hn hh ha1 g sub sub' (idx_cnt_range hj hi _ hh)
        (idx_cnt_range hj' hi' _ hh) hs1 hs1'
    · exact slices_unique fl layout h1 h2 sub sub' hj hi hj' hi' ds ns xs gs hv ha2 hs2 hs2'
        d' hd' hh

theorem slices_inside (fl : FloatOps) (layout : Int × Int) (h1 : 0 < layout.1)
    (h2 : 0 < layout.2) (ov : Bool) (sub : Int × Int)
    (hj : 0 ≤ sub.1 ∧ sub.1 < layout.1) (hi : 0 ≤ sub.2 ∧ sub.2 < layout.2) :
    ∀ (dims : List Dim) (ext : List Int) (exts : List (Int × Int)) (g : List Int),
      ValidExtents dims ext → Accepted fl layout dims ext exts →
      Selects (slices layout sub ov dims exts) g → InExtent ext g
  | [], [], [], g, _, _, hs => by cases hs; exact .nil
  | d :: ds, n :: ns, x :: xs, g :: gs, hv, ha, hs => by
    rw [slices_cons] at hs
    cases hv with
    | cons hn hv =>
    cases hs with
    | cons hs1 hs2 =>
    obtain ⟨ha1, ha2⟩ := ha
    have h := dim_inside h1 h2 hn ha1 ov sub (fun hd => idx_cnt_range hj hi _ hd)
    refine .cons ?_ (slices_inside fl layout h1 h2 ov sub hj hi ds ns xs gs hv ha2 hs2)
    obtain ⟨h3, h4⟩ := hs1
    omega
  | d :: ds, n :: ns, x :: xs, [], hv, ha, hs => by
    rw [slices_cons] at hs; cases hs

/-- the tuple of slices, entry by entry -/
theorem slices_get (fl : FloatOps) (layout sub : Int × Int) (ov : Bool) :
    ∀ (dims : List Dim) (ext : List Int) (exts : List (Int × Int)) (m : Nat) (d : Dim) (n : Int),
      Accepted fl layout dims ext exts → dims[m]? = some d → ext[m]? = some n →
      ∃ x, dimExtents fl d (cnt layout d) n = .ok x ∧ exts[m]? = some x ∧
        (slices layout sub ov dims exts)[m]? = some (dimSlice layout sub ov d x.1 x.2)
  | [], _, _, m, d, n, _, hd, _ => by simp at hd
  | _ :: _, [], _, m, d, n, ha, _, _ => by cases ha
  | _ :: _, _ :: _, [], m, d, n, ha, _, _ => by cases ha
  | d' :: ds, n' :: ns, x' :: xs, m, d, n, ha, hd, hn => by
    obtain ⟨ha1, ha2⟩ := ha
    cases m with
    | zero =>
      simp only [List.getElem?_cons_zero, Option.some.injEq] at hd hn
      subst hd; subst hn
      exact ⟨x', ha1, by simp, by simp [slices_cons]⟩
    | succ m =>
      simp only [List.getElem?_cons_succ] at hd hn
      obtain ⟨x, h1, h2, h3⟩ := slices_get fl layout sub ov ds ns xs m d n ha2 hd hn
      exact ⟨x, h1, by simpa using h2, by simpa [slices_cons] using h3⟩

end NDSL
