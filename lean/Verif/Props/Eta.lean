import Mathlib.Algebra.Order.Ring.Rat
import Mathlib.Algebra.Field.Rat
import Mathlib.Tactic.Ring
import Mathlib.Tactic.Linarith
import Mathlib.Tactic.NormNum
import Mathlib.Tactic.FieldSimp
import Verif.Spec.Eta
/-
Property theorems C63: the hybrid pressure coefficients.
-/
namespace NDSL.Eta

variable {R : Type} [Field R] [LinearOrder R] [IsStrictOrderedRing R]

theorem etaLevels_length {ak bk : List R} {km : Nat} (ha : ak.length = km + 1)
    (hb : bk.length = km + 1) : (etaLevels ak bk).length = km := by
  simp [etaLevels, ha, hb]

theorem etaLevels_get {ak bk : List R} {km : Nat} (ha : ak.length = km + 1)
    (hb : bk.length = km + 1) {i : Nat} (hi : i < km) :
    (etaLevels ak bk)[i]? = some (midPressure ak bk i / 100000) := by
  have e1 : ak.dropLast[i]? = some (ak.getD i 0) := by
    rw [List.getElem?_dropLast, if_pos (by omega), List.getD_eq_getElem?_getD,
      List.getElem?_eq_getElem (by omega)]; rfl
  have e2 : ak.tail[i]? = some (ak.getD (i + 1) 0) := by
    rw [List.getElem?_tail, List.getD_eq_getElem?_getD, List.getElem?_eq_getElem (by omega)]; rfl
  have e3 : bk.dropLast[i]? = some (bk.getD i 0) := by
    rw [List.getElem?_dropLast, if_pos (by omega), List.getD_eq_getElem?_getD,
      List.getElem?_eq_getElem (by omega)]; rfl
  have e4 : bk.tail[i]? = some (bk.getD (i + 1) 0) := by
    rw [List.getElem?_tail, List.getD_eq_getElem?_getD, List.getElem?_eq_getElem (by omega)]; rfl
  unfold etaLevels
  simp only [List.getElem?_map, List.getElem?_zipWith, e1, e2, e3, e4, Option.map_some,
    Option.some.injEq]
  unfold midPressure pressure surfacePressure
  field_simp
  ring

omit [Field R] [IsStrictOrderedRing R] in
theorem nondecreasing_iff (e : List R) : nondecreasing e = true ↔
    ∀ i x y, e[i]? = some x → e[i + 1]? = some y → x ≤ y := by
  unfold nondecreasing
  rw [List.all_eq_true]
  constructor
  · intro h i x y hx hy
    have hi : i + 1 < e.length := by
      by_contra hc
      rw [List.getElem?_eq_none (by omega)] at hy
      cases hy
    have : (List.zipWith (fun x y => decide (x ≤ y)) e.dropLast e.tail)[i]? = some (decide (x ≤ y)) := by
      rw [List.getElem?_zipWith, List.getElem?_dropLast, if_pos (by omega), hx, List.getElem?_tail, hy]
    have := h _ (List.mem_of_getElem? this)
    simpa using this
  · intro h b hb
    obtain ⟨i, hi⟩ := List.getElem?_of_mem hb
    rw [List.getElem?_zipWith, List.getElem?_dropLast, List.getElem?_tail] at hi
    by_cases hl : i < e.length - 1
    · rw [if_pos hl] at hi
      rw [List.getElem?_eq_getElem (by omega), List.getElem?_eq_getElem (by omega)] at hi
      simp only [Option.some.injEq] at hi
      rw [← hi]
      have := h i _ _ (List.getElem?_eq_getElem (by omega)) (List.getElem?_eq_getElem (by omega))
      simpa using this
    · rw [if_neg hl] at hi
      cases hi

theorem eta_iff {ak bk : List R} {km : Nat} (ha : ak.length = km + 1) (hb : bk.length = km + 1) :
    nondecreasing (etaLevels ak bk) = true ↔
      ∀ i, i + 1 < km → midPressure ak bk i ≤ midPressure ak bk (i + 1) := by
  have hpos : (0 : R) < 100000 := by norm_num
  rw [nondecreasing_iff]
  constructor
  · intro h i hi
    have := h i _ _ (etaLevels_get ha hb (by omega)) (etaLevels_get ha hb hi)
    rwa [div_le_div_iff_of_pos_right hpos] at this
  · intro h i x y hx hy
    have hi : i + 1 < km := by
      by_contra hc
      rw [List.getElem?_eq_none (by rw [etaLevels_length ha hb]; omega)] at hy
      cases hy
    rw [etaLevels_get ha hb (by omega)] at hx
    rw [etaLevels_get ha hb hi] at hy
    injection hx with hx
    injection hy with hy
    rw [← hx, ← hy, div_le_div_iff_of_pos_right hpos]
    exact h i hi

theorem etav_of_eta {pi : R} (hpi : 0 < pi) {e : List R} (h : nondecreasing e = true) :
    nondecreasing (e.map (verticalCoordinate pi)) = true := by
  rw [nondecreasing_iff] at h ⊢
  intro i x y hx hy
  rw [List.getElem?_map] at hx hy
  cases h1 : e[i]? with
  | none => rw [h1] at hx; cases hx
  | some a =>
    cases h2 : e[i + 1]? with
    | none => rw [h2] at hy; cases hy
    | some b =>
      rw [h1] at hx
      rw [h2] at hy
      injection hx with hx
      injection hy with hy
      rw [← hx, ← hy]
      have := h i a b h1 h2
      unfold verticalCoordinate
      have h3 : a - eta0 ≤ b - eta0 := by linarith
      exact mul_le_mul_of_nonneg_right (mul_le_mul_of_nonneg_right h3 hpi.le) (by norm_num)

omit [IsStrictOrderedRing R] in
theorem mem_zeros {bk : List R} {i : Nat} : i ∈ zeros bk ↔ bk[i]? = some 0 := by
  unfold zeros
  rw [List.mem_filter, List.mem_range, decide_eq_true_iff]
  constructor
  · exact fun h => h.2
  · intro h
    refine ⟨?_, h⟩
    by_contra hc
    rw [List.getElem?_eq_none (by omega)] at h
    cases h

theorem getLast?_max {l : List Nat} (h : l.Pairwise (· < ·)) {k : Nat} (hk : l.getLast? = some k) :
    k ∈ l ∧ ∀ j ∈ l, j ≤ k := by
  have hm := List.mem_of_getLast? hk
  refine ⟨hm, fun j hj => ?_⟩
  obtain ⟨l', rfl⟩ := List.getLast?_eq_some_iff.1 hk
  rw [List.pairwise_append] at h
  rcases List.mem_append.1 hj with hj | hj
  · exact Nat.le_of_lt (h.2.2 j hj k (List.mem_singleton.2 rfl))
  · rw [List.mem_singleton.1 hj]

omit [IsStrictOrderedRing R] in
theorem zeros_sorted (bk : List R) : (zeros bk).Pairwise (· < ·) :=
  List.Pairwise.filter _ List.pairwise_lt_range

omit [IsStrictOrderedRing R] in
theorem zeros_last {bk : List R} {k : Nat} (h : (zeros bk).getLast? = some k) :
    bk[k]? = some 0 ∧ ∀ j, bk[j]? = some 0 → j ≤ k := by
  obtain ⟨h1, h2⟩ := getLast?_max (zeros_sorted bk) h
  exact ⟨mem_zeros.1 h1, fun j hj => h2 j (mem_zeros.2 hj)⟩

/-- C63: the coefficients are accepted exactly when they are valid for the number of layers asked
for; otherwise the call raises a `ValueError`. -/
theorem C63_accepts (pi : R) (hpi : 0 < pi) (km : Nat) (ak bk : List R) :
    ((∃ c, build pi km ak bk = .ok c) ↔ Valid km ak bk) ∧
      (¬ Valid km ak bk → build pi km ak bk = .error .valueError) := by
  unfold build
  by_cases ha : ak.length = km + 1
  swap
  · rw [if_pos (by omega)]
    exact ⟨⟨fun ⟨c, h⟩ => (by cases h), fun h => absurd h.sizeA ha⟩, fun _ => rfl⟩
  rw [if_neg (by omega)]
  by_cases hb : bk.length = km + 1
  swap
  · rw [if_pos (by omega)]
    exact ⟨⟨fun ⟨c, h⟩ => (by cases h), fun h => absurd h.sizeB hb⟩, fun _ => rfl⟩
  rw [if_neg (by omega)]
  by_cases he : nondecreasing (etaLevels ak bk) = true
  swap
  · have he' : nondecreasing (computeEta pi ak bk).1 = false := Bool.eq_false_iff.2 he
    rw [if_pos he']
    exact ⟨⟨fun ⟨c, h⟩ => (by cases h), fun h => absurd ((eta_iff ha hb).2 h.mid) he⟩, fun _ => rfl⟩
  have he1 : ¬ nondecreasing (computeEta pi ak bk).1 = false := by
    show ¬ nondecreasing (etaLevels ak bk) = false
    rw [he]; decide
  have he2 : ¬ nondecreasing (computeEta pi ak bk).2 = false := by
    show ¬ nondecreasing ((etaLevels ak bk).map (verticalCoordinate pi)) = false
    rw [etav_of_eta hpi he]; decide
  rw [if_neg he1, if_neg he2]
  have hhead : ∃ a, ak.head? = some a := by
    cases ak with
    | nil => simp at ha
    | cons a l => exact ⟨a, rfl⟩
  obtain ⟨a, ha0⟩ := hhead
  rw [ha0]
  cases hz : (zeros bk).getLast? with
  | some k =>
    exact ⟨⟨fun _ => ⟨ha, hb, (eta_iff ha hb).1 he, k, (zeros_last hz).1⟩, fun _ => ⟨_, rfl⟩⟩,
      fun hv => absurd ⟨ha, hb, (eta_iff ha hb).1 he, k, (zeros_last hz).1⟩ hv⟩
  | none =>
    have hnil : zeros bk = [] := List.getLast?_eq_none_iff.1 hz
    refine ⟨⟨fun ⟨c, h⟩ => (by cases h), fun h => ?_⟩, fun _ => rfl⟩
    obtain ⟨i, hi⟩ := h.zero
    have := mem_zeros.2 hi
    rw [hnil] at this
    cases this

/-- C63: what is returned: the arrays given, the first `ak` as the top pressure and, unless there
are 91 layers, the last level whose `bk` is zero. -/
theorem C63_result (pi : R) (km : Nat) (ak bk : List R) (c : Coefficients R)
    (h : build pi km ak bk = .ok c) :
    c.ak = ak ∧ c.bk = bk ∧ ak[0]? = some c.ptop ∧
      (km ≠ 91 → bk[c.ks]? = some 0 ∧ ∀ j, bk[j]? = some 0 → j ≤ c.ks) := by
  unfold build at h
  split at h
  · cases h
  split at h
  · cases h
  split at h
  · cases h
  split at h
  · cases h
  split at h
  · rename_i k a hk ha
    have h := (Except.ok.inj h).symm
    subst h
    refine ⟨rfl, rfl, by rw [← List.head?_eq_getElem?]; exact ha, fun h91 => ?_⟩
    rw [show ((if (km : Int) = 91 then 0 else k) : Nat) = k from if_neg (by omega)]
    exact zeros_last hk
  · cases h
  · cases h

/-- C63: if the first `bk` is zero and they do not decrease, `ks` levels after the top, and no
further, pressure does not depend on the surface. -/
theorem C63_pure_pressure (pi : R) (km : Nat) (ak bk : List R) (c : Coefficients R)
    (h : build pi km ak bk = .ok c) (h91 : km ≠ 91) (h0 : bk[0]? = some 0)
    (hm : ∀ (i j : Nat) x y, i ≤ j → bk[i]? = some x → bk[j]? = some y → x ≤ y) (i : Nat) :
    bk[i]? = some 0 ↔ i ≤ c.ks := by
  obtain ⟨hk, hmax⟩ := (C63_result pi km ak bk c h).2.2.2 h91
  refine ⟨hmax i, fun hi => ?_⟩
  have hl : c.ks < bk.length := by
    by_contra hc
    rw [List.getElem?_eq_none (by omega)] at hk
    cases hk
  have hx : bk[i]? = some bk[i] := List.getElem?_eq_getElem (by omega)
  rw [hx]
  have h1 := hm 0 i _ _ (Nat.zero_le _) h0 hx
  have h2 := hm i c.ks _ _ hi hx hk
  rw [le_antisymm h2 h1]

/-- C63: pressures that do not decrease from level to level are accepted. -/
theorem C63_monotone (pi : R) (hpi : 0 < pi) (km : Nat) (ak bk : List R)
    (ha : ak.length = km + 1) (hb : bk.length = km + 1)
    (hp : ∀ i, i < km → pressure ak bk i ≤ pressure ak bk (i + 1))
    (hz : ∃ i : Nat, bk[i]? = some (0 : R)) : ∃ c, build pi km ak bk = .ok c := by
  refine (C63_accepts pi hpi km ak bk).1.2 ⟨ha, hb, fun i hi => ?_, hz⟩
  have h1 := hp i (by omega)
  have h2 := hp (i + 1) (by omega)
  unfold midPressure
  linarith

omit [IsStrictOrderedRing R] in
/-- C63: the data given is used when both arrays are given, the file otherwise, and the call raises
a `ValueError` when there is neither, or no such file. -/
theorem C63_source (pi : R) (km : Int) (f : Option (Option (List R × List R)))
    (a b : Option (List R)) (ak bk : List R) :
    setCoefficients pi km f (some ak) (some bk) = build pi km ak bk ∧
    (a = none ∨ b = none → setCoefficients pi km (some (some (ak, bk))) a b = build pi km ak bk) ∧
    (a = none ∨ b = none → setCoefficients pi km none a b = .error .valueError) ∧
    (a = none ∨ b = none → setCoefficients pi km (some none) a b = .error .valueError) := by
  refine ⟨rfl, fun h => ?_, fun h => ?_, fun h => ?_⟩ <;>
    (rcases h with rfl | rfl <;> first | rfl | (cases a <;> rfl))

/-- Not so for 91 layers: `ks` is zero whatever the coefficients. -/
theorem C63_ks_violated :
    ∃ (ak bk : List ℚ) (c : Coefficients ℚ), build 3 91 ak bk = .ok c ∧
      c.ks = 0 ∧ bk[1]? = some 0 := by
  refine ⟨List.replicate 92 1, List.replicate 91 0 ++ [1],
    ⟨0, 1, List.replicate 92 1, List.replicate 91 0 ++ [1]⟩, ?_, rfl, by decide +kernel⟩
  decide +kernel

/-- Accepted although pressure decreases from a level to the next: only layer means are compared. -/
theorem C63_levels_violated :
    ∃ (ak bk : List ℚ) (c : Coefficients ℚ), build 3 3 ak bk = .ok c ∧
      pressure ak bk 2 < pressure ak bk 1 := by
  refine ⟨[0, 5, 3, 8], [0, 0, 0, 0], ⟨3, 0, [0, 5, 3, 8], [0, 0, 0, 0]⟩, ?_, ?_⟩ <;> decide +kernel

example : build (3 : ℚ) 3 [1, 2, 3, 0] [0, 0, 1 / 2, 1] =
    .ok ⟨1, 1, [1, 2, 3, 0], [0, 0, 1 / 2, 1]⟩ := by decide +kernel
example : build (3 : ℚ) 3 [1, 2, 1, 0] [0, 0, 0, 0] = .error .valueError := by decide +kernel
example : build (3 : ℚ) 2 [1, 2, 3] [1, 1, 1] = .error .valueError := by decide +kernel

end NDSL.Eta
