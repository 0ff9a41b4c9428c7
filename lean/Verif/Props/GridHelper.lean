import Verif.Model.GridHelper
import Mathlib.Analysis.SpecialFunctions.Log.Basic
import Mathlib.Algebra.Field.Rat
import Mathlib.Tactic.Ring
import Mathlib.Tactic.Linarith
import Mathlib.Tactic.FieldSimp
/-
C82: reference pressures of the vertical grid.  C83: the other grid data.
-/
namespace NDSL.GridHelper
open Real

/-! ### Pressures -/

theorem interface_get {R : Type} [Field R] (ak bk : List R) (i : Nat) (a b : R) (ha : ak[i]? = some a) (hb : bk[i]? = some b) :
    (interfaceOf ak bk)[i]? = some (a + b * pRef) := by
  unfold interfaceOf
  rw [List.getElem?_zipWith, ha, hb]

theorem diffs_get {R : Type} [Field R] (x : List R) (i : Nat) (a b : R) (ha : x[i]? = some a) (hb : x[i + 1]? = some b) :
    (diffs x)[i]? = some (b - a) := by
  unfold diffs
  have hlen : i + 1 < x.length := (List.getElem?_eq_some_iff.mp hb).1
  rw [List.getElem?_zipWith, List.getElem?_tail, hb, List.getElem?_dropLast, if_pos (by omega), ha]

/-- The logarithmic mean of two different positive numbers is between them. -/
theorem log_mean (a b : ℝ) (ha : 0 < a) (hab : a < b) : a < (b - a) / log (b / a) ∧ (b - a) / log (b / a) < b := by
  have hb : 0 < b := lt_trans ha hab
  have h1 : 1 < b / a := by rw [lt_div_iff₀ ha]; linarith
  have hlog : 0 < log (b / a) := log_pos h1
  have h2 : log (b / a) < b / a - 1 := log_lt_sub_one_of_pos (by positivity) (ne_of_gt h1)
  have h3 : log (a / b) < a / b - 1 := log_lt_sub_one_of_pos (by positivity) (ne_of_lt (by rw [div_lt_one hb]; exact hab))
  have h4 : log (a / b) = -log (b / a) := by rw [← log_inv, inv_div]
  constructor
  · rw [lt_div_iff₀ hlog]
    have : a * (b / a - 1) = b - a := by field_simp
    nlinarith
  · rw [div_lt_iff₀ hlog]
    have : b * (1 - a / b) = b - a := by field_simp
    rw [h4] at h3
    nlinarith

theorem sum_diffs (x : List ℝ) (a b : ℝ) (ha : x.head? = some a) (hb : x.getLast? = some b) : (diffs x).sum = b - a := by
  induction x generalizing a with
  | nil => simp at ha
  | cons y ys ih =>
    cases ys with
    | nil =>
      simp only [List.head?_cons, Option.some.injEq] at ha
      simp only [List.getLast?_singleton, Option.some.injEq] at hb
      simp [diffs, ← ha, ← hb]
    | cons z zs =>
      simp only [List.head?_cons, Option.some.injEq] at ha
      have := ih z rfl (by rw [← hb, List.getLast?_cons_cons])
      have e : diffs (y :: z :: zs) = (z - y) :: diffs (z :: zs) := rfl
      rw [e, List.sum_cons, this, ha]
      ring

/-- **C82** (pressures): whenever the interface pressures `ak + bk * 10^5` are positive and increase downward,
the pressure of each level is the difference of its interface pressures by the logarithm of their ratio, and
strictly between them (so that levels increase too), the
thickness of each level is the difference of its interface pressures, and the thicknesses add up to the
difference between surface and top. -/
theorem C82_levels (ak bk : List ℝ) (hlen : ak.length = bk.length)
    (hpos : ∀ (i : Nat) (a b : ℝ), ak[i]? = some a → bk[i]? = some b → 0 < a + b * 100000)
    (hinc : ∀ (i : Nat) (a b a' b' : ℝ), ak[i]? = some a → bk[i]? = some b → ak[i + 1]? = some a' → bk[i + 1]? = some b' →
      a + b * 100000 < a' + b' * 100000) :
    (∀ (i : Nat) (a b : ℝ), ak[i]? = some a → bk[i]? = some b → (interfaceOf ak bk)[i]? = some (a + b * 100000)) ∧
    (levelsOf log (interfaceOf ak bk)).length = ak.length - 1 ∧ (thicknessOf ak bk).length = ak.length - 1 ∧
    (∀ (i : Nat) (a b a' b' : ℝ), ak[i]? = some a → bk[i]? = some b → ak[i + 1]? = some a' → bk[i + 1]? = some b' →
      (∃ p, (levelsOf log (interfaceOf ak bk))[i]? = some p ∧ a + b * 100000 < p ∧ p < a' + b' * 100000 ∧
        p * Real.log ((a' + b' * 100000) / (a + b * 100000)) = (a' + b' * 100000) - (a + b * 100000)) ∧
      (thicknessOf ak bk)[i]? = some ((a' + b' * 100000) - (a + b * 100000))) ∧
    (∀ a b a' b', ak.head? = some a → bk.head? = some b → ak.getLast? = some a' → bk.getLast? = some b' →
      (thicknessOf ak bk).sum = (a' + b' * 100000) - (a + b * 100000)) := by
  have hint : ∀ (i : Nat) (a b : ℝ), ak[i]? = some a → bk[i]? = some b → (interfaceOf ak bk)[i]? = some (a + b * 100000) :=
    fun i a b ha hb => interface_get ak bk i a b ha hb
  have hl : (interfaceOf ak bk).length = ak.length := by
    unfold interfaceOf
    rw [List.length_zipWith, hlen, Nat.min_self]
  have hth : ∀ (i : Nat) (a b a' b' : ℝ), ak[i]? = some a → bk[i]? = some b → ak[i + 1]? = some a' → bk[i + 1]? = some b' →
      (thicknessOf ak bk)[i]? = some ((a' + b' * 100000) - (a + b * 100000)) := by
    intro i a b a' b' ha hb ha' hb'
    unfold thicknessOf
    rw [List.getElem?_zipWith, diffs_get ak i a a' ha ha', diffs_get bk i b b' hb hb']
    simp only [Option.some.injEq]
    unfold pRef
    ring
  have ln : (thicknessOf ak bk).length = ak.length - 1 := by
    simp only [thicknessOf, diffs, List.length_zipWith, List.length_tail, List.length_dropLast, hlen, Nat.min_self]
  refine ⟨hint, ?_, ln, ?_, ?_⟩
  · simp only [levelsOf, diffs, List.length_zipWith, List.length_tail, List.length_dropLast, hl, Nat.min_self]
  · intro i a b a' b' ha hb ha' hb'
    refine ⟨?_, hth i a b a' b' ha hb ha' hb'⟩
    have p0 := hint i a b ha hb
    have p1 := hint (i + 1) a' b' ha' hb'
    have hm := log_mean _ _ (hpos i a b ha hb) (hinc i a b a' b' ha hb ha' hb')
    have hlog : log ((a' + b' * 100000) / (a + b * 100000)) ≠ 0 := by
      apply ne_of_gt
      apply Real.log_pos
      rw [one_lt_div (hpos i a b ha hb)]
      exact hinc i a b a' b' ha hb ha' hb'
    refine ⟨_, ?_, hm.1, hm.2, div_mul_cancel₀ _ hlog⟩
    unfold levelsOf
    have hlt : i + 1 < (interfaceOf ak bk).length := (List.getElem?_eq_some_iff.mp p1).1
    rw [List.getElem?_zipWith, diffs_get _ i _ _ p0 p1, List.getElem?_zipWith, List.getElem?_tail, p1,
      List.getElem?_dropLast, if_pos (by omega), p0]
  · intro a b a' b' ha hb ha' hb'
    have e : thicknessOf ak bk = diffs (interfaceOf ak bk) := by
      apply List.ext_getElem?
      intro i
      by_cases h : i + 1 < ak.length
      · have g1 : ak[i]? = some ak[i] := List.getElem?_eq_getElem (by omega)
        have g2 : bk[i]? = some bk[i] := List.getElem?_eq_getElem (by omega)
        have g3 : ak[i + 1]? = some ak[i + 1] := List.getElem?_eq_getElem (by omega)
        have g4 : bk[i + 1]? = some bk[i + 1] := List.getElem?_eq_getElem (by omega)
        rw [hth i _ _ _ _ g1 g2 g3 g4, diffs_get _ i _ _ (hint i _ _ g1 g2) (hint (i + 1) _ _ g3 g4)]
      · rw [List.getElem?_eq_none (by rw [ln]; omega), List.getElem?_eq_none]
        simp only [diffs, List.length_zipWith, List.length_tail, List.length_dropLast, hl, Nat.min_self]
        omega
    rw [e]
    apply sum_diffs
    · rw [List.head?_eq_getElem?] at ha hb ⊢
      exact hint 0 a b ha hb
    · rw [List.getLast?_eq_getElem?] at ha' hb' ⊢
      rw [hl]
      rw [← hlen] at hb'
      exact hint _ a' b' ha' hb'

/-- Three interfaces from 300 Pa to 1000 hPa. -/
example : (∀ (i : Nat) (a b : ℝ), ([300, 20000, 0] : List ℝ)[i]? = some a → ([0, 3 / 10, 1] : List ℝ)[i]? = some b → 0 < a + b * 100000) ∧
    (∀ (i : Nat) (a b a' b' : ℝ), ([300, 20000, 0] : List ℝ)[i]? = some a → ([0, 3 / 10, 1] : List ℝ)[i]? = some b →
      ([300, 20000, 0] : List ℝ)[i + 1]? = some a' → ([0, 3 / 10, 1] : List ℝ)[i + 1]? = some b' →
      a + b * 100000 < a' + b' * 100000) := by
  constructor
  · intro i a b ha hb
    match i with
    | 0 | 1 | 2 => simp at ha hb; subst ha; subst hb; norm_num
    | k + 3 => simp at ha
  · intro i a b a' b' ha hb ha' hb'
    match i with
    | 0 | 1 => simp at ha hb ha' hb'; subst ha; subst hb; subst ha'; subst hb'; norm_num
    | 2 => simp at ha'
    | k + 3 => simp at ha

/-- **C82** (top): the pressure at the top is given exactly if the first `bk` is 0, and is then the first
interface pressure. -/
theorem C82_top (g : VGrid ℝ) (a b : ℝ) (ha : g.ak[0]? = some a) (hb : g.bk[0]? = some b) :
    (b = 0 → g.ptop = .value a ∧ (interfaceOf g.ak g.bk)[0]? = some a) ∧ (b ≠ 0 → g.ptop = .error .valueError) := by
  have e : g.ptop = if b ≠ 0 then .error .valueError else .value a := by
    unfold VGrid.ptop
    rw [List.head?_eq_getElem?, List.head?_eq_getElem?, ha, hb]
  constructor
  · intro h
    refine ⟨by rw [e, if_neg (by simpa using h)], ?_⟩
    rw [interface_get _ _ 0 a b ha hb, h, zero_mul, add_zero]
  · intro h
    rw [e, if_pos h]

example : (⟨[300, 20000, 0], [0, 3 / 10, 1], none, none, none, none⟩ : VGrid ℚ).ptop = .value 300 := by decide +kernel

/-! ### Histories -/

/-- The history up to (not including) the first read of a kind. -/
def untilRead {R : Type} (reads : VOp R → Bool) (h : List (VOp R)) : List (VOp R) := h.takeWhile (fun o => !reads o)

/-- The coefficients after a history: the last ones set. -/
def lastAk {R : Type} (ak : List R) : List (VOp R) → List R
  | [] => ak
  | .setAk v :: os => lastAk v os
  | _ :: os => lastAk ak os
def lastBk {R : Type} (bk : List R) : List (VOp R) → List R
  | [] => bk
  | .setBk v :: os => lastBk v os
  | _ :: os => lastBk bk os

def readsDp {R : Type} : VOp R → Bool
  | .readDp => true
  | _ => false
def readsInterface {R : Type} : VOp R → Bool
  | .readPInterface => true
  | .readP => true
  | _ => false

section
variable {R : Type} [Field R] [DecidableEq R] (log : R → R)

/-- The state after a history: the coefficients are the last ones set, and what has been computed is from the
coefficients at the time of the first read. -/
structure After (g : VGrid R) (ak bk : List R) (h : List (VOp R)) : Prop where
  ak_eq : g.ak = lastAk ak h
  bk_eq : g.bk = lastBk bk h
  dp_eq : g.dp = if h.any readsDp then some (thicknessOf (lastAk ak (untilRead readsDp h)) (lastBk bk (untilRead readsDp h)))
    else none
  pInterface_eq : g.pInterface = if h.any readsInterface then
      some (interfaceOf (lastAk ak (untilRead readsInterface h)) (lastBk bk (untilRead readsInterface h))) else none
  p_eq : ∀ v, g.p = some v → ∃ w, g.pInterface = some w ∧ v = levelsOf log w

theorem lastAk_append {R : Type} (ak : List R) (h h' : List (VOp R)) : lastAk ak (h ++ h') = lastAk (lastAk ak h) h' := by
  induction h generalizing ak with
  | nil => rfl
  | cons o os ih => cases o <;> simp only [List.cons_append, lastAk, ih]

theorem lastBk_append {R : Type} (bk : List R) (h h' : List (VOp R)) : lastBk bk (h ++ h') = lastBk (lastBk bk h) h' := by
  induction h generalizing bk with
  | nil => rfl
  | cons o os ih => cases o <;> simp only [List.cons_append, lastBk, ih]

theorem until_found {R : Type} (reads : VOp R → Bool) (h h' : List (VOp R)) (hf : h.any reads = true) :
    untilRead reads (h ++ h') = untilRead reads h := by
  unfold untilRead
  induction h with
  | nil => simp at hf
  | cons o os ih =>
    simp only [List.cons_append, List.takeWhile_cons]
    cases ho : reads o with
    | true => simp
    | false =>
      simp only [List.any_cons, ho, Bool.false_or] at hf
      simp only [Bool.not_false, if_true, ih hf]

theorem until_none {R : Type} (reads : VOp R → Bool) (h : List (VOp R)) (hf : h.any reads = false) :
    untilRead reads h = h := by
  unfold untilRead
  induction h with
  | nil => rfl
  | cons o os ih =>
    simp only [List.any_cons, Bool.or_eq_false_iff] at hf
    simp only [List.takeWhile_cons, hf.1, Bool.not_false, if_true, ih hf.2]

theorem until_snoc {R : Type} (reads : VOp R → Bool) (h : List (VOp R)) (o : VOp R) (hf : h.any reads = false)
    (ho : reads o = true) : untilRead reads (h ++ [o]) = h := by
  unfold untilRead
  induction h with
  | nil => simp [ho]
  | cons x xs ih =>
    simp only [List.any_cons, Bool.or_eq_false_iff] at hf
    simp only [List.cons_append, List.takeWhile_cons, hf.1, Bool.not_false, if_true, ih hf.2]

theorem run_snoc (g : VGrid R) (h : List (VOp R)) (o : VOp R) :
    g.run log (h ++ [o]) = (((g.run log h).1.step log o).1, (g.run log h).2 ++ [((g.run log h).1.step log o).2]) := by
  induction h generalizing g with
  | nil => rfl
  | cons x xs ih =>
    simp only [List.cons_append, VGrid.run, ih]

theorem readPInterface_after {g : VGrid R} {ak bk : List R} {h : List (VOp R)} (A : After log g ak bk h) :
    g.readPInterface.2 = interfaceOf (lastAk ak (untilRead readsInterface h)) (lastBk bk (untilRead readsInterface h)) ∧
    g.readPInterface.1.pInterface = some g.readPInterface.2 ∧ g.readPInterface.1.ak = g.ak ∧ g.readPInterface.1.bk = g.bk ∧
    g.readPInterface.1.dp = g.dp ∧ g.readPInterface.1.p = g.p := by
  have hp := A.pInterface_eq
  unfold VGrid.readPInterface
  by_cases hf : h.any readsInterface = true
  · rw [if_pos hf] at hp
    rw [hp]
    exact ⟨rfl, hp, rfl, rfl, rfl, rfl⟩
  · rw [if_neg hf] at hp
    rw [hp, until_none _ _ (by simpa using hf), A.ak_eq, A.bk_eq]
    exact ⟨rfl, rfl, rfl, rfl, rfl, rfl⟩

theorem readP_after {g : VGrid R} {ak bk : List R} {h : List (VOp R)} (A : After log g ak bk h) :
    (g.readP log).2 = levelsOf log (interfaceOf (lastAk ak (untilRead readsInterface h)) (lastBk bk (untilRead readsInterface h))) ∧
    (g.readP log).1.pInterface = some (interfaceOf (lastAk ak (untilRead readsInterface h)) (lastBk bk (untilRead readsInterface h))) ∧
    (g.readP log).1.ak = g.ak ∧ (g.readP log).1.bk = g.bk ∧ (g.readP log).1.dp = g.dp ∧
    (g.readP log).1.p = some (g.readP log).2 := by
  obtain ⟨r1, r2, r3, r4, r5, r6⟩ := readPInterface_after log A
  unfold VGrid.readP
  cases hp : g.p with
  | none =>
    simp only
    refine ⟨by rw [r1], by rw [r2, r1], r3, r4, r5, trivial⟩
  | some v =>
    obtain ⟨w, hw, hv⟩ := A.p_eq v hp
    simp only
    have hi : g.readPInterface = (g, w) := by
      unfold VGrid.readPInterface
      rw [hw]
    rw [hi] at r1
    refine ⟨by rw [hv, ← r1], by rw [hw, ← r1], trivial, trivial, trivial, hp⟩

theorem readDp_after {g : VGrid R} {ak bk : List R} {h : List (VOp R)} (A : After log g ak bk h) :
    g.readDp.2 = thicknessOf (lastAk ak (untilRead readsDp h)) (lastBk bk (untilRead readsDp h)) ∧
    g.readDp.1.dp = some g.readDp.2 ∧ g.readDp.1.ak = g.ak ∧ g.readDp.1.bk = g.bk ∧
    g.readDp.1.pInterface = g.pInterface ∧ g.readDp.1.p = g.p := by
  have hp := A.dp_eq
  unfold VGrid.readDp
  by_cases hf : h.any readsDp = true
  · rw [if_pos hf] at hp
    rw [hp]
    exact ⟨rfl, hp, rfl, rfl, rfl, rfl⟩
  · rw [if_neg hf] at hp
    rw [hp, until_none _ _ (by simpa using hf), A.ak_eq, A.bk_eq]
    exact ⟨rfl, rfl, rfl, rfl, rfl, rfl⟩

theorem cached (reads : VOp R → Bool) (f : List R → List R → List R) (ak bk : List R) (h : List (VOp R)) (o : VOp R)
    (x : Option (List R))
    (hx : x = if h.any reads then some (f (lastAk ak (untilRead reads h)) (lastBk bk (untilRead reads h))) else none) :
    (reads o = true → some (f (lastAk ak (untilRead reads h)) (lastBk bk (untilRead reads h))) =
      if (h ++ [o]).any reads then some (f (lastAk ak (untilRead reads (h ++ [o]))) (lastBk bk (untilRead reads (h ++ [o])))) else none) ∧
    (reads o = false → x =
      if (h ++ [o]).any reads then some (f (lastAk ak (untilRead reads (h ++ [o]))) (lastBk bk (untilRead reads (h ++ [o])))) else none) := by
  by_cases hf : h.any reads = true
  · have e : (h ++ [o]).any reads = true := by rw [List.any_append, hf, Bool.true_or]
    rw [if_pos e, until_found _ _ _ hf]
    rw [if_pos hf] at hx
    exact ⟨fun _ => rfl, fun _ => hx⟩
  · have hf' : h.any reads = false := by simpa using hf
    rw [if_neg hf] at hx
    constructor
    · intro ho
      rw [if_pos (by rw [List.any_append, List.any_cons, ho]; simp), until_snoc _ _ _ hf' ho, until_none _ _ hf']
    · intro ho
      rw [if_neg (by rw [List.any_append, hf', List.any_cons, ho]; simp), hx]

theorem after_run (ak bk : List R) (h : List (VOp R)) :
    After log ((⟨ak, bk, none, none, none, none⟩ : VGrid R).run log h).1 ak bk h := by
  induction h using List.reverseRecOn with
  | nil => exact ⟨rfl, rfl, rfl, rfl, fun v hv => by simp [VGrid.run] at hv⟩
  | append_singleton h o A =>
    rw [run_snoc]
    generalize ((⟨ak, bk, none, none, none, none⟩ : VGrid R).run log h).1 = g at A
    have cd := cached readsDp thicknessOf ak bk h o g.dp A.dp_eq
    have ci := cached readsInterface interfaceOf ak bk h o g.pInterface A.pInterface_eq
    obtain ⟨i1, i2, i3, i4, i5, i6⟩ := readPInterface_after log A
    obtain ⟨p1, p2, p3, p4, p5, p6⟩ := readP_after log A
    obtain ⟨d1, d2, d3, d4, d5, d6⟩ := readDp_after log A
    cases o with
    | readPInterface =>
      refine ⟨?_, ?_, ?_, ?_, ?_⟩
      · rw [lastAk_append]; exact i3.trans A.ak_eq
      · rw [lastBk_append]; exact i4.trans A.bk_eq
      · exact i5.trans (cd.2 rfl)
      · exact i2.trans (by rw [i1]; exact ci.1 rfl)
      · intro v hv
        obtain ⟨w, hw, hv'⟩ := A.p_eq v (i6.symm.trans hv)
        refine ⟨_, i2, ?_⟩
        rw [hv']
        unfold VGrid.readPInterface
        rw [hw]
    | readP =>
      refine ⟨?_, ?_, ?_, ?_, ?_⟩
      · rw [lastAk_append]; exact p3.trans A.ak_eq
      · rw [lastBk_append]; exact p4.trans A.bk_eq
      · exact p5.trans (cd.2 rfl)
      · exact p2.trans (ci.1 rfl)
      · intro v hv
        have : some (g.readP log).2 = some v := p6.symm.trans hv
        exact ⟨_, p2, by rw [← Option.some.inj this, p1]⟩
    | readDp =>
      refine ⟨?_, ?_, ?_, ?_, ?_⟩
      · rw [lastAk_append]; exact d3.trans A.ak_eq
      · rw [lastBk_append]; exact d4.trans A.bk_eq
      · exact d2.trans (by rw [d1]; exact cd.1 rfl)
      · exact d5.trans (ci.2 rfl)
      · intro v hv
        obtain ⟨w, hw, hv'⟩ := A.p_eq v (d6.symm.trans hv)
        exact ⟨w, d5.trans hw, hv'⟩
    | readPtop =>
      exact ⟨by rw [lastAk_append]; exact A.ak_eq, by rw [lastBk_append]; exact A.bk_eq, cd.2 rfl, ci.2 rfl, A.p_eq⟩
    | readKs =>
      exact ⟨by rw [lastAk_append]; exact A.ak_eq, by rw [lastBk_append]; exact A.bk_eq, cd.2 rfl, ci.2 rfl, A.p_eq⟩
    | setAk v =>
      exact ⟨by rw [lastAk_append]; rfl, by rw [lastBk_append]; exact A.bk_eq, cd.2 rfl, ci.2 rfl, A.p_eq⟩
    | setBk v =>
      exact ⟨by rw [lastAk_append]; exact A.ak_eq, by rw [lastBk_append]; rfl, cd.2 rfl, ci.2 rfl, A.p_eq⟩
    | setPtop v =>
      exact ⟨by rw [lastAk_append]; exact A.ak_eq, by rw [lastBk_append]; exact A.bk_eq, cd.2 rfl, ci.2 rfl, A.p_eq⟩
    | setKs v =>
      exact ⟨by rw [lastAk_append]; exact A.ak_eq, by rw [lastBk_append]; exact A.bk_eq, cd.2 rfl, ci.2 rfl, A.p_eq⟩

/-- **C82** (histories): after every history of reads and changes of the coefficients, reading the thicknesses
gives those of the coefficients in force at the first read of thicknesses, and reading interface or level
pressures those of the coefficients in force at the first read of either; the top pressure is always that of
the coefficients in force. -/
theorem C82_history (ak bk : List R) (h : List (VOp R)) :
    let g : VGrid R := ⟨ak, bk, none, none, none, none⟩
    let first := fun reads : VOp R → Bool => untilRead reads h
    (g.run log (h ++ [.readDp])).2.getLast? =
      some (.values (thicknessOf (lastAk ak (first readsDp)) (lastBk bk (first readsDp)))) ∧
    (g.run log (h ++ [.readPInterface])).2.getLast? =
      some (.values (interfaceOf (lastAk ak (first readsInterface)) (lastBk bk (first readsInterface)))) ∧
    (g.run log (h ++ [.readP])).2.getLast? =
      some (.values (levelsOf log (interfaceOf (lastAk ak (first readsInterface)) (lastBk bk (first readsInterface))))) ∧
    (g.run log (h ++ [.readPtop])).2.getLast? = some (VGrid.ptop ⟨lastAk ak h, lastBk bk h, none, none, none, none⟩) := by
  intro g first
  have A := after_run log ak bk h
  have l : ∀ o, (g.run log (h ++ [o])).2.getLast? = some ((g.run log h).1.step log o).2 := by
    intro o
    rw [run_snoc, List.getLast?_append]
    rfl
  rw [l, l, l, l]
  refine ⟨?_, ?_, ?_, ?_⟩
  · show some (VRes.values _) = _
    rw [(readDp_after log A).1]
  · show some (VRes.values _) = _
    rw [(readPInterface_after log A).1]
  · show some (VRes.values _) = _
    rw [(readP_after log A).1]
  · show some (VGrid.ptop _) = _
    unfold VGrid.ptop
    rw [A.ak_eq, A.bk_eq]

end

/-- **C82** (histories, violated): after new coefficients are set, the thicknesses stay those of the old ones,
while the top pressure is new. -/
theorem C82_stale_violated :
    ((⟨[300, 20000, 0], [0, 3 / 10, 1], none, none, none, none⟩ : VGrid ℚ).run id
      [.readDp, .setAk [100, 30000, 0], .readDp, .readPtop]).2 =
    [.values [49700, 50000], .done, .values [49700, 50000], .value 100] ∧
    thicknessOf ([100, 30000, 0] : List ℚ) [0, 3 / 10, 1] = [59900, 40000] := by decide +kernel

/-- **C82** (setters, violated): setting the top pressure always fails, and so does reading the number of pure
pressure levels unless it has been set before by the user. -/
theorem C82_setters_violated {R : Type} [Field R] [DecidableEq R] (log : R → R) (g : VGrid R) (v : R) :
    g.step log (.setPtop v) = (g, .error .attributeError) ∧
    (g.ks = none → (g.step log .readKs).2 = .error .attributeError) := by
  refine ⟨rfl, fun h => ?_⟩
  show (match g.ks with | some v => VRes.value v | none => .error .attributeError) = _
  rw [h]

/-! ### Driver data -/

/-- **C83** (components): splitting a quantity along its last dimension gives one quantity per index of that
dimension, in order, each holding the values at that index, with the other dimensions as they were. -/
theorem C83_split {α : Type} (q : HQty α) (n : Nat) (hn : q.data.shape.getLast? = some (n : Int)) :
    ∃ parts, splitLast q = .ok parts ∧ parts.length = n ∧ ∀ (i : Nat) p, parts[i]? = some p →
      (∀ idx, p.data.get idx = q.data.get (idx ++ [(i : Int)])) ∧ p.data.shape ++ [(n : Int)] = q.data.shape ∧
      p.dims = q.dims.dropLast ∧ p.origin = q.origin.dropLast ∧ p.extent = q.extent.dropLast := by
  unfold splitLast
  rw [hn]
  refine ⟨_, rfl, by simp, ?_⟩
  intro i p hp
  rw [List.getElem?_map, Option.map_eq_some_iff] at hp
  obtain ⟨k, hk, hp⟩ := hp
  have hki : k = i := by
    have := List.getElem?_eq_some_iff.mp hk
    obtain ⟨h1, h2⟩ := this
    rw [List.getElem_range] at h2
    exact h2.symm
  subst hki
  subst hp
  refine ⟨fun _ => rfl, ?_, rfl, rfl, rfl⟩
  show q.data.shape.dropLast ++ [(n : Int)] = _
  have hne : q.data.shape ≠ [] := by
    intro h
    rw [h] at hn
    simp at hn
  have : q.data.shape.getLast hne = n := by
    rw [List.getLast?_eq_some_getLast hne] at hn
    exact Option.some.inj hn
  rw [← this, List.dropLast_append_getLast]

/-- A 3 by 4 field of vectors. -/
def exVec (c : Int) : HQty Int :=
  ⟨⟨[3, 4, 3], fun idx => c * (100 * idx.getD 0 0 + 10 * idx.getD 1 0 + idx.getD 2 0 + 1)⟩,
    [.i, .j, .other "xyz"], [0, 0, 0], [3, 4, 3]⟩

example : (exVec 1).data.shape.getLast? = some ((3 : Nat) : Int) := rfl

/-- **C83** (driver): made from the grid variables, the driver's data has the components of the longitude and
latitude directions and of the edge directions, and the edge factors and grid type given. -/
theorem C83_driver {α : Type} (vlon vlat edgeN edgeS edgeE edgeW es1 ew2 : HQty α) (gt : Int)
    (h1 : vlon.data.shape.getLast? = some 3) (h2 : vlat.data.shape.getLast? = some 3)
    (h3 : es1.data.shape.getLast? = some 3) (h4 : ew2.data.shape.getLast? = some 3) :
    ∃ d, Driver.fromVariables vlon vlat edgeN edgeS edgeE edgeW es1 ew2 gt = .ok d ∧
      (∀ idx, d.vlon1.data.get idx = vlon.data.get (idx ++ [0]) ∧ d.vlon2.data.get idx = vlon.data.get (idx ++ [1]) ∧
        d.vlon3.data.get idx = vlon.data.get (idx ++ [2])) ∧
      (∀ idx, d.vlat1.data.get idx = vlat.data.get (idx ++ [0]) ∧ d.vlat2.data.get idx = vlat.data.get (idx ++ [1]) ∧
        d.vlat3.data.get idx = vlat.data.get (idx ++ [2])) ∧
      (∀ idx, d.es11.data.get idx = es1.data.get (idx ++ [0]) ∧ d.es12.data.get idx = es1.data.get (idx ++ [1]) ∧
        d.es13.data.get idx = es1.data.get (idx ++ [2])) ∧
      (∀ idx, d.ew21.data.get idx = ew2.data.get (idx ++ [0]) ∧ d.ew22.data.get idx = ew2.data.get (idx ++ [1]) ∧
        d.ew23.data.get idx = ew2.data.get (idx ++ [2])) ∧
      d.edgeN = edgeN ∧ d.edgeS = edgeS ∧ d.edgeE = edgeE ∧ d.edgeW = edgeW ∧ d.gridType = gt := by
  have sp : ∀ q : HQty α, q.data.shape.getLast? = some 3 → ∃ a b c, split3 q = .ok (a, b, c) ∧
      (∀ idx, a.data.get idx = q.data.get (idx ++ [0]) ∧ b.data.get idx = q.data.get (idx ++ [1]) ∧
        c.data.get idx = q.data.get (idx ++ [2])) := by
    intro q hq
    unfold split3 splitLast
    rw [hq]
    exact ⟨_, _, _, rfl, fun idx => ⟨rfl, rfl, rfl⟩⟩
  obtain ⟨a1, b1, c1, e1, g1⟩ := sp vlon h1
  obtain ⟨a2, b2, c2, e2, g2⟩ := sp vlat h2
  obtain ⟨a3, b3, c3, e3, g3⟩ := sp es1 h3
  obtain ⟨a4, b4, c4, e4, g4⟩ := sp ew2 h4
  unfold Driver.fromVariables
  rw [e1, e2, e3, e4]
  exact ⟨_, rfl, g1, g2, g3, g4, rfl, rfl, rfl, rfl, rfl⟩

/-- **C83** (driver, violated): made from the metric terms, the driver's latitude directions are the longitude
directions, whatever the latitude directions are. -/
theorem C83_driver_violated {α : Type} (m : Terms α) (d : Driver α) (h : Driver.fromTerms m = .ok d) :
    d.vlat1 = d.vlon1 ∧ d.vlat2 = d.vlon2 ∧ d.vlat3 = d.vlon3 := by
  unfold Driver.fromTerms Driver.fromVariables at h
  cases h1 : split3 m.vlon with
  | error e => rw [h1] at h; simp [bind, Except.bind] at h
  | ok a =>
    cases h2 : split3 m.es1 with
    | error e => rw [h1, h2] at h; simp [bind, Except.bind] at h
    | ok b =>
      cases h3 : split3 m.ew2 with
      | error e => rw [h1, h2, h3] at h; simp [bind, Except.bind] at h
      | ok c =>
        rw [h1, h2, h3] at h
        simp only [bind, Except.bind, pure, Except.pure, Except.ok.injEq] at h
        rw [← h]
        exact ⟨rfl, rfl, rfl⟩

/-- **C83** (driver): apart from the latitude directions, the driver's data made from the metric terms is that of
the metric terms. -/
theorem C83_terms {α : Type} (m : Terms α) (h1 : m.vlon.data.shape.getLast? = some 3)
    (h3 : m.es1.data.shape.getLast? = some 3) (h4 : m.ew2.data.shape.getLast? = some 3) :
    ∃ d, Driver.fromTerms m = .ok d ∧
      (∀ idx, d.vlon1.data.get idx = m.vlon.data.get (idx ++ [0]) ∧ d.vlon2.data.get idx = m.vlon.data.get (idx ++ [1]) ∧
        d.vlon3.data.get idx = m.vlon.data.get (idx ++ [2])) ∧
      (∀ idx, d.es11.data.get idx = m.es1.data.get (idx ++ [0]) ∧ d.es12.data.get idx = m.es1.data.get (idx ++ [1]) ∧
        d.es13.data.get idx = m.es1.data.get (idx ++ [2])) ∧
      (∀ idx, d.ew21.data.get idx = m.ew2.data.get (idx ++ [0]) ∧ d.ew22.data.get idx = m.ew2.data.get (idx ++ [1]) ∧
        d.ew23.data.get idx = m.ew2.data.get (idx ++ [2])) ∧
      d.edgeN = m.edgeN ∧ d.edgeS = m.edgeS ∧ d.edgeE = m.edgeE ∧ d.edgeW = m.edgeW ∧ d.gridType = m.gridType := by
  obtain ⟨d, e, a, _, c⟩ := C83_driver m.vlon m.vlon m.edgeN m.edgeS m.edgeE m.edgeW m.es1 m.ew2 m.gridType h1 h1 h3 h4
  exact ⟨d, e, a, c⟩

/-- The metric terms have different longitude and latitude directions, yet the driver's agree. -/
example : ∃ d, Driver.fromTerms ⟨exVec 1, exVec 7, exVec 1, exVec 1, exVec 1, exVec 1, exVec 2, exVec 3, 0⟩ = .ok d ∧
    d.vlat1.data.get [0, 0] = 1 ∧ (exVec 7).data.get [0, 0, 0] = 7 := ⟨_, rfl, rfl, rfl⟩

/-! ### The Coriolis parameter -/

/-- **C83** (Coriolis parameter): unless given, the Coriolis parameter is twice the rate of rotation times the
sine of latitude, at corners and at centres, with the dimensions of the latitudes, at each read alike. -/
theorem C83_coriolis {α : Type} [Mul α] (omega2 : α) (sin : α → α) (lat latA : HQty α) :
    let g := CGrid.init lat latA none none
    (∀ g', g' = g ∨ g' = (g.readFC omega2 sin).1 ∨ g' = (g.readFCAgrid omega2 sin).1 ∨
        g' = ((g.readFC omega2 sin).1.readFCAgrid omega2 sin).1 →
      (∀ idx, (g'.readFC omega2 sin).2.data.get idx = omega2 * sin (lat.data.get idx)) ∧
      (g'.readFC omega2 sin).2.dims = lat.dims ∧
      (∀ idx, (g'.readFCAgrid omega2 sin).2.data.get idx = omega2 * sin (latA.data.get idx)) ∧
      (g'.readFCAgrid omega2 sin).2.dims = latA.dims) := by
  rintro g g' (h | h | h | h) <;> subst h <;> exact ⟨fun _ => rfl, rfl, fun _ => rfl, rfl⟩

/-- **C83** (Coriolis parameter, violated): given at cell centres, it gets the dimensions of the corners. -/
theorem C83_coriolis_violated {α : Type} [Mul α] (omega2 : α) (sin : α → α) (lat latA : HQty α) (fc : Option (NArr α))
    (fcA : NArr α) : ((CGrid.init lat latA fc (some fcA)).readFCAgrid omega2 sin).2.dims = lat.dims := rfl

end NDSL.GridHelper
