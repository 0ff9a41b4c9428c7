import Verif.Model.Perturb
import Verif.Spec.Perturb
import Mathlib.Algebra.Order.Field.Power
import Mathlib.Data.Finset.Max
import Mathlib.Data.Int.Interval
import Mathlib.Data.List.GetD
import Mathlib.Data.Rat.Floor
import Mathlib.Tactic.Linarith
import Mathlib.Tactic.Ring
import Mathlib.Tactic.NormNum
import Mathlib.Tactic.FieldSimp
import Mathlib.Tactic.Positivity
/-
C129: noise put on the input of a test.
-/
namespace NDSL.Perturb

/-! ### Floating point numbers -/

theorem up_exp (m e e' : Int) (h : e ≤ e') : (m : ℚ) * (2 : ℚ) ^ e' = ((m * 2 ^ (e' - e).toNat : Int) : ℚ) * (2 : ℚ) ^ e := by
  have h1 : e' = ((e' - e).toNat : Int) + e := by omega
  conv_lhs => rw [h1, zpow_add₀ (by norm_num : (2 : ℚ) ≠ 0), zpow_natCast]
  push_cast
  ring

theorem two_pos (e : Int) : (0 : ℚ) < (2 : ℚ) ^ e := zpow_pos (by norm_num) e

theorem one_le_abs {k : Int} (h : k ≠ 0) : (1 : ℚ) ≤ |(k : ℚ)| := by
  have : (1 : Int) ≤ |k| := Int.one_le_abs h
  exact_mod_cast this

/-- Numbers of the format that differ, differ by their last digit. -/
theorem spacing {p : Nat} {emin : Int} {x w : ℚ} (hx : Float' p emin x) (hw : Float' p emin w) (h : x ≠ w) : |x| ≤ (2 ^ p + 1) * |w - x| := by
  obtain ⟨m, e, hm, _, rfl⟩ := hx
  obtain ⟨m', e', hm', _, rfl⟩ := hw
  have hq : |(m : ℚ)| ≤ 2 ^ p := by exact_mod_cast hm
  have hq' : |(m' : ℚ)| ≤ 2 ^ p := by exact_mod_cast hm'
  have hp : (0 : ℚ) < 2 ^ p := by positivity
  rcases Int.le_total e e' with he | he
  · rw [up_exp m' e e' he] at h ⊢
    have hk : (m' * 2 ^ (e' - e).toNat - m : Int) ≠ 0 := by
      intro h0
      apply h
      have : m = m' * 2 ^ (e' - e).toNat := by omega
      conv_lhs => rw [this]
    have h1 := one_le_abs hk
    rw [← sub_mul, abs_mul, abs_mul, abs_of_pos (two_pos e)]
    push_cast at h1 ⊢
    have h2 := two_pos e
    generalize |(m' : ℚ) * 2 ^ (e' - e).toNat - m| = A at h1 ⊢
    have a1 : |(m : ℚ)| * 2 ^ e ≤ 2 ^ p * 2 ^ e := mul_le_mul_of_nonneg_right hq h2.le
    have a2 : (2 : ℚ) ^ e ≤ A * 2 ^ e := le_mul_of_one_le_left h2.le h1
    have a3 : (2 : ℚ) ^ p * 2 ^ e ≤ 2 ^ p * (A * 2 ^ e) := mul_le_mul_of_nonneg_left a2 hp.le
    rw [add_mul, one_mul]
    linarith
  · rw [up_exp m e' e he] at h ⊢
    have hk : (m' - m * 2 ^ (e - e').toNat : Int) ≠ 0 := by
      intro h0
      apply h
      have : m' = m * 2 ^ (e - e').toNat := by omega
      rw [this]
    have h1 := one_le_abs hk
    have h2 := two_pos e'
    have h3 : |(m' : ℚ) * 2 ^ e' - ((m * 2 ^ (e - e').toNat : Int) : ℚ) * 2 ^ e'| = |((m' - m * 2 ^ (e - e').toNat : Int) : ℚ)| * 2 ^ e' := by
      rw [← sub_mul, abs_mul, abs_of_pos h2]; push_cast; rfl
    have h4 : |((m * 2 ^ (e - e').toNat : Int) : ℚ) * 2 ^ e'| ≤ |(m' : ℚ) * 2 ^ e'| + |(m' : ℚ) * 2 ^ e' - ((m * 2 ^ (e - e').toNat : Int) : ℚ) * 2 ^ e'| := by
      rw [abs_sub_comm]
      have := abs_add_le ((m' : ℚ) * 2 ^ e') (((m * 2 ^ (e - e').toNat : Int) : ℚ) * 2 ^ e' - (m' : ℚ) * 2 ^ e')
      simpa using this
    have h5 : |(m' : ℚ) * 2 ^ e'| ≤ 2 ^ p * 2 ^ e' := by rw [abs_mul, abs_of_pos h2]; nlinarith
    rw [h3] at h4 ⊢
    generalize |((m' - m * 2 ^ (e - e').toNat : Int) : ℚ)| = A at h1 h4 ⊢
    have a2 : (2 : ℚ) ^ e' ≤ A * 2 ^ e' := le_mul_of_one_le_left h2.le h1
    have a3 : (2 : ℚ) ^ p * 2 ^ e' ≤ 2 ^ p * (A * 2 ^ e') := mul_le_mul_of_nonneg_left a2 hp.le
    rw [add_mul, one_mul]
    linarith

/-- Numbers above a power of two are multiples of the last digit there. -/
theorem grid {p : Nat} {emin : Int} {y : ℚ} (hy : Float' p emin y) (E : Int) (h : (2 : ℚ) ^ p * 2 ^ (E - 1) < |y|) : ∃ k : Int, y = k * (2 : ℚ) ^ E := by
  obtain ⟨m, e, hm, _, rfl⟩ := hy
  have hq : |(m : ℚ)| ≤ 2 ^ p := by exact_mod_cast hm
  rcases Int.lt_or_le e E with he | he
  · exfalso
    have h1 : (2 : ℚ) ^ e ≤ 2 ^ (E - 1) := zpow_le_zpow_right₀ (by norm_num) (by omega)
    rw [abs_mul, abs_of_pos (two_pos e)] at h
    have := mul_le_mul hq h1 (two_pos e).le (by positivity)
    linarith
  · exact ⟨_, up_exp m E e he⟩

theorem float_neg {p : Nat} {emin : Int} {x : ℚ} (h : Float' p emin x) : Float' p emin (-x) := by
  obtain ⟨m, e, hm, he, rfl⟩ := h
  exact ⟨-m, e, by rwa [abs_neg], he, by push_cast; ring⟩

theorem float_zero (p : Nat) (emin : Int) : Float' p emin 0 := ⟨0, emin, by simp, Int.le_refl _, by simp⟩

theorem float_one (p : Nat) (emin : Int) (h : emin ≤ 0) : Float' p emin 1 := ⟨1, 0, by simpa using one_le_pow₀ (n := p) (by norm_num : (1 : Int) ≤ 2), h, by simp⟩

/-- There is a rounding. -/
theorem nearest_exists (p : Nat) (emin : Int) : ∃ r, Nearest p emin r := by
  have key : ∀ x : ℚ, ∃ y, Float' p emin y ∧ ∀ z, Float' p emin z → |y - x| ≤ |z - x| := by
    intro x
    classical
    let N : Int := ⌈2 * |x| / 2 ^ emin⌉
    let S := (Finset.Icc (-N) N).filter fun k : Int => Float' p emin ((k : ℚ) * 2 ^ emin)
    have hN : 0 ≤ N := Int.ceil_nonneg (div_nonneg (by positivity) (two_pos emin).le)
    have h0 : (0 : Int) ∈ S := by
      simp only [S, Finset.mem_filter, Finset.mem_Icc]
      exact ⟨⟨by omega, hN⟩, by simpa using float_zero p emin⟩
    obtain ⟨k, hk, hmin⟩ := Finset.exists_min_image S (fun k => |(k : ℚ) * 2 ^ emin - x|) ⟨0, h0⟩
    simp only [S, Finset.mem_filter] at hk
    refine ⟨_, hk.2, ?_⟩
    intro z hz
    by_cases hc : |z - x| ≤ |x|
    · obtain ⟨m, e, hm, he, rfl⟩ := hz
      have hu := up_exp m emin e he
      refine (hmin (m * 2 ^ (e - emin).toNat) ?_).trans (by rw [hu])
      simp only [S, Finset.mem_filter, Finset.mem_Icc]
      refine ⟨?_, ⟨m, e, hm, he, hu.symm⟩⟩
      have hb : |((m * 2 ^ (e - emin).toNat : Int) : ℚ) * 2 ^ emin| ≤ 2 * |x| := by
        rw [← hu]
        have := abs_add_le ((m : ℚ) * 2 ^ e - x) x
        simp only [sub_add_cancel] at this
        linarith
      rw [abs_mul, abs_of_pos (two_pos emin), ← le_div_iff₀ (two_pos emin)] at hb
      have hb' : |((m * 2 ^ (e - emin).toNat : Int) : ℚ)| ≤ (N : ℚ) := hb.trans (Int.le_ceil _)
      have hb'' : |m * 2 ^ (e - emin).toNat| ≤ N := by exact_mod_cast hb'
      exact abs_le.1 hb''
    · have := hmin 0 h0
      simp only [Int.cast_zero, zero_mul, zero_sub, abs_neg] at this
      linarith
  exact ⟨fun x => (key x).choose, fun x => (key x).choose_spec⟩

variable {p : Nat} {emin : Int} {r : ℚ → ℚ}

/-- Rounding a number near `x` does not go further than twice as far. -/
theorem near (hr : Nearest p emin r) {x z : ℚ} (hx : Float' p emin x) : |r z - x| ≤ 2 * |z - x| := by
  have h1 := (hr z).2 x hx
  have h2 := abs_add_le (r z - z) (z - x)
  simp only [sub_add_sub_cancel] at h2
  rw [abs_sub_comm x z] at h1
  linarith

theorem round_le (hr : Nearest p emin r) {x z : ℚ} (hx : Float' p emin x) (h : z ≤ x) : r z ≤ x := by
  by_contra hc
  have hc : x < r z := lt_of_not_ge hc
  have := (hr z).2 x hx
  rw [abs_of_nonneg (by linarith), abs_of_nonneg (by linarith)] at this
  linarith

theorem round_ge (hr : Nearest p emin r) {x z : ℚ} (hx : Float' p emin x) (h : x ≤ z) : x ≤ r z := by
  by_contra hc
  have hc : r z < x := lt_of_not_ge hc
  have := (hr z).2 x hx
  rw [abs_of_nonpos (by linarith), abs_of_nonpos (by linarith)] at this
  linarith

theorem round_eq (hr : Nearest p emin r) {x : ℚ} (hx : Float' p emin x) : r x = x :=
  le_antisymm (round_le hr hx (le_refl _)) (round_ge hr hx (le_refl _))

/-! ### The factor -/

theorem lt_of_int {a b : Int} {d : ℚ} (hd : 0 < d) (h : (a : ℚ) * d < b * d) : a < b := by
  have := lt_of_mul_lt_mul_right h hd.le
  exact_mod_cast this

/-- The factor is 1 or the number before it. -/
theorem factor_cases (he : emin ≤ -53) (hr : Nearest 53 emin r) {u : ℚ} (hu : |u| ≤ 1 / 10 ^ 16) :
    factor r u = 1 ∨ (factor r u = 1 - 1 / 2 ^ 53 ∧ u < 0) := by
  have h1 := float_one 53 emin (by omega)
  have hn := near hr (z := 1 + u) h1
  rw [show (1 + u - 1 : ℚ) = u by ring] at hn
  have hb : |r (1 + u) - 1| ≤ 2 / 10 ^ 16 := by linarith
  have hb' := abs_le.1 hb
  unfold factor
  rcases lt_or_ge u 0 with h | h
  · have hle := round_le hr h1 (by linarith : 1 + u ≤ 1)
    obtain ⟨k, hk⟩ := grid (hr (1 + u)).1 (-53) (by
      rw [abs_of_pos (by norm_num at hb' ⊢; linarith [hb'.1])]
      norm_num at hb' ⊢; linarith [hb'.1])
    have e53 : (2 : ℚ) ^ (-53 : Int) = 1 / 2 ^ 53 := by norm_num
    rw [e53] at hk
    rw [hk] at hle hb' ⊢
    have k1 : k < 2 ^ 53 + 1 := lt_of_int (d := 1 / 2 ^ 53) (by norm_num) (by push_cast; norm_num at hle ⊢; linarith)
    have k2 : 2 ^ 53 - 2 < k := lt_of_int (d := 1 / 2 ^ 53) (by norm_num) (by push_cast; norm_num at hb' ⊢; linarith [hb'.1])
    have : k = 2 ^ 53 ∨ k = 2 ^ 53 - 1 := by omega
    rcases this with rfl | rfl
    · left; norm_num
    · right; refine ⟨?_, h⟩; norm_num
  · left
    have hge := round_ge hr h1 (by linarith : 1 ≤ 1 + u)
    rcases lt_or_eq_of_le hge with hlt | heq
    · exfalso
      obtain ⟨k, hk⟩ := grid (hr (1 + u)).1 (-52) (by
        rw [abs_of_pos (by linarith)]
        norm_num; linarith)
      have e52 : (2 : ℚ) ^ (-52 : Int) = 1 / 2 ^ 52 := by norm_num
      rw [e52] at hk
      rw [hk] at hlt hb'
      have k1 : 2 ^ 52 < k := lt_of_int (d := 1 / 2 ^ 52) (by norm_num) (by push_cast; norm_num at hlt ⊢; linarith)
      have k2 : k < 2 ^ 52 + 1 := lt_of_int (d := 1 / 2 ^ 52) (by norm_num) (by push_cast; norm_num at hb' ⊢; linarith [hb'.2])
      omega
    · exact heq.symm

/-- A draw below minus a quarter of the last digit gives the number before 1. -/
theorem factor_low (he : emin ≤ -53) (hr : Nearest 53 emin r) {u : ℚ} (hu : |u| ≤ 1 / 10 ^ 16) (hl : u < -(1 / 2 ^ 54)) :
    factor r u = 1 - 1 / 2 ^ 53 := by
  rcases factor_cases he hr hu with h | h
  · exfalso
    have hw : Float' 53 emin (1 - 1 / 2 ^ 53) := ⟨2 ^ 53 - 1, -53, by norm_num, he, by norm_num⟩
    have := (hr (1 + u)).2 _ hw
    unfold factor at h
    have hu' := (abs_le.1 hu).1
    rw [h, abs_of_pos (by norm_num at hl ⊢; linarith)] at this
    have h3 : |1 - 1 / 2 ^ 53 - (1 + u)| < 1 / 2 ^ 54 := by
      rw [abs_lt]; constructor <;> norm_num at hl hu' ⊢ <;> linarith
    norm_num at this h3 hl
    linarith
  · exact h.1

/-! ### One entry -/

/-- What the product of a number and a factor is. -/
theorem product (he : emin ≤ -53) (hr : Nearest 53 emin r) {u x : ℚ} (hu : |u| ≤ 1 / 10 ^ 16) (hx : Float' 53 emin x) :
    |r (x * factor r u)| ≤ |x| ∧ 0 ≤ r (x * factor r u) * x ∧ |r (x * factor r u) - x| ≤ 1 / 2 ^ 52 * |x| ∧ (0 ≤ u → r (x * factor r u) = x) := by
  have hf : 0 < factor r u ∧ factor r u ≤ 1 ∧ |factor r u - 1| ≤ 1 / 2 ^ 53 := by
    rcases factor_cases he hr hu with h | ⟨h, _⟩ <;> rw [h] <;> norm_num [abs_of_neg]
  have hd : |x * factor r u - x| ≤ 1 / 2 ^ 53 * |x| := by
    rw [show x * factor r u - x = (factor r u - 1) * x by ring, abs_mul]
    exact mul_le_mul_of_nonneg_right hf.2.2 (abs_nonneg _)
  have hn := near hr (z := x * factor r u) hx
  have h3 : |r (x * factor r u) - x| ≤ 1 / 2 ^ 52 * |x| := by norm_num at hd hn ⊢; linarith
  have h4 : 0 ≤ u → r (x * factor r u) = x := by
    intro h
    rcases factor_cases he hr hu with h' | ⟨_, h'⟩
    · rw [h', mul_one]; exact round_eq hr hx
    · linarith
  rcases le_total 0 x with h0 | h0
  · have a1 : x * factor r u ≤ x := by nlinarith
    have a2 : 0 ≤ x * factor r u := mul_nonneg h0 hf.1.le
    have b1 := round_le hr hx a1
    have b2 := round_ge hr (float_zero 53 emin) a2
    exact ⟨by rw [abs_of_nonneg b2, abs_of_nonneg h0]; exact b1, mul_nonneg b2 h0, h3, h4⟩
  · have a1 : x ≤ x * factor r u := by nlinarith
    have a2 : x * factor r u ≤ 0 := by nlinarith [hf.1]
    have b1 := round_ge hr hx a1
    have b2 := round_le hr (float_zero 53 emin) a2
    exact ⟨by rw [abs_of_nonpos b2, abs_of_nonpos h0]; linarith, mul_nonneg_of_nonpos_of_nonpos b2 h0, h3, h4⟩

/-- A number with a full mantissa is changed by a low draw. -/
theorem product_low (he : emin ≤ -53) (hr : Nearest 53 emin r) {u : ℚ} (hu : |u| ≤ 1 / 10 ^ 16) (hl : u < -(1 / 2 ^ 54)) {m e : Int}
    (hm : 2 ^ 52 ≤ |m|) (hm' : |m| ≤ 2 ^ 53) (hle : emin < e) : r (m * 2 ^ e * factor r u) ≠ m * 2 ^ e := by
  rw [factor_low he hr hu hl]
  have h2 := two_pos e
  obtain ⟨s, hs, hsm⟩ : ∃ s : Int, (s = 1 ∨ s = -1) ∧ m = s * |m| := by
    rcases Int.le_total 0 m with h | h
    · exact ⟨1, Or.inl rfl, by rw [abs_of_nonneg h]; ring⟩
    · exact ⟨-1, Or.inr rfl, by rw [abs_of_nonpos h]; ring⟩
  generalize |m| = n at hm hm' hsm
  subst hsm
  have hs1 : |(s : ℚ)| = 1 := by rcases hs with rfl | rfl <;> norm_num
  have hs2 : |s| = 1 := by rcases hs with rfl | rfl <;> norm_num
  have hn1 : (2 ^ 52 : ℚ) ≤ n := by exact_mod_cast hm
  have hn2 : (n : ℚ) ≤ 2 ^ 53 := by exact_mod_cast hm'
  intro heq
  have hx : |((s * n : Int) : ℚ) * (2 : ℚ) ^ e - ((s * n : Int) : ℚ) * (2 : ℚ) ^ e * (1 - 1 / 2 ^ 53)| = (n : ℚ) / 2 ^ 53 * (2 : ℚ) ^ e := by
    push_cast
    rw [show (s : ℚ) * n * 2 ^ e - s * n * 2 ^ e * (1 - 1 / 2 ^ 53) = s * (n / 2 ^ 53 * 2 ^ e) by ring, abs_mul, hs1, one_mul, abs_of_nonneg]
    exact mul_nonneg (div_nonneg (by linarith) (by norm_num)) h2.le
  have hb := fun w hw => (hr (((s * n : Int) : ℚ) * 2 ^ e * (1 - 1 / 2 ^ 53))).2 w hw
  rw [heq, hx] at hb
  rcases Int.lt_or_le (2 ^ 52) n with hgt | hle'
  · have := hb (((s * (n - 1) : Int) : ℚ) * 2 ^ e) ⟨s * (n - 1), e, by rw [abs_mul, hs2, one_mul, abs_of_nonneg (by omega)]; omega, by omega, rfl⟩
    push_cast at this
    rw [show (s : ℚ) * (n - 1) * 2 ^ e - s * n * 2 ^ e * (1 - 1 / 2 ^ 53) = -(s * ((1 - n / 2 ^ 53) * 2 ^ e)) by ring, abs_neg, abs_mul, hs1, one_mul,
      abs_of_nonneg (mul_nonneg (by rw [sub_nonneg, div_le_one (by norm_num)]; exact hn2) h2.le)] at this
    have h3 := le_of_mul_le_mul_right this h2
    have hg : (2 ^ 52 : ℚ) < n := by exact_mod_cast hgt
    norm_num at h3 hg
    linarith
  · have hn : n = 2 ^ 52 := by omega
    subst hn
    have := hb (((s * 2 ^ 52 : Int) : ℚ) * 2 ^ e * (1 - 1 / 2 ^ 53)) ⟨s * (2 ^ 53 - 1), e - 1, by rw [abs_mul, hs2]; norm_num, by omega, by
      rw [zpow_sub_one₀ (by norm_num : (2 : ℚ) ≠ 0)]; push_cast; ring⟩
    rw [sub_self, abs_zero] at this
    have h3 : (0 : ℚ) < ((2 ^ 52 : Int) : ℚ) / 2 ^ 53 * 2 ^ e := mul_pos (by norm_num) h2
    linarith

/-! ### Arrays -/

theorem entries_get (r64 r32 : ℚ → ℚ) (k : Kind) (l : List Val) : ∀ us : List ℚ,
    (entries r64 r32 k us l).2 = us.drop (l.countP Val.notFill) ∧ (entries r64 r32 k us l).1.length = l.length ∧
    ∀ i : Nat, (entries r64 r32 k us l).1[i]? = l[i]?.map fun v =>
      if v.notFill then v.times r64 r32 k (factor r64 (us.getD ((l.take i).countP Val.notFill) 0)) else v := by
  induction l with
  | nil => intro us; simp [entries]
  | cons v l ih =>
    intro us
    cases hv : v.notFill with
    | true =>
      obtain ⟨h1, h2, h3⟩ := ih us.tail
      refine ⟨?_, ?_, ?_⟩
      · simp [entries, hv, h1]
      · simp [entries, hv, h2]
      · intro i
        cases i with
        | zero => cases us <;> simp [entries, hv]
        | succ i =>
          simp only [entries, hv, if_true, List.getElem?_cons_succ, h3, List.take_succ_cons, List.countP_cons]
          cases us <;> simp
    | false =>
      obtain ⟨h1, h2, h3⟩ := ih us
      refine ⟨?_, ?_, ?_⟩
      · simp [entries, hv, h1]
      · simp [entries, hv, h2]
      · intro i
        cases i with
        | zero => simp [entries, hv]
        | succ i => simp [entries, hv, h3]

/-- Everything that one pass over an array keeps and that does not change with the draws is kept by all. -/
theorem perturb_keeps (r64 r32 : ℚ → ℚ) (a : Nat) (D : ℚ → Prop) (P : Arr → Prop)
    (hP : ∀ (x : Arr) (us : List ℚ), P x → (∀ u ∈ us, D u) → x.kind ≠ .other → P { x with data := (entries r64 r32 x.kind us x.data).1 })
    (refs : List (Option Nat)) : ∀ (us : List ℚ) (h : Nat → Arr), (∀ u ∈ us, D u) → P (h a) → P (perturb r64 r32 us refs h a) := by
  induction refs with
  | nil => intro us h _ h0; exact h0
  | cons b refs ih =>
    intro us h hu h0
    cases b with
    | none => exact ih us h hu h0
    | some b =>
      simp only [perturb]
      split
      · exact ih us h hu h0
      · rename_i hk
        refine ih _ _ (fun u hu' => hu u ?_) ?_
        · rw [(entries_get r64 r32 _ _ us).1] at hu'
          exact List.mem_of_mem_drop hu'
        · by_cases hb : a = b
          · subst hb
            rw [if_pos rfl]
            exact hP _ us h0 hu hk
          · rw [if_neg hb]; exact h0

theorem perturb_absent (r64 r32 : ℚ → ℚ) (a : Nat) (refs : List (Option Nat)) (hn : some a ∉ refs) : ∀ (us : List ℚ) (h : Nat → Arr),
    perturb r64 r32 us refs h a = h a := by
  induction refs with
  | nil => intro us h; rfl
  | cons b refs ih =>
    intro us h
    have hn' : some a ∉ refs := fun h => hn (List.mem_cons_of_mem _ h)
    cases b with
    | none => exact ih hn' us h
    | some b =>
      simp only [perturb]
      split
      · exact ih hn' us h
      · rw [ih hn']
        rw [if_neg (by rintro rfl; exact hn (List.mem_cons_self ..))]

/-! ### The property -/

/-- C129: kinds and sizes stay, other arrays and arrays not in the mapping stay as they are, and so do entries that are NaN, infinite or at least 1e30. -/
theorem C129_untouched (r64 r32 : ℚ → ℚ) (us : List ℚ) (refs : List (Option Nat)) (h : Nat → Arr) (a : Nat) :
    (perturb r64 r32 us refs h a).kind = (h a).kind ∧ (perturb r64 r32 us refs h a).data.length = (h a).data.length ∧
    ((h a).kind = .other ∨ some a ∉ refs → perturb r64 r32 us refs h a = h a) ∧
    ∀ (i : Nat) (v : Val), (h a).data[i]? = some v → (v = .nan ∨ (∃ b, v = .inf b) ∨ ∃ q : ℚ, 10 ^ 30 ≤ q ∧ v = .fin q) →
      (perturb r64 r32 us refs h a).data[i]? = some v := by
  refine ⟨?_, ?_, ?_, ?_⟩
  · exact perturb_keeps r64 r32 a (fun _ => True) (fun x => x.kind = (h a).kind) (fun x us hx _ _ => hx) refs us h (fun _ _ => trivial) rfl
  · exact perturb_keeps r64 r32 a (fun _ => True) (fun x => x.data.length = (h a).data.length)
      (fun x us hx _ _ => by simp only [(entries_get r64 r32 _ _ us).2.1]; exact hx) refs us h (fun _ _ => trivial) rfl
  · rintro (hk | hn)
    · exact (perturb_keeps r64 r32 a (fun _ => True) (fun x => x = h a)
        (fun x us hx _ hk' => by subst hx; exact absurd hk hk') refs us h (fun _ _ => trivial) rfl)
    · exact perturb_absent r64 r32 a refs hn us h
  · intro i v hi hv
    refine perturb_keeps r64 r32 a (fun _ => True) (fun x => x.data[i]? = some v) (fun x us hx _ _ => ?_) refs us h (fun _ _ => trivial) hi
    simp only [(entries_get r64 r32 _ _ us).2.2, hx, Option.map_some]
    rcases hv with rfl | ⟨b, rfl⟩ | ⟨q, hq, rfl⟩
    · rfl
    · cases b <;> rfl
    · simp only [Val.notFill, decide_eq_true_eq]
      rw [if_neg (by linarith)]

/-- The draws of `np.random.uniform` with bounds 1e-16. -/
def Drawn (us : List ℚ) : Prop := ∀ u ∈ us, |u| ≤ 1 / 10 ^ 16

theorem drawn_at {us : List ℚ} (h : Drawn us) (n : Nat) : |us.getD n 0| ≤ 1 / 10 ^ 16 := by
  rcases Nat.lt_or_ge n us.length with hn | hn
  · rw [List.getD_eq_getElem _ _ hn]; exact h _ (List.getElem_mem hn)
  · rw [List.getD_eq_default _ _ hn]; norm_num

/-- C129: a number of an array of 64 bits keeps its sign, does not grow, and changes by at most 2^-52 of itself for each time the array is in the mapping. -/
theorem C129_roundoff (r64 r32 : ℚ → ℚ) (hr : Nearest 53 (-1074) r64) (refs : List (Option Nat)) (a i : Nat) (x : ℚ) (hx : Float' 53 (-1074) x) :
    ∀ (us : List ℚ) (h : Nat → Arr), Drawn us → (h a).kind = .f64 → (h a).data[i]? = some (.fin x) →
    ∃ y, (perturb r64 r32 us refs h a).data[i]? = some (.fin y) ∧ |y| ≤ |x| ∧ 0 ≤ y * x ∧ |y - x| ≤ refs.count (some a) / 2 ^ 52 * |x| := by
  have sign : ∀ y z x : ℚ, 0 ≤ z * y → 0 ≤ y * x → |z| ≤ |y| → 0 ≤ z * x := by
    intro y z x h1 h2 h3
    rcases lt_trichotomy y 0 with hy | hy | hy
    · exact mul_nonneg_of_nonpos_of_nonpos (by nlinarith) (by nlinarith)
    · subst hy
      have : z = 0 := by simpa using h3
      rw [this, zero_mul]
    · exact mul_nonneg (by nlinarith) (by nlinarith)
  have key : ∀ (refs : List (Option Nat)) (us : List ℚ) (h : Nat → Arr) (x : ℚ), Float' 53 (-1074) x → Drawn us → (h a).kind = .f64 →
      (h a).data[i]? = some (.fin x) →
      ∃ y, (perturb r64 r32 us refs h a).data[i]? = some (.fin y) ∧ |y| ≤ |x| ∧ 0 ≤ y * x ∧ |y - x| ≤ refs.count (some a) / 2 ^ 52 * |x| := by
    intro refs
    induction refs with
    | nil => intro us h x hx _ _ hi; exact ⟨x, hi, le_refl _, mul_self_nonneg _, by simp⟩
    | cons b refs ih =>
      intro us h x hx hu hk hi
      cases b with
      | none =>
        obtain ⟨y, h1, h2, h3, h4⟩ := ih us h x hx hu hk hi
        exact ⟨y, h1, h2, h3, by rw [List.count_cons_of_ne (by simp)]; exact h4⟩
      | some b =>
        simp only [perturb]
        by_cases hb : a = b
        · subst hb
          rw [hk, if_neg (by decide)]
          have hu' : Drawn (entries r64 r32 .f64 us (h a).data).2 := by
            intro u hu'
            rw [(entries_get r64 r32 _ _ us).1] at hu'
            exact hu u (List.mem_of_mem_drop hu')
          have e := (entries_get r64 r32 .f64 (h a).data us).2.2 i
          rw [hi, Option.map_some] at e
          have hpr := product (by decide) hr (drawn_at hu (((h a).data.take i).countP Val.notFill)) hx
          generalize us.getD (((h a).data.take i).countP Val.notFill) 0 = u at e hpr
          obtain ⟨y, hy, e', y1, y2, y3⟩ : ∃ y, Float' 53 (-1074) y ∧ (entries r64 r32 .f64 us (h a).data).1[i]? = some (.fin y) ∧ |y| ≤ |x| ∧ 0 ≤ y * x ∧
              |y - x| ≤ 1 / 2 ^ 52 * |x| := by
            cases hv : (Val.fin x).notFill with
            | true => rw [hv, if_pos rfl] at e; exact ⟨_, (hr _).1, e, hpr.1, hpr.2.1, hpr.2.2.1⟩
            | false =>
              rw [hv, if_neg (by decide)] at e
              exact ⟨x, hx, e, le_refl _, mul_self_nonneg _, by rw [sub_self, abs_zero]; positivity⟩
          obtain ⟨z, h1, h2, h3, h4⟩ := ih (entries r64 r32 .f64 us (h a).data).2
            (fun b => if b = a then ⟨.f64, (entries r64 r32 .f64 us (h a).data).1⟩ else h b) y hy hu' (by simp) (by simpa using e')
          refine ⟨z, h1, h2.trans y1, sign y z x h3 y2 h2, ?_⟩
          rw [List.count_cons_self]
          have t := abs_add_le (z - y) (y - x)
          rw [sub_add_sub_cancel] at t
          have t2 : (refs.count (some a) : ℚ) / 2 ^ 52 * |y| ≤ refs.count (some a) / 2 ^ 52 * |x| := mul_le_mul_of_nonneg_left y1 (by positivity)
          push_cast
          rw [add_div, add_mul]
          linarith
        · rw [List.count_cons_of_ne (by simpa using fun h => hb h.symm)]
          split
          · exact ih us h x hx hu hk hi
          · refine ih _ _ x hx ?_ (by rw [if_neg hb]; exact hk) (by rw [if_neg hb]; exact hi)
            intro u hu'
            rw [(entries_get r64 r32 _ _ us).1] at hu'
            exact hu u (List.mem_of_mem_drop hu')
  exact fun us h => key refs us h x hx

/-- C129 fails for arrays of 32 bits: they are as they were, whatever is drawn. -/
theorem C129_single_violated (r64 r32 : ℚ → ℚ) (hr : Nearest 53 (-1074) r64) (hr' : Nearest 24 (-149) r32) (refs : List (Option Nat)) (us : List ℚ) (hu : Drawn us)
    (h : Nat → Arr) (a : Nat) (hk : (h a).kind = .f32) (hx : ∀ x, .fin x ∈ (h a).data → Float' 24 (-149) x) :
    perturb r64 r32 us refs h a = h a := by
  refine perturb_keeps r64 r32 a (fun u => |u| ≤ 1 / 10 ^ 16) (fun x => x = h a) (fun x us hx' hu _ => ?_) refs us h hu rfl
  subst hx'
  have : (entries r64 r32 (h a).kind us (h a).data).1 = (h a).data := by
    apply List.ext_getElem?
    intro i
    rw [(entries_get r64 r32 _ _ us).2.2]
    cases hi : (h a).data[i]? with
    | none => rfl
    | some v =>
      rw [Option.map_some, hk]
      split
      · cases v with
        | nan => rfl
        | inf b => rfl
        | fin x =>
          have h24 := hx x (List.mem_of_getElem? hi)
          have h53 : Float' 53 (-1074) x := by
            obtain ⟨m, e, h1, h2, h3⟩ := h24
            exact ⟨m, e, h1.trans (by norm_num), by omega, h3⟩
          have hp := (product (by decide) hr (drawn_at hu (((h a).data.take i).countP Val.notFill)) h53).2.2.1
          simp only [Val.times]
          generalize r64 (x * factor r64 (us.getD (((h a).data.take i).countP Val.notFill) 0)) = z at hp ⊢
          by_cases hne : x = r32 z
          · rw [← hne]
          · exfalso
            have h1 := spacing h24 (hr' z).1 hne
            have h2 := near hr' (z := z) h24
            have h3 : (0 : ℚ) < |z - x| ∨ |z - x| = 0 := by
              rcases lt_or_eq_of_le (abs_nonneg (z - x)) with h | h
              · exact Or.inl h
              · exact Or.inr h.symm
            rcases h3 with h3 | h3
            · norm_num at h1 hp
              linarith
            · have : z = x := by rw [abs_eq_zero] at h3; linarith
              rw [this, round_eq hr' h24] at hne
              exact hne rfl
      · rfl
  rw [this]

/-- C129: the noise is on one side: draws that are not negative change no array. -/
theorem C129_one_sided_violated (r64 r32 : ℚ → ℚ) (hr : Nearest 53 (-1074) r64) (refs : List (Option Nat)) (us : List ℚ) (hu : ∀ u ∈ us, 0 ≤ u ∧ u ≤ 1 / 10 ^ 16)
    (h : Nat → Arr) (a : Nat) (hk : (h a).kind = .f64) (hx : ∀ x, .fin x ∈ (h a).data → Float' 53 (-1074) x) :
    perturb r64 r32 us refs h a = h a := by
  refine perturb_keeps r64 r32 a (fun u => 0 ≤ u ∧ u ≤ 1 / 10 ^ 16) (fun x => x = h a) (fun x us hx' hu _ => ?_) refs us h hu rfl
  subst hx'
  have : (entries r64 r32 (h a).kind us (h a).data).1 = (h a).data := by
    apply List.ext_getElem?
    intro i
    rw [(entries_get r64 r32 _ _ us).2.2]
    cases hi : (h a).data[i]? with
    | none => rfl
    | some v =>
      rw [Option.map_some, hk]
      split
      · cases v with
        | nan => rfl
        | inf b => rfl
        | fin x =>
          have hd : 0 ≤ us.getD (((h a).data.take i).countP Val.notFill) 0 := by
            generalize ((h a).data.take i).countP Val.notFill = n
            rcases Nat.lt_or_ge n us.length with hn | hn
            · rw [List.getD_eq_getElem _ _ hn]; exact (hu _ (List.getElem_mem hn)).1
            · rw [List.getD_eq_default _ _ hn]
          have := (product (by decide) hr (drawn_at (fun u h => by rw [abs_of_nonneg (hu u h).1]; exact (hu u h).2) (((h a).data.take i).countP Val.notFill))
            (hx x (List.mem_of_getElem? hi))).2.2.2 hd
          simp only [Val.times, this]
      · rfl
  rw [this]

/-- C129: there is noise: draws below minus a quarter of the last digit change every number below 1e30 of an array of 64 bits that has all its 53 digits. -/
theorem C129_noise (r64 r32 : ℚ → ℚ) (hr : Nearest 53 (-1074) r64) (us : List ℚ) (hu : Drawn us) (hl : ∀ u ∈ us, u < -(1 / 2 ^ 54)) (h : Nat → Arr) (a : Nat)
    (hk : (h a).kind = .f64) (hn : (h a).data.length ≤ us.length) (i : Nat) (m e : Int) (hm : 2 ^ 52 ≤ |m|) (hm' : |m| ≤ 2 ^ 53) (he : -1074 < e)
    (hi : (h a).data[i]? = some (.fin (m * 2 ^ e))) (hb : (m : ℚ) * 2 ^ e < 10 ^ 30) :
    (perturb r64 r32 us [some a] h a).data[i]? ≠ (h a).data[i]? := by
  simp only [perturb, hk]
  rw [if_neg (by decide), if_pos rfl]
  simp only [(entries_get r64 r32 _ _ us).2.2, hi, Option.map_some]
  rw [if_pos (by simp only [Val.notFill, decide_eq_true_eq]; exact hb)]
  simp only [Val.times, ne_eq, Option.some.injEq, Val.fin.injEq]
  have hc : ((h a).data.take i).countP Val.notFill < us.length := by
    have h1 := List.countP_le_length (p := Val.notFill) (l := (h a).data.take i)
    have h2 := (List.getElem?_eq_some_iff.1 hi).1
    rw [List.length_take] at h1
    omega
  exact product_low (by decide) hr (drawn_at hu _) (by rw [List.getD_eq_getElem _ _ hc]; exact hl _ (List.getElem_mem hc)) hm hm' he

/-! ### Cases that meet the hypotheses -/

/-- Roundings to 64 and to 32 bits. -/
example : ∃ r64 r32, Nearest 53 (-1074) r64 ∧ Nearest 24 (-149) r32 := by
  obtain ⟨a, ha⟩ := nearest_exists 53 (-1074)
  obtain ⟨b, hb⟩ := nearest_exists 24 (-149)
  exact ⟨a, b, ha, hb⟩

/-- The number 3 is changed by a draw of -1e-16. -/
example : ∃ r64, Nearest 53 (-1074) r64 ∧ (perturb r64 id [-(1 / 10 ^ 16)] [some 0] (fun _ => ⟨.f64, [.nan, .fin 3]⟩) 0).data ≠ [.nan, .fin 3] := by
  obtain ⟨r, hr⟩ := nearest_exists 53 (-1074)
  refine ⟨r, hr, fun h => ?_⟩
  have := C129_noise r id hr [-(1 / 10 ^ 16), -(1 / 10 ^ 16)] (by intro u hu; simp at hu; subst hu; rw [abs_neg]; norm_num [abs_of_pos])
    (by intro u hu; simp at hu; subst hu; norm_num) (fun _ => ⟨.f64, [.nan, .fin 3]⟩) 0 rfl (by decide) 1 (3 * 2 ^ 51) (-51) (by decide +kernel) (by decide +kernel) (by decide)
    (by norm_num) (by norm_num)
  apply this
  have e : perturb r id [-(1 / 10 ^ 16), -(1 / 10 ^ 16)] [some 0] (fun _ => ⟨.f64, [.nan, .fin 3]⟩) 0 = perturb r id [-(1 / 10 ^ 16)] [some 0] (fun _ => ⟨.f64, [.nan, .fin 3]⟩) 0 := rfl
  rw [e, h]

end NDSL.Perturb
