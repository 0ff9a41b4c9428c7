import Verif.Spec.ColumnStencils
import Mathlib.Algebra.Order.Field.Basic
import Mathlib.Algebra.Order.AbsoluteValue.Basic
import Mathlib.Tactic.FieldSimp
import Mathlib.Tactic.LinearCombination
import Mathlib.Tactic.Ring
import Mathlib.Tactic.NormNum
import Mathlib.Tactic.Tauto
import Mathlib.Algebra.Field.Rat

/-! Properties C48 (tridiagonal solver), C49 (column extrema), C72 (elementary stencils). -/
namespace NDSL.Column

variable {K : Type}

/-! ### Sweeps -/

theorem forward_succ {S : Type} (n : Nat) (step : Nat → S → S) (s : S) :
    forward (n + 1) step s = step n (forward n step s) := by
  simp [forward, List.range_succ]

/-- Invariants of a downward sweep: `P k` holds when the levels `k, ..., nk - 1` are done. -/
theorem backward_invariant {S : Type} (nk : Nat) (step : Nat → S → S) (s : S) (P : Nat → S → Prop)
    (h0 : P nk s) (hs : ∀ k s, k < nk → P (k + 1) s → P k (step k s)) :
    P 0 (backward nk step s) := by
  have key : ∀ m s, m ≤ nk → P m s → P 0 ((List.range m).reverse.foldl (fun s k => step k s) s) := by
    intro m
    induction m with
    | zero => intro s _ h; simpa using h
    | succ m ih =>
      intro s hm h
      rw [List.range_succ, List.reverse_append]
      simp only [List.reverse_cons, List.reverse_nil, List.nil_append, List.singleton_append,
        List.foldl_cons]
      exact ih _ (by omega) (hs m s (by omega) h)
  exact key nk s (Nat.le_refl _) h0

/-! ### C48 -/

section
variable [Field K]

/-- The modified right-hand side. -/
def rhs (a b c d : Nat → K) : Nat → K
  | 0 => d 0 / pivot a b c 0
  | k + 1 => (d (k + 1) - a (k + 1) * rhs a b c d k) / pivot a b c (k + 1)

theorem forward_spec (on : Int → Int → Bool) (a b c d : F3 K) (s : TState K) (i j : Int) (n : Nat) :
    (on i j = true → ∀ k, k < n →
      (forward n (forwardStep on a b c d) s).x i j k = c i j k / pivot (a i j) (b i j) (c i j) k ∧
      (forward n (forwardStep on a b c d) s).delta i j k = rhs (a i j) (b i j) (c i j) (d i j) k) ∧
    (on i j = false → (forward n (forwardStep on a b c d) s).x i j = s.x i j ∧
      (forward n (forwardStep on a b c d) s).delta i j = s.delta i j) ∧
    (∀ k, n ≤ k → (forward n (forwardStep on a b c d) s).x i j k = s.x i j k ∧
      (forward n (forwardStep on a b c d) s).delta i j k = s.delta i j k) := by
  induction n with
  | zero =>
    refine ⟨fun _ k hk => absurd hk (by omega), fun _ => ⟨rfl, rfl⟩, fun k _ => ⟨rfl, rfl⟩⟩
  | succ n ih =>
    obtain ⟨h1, h2, h3⟩ := ih
    rw [forward_succ]
    generalize forward n (forwardStep on a b c d) s = t at *
    refine ⟨?_, ?_, ?_⟩
    · intro hon k hk
      by_cases hkn : k = n
      · subst hkn
        cases k with
        | zero => simp [forwardStep, assign, hon, pivot, rhs]
        | succ m =>
          obtain ⟨e1, e2⟩ := h1 hon m (by omega)
          simp [forwardStep, assign, hon, pivot, rhs, e1, e2]
      · have := h1 hon k (by omega)
        cases n with
        | zero => omega
        | succ m => simp [forwardStep, assign, hkn, this]
    · intro hoff
      obtain ⟨e1, e2⟩ := h2 hoff
      constructor
      · funext l
        rw [← congrFun e1 l]
        unfold forwardStep
        split <;> simp [assign, hoff]
      · funext l
        rw [← congrFun e2 l]
        unfold forwardStep
        split <;> simp [assign, hoff]
    · intro k hk
      obtain ⟨e1, e2⟩ := h3 k (by omega)
      rw [← e1, ← e2]
      unfold forwardStep
      have hne : k ≠ n := by omega
      have hne0 : k ≠ 0 := by omega
      split <;> simp [assign, hne, hne0]

/-- The back substitution as a recurrence. -/
theorem backward_spec (on : Int → Int → Bool) (nk : Nat) (s : TState K) (i j : Int) :
    (on i j = true → ∀ k, k < nk →
      (backward nk (backwardStep on nk) s).x i j k
        = if k = nk - 1 then s.delta i j k
          else s.delta i j k - s.x i j k * (backward nk (backwardStep on nk) s).x i j (k + 1)) ∧
    (on i j = false → (backward nk (backwardStep on nk) s).x i j = s.x i j) ∧
    (∀ k, nk ≤ k → (backward nk (backwardStep on nk) s).x i j k = s.x i j k) ∧
    (backward nk (backwardStep on nk) s).delta = s.delta := by
  have := backward_invariant nk (backwardStep on nk) s
    (fun m t =>
      (on i j = true → ∀ k, m ≤ k → k < nk →
        t.x i j k = if k = nk - 1 then s.delta i j k
          else s.delta i j k - s.x i j k * t.x i j (k + 1)) ∧
      (on i j = false → t.x i j = s.x i j) ∧
      (∀ k, nk ≤ k → t.x i j k = s.x i j k) ∧
      (∀ k, k < m → t.x i j k = s.x i j k) ∧ t.delta = s.delta)
    ⟨fun _ k h1 h2 => absurd h1 (by omega), fun _ => rfl, fun _ _ => rfl, fun _ _ => rfl, rfl⟩
    (by
      rintro m t hm ⟨h1, h2, h3, h4, h5⟩
      refine ⟨?_, ?_, ?_, ?_, ?_⟩
      · intro hon k hk1 hk2
        by_cases hkm : k = m
        · subst hkm
          unfold backwardStep
          split
          · simp [assign, hon, h5]
          · simp [assign, hon, h5, h4 k (by omega)]
        · have e := h1 hon k (by omega) hk2
          have hk1m : k + 1 ≠ m := by omega
          unfold backwardStep
          split <;> simp [assign, hkm, hk1m, e]
      · intro hoff
        rw [← h2 hoff]
        funext l
        unfold backwardStep
        split <;> simp [assign, hoff]
      · intro k hk
        rw [← h3 k hk]
        have hkm : k ≠ m := by omega
        unfold backwardStep
        split <;> simp [assign, hkm]
      · intro k hk
        rw [← h4 k (by omega)]
        have hkm : k ≠ m := by omega
        unfold backwardStep
        split <;> simp [assign, hkm]
      · unfold backwardStep
        split <;> simp [h5])
  obtain ⟨h1, h2, h3, -, h5⟩ := this
  exact ⟨fun hon k hk => h1 hon k (by omega) hk, h2, h3, h5⟩

theorem rows_of_recurrence (nk : Nat) (a b c d x : Nat → K)
    (hp : ∀ k, k < nk → pivot a b c k ≠ 0)
    (hx : ∀ k, k < nk → x k = if k = nk - 1 then rhs a b c d k
      else rhs a b c d k - c k / pivot a b c k * x (k + 1)) :
    ∀ k, k < nk → Row nk a b c d x k := by
  intro k hk
  -- p_k x_k + c_k x_{k+1} = p_k y_k
  have h1 : pivot a b c k * x k + (if k + 1 = nk then 0 else c k * x (k + 1))
      = pivot a b c k * rhs a b c d k := by
    rw [hx k hk]
    have := hp k hk
    by_cases hl : k = nk - 1
    · rw [if_pos hl, if_pos (by omega)]; simp
    · rw [if_neg hl, if_neg (by omega)]
      field_simp
      ring
  unfold Row
  cases k with
  | zero =>
    have h2 : pivot a b c 0 * rhs a b c d 0 = d 0 := by
      have := hp 0 hk
      simp only [rhs]
      field_simp
    rw [h2] at h1
    simp only [if_true, zero_add]
    exact h1
  | succ m =>
    have hpm := hp m (by omega)
    have hps := hp (m + 1) hk
    have h2 : pivot a b c (m + 1) * rhs a b c d (m + 1) = d (m + 1) - a (m + 1) * rhs a b c d m := by
      simp only [rhs]
      field_simp
    have h3 : x m = rhs a b c d m - c m / pivot a b c m * x (m + 1) := by
      have := hx m (by omega)
      rwa [if_neg (by omega)] at this
    have h4 : pivot a b c (m + 1) = b (m + 1) - a (m + 1) * (c m / pivot a b c m) := rfl
    rw [h2, h4] at h1
    simp only [Nat.add_eq_zero_iff, Nat.one_ne_zero, and_false, if_false, Nat.add_sub_cancel]
    rw [h3]
    linear_combination h1

/-- **C48**: wherever no pivot of a column vanishes, the solver's result satisfies every row of
that column's tridiagonal system, for every number of levels and all coefficients; columns
outside the domain and levels above the column are left as they were. -/
theorem C48_tridiag_solves (dom : Int → Int → Bool) (nk : Nat) (a b c d : F3 K) (s : TState K)
    (i j : Int) :
    (dom i j = true → (∀ k, k < nk → pivot (a i j) (b i j) (c i j) k ≠ 0) →
      ∀ k, k < nk → Row nk (a i j) (b i j) (c i j) (d i j)
        ((tridiagSolve dom nk a b c d s).x i j) k) ∧
    (dom i j = false → (tridiagSolve dom nk a b c d s).x i j = s.x i j ∧
      (tridiagSolve dom nk a b c d s).delta i j = s.delta i j) ∧
    ∀ k, nk ≤ k → (tridiagSolve dom nk a b c d s).x i j k = s.x i j k := by
  obtain ⟨f1, f2, f3⟩ := forward_spec dom a b c d s i j nk
  obtain ⟨b1, b2, b3, b4⟩ := backward_spec dom nk (forward nk (forwardStep dom a b c d) s) i j
  unfold tridiagSolve
  refine ⟨?_, ?_, ?_⟩
  · intro hon hp
    refine rows_of_recurrence nk _ _ _ _ _ hp ?_
    intro k hk
    rw [b1 hon k hk]
    obtain ⟨e1, e2⟩ := f1 hon k hk
    rw [e1, e2]
  · intro hoff
    exact ⟨by rw [b2 hoff, (f2 hoff).1], by rw [b4, (f2 hoff).2]⟩
  · intro k hk
    rw [b3 k hk, (f3 k hk).1]

/-- **C48** (masked): the selected columns are solved, the others are left untouched. -/
theorem C48_masked_solves (dom : Int → Int → Bool) (mask : F2 Bool) (nk : Nat) (a b c d : F3 K)
    (s : TState K) (i j : Int) :
    (dom i j = true → mask i j = true → (∀ k, k < nk → pivot (a i j) (b i j) (c i j) k ≠ 0) →
      ∀ k, k < nk → Row nk (a i j) (b i j) (c i j) (d i j)
        ((maskedTridiagSolve dom mask nk a b c d s).x i j) k) ∧
    (mask i j = false → (maskedTridiagSolve dom mask nk a b c d s).x i j = s.x i j ∧
      (maskedTridiagSolve dom mask nk a b c d s).delta i j = s.delta i j) := by
  have h := C48_tridiag_solves (fun i j => dom i j && mask i j) nk a b c d s i j
  refine ⟨fun h1 h2 h3 => h.1 (by simp [h1, h2]) h3, fun h1 => h.2.1 (by simp [h1])⟩

/-- **C48** (masked and unmasked agree on selected columns). -/
theorem C48_masked_agrees (dom : Int → Int → Bool) (mask : F2 Bool) (nk : Nat) (a b c d : F3 K)
    (s : TState K) (i j : Int) (hd : dom i j = true) (hm : mask i j = true) (k : Nat) (hk : k < nk) :
    (maskedTridiagSolve dom mask nk a b c d s).x i j k = (tridiagSolve dom nk a b c d s).x i j k := by
  have m1 : (fun i j => dom i j && mask i j) i j = true := by simp [hd, hm]
  obtain ⟨f1, -, -⟩ := forward_spec dom a b c d s i j nk
  obtain ⟨g1, -, -⟩ := forward_spec (fun i j => dom i j && mask i j) a b c d s i j nk
  obtain ⟨b1, -⟩ := backward_spec dom nk (forward nk (forwardStep dom a b c d) s) i j
  obtain ⟨c1, -⟩ := backward_spec (fun i j => dom i j && mask i j) nk
    (forward nk (forwardStep (fun i j => dom i j && mask i j) a b c d) s) i j
  unfold maskedTridiagSolve tridiagSolve
  simp only
  -- downwards from the last level
  have key : ∀ n k, k + n + 1 = nk →
      (backward nk (backwardStep (fun i j => dom i j && mask i j) nk)
        (forward nk (forwardStep (fun i j => dom i j && mask i j) a b c d) s)).x i j k
      = (backward nk (backwardStep dom nk) (forward nk (forwardStep dom a b c d) s)).x i j k := by
    intro n
    induction n with
    | zero =>
      intro k hk
      rw [b1 hd k (by omega), c1 m1 k (by omega), if_pos (by omega), if_pos (by omega),
        (f1 hd k (by omega)).2, (g1 m1 k (by omega)).2]
    | succ n ih =>
      intro k hk
      rw [b1 hd k (by omega), c1 m1 k (by omega), if_neg (by omega), if_neg (by omega),
        (f1 hd k (by omega)).2, (g1 m1 k (by omega)).2, (f1 hd k (by omega)).1,
        (g1 m1 k (by omega)).1, ih (k + 1) (by omega)]
  exact key (nk - 1 - k) k (by omega)

end

section
variable [Field K] [LinearOrder K] [IsStrictOrderedRing K]

/-- **C48** (when pivots do not vanish): a strictly diagonally dominant column has no vanishing
pivot, so that it is solved. -/
theorem C48_diagonally_dominant (nk : Nat) (a b c : Nat → K)
    (h0 : 0 < nk → |c 0| < |b 0| ∨ (nk = 1 ∧ b 0 ≠ 0))
    (h : ∀ k, 0 < k → k < nk → |a k| + |c k| < |b k|) :
    ∀ k, k < nk → pivot a b c k ≠ 0 := by
  have key : ∀ k, k < nk → pivot a b c k ≠ 0 ∧ (k + 1 < nk → |c k| < |pivot a b c k|) := by
    intro k
    induction k with
    | zero =>
      intro hk
      rcases h0 hk with h' | ⟨h1, h2⟩
      · refine ⟨?_, fun _ => h'⟩
        intro e
        simp only [pivot] at e
        rw [e, abs_zero] at h'
        exact absurd (abs_nonneg (c 0)) (not_le.2 h')
      · exact ⟨h2, fun h3 => absurd h3 (by omega)⟩
    | succ m ih =>
      intro hk
      obtain ⟨p1, p2⟩ := ih (by omega)
      have p3 := p2 (by omega)
      have hd := h (m + 1) (by omega) hk
      have hpos : 0 < |pivot a b c m| := abs_pos.2 p1
      have hq : |c m / pivot a b c m| ≤ 1 := by
        rw [abs_div, div_le_one hpos]
        exact le_of_lt p3
      have hprod : |a (m + 1) * (c m / pivot a b c m)| ≤ |a (m + 1)| := by
        rw [abs_mul]
        calc |a (m + 1)| * |c m / pivot a b c m| ≤ |a (m + 1)| * 1 :=
              mul_le_mul_of_nonneg_left hq (abs_nonneg _)
          _ = |a (m + 1)| := mul_one _
      have hlow : |b (m + 1)| - |a (m + 1)| ≤ |pivot a b c (m + 1)| := by
        have := abs_sub_abs_le_abs_sub (b (m + 1)) (a (m + 1) * (c m / pivot a b c m))
        have e : pivot a b c (m + 1) = b (m + 1) - a (m + 1) * (c m / pivot a b c m) := rfl
        rw [e]
        exact le_trans (sub_le_sub_left hprod _) this
      have hc : |c (m + 1)| < |pivot a b c (m + 1)| :=
        lt_of_lt_of_le (lt_sub_iff_add_lt'.2 hd) hlow
      refine ⟨?_, fun _ => hc⟩
      intro e
      rw [e, abs_zero] at hc
      exact absurd (abs_nonneg (c (m + 1))) (not_le.2 hc)
  exact fun k hk => (key k hk).1

end

/-- A concrete system: three levels, diagonally dominant. -/
def exA : F3 ℚ := fun _ _ _ => 1
def exB : F3 ℚ := fun _ _ _ => 4
def exC : F3 ℚ := fun _ _ _ => 2
def exD : F3 ℚ := fun _ _ k => k
def exState : TState ℚ := ⟨fun _ _ _ => 0, fun _ _ _ => 0⟩

example : ∀ k, k < 3 → Row 3 (exA 0 0) (exB 0 0) (exC 0 0) (exD 0 0)
    ((tridiagSolve (fun _ _ => true) 3 exA exB exC exD exState).x 0 0) k :=
  (C48_tridiag_solves (fun _ _ => true) 3 exA exB exC exD exState 0 0).1 rfl
    (C48_diagonally_dominant 3 _ _ _ (fun _ => Or.inl (by norm_num [exB, exC]))
      (by intros; norm_num [exA, exB, exC]))

/-! ### C49 -/

theorem extremeLoop_spec [LinearOrder K] (worse : K → K → Prop) [DecidableRel worse]
    (htr : ∀ x y z, worse x y → worse y z → worse x z)
    (hneg : ∀ x y z, worse x z → worse x y ∨ worse y z)
    (hirr : ∀ x, ¬ worse x x)
    (field : Int → K) (s : Int) (n : Nat) (best : K) (bi level : Int)
    (h1 : s ≤ bi) (h2 : bi ≤ level) (h2' : s ≤ level) (hb : field bi = best)
    (hall : ∀ l, s ≤ l → l < level → ¬ worse best (field l))
    (hlt : bi < level ∨ (bi = s ∧ level = s))
    (hfirst : ∀ l, s ≤ l → l < bi → worse (field l) best) :
    let r := extremeLoop (fun v b => decide (worse b v)) field n (best, bi, level)
    s ≤ r.2.1 ∧ (r.2.1 < level + n ∨ (n = 0 ∧ r.2.1 = bi)) ∧ field r.2.1 = r.1 ∧
      (∀ l, s ≤ l → l < level + n → ¬ worse r.1 (field l)) ∧
      (∀ l, s ≤ l → l < r.2.1 → worse (field l) r.1) := by
  induction n generalizing best bi level with
  | zero =>
    simp only [extremeLoop]
    exact ⟨h1, Or.inr ⟨trivial, trivial⟩, hb, fun l a b => hall l a (by simpa using b), hfirst⟩
  | succ n ih =>
    simp only [extremeLoop]
    by_cases hw : worse best (field level)
    · rw [if_pos (by simpa using hw)]
      have := ih (field level) level (level + 1) h2' (by omega) (by omega) rfl
        (by
          intro l a b hc
          by_cases hl : l = level
          · subst hl; exact hirr _ hc
          · exact hall l a (by omega) (htr _ _ _ hw hc))
        (Or.inl (by omega))
        (by
          intro l a b
          by_cases hl : l < bi
          · exact htr _ _ _ (hfirst l a hl) hw
          · rcases hneg _ (field l) _ hw with h | h
            · exact absurd h (hall l a b)
            · exact h)
      simp only at this
      refine ⟨this.1, Or.inl ?_, this.2.2.1, ?_, this.2.2.2.2⟩
      · rcases this.2.1 with h | ⟨h, h'⟩
        · push_cast; omega
        · rw [h']; push_cast; omega
      · intro l a b; exact this.2.2.2.1 l a (by push_cast at b; omega)
    · rw [if_neg (by simpa using hw)]
      have := ih best bi (level + 1) h1 (by omega) (by omega) hb
        (by
          intro l a b
          by_cases hl : l = level
          · subst hl; exact hw
          · exact hall l a (by omega))
        (Or.inl (by omega)) hfirst
      simp only at this
      refine ⟨this.1, Or.inl ?_, this.2.2.1, ?_, this.2.2.2.2⟩
      · rcases this.2.1 with h | ⟨h, h'⟩
        · push_cast; omega
        · rw [h']; push_cast; omega
      · intro l a b; exact this.2.2.2.1 l a (by push_cast at b; omega)

theorem columnExtreme_spec [LinearOrder K] (worse : K → K → Prop) [DecidableRel worse]
    (htr : ∀ x y z, worse x y → worse y z → worse x z)
    (hneg : ∀ x y z, worse x z → worse x y ∨ worse y z)
    (hirr : ∀ x, ¬ worse x x) (field : Int → K) (s e : Int) (h : s ≤ e) :
    FirstExtreme field worse s e (columnExtreme (fun v b => decide (worse b v)) field s e) := by
  have := extremeLoop_spec worse htr hneg hirr field s (e - s + 1).toNat (field s) s s
    (Int.le_refl _) (Int.le_refl _) (Int.le_refl _) rfl (fun l a b => absurd a (by omega))
    (Or.inr ⟨rfl, rfl⟩) (fun l a b => absurd a (by omega))
  simp only at this
  have hn : ((e - s + 1).toNat : Int) = e - s + 1 := by omega
  rw [hn] at this
  obtain ⟨h1, h2, h3, h4, h5⟩ := this
  refine ⟨h1, ?_, h3, fun l a b => h4 l a (by omega), ?_⟩
  · rcases h2 with h2 | ⟨h2, -⟩
    · simp only [columnExtreme]; omega
    · omega
  · intro l a b heq
    have := h5 l a b
    rw [heq] at this
    exact hirr _ this

/-- **C49** (maximum): for every column and every non-empty inclusive range, `column_max`
returns the largest value of the range and the first level at which it occurs. -/
theorem C49_column_max [LinearOrder K] (field : Int → K) (s e : Int) (h : s ≤ e) :
    let r := columnMax field s e
    s ≤ r.2 ∧ r.2 ≤ e ∧ field r.2 = r.1 ∧ (∀ l, s ≤ l → l ≤ e → field l ≤ r.1) ∧
      ∀ l, s ≤ l → l < r.2 → field l ≠ r.1 := by
  have := columnExtreme_spec (fun x y : K => x < y) (fun x y z => lt_trans)
    (fun x y z hxz => by
      rcases lt_or_ge x y with h | h
      · exact Or.inl h
      · exact Or.inr (lt_of_le_of_lt h hxz))
    (fun x => lt_irrefl x) field s e h
  obtain ⟨h1, h2, h3, h4, h5⟩ := this
  exact ⟨h1, h2, h3, fun l a b => not_lt.1 (h4 l a b), h5⟩

/-- **C49** (minimum). -/
theorem C49_column_min [LinearOrder K] (field : Int → K) (s e : Int) (h : s ≤ e) :
    let r := columnMin field s e
    s ≤ r.2 ∧ r.2 ≤ e ∧ field r.2 = r.1 ∧ (∀ l, s ≤ l → l ≤ e → r.1 ≤ field l) ∧
      ∀ l, s ≤ l → l < r.2 → field l ≠ r.1 := by
  have := columnExtreme_spec (fun x y : K => y < x) (fun x y z h1 h2 => lt_trans h2 h1)
    (fun x y z hxz => by
      rcases lt_or_ge y x with h | h
      · exact Or.inl h
      · exact Or.inr (lt_of_lt_of_le hxz h))
    (fun x => lt_irrefl x) field s e h
  obtain ⟨h1, h2, h3, h4, h5⟩ := this
  exact ⟨h1, h2, h3, fun l a b => not_lt.1 (h4 l a b), h5⟩

/-- **C49** (data dimensions): the versions for one index of a data dimension. -/
theorem C49_column_ddim [LinearOrder K] (field : Int → Nat → K) (ddim : Nat) (s e : Int) :
    columnMaxDdim field ddim s e = columnMax (fun k => field k ddim) s e ∧
    columnMinDdim field ddim s e = columnMin (fun k => field k ddim) s e := ⟨rfl, rfl⟩

example : columnMax (fun k : Int => if k = 2 ∨ k = 4 then (7 : Int) else k) 0 5 = (7, 2) := by
  decide +kernel

/-! ### C72 -/

/-- **C72** (`select_k`): if every level carries its own index in the mask, the output is the
input at the selected level where that level exists, and is unchanged elsewhere. -/
theorem C72_select_k (dom : Int → Int → Bool) (nk : Nat) (f : F3 K) (kMask : F3 Int)
    (sel : F2 Int) (out : F2 K) (i j : Int) (hm : ∀ k, k < nk → kMask i j k = k) :
    (∀ k, k < nk → dom i j = true → sel i j = k →
      selectK dom nk f kMask sel out i j = f i j k) ∧
    ((dom i j = false ∨ sel i j < 0 ∨ (nk : Int) ≤ sel i j) →
      selectK dom nk f kMask sel out i j = out i j) := by
  unfold selectK
  have key : ∀ n, n ≤ nk →
      forward n (fun k o i j => if dom i j && kMask i j k == sel i j then f i j k else o i j) out i j
        = if dom i j = true ∧ 0 ≤ sel i j ∧ sel i j < n then f i j (sel i j).toNat else out i j := by
    intro n hn
    induction n with
    | zero =>
      rw [if_neg (by omega)]
      rfl
    | succ n ih =>
      rw [forward_succ, ih (by omega), hm n (by omega)]
      by_cases hd : dom i j = true
      · by_cases hs : (n : Int) = sel i j
        · have h1 : (sel i j).toNat = n := by omega
          rw [if_pos (by simp [hd, hs]), if_pos ⟨hd, by omega, by push_cast; omega⟩, h1]
        · rw [if_neg (by simp [hd, hs])]
          by_cases hlt : 0 ≤ sel i j ∧ sel i j < n
          · rw [if_pos ⟨hd, hlt⟩, if_pos ⟨hd, hlt.1, by push_cast; omega⟩]
          · rw [if_neg (by tauto), if_neg (by push_cast; omega)]
      · rw [if_neg (by simp [hd]), if_neg (by tauto), if_neg (by tauto)]
  rw [key nk (Nat.le_refl _)]
  refine ⟨?_, ?_⟩
  · intro k hk hd hs
    rw [if_pos ⟨hd, by omega, by omega⟩, hs, Int.toNat_natCast]
  · intro h
    rw [if_neg]
    rintro ⟨h1, h2, h3⟩
    rcases h with h | h | h
    · rw [h] at h1; cases h1
    · omega
    · omega

/-- **C72** (pointwise stencils): inside the domain and the column each output is the stated
function of the inputs at that point; every other point is unchanged. -/
theorem C72_pointwise [Field K] (dom : Int → Int → Bool) (nk : Nat) (q p : F3 K) (adj : F2 K) (v : K)
    (i j : Int) (k : Nat) :
    (dom i j = true ∧ k < nk →
      copyStencil dom nk p q i j k = p i j k ∧
      adjustmentFactor dom nk adj q i j k = q i j k * adj i j ∧
      setValue dom nk q v i j k = v ∧
      adjustDivide dom nk p q i j k = q i j k / p i j k ∧
      averageIn dom nk q p i j k = (q i j k + p i j k) / 2) ∧
    (¬ (dom i j = true ∧ k < nk) →
      copyStencil dom nk p q i j k = q i j k ∧
      adjustmentFactor dom nk adj q i j k = q i j k ∧
      setValue dom nk q v i j k = q i j k ∧
      adjustDivide dom nk p q i j k = q i j k ∧
      averageIn dom nk q p i j k = q i j k) := by
  refine ⟨fun h => ?_, fun h => ?_⟩
  · simp only [copyStencil, adjustmentFactor, setValue, adjustDivide, averageIn, parallelAssign,
      if_pos h, true_and]
    ring
  · simp only [copyStencil, adjustmentFactor, setValue, adjustDivide, averageIn, parallelAssign,
      if_neg h, and_self]

/-- **C72** (`sign` and `dim`): `sign a b` has the magnitude of `a`, and the sign of `b` when
`b` is not zero; `dim a b` is the difference cut off at zero. -/
theorem C72_sign_dim [Field K] [LinearOrder K] [IsStrictOrderedRing K] (a b : K) :
    |signFn a b| = |a| ∧ (0 < b → 0 ≤ signFn a b) ∧ (b < 0 → signFn a b ≤ 0) ∧
      0 ≤ dimFn a b ∧ (b ≤ a → dimFn a b = a - b) ∧ (a ≤ b → dimFn a b = 0) := by
  have hm : max a (-a) = |a| := rfl
  simp only [signFn, dimFn, hm]
  refine ⟨?_, ?_, ?_, le_max_right _ _, fun h => max_eq_left (sub_nonneg.2 h),
    fun h => max_eq_right (sub_nonpos.2 h)⟩
  · split <;> simp
  · intro h; rw [if_pos h]; exact abs_nonneg _
  · intro h; rw [if_neg (not_lt.2 (le_of_lt h))]; exact neg_nonpos.2 (abs_nonneg _)

/-- At `b = 0` the sign is negative, unlike Fortran's `sign`. -/
theorem C72_sign_zero [Field K] [LinearOrder K] [IsStrictOrderedRing K] (a : K) :
    signFn a 0 = -|a| := by
  have hm : max a (-a) = |a| := rfl
  simp [signFn, hm]

example : signFn (3 : ℚ) (-2) = -3 ∧ dimFn (3 : ℚ) 5 = 0 := by decide +kernel

end NDSL.Column
