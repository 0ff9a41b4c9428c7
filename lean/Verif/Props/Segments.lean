import Verif.Model.Segments
import Mathlib.Tactic.Choose
/-
Property C104: the pieces a field is plotted in cover what is not missing, once.
-/
namespace NDSL.Segments
variable {V X : Type}

/-! ### Specification -/

/-- A rectangle of cells; it may be handed on with rows and columns exchanged. -/
structure Rect where
  top : Nat
  height : Nat
  left : Nat
  width : Nat
  turned : Bool

/-- The cell `(i, j)` is in the rectangle. -/
def Rect.has (rc : Rect) (i j : Nat) : Bool :=
  decide (rc.top ≤ i ∧ i < rc.top + rc.height ∧ rc.left ≤ j ∧ j < rc.left + rc.width)

/-- The part of an array in a rectangle; with `e = 1` that of the corners of its cells, one more in each direction. -/
def Rect.part (rc : Rect) (e : Nat) (m : Mat V) : Mat V :=
  if rc.turned then ⟨rc.width + e, rc.height + e, fun i j => m.get (rc.top + j) (rc.left + i)⟩
  else ⟨rc.height + e, rc.width + e, fun i j => m.get (rc.top + i) (rc.left + j)⟩

def Rect.piece (rc : Rect) (x y : Mat X) (a : Mat (Option V)) : Piece X V := (rc.part 1 x, rc.part 1 y, rc.part 0 a)

/-- The rectangles lie in an array of `n` rows and `m` columns, none is empty, and each cell that is not missing is in
exactly one of them, those that are missing in none. -/
def Cover (n m : Nat) (missing : Nat → Nat → Bool) (rects : List Rect) : Prop :=
  (∀ rc ∈ rects, 0 < rc.height ∧ 0 < rc.width ∧ rc.top + rc.height ≤ n ∧ rc.left + rc.width ≤ m) ∧
  ∀ i j, i < n → j < m → rects.countP (fun rc => rc.has i j) = if missing i j then 0 else 1

/-! ### The rectangles -/

def Rect.shift (dr dc : Nat) (rc : Rect) : Rect := { rc with top := dr + rc.top, left := dc + rc.left }
def Rect.flip (rc : Rect) : Rect := ⟨rc.left, rc.width, rc.top, rc.height, !rc.turned⟩

def pat (n m : Nat) (b : Nat → Nat → Bool) : Mat (Option Unit) := ⟨n, m, fun i j => if b i j then none else some ()⟩

/-- The recursion on rectangles alone. -/
def rectsOf : Nat → Nat → Nat → (Nat → Nat → Bool) → Option (List Rect)
  | 0, _, _, _ => none
  | fuel + 1, n, m, b =>
    if anyNan (pat n m b) = false then
      if 0 < n * m then some [⟨0, n, 0, m, false⟩] else some []
    else if rowsFirst (pat n m b) = true then
      let i := argmax (rowNans (pat n m b)) n
      if rowNans (pat n m b) i = m then
        joinAll
          [(rectsOf fuel (min i n - 0) (min m m - 0) (fun p q => b (0 + p) (0 + q))).map (·.map (Rect.shift 0 0)),
           (rectsOf fuel (min n n - (i + 1)) (min m m - 0) (fun p q => b (i + 1 + p) (0 + q))).map
            (·.map (Rect.shift (i + 1) 0))]
      else
        joinAll ((runs (fun j => b i j) m (m + 1) 0 1).map fun r =>
          (rectsOf fuel (min n n - 0) (min r.2 m - r.1) (fun p q => b (0 + p) (r.1 + q))).map (·.map (Rect.shift 0 r.1)))
    else (rectsOf fuel m n (fun i j => b j i)).map (·.map Rect.flip)

/-! ### Counts -/

theorem has_iff (rc : Rect) (i j : Nat) :
    rc.has i j = true ↔ rc.top ≤ i ∧ i < rc.top + rc.height ∧ rc.left ≤ j ∧ j < rc.left + rc.width := by
  unfold Rect.has; rw [decide_eq_true_eq]

theorem count_shift {n m : Nat} {b : Nat → Nat → Bool} {rects : List Rect} (h : Cover n m b rects) (dr dc i j : Nat) :
    (rects.map (Rect.shift dr dc)).countP (fun rc => rc.has i j) =
      if dr ≤ i ∧ i < dr + n ∧ dc ≤ j ∧ j < dc + m then (if b (i - dr) (j - dc) then 0 else 1) else 0 := by
  rw [List.countP_map]
  split
  · rename_i hc
    rw [← h.2 (i - dr) (j - dc) (by omega) (by omega)]
    refine List.countP_congr fun rc _ => ?_
    simp only [Function.comp, has_iff, Rect.shift]
    omega
  · rename_i hc
    rw [List.countP_eq_zero]
    intro rc hrc
    have := h.1 rc hrc
    simp only [Function.comp, has_iff, Rect.shift]
    omega

theorem cover_flip {n m : Nat} {b : Nat → Nat → Bool} {rects : List Rect} (h : Cover m n (fun i j => b j i) rects) :
    Cover n m b (rects.map Rect.flip) := by
  refine ⟨fun rc hrc => ?_, fun i j hi hj => ?_⟩
  · obtain ⟨rc', hm, rfl⟩ := List.mem_map.mp hrc
    obtain ⟨h1, h2, h3, h4⟩ := h.1 rc' hm
    exact ⟨h2, h1, h4, h3⟩
  · rw [List.countP_map, ← h.2 j i hj hi]
    refine List.countP_congr fun rc _ => ?_
    simp only [Function.comp, has_iff, Rect.flip]
    omega

theorem joinAll_some {T S : Type} (l : List S) (f : S → Option (List T)) (g : S → List T) (h : ∀ r ∈ l, f r = some (g r)) :
    joinAll (l.map f) = some (l.flatMap g) := by
  induction l with
  | nil => rfl
  | cons a l ih =>
    rw [List.map_cons, h a List.mem_cons_self, joinAll, ih fun r hr => h r (List.mem_cons_of_mem _ hr)]
    rfl

/-! ### The segments of a row -/

/-- Segments that follow each other from `s` to `n`. -/
inductive Chain (n : Nat) : Nat → List (Nat × Nat) → Prop
  | nil : Chain n n []
  | cons {s e : Nat} {l : List (Nat × Nat)} (h1 : s < e) (h2 : e ≤ n) (h : Chain n e l) : Chain n s ((s, e) :: l)

theorem extend_spec (b : Nat → Bool) (n s : Nat) : ∀ k e, e ≤ n → e ≤ extend b n s k e ∧ extend b n s k e ≤ n ∧
    ∀ j, e ≤ j → j < extend b n s k e → b s = b j
  | 0, e, h => ⟨Nat.le_refl _, h, fun j h1 h2 => by rw [extend] at h2; omega⟩
  | k + 1, e, h => by
    rw [extend]
    split
    · rename_i hc
      obtain ⟨h1, h2, h3⟩ := extend_spec b n s k (e + 1) hc.1
      refine ⟨by omega, h2, fun j hj hj' => ?_⟩
      by_cases hje : j = e
      · rw [hje]; exact hc.2
      · exact h3 j (by omega) hj'
    · exact ⟨Nat.le_refl _, h, fun j h1 h2 => by omega⟩

theorem extend_self (b : Nat → Bool) (n s k : Nat) (h : s < n) (hk : 0 < k) : s < extend b n s k s := by
  cases k with
  | zero => omega
  | succ k =>
    rw [extend, if_pos ⟨h, rfl⟩]
    have := (extend_spec b n s k (s + 1) h).1
    omega

theorem runs_chain (b : Nat → Bool) (n : Nat) : ∀ k s, n - s < k → s ≤ n → Chain n s (runs b n k s s)
  | 0, s, h, _ => by omega
  | k + 1, s, h, hs => by
    rw [runs]
    split
    · rename_i hc
      have h1 := extend_self b n s n hc (by omega)
      have h2 := (extend_spec b n s n s hs).2.1
      exact .cons h1 h2 (runs_chain b n k _ (by omega) h2)
    · have : s = n := by omega
      subst this; exact .nil

theorem runs_first (b : Nat → Bool) (n : Nat) (hn : 1 < n) : ∃ e l, runs b n (n + 1) 0 1 = (0, e) :: l ∧ 0 < e ∧
    (∀ j, 0 < j → j < e → b 0 = b j) ∧ e ≤ n ∧ Chain n e l := by
  rw [runs, if_pos hn]
  obtain ⟨h1, h2, h3⟩ := extend_spec b n 0 n 1 (by omega)
  exact ⟨_, _, rfl, h1, fun j hj hj' => h3 j hj hj', h2, runs_chain b n n _ (by omega) h2⟩

/-- The row of a field that has a value and a missing value is cut in at least two. -/
theorem runs_spec (b : Nat → Bool) (n : Nat) (j1 j2 : Nat) (h1 : j1 < n) (h2 : j2 < n) (hb : b j1 ≠ b j2) :
    Chain n 0 (runs b n (n + 1) 0 1) ∧ ∀ r ∈ runs b n (n + 1) 0 1, r.2 - r.1 < n ∧ r.1 < r.2 ∧ r.2 ≤ n := by
  have hn : 1 < n := by
    by_cases hn : n ≤ 1
    · have e1 : j1 = 0 := by omega
      have e2 : j2 = 0 := by omega
      rw [e1, e2] at hb; exact absurd rfl hb
    · omega
  obtain ⟨e, l, he, h0, hall, hle, hch⟩ := runs_first b n hn
  have hlt : e < n := by
    by_cases hen : e = n
    · exfalso
      apply hb
      have key : ∀ j, j < n → b 0 = b j := by
        intro j hj
        by_cases hj0 : j = 0
        · rw [hj0]
        · exact hall j (by omega) (by omega)
      rw [← key j1 h1, ← key j2 h2]
    · omega
  have hin : ∀ s l, Chain n s l → ∀ r ∈ l, s ≤ r.1 ∧ r.1 < r.2 ∧ r.2 ≤ n := by
    intro s l hc
    induction hc with
    | nil => intro r hr; cases hr
    | cons a b' _ ih =>
      intro r hr
      rcases List.mem_cons.mp hr with rfl | hr
      · exact ⟨Nat.le_refl _, a, b'⟩
      · have := ih r hr; omega
  rw [he]
  refine ⟨.cons h0 hle hch, fun r hr => ?_⟩
  rcases List.mem_cons.mp hr with rfl | hr
  · exact ⟨by simpa using hlt, h0, hle⟩
  · have := hin e l hch r hr
    omega

theorem count_chain {n m s : Nat} {b : Nat → Nat → Bool} {l : List (Nat × Nat)} (hc : Chain m s l)
    (g : Nat × Nat → List Rect) (hg : ∀ r ∈ l, Cover n (r.2 - r.1) (fun p q => b p (r.1 + q)) (g r)) (i j : Nat) (hi : i < n) :
    (l.flatMap fun r => (g r).map (Rect.shift 0 r.1)).countP (fun rc => rc.has i j) =
      if s ≤ j ∧ j < m then (if b i j then 0 else 1) else 0 := by
  induction hc with
  | nil => simp only [List.flatMap_nil, List.countP_nil]; rw [if_neg (by omega)]
  | @cons s e l h1 h2 h ih =>
    rw [List.flatMap_cons, List.countP_append, ih fun r hr => hg r (List.mem_cons_of_mem _ hr),
      count_shift (hg (s, e) List.mem_cons_self)]
    simp only
    by_cases hj : s ≤ j ∧ j < e
    · have e1 : 0 ≤ i ∧ i < 0 + n ∧ s ≤ j ∧ j < s + (e - s) := by omega
      have e2 : ¬ (e ≤ j ∧ j < m) := by omega
      have e3 : s ≤ j ∧ j < m := by omega
      rw [if_pos e1, if_neg e2, if_pos e3, show s + (j - s) = j by omega, Nat.sub_zero, Nat.add_zero]
    · have e1 : ¬ (0 ≤ i ∧ i < 0 + n ∧ s ≤ j ∧ j < s + (e - s)) := by omega
      rw [if_neg e1]
      by_cases hj2 : e ≤ j ∧ j < m
      · have e3 : s ≤ j ∧ j < m := by omega
        rw [if_pos hj2, if_pos e3, Nat.zero_add]
      · have e3 : ¬ (s ≤ j ∧ j < m) := by omega
        rw [if_neg hj2, if_neg e3]

/-! ### Largest counts -/

theorem le_maxOf (f : Nat → Nat) : ∀ n i, i < n → f i ≤ maxOf f n
  | n + 1, i, h => by
    rw [maxOf]
    by_cases hi : i = n
    · subst hi; omega
    · have := le_maxOf f n i (by omega); omega

theorem maxOf_mem (f : Nat → Nat) : ∀ n, 0 < n → ∃ i, i < n ∧ f i = maxOf f n
  | 1, _ => ⟨0, by omega, by rw [maxOf, maxOf]; omega⟩
  | n + 2, _ => by
    obtain ⟨i, hi, he⟩ := maxOf_mem f (n + 1) (by omega)
    rw [maxOf]
    by_cases h : maxOf f (n + 1) ≤ f (n + 1)
    · exact ⟨n + 1, by omega, by omega⟩
    · exact ⟨i, by omega, by omega⟩

theorem argmax_spec (f : Nat → Nat) (n : Nat) (h : 0 < n) : argmax f n < n ∧ f (argmax f n) = maxOf f n := by
  unfold argmax
  obtain ⟨i, hi, he⟩ := maxOf_mem f n h
  cases hf : (List.range n).find? fun i => decide (f i = maxOf f n) with
  | none => exact absurd (List.find?_eq_none.mp hf i (List.mem_range.mpr hi)) (by simpa using he)
  | some k =>
    refine ⟨List.mem_range.mp (List.mem_of_find?_eq_some hf), ?_⟩
    simpa using List.find?_some hf

theorem nan_pat (n m : Nat) (b : Nat → Nat → Bool) (i j : Nat) : isNan (pat n m b) i j = b i j := by
  unfold isNan pat
  cases h : b i j <;> simp [h]

theorem rowNans_pat (n m : Nat) (b : Nat → Nat → Bool) (i : Nat) :
    rowNans (pat n m b) i = (List.range m).countP fun j => b i j := by
  unfold rowNans
  exact List.countP_congr fun j _ => by rw [nan_pat]

theorem anyNan_false (n m : Nat) (b : Nat → Nat → Bool) :
    anyNan (pat n m b) = false ↔ ∀ i j, i < n → j < m → b i j = false := by
  unfold anyNan
  rw [List.any_eq_false]
  constructor
  · intro h i j hi hj
    have := h i (List.mem_range.mpr hi)
    rw [rowNans_pat] at this
    have h0 : (List.range m).countP (fun j => b i j) = 0 := by simpa using this
    simpa using List.countP_eq_zero.mp h0 j (List.mem_range.mpr hj)
  · intro h i hi
    rw [rowNans_pat]
    have : (List.range m).countP (fun j => b i j) = 0 :=
      List.countP_eq_zero.mpr fun j hj => by rw [h i j (List.mem_range.mp hi) (List.mem_range.mp hj)]; decide
    rw [this]; decide

/-- The recursion ends and its rectangles cover the field. -/
theorem rects_cover : ∀ k n m (b : Nat → Nat → Bool), n * m ≤ k →
    ((anyNan (pat n m b) = false ∨ rowsFirst (pat n m b) = true) →
      ∃ rects, (∀ fuel, 2 * k + 1 ≤ fuel → rectsOf fuel n m b = some rects) ∧ Cover n m b rects) ∧
    ∃ rects, (∀ fuel, 2 * k + 2 ≤ fuel → rectsOf fuel n m b = some rects) ∧ Cover n m b rects := by
  intro k
  induction k using Nat.strongRecOn with
  | _ k ih =>
  have rowcase : ∀ n m (b : Nat → Nat → Bool), n * m ≤ k → (anyNan (pat n m b) = false ∨ rowsFirst (pat n m b) = true) →
      ∃ rects, (∀ fuel, 2 * k + 1 ≤ fuel → rectsOf fuel n m b = some rects) ∧ Cover n m b rects := by
    intro n m b hk hrow
    by_cases hany : anyNan (pat n m b) = false
    · have hb := (anyNan_false n m b).mp hany
      by_cases hpos : 0 < n * m
      · refine ⟨[⟨0, n, 0, m, false⟩], fun fuel hf => ?_, fun rc hrc => ?_, fun i j hi hj => ?_⟩
        · cases fuel with
          | zero => omega
          | succ fuel => rw [rectsOf, if_pos hany, if_pos hpos]
        · rcases List.mem_singleton.mp hrc with rfl
          exact ⟨Nat.pos_of_mul_pos_right hpos, Nat.pos_of_mul_pos_left hpos, by simp, by simp⟩
        · rw [hb i j hi hj, List.countP_cons, List.countP_nil, if_pos ((has_iff _ i j).mpr (by simp only; omega))]
          rfl
      · refine ⟨[], fun fuel hf => ?_, fun rc hrc => (by cases hrc), fun i j hi hj => ?_⟩
        · cases fuel with
          | zero => omega
          | succ fuel => rw [rectsOf, if_pos hany, if_neg hpos]
        · exact absurd (Nat.mul_pos (by omega : 0 < n) (by omega : 0 < m)) hpos
    · have hr : rowsFirst (pat n m b) = true := by
        rcases hrow with h | h
        · exact absurd h hany
        · exact h
      -- there is a missing value
      have hex : ∃ i j, i < n ∧ j < m ∧ b i j = true := by
        by_contra hcon
        apply hany
        rw [anyNan_false]
        intro i j hi hj
        by_contra hne
        exact hcon ⟨i, j, hi, hj, by simpa using hne⟩
      obtain ⟨i0, j0, hi0, hj0, hb0⟩ := hex
      have hn : 0 < n := by omega
      have hm : 0 < m := by omega
      obtain ⟨hi, hmax⟩ := argmax_spec (rowNans (pat n m b)) n hn
      have hstep : ∀ fuel, rectsOf (fuel + 1) n m b = _ := fun fuel => by
        rw [rectsOf, if_neg hany, if_pos hr]
      generalize argmax (rowNans (pat n m b)) n = i at hi hmax hstep
      by_cases hfull : rowNans (pat n m b) i = m
      · -- a row without values
        have hrowb : ∀ j, j < m → b i j = true := by
          rw [rowNans_pat] at hfull
          have := List.countP_eq_length.mp (hfull.trans List.length_range.symm)
          intro j hj
          exact this j (List.mem_range.mpr hj)
        have hs1 : (min i n - 0) * (min m m - 0) < k := by
          have h1 : min i n - 0 = i := by omega
          have h2 : min m m - 0 = m := by omega
          rw [h1, h2]
          exact Nat.lt_of_lt_of_le (Nat.mul_lt_mul_of_pos_right hi hm) hk
        have hs2 : (min n n - (i + 1)) * (min m m - 0) < k := by
          have h1 : min n n - (i + 1) < n := by omega
          have h2 : min m m - 0 = m := by omega
          rw [h2]
          exact Nat.lt_of_lt_of_le (Nat.mul_lt_mul_of_pos_right h1 hm) hk
        obtain ⟨r1, f1, c1⟩ := (ih _ hs1 _ _ (fun p q => b (0 + p) (0 + q)) (Nat.le_refl _)).2
        obtain ⟨r2, f2, c2⟩ := (ih _ hs2 _ _ (fun p q => b (i + 1 + p) (0 + q)) (Nat.le_refl _)).2
        refine ⟨r1.map (Rect.shift 0 0) ++ r2.map (Rect.shift (i + 1) 0), fun fuel hf => ?_, fun rc hrc => ?_,
          fun p q hp hq => ?_⟩
        · cases fuel with
          | zero => omega
          | succ fuel =>
            rw [hstep fuel]
            simp only
            rw [if_pos hfull, f1 fuel (by omega), f2 fuel (by omega)]
            simp only [Option.map_some, joinAll, List.append_nil]
        · rcases List.mem_append.mp hrc with h | h
          · obtain ⟨rc', hm', rfl⟩ := List.mem_map.mp h
            have := c1.1 rc' hm'
            simp only [Rect.shift]
            omega
          · obtain ⟨rc', hm', rfl⟩ := List.mem_map.mp h
            have := c2.1 rc' hm'
            simp only [Rect.shift]
            omega
        · rw [List.countP_append, count_shift c1, count_shift c2]
          by_cases h1 : p < i
          · have e1 : (0 ≤ p ∧ p < 0 + (min i n - 0) ∧ 0 ≤ q ∧ q < 0 + (min m m - 0)) := by omega
            have e2 : ¬ (i + 1 ≤ p ∧ p < i + 1 + (min n n - (i + 1)) ∧ 0 ≤ q ∧ q < 0 + (min m m - 0)) := by omega
            rw [if_pos e1, if_neg e2]
            simp only [Nat.zero_add, Nat.sub_zero, Nat.add_zero]
          · have e1 : ¬ (0 ≤ p ∧ p < 0 + (min i n - 0) ∧ 0 ≤ q ∧ q < 0 + (min m m - 0)) := by omega
            rw [if_neg e1]
            by_cases h2 : p = i
            · have e2 : ¬ (i + 1 ≤ p ∧ p < i + 1 + (min n n - (i + 1)) ∧ 0 ≤ q ∧ q < 0 + (min m m - 0)) := by omega
              rw [if_neg e2, h2, hrowb q hq]; rfl
            · have e2 : (i + 1 ≤ p ∧ p < i + 1 + (min n n - (i + 1)) ∧ 0 ≤ q ∧ q < 0 + (min m m - 0)) := by omega
              rw [if_pos e2, show i + 1 + (p - (i + 1)) = p by omega]
              simp only [Nat.zero_add, Nat.sub_zero]
      · -- a row with both
        have hsome : ∃ j1, j1 < m ∧ b i j1 = true := by
          by_contra hcon
          have hz : rowNans (pat n m b) i = 0 := by
            rw [rowNans_pat]
            refine List.countP_eq_zero.mpr fun j hj => ?_
            intro hbj
            exact hcon ⟨j, List.mem_range.mp hj, hbj⟩
          have h1 : rowNans (pat n m b) i0 ≤ 0 := by rw [← hz, hmax]; exact le_maxOf _ n i0 hi0
          rw [rowNans_pat] at h1
          have := List.countP_eq_zero.mp (Nat.le_zero.mp h1) j0 (List.mem_range.mpr hj0)
          exact this hb0
        have hnot : ∃ j2, j2 < m ∧ b i j2 = false := by
          by_contra hcon
          apply hfull
          rw [rowNans_pat]
          have : (List.range m).countP (fun j => b i j) = (List.range m).length := by
            refine List.countP_eq_length.mpr fun j hj => ?_
            by_contra hne
            exact hcon ⟨j, List.mem_range.mp hj, by simpa using hne⟩
          rw [this, List.length_range]
        obtain ⟨j1, hj1, hb1⟩ := hsome
        obtain ⟨j2, hj2, hb2⟩ := hnot
        obtain ⟨hchain, hruns⟩ := runs_spec (fun j => b i j) m j1 j2 hj1 hj2 (by simp only [hb1, hb2]; decide)
        have hsub : ∀ r : Nat × Nat, ∃ rects, r ∈ runs (fun j => b i j) m (m + 1) 0 1 →
            (∀ fuel, 2 * k ≤ fuel → rectsOf fuel (min n n - 0) (min r.2 m - r.1) (fun p q => b (0 + p) (r.1 + q)) =
              some rects) ∧ Cover n (r.2 - r.1) (fun p q => b p (r.1 + q)) rects := by
          intro r
          by_cases hr' : r ∈ runs (fun j => b i j) m (m + 1) 0 1
          · obtain ⟨h1, h2, h3⟩ := hruns r hr'
            have e1 : min n n - 0 = n := by omega
            have e2 : min r.2 m - r.1 = r.2 - r.1 := by omega
            have hs : (min n n - 0) * (min r.2 m - r.1) < k := by
              rw [e1, e2]
              exact Nat.lt_of_lt_of_le (Nat.mul_lt_mul_of_pos_left h1 hn) hk
            obtain ⟨rects, f, c⟩ := (ih _ hs _ _ (fun p q => b (0 + p) (r.1 + q)) (Nat.le_refl _)).2
            refine ⟨rects, fun _ => ⟨fun fuel hf => f fuel (by omega), ?_⟩⟩
            rw [e1, e2] at c
            simpa only [Nat.zero_add] using c
          · exact ⟨[], fun h => absurd h hr'⟩
        choose g hg using hsub
        refine ⟨(runs (fun j => b i j) m (m + 1) 0 1).flatMap fun r => (g r).map (Rect.shift 0 r.1), fun fuel hf => ?_,
          fun rc hrc => ?_, fun p q hp hq => ?_⟩
        · cases fuel with
          | zero => omega
          | succ fuel =>
            rw [hstep fuel]
            simp only
            rw [if_neg hfull]
            exact joinAll_some _ _ _ fun r hr' => by rw [(hg r hr').1 fuel (by omega)]; rfl
        · obtain ⟨r, hr', hrc'⟩ := List.mem_flatMap.mp hrc
          obtain ⟨rc', hm', rfl⟩ := List.mem_map.mp hrc'
          have h1 := (hg r hr').2.1 rc' hm'
          have h2 := hruns r hr'
          simp only [Rect.shift]
          omega
        · rw [count_chain hchain g (fun r hr' => (hg r hr').2) p q hp, if_pos (by omega)]
  intro n m b hk
  refine ⟨rowcase n m b hk, ?_⟩
  by_cases hrow : anyNan (pat n m b) = false ∨ rowsFirst (pat n m b) = true
  · obtain ⟨rects, f, c⟩ := rowcase n m b hk hrow
    exact ⟨rects, fun fuel hf => f fuel (by omega), c⟩
  · have h1 : ¬ anyNan (pat n m b) = false := fun h => hrow (Or.inl h)
    have h2 : ¬ rowsFirst (pat n m b) = true := fun h => hrow (Or.inr h)
    have hrn : ∀ j, rowNans (pat m n fun i j => b j i) j = colNans (pat n m b) j := by
      intro j
      rw [rowNans_pat]
      unfold colNans
      exact List.countP_congr fun i _ => by rw [nan_pat]
    have hcn : ∀ j, colNans (pat m n fun i j => b j i) j = rowNans (pat n m b) j := by
      intro j
      rw [rowNans_pat]
      unfold colNans
      exact List.countP_congr fun i _ => by rw [nan_pat]
    have h3 : rowsFirst (pat m n fun i j => b j i) = true := by
      unfold rowsFirst at h2 ⊢
      rw [funext hrn, funext hcn]
      rw [decide_eq_true_eq] at h2 ⊢
      show maxOf (colNans (pat n m b)) m * m ≥ maxOf (rowNans (pat n m b)) n * n
      have h2' : ¬ maxOf (rowNans (pat n m b)) n * n ≥ maxOf (colNans (pat n m b)) m * m := h2
      omega
    obtain ⟨rects, f, c⟩ := rowcase m n (fun i j => b j i) (by rw [Nat.mul_comm]; exact hk) (Or.inr h3)
    refine ⟨rects.map Rect.flip, fun fuel hf => ?_, cover_flip c⟩
    cases fuel with
    | zero => omega
    | succ fuel => rw [rectsOf, if_neg h1, if_neg h2, f fuel (by omega)]; rfl

/-! ### The pieces -/

theorem part_sub (m : Mat V) (rc : Rect) (e r0 r1 c0 c1 : Nat) :
    rc.part e (m.sub r0 r1 c0 c1) = (rc.shift r0 c0).part e m := by
  unfold Rect.part Rect.shift Mat.sub
  simp only [Nat.add_assoc]

theorem part_tr (m : Mat V) (rc : Rect) (e : Nat) : rc.part e m.tr = rc.flip.part e m := by
  unfold Rect.part Rect.flip Mat.tr
  cases rc.turned <;> rfl

theorem piece_sub (x y : Mat X) (a : Mat (Option V)) (rc : Rect) (r0 r1 s0 s1 c0 c1 d0 d1 t1 e1 : Nat) (hr : s0 = r0)
    (hc : d0 = c0) :
    rc.piece (x.sub r0 r1 c0 c1) (y.sub r0 t1 c0 e1) (a.sub s0 s1 d0 d1) = (rc.shift r0 c0).piece x y a := by
  subst hr hc
  unfold Rect.piece
  rw [part_sub, part_sub, part_sub]

/-- Corner arrays have one row and one column more. -/
def Corners (x y : Mat X) (a : Mat (Option V)) : Prop :=
  x.rows = a.rows + 1 ∧ x.cols = a.cols + 1 ∧ y.rows = a.rows + 1 ∧ y.cols = a.cols + 1

theorem joinAll_map {S T U : Type} (l : List S) (f : S → Option (List T)) (g : S → Option (List U)) (h : T → U)
    (hh : ∀ r ∈ l, g r = (f r).map (·.map h)) : joinAll (l.map g) = (joinAll (l.map f)).map (·.map h) := by
  induction l with
  | nil => rfl
  | cons a l ih =>
    rw [List.map_cons, List.map_cons, hh a List.mem_cons_self]
    cases hf : f a with
    | none => rfl
    | some u =>
      simp only [Option.map_some, joinAll]
      rw [ih fun r hr => hh r (List.mem_cons_of_mem _ hr)]
      cases joinAll (l.map f) with
      | none => rfl
      | some w => simp only [Option.map_some, List.map_append]

theorem pattern_any (a : Mat (Option V)) : anyNan a = anyNan (pat a.rows a.cols (isNan a)) := by
  unfold anyNan
  rw [show (pat a.rows a.cols (isNan a)).rows = a.rows from rfl]
  refine congrArg _ (funext fun i => ?_)
  rw [rowNans_pat]; rfl

theorem pattern_rows (a : Mat (Option V)) : rowNans a = rowNans (pat a.rows a.cols (isNan a)) := by
  funext i; rw [rowNans_pat]; rfl

theorem pattern_first (a : Mat (Option V)) : rowsFirst a = rowsFirst (pat a.rows a.cols (isNan a)) := by
  unfold rowsFirst
  have h : colNans a = colNans (pat a.rows a.cols (isNan a)) := by
    funext j
    unfold colNans
    exact List.countP_congr fun i _ => by rw [nan_pat]
  rw [← pattern_rows, ← h]
  rfl

theorem argmax_lt (f : Nat → Nat) (n : Nat) (h : 0 < n) : argmax f n < n := (argmax_spec f n h).1

theorem whole (m : Mat V) (e n k : Nat) (hr : m.rows = n + e) (hc : m.cols = k + e) :
    Rect.part ⟨0, n, 0, k, false⟩ e m = m := by
  unfold Rect.part
  simp only [Bool.false_eq_true, if_false, Nat.zero_add, ← hr, ← hc]

theorem any_rows (a : Mat (Option V)) (h : ¬ anyNan a = false) : 0 < a.rows := by
  by_cases hr : a.rows = 0
  · exfalso; apply h; unfold anyNan; rw [hr]; rfl
  · omega

/-- The pieces are those of the rectangles. -/
theorem segment_rects : ∀ (fuel : Nat) (x y : Mat X) (a : Mat (Option V)), Corners x y a →
    segment fuel x y a = (rectsOf fuel a.rows a.cols (isNan a)).map (·.map fun rc => rc.piece x y a)
  | 0, _, _, _, _ => rfl
  | fuel + 1, x, y, a, hc => by
    obtain ⟨c1, c2, c3, c4⟩ := hc
    rw [segment, rectsOf, ← pattern_any, ← pattern_first]
    by_cases hany : anyNan a = false
    · rw [if_pos hany, if_pos hany]
      split
      · simp only [Option.map_some, List.map_cons, List.map_nil]
        unfold Rect.piece
        rw [whole x 1 _ _ c1 c2, whole y 1 _ _ c3 c4, whole a 0 _ _ rfl rfl]
      · rfl
    · rw [if_neg hany, if_neg hany]
      by_cases hrow : rowsFirst a = true
      · rw [if_pos hrow, if_pos hrow, ← pattern_rows]
        have hi := argmax_lt (rowNans a) a.rows (any_rows a hany)
        simp only
        generalize argmax (rowNans a) a.rows = i at hi ⊢
        by_cases hfull : rowNans a i = a.cols
        · rw [if_pos hfull, if_pos hfull]
          rw [segment_rects fuel (x.sub 0 (i + 1) 0 x.cols) (y.sub 0 (i + 1) 0 y.cols) (a.sub 0 i 0 a.cols)
              ⟨by simp only [Mat.sub]; omega, by simp only [Mat.sub]; omega, by simp only [Mat.sub]; omega,
                by simp only [Mat.sub]; omega⟩,
            segment_rects fuel (x.sub (i + 1) x.rows 0 x.cols) (y.sub (i + 1) y.rows 0 y.cols)
              (a.sub (i + 1) a.rows 0 a.cols)
              ⟨by simp only [Mat.sub]; omega, by simp only [Mat.sub]; omega, by simp only [Mat.sub]; omega,
                by simp only [Mat.sub]; omega⟩]
          simp only [piece_sub x y a _ _ _ _ _ _ _ _ _ _ _ rfl rfl]
          show joinAll [(rectsOf fuel (min i a.rows - 0) (min a.cols a.cols - 0) fun p q => isNan a (0 + p) (0 + q)).map _,
            (rectsOf fuel (min a.rows a.rows - (i + 1)) (min a.cols a.cols - 0) fun p q => isNan a (i + 1 + p) (0 + q)).map _] = _
          cases rectsOf fuel (min i a.rows - 0) (min a.cols a.cols - 0) fun p q => isNan a (0 + p) (0 + q) with
          | none => rfl
          | some u =>
            cases rectsOf fuel (min a.rows a.rows - (i + 1)) (min a.cols a.cols - 0) fun p q => isNan a (i + 1 + p) (0 + q) with
            | none => rfl
            | some w => simp only [Option.map_some, joinAll, List.append_nil, List.map_append, List.map_map]; rfl
        · rw [if_neg hfull, if_neg hfull]
          by_cases hboth : ∃ j1 j2, j1 < a.cols ∧ j2 < a.cols ∧ isNan a i j1 ≠ isNan a i j2
          · obtain ⟨j1, j2, h1, h2, hne⟩ := hboth
            obtain ⟨-, hruns⟩ := runs_spec (fun j => isNan a i j) a.cols j1 j2 h1 h2 hne
            refine joinAll_map _ _ _ _ fun r hr => ?_
            obtain ⟨g1, g2, g3⟩ := hruns r hr
            rw [segment_rects fuel (x.sub 0 x.rows r.1 (r.2 + 1)) (y.sub 0 y.rows r.1 (r.2 + 1)) (a.sub 0 a.rows r.1 r.2)
              ⟨by simp only [Mat.sub]; omega, by simp only [Mat.sub]; omega, by simp only [Mat.sub]; omega,
                by simp only [Mat.sub]; omega⟩]
            simp only [piece_sub x y a _ _ _ _ _ _ _ _ _ _ _ rfl rfl]
            show (rectsOf fuel (min a.rows a.rows - 0) (min r.2 a.cols - r.1) fun p q => isNan a (0 + p) (r.1 + q)).map _ = _
            cases rectsOf fuel (min a.rows a.rows - 0) (min r.2 a.cols - r.1) fun p q => isNan a (0 + p) (r.1 + q) with
            | none => rfl
            | some u => simp only [Option.map_some, List.map_map]; rfl
          · refine joinAll_map _ _ _ _ fun r hr => ?_
            have hr' : r.1 < r.2 ∧ r.2 ≤ a.cols := by
              by_cases h1 : 1 < a.cols
              · obtain ⟨e, l, he, h0, -, hle, hch⟩ := runs_first (fun j => isNan a i j) a.cols h1
                rw [he] at hr
                rcases List.mem_cons.mp hr with rfl | hr2
                · exact ⟨h0, hle⟩
                · clear he h0 hle hr
                  induction hch with
                  | nil => cases hr2
                  | cons a' b' _ ih =>
                    rcases List.mem_cons.mp hr2 with rfl | hr2
                    · exact ⟨a', b'⟩
                    · exact ih hr2
              · rw [runs, if_neg h1] at hr; cases hr
            rw [segment_rects fuel (x.sub 0 x.rows r.1 (r.2 + 1)) (y.sub 0 y.rows r.1 (r.2 + 1)) (a.sub 0 a.rows r.1 r.2)
              ⟨by simp only [Mat.sub]; omega, by simp only [Mat.sub]; omega, by simp only [Mat.sub]; omega,
                by simp only [Mat.sub]; omega⟩]
            simp only [piece_sub x y a _ _ _ _ _ _ _ _ _ _ _ rfl rfl]
            show (rectsOf fuel (min a.rows a.rows - 0) (min r.2 a.cols - r.1) fun p q => isNan a (0 + p) (r.1 + q)).map _ = _
            cases rectsOf fuel (min a.rows a.rows - 0) (min r.2 a.cols - r.1) fun p q => isNan a (0 + p) (r.1 + q) with
            | none => rfl
            | some u => simp only [Option.map_some, List.map_map]; rfl
      · rw [if_neg hrow, if_neg hrow]
        rw [segment_rects fuel x.tr y.tr a.tr ⟨c2, c1, c4, c3⟩]
        show (rectsOf fuel a.cols a.rows fun i j => isNan a j i).map _ = _
        cases rectsOf fuel a.cols a.rows fun i j => isNan a j i with
        | none => rfl
        | some u =>
          simp only [Option.map_some, List.map_map]
          refine congrArg some (List.map_congr_left fun rc _ => ?_)
          simp only [Function.comp, Rect.piece, part_tr]

/-- C104: cutting ends, and its pieces are the parts of the field and of its corners in rectangles that hold every value once
and no missing value. -/
theorem C104_pieces (x y : Mat X) (a : Mat (Option V)) (hc : Corners x y a) :
    ∃ rects, Cover a.rows a.cols (isNan a) rects ∧
      ∀ fuel, 2 * (a.rows * a.cols) + 2 ≤ fuel → segment fuel x y a = some (rects.map fun rc => rc.piece x y a) := by
  obtain ⟨rects, f, c⟩ := (rects_cover _ a.rows a.cols (isNan a) (Nat.le_refl _)).2
  exact ⟨rects, c, fun fuel hf => by rw [segment_rects fuel x y a hc, f fuel hf]; rfl⟩

/-! ### Several tiles, and new values for what is drawn -/

/-- The rectangles of one tile, its pieces, and nothing left open. -/
theorem tiles_rects (tiles : List (Piece X V)) (h : ∀ t ∈ tiles, Corners t.1 t.2.1 t.2.2) :
    ∃ N, ∀ fuel, N ≤ fuel → allSegments fuel tiles =
      some (tiles.flatMap fun t => ((rectsOf (2 * (t.2.2.rows * t.2.2.cols) + 2) t.2.2.rows t.2.2.cols (isNan t.2.2)).getD []).map
        fun rc => rc.piece t.1 t.2.1 t.2.2) := by
  induction tiles with
  | nil => exact ⟨0, fun _ _ => rfl⟩
  | cons t ts ih =>
    obtain ⟨N, hN⟩ := ih fun t ht => h t (List.mem_cons_of_mem _ ht)
    obtain ⟨rects, f, -⟩ := (rects_cover _ t.2.2.rows t.2.2.cols (isNan t.2.2) (Nat.le_refl _)).2
    refine ⟨max N (2 * (t.2.2.rows * t.2.2.cols) + 2), fun fuel hf => ?_⟩
    have h1 := hN fuel (by omega)
    unfold allSegments at h1 ⊢
    rw [List.map_cons, segment_rects fuel _ _ _ (h t List.mem_cons_self), f fuel (by omega), Option.map_some, joinAll, h1,
      Option.map_some, List.flatMap_cons, f _ (Nat.le_refl _), Option.getD_some]

/-- C104: every tile is drawn, in the order of the tiles: there are rectangles for each such that the pieces are theirs. -/
theorem C104_tiles (tiles : List (Piece X V)) (h : ∀ t ∈ tiles, Corners t.1 t.2.1 t.2.2) :
    ∃ rects : Piece X V → List Rect, (∀ t ∈ tiles, Cover t.2.2.rows t.2.2.cols (isNan t.2.2) (rects t)) ∧
      ∃ N, ∀ fuel, N ≤ fuel →
        allSegments fuel tiles = some (tiles.flatMap fun t => (rects t).map fun rc => rc.piece t.1 t.2.1 t.2.2) := by
  refine ⟨fun t => (rectsOf (2 * (t.2.2.rows * t.2.2.cols) + 2) t.2.2.rows t.2.2.cols (isNan t.2.2)).getD [],
    fun t _ => ?_, tiles_rects tiles h⟩
  obtain ⟨rects, f, c⟩ := (rects_cover _ t.2.2.rows t.2.2.cols (isNan t.2.2) (Nat.le_refl _)).2
  simp only
  rw [f _ (Nat.le_refl _), Option.getD_some]; exact c

/-- Two tiles have as many rows and columns, and miss the same values. -/
def SameMissing (t u : Piece X V) : Prop :=
  t.2.2.rows = u.2.2.rows ∧ t.2.2.cols = u.2.2.cols ∧ isNan t.2.2 = isNan u.2.2

theorem update_append (hs hs' : List (Handle X V)) (ps ps' : List (Piece X V)) (out out' : List (Handle X V))
    (h : updateHandles hs ps = some out) (hl : hs.length = ps.length) (h' : updateHandles hs' ps' = some out') :
    updateHandles (hs ++ hs') (ps ++ ps') = some (out ++ out') := by
  induction hs generalizing ps out with
  | nil =>
    cases ps with
    | cons _ _ => simp at hl
    | nil =>
      simp only [updateHandles, Option.some.injEq] at h
      subst h; exact h'
  | cons a hs ih =>
    cases ps with
    | nil => simp at hl
    | cons p ps =>
      simp only [List.length_cons, Nat.add_right_cancel_iff] at hl
      rw [updateHandles] at h
      cases ho : updateHandles hs ps with
      | none => rw [ho] at h; simp at h
      | some o =>
        rw [ho, Option.map_some, Option.some.injEq] at h
        subst h
        rw [List.cons_append, List.cons_append, updateHandles, ih ps o ho hl]; rfl

theorem update_rects (x y x' y' : Mat X) (a b : Mat (Option V)) (rects : List Rect) :
    updateHandles (rects.map fun rc => rc.piece x y a) (rects.map fun rc => rc.piece x' y' b) =
      some (rects.map fun rc => rc.piece x y b) := by
  induction rects with
  | nil => rfl
  | cons r rs ih => simp only [List.map_cons, updateHandles, ih]; rfl

/-- C104: new values that are missing where the old were change what is drawn to what would be drawn of them, whatever
the corners that are passed along. -/
theorem C104_update (tiles : List (Piece X V × Mat X × Mat X × Mat (Option V)))
    (h : ∀ t ∈ tiles, Corners t.1.1 t.1.2.1 t.1.2.2 ∧ Corners t.2.1 t.2.2.1 t.2.2.2 ∧ SameMissing t.1 t.2) :
    ∃ N, ∀ fuel, N ≤ fuel → ∃ drawn pieces redrawn,
      allSegments fuel (tiles.map fun t => t.1) = some drawn ∧
      allSegments fuel (tiles.map fun t => t.2) = some pieces ∧
      allSegments fuel (tiles.map fun t => (t.1.1, t.1.2.1, t.2.2.2)) = some redrawn ∧
      updateHandles drawn pieces = some redrawn := by
  obtain ⟨N1, h1⟩ := tiles_rects (tiles.map fun t => t.1) (by
    intro t ht; obtain ⟨u, hu, rfl⟩ := List.mem_map.mp ht; exact (h u hu).1)
  obtain ⟨N2, h2⟩ := tiles_rects (tiles.map fun t => t.2) (by
    intro t ht; obtain ⟨u, hu, rfl⟩ := List.mem_map.mp ht; exact (h u hu).2.1)
  obtain ⟨N3, h3⟩ := tiles_rects (tiles.map fun t => ((t.1.1, t.1.2.1, t.2.2.2) : Piece X V)) (by
    intro t ht; obtain ⟨u, hu, rfl⟩ := List.mem_map.mp ht
    obtain ⟨⟨a1, a2, a3, a4⟩, -, s1, s2, -⟩ := h u hu
    exact ⟨s1 ▸ a1, s2 ▸ a2, s1 ▸ a3, s2 ▸ a4⟩)
  refine ⟨max N1 (max N2 N3), fun fuel hf => ⟨_, _, _, h1 fuel (by omega), h2 fuel (by omega), h3 fuel (by omega), ?_⟩⟩
  clear h1 h2 h3
  induction tiles with
  | nil => rfl
  | cons t ts ih =>
    simp only [List.map_cons, List.flatMap_cons]
    obtain ⟨-, -, s1, s2, s3⟩ := h t List.mem_cons_self
    refine update_append _ _ _ _ _ _ ?_ ?_ (ih fun t ht => h t (List.mem_cons_of_mem _ ht))
    · rw [s1, s2, s3]; exact update_rects _ _ _ _ _ _ _
    · rw [s1, s2, s3, List.length_map, List.length_map]

/-- C104: a handle is returned if and only if some tile has a value. -/
theorem C104_last (tiles : List (Piece X V)) (h : ∀ t ∈ tiles, Corners t.1 t.2.1 t.2.2) :
    ∃ N, ∀ fuel, N ≤ fuel → ∃ drawn, allSegments fuel tiles = some drawn ∧
      ((∃ hd, lastHandle drawn = .ok hd) ↔
        ∃ t ∈ tiles, ∃ i j, i < t.2.2.rows ∧ j < t.2.2.cols ∧ isNan t.2.2 i j = false) := by
  obtain ⟨rects, hc, N, hN⟩ := C104_tiles tiles h
  refine ⟨N, fun fuel hf => ⟨_, hN fuel hf, ?_⟩⟩
  have key : (∃ hd, lastHandle (tiles.flatMap fun t => (rects t).map fun rc => rc.piece t.1 t.2.1 t.2.2) = .ok hd) ↔
      ∃ t ∈ tiles, ∃ rc, rc ∈ rects t := by
    generalize hl : (tiles.flatMap fun t => (rects t).map fun rc => rc.piece t.1 t.2.1 t.2.2) = l
    have hmem : ∀ p, p ∈ l ↔ ∃ t ∈ tiles, ∃ rc ∈ rects t, rc.piece t.1 t.2.1 t.2.2 = p := by
      intro p; rw [← hl]; simp only [List.mem_flatMap, List.mem_map]
    constructor
    · rintro ⟨hd, he⟩
      unfold lastHandle at he
      cases hg : l.getLast? with
      | none => rw [hg] at he; cases he
      | some p =>
        obtain ⟨t, ht, rc, hrc, -⟩ := (hmem p).mp (List.mem_of_getLast? hg)
        exact ⟨t, ht, rc, hrc⟩
    · rintro ⟨t, ht, rc, hrc⟩
      have hp := (hmem _).mpr ⟨t, ht, rc, hrc, rfl⟩
      unfold lastHandle
      cases hg : l.getLast? with
      | none => rw [List.getLast?_eq_none_iff] at hg; rw [hg] at hp; cases hp
      | some p => exact ⟨p, rfl⟩
  rw [key]
  constructor
  · rintro ⟨t, ht, rc, hrc⟩
    obtain ⟨c1, c2⟩ := hc t ht
    obtain ⟨b1, b2, b3, b4⟩ := c1 rc hrc
    refine ⟨t, ht, rc.top, rc.left, by omega, by omega, ?_⟩
    have := c2 rc.top rc.left (by omega) (by omega)
    have hpos : 0 < (rects t).countP fun r => r.has rc.top rc.left :=
      List.countP_pos_iff.mpr ⟨rc, hrc, (has_iff _ _ _).mpr ⟨Nat.le_refl _, by omega, Nat.le_refl _, by omega⟩⟩
    cases hm : isNan t.2.2 rc.top rc.left with
    | false => rfl
    | true => rw [hm, if_pos rfl] at this; omega
  · rintro ⟨t, ht, i, j, hi, hj, hm⟩
    have := (hc t ht).2 i j hi hj
    rw [hm] at this
    obtain ⟨rc, hrc, -⟩ := List.countP_pos_iff.mp (show 0 < (rects t).countP (fun r => r.has i j) by rw [this]; decide)
    exact ⟨t, ht, rc, hrc⟩

/-! ### Not so -/

/-- A field of one row. -/
def oneRow (l : List (Option Nat)) : Piece Nat Nat :=
  (⟨2, l.length + 1, fun i j => 10 * i + j⟩, ⟨2, l.length + 1, fun i j => 10 * i + j⟩, ⟨1, l.length, fun _ j => l[j]?.getD none⟩)

/-- What a handle shows, as a list. -/
def shown (h : Handle Nat Nat) : List (Option Nat) :=
  (List.range h.2.2.rows).flatMap fun i => (List.range h.2.2.cols).map fun j => h.2.2.get i j

/-- Not so: that a map of missing values is drawn without a handle. The last handle of none is an `IndexError`. -/
theorem C104_empty_violated :
    (allSegments 20 [oneRow [none, none]]).map (fun hs => (lastHandle hs).toOption.isSome) = some false := by decide +kernel

/-- Not so: that new values with another missing value are shown. A piece has no handle left; -/
theorem C104_more_violated :
    ((allSegments 20 [oneRow [some 1, some 2, some 3]]).bind fun hs =>
      (allSegments 20 [oneRow [some 4, none, some 5]]).bind fun ps => (updateHandles hs ps).map (·.map shown)) = none := by
  decide +kernel

/-- and with fewer pieces, a handle goes on showing the old value. -/
theorem C104_fewer_violated :
    ((allSegments 20 [oneRow [some 1, none, some 3]]).bind fun hs =>
      (allSegments 20 [oneRow [some 4, none, none]]).bind fun ps => (updateHandles hs ps).map (·.map shown)) =
      some [[some 4], [some 3]] := by decide +kernel

/-! ### Examples -/

/-- A field of three rows and three columns whose middle is missing: four pieces, the left and right ones turned. -/
def ring : Piece Nat Nat :=
  (⟨4, 4, fun i j => 10 * i + j⟩, ⟨4, 4, fun i j => 10 * i + j⟩,
    ⟨3, 3, fun i j => if i = 1 ∧ j = 1 then none else some (3 * i + j)⟩)

example : Corners ring.1 ring.2.1 ring.2.2 := ⟨rfl, rfl, rfl, rfl⟩
example : (allSegments 20 [ring]).map (·.map shown) =
    some [[some 0, some 3, some 6], [some 1], [some 7], [some 2, some 5, some 8]] := by decide +kernel
example : (allSegments 20 [ring]).map (·.map fun h => (h.1.rows, h.1.cols, h.1.get 0 0)) =
    some [(4, 2, 0), (2, 2, 1), (2, 2, 21), (4, 2, 2)] := by decide +kernel
example : SameMissing (oneRow [some 1, none]) (oneRow [some 7, none]) := by
  refine ⟨rfl, rfl, funext fun i => funext fun j => ?_⟩
  match j with
  | 0 => rfl
  | 1 => rfl
  | j + 2 => rfl

end NDSL.Segments
