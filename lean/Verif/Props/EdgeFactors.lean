import Mathlib.Tactic.Ring
import Mathlib.Tactic.FieldSimp
import Mathlib.Tactic.Linarith
import Mathlib.Algebra.Order.Field.Basic
import Mathlib.Algebra.Order.Ring.Rat
import Mathlib.Algebra.Field.Rat
import Verif.Spec.EdgeFactors
import Verif.Lemmas.Zarr
/-
C84: interpolation factors at the edges of tiles.
-/
namespace NDSL.Edges

variable {A P R : Type} [Field R]

theorem range_of (s : Slice) (n np : Int) (first last : Bool) (h : Piece s n np first last) :
    edgeRange 3 s np = (if s.start = 0 then 4 else 3, if s.start + n = np - 1 then n + 3 else n + 4) := by
  obtain ⟨h1, h2, h3, h4, h5, h6⟩ := h
  unfold edgeRange
  cases last
  · have h7 : ¬ s.start + n = np - 1 := fun h => by simpa using h6.mpr h
    rw [if_neg h7]
    simp at h4
    ext
    · simp only; split <;> omega
    · simp only; omega
  · have h7 := h6.mp rfl
    rw [if_pos h7]
    simp at h4
    ext
    · simp only; split <;> omega
    · simp only; omega

theorem line_of (mid : A → A → P) (dist : P → A → R) (grid agrid : Arr2 A) (s : Slice) (n np : Int) (first last : Bool)
    (h : Piece s n np first last) (hg : grid.n1 = n + 7) (ha : agrid.n1 = n + 6) :
    ∃ f, edgeLine mid dist grid agrid 3 s np (sliceLen (n + 7) 3 (n + 7 - 3)) = .ok f ∧ ∀ t, 0 ≤ t → t ≤ n →
      f t = if 0 < s.start + t ∧ s.start + t < np - 1 then some (westFactor mid dist grid agrid 3 (t + 3)) else none := by
  have hr := range_of s n np first last h
  obtain ⟨h1, h2, h3, h4, h5, h6⟩ := h
  unfold edgeLine
  rw [hr, hg, ha]
  simp only
  rw [if_pos]
  · refine ⟨_, rfl, ?_⟩
    intro t t0 t1
    congr 1
    apply propext
    split <;> split <;> omega
  · have hb : ∀ l r, l = r → assignOk l r = true := by
      intro l r e
      simp [assignOk, e]
    constructor
    · unfold sliceLen
      split <;> split <;> omega
    · apply hb
      unfold sliceLen
      split <;> split <;> omega

theorem on_line (mid : A → A → P) (dist : P → A → R) (grid agrid : Arr2 A) (s : Slice) (n np gridType : Int)
    (first last b : Bool) (h : Piece s n np first last) (hg : grid.n1 = n + 7) (ha : agrid.n1 = n + 6) (hgt : gridType < 3)
    (out inn edge : Int → A) (ho : b = true → ∀ j, agrid.get 2 j = out (s.start + j - 3))
    (hi : b = true → ∀ j, agrid.get 3 j = inn (s.start + j - 3)) (he : b = true → ∀ j, grid.get 3 j = edge (s.start + j - 3)) :
    ∃ f, whenOn (b && decide (gridType < 3)) (edgeLine mid dist grid agrid 3 s np (sliceLen (n + 7) 3 (n + 7 - 3))) = .ok f ∧
      ∀ t, 0 ≤ t → t ≤ n → f t = if b = true ∧ 0 < s.start + t ∧ s.start + t < np - 1 then
        some (cornerFactor mid dist out inn edge (s.start + t)) else none := by
  obtain ⟨f, hf, hv⟩ := line_of mid dist grid agrid s n np first last h hg ha
  cases b with
  | false => exact ⟨_, rfl, fun t _ _ => by simp⟩
  | true =>
    refine ⟨f, ?_, ?_⟩
    · unfold whenOn
      rw [if_pos (by simp [hgt])]
      exact hf
    · intro t t0 t1
      rw [hv t t0 t1]
      have e1 : s.start + (t + 3) - 3 = s.start + t := by omega
      have e2 : s.start + (t + 3 - 1) - 3 = s.start + t - 1 := by omega
      have : westFactor mid dist grid agrid 3 (t + 3) = cornerFactor mid dist out inn edge (s.start + t) := by
        unfold westFactor cornerFactor
        rw [show (3 : Int) - 1 = 2 by rfl, ho rfl, ho rfl, hi rfl, hi rfl, he rfl, e1, e2]
      rw [this]
      simp

/-- **C84** (corners): for every rank of every decomposition, at each corner on an edge of the tile, except the
corners of the tile itself, the factor is that of the whole tile; everywhere else it is left out. -/
theorem C84_corners (mid : A → A → P) (dist : P → A → R) (G C : Int → Int → A) (pl : Place) (nx ny npx npy gridType : Int)
    (hx : Piece pl.x nx npx pl.left pl.right) (hy : Piece pl.y ny npy pl.bottom pl.top) (hgt : gridType < 3) :
    ∃ w e s n, edgeFactors mid dist pl (window G pl.x.start pl.y.start nx ny 1) (window C pl.x.start pl.y.start nx ny 0)
        gridType 3 npx npy = .ok [w, e, s, n] ∧
      (∀ t, 0 ≤ t → t ≤ ny → w t = if pl.left = true ∧ 0 < pl.y.start + t ∧ pl.y.start + t < npy - 1 then
        some (cornerFactor mid dist (C (-1)) (C 0) (G 0) (pl.y.start + t)) else none) ∧
      (∀ t, 0 ≤ t → t ≤ ny → e t = if pl.right = true ∧ 0 < pl.y.start + t ∧ pl.y.start + t < npy - 1 then
        some (cornerFactor mid dist (C (npx - 1)) (C (npx - 2)) (G (npx - 1)) (pl.y.start + t)) else none) ∧
      (∀ t, 0 ≤ t → t ≤ nx → s t = if pl.bottom = true ∧ 0 < pl.x.start + t ∧ pl.x.start + t < npx - 1 then
        some (cornerFactor mid dist (C · (-1)) (C · 0) (G · 0) (pl.x.start + t)) else none) ∧
      (∀ t, 0 ≤ t → t ≤ nx → n t = if pl.top = true ∧ 0 < pl.x.start + t ∧ pl.x.start + t < npx - 1 then
        some (cornerFactor mid dist (C · (npy - 1)) (C · (npy - 2)) (G · (npy - 1)) (pl.x.start + t)) else none) := by
  have hs : ∀ n : Int, 1 ≤ n → sliceLen (n + 6 + 1) 3 (n + 6 + 1 - 3) = sliceLen (n + 7) 3 (n + 7 - 3) := by
    intro n _
    rw [show n + 6 + 1 = n + 7 by omega]
  have x2 := hx.first_iff
  have x3 := hx.last_iff
  have y2 := hy.first_iff
  have y3 := hy.last_iff
  obtain ⟨w, hw, vw⟩ := on_line mid dist (window G pl.x.start pl.y.start nx ny 1) (window C pl.x.start pl.y.start nx ny 0)
    pl.y ny npy gridType _ _ pl.left hy (by simp only [window]; omega) (by simp only [window]; omega) hgt (C (-1)) (C 0) (G 0)
    (fun b j => by simp only [window]; congr 1; have := x2.mp b; omega)
    (fun b j => by simp only [window]; congr 1; have := x2.mp b; omega)
    (fun b j => by simp only [window]; congr 1; have := x2.mp b; omega)
  obtain ⟨e, he, ve⟩ := on_line mid dist (window G pl.x.start pl.y.start nx ny 1).flip0
    (window C pl.x.start pl.y.start nx ny 0).flip0
    pl.y ny npy gridType _ _ pl.right hy (by simp only [window, Arr2.flip0]; omega) (by simp only [window, Arr2.flip0]; omega) hgt
    (C (npx - 1)) (C (npx - 2)) (G (npx - 1))
    (fun b j => by simp only [window, Arr2.flip0]; congr 1; have := x3.mp b; omega)
    (fun b j => by simp only [window, Arr2.flip0]; congr 1; have := x3.mp b; omega)
    (fun b j => by simp only [window, Arr2.flip0]; congr 1; have := x3.mp b; omega)
  obtain ⟨s, hs', vs⟩ := on_line mid dist (window G pl.x.start pl.y.start nx ny 1).transpose
    (window C pl.x.start pl.y.start nx ny 0).transpose
    pl.x nx npx gridType _ _ pl.bottom hx (by simp only [window, Arr2.transpose]; omega)
    (by simp only [window, Arr2.transpose]; omega) hgt
    (C · (-1)) (C · 0) (G · 0)
    (fun b j => by simp only [window, Arr2.transpose]; congr 1; have := y2.mp b; omega)
    (fun b j => by simp only [window, Arr2.transpose]; congr 1; have := y2.mp b; omega)
    (fun b j => by simp only [window, Arr2.transpose]; congr 1; have := y2.mp b; omega)
  obtain ⟨n, hn, vn⟩ := on_line mid dist (window G pl.x.start pl.y.start nx ny 1).flip1.transpose
    (window C pl.x.start pl.y.start nx ny 0).flip1.transpose
    pl.x nx npx gridType _ _ pl.top hx (by simp only [window, Arr2.transpose, Arr2.flip1]; omega)
    (by simp only [window, Arr2.transpose, Arr2.flip1]; omega) hgt
    (C · (npy - 1)) (C · (npy - 2)) (G · (npy - 1))
    (fun b j => by simp only [window, Arr2.transpose, Arr2.flip1]; congr 1; have := y3.mp b; omega)
    (fun b j => by simp only [window, Arr2.transpose, Arr2.flip1]; congr 1; have := y3.mp b; omega)
    (fun b j => by simp only [window, Arr2.transpose, Arr2.flip1]; congr 1; have := y3.mp b; omega)
  refine ⟨w, e, s, n, ?_, vw, ve, vs, vn⟩
  unfold edgeFactors
  simp only [show (window G pl.x.start pl.y.start nx ny 1).n0 = nx + 6 + 1 from rfl,
    show (window G pl.x.start pl.y.start nx ny 1).n1 = ny + 6 + 1 from rfl, hs nx hx.pos, hs ny hy.pos, hw, he, hs', hn]
  rfl

/-! ### Sides -/

theorem filter_le (a b : Int) : ∀ n : Nat, (List.range n).filter (fun (t : Nat) => decide ((t : Int) + a ≤ b)) =
    List.range (min n (b - a + 1).toNat)
  | 0 => by simp
  | n + 1 => by
    rw [List.range_succ, List.filter_append, filter_le a b n]
    by_cases h : (n : Int) + a ≤ b
    · rw [List.filter_cons_of_pos (by simpa using h), List.filter_nil, show min n (b - a + 1).toNat = n by omega,
        show min (n + 1) (b - a + 1).toNat = n + 1 by omega, List.range_succ]
    · rw [List.filter_cons_of_neg (by simpa using h), List.filter_nil, List.append_nil]
      congr 1
      omega

theorem max_range (a : Int) (n : Nat) : ((List.range (n + 1)).map fun (t : Nat) => (t : Int) + a).max? = some (n + a) := by
  rw [List.max?_eq_some_iff]
  constructor
  · rw [List.mem_map]
    exact ⟨n, by simp, rfl⟩
  · intro b hb
    rw [List.mem_map] at hb
    obtain ⟨t, ht, rfl⟩ := hb
    rw [List.mem_range] at ht
    omega

/-- The middle of the edge as a rank with `n` cells from `start` on sees it. -/
theorem midIndex_eq (n start half : Int) (hn : 1 ≤ n) (hs : 0 ≤ start) (hh : 0 ≤ half) :
    midIndex 3 (n + 6) start half =
      if start + n ≤ half then n + 1 else if half + 3 < start then 0 else max (half - start) (-1) := by
  have hf : (((List.range (n + 6 - 3 + 1).toNat).map fun (t : Nat) => (t : Int) + (3 + start) - 3).filter
      fun k => decide (k ≤ 3 + half)) = (List.range (min (n + 4).toNat (half + 4 - start).toNat)).map fun (t : Nat) => (t : Int) + start := by
    rw [List.filter_map]
    have e1 : (fun (t : Nat) => (t : Int) + (3 + start) - 3) = fun (t : Nat) => (t : Int) + start := by
      funext t; omega
    rw [e1]
    have e2 : ((fun k : Int => decide (k ≤ 3 + half)) ∘ fun (t : Nat) => (t : Int) + start) =
        fun (t : Nat) => decide ((t : Int) + start ≤ 3 + half) := rfl
    rw [e2, filter_le]
    congr 2
    omega
  unfold midIndex
  simp only [hf, List.length_map, List.length_range]
  by_cases h1 : half + 3 < start
  · have hz : min (n + 4).toNat (half + 4 - start).toNat = 0 := by omega
    rw [hz, if_neg (by omega), if_neg (by omega), if_pos h1]
    simp
  · obtain ⟨m, hm⟩ : ∃ m : Nat, min (n + 4).toNat (half + 4 - start).toNat = m + 1 :=
      ⟨min (n + 4).toNat (half + 4 - start).toNat - 1, by omega⟩
    rw [hm, max_range]
    simp only
    by_cases h2 : start + n ≤ half
    · rw [if_pos (by omega), if_pos h2]
      omega
    · rw [if_neg (by omega), if_neg h2, if_neg h1]
      congr 1
      omega

theorem assignOk_self (l : Int) : assignOk l l = true := by simp [assignOk]

theorem lengths_square (agrid grid : Arr2 A) (n jm2 : Int) (hn : 1 ≤ n) (h0 : agrid.n0 = n + 6) (h1 : agrid.n1 = n + 6)
    (hg : grid.n1 = n + 7) (ha : -1 ≤ jm2) (hb : jm2 ≤ n + 1) : vectorLengths agrid grid jm2 3 = true := by
  unfold vectorLengths
  have p : sliceLen agrid.n1 (3 - 2) (agrid.n1 - 3 + 2) = n + 4 := by unfold sliceLen; omega
  have q : sliceLen grid.n1 (3 - 2) (grid.n1 - 3 + 1) = n + 4 := by unfold sliceLen; omega
  have e1 : sliceLen (agrid.n0 - 2 * 3 + 2) 0 (jm2 + 1) = jm2 + 1 := by unfold sliceLen; omega
  have e2 : sliceLen (n + 4) 1 (jm2 + 2) = jm2 + 1 := by unfold sliceLen; omega
  have e3 : sliceLen (n + 4) 2 (jm2 + 3) = jm2 + 1 := by unfold sliceLen; omega
  have e4 : sliceLen (agrid.n0 - 2 * 3 + 2) (jm2 + 1) (agrid.n0 - 2 * 3 + 2) = n + 1 - jm2 := by unfold sliceLen; omega
  have e5 : sliceLen (n + 4) (jm2 + 2) (n + 4 - 1) = n + 1 - jm2 := by unfold sliceLen; omega
  have e6 : sliceLen (n + 4) (jm2 + 1) (n + 4 - 2) = n + 1 - jm2 := by unfold sliceLen; omega
  have e7 : sliceLen (grid.n1 - 1) 2 (grid.n1 - 1 - 2) = agrid.n0 - 2 * 3 + 2 := by unfold sliceLen; omega
  simp only [p, q, e1, e2, e3, e4, e5, e6, e7, assignOk_self, beq_self_eq_true, Bool.and_self]

theorem lengths_other (agrid grid : Arr2 A) (m n jm2 : Int) (hm : 1 ≤ m) (hn : 1 ≤ n) (h0 : agrid.n0 = m + 6)
    (hg : grid.n1 = n + 7) (hne : m ≠ n) : vectorLengths agrid grid jm2 3 = false := by
  unfold vectorLengths
  have e7 : sliceLen (grid.n1 - 1) 2 (grid.n1 - 1 - 2) = n + 2 := by unfold sliceLen; omega
  have : assignOk (n + 2) (agrid.n0 - 2 * 3 + 2) = false := by
    unfold assignOk
    rw [Bool.or_eq_false_iff]
    constructor <;> rw [beq_eq_false_iff_ne] <;> omega
  simp only [e7, this, Bool.and_false]

omit [Field R] in
theorem copy_first (last : Bool) (a b : Int) (f : Int → Option R) (h2 : a ≠ 2) (h3 : a ≠ 3) :
    copyOne last a b (copyOne true (3 - 1) 3 f) 2 = copyOne last a b (copyOne true (3 - 1) 3 f) 3 := by
  have h : ∀ (g : Int → Option R) k, a ≠ k → copyOne last a b g k = g k := by
    intro g k hk
    unfold copyOne
    rw [if_neg (fun e => hk e.2.symm)]
  rw [h _ _ h2, h _ _ h3]
  unfold copyOne
  rw [if_pos ⟨rfl, rfl⟩, if_neg (by omega)]

omit [Field R] in
theorem copy_last (a b : Int) (f : Int → Option R) (h : b ≠ a) : copyOne true a b f a = copyOne true a b f b := by
  unfold copyOne
  rw [if_pos ⟨rfl, rfl⟩, if_neg (by omega)]

theorem side_line (mid : A → A → P) (dist : P → P → R) (grid agrid : Arr2 A) (s : Slice) (n half gridType : Int)
    (first last b : Bool) (h : Piece s n (2 * half + 1) first last) (h0 : agrid.n0 = n + 6) (hg : grid.n1 = n + 7)
    (ha : agrid.n1 = n + 6) (hgt : gridType < 3)
    (out inn edge : Int → A) (ho : b = true → ∀ j, agrid.get 2 j = out (s.start + j - 3))
    (hi : b = true → ∀ j, agrid.get 3 j = inn (s.start + j - 3)) (he : b = true → ∀ j, grid.get 3 j = edge (s.start + j - 3)) :
    ∃ f, whenOn (b && decide (gridType < 3)) (vectorLine mid dist grid agrid (midIndex 3 agrid.n1 s.start half) 3 first last) = .ok f ∧
      (∀ t, 0 ≤ t → t < n → f (t + 3) = if b = true then some (sideFactor mid dist out inn edge half (s.start + t)) else none) ∧
      (first = true → f 2 = f 3) ∧ (last = true → f (n + 3) = f (n + 2)) ∧
      (first = false → s.start ≤ half + 3 →
        f 2 = if b = true then some (sideFactor mid dist out inn edge half (s.start - 1)) else none) ∧
      (last = false → s.start + n ≠ half →
        f (n + 3) = if b = true then some (sideFactor mid dist out inn edge half (s.start + n)) else none) := by
  have hm := midIndex_eq n s.start half h.pos h.start (by have := h.pos; have := h.start; have := h.inside; omega)
  rw [← ha] at hm
  obtain ⟨h1, h2, h3, h4, h5, h6⟩ := h
  cases b with
  | false => exact ⟨_, rfl, fun t _ _ => by simp, fun _ => rfl, fun _ => rfl, fun _ _ => by simp, fun _ _ => by simp⟩
  | true =>
    have hl : vectorLengths agrid grid (midIndex 3 agrid.n1 s.start half) 3 = true := by
      apply lengths_square agrid grid n _ h1 h0 ha hg
      · rw [hm]; split
        · omega
        · split <;> omega
      · rw [hm]; split
        · omega
        · split <;> omega
    refine ⟨copyOne last (grid.n1 - 1 - 3) (grid.n1 - 1 - 3 - 1) (copyOne first (3 - 1) 3
      (fun k => if 2 ≤ k ∧ k < grid.n1 - 1 - 2 then
        some (westVector mid dist grid agrid (midIndex 3 agrid.n1 s.start half) 3 (k - 2 + (3 - 1))) else none)), ?_, ?_⟩
    · unfold whenOn
      rw [if_pos (by simp [hgt])]
      unfold vectorLine
      simp only [hl, if_true]
    · generalize hj : midIndex 3 agrid.n1 s.start half = jm2
      rw [hj] at hm
      have val : ∀ k : Int, 2 ≤ k → k < n + 4 → (k - 2 ≤ jm2 ↔ s.start + k - 3 < half) →
          (if 2 ≤ k ∧ k < grid.n1 - 1 - 2 then some (westVector mid dist grid agrid jm2 3 (k - 2 + (3 - 1))) else none) =
          some (sideFactor mid dist out inn edge half (s.start + k - 3)) := by
        intro k k0 k1 hk
        rw [if_pos ⟨k0, by omega⟩]
        congr 1
        have e0 : k - 2 + (3 - 1) = k := by omega
        have e1 : s.start + (k + 1) - 3 = s.start + k - 3 + 1 := by omega
        have e2 : s.start + (k - 1) - 3 = s.start + k - 3 - 1 := by omega
        rw [e0]
        unfold westVector sideFactor
        simp only [show (3 : Int) - 1 = 2 by rfl, ho rfl, hi rfl, he rfl, e1, e2]
        by_cases c : k - 2 ≤ jm2
        · rw [if_pos c, if_pos (hk.mp c)]
        · rw [if_neg c, if_neg (fun h => c (hk.mpr h))]
      refine ⟨?_, ?_, ?_, ?_, ?_⟩
      · intro t t0 t1
        simp only [copyOne, if_true]
        rw [if_neg (by omega), if_neg (by omega)]
        have := val (t + 3) (by omega) (by omega) (by
          rw [hm]
          split
          · omega
          · split <;> omega)
        rw [this]
        congr 2
        omega
      · intro hb
        subst hb
        apply copy_first <;> omega
      · intro hb
        subst hb
        rw [show n + 3 = grid.n1 - 1 - 3 by omega, show n + 2 = grid.n1 - 1 - 3 - 1 by omega]
        apply copy_last
        omega
      · intro hb hh
        subst hb
        have hs : s.start ≠ 0 := fun h => by simpa using h5.mpr h
        simp only [copyOne, if_true, Bool.false_eq_true, false_and, if_false]
        rw [if_neg (by omega), val 2 (by omega) (by omega) (by
          rw [hm]
          split
          · omega
          · split <;> omega)]
        congr 2
        omega
      · intro hb hh
        subst hb
        have hs : s.start + n ≠ 2 * half + 1 - 1 := fun h => by simpa using h6.mpr h
        simp only [copyOne, if_true, Bool.false_eq_true, false_and, if_false]
        rw [if_neg (by omega), val (n + 3) (by omega) (by omega) (by
          rw [hm]
          split
          · omega
          · split <;> omega)]
        congr 2
        omega

/-- **C84** (sides): for every rank with a square part of the tile, at each side on an edge of the tile the factor
is that of the whole tile, for the cells of the rank; and at the ends of the edge of the tile the next one is
repeated.  The same holds for the neighbouring cells on the same edge, if they are not just across the middle
of the edge, nor below a part that starts more than 3 cells after the middle. -/
theorem C84_sides (mid : A → A → P) (dist : P → P → R) (G C : Int → Int → A) (pl : Place) (m half gridType : Int)
    (hx : Piece pl.x m (2 * half + 1) pl.left pl.right) (hy : Piece pl.y m (2 * half + 1) pl.bottom pl.top)
    (hgt : gridType < 3) :
    ∃ w e s n, vectorFactors mid dist pl (window G pl.x.start pl.y.start m m 1) (window C pl.x.start pl.y.start m m 0)
        gridType 3 (2 * half + 1) (2 * half + 1) = .ok [w, e, s, n] ∧
      ∀ f st first last b out inn edge,
        ((f, st, first, last, b, out, inn, edge) = (w, pl.y.start, pl.bottom, pl.top, pl.left, C (-1), C 0, G 0) ∨
         (f, st, first, last, b, out, inn, edge) =
          (e, pl.y.start, pl.bottom, pl.top, pl.right, C (2 * half), C (2 * half - 1), G (2 * half)) ∨
         (f, st, first, last, b, out, inn, edge) =
          (s, pl.x.start, pl.left, pl.right, pl.bottom, (C · (-1)), (C · 0), (G · 0)) ∨
         (f, st, first, last, b, out, inn, edge) =
          (n, pl.x.start, pl.left, pl.right, pl.top, (C · (2 * half)), (C · (2 * half - 1)), (G · (2 * half)))) →
        (∀ t, 0 ≤ t → t < m → f (t + 3) = if b = true then some (sideFactor mid dist out inn edge half (st + t)) else none) ∧
        (first = true → f 2 = f 3) ∧ (last = true → f (m + 3) = f (m + 2)) ∧
        (first = false → st ≤ half + 3 →
          f 2 = if b = true then some (sideFactor mid dist out inn edge half (st - 1)) else none) ∧
        (last = false → st + m ≠ half →
          f (m + 3) = if b = true then some (sideFactor mid dist out inn edge half (st + m)) else none) := by
  have x2 := hx.first_iff
  have x3 := hx.last_iff
  have y2 := hy.first_iff
  have y3 := hy.last_iff
  obtain ⟨w, hw, vw⟩ := side_line mid dist (window G pl.x.start pl.y.start m m 1) (window C pl.x.start pl.y.start m m 0)
    pl.y m half gridType _ _ pl.left hy (by simp only [window]; omega) (by simp only [window]; omega)
    (by simp only [window]; omega) hgt (C (-1)) (C 0) (G 0)
    (fun b j => by simp only [window]; congr 1; have := x2.mp b; omega)
    (fun b j => by simp only [window]; congr 1; have := x2.mp b; omega)
    (fun b j => by simp only [window]; congr 1; have := x2.mp b; omega)
  obtain ⟨e, he, ve⟩ := side_line mid dist (window G pl.x.start pl.y.start m m 1).flip0
    (window C pl.x.start pl.y.start m m 0).flip0
    pl.y m half gridType _ _ pl.right hy (by simp only [window, Arr2.flip0]; omega) (by simp only [window, Arr2.flip0]; omega)
    (by simp only [window, Arr2.flip0]; omega) hgt
    (C (2 * half)) (C (2 * half - 1)) (G (2 * half))
    (fun b j => by simp only [window, Arr2.flip0]; congr 1; have := x3.mp b; omega)
    (fun b j => by simp only [window, Arr2.flip0]; congr 1; have := x3.mp b; omega)
    (fun b j => by simp only [window, Arr2.flip0]; congr 1; have := x3.mp b; omega)
  obtain ⟨s, hs', vs⟩ := side_line mid dist (window G pl.x.start pl.y.start m m 1).transpose
    (window C pl.x.start pl.y.start m m 0).transpose
    pl.x m half gridType _ _ pl.bottom hx (by simp only [window, Arr2.transpose]; omega)
    (by simp only [window, Arr2.transpose]; omega) (by simp only [window, Arr2.transpose]; omega) hgt
    (C · (-1)) (C · 0) (G · 0)
    (fun b j => by simp only [window, Arr2.transpose]; congr 1; have := y2.mp b; omega)
    (fun b j => by simp only [window, Arr2.transpose]; congr 1; have := y2.mp b; omega)
    (fun b j => by simp only [window, Arr2.transpose]; congr 1; have := y2.mp b; omega)
  obtain ⟨n, hn, vn⟩ := side_line mid dist (window G pl.x.start pl.y.start m m 1).flip1.transpose
    (window C pl.x.start pl.y.start m m 0).flip1.transpose
    pl.x m half gridType _ _ pl.top hx (by simp only [window, Arr2.transpose, Arr2.flip1]; omega)
    (by simp only [window, Arr2.transpose, Arr2.flip1]; omega)
    (by simp only [window, Arr2.transpose, Arr2.flip1]; omega) hgt
    (C · (2 * half)) (C · (2 * half - 1)) (G · (2 * half))
    (fun b j => by simp only [window, Arr2.transpose, Arr2.flip1]; congr 1; have := y3.mp b; omega)
    (fun b j => by simp only [window, Arr2.transpose, Arr2.flip1]; congr 1; have := y3.mp b; omega)
    (fun b j => by simp only [window, Arr2.transpose, Arr2.flip1]; congr 1; have := y3.mp b; omega)
  refine ⟨w, e, s, n, ?_, ?_⟩
  · unfold vectorFactors
    rw [if_neg (by simp), if_neg (by omega)]
    have hh : (2 * half + 1 - 1).tdiv 2 = half := by
      rw [show 2 * half + 1 - 1 = half * 2 by omega, Int.mul_tdiv_cancel _ (by decide)]
    have a0 : (window C pl.x.start pl.y.start m m 0).n0 = (window C pl.x.start pl.y.start m m 0).transpose.n1 := rfl
    have a1 : (window C pl.x.start pl.y.start m m 0).flip0.n1 = (window C pl.x.start pl.y.start m m 0).n1 := rfl
    have a2 : (window C pl.x.start pl.y.start m m 0).flip1.transpose.n1 = (window C pl.x.start pl.y.start m m 0).transpose.n1 := rfl
    rw [a1] at he
    rw [a2] at hn
    simp only [hh, a0, hw, he, hs', hn]
    rfl
  · rintro f st first last b out inn edge (h | h | h | h) <;> injection h with h1 h <;> injection h with h2 h <;>
      injection h with h3 h <;> injection h with h4 h <;> injection h with h5 h <;> injection h with h6 h <;>
      injection h with h7 h8 <;> subst h1 h2 h3 h4 h5 h6 h7 h8
    · exact vw
    · exact ve
    · exact vs
    · exact vn

/-- **C84** (sides, violated): on every rank on an edge of the tile whose part of the tile is not square, the
computation fails. -/
theorem C84_rectangle_violated (mid : A → A → P) (dist : P → P → R) (G C : Int → Int → A) (pl : Place)
    (nx ny npx npy gridType : Int) (hx : 1 ≤ nx) (hy : 1 ≤ ny) (hne : nx ≠ ny) (hgt : gridType < 3)
    (hon : pl.left = true ∨ pl.right = true ∨ pl.bottom = true ∨ pl.top = true) :
    vectorFactors mid dist pl (window G pl.x.start pl.y.start nx ny 1) (window C pl.x.start pl.y.start nx ny 0)
        gridType 3 npx npy = .error .valueError := by
  have bad : ∀ (grid agrid : Arr2 A) (m n jm2 : Int) (b first last : Bool), 1 ≤ m → 1 ≤ n → agrid.n0 = m + 6 → grid.n1 = n + 7 →
      m ≠ n → whenOn (b && decide (gridType < 3)) (vectorLine mid dist grid agrid jm2 3 first last) =
        if b = true then .error .valueError else .ok fun _ => none := by
    intro grid agrid m n jm2 b first last hm hn h0 hg hmn
    unfold whenOn vectorLine
    simp only [lengths_other agrid grid m n jm2 hm hn h0 hg hmn, Bool.false_eq_true, if_false]
    cases b <;> simp [hgt]
  unfold vectorFactors
  split
  · rfl
  · split
    · rfl
    · have bw := bad (window G pl.x.start pl.y.start nx ny 1) (window C pl.x.start pl.y.start nx ny 0) nx ny
        (midIndex 3 (window C pl.x.start pl.y.start nx ny 0).n1 pl.y.start ((npy - 1).tdiv 2)) pl.left pl.bottom pl.top hx hy
        (by simp only [window]; omega) (by simp only [window]; omega) hne
      have be := bad (window G pl.x.start pl.y.start nx ny 1).flip0 (window C pl.x.start pl.y.start nx ny 0).flip0 nx ny
        (midIndex 3 (window C pl.x.start pl.y.start nx ny 0).n1 pl.y.start ((npy - 1).tdiv 2)) pl.right pl.bottom pl.top hx hy
        (by simp only [window, Arr2.flip0]; omega) (by simp only [window, Arr2.flip0]; omega) hne
      have bs := bad (window G pl.x.start pl.y.start nx ny 1).transpose (window C pl.x.start pl.y.start nx ny 0).transpose ny nx
        (midIndex 3 (window C pl.x.start pl.y.start nx ny 0).n0 pl.x.start ((npx - 1).tdiv 2)) pl.bottom pl.left pl.right hy hx
        (by simp only [window, Arr2.transpose]; omega) (by simp only [window, Arr2.transpose]; omega) (Ne.symm hne)
      have bn := bad (window G pl.x.start pl.y.start nx ny 1).flip1.transpose
        (window C pl.x.start pl.y.start nx ny 0).flip1.transpose ny nx
        (midIndex 3 (window C pl.x.start pl.y.start nx ny 0).n0 pl.x.start ((npx - 1).tdiv 2)) pl.top pl.left pl.right hy hx
        (by simp only [window, Arr2.transpose, Arr2.flip1]; omega) (by simp only [window, Arr2.transpose, Arr2.flip1]; omega)
        (Ne.symm hne)
      simp only [bw, be, bs, bn]
      clear bw be bs bn bad
      generalize pl.left = a at hon ⊢
      generalize pl.right = b at hon ⊢
      generalize pl.bottom = c at hon ⊢
      generalize pl.top = d at hon ⊢
      cases a <;> cases b <;> cases c <;> cases d <;> first | rfl | simp at hon

/-- **C84** (refused): a tile that is not square, or has an odd number of cells along its edges, is refused. -/
theorem C84_refused (mid : A → A → P) (dist : P → P → R) (pl : Place) (grid agrid : Arr2 A) (gridType nhalo npx npy : Int)
    (h : npx ≠ npy ∨ (npx - 1) % 2 = 1) :
    vectorFactors mid dist pl grid agrid gridType nhalo npx npy = .error .valueError := by
  unfold vectorFactors
  by_cases e : npx ≠ npy
  · rw [if_pos e]
  · rw [if_neg e, if_pos (by omega)]

/-! ### The parts of an evenly divided tile -/

theorem piece_even (k c w : Int) (hk : 0 ≤ k) (hc : k < c) (hw : 1 ≤ w) (s : Slice) (first last : Bool)
    (hs : s = ⟨k * w, k * w + w + (if k = c - 1 then 1 else 0)⟩) (hf : first = (k == 0)) (hl : last = (k == c - 1)) :
    Piece s w (c * w + 1) first last := by
  subst hs hf hl
  have hle : k * w + w ≤ c * w := by
    have : (k + 1) * w ≤ c * w := Int.mul_le_mul_of_nonneg_right (by omega) (by omega)
    rw [Int.add_mul] at this
    omega
  refine ⟨hw, Int.mul_nonneg hk (by omega), by simp only; omega, ?_, ?_, ?_⟩
  · simp only [beq_iff_eq]
  · simp only [beq_iff_eq]
    constructor
    · intro h; rw [h]; omega
    · intro h
      rcases Int.mul_eq_zero.mp h with h | h <;> omega
  · simp only [beq_iff_eq]
    constructor
    · intro h
      rw [h, Int.sub_mul]; omega
    · intro h
      by_contra hne
      have : (k + 2) * w ≤ c * w := Int.mul_le_mul_of_nonneg_right (by omega) (by omega)
      rw [Int.add_mul] at this
      omega

/-- **C84** (decompositions): on a tile divided evenly among any layout of ranks, every rank has such a part, and
the parts start at the rank's position times their size. -/
theorem C84_place (fl : FloatOps) (hfl : Zarr.EvenOps fl) (ly lx nx ny rank : Int) (hy : 0 < ly) (hx : 0 < lx)
    (hnx : 1 ≤ nx) (hny : 1 ≤ ny) (h0 : 0 ≤ rank) (h1 : rank < ly * lx) :
    ∃ pl, place ⟨(ly, lx)⟩ fl rank (lx * nx + 1) (ly * ny + 1) = .ok pl ∧
      Piece pl.x nx (lx * nx + 1) pl.left pl.right ∧ Piece pl.y ny (ly * ny + 1) pl.bottom pl.top ∧
      pl.x.start = ((TilePart.mk (ly, lx)).subtileIndex rank).2 * nx ∧
      pl.y.start = ((TilePart.mk (ly, lx)).subtileIndex rank).1 * ny := by
  obtain ⟨hj, hi⟩ := tile_sub_range hy hx h0 h1
  let e : Dim → Int := fun d => if d.isJ = true then ny + 1 else nx + 1
  have acc := Zarr.accepted fl hfl ly lx hy hx [.iInterface, .jInterface] e (by
    intro d hd
    simp only [List.mem_cons, List.not_mem_nil, or_false] at hd
    rcases hd with rfl | rfl <;> simp [Zarr.cellsOf, Dim.isInterface, e, Dim.isJ] <;> omega)
  have hshape : Zarr.tileShape e (ly, lx) [.iInterface, .jInterface] = [lx * nx + 1, ly * ny + 1] := by
    simp [Zarr.tileShape, Zarr.cellsOf, Zarr.along, Dim.isHorizontal, Dim.isInterface, e, Dim.isJ, Dim.isI, Int.mul_comm]
  have hexts : ([.iInterface, .jInterface].map fun d => (Zarr.cellsOf d (e d), Zarr.cellsOf d (e d))) = [(nx, nx), (ny, ny)] := by
    simp [Zarr.cellsOf, Dim.isInterface, e, Dim.isJ]
  rw [hshape, hexts] at acc
  have sub := (subtileExtents_accepted fl (ly, lx) [.iInterface, .jInterface] [lx * nx + 1, ly * ny + 1] _ rfl).2 acc
  have sub3 : subtileExtents fl [.iInterface, .jInterface, .other "lon_lat"] [lx * nx + 1, ly * ny + 1] (ly, lx) =
      .ok [(nx, nx), (ny, ny)] := sub
  have d3 : discardDim [.iInterface, .jInterface, .other "lon_lat"] .tile ([.iInterface, .jInterface, .other "lon_lat"] : List Dim) =
      [.iInterface, .jInterface, .other "lon_lat"] := by decide
  have d2 : ∀ a b : Int, discardDim [.iInterface, .jInterface, .other "lon_lat"] .tile [a, b] = [a, b] := by
    intro a b
    simp [discardDim]
  have hsl : (TilePart.mk (ly, lx)).subtileSlice fl rank [.iInterface, .jInterface, .other "lon_lat"]
      [lx * nx + 1, ly * ny + 1] false =
      .ok [dimSlice (ly, lx) ((TilePart.mk (ly, lx)).subtileIndex rank) false .iInterface nx nx,
        dimSlice (ly, lx) ((TilePart.mk (ly, lx)).subtileIndex rank) false .jInterface ny ny] := by
    unfold TilePart.subtileSlice rankSlice
    rw [d3, d2]
    simp only [sub3]
    rfl
  unfold place
  rw [hsl]
  generalize hidx : (TilePart.mk (ly, lx)).subtileIndex rank = sub at hj hi
  have bx := dimSlice_horizontal (ly, lx) sub false .iInterface nx nx rfl (by simpa [idx, Dim.isJ] using hi.1)
  have byy := dimSlice_horizontal (ly, lx) sub false .jInterface ny ny rfl (by simpa [idx, Dim.isJ] using hj.1)
  simp only [Zarr.bnd_even, idx, cnt, Dim.isJ, Dim.isI, Dim.isInterface, Bool.false_eq_true, if_false, if_true, false_or,
    true_and] at bx byy
  push_cast at bx byy
  rw [Int.toNat_of_nonneg hi.1, Int.add_mul, Int.one_mul] at bx
  rw [Int.toNat_of_nonneg hj.1, Int.add_mul, Int.one_mul] at byy
  refine ⟨_, rfl, ?_, ?_, ?_, ?_⟩
  · apply piece_even sub.2 lx nx hi.1 hi.2 hnx _ _ _ bx
    · simp only [TilePart.onLeft, hidx, onTileLeft]
    · simp only [TilePart.onRight, hidx, onTileRight]
  · apply piece_even sub.1 ly ny hj.1 hj.2 hny _ _ _ byy
    · simp only [TilePart.onBottom, hidx, onTileBottom]
    · simp only [TilePart.onTop, hidx, onTileTop]
  · simp only [bx]
  · simp only [byy]

theorem exact_even : Zarr.EvenOps exactOps := by
  intro c w hc _
  simp only [exactOps]
  constructor
  · rw [show 2 * (c * w) + c = c + w * (2 * c) by ring, Int.add_mul_ediv_right _ _ (by omega),
      Int.ediv_eq_zero_of_lt (by omega) (by omega)]; omega
  · rw [show c * w - 2 * w = w * (c - 2) by ring, Int.mul_ediv_cancel _ (by omega)]

/-- Rank 2 of a 2 by 2 layout of a tile with 8 by 8 cells has such a part, in the upper left of the tile. -/
example : ∃ pl, place ⟨(2, 2)⟩ exactOps 2 9 9 = .ok pl ∧ Piece pl.x 4 (2 * 4 + 1) pl.left pl.right ∧
    Piece pl.y 4 (2 * 4 + 1) pl.bottom pl.top ∧ pl.x.start = 0 ∧ pl.y.start = 4 :=
  C84_place exactOps exact_even 2 2 4 4 2 (by decide) (by decide) (by decide) (by decide) (by decide) (by decide)

/-- Rank 1 of a 1 by 2 layout of a tile with 8 by 8 cells has a part that is not square, on three edges. -/
example : ∃ pl, place ⟨(1, 2)⟩ exactOps 1 9 9 = .ok pl ∧ pl.right = true ∧ pl.bottom = true ∧ pl.top = true ∧
    pl.x = ⟨4, 9⟩ ∧ pl.y = ⟨0, 9⟩ := ⟨_, rfl, rfl, rfl, rfl, by decide, by decide⟩

/-! ### Interpolation -/

section
variable {K : Type} [Field K] [LinearOrder K] [IsStrictOrderedRing K]

/-- **C84** (weights): at a corner that is not one of the midpoints, the factor is between 0 and 1, and the mean
of the values of the midpoints before and after with this factor is exact for values that vary linearly with
distance. -/
theorem C84_corner_weights (mid : A → A → P) (dist : P → A → K) (out inn edge : Int → A) (j : Int)
    (h1 : 0 < dist (mid (out (j - 1)) (inn (j - 1))) (edge j)) (h2 : 0 < dist (mid (out j) (inn j)) (edge j)) :
    let w := cornerFactor mid dist out inn edge j
    0 < w ∧ w < 1 ∧ ∀ a b : K,
      w * (a - b * dist (mid (out (j - 1)) (inn (j - 1))) (edge j)) + (1 - w) * (a + b * dist (mid (out j) (inn j)) (edge j)) = a := by
  intro w
  have hw : w = dist (mid (out j) (inn j)) (edge j) /
      (dist (mid (out (j - 1)) (inn (j - 1))) (edge j) + dist (mid (out j) (inn j)) (edge j)) := rfl
  rw [hw]
  generalize dist (mid (out (j - 1)) (inn (j - 1))) (edge j) = d1 at *
  generalize dist (mid (out j) (inn j)) (edge j) = d2 at *
  have hs : 0 < d1 + d2 := add_pos h1 h2
  refine ⟨div_pos h2 hs, ?_, ?_⟩
  · rw [div_lt_one hs]
    linarith
  · intro a b
    have := ne_of_gt hs
    field_simp
    ring

/-- **C84** (weights): the same for sides: the factor goes with the cells next to the side's own. -/
theorem C84_side_weights (mid : A → A → P) (dist : P → P → K) (out inn edge : Int → A) (half c : Int)
    (h1 : 0 < dist (mid (out c) (inn c)) (mid (edge c) (edge (c + 1))))
    (h2 : 0 < dist (if c < half then mid (out (c + 1)) (inn (c + 1)) else mid (out (c - 1)) (inn (c - 1)))
      (mid (edge c) (edge (c + 1)))) :
    let w := sideFactor mid dist out inn edge half c
    0 < w ∧ w < 1 ∧ ∀ a b : K,
      w * (a + b * dist (if c < half then mid (out (c + 1)) (inn (c + 1)) else mid (out (c - 1)) (inn (c - 1)))
        (mid (edge c) (edge (c + 1)))) + (1 - w) * (a - b * dist (mid (out c) (inn c)) (mid (edge c) (edge (c + 1)))) = a := by
  intro w
  have hw : w = dist (mid (out c) (inn c)) (mid (edge c) (edge (c + 1))) /
      (dist (if c < half then mid (out (c + 1)) (inn (c + 1)) else mid (out (c - 1)) (inn (c - 1))) (mid (edge c) (edge (c + 1))) +
        dist (mid (out c) (inn c)) (mid (edge c) (edge (c + 1)))) := rfl
  rw [hw]
  generalize dist (if c < half then mid (out (c + 1)) (inn (c + 1)) else mid (out (c - 1)) (inn (c - 1)))
    (mid (edge c) (edge (c + 1))) = d2 at *
  generalize dist (mid (out c) (inn c)) (mid (edge c) (edge (c + 1))) = d1 at *
  have hs : 0 < d2 + d1 := add_pos h2 h1
  refine ⟨div_pos h1 hs, ?_, ?_⟩
  · rw [div_lt_one hs]
    linarith
  · intro a b
    have := ne_of_gt hs
    field_simp
    ring

end

/-! ### An example, and the halo -/

/-- Points with their coordinates; an edge of 16 sides whose lengths grow. -/
def exMid (a b : ℚ) : ℚ := (a + b) / 2
def exDist (a b : ℚ) : ℚ := if a ≤ b then b - a else a - b
def exCorner (_ j : Int) : ℚ := (j : ℚ) * j
def exCell (_ j : Int) : ℚ := (j : ℚ) * j + j

/-- The factors for the west edge at index `k` of a rank's array. -/
def exWest (layout rank n : Int) (k : Int) : Option ℚ :=
  match place ⟨(layout, layout)⟩ exactOps rank (layout * n + 1) (layout * n + 1) with
  | .ok pl =>
    match vectorFactors exMid exDist pl (window exCorner pl.x.start pl.y.start n n 1) (window exCell pl.x.start pl.y.start n n 0)
      0 3 (layout * n + 1) (layout * n + 1) with
    | .ok [w, _, _, _] => w k
    | _ => none
  | _ => none

/-- Distances as needed for the weights. -/
example : 0 < exDist (exMid (exCell (-1) (3 - 1)) (exCell 0 (3 - 1))) (exCorner 0 3) ∧
    0 < exDist (exMid (exCell (-1) 3) (exCell 0 3)) (exCorner 0 3) ∧
    0 < exDist (exMid (exCell (-1) 3) (exCell 0 3)) (exMid (exCorner 0 3) (exCorner 0 (3 + 1))) ∧
    0 < exDist (if (3 : Int) < 8 then exMid (exCell (-1) (3 + 1)) (exCell 0 (3 + 1)) else exMid (exCell (-1) (3 - 1)) (exCell 0 (3 - 1)))
      (exMid (exCorner 0 3) (exCorner 0 (3 + 1))) := by decide +kernel

/-- **C84** (sides, violated): side 8 of an edge with 16 sides, just above its middle, gets one factor on the rank
that has it and another one on the rank below, which has it in its halo; so does side 11 on the rank that has
it and on the rank above. -/
theorem C84_halo_violated :
    exWest 1 0 16 (8 + 3) = exWest 2 2 8 (0 + 3) ∧ exWest 2 0 8 (8 + 3) ≠ exWest 2 2 8 (0 + 3) ∧
    (exWest 2 0 8 (8 + 3)).isSome = true ∧ (exWest 2 2 8 (0 + 3)).isSome = true ∧
    exWest 4 8 4 (3 + 3) = exWest 1 0 16 (11 + 3) ∧ exWest 4 12 4 (-1 + 3) ≠ exWest 4 8 4 (3 + 3) := by
  decide +kernel

end NDSL.Edges
