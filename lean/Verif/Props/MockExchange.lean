import Verif.Model.CubedToLatLon
import Verif.Spec.CubedToLatLon
import Mathlib.Tactic.Ring
/-
C81: the conversion of winds on one rank, and the checks made before.
-/
namespace NDSL.Sphere

theorem copy_in {α : Type} (q : Int → Int → α) (i0 i1 j0 j1 si sj i j : Int)
    (h : i0 ≤ i ∧ i < i1 ∧ j0 ≤ j ∧ j < j1) : copyBlock q i0 i1 j0 j1 si sj i j = q (si + (i - i0)) (sj + (j - j0)) :=
  if_pos h

theorem copy_out {α : Type} (q : Int → Int → α) (i0 i1 j0 j1 si sj i j : Int)
    (h : ¬(i0 ≤ i ∧ i < i1 ∧ j0 ≤ j ∧ j < j1)) : copyBlock q i0 i1 j0 j1 si sj i j = q i j :=
  if_neg h

theorem around_left (s n i : Int) (h1 : s - n ≤ i) (h2 : i < s) : around s n i = i + n := by
  unfold around
  rw [show (i - s) = (i - s + n) + n * (-1) by ring, Int.add_mul_emod_self_left, Int.emod_eq_of_lt (by omega) (by omega)]
  ring

theorem around_mid (s n i : Int) (h1 : s ≤ i) (h2 : i < s + n) : around s n i = i := by
  unfold around
  rw [Int.emod_eq_of_lt (by omega) (by omega)]
  ring

theorem around_right (s n i : Int) (h1 : s + n ≤ i) (h2 : i < s + n + n) : around s n i = i - n := by
  unfold around
  rw [show (i - s) = (i - s - n) + n * 1 by ring, Int.add_mul_emod_self_left, Int.emod_eq_of_lt (by omega) (by omega)]
  ring

/-- **C81** (halos on one rank): on a single rank the exchange fills the halo with the repeated domain, and
leaves the domain as it is, if the domain is at least as wide as the halo. -/
theorem C81_periodic {α : Type} (q : Int → Int → α) (nx ny h sizeI sizeJ : Int) (h0 : 0 ≤ h) (hx : h ≤ nx) (hy : h ≤ ny)
    (hI : nx + 2 * h ≤ sizeI) (hJ : ny + 2 * h ≤ sizeJ) (i j : Int) (hi : 0 ≤ i ∧ i < nx + 2 * h)
    (hj : 0 ≤ j ∧ j < ny + 2 * h) :
    mockExchange q h (h + nx - 1) 0 (nx + 2 * h - 1) h (h + ny - 1) 0 (ny + 2 * h - 1) sizeI sizeJ i j =
      q (around h nx i) (around h ny j) := by
  have side : ∀ k n : Int, h ≤ n → 0 ≤ k → k < n + 2 * h →
      (k < h ∧ around h n k = k + n) ∨ (h ≤ k ∧ k < h + n ∧ around h n k = k) ∨ (h + n ≤ k ∧ around h n k = k - n) := by
    intro k n hn k0 k1
    rcases (by omega : k < h ∨ h ≤ k) with a | a
    · exact Or.inl ⟨a, around_left h n k (by omega) a⟩
    · rcases (by omega : k < h + n ∨ h + n ≤ k) with b | b
      · exact Or.inr (Or.inl ⟨a, b, around_mid h n k a b⟩)
      · exact Or.inr (Or.inr ⟨b, around_right h n k b (by omega)⟩)
  unfold mockExchange
  rcases side i nx hx hi.1 hi.2 with ⟨a, e⟩ | ⟨a, a', e⟩ | ⟨a, e⟩ <;>
  rcases side j ny hy hj.1 hj.2 with ⟨b, e'⟩ | ⟨b, b', e'⟩ | ⟨b, e'⟩ <;>
  rw [e, e'] <;>
  simp (disch := omega) only [copy_in, copy_out] <;>
  (congr 1 <;> omega)

/-- A domain of 4 by 5 points with a halo of 3 points. -/
example : (0 : Int) ≤ 3 ∧ (3 : Int) ≤ 4 ∧ (3 : Int) ≤ 5 ∧ (4 + 2 * 3 : Int) ≤ 11 := by decide

/-- **C81** (winds on one rank): on a doubly periodic domain on one rank the fourth order conversion returns
at each cell, also at the edges, the cubic interpolation of the winds on the repeated domain. -/
theorem C81_one_rank (gridType : Int) (hg : 4 ≤ gridType) (iS iE jS jE : Option Int) (u v dx dy : Int → Int → ℝ) (A : Mat)
    (nx ny h : Int) (h0 : 2 ≤ h) (hx : h ≤ nx) (hy : h ≤ ny) (i j : Int) (hi : h ≤ i ∧ i < h + nx) (hj : h ≤ j ∧ j < h + ny) :
    oneRankOrd4 gridType iS iE jS jE u v dx dy A h (h + nx - 1) 0 (nx + 2 * h - 1) h (h + ny - 1) 0 (ny + 2 * h - 1)
      (nx + 2 * h + 1) (ny + 2 * h + 1) i j =
    (cubicMiddle (u i (around h ny (j - 1))) (u i j) (u i (around h ny (j + 1))) (u i (around h ny (j + 2))),
      cubicMiddle (v (around h nx (i - 1)) j) (v i j) (v (around h nx (i + 1)) j) (v (around h nx (i + 2)) j)) := by
  have hI := around_mid h nx i hi.1 hi.2
  have hJ := around_mid h ny j hj.1 hj.2
  have pu : ∀ k, 0 ≤ k → k < ny + 2 * h → mockExchange u h (h + nx - 1) 0 (nx + 2 * h - 1) h (h + ny - 1) 0
      (ny + 2 * h - 1) (nx + 2 * h + 1) (ny + 2 * h + 1 - 1) i k = u i (around h ny k) := by
    intro k k0 k1
    rw [C81_periodic u nx ny h _ _ (by omega) hx hy (by omega) (by omega) i k ⟨by omega, by omega⟩ ⟨k0, k1⟩, hI]
  have pv : ∀ k, 0 ≤ k → k < nx + 2 * h → mockExchange v h (h + nx - 1) 0 (nx + 2 * h - 1) h (h + ny - 1) 0
      (ny + 2 * h - 1) (nx + 2 * h + 1 - 1) (ny + 2 * h + 1) k j = v (around h nx k) j := by
    intro k k0 k1
    rw [C81_periodic v nx ny h _ _ (by omega) hx hy (by omega) (by omega) k j ⟨k0, k1⟩ ⟨by omega, by omega⟩, hJ]
  unfold oneRankOrd4 ord4
  rw [if_neg (by omega), pu _ (by omega) (by omega), pu _ (by omega) (by omega), pu _ (by omega) (by omega),
    pu _ (by omega) (by omega), pv _ (by omega) (by omega), pv _ (by omega) (by omega), pv _ (by omega) (by omega),
    pv _ (by omega) (by omega), hI, hJ]
  unfold cubicMiddle cA1 cA2
  ext <;> simp only <;> ring

/-- The last of 4 by 5 cells with a halo of 3 points. -/
example : (4 : Int) ≤ 4 ∧ (2 : Int) ≤ 3 ∧ (3 : Int) ≤ 4 ∧ (3 : Int) ≤ 5 ∧ (3 : Int) ≤ 6 ∧ (6 : Int) < 3 + 4 ∧
    (3 : Int) ≤ 7 ∧ (7 : Int) < 3 + 5 := by decide

/-- **C81** (states): a state with `v` but without `u` is refused at construction; for all states that are
accepted and have `u`, the look-up at each update fails exactly if `v` is missing. -/
theorem C81_state (keys : List (List Char)) :
    (checkState keys = .error .notReadable ↔ ¬(['u'] ∈ keys) ∧ ['v'] ∈ keys) ∧
    (lookWinds keys = .ok () ↔ ['u'] ∈ keys ∧ ['v'] ∈ keys) ∧
    (lookWinds keys = .ok () → checkState keys = .ok ()) := by
  unfold checkState lookWinds
  by_cases hu : ['u'] ∈ keys <;> by_cases hv : ['v'] ∈ keys <;> simp [hu, hv]

/-- **C81** (states, violated): a state without the second wind, or without both, is accepted at
construction, and fails at the first update. -/
theorem C81_state_violated :
    checkState [['u']] = .ok () ∧ lookWinds [['u']] = .error .keyError ∧
    checkState [] = .ok () ∧ lookWinds [] = .error .keyError := by decide

/-- **C81** (orders, violated): orders other than 2 and 4 are not refused: they give the fourth order. -/
theorem C81_order_violated (order : Int) : choosesOrd4 order = true ↔ order ≠ 2 := by
  unfold choosesOrd4
  simp

end NDSL.Sphere
