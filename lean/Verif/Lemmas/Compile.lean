import Verif.Spec.Compile
import Verif.Lemmas.Partitioner
import Mathlib.Tactic.SplitIfs

namespace NDSL.Compile

theorem exists_sits (p : Part) (h1 : 0 < p.layout.1) (h2 : 0 < p.layout.2) (r : Int) :
    ∃ t y x, Sits p r t y x := by
  have hA : 0 < p.layout.1 * p.layout.2 := Int.mul_pos h1 h2
  refine ⟨r / (p.layout.1 * p.layout.2), r % (p.layout.1 * p.layout.2) / p.layout.2,
    r % (p.layout.1 * p.layout.2) % p.layout.2, ?_, ?_, ?_, ?_, ?_⟩
  · exact Int.ediv_nonneg (Int.emod_nonneg _ (by omega)) (by omega)
  · exact Int.ediv_lt_of_lt_mul h2 (Int.emod_lt_of_pos _ hA)
  · exact Int.emod_nonneg _ (by omega)
  · exact Int.emod_lt_of_pos _ h2
  · have e1 := Int.mul_ediv_add_emod r (p.layout.1 * p.layout.2)
    have e2 := Int.mul_ediv_add_emod (r % (p.layout.1 * p.layout.2)) p.layout.2
    rw [Int.mul_comm] at e1 e2
    omega

theorem sits_unique {p : Part} {r r' t y x y' x' t' : Int} (h : Sits p r t y x)
    (h' : Sits p r' t' y' x') : r = r' ↔ t = t' ∧ y = y' ∧ x = x' := by
  obtain ⟨a1, a2, a3, a4, a5⟩ := h
  obtain ⟨b1, b2, b3, b4, b5⟩ := h'
  constructor
  · intro e
    have j1 := jn_bounds a1 a2 a3 a4
    have j2 := jn_bounds b1 b2 b3 b4
    rw [a5, b5] at e
    obtain ⟨e1, e2⟩ := radix_unique j1.1 j1.2 j2.1 j2.2 e
    obtain ⟨e3, e4⟩ := radix_unique a3 a4 b3 b4 e2
    exact ⟨e1, e3, e4⟩
  · rintro ⟨rfl, rfl, rfl⟩
    rw [a5, b5]

theorem sits_subtile {p : Part} {r t y x : Int} (h : Sits p r t y x) :
    p.tilePart.subtileIndex r = (y, x) := by
  obtain ⟨a1, a2, a3, a4, a5⟩ := h
  have j1 := jn_bounds a1 a2 a3 a4
  have e : r % p.tilePart.totalRanks = y * p.layout.2 + x := by
    rw [a5]; exact radix_mod j1.1 j1.2
  have e1 : (y * p.layout.2 + x) / p.tilePart.layout.2 = y := radix_div a3 a4
  have e2 : (y * p.layout.2 + x) % p.tilePart.layout.2 = x := radix_mod a3 a4
  simp only [TilePart.subtileIndex, NDSL.subtileIndex, e, e1, e2]

theorem sits_tile_cube {q : CubePart} {r t y x : Int} (h : Sits (.cube q) r t y x) :
    (Part.cube q).tileIndex r = .ok t := by
  obtain ⟨a1, a2, a3, a4, a5⟩ := h
  have j1 := jn_bounds a1 a2 a3 a4
  have hA : q.tile.totalRanks = (Part.cube q).layout.1 * (Part.cube q).layout.2 := rfl
  have e1 : q.totalRanks % 6 = 0 := by unfold CubePart.totalRanks; omega
  have e2 : q.totalRanks / 6 = q.tile.totalRanks := by unfold CubePart.totalRanks; omega
  simp only [Part.tileIndex, CubePart.tileIndex, getTileIndex, e1, e2, ne_eq, not_true_eq_false,
    if_false]
  rw [hA, a5, radix_div j1.1 j1.2]

/-- The code path of a rank is told by its place. -/
theorem identify_sits {p : Part} {r t y x : Int} (h : Sits p r t y x) (h1 : 2 ≤ p.layout.1)
    (h2 : 2 ≤ p.layout.2) :
    identifyCodePath r p false
      = .ok (pathAt (thirdOf p.layout.1 y) (thirdOf p.layout.2 x)) := by
  have hs := sits_subtile h
  have n0 : p.layout ≠ (1, 1) := by
    intro e; rw [e] at h1; simp at h1
  have n1 : ¬ (p.layout.1 = 1 ∨ p.layout.2 = 1) := by omega
  have hl : p.tilePart.layout = p.layout := rfl
  unfold identifyCodePath
  rw [if_neg (by simp), if_neg n0, if_neg n1]
  simp only [TilePart.onBottom, TilePart.onTop, TilePart.onLeft, TilePart.onRight, onTileBottom,
    onTileTop, onTileLeft, onTileRight, hs, hl, beq_iff_eq, thirdOf]
  split_ifs <;> first | rfl | omega

theorem isCorner_sits {p : Part} {r t y x : Int} (h : Sits p r t y x) :
    isCorner r p = true ↔ (y = 0 ∨ y = p.layout.1 - 1) ∧ (x = 0 ∨ x = p.layout.2 - 1) := by
  have hs := sits_subtile h
  have hl : p.tilePart.layout = p.layout := rfl
  simp only [isCorner, TilePart.onBottom, TilePart.onTop, TilePart.onLeft, TilePart.onRight,
    onTileBottom, onTileTop, onTileLeft, onTileRight, hs, hl, beq_iff_eq, Bool.and_eq_true]
  split_ifs <;> simp <;> omega

/-- The places of tile zero that compile. -/
def Chosen (l : Int × Int) (y x : Int) : Prop :=
  ((y = 0 ∨ y = l.1 - 1) ∧ (x = 0 ∨ x = l.2 - 1)) ∨ (x = 0 ∧ y = 1) ∨ (y = 0 ∧ x = 1) ∨
    (x = 1 ∧ y = 1 ∧ 1 < l.1 ∧ 1 < l.2) ∨ (x = l.1 - 1 ∧ y = 1) ∨ (y = l.2 - 1 ∧ x = 1)

theorem compiling_sits {p : Part} {r t y x : Int} (h : Sits p r t y x)
    (ht : p.tileIndex r = .ok t) :
    determineCompilingRank r p false = .ok true ↔ t = 0 ∧ Chosen p.layout y x := by
  have hs := sits_subtile h
  have hc := isCorner_sits h
  unfold determineCompilingRank
  rw [if_neg (by simp), ht]
  simp only [bind, Except.bind]
  by_cases h0 : t = 0
  · simp only [h0, ne_eq, not_true_eq_false, if_false, true_and]
    by_cases hcc : isCorner r p = true
    · simp only [hcc, if_true, true_iff]
      exact Or.inl (hc.1 hcc)
    · rw [if_neg hcc]
      have hn := mt hc.2 hcc
      simp only [hs, smallestLeft, smallestBottom, smallestMiddle, smallestRight, smallestTop,
        Except.ok.injEq, Bool.or_eq_true, Bool.and_eq_true, beq_iff_eq, decide_eq_true_eq, Chosen]
      omega
  · simp [h0]

end NDSL.Compile
