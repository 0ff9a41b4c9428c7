import Verif.Lemmas.Partitioner
import Verif.Spec.Directions

/-
Closed form of `TilePartitioner.boundary` on positions `(j, i)`.
-/
namespace NDSL

section
variable {ly lx j i : Int}

theorem tile_subtileIndex (hj : 0 ≤ j) (hj2 : j < ly) (hi : 0 ≤ i) (hi2 : i < lx) :
    (TilePart.mk (ly, lx)).subtileIndex (j * lx + i) = (j, i) := by
  have hb := jn_bounds hj hj2 hi hi2
  simp only [TilePart.subtileIndex, subtileIndex, TilePart.totalRanks]
  rw [Int.emod_eq_of_lt hb.1 hb.2, radix_div hi hi2, radix_mod hi hi2]

theorem tile_surj (hx : 0 < lx) {r : Int} (h0 : 0 ≤ r) (h1 : r < ly * lx) :
    ∃ j i, 0 ≤ j ∧ j < ly ∧ 0 ≤ i ∧ i < lx ∧ r = j * lx + i := by
  refine ⟨r / lx, r % lx, Int.ediv_nonneg h0 (by omega), Int.ediv_lt_of_lt_mul hx h1,
    Int.emod_nonneg _ (by omega), Int.emod_lt_of_pos _ hx, ?_⟩
  have := Int.mul_ediv_add_emod r lx
  rw [Int.mul_comm (r / lx)]; omega

variable (hj : 0 ≤ j) (hj2 : j < ly) (hi : 0 ≤ i) (hi2 : i < lx)
include hj hj2 hi hi2

theorem tile_left : (TilePart.mk (ly, lx)).leftEdge (j * lx + i) =
    ⟨.west, j * lx + i, j * lx + (if i = 0 then lx - 1 else i - 1), 0⟩ := by
  simp only [TilePart.leftEdge, TilePart.onLeft, onTileLeft, tile_subtileIndex hj hj2 hi hi2]
  by_cases h : i = 0 <;> simp [h] <;> omega

theorem tile_right : (TilePart.mk (ly, lx)).rightEdge (j * lx + i) =
    ⟨.east, j * lx + i, j * lx + (if i = lx - 1 then 0 else i + 1), 0⟩ := by
  simp only [TilePart.rightEdge, TilePart.onRight, onTileRight, tile_subtileIndex hj hj2 hi hi2]
  by_cases h : i = lx - 1 <;> simp [h] <;> omega

theorem tile_top : (TilePart.mk (ly, lx)).topEdge (j * lx + i) =
    ⟨.north, j * lx + i, (if j = ly - 1 then 0 else j + 1) * lx + i, 0⟩ := by
  simp only [TilePart.topEdge, TilePart.onTop, onTileTop, tile_subtileIndex hj hj2 hi hi2]
  by_cases h : j = ly - 1
  · simp [h]; omega
  · simp [h, Int.add_mul]; omega

theorem tile_bottom : (TilePart.mk (ly, lx)).bottomEdge (j * lx + i) =
    ⟨.south, j * lx + i, (if j = 0 then ly - 1 else j - 1) * lx + i, 0⟩ := by
  simp only [TilePart.bottomEdge, TilePart.onBottom, onTileBottom,
    tile_subtileIndex hj hj2 hi hi2]
  by_cases h : j = 0
  · simp [h]; omega
  · simp [h, Int.sub_mul]; omega

omit hj hj2 in
theorem wrap_x (d : Int) (hd : d = -1 ∨ d = 0 ∨ d = 1) :
    (i + d) % lx = if d = -1 then (if i = 0 then lx - 1 else i - 1)
      else if d = 1 then (if i = lx - 1 then 0 else i + 1) else i := by
  rcases hd with rfl | rfl | rfl
  · rw [if_pos rfl]
    split
    · subst i
      have : (0 + -1 : Int) = lx - 1 + lx * (-1) := by omega
      rw [this, Int.add_mul_emod_self_left, Int.emod_eq_of_lt] <;> omega
    · rw [Int.emod_eq_of_lt] <;> omega
  · simp; rw [Int.emod_eq_of_lt] <;> omega
  · rw [if_neg (by decide), if_pos rfl]
    split
    · have : i + 1 = 0 + lx * 1 := by omega
      rw [this, Int.add_mul_emod_self_left, Int.emod_eq_of_lt] <;> omega
    · rw [Int.emod_eq_of_lt] <;> omega

theorem tile_boundary_eq (bt : BType) : (TilePart.mk (ly, lx)).boundary bt (j * lx + i) =
    ⟨bt, j * lx + i, ((j + bt.dir.2) % ly) * lx + (i + bt.dir.1) % lx, 0⟩ := by
  have hw : 0 ≤ lx - 1 ∧ lx - 1 < lx := by omega
  have wx := wrap_x (i := i) (lx := lx) hi hi2
  have wy := wrap_x (i := j) (lx := ly) hj hj2
  have mi : i % lx = i := Int.emod_eq_of_lt hi hi2
  have mj : j % ly = j := Int.emod_eq_of_lt hj hj2
  have bl : 0 ≤ (if i = 0 then lx - 1 else i - 1) ∧ (if i = 0 then lx - 1 else i - 1) < lx := by
    split <;> omega
  have br : 0 ≤ (if i = lx - 1 then 0 else i + 1) ∧ (if i = lx - 1 then 0 else i + 1) < lx := by
    split <;> omega
  cases bt
  · simp only [TilePart.boundary, tile_left hj hj2 hi hi2, BType.dir, Int.add_zero, mj,
      wx (-1) (by simp)]
    simp
  · simp only [TilePart.boundary, tile_right hj hj2 hi hi2, BType.dir, Int.add_zero, mj,
      wx 1 (by simp)]
    simp
  · simp only [TilePart.boundary, tile_top hj hj2 hi hi2, BType.dir, Int.add_zero, mi,
      wy 1 (by simp)]
    simp
  · simp only [TilePart.boundary, tile_bottom hj hj2 hi hi2, BType.dir, Int.add_zero, mi,
      wy (-1) (by simp)]
    simp
  · simp only [TilePart.boundary, TilePart.getCorner, tile_left hj hj2 hi hi2,
      tile_top hj hj2 bl.1 bl.2, BType.dir, wx (-1) (by simp), wy 1 (by simp)]
    simp
  · simp only [TilePart.boundary, TilePart.getCorner, tile_right hj hj2 hi hi2,
      tile_top hj hj2 br.1 br.2, BType.dir, wx 1 (by simp), wy 1 (by simp)]
    simp
  · simp only [TilePart.boundary, TilePart.getCorner, tile_left hj hj2 hi hi2,
      tile_bottom hj hj2 bl.1 bl.2, BType.dir, wx (-1) (by simp), wy (-1) (by simp)]
    simp
  · simp only [TilePart.boundary, TilePart.getCorner, tile_right hj hj2 hi hi2,
      tile_bottom hj hj2 br.1 br.2, BType.dir, wx 1 (by simp), wy (-1) (by simp)]
    simp

end

end NDSL
