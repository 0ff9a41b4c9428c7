import Mathlib.Algebra.Field.Defs
import Verif.Model.EdgeFactors
/-
Specification for C84: interpolation along an edge of a tile, and the piece of a tile held by a rank.
-/
namespace NDSL.Edges

variable {A P R : Type} [Field R]

/-- The factor at corner `j` of an edge of the tile: `out k` and `inn k` are the cells on both sides of the edge,
`edge j` its corners.  The value at the corner is taken between the midpoints before and after it. -/
def cornerFactor (mid : A → A → P) (dist : P → A → R) (out inn edge : Int → A) (j : Int) : R :=
  let before := mid (out (j - 1)) (inn (j - 1))
  let after := mid (out j) (inn j)
  dist after (edge j) / (dist before (edge j) + dist after (edge j))

/-- The factor at side `c` of an edge with `2 * half` sides: between the midpoint of its own cells and that of
the next cells towards the middle of the edge. -/
def sideFactor (mid : A → A → P) (dist : P → P → R) (out inn edge : Int → A) (half c : Int) : R :=
  let own := mid (out c) (inn c)
  let inner := if c < half then mid (out (c + 1)) (inn (c + 1)) else mid (out (c - 1)) (inn (c - 1))
  let side := mid (edge c) (edge (c + 1))
  dist own side / (dist inner side + dist own side)

/-- A rank's part along one axis of a tile with `np` corners: `n` cells from `s.start` on; the last rank also
has the last corner. -/
structure Piece (s : Slice) (n np : Int) (first last : Bool) : Prop where
  pos : 1 ≤ n
  start : 0 ≤ s.start
  inside : s.start + n ≤ np - 1
  stop : s.stop = s.start + n + (if last = true then 1 else 0)
  first_iff : first = true ↔ s.start = 0
  last_iff : last = true ↔ s.start + n = np - 1

/-- The array of a rank with `nx` by `ny` cells and a halo of 3 that holds the part of the field `F` of the whole
tile from `(x0, y0)` on; `e` is 1 for corners, 0 for cells. -/
def window (F : Int → Int → A) (x0 y0 nx ny e : Int) : Arr2 A :=
  ⟨nx + 6 + e, ny + 6 + e, fun i j => F (x0 + i - 3) (y0 + j - 3)⟩

end NDSL.Edges
