import Verif.Model.SupergridCorners
/-
Specification vocabulary for the ghost cells at the corners of a tile.
-/
namespace NDSL.Supergrid

/-- A corner of an array of cells: west or east, south or north. -/
structure Corner where
  east : Bool
  north : Bool
deriving DecidableEq

namespace Corner

/-- Distance of column `i` from the outermost column at this corner.  Also the column at a distance. -/
def x (c : Corner) (n0 i : Int) : Int := if c.east then n0 - 1 - i else i

/-- Distance of row `j` from the outermost row at this corner.  Also the row at a distance. -/
def y (c : Corner) (n1 j : Int) : Int := if c.north then n1 - 1 - j else j

/-- The side of a cell that faces away from the corner eastwards or westwards. -/
def inX (c : Corner) : Nat := if c.east then 0 else 2
/-- The side of a cell that faces the corner's outermost column. -/
def outX (c : Corner) : Nat := if c.east then 2 else 0
/-- The side of a cell that faces away from the corner northwards or southwards. -/
def inY (c : Corner) : Nat := if c.north then 1 else 3
/-- The side of a cell that faces the corner's outermost row. -/
def outY (c : Corner) : Nat := if c.north then 3 else 1

/-- The rank lies at this corner of its tile. -/
def on (c : Corner) (r : OnTile) : Bool := (if c.east then r.right else r.left) && (if c.north then r.top else r.bottom)

/-- A ghost cell: both distances are less than the halo. -/
def ghost (c : Corner) (h n0 n1 i j : Int) : Prop := c.x n0 i < h ∧ c.y n1 j < h

/-- What lies across the side `inX` of a ghost cell in the innermost ghost column: the tile has only
three neighbours around its corner, so it is the side `outY` of a cell in the first halo row of the other
neighbour. -/
def acrossX {α : Type} (c : Corner) (sg : SG α) (h n0 n1 j : Int) : α :=
  sg c.outY (c.x n0 (c.y n1 j)) (c.y n1 h)

/-- What lies across the side `inY` of a ghost cell in the innermost ghost row. -/
def acrossY {α : Type} (c : Corner) (sg : SG α) (h n0 n1 i : Int) : α :=
  sg c.outX (c.x n0 h) (c.y n1 (c.x n0 i))

end Corner

/-- The point of a cell that changes places with point `k` when south and north do. -/
def mirrorPoint : Nat → Nat
  | 1 => 3
  | 3 => 1
  | 5 => 8
  | 8 => 5
  | 6 => 7
  | 7 => 6
  | k => k

/-- The mirror image of an array about its middle row: south and north sides, and the corners of cells,
change places. -/
def mirrored {α : Type} (n1 : Int) (sg : SG α) : SG α := fun k i j => sg (mirrorPoint k) i (n1 - 1 - j)

end NDSL.Supergrid
