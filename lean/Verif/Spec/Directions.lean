import Verif.Model.Basic

/-
Specification vocabulary: compass directions as integer vectors `(dx, dy)`, opposite directions and
quarter turns. Independent of the partitioner model.
-/
namespace NDSL

/-- Direction of a boundary type as a vector `(dx, dy)`; x grows eastwards, y northwards. -/
def BType.dir : BType → Int × Int
  | .west => (-1, 0) | .east => (1, 0) | .north => (0, 1) | .south => (0, -1)
  | .northwest => (-1, 1) | .northeast => (1, 1) | .southwest => (-1, -1) | .southeast => (1, -1)

/-- A quarter turn clockwise of a vector. -/
def turnCW (v : Int × Int) : Int × Int := (v.2, -v.1)

/-- `k` quarter turns clockwise (`k` modulo 4). -/
def turnsCW (k : Int) (v : Int × Int) : Int × Int :=
  if k % 4 = 0 then v
  else if k % 4 = 1 then turnCW v
  else if k % 4 = 2 then turnCW (turnCW v)
  else turnCW (turnCW (turnCW v))

/-- Opposite vector. -/
def oppV (v : Int × Int) : Int × Int := (-v.1, -v.2)

/-- Is the boundary type an edge (and not a corner)? -/
def BType.isEdge : BType → Bool
  | .west | .east | .north | .south => true
  | _ => false

/-- The two edges (east/west, north/south) meeting at a corner. -/
def BType.cornerEdges : BType → BType × BType
  | .northwest => (.west, .north)
  | .northeast => (.east, .north)
  | .southwest => (.west, .south)
  | .southeast => (.east, .south)
  | b => (b, b)

end NDSL
