import Verif.Spec.Directions

/-
Independent geometric specification: the six tiles glued on the surface of a cube in Z^3.

Tile `t` carries a right-handed frame `(ex, ey, nrm)` of unit vectors. With half side length `L`, the
point of tile `t` with centred coordinates `(X, Y)`, `-L ≤ X, Y ≤ L`, is
`L*nrm + X*ex + Y*ey`. (Coordinates are doubled so that cell centres are integral:
on a tile of `L` cells per side, cell `x` spans `[2x - L, 2x + 2 - L]`, centre `2x + 1 - L`.)
Nothing here refers to the partitioner.
-/
namespace NDSL

/-- Integer vectors in space. -/
structure V3 where
  x : Int
  y : Int
  z : Int
  deriving DecidableEq, Repr

namespace V3
def add (a b : V3) : V3 := ⟨a.x + b.x, a.y + b.y, a.z + b.z⟩
def smul (k : Int) (a : V3) : V3 := ⟨k * a.x, k * a.y, k * a.z⟩
def neg (a : V3) : V3 := ⟨-a.x, -a.y, -a.z⟩
def cross (a b : V3) : V3 :=
  ⟨a.y * b.z - a.z * b.y, a.z * b.x - a.x * b.z, a.x * b.y - a.y * b.x⟩
end V3

structure Frame where
  ex : V3
  ey : V3
  nrm : V3
  deriving DecidableEq, Repr

/-- The frames of tiles 0..5. -/
def frame (t : Int) : Frame :=
  if t = 0 then ⟨⟨0, 1, 0⟩, ⟨0, 0, 1⟩, ⟨1, 0, 0⟩⟩
  else if t = 1 then ⟨⟨-1, 0, 0⟩, ⟨0, 0, 1⟩, ⟨0, 1, 0⟩⟩
  else if t = 2 then ⟨⟨-1, 0, 0⟩, ⟨0, -1, 0⟩, ⟨0, 0, 1⟩⟩
  else if t = 3 then ⟨⟨0, 0, -1⟩, ⟨0, -1, 0⟩, ⟨-1, 0, 0⟩⟩
  else if t = 4 then ⟨⟨0, 0, -1⟩, ⟨1, 0, 0⟩, ⟨0, -1, 0⟩⟩
  else ⟨⟨0, 1, 0⟩, ⟨1, 0, 0⟩, ⟨0, 0, -1⟩⟩

/-- Sanity of the specification: frames are right-handed with outward normals. -/
theorem frame_right_handed (t : Int) : (frame t).ex.cross (frame t).ey = (frame t).nrm := by
  unfold frame; repeat' split
  all_goals rfl

/-- Sanity: the six normals are the six axis directions, each exactly once. -/
theorem frame_normals :
    [0, 1, 2, 3, 4, 5].map (fun t => (frame t).nrm) =
      [⟨1, 0, 0⟩, ⟨0, 1, 0⟩, ⟨0, 0, 1⟩, ⟨-1, 0, 0⟩, ⟨0, -1, 0⟩, ⟨0, 0, -1⟩] := by decide

/-- Point of tile `t` with centred coordinates `(X, Y)` on the cube of half side `L`. -/
def onCube (L t X Y : Int) : V3 :=
  ((frame t).nrm.smul L).add (((frame t).ex.smul X).add ((frame t).ey.smul Y))

/-- A point of the cube of half side `L` is one of its eight vertices. -/
def IsCubeVertex (L : Int) (v : V3) : Prop :=
  (v.x = L ∨ v.x = -L) ∧ (v.y = L ∨ v.y = -L) ∧ (v.z = L ∨ v.z = -L)

/-- The square occupied by position `(j, i)` of an `n × n` layout is
`[2i - n, 2i + 2 - n] × [2j - n, 2j + 2 - n]`; this is its corner in direction `(dx, dy)`,
`dx, dy = ±1`. -/
def corner (n t j i dx dy : Int) : V3 := onCube n t (2 * i + 1 + dx - n) (2 * j + 1 + dy - n)

/-- Directed edge of position `(t, j, i)` in direction `bt` (start, end), walking around the square
counter-clockwise. -/
def edgeSeg (n t j i : Int) : BType → V3 × V3
  | .east => (corner n t j i 1 (-1), corner n t j i 1 1)
  | .north => (corner n t j i 1 1, corner n t j i (-1) 1)
  | .west => (corner n t j i (-1) 1, corner n t j i (-1) (-1))
  | .south => (corner n t j i (-1) (-1), corner n t j i 1 (-1))
  | .northeast => (corner n t j i 1 1, corner n t j i 1 1)
  | .northwest => (corner n t j i (-1) 1, corner n t j i (-1) 1)
  | .southwest => (corner n t j i (-1) (-1), corner n t j i (-1) (-1))
  | .southeast => (corner n t j i 1 (-1), corner n t j i 1 (-1))

end NDSL
