import Verif.Spec.CubedToLatLon
/-
Specification vocabulary for the angles of grid cells.
-/
namespace NDSL.Sphere
open Real

/-- The opposite direction. -/
def opposite (p : V3) : V3 := ⟨-p.x, -p.y, -p.z⟩

/-- At each of the nine points of a cell (`c` is its centre), the directions in which the two grid lines
leave eastwards and northwards.  At a point on the east or north side, this is away from the cell's points
on the west or south side. -/
noncomputable def gridLines (sw se nw ne : V3) : Nat → V3 × V3
  | 0 => (tangent (unit (add sw nw)) (unit (mid4 sw se nw ne)), tangent (unit (add sw nw)) nw)
  | 1 => (tangent (unit (add sw se)) se, tangent (unit (add sw se)) (unit (mid4 sw se nw ne)))
  | 2 => (opposite (tangent (unit (add se ne)) (unit (mid4 sw se nw ne))), opposite (tangent (unit (add se ne)) se))
  | 3 => (opposite (tangent (unit (add nw ne)) nw), opposite (tangent (unit (add nw ne)) (unit (mid4 sw se nw ne))))
  | 4 => (eastward sw se nw ne, northward sw se nw ne)
  | 5 => (tangent sw se, tangent sw nw)
  | 6 => (opposite (tangent se sw), tangent se ne)
  | 7 => (opposite (tangent ne nw), opposite (tangent ne se))
  | _ => (tangent nw ne, opposite (tangent nw sw))

/-- The angle between the grid lines at a point of a cell. -/
noncomputable def gridAngle (sw se nw ne : V3) (k : Nat) : ℝ :=
  angle (gridLines sw se nw ne k).1 (gridLines sw se nw ne k).2

/-- The cosine of the angle between the grid lines with face coordinates `X` and `Y`, where they cross. -/
noncomputable def lineCos (X Y : ℝ) : ℝ := -(X * Y) / (sqrt (half ^ 2 + X ^ 2) * sqrt (half ^ 2 + Y ^ 2))

end NDSL.Sphere
