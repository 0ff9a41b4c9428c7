import Verif.Model.Sphere
/-
Specification vocabulary for the geometry on the sphere: scalar product, length, angle between two
directions, direction with given longitude and latitude, and the direction in which an arc leaves a
point.
-/
namespace NDSL.Sphere
open Real

/-- Scalar product. -/
def dot (a b : V3) : ℝ := a.x * b.x + a.y * b.y + a.z * b.z

/-- Length. -/
noncomputable def len (a : V3) : ℝ := sqrt (dot a a)

/-- The angle between two directions. -/
noncomputable def angle (a b : V3) : ℝ := arccos (dot a b / (len a * len b))

/-- The unit vector at given longitude and latitude. -/
noncomputable def point (lon lat : ℝ) : V3 := ⟨cos lat * cos lon, cos lat * sin lon, sin lat⟩

/-- The part of `q` at right angles to the unit vector `p`: the direction in which the arc from `p`
to `q` leaves `p`. -/
def tangent (p q : V3) : V3 := ⟨q.x - dot p q * p.x, q.y - dot p q * p.y, q.z - dot p q * p.z⟩

end NDSL.Sphere
