import Mathlib.Analysis.SpecialFunctions.Trigonometric.Basic
/-
Specification of the stretched grid: points of the unit sphere.
-/
namespace NDSL.Stretch
open Real

/-- The point of the unit sphere at a longitude and latitude. -/
noncomputable def point (lon lat : ℝ) : ℝ × ℝ × ℝ := (cos lat * cos lon, cos lat * sin lon, sin lat)

/-- The cosine of the angle between two points: their scalar product. -/
def dot (a b : ℝ × ℝ × ℝ) : ℝ := a.1 * b.1 + a.2.1 * b.2.1 + a.2.2 * b.2.2

/-- The orientation of three points: their determinant. -/
def det (a b c : ℝ × ℝ × ℝ) : ℝ :=
  a.1 * (b.2.1 * c.2.2 - b.2.2 * c.2.1) - a.2.1 * (b.1 * c.2.2 - b.2.2 * c.1)
    + a.2.2 * (b.1 * c.2.1 - b.2.1 * c.1)

/-- The rotation of the sphere that takes the south pole to the point at `(lonP, latP)` and the north
pole to the opposite point. -/
noncomputable def turn (lonP latP : ℝ) (p : ℝ × ℝ × ℝ) : ℝ × ℝ × ℝ :=
  let x := sin latP * p.1 - cos latP * p.2.2
  let y := -p.2.1
  let z := -(cos latP * p.1 + sin latP * p.2.2)
  (cos lonP * x - sin lonP * y, sin lonP * x + cos lonP * y, z)

end NDSL.Stretch
