import Mathlib.Analysis.SpecialFunctions.Trigonometric.Inverse
import Mathlib.Analysis.SpecialFunctions.Complex.Arg
/-
Model of `ndsl/grid/stretch_transformation.py` 12-104, `direct_transform`: one point of the arrays.

Simplifications: real numbers instead of floating point numbers; every operation of the function works
point by point, so one point is modelled (copying of arrays and quantities is not).
-/
namespace NDSL.Stretch
open Real

/-- `np.deg2rad` -/
noncomputable def deg2rad (x : ℝ) : ℝ := x * π / 180

/-- `np.arctan2(y, x)`: the argument of `x + iy`, in (-pi, pi]. -/
noncomputable def arctan2 (y x : ℝ) : ℝ := Complex.arg ⟨x, y⟩

/-- `a[a < 0] += 2 * pi; a[a >= 2 * pi] -= 2 * pi`, 62-63 and 91-92. -/
noncomputable def wrap (x : ℝ) : ℝ :=
  let y := if x < 0 then x + 2 * π else x
  if 2 * π ≤ y then y - 2 * π else y

/-- The stretching of the latitude, 58-70. -/
noncomputable def stretchLat (s lat : ℝ) : ℝ :=
  let c2p1 := 1 + s ^ 2
  let c2m1 := 1 - s ^ 2
  if |c2m1| > 1 / 10 ^ 7 then arcsin ((c2m1 + c2p1 * sin lat) / (c2p1 + c2m1 * sin lat)) else lat

/-- `sin_o`, 75, of the longitude after 63 and the latitude after 70. -/
noncomputable def sinO (latP lon latT : ℝ) : ℝ :=
  -(sin latP * sin latT + cos latP * cos latT * cos lon)

/-- The translation, 72-92, of the longitude after 63 and the latitude after 70. -/
noncomputable def translate (lonP latP lon latT : ℝ) : ℝ × ℝ :=
  let o := sinO latP lon latT
  if 1 - |o| < 1 / 10 ^ 7 then (wrap 0, |π / 2| * SignType.sign o)
  else
    (wrap (lonP + arctan2 (-cos latT * sin lon) (-sin latT * cos latP + cos latT * sin latP * cos lon)),
      arcsin o)

/-- `direct_transform`, 12-104; targets are in degrees. -/
noncomputable def directTransform (s lonTarget latTarget lon lat : ℝ) : ℝ × ℝ :=
  translate (deg2rad lonTarget) (deg2rad latTarget) (wrap (lon + deg2rad 190)) (stretchLat s lat)

end NDSL.Stretch
