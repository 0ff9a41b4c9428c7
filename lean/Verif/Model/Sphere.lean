import Mathlib.Analysis.SpecialFunctions.Trigonometric.Inverse
import Mathlib.Analysis.SpecialFunctions.Complex.Arg
import Mathlib.Analysis.SpecialFunctions.Trigonometric.Arctan
/-
Model of the geometry on the sphere in `ndsl/grid/gnomonic.py`: conversions between longitude/latitude
and Cartesian coordinates, distances, midpoints, angles and areas.

Simplifications, in the whole file: real numbers instead of floating point numbers; the functions work
point by point on arrays, so one point is modelled; `NaN` (from a division by zero) is `none`, or is
treated as the code treats it.
-/
namespace NDSL.Sphere
open Real

/-- A point given by the last dimension of an array, of length 3. -/
@[ext] structure V3 where
  x : ℝ
  y : ℝ
  z : ℝ

/-- `np.sum(p * q, axis=-1)` -/
def sumMul (p q : V3) : ℝ := p.x * q.x + p.y * q.y + p.z * q.z

/-- `np.cross(p, q)`, also `_vect_cross`, 314-321. -/
def cross (p q : V3) : V3 := ⟨p.y * q.z - p.z * q.y, p.z * q.x - p.x * q.z, p.x * q.y - p.y * q.x⟩

/-- `np.arctan2(y, x)`: the argument of `x + iy`, in (-pi, pi]. -/
noncomputable def arctan2 (y x : ℝ) : ℝ := Complex.arg ⟨x, y⟩

/-- `normalize_vector`, 167-172, and `normalize_xyz`, 175-177.  A zero vector gives `NaN`. -/
noncomputable def normalize (p : V3) : Option V3 :=
  if sqrt (p.x ^ 2 + p.y ^ 2 + p.z ^ 2) = 0 then none
  else
    let scale := 1 / sqrt (p.x ^ 2 + p.y ^ 2 + p.z ^ 2)
    some ⟨p.x * scale, p.y * scale, p.z * scale⟩

/-- `xyz_midpoint`, 187-188, of two points. -/
noncomputable def midpoint (p q : V3) : Option V3 := normalize ⟨p.x + q.x, p.y + q.y, p.z + q.z⟩

/-- `_corner_to_center_mean`, 156-164: `xyz_midpoint` of four points. -/
noncomputable def centre (p q r s : V3) : Option V3 :=
  normalize ⟨p.x + q.x + r.x + s.x, p.y + q.y + r.y + s.y, p.z + q.z + r.z + s.z⟩

/-- `lon_lat_to_xyz`, 198-215, and `_latlon2xyz`, 243-248. -/
noncomputable def lonLatToXyz (lon lat : ℝ) : Option V3 :=
  normalize ⟨cos lat * cos lon, cos lat * sin lon, sin lat⟩

/-- `xyz_to_lon_lat`, 218-240, `_xyz2latlon`, 251-263, and `_cart_to_latlon`, 266-290.  The loop
that adds `2 * PI` while a longitude is negative runs once at most, since `arctan2` is above `-PI`. -/
noncomputable def xyzToLonLat (p : V3) : Option (ℝ × ℝ) :=
  match normalize p with
  | none => none
  | some q =>
    let lon := if |q.x| + |q.y| ≥ 1 / 10 ^ 10 then arctan2 q.y q.x else 0
    some (if lon < 0 then lon + 2 * π else lon, arcsin q.z)

/-- `lon_lat_midpoint`, 180-184. -/
noncomputable def lonLatMidpoint (lon1 lon2 lat1 lat2 : ℝ) : Option (ℝ × ℝ) :=
  match lonLatToXyz lon1 lat1, lonLatToXyz lon2 lat2 with
  | some p, some q =>
    match midpoint p q with
    | some m => xyzToLonLat m
    | none => none
  | _, _ => none

/-- `_great_circle_beta_lon_lat`, 328-339. -/
noncomputable def beta (lon1 lon2 lat1 lat2 : ℝ) : ℝ :=
  arcsin (sqrt (sin ((lat1 - lat2) / 2) ^ 2 + cos lat1 * cos lat2 * sin ((lon1 - lon2) / 2) ^ 2)) * 2

/-- `great_circle_distance_lon_lat`, 364-365. -/
noncomputable def distLonLat (lon1 lon2 lat1 lat2 radius : ℝ) : ℝ := radius * beta lon1 lon2 lat1 lat2

/-- `great_circle_distance_xyz`, 368-371. -/
noncomputable def distXyz (p q : V3) (radius : ℝ) : Option ℝ :=
  match xyzToLonLat p, xyzToLonLat q with
  | some a, some b => some (distLonLat a.1 b.1 a.2 b.2 radius)
  | _, _ => none

/-- `spherical_angle`, 664-688: `NaN` (a zero denominator) is replaced by 0. -/
noncomputable def sphericalAngle (centre p2 p3 : V3) : ℝ :=
  let p := cross centre p2
  let q := cross centre p3
  if sqrt (sumMul p p * sumMul q q) = 0 then 0
  else arccos (sumMul p q / sqrt (sumMul p p * sumMul q q))

/-- `fortran_vector_spherical_angle`, 624-661. -/
noncomputable def fortranAngle (e1 e2 e3 : V3) : ℝ :=
  let px := e1.y * e2.z - e1.z * e2.y
  let py := e1.z * e2.x - e1.x * e2.z
  let pz := e1.x * e2.y - e1.y * e2.x
  let qx := e1.y * e3.z - e1.z * e3.y
  let qy := e1.z * e3.x - e1.x * e3.z
  let qz := e1.x * e3.y - e1.y * e3.x
  let ddd := (px * px + py * py + pz * pz) * (qx * qx + qy * qy + qz * qz)
  if ddd ≤ 0 then 0
  else
    let ddd := (px * qx + py * qy + pz * qz) / sqrt ddd
    if |ddd| > 1 then (if ddd < 0 then 4 * Real.arctan 1 else 0) else arccos ddd

/-- `get_triangle_area`, 612-621. -/
noncomputable def triangleArea (p1 p2 p3 : V3) (radius : ℝ) : ℝ :=
  (sphericalAngle p1 p2 p3 + sphericalAngle p2 p3 p1 + sphericalAngle p3 p1 p2 - π) * radius ^ 2

/-- `get_rectangle_area`, 592-609. -/
noncomputable def rectangleArea (p1 p2 p3 p4 : V3) (radius : ℝ) : ℝ :=
  (sphericalAngle p2 p3 p1 + sphericalAngle p3 p2 p4 + sphericalAngle p4 p3 p1 + sphericalAngle p1 p4 p2
    - 2 * π) * radius ^ 2

/-- `get_unit_vector_direction`, 702-710, of two points in longitude and latitude. -/
noncomputable def unitVectorDirection (lon1 lat1 lon2 lat2 : ℝ) : Option V3 :=
  match lonLatToXyz lon1 lat1, lonLatToXyz lon2 lat2 with
  | some p, some q =>
    match midpoint p q with
    | some m => normalize (cross m (cross q p))
    | none => none
  | _, _ => none

/-- `get_lonlat_vect`, 713-732: the unit vectors in the longitude and latitude directions. -/
noncomputable def lonVect (lon _lat : ℝ) : V3 := ⟨-sin lon, cos lon, 0⟩
noncomputable def latVect (lon lat : ℝ) : V3 := ⟨-sin lat * cos lon, -sin lat * sin lon, cos lat⟩

end NDSL.Sphere
