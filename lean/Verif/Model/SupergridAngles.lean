import Verif.Model.CubedToLatLon
/-
Model of the angles of grid cells and of the unit vectors along grid lines in `ndsl/grid/geometry.py`
(`calculate_supergrid_cos_sin`, `calculate_trig_uv`, `calculate_xy_unit_vectors`) and of `spherical_cos` of
`ndsl/grid/gnomonic.py`.

Simplifications, in the whole file: as in `Verif.Model.Sphere`; grid types below 3 (the cubed sphere); one
cell or grid point at a time.
-/
namespace NDSL.Sphere
open Real

/-- `spherical_cos`, gnomonic.py 691-699. -/
noncomputable def sphericalCos (centre p2 p3 : V3) : Option ℝ :=
  let p := cross centre p2
  let q := cross centre p3
  if sqrt (sumMul p p * sumMul q q) = 0 then none
  else some (sumMul p q / sqrt (sumMul p p * sumMul q q))

/-- `-1 * spherical_cos(...)` -/
noncomputable def minusCos (centre p2 p3 : V3) : Option ℝ := (sphericalCos centre p2 p3).map (fun c => -1 * c)

/-- `cos_sg` of a cell with the given corners, centre `a` and centre unit vectors `ec1`, `ec2`, at its
points 0 to 8, before the values close to 1 are replaced: `calculate_supergrid_cos_sin`, geometry.py
173-206. -/
noncomputable def cellCos (sw se nw ne a ec1 ec2 : V3) : Nat → Option ℝ
  | 0 => (midpoint sw nw).bind fun m => sphericalCos m a nw
  | 1 => (midpoint sw se).bind fun m => sphericalCos m se a
  | 2 => (midpoint se ne).bind fun m => sphericalCos m a se
  | 3 => (midpoint nw ne).bind fun m => sphericalCos m nw a
  | 4 => some (sumMul ec1 ec2)
  | 5 => sphericalCos sw se nw
  | 6 => minusCos se sw ne
  | 7 => sphericalCos ne se nw
  | _ => minusCos nw sw ne

/-- The cosine and sine stored at a point, geometry.py 208-213. -/
noncomputable def cosSin (c : ℝ) : ℝ × ℝ := (snapOne c, sineOf c)

/-- The cosine and sine at point `k` of the cell with south-west corner `(i, j)` of the corners `x`; `a`
gives the cell centres. -/
noncomputable def cellTrig (x : Int → Int → V3) (a ec1 ec2 : Int → Int → V3) (k : Nat) (i j : Int) : Option (ℝ × ℝ) :=
  (cellCos (x i j) (x (i + 1) j) (x i (j + 1)) (x (i + 1) (j + 1)) (a i j) (ec1 i j) (ec2 i j) k).map cosSin

/-- `cosa` and `sina` at grid point `(i, j)`, `calculate_trig_uv`, geometry.py 336-343: the mean of point 7
of the cell to the south-west and point 5 of the cell to the north-east. -/
noncomputable def cosaSina (x : Int → Int → V3) (a ec1 ec2 : Int → Int → V3) (i j : Int) : Option (ℝ × ℝ) := do
  let p ← cellTrig x a ec1 ec2 7 (i - 1) (j - 1)
  let q ← cellTrig x a ec1 ec2 5 i j
  return (1 / 2 * (p.1 + q.1), 1 / 2 * (p.2 + q.2))

/-- `unit_x_vector` at grid point `(i, j)`, `calculate_xy_unit_vectors`, geometry.py 273-290; `west` and
`east` tell whether the point lies on the west or east side of the tile. -/
noncomputable def unitX (x : Int → Int → V3) (west east : Bool) (i j : Int) : Option V3 :=
  let c := if east then cross (x (i - 1) j) (x i j)
    else if west then cross (x i j) (x (i + 1) j)
    else cross (x (i - 1) j) (x (i + 1) j)
  normalize (cross c (x i j))

/-- `unit_y_vector`, geometry.py 292-307. -/
noncomputable def unitY (x : Int → Int → V3) (south north : Bool) (i j : Int) : Option V3 :=
  let c := if north then cross (x i (j - 1)) (x i j)
    else if south then cross (x i j) (x i (j + 1))
    else cross (x i (j - 1)) (x i (j + 1))
  normalize (cross c (x i j))

end NDSL.Sphere
