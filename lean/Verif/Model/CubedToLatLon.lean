import Verif.Model.Gnomonic
/-
Model of the conversion of winds from the cubed-sphere grid to longitude and latitude:
`ndsl/stencils/c2l_ord.py` 59-147 (`c2l_ord2`, `ord4_transform`) and 28-56 (`mock_exchange`), and the
coefficients it uses, `ndsl/grid/geometry.py` 15-61 `get_center_vector`, 206-213 (`cos_sg5`,
`sin_sg5`), 572-585 `calculate_grid_z`, `calculate_grid_a`, 872-890 `unit_vector_lonlat`.

Simplifications, in the whole file: real numbers instead of floating point numbers; `NaN` (a division by
zero) is `none`; one cell of the arrays is modelled, since all operations are point by point; the vertical
dimension is left out (every level is converted alike).
-/
namespace NDSL.Sphere
open Real

/-- `get_center_vector`, geometry.py 32-53 (grid types below 3), of a cell with the given corners.  The
values put into the corners of the halo, 55-56, are not modelled. -/
noncomputable def centerVectors (sw se nw ne : V3) : Option (V3 × V3) := do
  let c ← centre sw se nw ne
  let p1 ← midpoint sw nw
  let p2 ← midpoint se ne
  let v1 ← normalize (cross c (cross p2 p1))
  let q1 ← midpoint sw se
  let q2 ← midpoint nw ne
  let v2 ← normalize (cross c (cross q2 q1))
  return (v1, v2)

/-- `cos_sg[abs(1.0 - cos_sg) < 1e-15] = 1.0`, geometry.py 208. -/
noncomputable def snapOne (c : ℝ) : ℝ := if |1 - c| < 1 / 10 ^ 15 then 1 else c

/-- `sin_sg_tmp[sin_sg_tmp < 0] = 0.0`, geometry.py 211. -/
noncomputable def notBelow0 (t : ℝ) : ℝ := if t < 0 then 0 else t

/-- `sin_sg[sin_sg > 1.0] = 1.0`, geometry.py 213. -/
noncomputable def notAbove1 (t : ℝ) : ℝ := if t > 1 then 1 else t

/-- The sine that goes with a cosine, geometry.py 208-213. -/
noncomputable def sineOf (c : ℝ) : ℝ := notAbove1 (sqrt (notBelow0 (1 - snapOne c ^ 2)))

/-- `sin_sg5`, geometry.py 206-213. -/
noncomputable def sinSg5 (ec1 ec2 : V3) : ℝ := sineOf (sumMul ec1 ec2)

/-- `a11, a12, a21, a22` of a cell. -/
structure Mat where
  a11 : ℝ
  a12 : ℝ
  a21 : ℝ
  a22 : ℝ

/-- `calculate_grid_z`, geometry.py 572-577, and `calculate_grid_a`, 580-585. -/
noncomputable def gridA (ec1 ec2 vlon vlat : V3) : Option Mat :=
  let z11 := sumMul ec1 vlon
  let z12 := sumMul ec1 vlat
  let z21 := sumMul ec2 vlon
  let z22 := sumMul ec2 vlat
  let s := sinSg5 ec1 ec2
  if s = 0 then none
  else some ⟨1 / 2 * z22 / s, -(1 / 2) * z12 / s, -(1 / 2) * z21 / s, 1 / 2 * z11 / s⟩

/-- `agrid` at cell `(i, j)`: `lon_lat_corner_to_cell_center`, gnomonic.py 191-195, used by
`_init_agrid`, generation.py 1851-1859. -/
noncomputable def cellCentre (g : Nat → Nat → ℝ × ℝ) (i j : Nat) : Option (ℝ × ℝ) := do
  let sw ← lonLatToXyz (g i j).1 (g i j).2
  let se ← lonLatToXyz (g (i + 1) j).1 (g (i + 1) j).2
  let nw ← lonLatToXyz (g i (j + 1)).1 (g i (j + 1)).2
  let ne ← lonLatToXyz (g (i + 1) (j + 1)).1 (g (i + 1) (j + 1)).2
  let c ← centre ne sw se nw
  xyzToLonLat c

/-- `a11` to `a22` at cell `(i, j)` of a grid with the given corners, generation.py 2229-2257 (`ec1`,
`ec2`), 3154-3177 (`vlon`, `vlat`), 3202-3307. -/
noncomputable def cellA (g : Nat → Nat → ℝ × ℝ) (i j : Nat) : Option Mat := do
  let sw ← lonLatToXyz (g i j).1 (g i j).2
  let se ← lonLatToXyz (g (i + 1) j).1 (g (i + 1) j).2
  let nw ← lonLatToXyz (g i (j + 1)).1 (g i (j + 1)).2
  let ne ← lonLatToXyz (g (i + 1) (j + 1)).1 (g (i + 1) (j + 1)).2
  let ec ← centerVectors sw se nw ne
  let c ← cellCentre g i j
  gridA ec.1 ec.2 (lonVect c.1 c.2) (latVect c.1 c.2)

/-- `dx` and `dy`: `great_circle_distance_along_axis` on the corners, generation.py 1883-1903. -/
noncomputable def cellDx (radius : ℝ) (g : Nat → Nat → ℝ × ℝ) (i j : Nat) : ℝ :=
  distLonLat (g i j).1 (g (i + 1) j).1 (g i j).2 (g (i + 1) j).2 radius
noncomputable def cellDy (radius : ℝ) (g : Nat → Nat → ℝ × ℝ) (i j : Nat) : ℝ :=
  distLonLat (g i j).1 (g i (j + 1)).1 (g i j).2 (g i (j + 1)).2 radius

/-- `c2l_ord2`, c2l_ord.py 59-98, at one cell: `u0` is `u`, `uN` is `u[0, 1, 0]`, `vE` is `v[1, 0, 0]`
and so on. -/
noncomputable def ord2 (gridType : Int) (u0 uN v0 vE dx0 dxN dy0 dyE : ℝ) (a : Mat) : ℝ × ℝ :=
  if gridType < 4 then
    let u1 := 2 * (u0 * dx0 + uN * dxN) / (dx0 + dxN)
    let v1 := 2 * (v0 * dy0 + vE * dyE) / (dy0 + dyE)
    (a.a11 * u1 + a.a12 * v1, a.a21 * u1 + a.a22 * v1)
  else (1 / 2 * (u0 + uN), 1 / 2 * (v0 + vE))

/-- `A1, A2, C1, C2`, c2l_ord.py 22-25. -/
noncomputable def cA1 : ℝ := 5625 / 10000
noncomputable def cA2 : ℝ := -625 / 10000
noncomputable def cC1 : ℝ := 1125 / 1000
noncomputable def cC2 : ℝ := -125 / 1000

/-- `ord4_transform`, c2l_ord.py 101-147, at cell `(i, j)`.  `iStart`, ... are the places of the
regions, none if the rank is not at that edge of the tile (`C70`). -/
noncomputable def ord4 (gridType : Int) (iStart iEnd jStart jEnd : Option Int) (u v dx dy : Int → Int → ℝ)
    (a : Mat) (i j : Int) : ℝ × ℝ :=
  if gridType < 4 then
    let utmp := cC2 * (u i (j - 1) + u i (j + 2)) + cC1 * (u i j + u i (j + 1))
    let vtmp := cC2 * (v (i - 1) j + v (i + 2) j) + cC1 * (v i j + v (i + 1) j)
    let ue := 2 * (u i j * dx i j + u i (j + 1) * dx i (j + 1)) / (dx i j + dx i (j + 1))
    let ve := 2 * (v i j * dy i j + v (i + 1) j * dy (i + 1) j) / (dy i j + dy (i + 1) j)
    let vtmp := if jStart = some j ∨ jEnd = some j then ve else vtmp
    let utmp := if jStart = some j ∨ jEnd = some j then ue else utmp
    let utmp := if iStart = some i ∨ iEnd = some i then ue else utmp
    let vtmp := if iStart = some i ∨ iEnd = some i then ve else vtmp
    (a.a11 * utmp + a.a12 * vtmp, a.a21 * utmp + a.a22 * vtmp)
  else
    (cA2 * (u i (j - 1) + u i (j + 2)) + cA1 * (u i j + u i (j + 1)),
      cA2 * (v (i - 1) j + v (i + 2) j) + cA1 * (v i j + v (i + 1) j))

/-- `q[i0:i1, j0:j1] = q[si : si + (i1 - i0), sj : sj + (j1 - j0)]` of an array with enough points; the
right-hand side is read before anything is written. -/
def copyBlock {α : Type} (q : Int → Int → α) (i0 i1 j0 j1 si sj : Int) : Int → Int → α := fun i j =>
  if i0 ≤ i ∧ i < i1 ∧ j0 ≤ j ∧ j < j1 then q (si + (i - i0)) (sj + (j - j0)) else q i j

/-- `mock_exchange`, c2l_ord.py 28-56, with `:` replaced by all points `0 .. sizeI`, `0 .. sizeJ`. -/
def mockExchange {α : Type} (q : Int → Int → α) (isc iec isd ied jsc jec jsd jed sizeI sizeJ : Int) :
    Int → Int → α :=
  let nhalo := isc - isd
  let q := copyBlock q isd isc 0 sizeJ (iec - nhalo + 1) 0
  let q := copyBlock q (iec + 1) (ied + 1) 0 sizeJ isc 0
  let q := copyBlock q 0 sizeI jsd jsc 0 (jec - nhalo + 1)
  let q := copyBlock q 0 sizeI (jec + 1) (jed + 1) 0 jsc
  let q := copyBlock q isd isc jsd jsc (iec - nhalo + 1) (jec - nhalo + 1)
  let q := copyBlock q isd isc (jec + 1) (jed + 1) (iec - nhalo + 1) jsc
  let q := copyBlock q (iec + 1) (ied + 1) jsd jsc isc (jec - nhalo + 1)
  copyBlock q (iec + 1) (ied + 1) (jec + 1) (jed + 1) isc jsc

/-- What is wrong with a state given to `CubedToLatLon`. -/
inductive StateErr where
  | notReadable
  | keyError
  deriving DecidableEq, Repr

/-- The check of the state in `CubedToLatLon.__init__`, c2l_ord.py 239-242, for a dictionary with the given
keys (`check_for_attribute`, wrapped_halo_exchange.py 33-38), on more than one rank.  States that are
dataclasses are not modelled. -/
def checkState (keys : List (List Char)) : Except StateErr Unit :=
  if ¬(['u'] ∈ keys) ∧ ['v'] ∈ keys then .error .notReadable else .ok ()

/-- The look-up of the winds in the state at each update, wrapped_halo_exchange.py 57-61. -/
def lookWinds (keys : List (List Char)) : Except StateErr Unit :=
  if ['u'] ∈ keys ∧ ['v'] ∈ keys then .ok () else .error .keyError

/-- The conversion chosen by `order`, c2l_ord.py 204-211: `true` for the fourth order. -/
def choosesOrd4 (order : Int) : Bool := order != 2

/-- The fourth order conversion on one rank, c2l_ord.py 271-275 and 279-290, at cell `(i, j)`: the halos
are filled first.  `u[:, :-1, :]` and `v[:-1, :, :]` are views of all points but the last line. -/
noncomputable def oneRankOrd4 (gridType : Int) (iStart iEnd jStart jEnd : Option Int) (u v dx dy : Int → Int → ℝ)
    (a : Mat) (isc iec isd ied jsc jec jsd jed sizeI sizeJ : Int) (i j : Int) : ℝ × ℝ :=
  ord4 gridType iStart iEnd jStart jEnd
    (mockExchange u isc iec isd ied jsc jec jsd jed sizeI (sizeJ - 1))
    (mockExchange v isc iec isd ied jsc jec jsd jed (sizeI - 1) sizeJ) dx dy a i j

end NDSL.Sphere
