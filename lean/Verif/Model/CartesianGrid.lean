import Mathlib.Algebra.Field.Defs
import Mathlib.Order.Defs.LinearOrder
import Verif.Model.DerivedTerms
import Verif.Model.EdgeFactors
/-
Model of the doubly periodic grid, `grid_type = 4`, of `ndsl/grid/generation.py`: the choice of the grid in `MetricTerms.__init__`
403-447, `_init_cartesian` 1669-1702 and the `_cartesian` variants of the terms.

Simplifications: numbers are in a field, NaN is `none`; casts from 64 bits to the precision of the model are not modelled; all
arrays of a rank have the same shape, as `QuantityFactory` allocates them (C35, C98).
-/
namespace NDSL.Cartesian
open NDSL.Edges (Place sliceLen assignOk)
open NDSL.Deriv (Arr Sl OnTile Consts full divgDel6)

/-- The grids that `grid_type` stands for, 403-447. -/
inductive Kind where
  | cartesian
  | cubedSphere
  deriving DecidableEq, Repr

def kindOf (gridType : Int) : Except Err Kind :=
  if gridType = 4 then .ok .cartesian
  else if gridType < 3 then .ok .cubedSphere
  else .error .notImplemented

variable {K : Type}

/-- The parameters of the grid: `dx_const`, `dy_const`, `deglat`, and the numbers π. -/
structure Params (K : Type) where
  dx : K
  dy : K
  deglat : K
  pi : K

/-- `isg`, `ieg`, `isl`, `iel`, 1679-1684, along one axis (1686-1691 along the other). -/
structure Window where
  g : Int
  gEnd : Int
  l : Int
  lEnd : Int

def windowOf (halo : Int) (s : Slice) (np : Int) : Window :=
  let isd := s.start - halo
  let ied := s.stop + halo
  let isg := max isd 0
  let ieg := min ied np
  let isl := isg - isd
  ⟨isg, ieg, isl, isl + ieg - isg⟩

/-- `rad + (I / (np - 1) - 0.5) * domain_rad`, 1693-1699. -/
def coord [Field K] (domain rad : K) (np I : Int) : K := rad + ((I : K) / ((np - 1 : Int) : K) - 1 / 2) * domain

/-- `_grid_64` after `_init_cartesian`, 1669-1699, in an array of `n0` by `n1` corners: longitude and latitude. -/
def initGrid [Field K] (c : Params K) (halo : Int) (pl : Place) (npx npy n0 n1 : Int) : Except Err (Arr (Option (K × K))) :=
  let domain := c.pi / 16
  let lat := c.deglat * c.pi / 180
  let wx := windowOf halo pl.x npx
  let wy := windowOf halo pl.y npy
  if assignOk (sliceLen n0 wx.l wx.lEnd) (wx.gEnd - wx.g) = true ∧ assignOk (sliceLen n1 wy.l wy.lEnd) (wy.gEnd - wy.g) = true then
    .ok ⟨n0, n1, fun i j =>
      if wx.l ≤ i ∧ i < wx.lEnd ∧ wy.l ≤ j ∧ j < wy.lEnd then
        some (coord domain 0 npx (wx.g + (i - wx.l)), coord domain lat npy (wy.g + (j - wy.l)))
      else none⟩
  else .error .valueError

/-- `_agrid_64`, 1701-1702 -/
def initAgrid [Field K] (c : Params K) (n0 n1 : Int) : Arr (K × K) := full n0 n1 (0, c.deglat * c.pi / 180)

/-- A vector with three components. -/
abbrev Vec (K : Type) := Nat → K

/-- The vector of an axis, `a[:, :, k] = 1.0` in an array of zeros. -/
def unit [Zero K] [One K] (k : Nat) : Vec K := fun l => if l = k then 1 else 0

/-- The terms that are constant: `_compute_dxdy_cartesian` 1924-1946, `_compute_dxdy_agrid_cartesian` 1997-2017,
`_compute_dxdy_center_cartesian` 2094-2116, `_compute_area_cartesian` 2137-2145, `_compute_area_c_cartesian` 2191-2199,
`_calculate_center_vectors_cartesian` 2259-2279, `_calculate_vectors_west_cartesian` 2310-2328,
`_calculate_vectors_south_cartesian` 2357-2373, `_init_cell_trigonometry_cartesian` 2682-2788. -/
structure Terms (K : Type) where
  dx : Arr K
  dy : Arr K
  dxa : Arr K
  dya : Arr K
  dxc : Arr K
  dyc : Arr K
  area : Arr K
  areaC : Arr K
  ec1 : Arr (Vec K)
  ec2 : Arr (Vec K)
  ew1 : Arr (Vec K)
  ew2 : Arr (Vec K)
  es1 : Arr (Vec K)
  es2 : Arr (Vec K)
  cosSg : Nat → Arr K
  sinSg : Nat → Arr K
  cosa : Arr K
  sina : Arr K
  cosaU : Arr K
  cosaV : Arr K
  cosaS : Arr K
  sinaU : Arr K
  sinaV : Arr K
  rsinU : Arr K
  rsinV : Arr K
  rsina : Arr K
  rsin2 : Arr K

def terms [Field K] (c : Params K) (n0 n1 : Int) : Terms K where
  dx := full n0 n1 c.dx
  dy := full n0 n1 c.dy
  dxa := full n0 n1 c.dx
  dya := full n0 n1 c.dy
  dxc := full n0 n1 c.dx
  dyc := full n0 n1 c.dy
  area := full n0 n1 (c.dx * c.dy)
  areaC := full n0 n1 (c.dx * c.dy)
  ec1 := full n0 n1 (unit 0)
  ec2 := full n0 n1 (unit 1)
  ew1 := full n0 n1 (unit 0)
  ew2 := full n0 n1 (unit 1)
  es1 := full n0 n1 (unit 0)
  es2 := full n0 n1 (unit 1)
  cosSg := fun _ => full n0 n1 0
  sinSg := fun _ => full n0 n1 1
  cosa := full n0 n1 0
  sina := full n0 n1 1
  cosaU := full n0 n1 0
  cosaV := full n0 n1 0
  cosaS := full n0 n1 0
  sinaU := full n0 n1 1
  sinaV := full n0 n1 1
  rsinU := full n0 n1 1
  rsinV := full n0 n1 1
  rsina := full n0 n1 1
  rsin2 := full n0 n1 1

/-- `rarea`, `rdx` and so on, 1544-1667. -/
def recip [Field K] (a : Arr K) : Arr K := a.map fun x => 1 / x

/-- `_calculate_divg_del6`, 3015-3087, for this grid: `del6_u`, `del6_v`, `divg_u`, `divg_v`; no halo update. -/
def divg [Field K] [LinearOrder K] (C : Consts K) (halo : Int) (on : OnTile) (t : Terms K) (n0 n1 : Int) :
    Except Err (Arr K × Arr K × Arr K × Arr K) := do
  let cut := Sl.span 0 1
  let s : Arr (Nat → K) := ⟨cut.len n0, cut.len n1, fun i j k => (t.sinSg (k + 1)).get i j⟩
  let r ← divgDel6 C halo on s (t.sinaU.cut Sl.all cut) (t.sinaV.cut cut Sl.all) (t.dx.cut cut Sl.all) (t.dy.cut Sl.all cut)
    (t.dxc.cut Sl.all cut) (t.dyc.cut cut Sl.all)
  let divgU ← (full n0 n1 0).put cut Sl.all r.1
  let divgV ← (full n0 n1 0).put Sl.all cut r.2.1
  let del6U ← (full n0 n1 0).put cut Sl.all r.2.2.1
  let del6V ← (full n0 n1 0).put Sl.all cut r.2.2.2
  return (del6U, del6V, divgU, divgV)

/-! ### Terms that are not numbers -/

/-- Arithmetic with NaN. -/
def nan2 (f : K → K → K) : Option K → Option K → Option K
  | some x, some y => some (f x y)
  | _, _ => none

/-- `np.sum(e * v, axis=-1)` of three components, geometry.py 572-577. -/
def sumProd [Field K] (e : Vec K) (v : Nat → Option K) : Option K :=
  nan2 (· + ·) (nan2 (· + ·) (nan2 (· * ·) (some (e 0)) (v 0)) (nan2 (· * ·) (some (e 1)) (v 1))) (nan2 (· * ·) (some (e 2)) (v 2))

/-- `vlon` and `vlat`, `_calculate_unit_vectors_lonlat_cartesian` 3179-3200 -/
def vlonLat (_ : Nat) : Option K := none

/-- `z11`, `z12`, `z21`, `z22`, 3202-3255: those of a cell. -/
def gridZ [Field K] (t : Terms K) (i j : Int) : Option K × Option K × Option K × Option K :=
  (sumProd (t.ec1.get i j) vlonLat, sumProd (t.ec1.get i j) vlonLat, sumProd (t.ec2.get i j) vlonLat, sumProd (t.ec2.get i j) vlonLat)

/-- `a11`, `a12`, `a21`, `a22`, 3257-3306 and geometry.py 580-585 -/
def gridA [Field K] (t : Terms K) (i j : Int) : Option K × Option K × Option K × Option K :=
  let z := gridZ t i j
  let s := some ((t.sinSg 5).get i j)
  let part := fun (f : K) (x : Option K) => nan2 (· / ·) (nan2 (· * ·) (some f) x) s
  (part (1 / 2) z.2.2.2, part (-(1 / 2)) z.2.1, part (-(1 / 2)) z.2.2.1, part (1 / 2) z.1)

end NDSL.Cartesian
