import Verif.Model.Segments
import Mathlib.Algebra.Order.Ring.Rat
import Mathlib.Algebra.Field.Rat
/-
Model of the longitudes of plots on the cube and of their colours: `_mask_antimeridian_quads`, `_periodic_equal_or_less_than`,
`_periodic_greater_than` and `_periodic_difference` (`ndsl/viz/fv3/_masking.py` 4-117), `center_longitudes` and
`_pcolormesh_cube_all_handles` (`ndsl/viz/fv3/_plot_cube.py` 298-321, 428-433), `_infer_color_limits`
(`ndsl/viz/fv3/_plot_helpers.py` 61-125).

Simplifications: numbers are rationals; a missing value is `none`. Arrays of a tile are functions of row and column; the
exchange of all axes before and after the mask (`lon.T`, `array.T`, `.T`) is left out since it undoes itself. The colours of
a drawn mesh are left out.
-/
namespace NDSL.Masking
open NDSL.Segments (Mat Piece allSegments)

/-- `abs` -/
def absQ (x : ℚ) : ℚ := if x < 0 then -x else x

/-- `x % p` of Python, for positive `p`. -/
def pyMod (x p : ℚ) : ℚ := x - p * (x / p).floor

/-- `_periodic_equal_or_less_than`, _masking.py 49-71. -/
def periodicLe (x1 x2 period : ℚ) : Bool :=
  if absQ (x1 - x2) ≤ period / 2 then decide (x1 - x2 ≤ 0)
  else if x1 - x2 ≥ 0 then decide (x1 - (x2 + period) ≤ 0)
  else decide ((x1 + period) - x2 ≤ 0)

/-- `_periodic_greater_than`, _masking.py 74-96. -/
def periodicGt (x1 x2 period : ℚ) : Bool :=
  if absQ (x1 - x2) ≤ period / 2 then decide (x1 - x2 > 0)
  else if x1 - x2 ≥ 0 then decide (x1 - (x2 + period) > 0)
  else decide ((x1 + period) - x2 > 0)

/-- `_periodic_difference`, _masking.py 99-117. -/
def periodicDiff (x1 x2 period : ℚ) : ℚ :=
  if absQ (x1 - x2) ≤ period / 2 then x1 - x2
  else if x1 - x2 ≥ 0 then x1 - (x2 + period)
  else (x1 + period) - x2

/-- `(central_longitude + 180.0) % 360.0`, _masking.py 30, _plot_cube.py 430. -/
def antimeridian (central : ℚ) : ℚ := pyMod (central + 180) 360

/-- `vertices`, _masking.py 37-38: the four corners of a cell. -/
def vertices (lon : Mat ℚ) (i j : Nat) : List ℚ :=
  [lon.get i j, lon.get (i + 1) j, lon.get i (j + 1), lon.get (i + 1) (j + 1)]

/-- `mask`, _masking.py 31-45: whether the cell is kept. Only the first six tiles are looked at. -/
def keep (am : ℚ) (tile : Nat) (lon : Mat ℚ) (i j : Nat) : Bool :=
  if tile < 6 then
    !(decide ((vertices lon i j).countP (fun v => periodicLe v am 360) ≠ 4) &&
      decide ((vertices lon i j).countP (fun v => periodicGt v am 360) ≠ 4) &&
      decide ((vertices lon i j).countP (fun v => decide (periodicDiff v am 360 < 90)) = 4))
  else true

/-- `center_longitudes`, _plot_cube.py 428-433. -/
def center (central x : ℚ) : ℚ := if x < antimeridian central then x else x - 360

/-- A tile as given: latitudes and longitudes of the corners and values. -/
structure Tile (V : Type) where
  lat : Mat ℚ
  lon : Mat ℚ
  array : Mat (Option V)

/-- One tile, _plot_cube.py 306-308 and 318-320: the values of the cells that are kept, with centred longitudes; `lon` is
handed on as `x`. -/
def plotTile {V : Type} (central : ℚ) (k : Nat) (t : Tile V) : Piece ℚ V :=
  ({ t.lon with get := fun i j => center central (t.lon.get i j) }, t.lat,
    { t.array with get := fun i j => if keep (antimeridian central) k t.lon i j then t.array.get i j else none })

/-- `_pcolormesh_cube_all_handles`, _plot_cube.py 298-321: what is drawn. The loop over six tiles indexes `lonb`. -/
def draw {V : Type} (fuel : Nat) (central : ℚ) (tiles : List (Tile V)) : Except Err (Option (List (Piece ℚ V))) :=
  if tiles.length < 6 then .error .indexError
  else .ok (allSegments fuel (tiles.zipIdx.map fun t => plotTile central t.2 t.1))

/-! ### Colours -/

/-- `np.max([np.abs(xmin), np.abs(xmax)])`, _plot_helpers.py 103. -/
def vabsMax (xmin xmax : ℚ) : ℚ := if absQ xmin < absQ xmax then absQ xmax else absQ xmin

/-- `default if not cmap else cmap` -/
def orElse (cmap : Option String) (default : String) : String :=
  match cmap with
  | some c => if c = "" then default else c
  | none => default

/-- `not cmap` -/
def noCmap : Option String → Bool
  | some c => c = ""
  | none => true

/-- `_infer_color_limits`, _plot_helpers.py 61-125. -/
def colorLimits (xmin xmax : ℚ) : Option ℚ → Option ℚ → Option String → Except Err (ℚ × ℚ × String)
  | none, none, cmap =>
    if xmin < 0 ∧ xmax > 0 then .ok (-(vabsMax xmin xmax), vabsMax xmin xmax, orElse cmap "RdBu_r")
    else .ok (xmin, xmax, orElse cmap "viridis")
  | none, some vmax, cmap =>
    if xmin < 0 ∧ vmax > 0 then .ok (-vmax, vmax, orElse cmap "RdBu_r")
    else .ok (xmin, vmax, orElse cmap "viridis")
  | some vmin, none, cmap =>
    if xmax > 0 ∧ vmin < 0 then .ok (vmin, -vmin, orElse cmap "RdBu_r")
    else .ok (vmin, xmax, orElse cmap "viridis")
  | some vmin, some vmax, cmap =>
    if noCmap cmap then .ok (vmin, vmax, if vmin = -vmax then "RdBu_r" else "viridis")
    else .error .valueError

end NDSL.Masking
