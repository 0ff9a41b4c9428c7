import Verif.Model.Masking
/-
Model of what happens to a variable before it is plotted: `_align_grid_var_dims`, `_align_plot_var_dims`, `_min_max_from_percentiles` and
`infer_cmap_params` of `ndsl/viz/fv3/_plot_helpers.py`, `_mappable_var` and `_validate_cube_shape` of `ndsl/viz/fv3/_plot_cube.py`.

An array of xarray is the names of its dimensions, their lengths and the value at each list of positions. Attributes and coordinates are left
out. Numbers are rationals, NaN is `none`; infinities are left out.
-/
namespace NDSL.PlotPrep

/-- A `DataArray`. -/
structure DArr (V : Type) where
  dims : List String
  shape : List Nat
  get : List Nat → V

/-- `da.transpose(*dims)`: names that are not just the array's are a `ValueError`. -/
def transpose {V : Type} (a : DArr V) (dims : List String) : Except Err (DArr V) :=
  if dims.isPerm a.dims then
    .ok ⟨dims, dims.map fun d => a.shape.getD (a.dims.idxOf d) 0, fun pos => a.get (a.dims.map fun d => pos.getD (dims.idxOf d) 0)⟩
  else .error .valueError

/-- The positions in an array of positions in it without the dimensions `gone`, which are at 0. -/
def putBack (gone : List String) : List String → List Nat → List Nat
  | [], _ => []
  | d :: dims, pos =>
    if gone.contains d then 0 :: putBack gone dims pos
    else
      match pos with
      | [] => []
      | i :: pos => i :: putBack gone dims pos

/-- The lengths of the dimensions that are not `gone`. -/
def takeOut {A : Type} (gone : List String) : List String → List A → List A
  | d :: dims, n :: l => if gone.contains d then takeOut gone dims l else n :: takeOut gone dims l
  | _, _ => []

/-- `da.isel({dim: 0 for dim in gone})`; a dimension of length 0 has no index 0. -/
def iselFirst {V : Type} (a : DArr V) (gone : List String) : Except Err (DArr V) :=
  if gone.any fun d => a.shape.getD (a.dims.idxOf d) 0 == 0 then .error .indexError
  else .ok ⟨a.dims.filter fun d => !gone.contains d, takeOut gone a.dims a.shape, fun pos => a.get (putBack gone a.dims pos)⟩

/-- `_align_grid_var_dims`, 6-23. Selecting on no dimensions is the same as not selecting. -/
def alignGrid {V : Type} (a : DArr V) (required : List String) : Except Err (DArr V) := do
  if required.any fun d => !a.dims.contains d then .error .valueError
  else
    let b ← iselFirst a (a.dims.filter fun d => !required.contains d)
    transpose b required

/-- `_align_plot_var_dims`, 26-36; `order` is the order in which Python gives the elements of a set. -/
def alignPlot {V : Type} (order : List String → List String) (a : DArr V) (y x : String) : Except Err (DArr V) :=
  let first := [y, x, "tile"]
  if first.any fun d => !a.dims.contains d then .error .valueError
  else transpose a (first ++ order (a.dims.filter fun d => !first.contains d))

/-- `GridMetadataFV3`, `grid_metadata.py` 12-32. -/
structure Grid where
  i : String := "i"
  j : String := "j"
  iInterface : String := "i_interface"
  jInterface : String := "j_interface"
  tile : String := "tile"
  lon : String := "lon"
  lonb : String := "lonb"
  lat : String := "lat"
  latb : String := "latb"

/-- `GridMetadataFV3.coord_vars` -/
def Grid.coordVars (g : Grid) : List (String × List String) :=
  [(g.lonb, [g.jInterface, g.iInterface, g.tile]), (g.latb, [g.jInterface, g.iInterface, g.tile]), (g.lon, [g.j, g.i, g.tile]), (g.lat, [g.j, g.i, g.tile])]

/-- The loop of `_mappable_var`, `_plot_cube.py` 255-256: the grid's variables, aligned. -/
def alignAll {V : Type} (ds : String → Option (DArr V)) : List (String × List String) → Except Err (List (String × DArr V))
  | [] => .ok []
  | (v, dims) :: l => do
    match ds v with
    | none => .error .keyError
    | some a => do
      let b ← alignGrid a dims
      let r ← alignAll ds l
      return (v, b) :: r

/-- `_mappable_var` for `GridMetadataFV3`, 254-259: the aligned grid and the aligned variable. The merge of both is left out. -/
def mappable {V : Type} (order : List String → List String) (ds : String → Option (DArr V)) (g : Grid) (name : String) :
    Except Err (List (String × DArr V) × DArr V) := do
  let grid ← alignAll ds g.coordVars
  match ds name with
  | none => .error .keyError
  | some a => do
    let v ← alignPlot order a g.j g.i
    return (grid, v)

/-- `shape[-1]` -/
def last (s : List Nat) : Except Err Nat :=
  match s.getLast? with
  | none => .error .indexError
  | some n => .ok n

/-- `shape[k]` -/
def item (s : List Nat) (k : Nat) : Except Err Nat :=
  match s[k]? with
  | none => .error .indexError
  | some n => .ok n

/-- `if a != b or ...: raise`: one comparison of a chain; the values are looked up in order. -/
def differ (a b : Except Err Nat) : Except Err Unit := do
  let x ← a
  let y ← b
  if x = y then return () else .error .valueError

/-- `_validate_cube_shape`, `_plot_cube.py` 436-474. -/
def validateShapes (lat lon latb lonb array : List Nat) : Except Err Unit := do
  differ (last lon) (.ok 6)
  differ (last lat) (.ok 6)
  differ (last array) (.ok 6)
  differ (item lon 0) (item lat 0)
  differ (item lat 0) (item array 0)
  differ (item lon 1) (item lat 1)
  differ (item lat 1) (item array 1)
  differ (.ok lonb.length) (.ok 3)
  differ (.ok latb.length) (.ok 3)
  differ (.ok array.length) (.ok 3)
  differ (last lonb) (.ok 6)
  differ (last latb) (.ok 6)
  differ (last array) (.ok 6)
  differ (item lonb 0) (item latb 0)
  differ (item latb 0) ((item array 0).map (· + 1))
  differ (item lonb 1) (item latb 1)
  differ (item latb 1) ((item array 1).map (· + 1))
  differ (.ok lon.length) (.ok 3)
  differ (.ok lat.length) (.ok 3)
  differ (.ok array.length) (.ok 3)

/-- `np.percentile(x, q)` of sorted numbers, with linear interpolation between the two next to place `q / 100 * (n - 1)`. -/
def percentile (x : List ℚ) (q : ℚ) : ℚ :=
  let v := q / 100 * ((x.length : ℚ) - 1)
  let lo := v.floor.toNat
  let hi := if lo + 1 < x.length then lo + 1 else x.length - 1
  x.getD lo 0 + (v - lo) * (x.getD hi 0 - x.getD lo 0)

/-- `np.sort` -/
def sorted (x : List ℚ) : List ℚ := x.mergeSort fun a b => decide (a ≤ b)

/-- `_min_max_from_percentiles`, 39-58; `none` is NaN for both. -/
def minMax (data : List (Option ℚ)) (p q : ℚ) : Option (ℚ × ℚ) :=
  let x := data.filterMap id
  if x.length = 0 then none else some (percentile (sorted x) p, percentile (sorted x) q)

/-- `np.nanmin(data), np.nanmax(data)`: NaN for both when there is nothing but NaN, a `ValueError` when there is nothing. -/
def nanMinMax (data : List (Option ℚ)) : Except Err (Option (ℚ × ℚ)) :=
  match data, data.filterMap id with
  | [], _ => .error .valueError
  | _, [] => .ok none
  | _, x :: l => .ok (some (l.foldl (fun a b => if b < a then b else a) x, l.foldl (fun a b => if a < b then b else a) x))

/-- `infer_cmap_params`, 152-178, for data with some number (with NaN for both the limits are NaN, which is left out: `none`). -/
def inferCmap (data : List (Option ℚ)) (vmin vmax : Option ℚ) (cmap : Option String) (robust : Bool) : Except Err (Option (ℚ × ℚ × String)) := do
  let m ← if robust then .ok (minMax data 2 98) else nanMinMax data
  match m with
  | none => return none
  | some (lo, hi) => return some (← Masking.colorLimits lo hi vmin vmax cmap)

end NDSL.PlotPrep
