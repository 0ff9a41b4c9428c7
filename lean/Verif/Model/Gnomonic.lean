import Verif.Model.Sphere
/-
Model of the generation of the cubed-sphere grid:
`ndsl/grid/gnomonic.py` 22-153 `local_gnomonic_ed` (one rank), 266-311 `_cart_to_latlon`,
`_mirror_latlon`; `ndsl/grid/global_setup.py` 16-91 `gnomonic_grid`, `global_gnomonic_ed` (a whole tile);
`ndsl/grid/mirror.py` 9-277 `mirror_grid`, `_rot_3d`.

Simplifications, in the whole file: real numbers instead of floating point numbers (so there is no
signed zero and `3 ** -0.5` is the inverse of the root of three); an array is a function of its indices,
and the value an index holds at the end is given by the last assignment to it; the tests of
`_check_shapes` are left out (the arrays are square).
-/
namespace NDSL.Sphere
open Real

/-- `3**-0.5` -/
noncomputable def rt : ℝ := 1 / sqrt 3

/-- `np.arcsin(3**-0.5)`, gnomonic.py 42 and global_setup.py 44. -/
noncomputable def alpha : ℝ := arcsin rt

/-- `lat_tile_east_west_edge(alpha, dely, index)`, gnomonic.py 22-23 with `dely` of 44; also
global_setup.py 45 and 51.  `n` is the number of cells along a tile edge. -/
noncomputable def edgeLat (n : Nat) (k : Int) : ℝ := -alpha + 2 * alpha / n * k

/-- `_latlon2xyz`, gnomonic.py 243-248; `NaN` never occurs here (`lonLatToXyz_eq`). -/
noncomputable def toXyz (lon lat : ℝ) : V3 := (lonLatToXyz lon lat).getD ⟨0, 0, 0⟩

/-- One point of `_cart_to_latlon`, gnomonic.py 266-290; `NaN` only for the zero vector. -/
noncomputable def toLonLat (p : V3) : ℝ × ℝ := (xyzToLonLat p).getD (0, 0)

/-- `_mirror_latlon`, gnomonic.py 293-311. -/
noncomputable def mirrorLatlon (lon1 lat1 lon2 lat2 lon0 lat0 : ℝ) : ℝ × ℝ :=
  let p0 := toXyz lon0 lat0
  let p1 := toXyz lon1 lat1
  let p2 := toXyz lon2 lat2
  let nb := cross p1 p2
  let pdot := sqrt (nb.x ^ 2 + nb.y ^ 2 + nb.z ^ 2)
  let nb : V3 := ⟨nb.x / pdot, nb.y / pdot, nb.z / pdot⟩
  let pdot := p0.x * nb.x + p0.y * nb.y + p0.z * nb.z
  toLonLat ⟨p0.x - 2 * pdot * nb.x, p0.y - 2 * pdot * nb.y, p0.z - 2 * pdot * nb.z⟩

/-- "map edges on the sphere back to cube: intersection at x = -1/sqrt(3)", gnomonic.py 88-98 and
104-115, global_setup.py 69-80; the first component is kept. -/
noncomputable def toCube (p : V3) : V3 := ⟨p.x, -p.y * rt / p.x, -p.z * rt / p.x⟩

/-! ### A whole tile: `global_gnomonic_ed` -/

/-- The south edge by symmetry, global_setup.py 56-60. -/
noncomputable def globalSouth (n : Nat) (i : Nat) : ℝ × ℝ :=
  mirrorLatlon (3 / 4 * π) (edgeLat n 0) (5 / 4 * π) (edgeLat n n) (3 / 4 * π) (edgeLat n i)

/-- `pp[:, 0, j]`, global_setup.py 63-72: the corners, and the west edge between them. -/
noncomputable def globalPpWest (n : Nat) (j : Nat) : V3 :=
  if j = 0 then toXyz (3 / 4 * π) (edgeLat n 0)
  else if j = n then toXyz (3 / 4 * π) (edgeLat n n)
  else toCube (toXyz (3 / 4 * π) (edgeLat n j))

/-- `pp[:, i, 0]`, global_setup.py 63-66 and 76-80: the corners, and the south edge between them. -/
noncomputable def globalPpSouth (n : Nat) (i : Nat) : V3 :=
  if i = 0 then toXyz (3 / 4 * π) (edgeLat n 0)
  else if i = n then toXyz (5 / 4 * π) (edgeLat n 0)
  else toCube (toXyz (globalSouth n i).1 (globalSouth n i).2)

/-- `pp` at the end, global_setup.py 82-87. -/
noncomputable def globalPp (n : Nat) (i j : Nat) : V3 :=
  ⟨-rt,
    if i = 0 then (globalPpWest n j).y else (globalPpSouth n i).y,
    if i = 0 then (globalPpWest n j).z
    else if j = 0 then (globalPpSouth n i).z else (globalPpWest n j).z⟩

/-- `gnomonic_grid`, global_setup.py 16-38, for grid type 0: longitude and latitude of corner `(i, j)` of
a tile of `n` by `n` cells. -/
noncomputable def globalGrid (n : Nat) (i j : Nat) : ℝ × ℝ :=
  ((toLonLat (globalPp n i j)).1 - π, (toLonLat (globalPp n i j)).2)

/-! ### One rank: `local_gnomonic_ed` -/

/-- The arguments of `local_gnomonic_ed`: `n` is `npx - 1`, `im` the number of cells of the rank along
an axis, `gis` and `gjs` are `global_is` and `global_js`. -/
structure Local where
  n : Nat
  im : Nat
  west : Bool
  east : Bool
  south : Bool
  north : Bool
  gis : Int
  gjs : Int

namespace Local
variable (c : Local)

/-- `lon_south_tile_edge`, `lat_south_tile_edge`, gnomonic.py 72-91. -/
noncomputable def southEdge (i : Nat) : ℝ × ℝ :=
  if (if c.west then 1 else 0) ≤ i ∧ i < (if c.east then c.im else c.im + 1) then
    mirrorLatlon (3 / 4 * π) (edgeLat c.n 0) (5 / 4 * π) (edgeLat c.n c.n) (3 / 4 * π)
      (edgeLat c.n (c.gis - 3 + i))
  else if c.east ∧ i = c.im then (5 / 4 * π, edgeLat c.n (c.gjs - 3))
  else (0, 0)

/-- `pp_west_tile_edge` before the corners are set, gnomonic.py 93-104. -/
noncomputable def rawWest (j : Nat) : V3 := toCube (toXyz (3 / 4 * π) (edgeLat c.n (c.gjs - 3 + j)))

/-- `pp_south_tile_edge` before the corners are set, gnomonic.py 108-119. -/
noncomputable def rawSouth (i : Nat) : V3 := toCube (toXyz (c.southEdge i).1 (c.southEdge i).2)

/-- `pp_west_tile_edge` after 124-138. -/
noncomputable def ppWest (j : Nat) : V3 :=
  if c.north ∧ j = c.im then toXyz (3 / 4 * π) (edgeLat c.n c.n)
  else if c.south ∧ j = 0 then toXyz (3 / 4 * π) (edgeLat c.n 0)
  else c.rawWest j

/-- `pp_south_tile_edge` after 124-134. -/
noncomputable def ppSouth (i : Nat) : V3 :=
  if c.east ∧ i = c.im then toXyz (5 / 4 * π) (edgeLat c.n 0)
  else if c.west ∧ i = 0 then toXyz (3 / 4 * π) (edgeLat c.n 0)
  else c.rawSouth i

/-- `pp` at the end, gnomonic.py 105-106, 120-129 and 139-147: the loop of 142-147 assigns the points
with `i >= start_i` and `j >= start_j`, the others keep what 105-129 gave them. -/
noncomputable def pp (i j : Nat) : V3 :=
  if (if c.west then 1 else 0) ≤ i ∧ (if c.south then 1 else 0) ≤ j then
    ⟨-rt, (c.ppSouth i).y, (c.ppWest j).z⟩
  else if c.south ∧ j = 0 then
    if c.west ∧ i = 0 then ⟨-rt, (toXyz (3 / 4 * π) (edgeLat c.n 0)).y, (toXyz (3 / 4 * π) (edgeLat c.n 0)).z⟩
    else ⟨-rt, (c.rawSouth i).y, (c.rawSouth i).z⟩
  else ⟨-rt, (c.rawWest j).y, (c.rawWest j).z⟩

/-- `local_gnomonic_ed`, gnomonic.py 26-153. -/
noncomputable def grid (i j : Nat) : ℝ × ℝ := ((toLonLat (c.pp i j)).1 - π, (toLonLat (c.pp i j)).2)

end Local

/-! ### Mirroring and rotation: `mirror_grid` -/

/-- `np.copysign(x, y)` -/
noncomputable def copysign (x y : ℝ) : ℝ := if y < 0 then -|x| else |x|

/-- The average over the four mirrored points, mirror.py 43-64, one component. -/
noncomputable def mirrorMean (loc ew ns diag : ℝ) : ℝ :=
  copysign (1 / 4 * (|loc| + |ew| + |ns| + |diag|)) loc

/-- `_spherical_to_cartesian`, mirror.py 250-258. -/
noncomputable def sphToCart (rightHand : Bool) (lon lat r : ℝ) : V3 :=
  ⟨r * cos lon * cos lat, r * sin lon * cos lat, if rightHand then r * sin lat else -r * sin lat⟩

/-- `_cartesian_to_spherical`, mirror.py 261-269. -/
noncomputable def cartToSph (rightHand : Bool) (p : V3) : ℝ × ℝ × ℝ :=
  let r := sqrt (p.x * p.x + p.y * p.y + p.z * p.z)
  (if |p.x| + |p.y| < 1 / 10 ^ 10 then 0 else arctan2 p.y p.x,
    if rightHand then arcsin (p.z / r) else arccos (p.z / r) - π / 2, r)

/-- The three rotations of `_rot_3d`, mirror.py 222-241. -/
inductive Axis | one | two | three
  deriving DecidableEq

noncomputable def rotate (ax : Axis) (angle : ℝ) (p : V3) : V3 :=
  let c := cos angle
  let s := sin angle
  match ax with
  | .one => ⟨p.x, c * p.y + s * p.z, -s * p.y + c * p.z⟩
  | .two => ⟨c * p.x - s * p.z, p.y, s * p.x + c * p.z⟩
  | .three => ⟨c * p.x + s * p.y, -s * p.x + c * p.y, p.z⟩

/-- `_rot_3d(axis, p, angle, ..., degrees=True, convert=True)`, mirror.py 215-247. -/
noncomputable def rot3d (rightHand : Bool) (ax : Axis) (degrees : ℝ) (p : ℝ × ℝ × ℝ) : ℝ × ℝ × ℝ :=
  cartToSph rightHand (rotate ax (degrees * π / 180) (sphToCart rightHand p.1 p.2.1 p.2.2))

/-- The rotations of each tile, mirror.py 79-195: axis and angle. -/
noncomputable def tileRotations : Nat → List (Axis × ℝ)
  | 1 => [(.three, -90)]
  | 2 => [(.three, -90), (.one, 90)]
  | 3 => [(.three, -180), (.one, 90)]
  | 4 => [(.three, 90), (.two, 90)]
  | 5 => [(.two, 90), (.three, 0)]
  | _ => []

/-- The rotations applied to one point of a tile, mirror.py 72-195, before the corrections for the
meridians; `radius` is `RADIUS` of `ndsl/constants.py`, 76. -/
noncomputable def rotateTile (rightHand : Bool) (radius : ℝ) (tile : Nat) (p : ℝ × ℝ) : ℝ × ℝ :=
  let out := (tileRotations tile).foldl (fun q r => rot3d rightHand r.1 r.2 q) (p.1, p.2, radius)
  if tile = 0 then p else (out.1, out.2.1)

/-- The arguments of `mirror_grid`, mirror.py 9-21, as `ndsl/grid/generation.py` 1821-1834 gives them:
`n` is `npx - 1` and `npy - 1`, `w` the number of cells of the rank along an axis (`x_subtile_width` and
`y_subtile_width` are `w + 1`), `gis` and `gjs` are `global_is` and `global_js`, and `ng` is 3.  Indices
below start at the first corner of the rank. -/
structure Mirror where
  n : Nat
  w : Nat
  gis : Int
  gjs : Int
  tile : Nat
  rightHand : Bool
  radius : ℝ

namespace Mirror
variable (m : Mirror)

/-- `x_center_tile`, mirror.py 26-29; `y_center_tile`, 30-33. -/
def xCentre : Bool := decide (2 * m.gis ≤ 2 * 3 + m.n) && decide (2 * (m.gis + (m.w + 1)) > 2 * 3 + m.n)
def yCentre : Bool := decide (2 * m.gjs ≤ 2 * 3 + m.n) && decide (2 * (m.gjs + (m.w + 1)) > 2 * 3 + m.n)

/-- `i_mid`, `j_mid`, mirror.py 35-36. -/
def iMid : Int := (m.n + 1 : Nat) / 2 - m.gis + 3
def jMid : Int := (m.n + 1 : Nat) / 2 - m.gjs + 3

/-- `npx % 2 != 0` -/
def odd : Bool := (m.n + 1) % 2 != 0

/-- The base region, mirror.py 38-70: the mean of the four mirrored grids, and longitude 0 on the
middle line.  (The zero written to the north-south grid, 70, is not read again.) -/
noncomputable def base (loc ew ns diag : Nat → Nat → ℝ × ℝ) (i j : Nat) : ℝ × ℝ :=
  let x := mirrorMean (loc i j).1 (ew (m.w - i) j).1 (ns i (m.w - j)).1 (diag (m.w - i) (m.w - j)).1
  let y := mirrorMean (loc i j).2 (ew (m.w - i) j).2 (ns i (m.w - j)).2 (diag (m.w - i) (m.w - j)).2
  (if m.odd && m.xCentre && decide ((i : Int) = m.iMid) then 0 else x, y)

/-- "force North Pole and dateline/Greenwich-Meridian consistency", mirror.py 111-128. -/
noncomputable def fix2 (i j : Nat) (p : ℝ × ℝ) : ℝ × ℝ :=
  if m.odd then
    let p := if decide ((j : Int) = m.jMid) && m.xCentre && m.yCentre && decide (m.iMid = m.jMid) &&
        decide ((i : Int) = m.iMid) then (0, π / 2) else p
    if decide ((j : Int) = m.jMid) && m.yCentre then
      if m.xCentre then (if (i : Int) < m.iMid + 1 then 0 else π, p.2)
      else if 2 * (m.gis + m.iMid) < 2 * 3 + m.n then (0, p.2)
      else if 2 * (m.gis + m.iMid) > 2 * 3 + m.n then (π, p.2)
      else p
    else p
  else p

/-- "force dateline/Greenwich-Meridian consistency", mirror.py 150-153. -/
noncomputable def fix3 (_i j : Nat) (p : ℝ × ℝ) : ℝ × ℝ :=
  if m.odd then
    if decide ((j : Int) = m.jMid) && m.yCentre then (π, p.2) else p
  else p

/-- "force South Pole and dateline/Greenwich-Meridian consistency", mirror.py 196-209.  The `i` of 199 is
what the loops of 39-40 left: `iend`, that is `ng + w + 1`. -/
noncomputable def fix5 (i _j : Nat) (p : ℝ × ℝ) : ℝ × ℝ :=
  if m.odd then
    let p := if decide ((m.w + 1 : Int) = m.iMid) && m.xCentre && m.yCentre && decide (m.iMid = m.jMid) &&
        decide ((i : Int) = m.iMid) then (0, -π / 2) else p
    if decide (2 * (m.gjs + m.jMid) > 2 * 3 + m.n) && m.xCentre then
      (if (i : Int) = m.iMid then 0 else p.1, p.2)
    else if decide (2 * (m.gjs + m.jMid) < 2 * 3 + m.n) && m.xCentre then
      (if (i : Int) = m.iMid then π else p.1, p.2)
    else p
  else p

/-- `mirror_grid`, mirror.py 9-212: longitude and latitude of corner `(i, j)` of the rank. -/
noncomputable def grid (loc ew ns diag : Nat → Nat → ℝ × ℝ) (i j : Nat) : ℝ × ℝ :=
  let p := rotateTile m.rightHand m.radius m.tile (m.base loc ew ns diag i j)
  match m.tile with
  | 2 => m.fix2 i j p
  | 3 => m.fix3 i j p
  | 5 => m.fix5 i j p
  | _ => p

end Mirror

/-- `_init_dgrid`, `ndsl/grid/generation.py` 1712-1834: the grid of a rank at block `(bi, bj)` of a
layout of `l` by `l` blocks of `w` by `w` cells (`local_gnomonic_ed` wants square ranks), tile `tile`;
before the shift of 1836-1844.  `on_tile_left` and so on say whether the block is the first or last. -/
noncomputable def rankGrid (radius : ℝ) (l w tile bi bj : Nat) : Nat → Nat → ℝ × ℝ :=
  let west := bi == 0
  let east := bi + 1 == l
  let south := bj == 0
  let north := bj + 1 == l
  let gis : Int := 3 + bi * w
  let gjs : Int := 3 + bj * w
  let ewGis : Int := 3 + (l - bi - 1) * w
  let nsGjs : Int := 3 + (l - bj - 1) * w
  let loc : Local := ⟨l * w, w, west, east, south, north, gis, gjs⟩
  let ew : Local := ⟨l * w, w, east, west, south, north, ewGis, gjs⟩
  let ns : Local := ⟨l * w, w, west, east, north, south, gis, nsGjs⟩
  let diag : Local := ⟨l * w, w, east, west, north, south, ewGis, nsGjs⟩
  Mirror.grid ⟨l * w, w, gis, gjs, tile, false, radius⟩ loc.grid ew.grid ns.grid diag.grid

/-- The shift of `_init_dgrid`, generation.py 1836-1844, of one point. -/
noncomputable def shift (p : ℝ × ℝ) : ℝ × ℝ :=
  let lon := p.1 - π / 18
  let lon := if lon < 0 then lon + 2 * π else lon
  (if |lon| < 1 / 10 ^ 10 then 0 else lon, if |p.2| < 1 / 10 ^ 10 then 0 else p.2)

/-- `get_area`, `ndsl/grid/gnomonic.py` 374-387, at cell `(i, j)`, from the longitudes and latitudes of
the corners. -/
noncomputable def cellArea (radius : ℝ) (g : Nat → Nat → ℝ × ℝ) (i j : Nat) : Option ℝ := do
  let lowerLeft ← lonLatToXyz (g i j).1 (g i j).2
  let lowerRight ← lonLatToXyz (g (i + 1) j).1 (g (i + 1) j).2
  let upperLeft ← lonLatToXyz (g i (j + 1)).1 (g i (j + 1)).2
  let upperRight ← lonLatToXyz (g (i + 1) (j + 1)).1 (g (i + 1) (j + 1)).2
  return rectangleArea lowerLeft upperLeft upperRight lowerRight radius

end NDSL.Sphere
