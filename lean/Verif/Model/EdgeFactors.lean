import Mathlib.Algebra.Field.Defs
import Verif.Model.Decomposition
/-
Model of the interpolation factors at the edges of tiles, `ndsl/grid/geometry.py` 588-869.

Simplifications: `mid` stands for `lon_lat_midpoint` and `dist` for `great_circle_distance_lon_lat` (both
modelled in `Model/Sphere.lean`), points are of any type, factors are in a field; the value `big_number`, which
marks places without a factor, is `none`; arrays are functions with their lengths, and numpy's check of lengths
at each assignment is made explicit.
-/
namespace NDSL.Edges

inductive EErr where
  | valueError
  deriving DecidableEq, Repr

/-- A two-dimensional array. -/
structure Arr2 (α : Type) where
  n0 : Int
  n1 : Int
  get : Int → Int → α

variable {A P R : Type}

/-- `a[::-1, :]`. -/
def Arr2.flip0 (a : Arr2 A) : Arr2 A := ⟨a.n0, a.n1, fun i j => a.get (a.n0 - 1 - i) j⟩

/-- `a[:, ::-1]`. -/
def Arr2.flip1 (a : Arr2 A) : Arr2 A := ⟨a.n0, a.n1, fun i j => a.get i (a.n1 - 1 - j)⟩

/-- `a.transpose([1, 0, 2])`: the last dimension holds longitude and latitude. -/
def Arr2.transpose (a : Arr2 A) : Arr2 A := ⟨a.n1, a.n0, fun i j => a.get j i⟩

/-- The length of `x[a:b]` when `x` has `len` elements and `0 ≤ a`, `0 ≤ b`. -/
def sliceLen (len a b : Int) : Int := max 0 (min b len - min a len)

/-- Can an array of length `r` be assigned to one of length `l`? -/
def assignOk (l r : Int) : Bool := l == r || r == 1

/-- Where a rank is on its tile: `on_tile_left` etc., and `subtile_slice` along x and y. -/
structure Place where
  left : Bool
  right : Bool
  bottom : Bool
  top : Bool
  x : Slice
  y : Slice

/-- `tile_partitioner.subtile_slice(rank, grid_quantity.dims, (npx, npy))`, 607-609 and 720-722, and the four
questions asked below.  The quantity has the dimensions x, y and one for longitude and latitude. -/
def place (p : TilePart) (fl : FloatOps) (rank npx npy : Int) : Except Err Place :=
  match p.subtileSlice fl rank [.iInterface, .jInterface, .other "lon_lat"] [npx, npy] false with
  | .ok [x, y] => .ok ⟨p.onLeft rank, p.onRight rank, p.onBottom rank, p.onTop rank, x, y⟩
  | .ok _ => .error .valueError
  | .error e => .error e

/-! ### From cells to corners -/

/-- `jstart`, `jend`, 610-617, along one axis. -/
def edgeRange (nhalo : Int) (s : Slice) (np : Int) : Int × Int :=
  (max 4 (nhalo + s.start) - (nhalo + s.start) + nhalo,
    min (np + nhalo - 1) (nhalo + s.stop - 1 + 2) - (nhalo + s.start) + nhalo)

/-- `set_west_edge_factor`, 642-668, at `grid[nhalo, j]`. -/
def westFactor [Field R] (mid : A → A → P) (dist : P → A → R) (grid agrid : Arr2 A) (nhalo j : Int) : R :=
  dist (mid (agrid.get (nhalo - 1) j) (agrid.get nhalo j)) (grid.get nhalo j) /
    (dist (mid (agrid.get (nhalo - 1) (j - 1)) (agrid.get nhalo (j - 1))) (grid.get nhalo j) +
      dist (mid (agrid.get (nhalo - 1) j) (agrid.get nhalo j)) (grid.get nhalo j))

/-- `edge[jstart - nhalo : jend - nhalo] = set_west_edge_factor(...)` for an array of `len` elements, 620-622;
`none` elsewhere.  The lengths of the two slices of the cells' and the corners' array and of the result have to
agree. -/
def edgeLine [Field R] (mid : A → A → P) (dist : P → A → R) (grid agrid : Arr2 A) (nhalo : Int) (s : Slice)
    (np len : Int) : Except EErr (Int → Option R) :=
  let r := edgeRange nhalo s np
  let a := max 0 (sliceLen agrid.n1 (r.1 - 1) r.2 - 1)
  let g := sliceLen grid.n1 r.1 r.2
  if a = g ∧ assignOk (sliceLen len (r.1 - nhalo) (r.2 - nhalo)) g = true then
    .ok fun t => if r.1 - nhalo ≤ t ∧ t < r.2 - nhalo then some (westFactor mid dist grid agrid nhalo (t + nhalo)) else none
  else .error .valueError

/-- An edge that the rank is not on keeps `big_number`. -/
def whenOn (on : Bool) (x : Except EErr (Int → Option R)) : Except EErr (Int → Option R) :=
  if on = true then x else .ok fun _ => none

/-- `edge_factors`, 588-639: west, east, south and north. -/
def edgeFactors [Field R] (mid : A → A → P) (dist : P → A → R) (pl : Place) (grid agrid : Arr2 A)
    (gridType nhalo npx npy : Int) : Except EErr (List (Int → Option R)) := do
  let on := fun b : Bool => b && decide (gridType < 3)
  let iRange := sliceLen grid.n0 nhalo (grid.n0 - nhalo)
  let jRange := sliceLen grid.n1 nhalo (grid.n1 - nhalo)
  let w ← whenOn (on pl.left) (edgeLine mid dist grid agrid nhalo pl.y npy jRange)
  let e ← whenOn (on pl.right) (edgeLine mid dist grid.flip0 agrid.flip0 nhalo pl.y npy jRange)
  let s ← whenOn (on pl.bottom) (edgeLine mid dist grid.transpose agrid.transpose nhalo pl.x npx iRange)
  let n ← whenOn (on pl.top)
    (edgeLine mid dist grid.flip1.transpose agrid.flip1.transpose nhalo pl.x npx iRange)
  return [w, e, s, n]

/-! ### From cells to sides -/

/-- `im2` or `jm2`, 730-749: `m` is the number of cells of the array along the axis, with halo. -/
def midIndex (nhalo m start half : Int) : Int :=
  let gs := nhalo + start
  let indices := (List.range (m - nhalo + 1).toNat).map fun (t : Nat) => (t : Int) + gs - nhalo
  let selection := indices.filter fun k => decide (k ≤ nhalo + half)
  let a := match selection.max? with
    | some k => k - gs
    | none => (selection.length : Int)
  let b := if selection.length = indices.length then (selection.length : Int) - nhalo else a
  max b (-1)

/-- `calculate_west_edge_vectors`, 790-846: the factor for cell `k` of the array, `nhalo - 1 ≤ k`.  Entry `k` of
`py` is the midpoint of the cells on both sides of the edge, entry `k` of `p2` that of the side. -/
def westVector [Field R] (mid : A → A → P) (dist : P → P → R) (grid agrid : Arr2 A) (jm2 nhalo k : Int) : R :=
  let py := fun k => mid (agrid.get (nhalo - 1) k) (agrid.get nhalo k)
  let p2 := fun k => mid (grid.get nhalo k) (grid.get nhalo (k + 1))
  let d1 := dist (py k) (p2 k)
  let d2 := if k - (nhalo - 1) ≤ jm2 then dist (py (k + 1)) (p2 k) else dist (py (k - 1)) (p2 k)
  d1 / (d2 + d1)

/-- The lengths in `calculate_west_edge_vectors` and in `edge_vect_w[2:-2] = ...`, 757: `d1` and `d2` have
`agrid.shape[0] - 2 * nhalo + 2` elements, while the points are taken along the other axis. -/
def vectorLengths (agrid grid : Arr2 A) (jm2 nhalo : Int) : Bool :=
  let d := agrid.n0 - 2 * nhalo + 2
  let p := sliceLen agrid.n1 (nhalo - 2) (agrid.n1 - nhalo + 2)
  let q := sliceLen grid.n1 (nhalo - 2) (grid.n1 - nhalo + 1)
  assignOk (sliceLen d 0 (jm2 + 1)) (sliceLen p 1 (jm2 + 2)) && sliceLen p 1 (jm2 + 2) == sliceLen q 1 (jm2 + 2) &&
  sliceLen p 2 (jm2 + 3) == sliceLen q 1 (jm2 + 2) &&
  assignOk (sliceLen d (jm2 + 1) d) (sliceLen p (jm2 + 2) (p - 1)) &&
  sliceLen p (jm2 + 2) (p - 1) == sliceLen q (jm2 + 2) (q - 1) &&
  sliceLen p (jm2 + 1) (p - 2) == sliceLen q (jm2 + 2) (q - 1) &&
  assignOk (sliceLen (grid.n1 - 1) 2 (grid.n1 - 1 - 2)) d

/-- `edge_vect[at] = edge_vect[from]`. -/
def copyOne (b : Bool) (to from_ : Int) (f : Int → Option R) : Int → Option R :=
  fun k => if b = true ∧ k = to then f from_ else f k

/-- One edge, 756-763: the factors, then the copies at the ends of the tile's edge. -/
def vectorLine [Field R] (mid : A → A → P) (dist : P → P → R) (grid agrid : Arr2 A) (jm2 nhalo : Int)
    (first last : Bool) : Except EErr (Int → Option R) :=
  let len := grid.n1 - 1
  if vectorLengths agrid grid jm2 nhalo = true then
    .ok (copyOne last (len - nhalo) (len - nhalo - 1) (copyOne first (nhalo - 1) nhalo
      (fun k => if 2 ≤ k ∧ k < len - 2 then some (westVector mid dist grid agrid jm2 nhalo (k - 2 + (nhalo - 1)))
        else none)))
  else .error .valueError

/-- `efactor_a2c_v`, 701-787. -/
def vectorFactors [Field R] (mid : A → A → P) (dist : P → P → R) (pl : Place) (grid agrid : Arr2 A)
    (gridType nhalo npx npy : Int) : Except EErr (List (Int → Option R)) :=
  if npx ≠ npy then .error .valueError
  else if npx % 2 = 0 then .error .valueError
  else do
    let im2 := midIndex nhalo agrid.n0 pl.x.start ((npx - 1).tdiv 2)
    let jm2 := midIndex nhalo agrid.n1 pl.y.start ((npy - 1).tdiv 2)
    let on := fun b : Bool => b && decide (gridType < 3)
    let w ← whenOn (on pl.left) (vectorLine mid dist grid agrid jm2 nhalo pl.bottom pl.top)
    let e ← whenOn (on pl.right) (vectorLine mid dist grid.flip0 agrid.flip0 jm2 nhalo pl.bottom pl.top)
    let s ← whenOn (on pl.bottom) (vectorLine mid dist grid.transpose agrid.transpose im2 nhalo pl.left pl.right)
    let n ← whenOn (on pl.top)
      (vectorLine mid dist grid.flip1.transpose agrid.flip1.transpose im2 nhalo pl.left pl.right)
    return [w, e, s, n]

end NDSL.Edges
