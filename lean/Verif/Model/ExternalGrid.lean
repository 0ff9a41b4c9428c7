import Verif.Model.HaloUpdate
import Verif.Model.CornerArrays

/-!
# A grid from external data

`MetricTerms.from_external`, `ndsl/grid/generation.py` 449-483, up to and with the filling of the corners, on the cubed
sphere with the same number of cells on all ranks.  Simplifications: the arrays given have the shape of the compute
domain (otherwise numpy broadcasts or raises); the cell centres computed afterwards are not part of it.
-/
namespace NDSL
open Indexing (GridIndexing)

variable {K : Type} [Inhabited K] [Mul K]

/-- The dimensions of `_grid_64` on a rank with `c` by `c` cells and `h` halo points, generation.py 256-266. -/
def cornerSpecs (h c : Int) : List DimSpec :=
  [⟨.iInterface, h, c + 1, c + 1 + 2 * h⟩, ⟨.jInterface, h, c + 1, c + 1 + 2 * h⟩, ⟨.other "lon_or_lat", 0, 2, 2⟩]

/-- `terms._grid_64.view[:, :, 0] = x` and the same for `y`, as in 473-475, of an array with contents `old`. -/
def cornerView (h c : Int) (x y : Int → Int → K) (old : List Int → K) : Qty K where
  ds := cornerSpecs h c
  data := {
    shape := [c + 1 + 2 * h, c + 1 + 2 * h, 2]
    get := fun g => match g with
      | [a, b, k] =>
        if h ≤ a ∧ a < h + (c + 1) ∧ h ≤ b ∧ b < h + (c + 1) then
          if k = 0 then x (a - h) (b - h) else if k = 1 then y (a - h) (b - h) else old g
        else old g
      | _ => old g }

/-- The grid indexing of a rank, `GridIndexing.from_sizer_and_communicator`, `ndsl/dsl/stencil.py` 672-689. -/
def CubePart.gridIndexing (p : CubePart) (h c nz r : Int) : GridIndexing :=
  ⟨(c, c, nz), h, p.tile.onBottom r, p.tile.onTop r, p.tile.onLeft r, p.tile.onRight r, 0⟩

/-- `fill_corners_2d(terms._grid_64, terms._grid_indexing, gridtype="B", direction="i")`, 479-481. -/
def Qty.fillCornersB (g : GridIndexing) (rows : Int) (one : K) (q : Qty K) : Qty K :=
  { q with data := { q.data with get := fun idx => match idx with
    | [a, b, k] => Corner.fillCorners2dB g rows true one (fun _ i j m => q.data.get [i, j, (m : Int)]) .x a b k.toNat
    | _ => q.data.get idx } }

/-- The halo update and the filling of the corners, 477-481, and 1845-1849 in `_init_dgrid`, of `_grid_64` on rank `r`; `x s`
and `y s` are the values in the compute domain of rank `s`, and `old s` what is in the rest of its memory. -/
def CubePart.completeGrid (p : CubePart) (junk : Nat → K) (h c nz : Int) (one : K) (x y : Int → Int → Int → K)
    (old : Int → List Int → K) (r : Int) : Except Err (List (Qty K)) := do
  let out ← p.haloUpdate junk h (fun s => [cornerView h c (x s) (y s) (old s)]) r
  return out.map fun q => q.fillCornersB (p.gridIndexing h c nz r) (c + 1 + 2 * h) one

/-- `from_external`: what is in `_grid_64` of rank `r` when the cell centres are computed; `x s` and `y s` are the arrays
given to rank `s`, in degrees, and `rad` is `rad_conv`, 473-475. -/
def CubePart.fromExternal (p : CubePart) (junk : Nat → K) (h c nz : Int) (rad one : K) (x y : Int → Int → Int → K)
    (old : Int → List Int → K) (r : Int) : Except Err (List (Qty K)) :=
  p.completeGrid junk h c nz one (fun s a b => rad * x s a b) (fun s a b => rad * y s a b) old r

end NDSL
