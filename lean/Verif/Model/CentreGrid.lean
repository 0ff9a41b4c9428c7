import Verif.Model.ExternalGrid

/-!
# The grid of cell centres

`MetricTerms._init_agrid`, `ndsl/grid/generation.py` 1851-1872, after the cell centres of the rank's own array have been
computed from its corners.  Simplification: the centres are given as functions of rank and cell.
-/
namespace NDSL
open Indexing (GridIndexing)

variable {K : Type} [Inhabited K] [Mul K]

/-- The dimensions of `_agrid_64` on a rank with `c` by `c` cells and `h` halo points, generation.py 274-279; the array has one
row and one column more. -/
def centreSpecs (h c : Int) : List DimSpec :=
  [⟨.i, h, c, c + 1 + 2 * h⟩, ⟨.j, h, c, c + 1 + 2 * h⟩, ⟨.other "lon_or_lat", 0, 2, 2⟩]

/-- `self._agrid_64[:-1, :-1, 0], self._agrid_64[:-1, :-1, 1] = lon_agrid, lat_agrid`, 1856-1859, of an array with contents
`old`; halo cells included. -/
def centreView (h c : Int) (x y : Int → Int → K) (old : List Int → K) : Qty K where
  ds := centreSpecs h c
  data := {
    shape := [c + 1 + 2 * h, c + 1 + 2 * h, 2]
    get := fun g => match g with
      | [a, b, k] =>
        if 0 ≤ a ∧ a < c + 2 * h ∧ 0 ≤ b ∧ b < c + 2 * h then
          if k = 0 then x (a - h) (b - h) else if k = 1 then y (a - h) (b - h) else old g
        else old g
      | _ => old g }

/-- The two calls of `fill_corners_2d` for the A grid, 1861-1872: longitudes along "i", latitudes along "j". -/
def Qty.fillCornersA (g : GridIndexing) (rows : Int) (one : K) (q : Qty K) : Qty K :=
  { q with data := { q.data with get := fun idx => match idx with
    | [a, b, k] =>
      if k = 0 then Corner.fillCorners2dA g rows true one (fun _ i j _ => q.data.get [i, j, 0]) .x a b 0
      else if k = 1 then Corner.fillCorners2dA g rows false one (fun _ i j _ => q.data.get [i, j, 1]) .x a b 0
      else q.data.get idx
    | _ => q.data.get idx } }

/-- `_init_agrid`: `_agrid_64` of rank `r`; `x s` and `y s` are the centres computed by rank `s`. -/
def CubePart.initAgrid (p : CubePart) (junk : Nat → K) (h c nz : Int) (one : K) (x y : Int → Int → Int → K)
    (old : Int → List Int → K) (r : Int) : Except Err (List (Qty K)) := do
  let out ← p.haloUpdate junk h (fun s => [centreView h c (x s) (y s) (old s)]) r
  return out.map fun q => q.fillCornersA (p.gridIndexing h c nz r) (c + 1 + 2 * h) one

end NDSL
