import Mathlib.Algebra.Field.Rat
/-
Model of the treatment of ghost corner cells of the supergrid sines and cosines in
`ndsl/grid/geometry.py`: `calculate_supergrid_cos_sin` (corner part), `calculate_trig_uv` (means at cell
sides), `supergrid_corner_fix` and its helpers.

Simplifications, in the whole file: an array of `n0` by `n1` cells is a function of its two indices; the
values outside the array have no meaning; negative Python indices are written out as `n0 - ...`.
-/
namespace NDSL.Supergrid

/-- One of the nine slices `sg[:, :, k]`. -/
abbrev Field (α : Type) := Int → Int → α

/-- `cos_sg` or `sin_sg`: point `k` (0 to 8) of cell `(i, j)`.  Points 0 to 3 are the middles of the west,
south, east and north sides, 4 is the centre, 5 to 8 are the corners. -/
abbrev SG (α : Type) := Nat → Field α

/-- Which sides of the tile a rank lies on: `on_tile_left` and so on. -/
structure OnTile where
  left : Bool
  right : Bool
  bottom : Bool
  top : Bool

/-- Assignment to `sg[:, :, k]`. -/
def setPoint {α : Type} (k : Nat) (f : Field α) (sg : SG α) : SG α :=
  fun k' i j => if k' = k then f i j else sg k' i j

/-- Indices selected by `[:h]`. -/
abbrev first (h x : Int) : Prop := 0 ≤ x ∧ x < h

/-- Indices selected by `[-h:]` in a dimension of length `n`. -/
abbrev last (h n x : Int) : Prop := n - h ≤ x ∧ x < n

/-- `_fill_single_halo_corner`, 911-932, with `"sw"`, on all nine slices. -/
def fillSw {α : Type} (h : Int) (v : α) (sg : SG α) : SG α :=
  fun k i j => if first h i ∧ first h j then v else sg k i j

/-- `_fill_single_halo_corner` with `"nw"`. -/
def fillNw {α : Type} (h n1 : Int) (v : α) (sg : SG α) : SG α :=
  fun k i j => if first h i ∧ last h n1 j then v else sg k i j

/-- `_fill_single_halo_corner` with `"se"`. -/
def fillSe {α : Type} (h n0 : Int) (v : α) (sg : SG α) : SG α :=
  fun k i j => if last h n0 i ∧ first h j then v else sg k i j

/-- `_fill_single_halo_corner` with `"ne"`. -/
def fillNe {α : Type} (h n0 n1 : Int) (v : α) (sg : SG α) : SG α :=
  fun k i j => if last h n0 i ∧ last h n1 j then v else sg k i j

/-- `_rotate_trig_sg_sw_counterclockwise`, 459-460: the new `sg_field_out`. -/
def swCounterclockwise {α : Type} (h : Int) (src out : Field α) : Field α :=
  fun i j => if i = h - 1 ∧ first h j then src j h else out i j

/-- `_rotate_trig_sg_sw_clockwise`, 463-464. -/
def swClockwise {α : Type} (h : Int) (src out : Field α) : Field α :=
  fun i j => if first h i ∧ j = h - 1 then src h i else out i j

/-- The view `[::-1, :]`. -/
def flip0 {α : Type} (n0 : Int) (f : Field α) : Field α := fun i j => f (n0 - 1 - i) j

/-- The view `[:, ::-1]`. -/
def flip1 {α : Type} (n1 : Int) (f : Field α) : Field α := fun i j => f i (n1 - 1 - j)

/-- `_rotate_trig_sg_nw_counterclockwise`, 467-468.  (Assigning to a reversed view of the output changes
the output: the result is reversed back.) -/
def nwCounterclockwise {α : Type} (h n1 : Int) (src out : Field α) : Field α :=
  flip1 n1 (swClockwise h (flip1 n1 src) (flip1 n1 out))

/-- `_rotate_trig_sg_nw_clockwise`, 471-474. -/
def nwClockwise {α : Type} (h n1 : Int) (src out : Field α) : Field α :=
  flip1 n1 (swCounterclockwise h (flip1 n1 src) (flip1 n1 out))

/-- `_rotate_trig_sg_se_counterclockwise`, 477-478. -/
def seCounterclockwise {α : Type} (h n0 : Int) (src out : Field α) : Field α :=
  flip0 n0 (swClockwise h (flip0 n0 src) (flip0 n0 out))

/-- `_rotate_trig_sg_se_clockwise`, 481-484. -/
def seClockwise {α : Type} (h n0 : Int) (src out : Field α) : Field α :=
  flip0 n0 (swCounterclockwise h (flip0 n0 src) (flip0 n0 out))

/-- `_rotate_trig_sg_ne_counterclockwise`, 487-490. -/
def neCounterclockwise {α : Type} (h n0 n1 : Int) (src out : Field α) : Field α :=
  flip0 n0 (flip1 n1 (swCounterclockwise h (flip0 n0 (flip1 n1 src)) (flip0 n0 (flip1 n1 out))))

/-- `_rotate_trig_sg_ne_clockwise`, 493-496. -/
def neClockwise {α : Type} (h n0 n1 : Int) (src out : Field α) : Field α :=
  flip0 n0 (flip1 n1 (swClockwise h (flip0 n0 (flip1 n1 src)) (flip0 n0 (flip1 n1 out))))

/-- `rotate(sg[:, :, a], sg[:, :, b], nhalo)` -/
def rotate {α : Type} (r : Field α → Field α → Field α) (a b : Nat) (sg : SG α) : SG α :=
  setPoint b (r (sg a) (sg b)) sg

/-- `if` without `else` around a change of an array. -/
def onlyIf {α : Type} (c : Bool) (f : SG α → SG α) (sg : SG α) : SG α := if c then f sg else sg

/-- `supergrid_corner_fix`, 415-456, applied to one of the two arrays: the calls for `sin_sg` (fill value
`1e-8`) and for `cos_sg` (`1e8`) do not depend on each other and have the same arguments. -/
def cornerFix {α : Type} (r : OnTile) (h n0 n1 : Int) (v : α) (sg : SG α) : SG α :=
  let sg := onlyIf (r.left && r.bottom) (fun s =>
    rotate (swClockwise h) 0 3 (rotate (swCounterclockwise h) 1 2 (fillSw h v s))) sg
  let sg := onlyIf (r.left && r.top) (fun s =>
    rotate (nwClockwise h n1) 3 2 (rotate (nwCounterclockwise h n1) 0 1 (fillNw h n1 v s))) sg
  let sg := onlyIf (r.right && r.bottom) (fun s =>
    rotate (seCounterclockwise h n0) 2 3 (rotate (seClockwise h n0) 1 0 (fillSe h n0 v s))) sg
  onlyIf (r.right && r.top) (fun s =>
    rotate (neClockwise h n0 n1) 2 1 (rotate (neCounterclockwise h n0 n1) 3 0 (fillNe h n0 n1 v s))) sg

/-! ### The first adjustment -/

/-- `sin_sg[x, y, b] = src`: `where` tells the assigned indices of slice `b`, `src` the new values. -/
def assign {α : Type} (b : Nat) (w : Int → Int → Bool) (src : SG α → Field α) (sg : SG α) : SG α :=
  setPoint b (fun i j => if w i j then src sg i j else sg b i j) sg

/-- South-west, 217-219. -/
def adjustSw {α : Type} (h : Int) (sg : SG α) : SG α :=
  assign 3 (fun i j => first h i ∧ j = h - 1) (fun s i _ => s 0 h i)
    (assign 2 (fun i j => i = h - 1 ∧ first h j) (fun s _ j => s 1 j h) sg)

/-- North-west, 220-222.  The slice `-nhalo - 2 : -nhalo + 1` has three elements. -/
def adjustNw {α : Type} (h n1 : Int) (sg : SG α) : SG α :=
  assign 1 (fun i j => first h i ∧ j = n1 - h) (fun s i _ => s 0 h (n1 - h - 2 + i))
    (assign 2 (fun i j => i = h - 1 ∧ last h n1 j) (fun s _ j => s 3 (n1 - 1 - j) (n1 - h - 1)) sg)

/-- South-east, 224-226. -/
def adjustSe {α : Type} (h n0 : Int) (sg : SG α) : SG α :=
  assign 3 (fun i j => last h n0 i ∧ j = h - 1) (fun s i _ => s 2 (n0 - h - 1) (n0 - 1 - i))
    (assign 0 (fun i j => i = n0 - h ∧ first h j) (fun s _ j => s 1 (n0 - 1 - j) h) sg)

/-- North-east, 227-229. -/
def adjustNe {α : Type} (h n0 n1 : Int) (sg : SG α) : SG α :=
  assign 1 (fun i j => last h n0 i ∧ j = n1 - h) (fun s i _ => s 2 (n0 - h - 1) (n1 - h + (i - (n0 - h))))
    (assign 0 (fun i j => i = n0 - h ∧ last h n1 j) (fun s _ j => s 3 (n0 - h + (j - (n1 - h))) (n1 - h - 1)) sg)

/-- "Adjust for corners" of `calculate_supergrid_cos_sin`, 215-229; `none` for the `ValueError` of an
assignment of three elements to `nhalo` elements. -/
def adjustSin {α : Type} (r : OnTile) (h n0 n1 : Int) (sg : SG α) : Option (SG α) :=
  let sg := onlyIf (r.left && r.bottom) (adjustSw h) sg
  if r.left && r.top && h != 3 then none
  else
    let sg := onlyIf (r.left && r.top) (adjustNw h n1) sg
    let sg := onlyIf (r.right && r.bottom) (adjustSe h n0) sg
    some (onlyIf (r.right && r.top) (adjustNe h n0 n1) sg)

/-- `sina_u[i, j]`, 347: the interface between cells `i - 1` and `i`, for `1 ≤ i < n0`. -/
def sinaU (sg : SG ℚ) (i j : Int) : ℚ := 1 / 2 * (sg 2 (i - 1) j + sg 0 i j)

/-- `sina_v[i, j]`, 353: the interface between cells `j - 1` and `j`, for `1 ≤ j < n1`. -/
def sinaV (sg : SG ℚ) (i j : Int) : ℚ := 1 / 2 * (sg 3 i (j - 1) + sg 1 i j)

end NDSL.Supergrid
