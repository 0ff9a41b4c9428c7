import Verif.Model.Basic
/-
Model of the cutting of a plotted field into rectangles without missing values: `_segment_plot_inputs` and
`_apply_to_non_non_nan_segments` (`ndsl/viz/fv3/_plot_cube.py` 346-425), and what is done
with the pieces: `pcolormesh_cube` (263-295) and `UpdateablePColormesh` (324-343).

Simplifications: an array is a function of two indices with a number of rows and columns; NaN is `none`. Fractions of
missing values are compared exactly. A generator is the list of what it yields. The recursion has a bound on its depth;
`none` is a recursion that went deeper, and it is a theorem that a bound exists.
-/
namespace NDSL.Segments

/-- A two-dimensional array. -/
structure Mat (V : Type) where
  rows : Nat
  cols : Nat
  get : Nat → Nat → V

variable {V W : Type}

/-- `m[r0:r1, c0:c1]` -/
def Mat.sub (m : Mat V) (r0 r1 c0 c1 : Nat) : Mat V :=
  ⟨min r1 m.rows - r0, min c1 m.cols - c0, fun i j => m.get (r0 + i) (c0 + j)⟩

/-- `m.T` -/
def Mat.tr (m : Mat V) : Mat V := ⟨m.cols, m.rows, fun i j => m.get j i⟩

/-- `np.isnan` -/
def isNan (a : Mat (Option V)) (i j : Nat) : Bool := (a.get i j).isNone

/-- `np.sum(is_nan, axis=1)` and `np.sum(is_nan, axis=0)`, 382-383. -/
def rowNans (a : Mat (Option V)) (i : Nat) : Nat := (List.range a.cols).countP fun j => isNan a i j
def colNans (a : Mat (Option V)) (j : Nat) : Nat := (List.range a.rows).countP fun i => isNan a i j

/-- `max()` of the `n` values of `f`. -/
def maxOf (f : Nat → Nat) : Nat → Nat
  | 0 => 0
  | n + 1 => max (maxOf f n) (f n)

/-- `argmax()`: the first of the `n` indices with the largest value. -/
def argmax (f : Nat → Nat) (n : Nat) : Nat := ((List.range n).find? fun i => f i = maxOf f n).getD 0

/-- `np.sum(is_nan)` is not 0, 380. -/
def anyNan (a : Mat (Option V)) : Bool := (List.range a.rows).any fun i => decide (0 < rowNans a i)

/-- The inner loop, 406-410: `i_end` moves on while the values are those at `i_start`. -/
def extend (b : Nat → Bool) (n s : Nat) : Nat → Nat → Nat
  | 0, e => e
  | k + 1, e => if e < n ∧ b s = b e then extend b n s k (e + 1) else e

/-- The outer loop, 405-417: from `i_start` and `i_end` on, the segments. -/
def runs (b : Nat → Bool) (n : Nat) : Nat → Nat → Nat → List (Nat × Nat)
  | 0, _, _ => []
  | k + 1, s, e =>
    if e < n then (s, extend b n s n e) :: runs b n k (extend b n s n e) (extend b n s n e) else []

/-- Three arrays that are yielded: two at the corners, one at the centres. -/
abbrev Piece (X V : Type) := Mat X × Mat X × Mat (Option V)

/-- All of what the calls yield. -/
def joinAll {T : Type} : List (Option (List T)) → Option (List T)
  | [] => some []
  | none :: _ => none
  | some l :: rest => (joinAll rest).map (l ++ ·)

/-- `x_nans.max() >= y_nans.max()`, 382-384: sums divided by the number of columns and of rows. -/
def rowsFirst (a : Mat (Option V)) : Bool :=
  decide (maxOf (rowNans a) a.rows * a.rows ≥ maxOf (colNans a) a.cols * a.cols)

/-- `_segment_plot_inputs`, 374-425. -/
def segment {X : Type} : Nat → Mat X → Mat X → Mat (Option V) → Option (List (Piece X V))
  | 0, _, _, _ => none
  | fuel + 1, x, y, a =>
    if anyNan a = false then
      if 0 < a.rows * a.cols then some [(x, y, a)] else some []
    else if rowsFirst a = true then
      let i := argmax (rowNans a) a.rows
      if rowNans a i = a.cols then
        joinAll
          [segment fuel (x.sub 0 (i + 1) 0 x.cols) (y.sub 0 (i + 1) 0 y.cols) (a.sub 0 i 0 a.cols),
           segment fuel (x.sub (i + 1) x.rows 0 x.cols) (y.sub (i + 1) y.rows 0 y.cols) (a.sub (i + 1) a.rows 0 a.cols)]
      else
        joinAll ((runs (fun j => isNan a i j) a.cols (a.cols + 1) 0 1).map fun r =>
          segment fuel (x.sub 0 x.rows r.1 (r.2 + 1)) (y.sub 0 y.rows r.1 (r.2 + 1)) (a.sub 0 a.rows r.1 r.2))
    else segment fuel x.tr y.tr a.tr

/-- `_apply_to_non_non_nan_segments`, 346-371: what `func` is applied to, tile by tile. -/
def allSegments {X : Type} (fuel : Nat) (tiles : List (Piece X V)) : Option (List (Piece X V)) :=
  joinAll (tiles.map fun t => segment fuel t.1 t.2.1 t.2.2)

/-- A handle that was drawn: the mesh of `ax.pcolormesh(x, y, array)`, 315-316. -/
abbrev Handle (X V : Type) := Piece X V

/-- `all_handles[-1]`, 294-295 (and 327): the last of what was drawn. -/
def lastHandle {X : Type} (handles : List (Handle X V)) : Except Err (Handle X V) :=
  match handles.getLast? with
  | some h => .ok h
  | none => .error .indexError

/-- `UpdateablePColormesh.update`, 332-343, from the pieces on: each piece goes to the `next` handle, whose array is
replaced and whose corners stay. `none` is the `StopIteration` of a piece without a handle. -/
def updateHandles {X : Type} : List (Handle X V) → List (Piece X V) → Option (List (Handle X V))
  | hs, [] => some hs
  | [], _ :: _ => none
  | h :: hs, p :: ps => (updateHandles hs ps).map ((h.1, h.2.1, p.2.2) :: ·)

end NDSL.Segments
