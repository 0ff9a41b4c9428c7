/-
Model of the corner stencils of `ndsl/stencils/corners.py`.

A stencil is the list of its assignments, in order. `with horizontal(region[a, b], ...)` restricts
an assignment to the given points; a bound of a region is an offset from the first (`i_start`,
`j_start`) or the last (`i_end`, `j_end`) cell of the tile. The tables below are the statements of
the stencils one by one. GT4Py executes an assignment of a `PARALLEL` computation at all points of
the computation domain before the next one; several parameters of a stencil may be bound to the
same storage (as `FillCornersBGrid.__call__`, 371-372, does).

Simplifications: arithmetic of an arbitrary type with a multiplication; storages are total
functions of the indices (no out-of-bounds accesses); `interval(...)` covers the levels below `nk`.
-/
namespace NDSL.Corner

/-- First and last cell of the tile along the two axes, as absolute indices: what the externals
`i_start`, `i_end`, `j_start`, `j_end` denote (`GridIndexing.axis_offsets`; property C70). -/
structure Ext where
  iS : Int
  iE : Int
  jS : Int
  jE : Int
  deriving DecidableEq, Repr

/-- A bound of a region: `i_start + off` or `i_end + off` (and the same for `j`). -/
inductive Bound where
  | S (off : Int)
  | E (off : Int)
  deriving DecidableEq, Repr

def Bound.at (s e : Int) : Bound → Int
  | .S o => s + o
  | .E o => e + o

/-- Parameters of the stencils. -/
inductive Param where
  | q | qCorner | qIn | qOut | qOutX | qOutY | xIn | xOut | yIn | yOut
  deriving DecidableEq, Repr

/-- Factors: none, or one of the scalar parameters. -/
inductive Coef where
  | one | mysign | sw | se | nw | ne
  deriving DecidableEq, Repr

/-- `with horizontal(region[...], ...): dst = coef * src[off.1, off.2, 0]`; `none` for an
assignment at all points. -/
structure Stmt where
  regs : Option (List (Bound × Bound))
  dst : Param
  coef : Coef
  src : Param
  off : Int × Int
  deriving DecidableEq, Repr

open Bound

/-- `fill_corners_2cells_mult_x`, `ndsl/stencils/corners.py` 29-66. -/
def fill2x : List Stmt := [
  ⟨some [(S (-1), S (-1))], .q, .sw, .qCorner, (0, 1)⟩,
  ⟨some [(S (-2), S (-1))], .q, .sw, .qCorner, (1, 2)⟩,
  ⟨some [(E 1, S (-1))], .q, .se, .qCorner, (0, 1)⟩,
  ⟨some [(E 2, S (-1))], .q, .se, .qCorner, (-1, 2)⟩,
  ⟨some [(S (-1), E 1)], .q, .nw, .qCorner, (0, -1)⟩,
  ⟨some [(S (-2), E 1)], .q, .nw, .qCorner, (1, -2)⟩,
  ⟨some [(E 1, E 1)], .q, .ne, .qCorner, (0, -1)⟩,
  ⟨some [(E 2, E 1)], .q, .ne, .qCorner, (-1, -2)⟩]

/-- `fill_corners_3cells_mult_x`, `ndsl/stencils/corners.py` 90-121. -/
def fill3x : List Stmt := fill2x ++ [
  ⟨some [(S (-3), S (-1))], .q, .sw, .qCorner, (2, 3)⟩,
  ⟨some [(E 3, S (-1))], .q, .se, .qCorner, (-2, 3)⟩,
  ⟨some [(S (-3), E 1)], .q, .nw, .qCorner, (2, -3)⟩,
  ⟨some [(E 3, E 1)], .q, .ne, .qCorner, (-2, -3)⟩]

/-- `fill_corners_2cells_mult_y`, `ndsl/stencils/corners.py` 126-163. -/
def fill2y : List Stmt := [
  ⟨some [(S (-1), S (-1))], .q, .sw, .qCorner, (1, 0)⟩,
  ⟨some [(S (-1), S (-2))], .q, .sw, .qCorner, (2, 1)⟩,
  ⟨some [(E 1, S (-1))], .q, .se, .qCorner, (-1, 0)⟩,
  ⟨some [(E 1, S (-2))], .q, .se, .qCorner, (-2, 1)⟩,
  ⟨some [(S (-1), E 1)], .q, .nw, .qCorner, (1, 0)⟩,
  ⟨some [(S (-1), E 2)], .q, .nw, .qCorner, (2, -1)⟩,
  ⟨some [(E 1, E 1)], .q, .ne, .qCorner, (-1, 0)⟩,
  ⟨some [(E 1, E 2)], .q, .ne, .qCorner, (-2, -1)⟩]

/-- `fill_corners_3cells_mult_y`, `ndsl/stencils/corners.py` 177-208. -/
def fill3y : List Stmt := fill2y ++ [
  ⟨some [(S (-1), S (-3))], .q, .sw, .qCorner, (3, 2)⟩,
  ⟨some [(E 1, S (-3))], .q, .se, .qCorner, (-3, 2)⟩,
  ⟨some [(S (-1), E 3)], .q, .nw, .qCorner, (3, -2)⟩,
  ⟨some [(E 1, E 3)], .q, .ne, .qCorner, (-3, -2)⟩]

/-- `copy_corners_xy_stencil_defn`, `ndsl/stencils/corners.py` 211-326. -/
def copyXY : List Stmt := [
  ⟨none, .qOutX, .one, .qIn, (0, 0)⟩,
  ⟨none, .qOutY, .one, .qIn, (0, 0)⟩,
  ⟨some [(S (-3), S (-3)), (E 3, S (-3))], .qOutX, .one, .qIn, (0, 5)⟩,
  ⟨some [(S (-2), S (-3)), (E 3, S (-2))], .qOutX, .one, .qIn, (-1, 4)⟩,
  ⟨some [(S (-1), S (-3)), (E 3, S (-1))], .qOutX, .one, .qIn, (-2, 3)⟩,
  ⟨some [(S (-3), S (-2)), (E 2, S (-3))], .qOutX, .one, .qIn, (1, 4)⟩,
  ⟨some [(S (-2), S (-2)), (E 2, S (-2))], .qOutX, .one, .qIn, (0, 3)⟩,
  ⟨some [(S (-1), S (-2)), (E 2, S (-1))], .qOutX, .one, .qIn, (-1, 2)⟩,
  ⟨some [(S (-3), S (-1)), (E 1, S (-3))], .qOutX, .one, .qIn, (2, 3)⟩,
  ⟨some [(S (-2), S (-1)), (E 1, S (-2))], .qOutX, .one, .qIn, (1, 2)⟩,
  ⟨some [(S (-1), S (-1)), (E 1, S (-1))], .qOutX, .one, .qIn, (0, 1)⟩,
  ⟨some [(S (-3), E 1), (E 1, E 3)], .qOutX, .one, .qIn, (2, -3)⟩,
  ⟨some [(S (-2), E 1), (E 1, E 2)], .qOutX, .one, .qIn, (1, -2)⟩,
  ⟨some [(S (-1), E 1), (E 1, E 1)], .qOutX, .one, .qIn, (0, -1)⟩,
  ⟨some [(S (-3), E 2), (E 2, E 3)], .qOutX, .one, .qIn, (1, -4)⟩,
  ⟨some [(S (-2), E 2), (E 2, E 2)], .qOutX, .one, .qIn, (0, -3)⟩,
  ⟨some [(S (-1), E 2), (E 2, E 1)], .qOutX, .one, .qIn, (-1, -2)⟩,
  ⟨some [(S (-3), E 3), (E 3, E 3)], .qOutX, .one, .qIn, (0, -5)⟩,
  ⟨some [(S (-2), E 3), (E 3, E 2)], .qOutX, .one, .qIn, (-1, -4)⟩,
  ⟨some [(S (-1), E 3), (E 3, E 1)], .qOutX, .one, .qIn, (-2, -3)⟩,
  ⟨some [(S (-3), S (-3)), (S (-3), E 3)], .qOutY, .one, .qIn, (5, 0)⟩,
  ⟨some [(S (-2), S (-3)), (S (-3), E 2)], .qOutY, .one, .qIn, (4, 1)⟩,
  ⟨some [(S (-1), S (-3)), (S (-3), E 1)], .qOutY, .one, .qIn, (3, 2)⟩,
  ⟨some [(S (-3), S (-2)), (S (-2), E 3)], .qOutY, .one, .qIn, (4, -1)⟩,
  ⟨some [(S (-2), S (-2)), (S (-2), E 2)], .qOutY, .one, .qIn, (3, 0)⟩,
  ⟨some [(S (-1), S (-2)), (S (-2), E 1)], .qOutY, .one, .qIn, (2, 1)⟩,
  ⟨some [(S (-3), S (-1)), (S (-1), E 3)], .qOutY, .one, .qIn, (3, -2)⟩,
  ⟨some [(S (-2), S (-1)), (S (-1), E 2)], .qOutY, .one, .qIn, (2, -1)⟩,
  ⟨some [(S (-1), S (-1)), (S (-1), E 1)], .qOutY, .one, .qIn, (1, 0)⟩,
  ⟨some [(E 1, S (-3)), (E 3, E 1)], .qOutY, .one, .qIn, (-3, 2)⟩,
  ⟨some [(E 2, S (-3)), (E 3, E 2)], .qOutY, .one, .qIn, (-4, 1)⟩,
  ⟨some [(E 3, S (-3)), (E 3, E 3)], .qOutY, .one, .qIn, (-5, 0)⟩,
  ⟨some [(E 1, S (-2)), (E 2, E 1)], .qOutY, .one, .qIn, (-2, 1)⟩,
  ⟨some [(E 2, S (-2)), (E 2, E 2)], .qOutY, .one, .qIn, (-3, 0)⟩,
  ⟨some [(E 3, S (-2)), (E 2, E 3)], .qOutY, .one, .qIn, (-4, -1)⟩,
  ⟨some [(E 1, S (-1)), (E 1, E 1)], .qOutY, .one, .qIn, (-1, 0)⟩,
  ⟨some [(E 2, S (-1)), (E 1, E 2)], .qOutY, .one, .qIn, (-2, -1)⟩,
  ⟨some [(E 3, S (-1)), (E 1, E 3)], .qOutY, .one, .qIn, (-3, -2)⟩]

/-- `fill_corners_bgrid_x_defn`, `ndsl/stencils/corners.py` 375-434. -/
def bgridX : List Stmt := [
  ⟨some [(S (-1), S (-1)), (E 2, S (-1))], .qOut, .one, .qIn, (0, 2)⟩,
  ⟨some [(S (-1), S (-2)), (E 3, S (-1))], .qOut, .one, .qIn, (-1, 3)⟩,
  ⟨some [(S (-1), S (-3)), (E 4, S (-1))], .qOut, .one, .qIn, (-2, 4)⟩,
  ⟨some [(S (-2), S (-1)), (E 2, S (-2))], .qOut, .one, .qIn, (1, 3)⟩,
  ⟨some [(S (-2), S (-2)), (E 3, S (-2))], .qOut, .one, .qIn, (0, 4)⟩,
  ⟨some [(S (-2), S (-3)), (E 4, S (-2))], .qOut, .one, .qIn, (-1, 5)⟩,
  ⟨some [(S (-3), S (-1)), (E 2, S (-3))], .qOut, .one, .qIn, (2, 4)⟩,
  ⟨some [(S (-3), S (-2)), (E 3, S (-3))], .qOut, .one, .qIn, (1, 5)⟩,
  ⟨some [(S (-3), S (-3)), (E 4, S (-3))], .qOut, .one, .qIn, (0, 6)⟩,
  ⟨some [(S (-1), E 2), (E 2, E 2)], .qOut, .one, .qIn, (0, -2)⟩,
  ⟨some [(S (-1), E 3), (E 3, E 2)], .qOut, .one, .qIn, (-1, -3)⟩,
  ⟨some [(S (-1), E 4), (E 4, E 2)], .qOut, .one, .qIn, (-2, -4)⟩,
  ⟨some [(S (-2), E 2), (E 2, E 3)], .qOut, .one, .qIn, (1, -3)⟩,
  ⟨some [(S (-2), E 3), (E 3, E 3)], .qOut, .one, .qIn, (0, -4)⟩,
  ⟨some [(S (-2), E 4), (E 4, E 3)], .qOut, .one, .qIn, (-1, -5)⟩,
  ⟨some [(S (-3), E 2), (E 2, E 4)], .qOut, .one, .qIn, (2, -4)⟩,
  ⟨some [(S (-3), E 3), (E 3, E 4)], .qOut, .one, .qIn, (1, -5)⟩,
  ⟨some [(S (-3), E 4), (E 4, E 4)], .qOut, .one, .qIn, (0, -6)⟩]

/-- `fill_corners_bgrid_y_defn`, `ndsl/stencils/corners.py` 437-496. -/
def bgridY : List Stmt := [
  ⟨some [(S (-1), S (-1)), (S (-1), E 2)], .qOut, .one, .qIn, (2, 0)⟩,
  ⟨some [(S (-1), S (-2)), (S (-2), E 2)], .qOut, .one, .qIn, (3, 1)⟩,
  ⟨some [(S (-1), S (-3)), (S (-3), E 2)], .qOut, .one, .qIn, (4, 2)⟩,
  ⟨some [(S (-2), S (-1)), (S (-1), E 3)], .qOut, .one, .qIn, (3, -1)⟩,
  ⟨some [(S (-2), S (-2)), (S (-2), E 3)], .qOut, .one, .qIn, (4, 0)⟩,
  ⟨some [(S (-2), S (-3)), (S (-3), E 3)], .qOut, .one, .qIn, (5, 1)⟩,
  ⟨some [(S (-3), S (-1)), (S (-1), E 4)], .qOut, .one, .qIn, (4, -2)⟩,
  ⟨some [(S (-3), S (-2)), (S (-2), E 4)], .qOut, .one, .qIn, (5, -1)⟩,
  ⟨some [(S (-3), S (-3)), (S (-3), E 4)], .qOut, .one, .qIn, (6, 0)⟩,
  ⟨some [(E 2, S (-1)), (E 2, E 2)], .qOut, .one, .qIn, (-2, 0)⟩,
  ⟨some [(E 2, S (-2)), (E 3, E 2)], .qOut, .one, .qIn, (-3, 1)⟩,
  ⟨some [(E 2, S (-3)), (E 4, E 2)], .qOut, .one, .qIn, (-4, 2)⟩,
  ⟨some [(E 3, S (-1)), (E 2, E 3)], .qOut, .one, .qIn, (-3, -1)⟩,
  ⟨some [(E 3, S (-2)), (E 3, E 3)], .qOut, .one, .qIn, (-4, 0)⟩,
  ⟨some [(E 3, S (-3)), (E 4, E 3)], .qOut, .one, .qIn, (-5, 1)⟩,
  ⟨some [(E 4, S (-1)), (E 2, E 4)], .qOut, .one, .qIn, (-4, -2)⟩,
  ⟨some [(E 4, S (-2)), (E 3, E 4)], .qOut, .one, .qIn, (-5, -1)⟩,
  ⟨some [(E 4, S (-3)), (E 4, E 4)], .qOut, .one, .qIn, (-6, 0)⟩]

/-- `fill_corners_dgrid_defn`, `ndsl/stencils/corners.py` 877-1019. -/
def dgrid : List Stmt := [
  ⟨some [(S (-1), S (-1))], .xOut, .mysign, .yIn, (0, 1)⟩,
  ⟨some [(S (-1), S (-1))], .yOut, .mysign, .xIn, (1, 0)⟩,
  ⟨some [(S (-1), S (-2))], .xOut, .mysign, .yIn, (-1, 2)⟩,
  ⟨some [(S (-1), S (-2))], .yOut, .mysign, .xIn, (2, 1)⟩,
  ⟨some [(S (-1), S (-3))], .xOut, .mysign, .yIn, (-2, 3)⟩,
  ⟨some [(S (-1), S (-3))], .yOut, .mysign, .xIn, (3, 2)⟩,
  ⟨some [(S (-2), S (-1))], .xOut, .mysign, .yIn, (1, 2)⟩,
  ⟨some [(S (-2), S (-1))], .yOut, .mysign, .xIn, (2, -1)⟩,
  ⟨some [(S (-2), S (-2))], .xOut, .mysign, .yIn, (0, 3)⟩,
  ⟨some [(S (-2), S (-2))], .yOut, .mysign, .xIn, (3, 0)⟩,
  ⟨some [(S (-2), S (-3))], .xOut, .mysign, .yIn, (-1, 4)⟩,
  ⟨some [(S (-2), S (-3))], .yOut, .mysign, .xIn, (4, 1)⟩,
  ⟨some [(S (-3), S (-1))], .xOut, .mysign, .yIn, (2, 3)⟩,
  ⟨some [(S (-3), S (-1))], .yOut, .mysign, .xIn, (3, -2)⟩,
  ⟨some [(S (-3), S (-2))], .xOut, .mysign, .yIn, (1, 4)⟩,
  ⟨some [(S (-3), S (-2))], .yOut, .mysign, .xIn, (4, -1)⟩,
  ⟨some [(S (-3), S (-3))], .xOut, .mysign, .yIn, (0, 5)⟩,
  ⟨some [(S (-3), S (-3))], .yOut, .mysign, .xIn, (5, 0)⟩,
  ⟨some [(E 1, E 2)], .xOut, .mysign, .yIn, (1, -2)⟩,
  ⟨some [(E 2, E 1)], .yOut, .mysign, .xIn, (-2, 1)⟩,
  ⟨some [(E 1, E 3)], .xOut, .mysign, .yIn, (2, -3)⟩,
  ⟨some [(E 2, E 2)], .yOut, .mysign, .xIn, (-3, 0)⟩,
  ⟨some [(E 2, E 2)], .xOut, .mysign, .yIn, (0, -3)⟩,
  ⟨some [(E 1, E 4)], .xOut, .mysign, .yIn, (3, -4)⟩,
  ⟨some [(E 2, E 3)], .yOut, .mysign, .xIn, (-4, -1)⟩,
  ⟨some [(E 2, E 3)], .xOut, .mysign, .yIn, (1, -4)⟩,
  ⟨some [(E 3, E 1)], .yOut, .mysign, .xIn, (-3, 2)⟩,
  ⟨some [(E 3, E 2)], .yOut, .mysign, .xIn, (-4, 1)⟩,
  ⟨some [(E 3, E 2)], .xOut, .mysign, .yIn, (-1, -4)⟩,
  ⟨some [(E 2, E 4)], .xOut, .mysign, .yIn, (2, -5)⟩,
  ⟨some [(E 3, E 3)], .yOut, .mysign, .xIn, (-5, 0)⟩,
  ⟨some [(E 3, E 3)], .xOut, .mysign, .yIn, (0, -5)⟩,
  ⟨some [(E 4, E 1)], .yOut, .mysign, .xIn, (-4, 3)⟩,
  ⟨some [(E 4, E 2)], .yOut, .mysign, .xIn, (-5, 2)⟩,
  ⟨some [(E 3, E 4)], .xOut, .mysign, .yIn, (1, -6)⟩,
  ⟨some [(E 4, E 3)], .yOut, .mysign, .xIn, (-6, 1)⟩,
  ⟨some [(S (-1), E 2)], .xOut, .one, .yIn, (0, -2)⟩,
  ⟨some [(S (-1), E 2)], .yOut, .one, .xIn, (2, 0)⟩,
  ⟨some [(S (-1), E 1)], .yOut, .one, .xIn, (1, 1)⟩,
  ⟨some [(S (-1), E 3)], .xOut, .one, .yIn, (-1, -3)⟩,
  ⟨some [(S (-1), E 3)], .yOut, .one, .xIn, (3, -1)⟩,
  ⟨some [(S (-1), E 4)], .xOut, .one, .yIn, (-2, -4)⟩,
  ⟨some [(S (-2), E 2)], .xOut, .one, .yIn, (1, -3)⟩,
  ⟨some [(S (-2), E 2)], .yOut, .one, .xIn, (3, 1)⟩,
  ⟨some [(S (-2), E 1)], .yOut, .one, .xIn, (2, 2)⟩,
  ⟨some [(S (-2), E 3)], .xOut, .one, .yIn, (0, -4)⟩,
  ⟨some [(S (-2), E 3)], .yOut, .one, .xIn, (4, 0)⟩,
  ⟨some [(S (-2), E 4)], .xOut, .one, .yIn, (-1, -5)⟩,
  ⟨some [(S (-3), E 2)], .xOut, .one, .yIn, (2, -4)⟩,
  ⟨some [(S (-3), E 2)], .yOut, .one, .xIn, (4, 2)⟩,
  ⟨some [(S (-3), E 1)], .yOut, .one, .xIn, (3, 3)⟩,
  ⟨some [(S (-3), E 3)], .xOut, .one, .yIn, (1, -5)⟩,
  ⟨some [(S (-3), E 3)], .yOut, .one, .xIn, (5, 1)⟩,
  ⟨some [(S (-3), E 4)], .xOut, .one, .yIn, (0, -6)⟩,
  ⟨some [(E 1, S (-1))], .xOut, .one, .yIn, (1, 1)⟩,
  ⟨some [(E 2, S (-1))], .yOut, .one, .xIn, (-2, 0)⟩,
  ⟨some [(E 2, S (-1))], .xOut, .one, .yIn, (0, 2)⟩,
  ⟨some [(E 1, S (-2))], .xOut, .one, .yIn, (2, 2)⟩,
  ⟨some [(E 2, S (-2))], .yOut, .one, .xIn, (-3, 1)⟩,
  ⟨some [(E 2, S (-2))], .xOut, .one, .yIn, (1, 3)⟩,
  ⟨some [(E 1, S (-3))], .xOut, .one, .yIn, (3, 3)⟩,
  ⟨some [(E 2, S (-3))], .yOut, .one, .xIn, (-4, 2)⟩,
  ⟨some [(E 2, S (-3))], .xOut, .one, .yIn, (2, 4)⟩,
  ⟨some [(E 3, S (-1))], .yOut, .one, .xIn, (-3, -1)⟩,
  ⟨some [(E 3, S (-1))], .xOut, .one, .yIn, (-1, 3)⟩,
  ⟨some [(E 3, S (-2))], .yOut, .one, .xIn, (-4, 0)⟩,
  ⟨some [(E 3, S (-2))], .xOut, .one, .yIn, (0, 4)⟩,
  ⟨some [(E 3, S (-3))], .yOut, .one, .xIn, (-5, 1)⟩,
  ⟨some [(E 3, S (-3))], .xOut, .one, .yIn, (1, 5)⟩,
  ⟨some [(E 4, S (-1))], .yOut, .one, .xIn, (-4, -2)⟩,
  ⟨some [(E 4, S (-2))], .yOut, .one, .xIn, (-5, -1)⟩,
  ⟨some [(E 4, S (-3))], .yOut, .one, .xIn, (-6, 0)⟩]

/-! ### Execution -/

variable {K : Type} [Mul K]

/-- A storage: a value for each `i`, `j`, level. -/
abbrev Storage (K : Type) := Int → Int → Nat → K

/-- Whether a point is in one of the regions. -/
def inRegs (e : Ext) (regs : Option (List (Bound × Bound))) (i j : Int) : Bool :=
  match regs with
  | none => true
  | some rs => rs.any fun r => decide (i = r.1.at e.iS e.iE) && decide (j = r.2.at e.jS e.jE)

/-- The product with a factor. -/
def scale (env : Coef → K) (c : Coef) (v : K) : K :=
  match c with
  | .one => v
  | c => env c * v

/-- One assignment: at the points of the domain `dom` and the levels below `nk` that are in the
regions of the statement. `bind` is the storage each parameter is bound to. -/
def exec (e : Ext) (dom : Int → Int → Bool) (nk : Nat) (env : Coef → K) (bind : Param → Nat)
    (mem : Nat → Storage K) (t : Stmt) : Nat → Storage K :=
  fun s i j k =>
    if s = bind t.dst ∧ dom i j = true ∧ k < nk ∧ inRegs e t.regs i j = true then
      scale env t.coef (mem (bind t.src) (i + t.off.1) (j + t.off.2) k)
    else mem s i j k

/-- A stencil. The functions `fill_corners_..._mult_...` modify their local copy of `q` and return
it; `fill_corners_2cells_x_stencil` and `fill_corners_2cells_y_stencil` (69-76) assign it to
`q_out`: run with `q` bound to the storage of `q_out`. -/
def run (e : Ext) (dom : Int → Int → Bool) (nk : Nat) (env : Coef → K) (bind : Param → Nat)
    (tbl : List Stmt) (mem : Nat → Storage K) : Nat → Storage K :=
  tbl.foldl (exec e dom nk env bind) mem

end NDSL.Corner
