import Verif.Model.GridIndexing
import Verif.Model.CornerStencils

/-
Model of the array versions of the corner fills, `ndsl/stencils/corners.py` 16-26 and 504-874:
loops of assignments of one column of an array to another, in place.

Simplifications: arrays are total functions (no out-of-bounds accesses; the indices used are not
negative because `isc = n_halo`); `x` and `y` are different arrays; a slice of levels is a
predicate on levels. One assignment in the code has a slice of rows where an index was meant
(`q[iec + 1 + i, jec + 1 + j :]`, 563 and 567): `rowsFrom`, with the number of rows of the array.
-/
namespace NDSL.Corner

open Indexing

/-- The arrays: `x` (or the only array `q`) and `y`. -/
inductive Arr where | x | y
  deriving DecidableEq, Repr

/-- `dst[di, dj, levels] = (mysign *) src[si, sj, levels]`; with `rowsFrom` the destination is
`dst[di, dj:]`. -/
structure PA where
  dst : Arr
  di : Int
  dj : Int
  src : Arr
  si : Int
  sj : Int
  sign : Bool := false
  rowsFrom : Bool := false
  deriving DecidableEq, Repr

/-- Whether an assignment writes a point. -/
def PA.targets (rows : Int) (a : PA) (s : Arr) (i j : Int) : Bool :=
  decide (s = a.dst) && decide (i = a.di) &&
    (if a.rowsFrom then decide (a.dj ≤ j) && decide (j < rows) else decide (j = a.dj))

section
variable {K : Type} [Mul K]

/-- One assignment. -/
def PA.exec (rows : Int) (lev : Nat → Bool) (mysign : K) (mem : Arr → Storage K) (a : PA) :
    Arr → Storage K :=
  fun s i j k =>
    if a.targets rows s i j = true ∧ lev k = true then
      if a.sign then mysign * mem a.src a.si a.sj k else mem a.src a.si a.sj k
    else mem s i j k

/-- A sequence of assignments. -/
def runArr (rows : Int) (lev : Nat → Bool) (mysign : K) (l : List PA) (mem : Arr → Storage K) :
    Arr → Storage K :=
  l.foldl (PA.exec rows lev mysign) mem
end

/-- `for i in range(1, 1 + n): for j in range(1, 1 + n): body`. -/
def loop2 {α : Type} (n : Nat) (body : Int → Int → List α) : List α :=
  (List.range n).flatMap fun (i : Nat) => (List.range n).flatMap fun (j : Nat) =>
    body ((i : Int) + 1) ((j : Int) + 1)

/-- `sw_corner`, `nw_corner`, `se_corner`, `ne_corner`, `ndsl/dsl/stencil.py` 744-758. -/
def swCorner (g : GridIndexing) : Bool := g.southEdge && g.westEdge
def nwCorner (g : GridIndexing) : Bool := g.northEdge && g.westEdge
def seCorner (g : GridIndexing) : Bool := g.southEdge && g.eastEdge
def neCorner (g : GridIndexing) : Bool := g.northEdge && g.eastEdge

/-- `fill_{sw,nw,se,ne}_corner_2d_agrid`, 572-649. -/
def agridSW (g : GridIndexing) (dir : Bool) (i j : Int) : List PA :=
  if dir then [{ dst := .x, di := g.isc - i, dj := g.jsc - j, src := .x, si := g.isc - j, sj := g.jsc + i - 1 }]
  else [{ dst := .x, di := g.isc - j, dj := g.jsc - i, src := .x, si := g.isc + i - 1, sj := g.jsc - j }]
def agridNW (g : GridIndexing) (dir : Bool) (i j : Int) : List PA :=
  if dir then [{ dst := .x, di := g.isc - i, dj := g.jec + j, src := .x, si := g.isc - j, sj := g.jec - i + 1 }]
  else [{ dst := .x, di := g.isc - j, dj := g.jec + i, src := .x, si := g.isc + i - 1, sj := g.jec + j }]
def agridSE (g : GridIndexing) (dir : Bool) (i j : Int) : List PA :=
  if dir then [{ dst := .x, di := g.iec + i, dj := g.jsc - j, src := .x, si := g.iec + j, sj := g.isc + i - 1 }]
  else [{ dst := .x, di := g.iec + j, dj := g.jsc - i, src := .x, si := g.iec - i + 1, sj := g.jsc - j }]
def agridNE (g : GridIndexing) (dir : Bool) (i j : Int) : List PA :=
  if dir then [{ dst := .x, di := g.iec + i, dj := g.jec + j, src := .x, si := g.iec + j, sj := g.jec - i + 1 }]
  else [{ dst := .x, di := g.iec + j, dj := g.jec + i, src := .x, si := g.iec - i + 1, sj := g.jec + j }]

/-- `fill_{sw,nw,se,ne}_corner_2d_bgrid`, 504-569. -/
def bgridSW (g : GridIndexing) (dir : Bool) (i j : Int) : List PA :=
  if dir then [{ dst := .x, di := g.isc - i, dj := g.jsc - j, src := .x, si := g.isc - j, sj := g.jsc + i }]
  else [{ dst := .x, di := g.isc - j, dj := g.jsc - i, src := .x, si := g.isc + i, sj := g.jsc - j }]
def bgridNW (g : GridIndexing) (dir : Bool) (i j : Int) : List PA :=
  if dir then [{ dst := .x, di := g.isc - i, dj := g.jec + 1 + j, src := .x, si := g.isc - j, sj := g.jec + 1 - i }]
  else [{ dst := .x, di := g.isc - j, dj := g.jec + 1 + i, src := .x, si := g.isc + i, sj := g.jec + 1 + j }]
def bgridSE (g : GridIndexing) (dir : Bool) (i j : Int) : List PA :=
  if dir then [{ dst := .x, di := g.iec + 1 + i, dj := g.jsc - j, src := .x, si := g.iec + 1 + j, sj := g.jsc + i }]
  else [{ dst := .x, di := g.iec + 1 + j, dj := g.jsc - i, src := .x, si := g.iec + 1 - i, sj := g.jsc - j }]
def bgridNE (g : GridIndexing) (dir : Bool) (i j : Int) : List PA :=
  if dir then [{ dst := .x, di := g.iec + 1 + i, dj := g.jec + 1 + j, src := .x, si := g.iec + 1 + j, sj := g.jec + 1 - i, rowsFrom := true }]
  else [{ dst := .x, di := g.iec + 1 + i, dj := g.jec + 1 + j, src := .x, si := g.iec + 1 - i, sj := g.jec + 1 + j, rowsFrom := true }]

/-- One iteration of `fill_corners_2d_bgrid`, 667-679, and `fill_corners_2d_agrid`, 682-694. -/
def corners4 (g : GridIndexing) (sw nw se ne : List PA) : List PA :=
  (if swCorner g then sw else []) ++ (if nwCorner g then nw else []) ++
  (if seCorner g then se else []) ++ (if neCorner g then ne else [])

def bgridArray (g : GridIndexing) (n : Nat) (dir : Bool) : List PA :=
  loop2 n fun i j => corners4 g (bgridSW g dir i j) (bgridNW g dir i j) (bgridSE g dir i j)
    (bgridNE g dir i j)

def agridArray (g : GridIndexing) (n : Nat) (dir : Bool) : List PA :=
  loop2 n fun i j => corners4 g (agridSW g dir i j) (agridNW g dir i j) (agridSE g dir i j)
    (agridNE g dir i j)

/-- `fill_corners_agrid`, 697-734: each component from the other one. -/
def agridVector (g : GridIndexing) (n : Nat) : List PA :=
  loop2 n fun i j => corners4 g
    [{ dst := .x, di := g.nHalo - i, dj := g.nHalo - j, src := .y, si := g.nHalo - j, sj := g.nHalo - 1 + i, sign := true },
     { dst := .y, di := g.nHalo - j, dj := g.nHalo - i, src := .x, si := g.nHalo - 1 + i, sj := g.nHalo - j, sign := true }]
    [{ dst := .x, di := g.nHalo - i, dj := g.jec + j, src := .y, si := g.nHalo - j, sj := g.jec - i + 1 },
     { dst := .y, di := g.nHalo - j, dj := g.jec + i, src := .x, si := g.nHalo - 1 + i, sj := g.jec + j }]
    [{ dst := .x, di := g.iec + i, dj := g.nHalo - j, src := .y, si := g.iec + j, sj := g.nHalo - 1 + i },
     { dst := .y, di := g.iec + j, dj := g.nHalo - i, src := .x, si := g.iec - i + 1, sj := g.nHalo - j }]
    [{ dst := .x, di := g.iec + i, dj := g.jec + j, src := .y, si := g.iec + j, sj := g.jec - i + 1, sign := true },
     { dst := .y, di := g.iec + j, dj := g.jec + i, src := .x, si := g.iec - i + 1, sj := g.jec + j, sign := true }]

/-- `fill_corners_dgrid`, 791-806, and `fill_{sw,nw,se,ne}_corner_vector_dgrid`, 737-788. -/
def dgridVector (g : GridIndexing) (n : Nat) : List PA :=
  loop2 n fun i j => corners4 g
    [{ dst := .x, di := g.isc - i, dj := g.jsc - j, src := .y, si := g.isc - j, sj := i + 2, sign := true },
     { dst := .y, di := g.isc - i, dj := g.jsc - j, src := .x, si := j + 2, sj := g.jsc - i, sign := true }]
    [{ dst := .x, di := g.isc - i, dj := g.jec + 1 + j, src := .y, si := g.isc - j, sj := g.jec + 1 - i },
     { dst := .y, di := g.isc - i, dj := g.jec + j, src := .x, si := j + 2, sj := g.jec + 1 + i }]
    [{ dst := .x, di := g.iec + i, dj := g.jsc - j, src := .y, si := g.iec + 1 + j, sj := i + 2 },
     { dst := .y, di := g.iec + 1 + i, dj := g.jsc - j, src := .x, si := g.iec - j + 1, sj := g.jsc - i }]
    [{ dst := .x, di := g.iec + i, dj := g.jec + 1 + j, src := .y, si := g.iec + 1 + j, sj := g.jec - i + 1, sign := true },
     { dst := .y, di := g.iec + 1 + i, dj := g.jec + j, src := .x, si := g.iec - j + 1, sj := g.jec + 1 + i, sign := true }]

/-- `fill_corners_cgrid`, 859-874, and `fill_{sw,nw,se,ne}_corner_vector_cgrid`, 809-856. -/
def cgridVector (g : GridIndexing) (n : Nat) : List PA :=
  loop2 n fun i j => corners4 g
    [{ dst := .x, di := g.isc - i, dj := g.jsc - j, src := .y, si := j + 2, sj := g.jsc - i },
     { dst := .y, di := g.isc - i, dj := g.jsc - j, src := .x, si := g.isc - j, sj := i + 2 }]
    [{ dst := .x, di := g.isc - i, dj := g.jec + j, src := .y, si := j + 2, sj := g.jec + 1 + i, sign := true },
     { dst := .y, di := g.isc - i, dj := g.jec + 1 + j, src := .x, si := g.isc - j, sj := g.jec + 1 - i, sign := true }]
    [{ dst := .x, di := g.iec + 1 + i, dj := g.jsc - j, src := .y, si := g.iec + 1 - j, sj := g.jsc - i, sign := true },
     { dst := .y, di := g.iec + i, dj := g.jsc - j, src := .x, si := g.iec + 1 + j, sj := i + 2, sign := true }]
    [{ dst := .x, di := g.iec + 1 + i, dj := g.jec + j, src := .y, si := g.iec + 1 - j, sj := g.jec + 1 + i },
     { dst := .y, di := g.iec + i, dj := g.jec + 1 + j, src := .x, si := g.iec + 1 + j, sj := g.jec + 1 - i }]

/-- `kslice_from_inputs(0, None, grid_indexer)`, 16-26: the levels below `domain[2]`. -/
def kslice (g : GridIndexing) (k : Nat) : Bool := decide ((k : Int) < g.domain.2.2)

section
variable {K : Type} [Mul K]

/-- `fill_corners_2d`, 652-664, of an array with `rows` rows; `dir` is `direction == "i"`. -/
def fillCorners2dA (g : GridIndexing) (rows : Int) (dir : Bool) (one : K) (mem : Arr → Storage K) :
    Arr → Storage K :=
  runArr rows (kslice g) one (agridArray g g.nHalo.toNat dir) mem
def fillCorners2dB (g : GridIndexing) (rows : Int) (dir : Bool) (one : K) (mem : Arr → Storage K) :
    Arr → Storage K :=
  runArr rows (fun _ => true) one (bgridArray g g.nHalo.toNat dir) mem
end

end NDSL.Corner
