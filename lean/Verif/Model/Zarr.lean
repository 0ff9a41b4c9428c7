import Verif.Model.Decomposition
/-
Model of `ndsl/monitor/zarr_monitor.py`. All ranks call the monitor together; a step of the model is
one call made by all of them. The broadcasts of the array (173-174) make every rank see the array as
the first rank left it, so the ranks share one array; after that each writes its own portion, in an
arbitrary order. A field of a rank is its dimensions, in order, its extents and the content of
`quantity.view[:]`, by name of dimension, so that transposing changes only the order. Data types,
the group and the attributes other than units are not modelled. Data outside a shrunk array is lost
(simplification: the part of it in a chunk that is still used would come back on growing again).
-/
namespace NDSL.Zarr

/-- The interior of a quantity on one rank. -/
structure Fld (V : Type) where
  dims : List Dim
  extent : List Int
  units : String
  val : (Dim → Int) → V

/-- An array of the store with dimensions time, tile and `dims`. `shape` is `array.shape[2:]`,
`chunks` the last entries of the chunk shape. `none` marks what has not been written. -/
structure ZArray (V : Type) where
  dims : List Dim
  nTime : Nat
  shape : List Int
  chunks : List Int
  units : String
  data : Nat → Int → List Int → Option V

/-- `_ZarrVariableWriter`, 125-138: `i_time` (the same on every rank) and the array. -/
structure Writer (V : Type) where
  iTime : Nat
  arr : Option (ZArray V)

/-- `__init__`, 126-138. -/
def Writer.new {V : Type} : Writer V := ⟨0, none⟩

/-- The index in a list of indices, by name of dimension. -/
def byName (dims : List Dim) (l : List Int) : Dim → Int :=
  fun d => ((dims.zip l).lookup d).getD 0

/-- `array_chunks`, 253-265. -/
def arrayChunks (layout : Int × Int) (tileShape : List Int) (dims : List Dim) : List Int :=
  (tileShape.zip (dims.zip (listByDims dims layout 1))).map fun (extent, d, n) =>
    if d.isInterface then (extent - 1) / n else extent / n

/-- `_init_zarr`, `_init_zarr_root`, 154-171, on the first rank. -/
def initZarr {V : Type} (p : CubePart) (q : Fld V) : ZArray V :=
  let shape := tileExtentFromRank q.dims q.extent p.tile.layout
  { dims := q.dims
    nTime := 1
    shape := shape
    chunks := arrayChunks p.tile.layout shape q.dims
    units := q.units
    data := fun _ _ _ => none }

/-- `_check_dims`, 183-196, and `_check_units`, 244-250. -/
def check {V : Type} (a : ZArray V) (q : Fld V) : Except Err Unit :=
  if ¬ (∀ d ∈ q.dims, d ∈ a.dims) then .error .valueError
  else if ¬ (∀ d ∈ a.dims, d ∈ q.dims) then .error .valueError
  else if a.units ≠ q.units then .error .valueError
  else .ok ()

/-- `_match_dim_order`, 176-181 (after `_check_dims`). -/
def matchDims {V : Type} (dims : List Dim) (q : Fld V) : Fld V :=
  if dims ≠ q.dims then
    { q with dims := dims, extent := dims.map fun d => ((q.dims.zip q.extent).lookup d).getD 0 }
  else q

/-- An index within an array of the given extents. -/
def inShape : List Int → List Int → Bool
  | [], [] => true
  | n :: ns, x :: xs => decide (0 ≤ x ∧ x < n) && inShape ns xs
  | _, _ => false

/-- `self.array.resize`, 207-213. -/
def resize {V : Type} (p : CubePart) (iTime : Nat) (q : Fld V) (a : ZArray V) : ZArray V :=
  let shape := tileExtentFromRank q.dims q.extent p.tile.layout
  { a with
    nTime := iTime + 1
    shape := shape
    data := fun k t g => if k < iTime + 1 ∧ inShape shape g = true then a.data k t g else none }

/-- An index within a tuple of slices. -/
def inSlices : List Slice → List Int → Bool
  | [], [] => true
  | s :: ss, x :: xs => decide (s.start ≤ x ∧ x < s.stop) && inSlices ss xs
  | _, _ => false

/-- `append`, 216-232, of one rank: the slices of the array (216-225), those of the quantity
(`_get_from_slice`, 268-273), and the assignment (232). A source shorter than the target raises. -/
def writeRank {V : Type} (p : CubePart) (fl : FloatOps) (iTime : Nat) (rank : Int) (q : Fld V)
    (a : ZArray V) : Except Err (ZArray V) := do
  let tile ← p.tileIndex rank
  let target ← rankSlice fl q.dims a.shape p.tile.layout (p.tile.subtileIndex rank) false
  if (target.zip q.extent).all (fun (s, n) => decide (s.stop - s.start ≤ n)) then
    return { a with
      data := fun k t g =>
        if k = iTime ∧ t = tile ∧ inSlices target g = true then
          some (q.val (byName q.dims ((g.zip target).map fun (x, s) => x - s.start)))
        else a.data k t g }
  else .error .valueError

/-- The array at the start of `append`, 201-202. -/
def Writer.start {V : Type} (w : Writer V) (p : CubePart) (q : Fld V) : ZArray V :=
  match w.arr with
  | none => initZarr p q
  | some a => a

/-- The array before the ranks write, 207-214. -/
def Writer.grow {V : Type} (w : Writer V) (p : CubePart) (q : Fld V) : ZArray V :=
  if (w.start p q).nTime ≤ w.iTime then
    resize p w.iTime (matchDims (w.start p q).dims q) (w.start p q)
  else w.start p q

/-- `_ZarrVariableWriter.append`, 198-233, called by all ranks; they write in the given order. -/
def Writer.append {V : Type} (w : Writer V) (p : CubePart) (fl : FloatOps) (order : List Int)
    (q : Int → Fld V) : Except Err (Writer V) := do
  order.forM fun r => check (w.start p (q 0)) (q r)
  let a ← order.foldlM (fun a r => writeRank p fl w.iTime r (matchDims a.dims (q r)) a)
    (w.grow p (q 0))
  return ⟨w.iTime + 1, some a⟩

/-- A run: one field after the other is appended. Each comes with the order in which the ranks
write. -/
def Writer.run {V : Type} (w : Writer V) (p : CubePart) (fl : FloatOps)
    (qs : List (List Int × (Int → Fld V))) : Except Err (Writer V) :=
  qs.foldlM (fun w (o, q) => w.append p fl o q) w

/-- The names of the writers of the monitor after `_ensure_writers_are_consistent`, 55-90, or the
error: the first state makes the writers, one for every key and one for "time"; later states need
exactly those keys. -/
def ensureWriters (writers : Option (List String)) (keys : List String) :
    Except Err (List String) :=
  match writers with
  | none => .ok ((keys.filter fun k => k ≠ "time") ++ ["time"])
  | some w =>
    if ¬ (∀ k ∈ keys, k ∈ w) then .error .valueError
    else if ¬ (∀ k ∈ w, k ∈ keys) then .error .valueError
    else .ok w

/-- `store_constant`, 106-119: the names written so far, or the error. -/
def storeConstant (constants : List String) (names : List String) : Except Err (List String) :=
  names.foldlM (fun cs n => if n ∈ cs then .error .runtimeError else .ok (cs ++ [n])) constants

end NDSL.Zarr
