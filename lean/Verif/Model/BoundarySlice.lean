import Verif.Model.Decomposition

/-
Model of `ndsl/comm/_boundary_utils.py` (boundary regions of a quantity) and of the views of
`ndsl/quantity/bounds.py`.

Simplification: the parallel tuples `dims`, `origin`, `extent`, `shape` of a quantity are one list of
per-dimension records. `Quantity.__init__` line 88 (`_validate_quantity_property_lengths`) rejects
tuples of different lengths, so `zip` never drops an entry.
-/
namespace NDSL

/-- One dimension of `QuantityMetadata` / `QuantityHaloSpec`, `ndsl/quantity/metadata.py` 19-36 and
66-77. -/
structure DimSpec where
  dim : Dim
  origin : Int
  extent : Int
  shape : Int
  deriving DecidableEq, Repr

/-- `boundary_at_start_of_dim` and `BOUNDARY_AT_START_OF_DIM_MAPPING`, `_boundary_utils.py` 123-152.
(`none` is Python's `None`.) -/
def atStart (b : BType) (d : Dim) : Option Bool :=
  match b with
  | .west => if d.isI then some true else none
  | .east => if d.isI then some false else none
  | .south => if d.isJ then some true else none
  | .north => if d.isJ then some false else none
  | .northwest => if d.isJ then some false else if d.isI then some true else none
  | .northeast => if d.isJ then some false else if d.isI then some false else none
  | .southwest => if d.isJ then some true else if d.isI then some true else none
  | .southeast => if d.isJ then some true else if d.isI then some false else none

/-- Start and stop for one dimension of `get_boundary_slice`, 86-108. -/
def rawBoundarySlice (b : BType) (nHalo : Int) (interior : Bool) (d : DimSpec) : Slice :=
  let nOverlap := if d.dim.isInterface then 1 else 0
  if !d.dim.isHorizontal then ⟨d.origin, d.origin + d.extent⟩
  else match atStart b d.dim with
    | none => ⟨d.origin, d.origin + d.extent⟩
    | some true =>
      let edge := d.origin
      if interior then
        let edge := edge + nOverlap
        ⟨edge, edge + nHalo⟩
      else ⟨edge - nHalo, edge⟩
    | some false =>
      let edge := d.origin + d.extent
      if interior then
        let edge := edge - nOverlap
        ⟨edge - nHalo, edge⟩
      else ⟨edge, edge + nHalo⟩

/-- One dimension of `get_boundary_slice`, 85-119. -/
def dimBoundarySlice (b : BType) (nHalo : Int) (interior : Bool) (d : DimSpec) : Except Err Slice :=
  let s := rawBoundarySlice b nHalo interior d
  if s.start < 0 then .error .indexError
  else if s.stop > d.shape then .error .indexError
  else .ok s

/-- `get_boundary_slice`, `_boundary_utils.py` 74-120; also `SimpleBoundary._slice`,
`comm/boundary.py` 105-117 (`send_slice` is `interior = true`, `recv_slice` is `false`). -/
def boundarySlice (b : BType) (nHalo : Int) (interior : Bool) (ds : List DimSpec) :
    Except Err (List Slice) :=
  ds.mapM (dimBoundarySlice b nHalo interior)

/-- `Quantity.halo_spec`, `quantity/quantity.py` 201-220: the number of points of the specification,
or `ValueError`. -/
def haloSpecPoints (available requested : Int) : Except Err Int :=
  if requested > available then .error .valueError else .ok requested

/-! ### Views, `ndsl/quantity/bounds.py` -/

/-- An entry of an index tuple: an integer or a slice without step. (Steps and `None` entries are not
modelled.) -/
inductive Entry where
  | int (i : Int)
  | sl (start stop : Option Int)
  deriving DecidableEq, Repr

/-- `_shift_index`, `bounds.py` 201-208. -/
def shiftIndex (v : Option Int) (shift extent : Int) : Option Int :=
  v.map fun x =>
    let y := x + shift
    if y < 0 then extent + y else y

/-- One entry of `BoundedArrayView._get_compute_index`, 158-168, with `_shift_slice` 195-198 and
`bound_default_slice` (`_boundary_utils.py` 22-31). -/
def computeEntry (d : DimSpec) : Entry → Entry
  | .int i => .int (i + d.origin)
  | .sl a b =>
    .sl (some ((shiftIndex a d.origin d.extent).getD d.origin))
      (some ((shiftIndex b d.origin d.extent).getD (d.origin + d.extent)))

/-- `_fill_index`, 191-192. -/
def fillIndex (index : List Entry) (length : Nat) : List Entry :=
  index ++ List.replicate (length - index.length) (.sl none none)

/-- `BoundedArrayView._get_compute_index`, 148-169. -/
def computeIndex (ds : List DimSpec) (index : List Entry) : Except Err (List Entry) :=
  if index.length > ds.length then .error .indexError
  else .ok ((ds.zip (fillIndex index ds.length)).map fun (d, e) => computeEntry d e)

/-- Views of the corners (by boundary type) and `interior`, `bounds.py` 106-119. -/
inductive ViewKind where
  | corner (b : BType)
  | interior
  deriving DecidableEq, Repr

/-- `_get_offset`, `_boundary_utils.py` 58-71. -/
def viewOffset (v : ViewKind) (d : DimSpec) : Int × Int :=
  match v with
  | .interior => (d.origin, d.origin + d.extent)
  | .corner b =>
    match atStart b d.dim with
    | none => (d.origin, d.origin)
    | some true => (d.origin, d.origin)
    | some false => (d.origin + d.extent, d.origin + d.extent)

/-- `_shift_boundary_slice`, `_boundary_utils.py` 34-55. -/
def boundaryEntry (v : ViewKind) (d : DimSpec) : Entry → Entry
  | .int i => .int (i + (viewOffset v d).1)
  | .sl a b =>
    .sl (some ((a.map (· + (viewOffset v d).1)).getD d.origin))
      (some ((b.map (· + (viewOffset v d).2)).getD (d.origin + d.extent)))

/-- `BoundaryArrayView._get_array_index`, `bounds.py` 42-56, with `shift_boundary_slice_tuple`. -/
def boundaryIndex (v : ViewKind) (ds : List DimSpec) (index : List Entry) :
    Except Err (List Entry) :=
  if index.length > ds.length then .error .indexError
  else .ok ((ds.zip (fillIndex index ds.length)).map fun (d, e) => boundaryEntry v d e)

/-- numpy basic indexing of one axis of length `n` by an integer: negative indices count from the
end of the array. -/
def npInt (n i : Int) : Except Err Int :=
  let j := if i < 0 then n + i else i
  if 0 ≤ j ∧ j < n then .ok j else .error .indexError

/-- numpy/Python slice bound resolution (`slice.indices`, step 1): negative bounds count from the end,
then clip to `[0, n]`. -/
def npBound (n i : Int) : Int :=
  let j := if i < 0 then n + i else i
  max 0 (min j n)

/-- positions of one axis addressed by an entry: one position, or a half-open range -/
def npEntry (n : Int) : Entry → Except Err Slice
  | .int i => (npInt n i).map fun j => ⟨j, j + 1⟩
  | .sl a b => .ok ⟨npBound n (a.getD 0), npBound n (b.getD n)⟩

/-- the array region addressed by a shifted index tuple -/
def addressed (ds : List DimSpec) (index : Except Err (List Entry)) : Except Err (List Slice) :=
  index.bind fun es => (ds.zip es).mapM fun (d, e) => npEntry d.shape e

end NDSL
