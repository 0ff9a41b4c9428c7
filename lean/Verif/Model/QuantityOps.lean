import Verif.Model.NDArray

/-
Model of `Quantity.transpose` and `Quantity.swap_buffer` (`ndsl/quantity/quantity.py`).

The memory layout is not modelled: the constructor may copy the data to another layout (109-123), which
changes no value.
-/
namespace NDSL
variable {α : Type}

/-- a quantity with its metadata -/
structure TQty (α : Type) where
  dims : List Dim
  units : String
  origin : List Int
  extent : List Int
  nHalo : Int
  data : NArr α
  /-- the data type is the configured precision or not floating point, 63-71 -/
  precisionOk : Bool

/-- an entry of `target_dims`: a name or several alternatives -/
inductive Target where
  | name (d : Dim)
  | any (ds : List Dim)

/-- one entry of `_collapse_dims`, 468-491 -/
def collapseOne (dims : List Dim) : Target → Except Err Dim
  | .name d => if d ∈ dims then .ok d else .error .valueError
  | .any ds =>
    match ds.filter (· ∈ dims) with
    | [d] => .ok d
    | _ => .error .valueError

/-- `_collapse_dims`, 464-492 -/
def collapseDims (targets : List Target) (dims : List Dim) : Except Err (List Dim) :=
  targets.mapM (collapseOne dims)

/-- `_transpose_sequence`, 460-461 -/
def transposeSeq (l : List Int) (order : List Nat) : List Int := order.map fun a => NArr.ent l a

/-- `numpy.transpose(m, order)`: `ValueError` unless `order` is a permutation of the axes -/
def npTranspose (m : NArr α) (order : List Nat) : Except Err (NArr α) :=
  if order.length = m.shape.length ∧ (List.range m.shape.length).all (fun a => decide (a ∈ order)) = true then
    .ok ⟨transposeSeq m.shape order,
      fun idx => m.get ((List.range m.shape.length).map fun a => NArr.ent idx (order.idxOf a))⟩
  else .error .valueError

/-- the constructor, 31-146: precision, then one name, origin and extent per axis -/
def TQty.mk' (dims : List Dim) (units : String) (origin extent : List Int) (nHalo : Int) (data : NArr α)
    (precisionOk allowMismatch : Bool) : Except Err (TQty α) :=
  if !allowMismatch && !precisionOk then .error .valueError
  else if dims.length ≠ data.shape.length ∨ origin.length ≠ data.shape.length ∨
      extent.length ≠ data.shape.length then .error .valueError
  else .ok ⟨dims, units, origin, extent, nHalo, data, precisionOk⟩

/-- `Quantity.transpose`, 394-447 (the halo width is not passed on: the constructor's default is 0) -/
def TQty.transpose (q : TQty α) (targets : List Target) (allowMismatch : Bool) : Except Err (TQty α) := do
  let td ← collapseDims targets q.dims
  let order := td.map fun d => q.dims.idxOf d
  let data ← npTranspose q.data order
  TQty.mk' (order.map fun a => q.dims.getD a .i) q.units (transposeSeq q.origin order)
    (transposeSeq q.extent order) 0 data q.precisionOk allowMismatch

/-- Python's `<` on tuples of integers -/
def tupleLt : List Int → List Int → Bool
  | _, [] => false
  | [], _ :: _ => true
  | a :: as, b :: bs => if a = b then tupleLt as bs else decide (a < b)

/-- `swap_buffer`, 280-299, for an array -/
def TQty.swapBuffer (q : TQty α) (data : NArr α) : Except Err (TQty α) :=
  if tupleLt data.shape q.extent then .error .valueError
  else .ok { q with data := data }

end NDSL
