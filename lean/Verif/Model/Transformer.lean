import Verif.Model.NDArray

/-
Model of the CPU halo data transformer, `ndsl/halo/data_transformer.py` 113-560: packing the regions
of a list of quantities into one buffer and unpacking a buffer into regions.

Buffers are one-dimensional arrays, modelled as lists; a recycled buffer has arbitrary contents.
-/
namespace NDSL

/-- A quantity as the transformer sees it: dimension records (dims, origin, extent, shape) and data. -/
structure Qty (α : Type) where
  ds : List DimSpec
  data : NArr α

/-- dims of a quantity -/
abbrev Qty.dims {α : Type} (q : Qty α) : List Dim := q.ds.map (·.dim)

/-- `HaloExchangeSpec`, 122-147. The specification's memory layout (strides, itemsize) only matters
for the GPU transformer; here the quantity itself supplies dims and data. -/
structure ExSpec where
  packSlices : List Slice
  rot : Int
  unpackSlices : List Slice
  deriving DecidableEq, Repr

/-- `_slices_size`, 113-119. -/
def slicesSize (sl : List Slice) : Int :=
  sl.foldl (fun n s => n * ((s.start - s.stop).natAbs : Int)) 1

/-- `Buffer.assign_from(source, buffer_slice=[offset : offset+size])`, `ndsl/buffer.py` 98-106 with
NumPy's shape check: the slice is clipped to the buffer, the lengths must agree, except that a source
of length one is broadcast. -/
def writeAt {α : Type} (buf : List α) (offset size : Nat) (src : List α) : Except Err (List α) :=
  let len := min (offset + size) buf.length - min offset buf.length
  if src.length = len then .ok (buf.take offset ++ src ++ buf.drop (offset + len))
  else match src with
    | [c] => .ok (buf.take offset ++ List.replicate len c ++ buf.drop (offset + len))
    | _ => .error .valueError

/-- `buffer.array[offset : offset+size]`, NumPy slice of a one-dimensional array -/
def readAt {α : Type} (buf : List α) (offset size : Nat) : List α := (buf.drop offset).take size

/-- `_pack_scalar`, 428-445, the loop -/
def packScalarLoop {α : Type} :
    List (Qty α × ExSpec) → Nat → List α → Except Err (List α)
  | [], _, buf => .ok buf
  | (q, info) :: rest, offset, buf => do
    let dataSize := (slicesSize info.packSlices).toNat
    let view := rotateScalar q.dims (-info.rot) (q.data.slice info.packSlices)
    let buf ← writeAt buf offset dataSize view.flatten
    packScalarLoop rest (offset + dataSize) buf

/-- `_pack_scalar`, 418-445 -/
def packScalar {α : Type} (qs : List (Qty α)) (infos : List ExSpec) (buf : List α) :
    Except Err (List α) :=
  if qs.length ≠ infos.length then .error .runtimeError
  else packScalarLoop (qs.zip infos) 0 buf

/-- one quantity of `_unpack_scalar`, 522-530: `assign_to` (`ndsl/buffer.py` 79-96) with reshape -/
def unpackOne {α : Type} [Inhabited α] (q : Qty α) (sl : List Slice) (buf : List α) (offset : Nat) :
    Except Err (Qty α) := do
  let dataSize := (slicesSize sl).toNat
  let v ← NArr.reshape (readAt buf offset dataSize) ((q.data.slice sl).shape)
  return { q with data := q.data.assign sl v }

/-- `_unpack_scalar`, 521-530, the loop -/
def unpackScalarLoop {α : Type} [Inhabited α] :
    List (Qty α × ExSpec) → Nat → List α → Except Err (List (Qty α))
  | [], _, _ => .ok []
  | (q, info) :: rest, offset, buf => do
    let q' ← unpackOne q info.unpackSlices buf offset
    let rest' ← unpackScalarLoop rest (offset + (slicesSize info.unpackSlices).toNat) buf
    return q' :: rest'

/-- `_unpack_scalar`, 511-530 -/
def unpackScalar {α : Type} [Inhabited α] (qs : List (Qty α)) (infos : List ExSpec)
    (buf : List α) : Except Err (List (Qty α)) :=
  if qs.length ≠ infos.length then .error .runtimeError
  else unpackScalarLoop (qs.zip infos) 0 buf

/-- a vector quantity: x and y component with their exchange specs -/
structure VecItem (α : Type) where
  qx : Qty α
  qy : Qty α
  ix : ExSpec
  iy : ExSpec

/-- `_pack_vector`, 464-493, the loop (the offsets advance by the sizes of the rotated views) -/
def packVectorLoop {α : Type} [Neg α] : List (VecItem α) → Nat → List α → Except Err (List α)
  | [], _, buf => .ok buf
  | it :: rest, offset, buf => do
    let r := rotateVector it.qx.dims (-it.ix.rot) (it.qx.data.slice it.ix.packSlices)
      (it.qy.data.slice it.iy.packSlices)
    let fx := r.1.flatten
    let buf ← writeAt buf offset fx.length fx
    let fy := r.2.flatten
    let buf ← writeAt buf (offset + fx.length) fy.length fy
    packVectorLoop rest (offset + fx.length + fy.length) buf

/-- `_unpack_vector`, 548-567, the loop -/
def unpackVectorLoop {α : Type} [Inhabited α] :
    List (VecItem α) → Nat → List α → Except Err (List (Qty α × Qty α))
  | [], _, _ => .ok []
  | it :: rest, offset, buf => do
    let qx ← unpackOne it.qx it.ix.unpackSlices buf offset
    let offset := offset + (slicesSize it.ix.unpackSlices).toNat
    let qy ← unpackOne it.qy it.iy.unpackSlices buf offset
    let offset := offset + (slicesSize it.iy.unpackSlices).toNat
    let rest' ← unpackVectorLoop rest offset buf
    return (qx, qy) :: rest'

/-- the buffer size of `_compile`, 311-334 (scalar: sum of pack sizes) -/
def packBufferSize (infos : List ExSpec) : Int :=
  infos.foldl (fun n i => n + slicesSize i.packSlices) 0

end NDSL
