import Verif.Model.Transformer

/-
Model of the GPU halo data transformer: `_build_flatten_indices`, `_flatten_indices` and the kernel
launches of `HaloDataTransformerGPU` (`ndsl/halo/data_transformer.py` 61-106, 608-644, 738-1015), and the
kernels of `ndsl/halo/cuda_kernels.py`.

A kernel launch is a collection of threads; threads of one launch, and of launches on different streams,
run in any order. A thread writes at most one element. Device memory is a list of elements; an access
outside of it is a fault. The choice between the float32 and float64 kernel and the streams themselves
are not modelled. `-1.0 * x` is negation.
-/
namespace NDSL

/-- `sum(np.array(idx) * strides)`, in bytes -/
def byteOffset (strides idx : List Int) : Int := (List.zipWith (· * ·) idx strides).foldl (· + ·) 0

/-- element offset of an index, the expression of `_build_flatten_indices` 86 and 96 -/
def elemOffset (strides : List Int) (itemsize : Int) (idx : List Int) : Int :=
  byteOffset strides idx / itemsize

/-- `_build_flatten_indices`, 61-106. The slices are inside the array (they come from
`get_boundary_slice`, which checks this), so slicing the scratch array does not clip. -/
def buildIndices (dims : List Dim) (slices : List Slice) (strides : List Int) (itemsize : Int)
    (rotate : Bool) (rot : Int) : List Int :=
  let offset := elemOffset strides itemsize (slices.map Slice.start)
  let arr : NArr Int := ⟨slices.map fun s => max 0 (s.stop - s.start),
    fun idx => offset + elemOffset strides itemsize idx⟩
  (if rotate then rotateScalar dims (-rot) arr else arr).flatten

/-- A quantity in device memory: its elements, and the layout of the specification. -/
structure GQty (α : Type) where
  q : Qty α
  mem : List α
  strides : List Int
  itemsize : Int

/-- what one thread does -/
inductive Thread (α : Type) where
  | skip
  | fault
  | write (pos : Int) (v : α)

/-- one thread on the memory written by the kernel -/
def Thread.step {α : Type} (buf : List α) : Thread α → Option (List α)
  | .skip => some buf
  | .fault => none
  | .write p v => if 0 ≤ p ∧ p.toNat < buf.length then some (buf.set p.toNat v) else none

/-- run threads in an order -/
def runThreads {α : Type} (ts : List (Thread α)) (buf : List α) : Option (List α) :=
  ts.foldlM Thread.step buf

/-- read `src[i_indexes[tid]]` and write it to `pos` -/
def gatherThread {α : Type} (f : α → α) (src : List α) (idxs : List Int) (tid : Nat) (pos : Int) :
    Thread α :=
  match idxs[tid]? with
  | none => .fault
  | some ix => if 0 ≤ ix then
      match src[ix.toNat]? with
      | none => .fault
      | some v => .write pos (f v)
    else .fault

/-- read `src[pos]` and write it to `i_indexes[tid]` -/
def scatterThread {α : Type} (src : List α) (idxs : List Int) (tid pos : Nat) : Thread α :=
  match src[pos]?, idxs[tid]? with
  | some v, some ix => .write ix v
  | _, _ => .fault

/-- `pack_scalar`, `cuda_kernels.py` 15-34 -/
def packThread {α : Type} (src : List α) (idxs : List Int) (n offset tid : Nat) : Thread α :=
  if tid ≥ n then .skip else gatherThread id src idxs tid (offset + tid)

/-- `unpack_scalar`, `cuda_kernels.py` 46-62 -/
def unpackThread {α : Type} (src : List α) (idxs : List Int) (n offset tid : Nat) : Thread α :=
  if tid ≥ n then .skip else scatterThread src idxs tid (offset + tid)

/-- number of threads of a launch: `grid_x = size // 128 + 1` blocks of 128, e.g. 756-757 -/
def launchSize (n : Nat) : Nat := (n / 128 + 1) * 128

/-- `_opt_pack_scalar`, `data_transformer.py` 738-791: the threads of all launches -/
def gpuPackScalar {α : Type} : List (GQty α × ExSpec) → Nat → List (Thread α)
  | [], _ => []
  | (g, info) :: rest, offset =>
    let n := (slicesSize info.packSlices).toNat
    (List.range (launchSize n)).map (packThread g.mem
      (buildIndices g.q.dims info.packSlices g.strides g.itemsize true info.rot) n offset) ++
    gpuPackScalar rest (offset + n)

/-- `_opt_unpack_scalar`, 890-942: per quantity, the threads writing its memory -/
def gpuUnpackScalar {α : Type} (buf : List α) : List (GQty α × ExSpec) → Nat → List (List (Thread α))
  | [], _ => []
  | (g, info) :: rest, offset =>
    let n := (slicesSize info.unpackSlices).toNat
    (List.range (launchSize n)).map (unpackThread buf
      (buildIndices g.q.dims info.unpackSlices g.strides g.itemsize false info.rot) n offset) ::
    gpuUnpackScalar buf rest (offset + n)

/-- `pack_vector`, `cuda_kernels.py` 118-168 -/
def packVectorThread {α : Type} [Neg α] (sx sy : List α) (ix iy : List Int) (nx ny offset : Nat)
    (rotate : Int) (tid : Nat) : Thread α :=
  if tid ≥ nx + ny then .skip
  else if rotate = 0 then
    if tid < nx then gatherThread id sx ix tid (offset + tid)
    else gatherThread id sy iy (tid - nx) (offset + tid)
  else if rotate = 1 then
    if tid < ny then gatherThread id sy iy tid (offset + tid)
    else gatherThread (- ·) sx ix (tid - ny) (offset + tid)
  else if rotate = 2 then
    if tid < nx then gatherThread (- ·) sx ix tid (offset + tid)
    else gatherThread (- ·) sy iy (tid - nx) (offset + tid)
  else if rotate = 3 then
    if tid < ny then gatherThread (- ·) sy iy tid (offset + tid)
    else gatherThread id sx ix (tid - ny) (offset + tid)
  else .skip

/-- a vector quantity in device memory with its exchange specs -/
structure GVec (α : Type) where
  x : GQty α
  y : GQty α
  ix : ExSpec
  iy : ExSpec

/-- the same, as the CPU transformer sees it -/
def GVec.item {α : Type} (v : GVec α) : VecItem α := ⟨v.x.q, v.y.q, v.ix, v.iy⟩

/-- `_opt_pack_vector`, 793-862 -/
def gpuPackVector {α : Type} [Neg α] : List (GVec α) → Nat → List (Thread α)
  | [], _ => []
  | v :: rest, offset =>
    let nx := (slicesSize v.ix.packSlices).toNat
    let ny := (slicesSize v.iy.packSlices).toNat
    (List.range (launchSize (nx + ny))).map (packVectorThread v.x.mem v.y.mem
      (buildIndices v.x.q.dims v.ix.packSlices v.x.strides v.x.itemsize true v.ix.rot)
      (buildIndices v.y.q.dims v.iy.packSlices v.y.strides v.y.itemsize true v.iy.rot)
      nx ny offset ((-v.ix.rot) % 4)) ++
    gpuPackVector rest (offset + (nx + ny))

/-- `unpack_vector`, `cuda_kernels.py` 188-206: the writes of a thread to the x and to the y memory -/
def unpackVectorThreadX {α : Type} (src : List α) (ix : List Int) (nx offset tid : Nat) : Thread α :=
  if tid < nx then scatterThread src ix tid (offset + tid) else .skip
def unpackVectorThreadY {α : Type} (src : List α) (iy : List Int) (nx ny offset tid : Nat) : Thread α :=
  if tid < nx then .skip
  else if tid < nx + ny then scatterThread src iy (tid - nx) (offset + tid) else .skip

/-- `_opt_unpack_vector`, 944-1010 -/
def gpuUnpackVector {α : Type} (buf : List α) :
    List (GVec α) → Nat → List (List (Thread α) × List (Thread α))
  | [], _ => []
  | v :: rest, offset =>
    let nx := (slicesSize v.ix.unpackSlices).toNat
    let ny := (slicesSize v.iy.unpackSlices).toNat
    let ix := buildIndices v.x.q.dims v.ix.unpackSlices v.x.strides v.x.itemsize false v.ix.rot
    let iy := buildIndices v.y.q.dims v.iy.unpackSlices v.y.strides v.y.itemsize false v.iy.rot
    ((List.range (launchSize (nx + ny))).map (unpackVectorThreadX buf ix nx offset),
      (List.range (launchSize (nx + ny))).map (unpackVectorThreadY buf iy nx ny offset)) ::
    gpuUnpackVector buf rest (offset + (nx + ny))

end NDSL
