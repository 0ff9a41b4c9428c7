import Verif.Model.NDArray
import Verif.Model.Decomposition

/-
Model of `Communicator.scatter` and `Communicator.gather` (`ndsl/comm/communicator.py` 149-291), on a tile
and on a cube (828-870): all ranks of the communicator together.

* `bcast` of the metadata gives every rank the root's metadata.
* `comm.Scatter(send, recv)` hands the r-th row of the contiguous send array to rank r, which stores it, in C
  order, in its receive array; a row and a receive array of different sizes raise. `comm.Gather` is the
  reverse. `send_buffer`/`recv_buffer` only provide contiguous copies (`ndsl/buffer.py` 134-201).
* The recycled buffer of `array_buffer` is overwritten row by row before it is used, so its previous contents
  are not modelled.
* A call that raises on any rank is an error of the whole operation.
-/
namespace NDSL
variable {α : Type}

/-- what scatter and gather use of a quantity -/
structure WQty (α : Type) where
  dims : List Dim
  origin : List Int
  extent : List Int
  data : NArr α

/-- index into the array of an index relative to the compute domain (`BoundedArrayView`,
`ndsl/quantity/bounds.py` 186-231) -/
def WQty.at (q : WQty α) (g : List Int) : List Int := List.zipWith (· + ·) q.origin g

/-- `quantity.view[:]` -/
def WQty.viewAll (q : WQty α) : NArr α := ⟨q.extent, fun g => q.data.get (q.at g)⟩

/-- `quantity.view[lead + slices]`: integers, then slices -/
def WQty.viewAt (q : WQty α) (lead : List Int) (sl : List Slice) : NArr α where
  shape := sl.map fun s => s.stop - s.start
  get i := q.data.get (q.at (lead ++ List.zipWith (fun s k => s.start + k) sl i))

/-- slices of one element for integer indices -/
def fullSlices (lead : List Int) (sl : List Slice) : List Slice :=
  lead.map (fun t => ⟨t, t + 1⟩) ++ sl

/-- shift slices by the origin -/
def shiftSlices (origin : List Int) (sl : List Slice) : List Slice :=
  List.zipWith (fun o s => ⟨o + s.start, o + s.stop⟩) origin sl

/-- `quantity.view[lead + slices] = v`, `v` of the shape of the slices -/
def WQty.setAt (q : WQty α) (lead : List Int) (sl : List Slice) (v : NArr α) : WQty α :=
  { q with data :=
    { shape := q.data.shape
      get := fun i =>
        let w := shiftSlices q.origin (fullSlices lead sl)
        if NArr.inSlices w i then v.get ((List.zipWith (fun s k => k - s.start) w i).drop lead.length)
        else q.data.get i } }

/-- NumPy's `target[:] = source` for a target of shape `shape` with as many axes as the source: axes of
length 1 are repeated, any other mismatch raises. -/
def bcastTo (shape : List Int) (src : NArr α) : Except Err (NArr α) :=
  if src.shape.length = shape.length ∧
      (src.shape.zip shape).all (fun p => decide (p.1 = p.2 ∨ p.1 = 1)) = true then
    .ok ⟨shape, fun i => src.get (List.zipWith (fun n k => if n = 1 then 0 else k) src.shape i)⟩
  else .error .valueError

/-- the partitioner as `scatter` and `gather` use it. `slice` is `subtile_slice` with `overlap=True`: leading
integers and slices; `up` and `down` are the dims of the global quantity for a rank's dims, and back. -/
structure Part where
  total : Nat
  slice : Nat → List Dim → List Int → Except Err (List Int × List Slice)
  subExtent : Nat → List Dim → List Int → Except Err (List Int)
  globalExtent : List Dim → List Int → List Int
  up : List Dim → List Dim
  down : List Dim → List Dim

/-- `TileCommunicator`'s partitioner, `ndsl/comm/partitioner.py` 163-234 -/
def TilePart.part (p : TilePart) (fl : FloatOps) : Part where
  total := p.totalRanks.toNat
  slice r dims ext := (p.subtileSlice fl r dims ext true).map fun s => ([], s)
  subExtent r dims ext := p.subtileExtent fl r dims ext
  globalExtent dims ext := tileExtentFromRank dims ext p.layout
  up d := d
  down d := d

/-- `CubedSphereCommunicator`'s partitioner, `ndsl/comm/partitioner.py` 607-673, with the dims of
`communicator.py` 828-870 -/
def CubePart.part (p : CubePart) (fl : FloatOps) : Part where
  total := p.totalRanks.toNat
  slice r dims ext := (p.subtileSlice fl r dims ext true).map fun s => ([s.1], s.2)
  subExtent r dims ext := p.subtileExtent fl r dims ext
  globalExtent dims ext := cubeExtentFromRank dims ext p.tile.layout
  up d := .tile :: d
  down d := d.tail

/-- a quantity of zeros without halo: `_get_scatter_recv_quantity`, `_get_gather_recv_quantity`,
`communicator.py` 214-241, 828-870 -/
def freshQty [Inhabited α] (dims : List Dim) (extent : List Int) : WQty α :=
  ⟨dims, extent.map fun _ => 0, extent, ⟨extent, fun _ => default⟩⟩

/-- row `r` of the send buffer of `scatter`, 186-203 -/
def scatterRow (P : Part) (q : WQty α) (r : Nat) : Except Err (NArr α) := do
  let shape ← P.subExtent 0 q.dims q.extent
  let s ← P.slice r q.dims q.extent
  bcastTo shape (q.viewAt s.1 s.2)

/-- rank `r`'s part of `scatter`, 180-212; `recv` is its `recv_quantity` argument -/
def scatterOne [Inhabited α] (P : Part) (q : WQty α) (recv : Option (WQty α)) (r : Nat) :
    Except Err (WQty α) := do
  let shape ← P.subExtent r q.dims q.extent
  let out := recv.getD (freshQty (P.down q.dims) shape)
  let row ← scatterRow P q r
  let v ← NArr.reshape row.flatten out.extent
  return out.setAt [] (out.extent.map fun n => ⟨0, n⟩) v

/-- `scatter` of the root's quantity, 161-212 -/
def scatter [Inhabited α] (P : Part) (q : WQty α) (recv : Nat → Option (WQty α)) :
    Except Err (List (WQty α)) :=
  (List.range P.total).mapM fun r => scatterOne P q (recv r) r

/-- row `r` of the receive buffer of `gather`: the root's extent gives the shape, 258-269 -/
def gatherRow [Inhabited α] (root : WQty α) (send : WQty α) : Except Err (NArr α) :=
  NArr.reshape send.viewAll.flatten root.extent

/-- one iteration of the loop of 277-286 -/
def gatherStep (P : Part) (rows : List (NArr α)) (out : WQty α) (r : Nat) : Except Err (WQty α) := do
  let s ← P.slice r out.dims out.extent
  match rows[r]? with
  | none => .error .indexError
  | some row =>
    let v ← bcastTo (s.2.map fun s => s.stop - s.start) row
    return out.setAt s.1 s.2 v

/-- `gather` to the root: `sends` are the quantities of ranks 0, 1, ..., 243-299 -/
def gather [Inhabited α] (P : Part) (sends : List (WQty α)) (recv : Option (WQty α)) :
    Except Err (WQty α) :=
  match sends with
  | [] => .error .typeError
  | root :: _ => do
    let rows ← sends.mapM (gatherRow root)
    let out := recv.getD (freshQty (P.up root.dims) (P.globalExtent root.dims root.extent))
    (List.range P.total).foldlM (gatherStep P rows) out

end NDSL
