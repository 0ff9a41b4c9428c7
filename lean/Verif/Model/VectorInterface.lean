import Verif.Model.HaloUpdate

/-
Model of `VectorInterfaceHaloUpdater` (`ndsl/halo/updater.py` 350-545) and of
`Communicator.synchronize_vector_interfaces` (`ndsl/comm/communicator.py` 531-580), all ranks calling it.

As in `Model/HaloUpdate`, the result on a rank is computed from the quantities of all ranks at the time
of the call; messages between one pair of ranks with one tag are received in the order in which they were
sent. Timers, devices and the choice of the array library are not modelled.
-/
namespace NDSL

namespace NArr
variable {α : Type}

/-- index of the region for an index of the array with the axes addressed by an integer removed -/
def insertInts : List Entry → List Int → List Int
  | .int _ :: es, is => 0 :: insertInts es is
  | .sl _ _ :: es, i :: is => i :: insertInts es is
  | _, _ => []

/-- the reverse: drop the axes addressed by an integer -/
def removeInts {β : Type} : List Entry → List β → List β
  | .int _ :: es, _ :: is => removeInts es is
  | .sl _ _ :: es, i :: is => i :: removeInts es is
  | _, _ => []

/-- NumPy basic indexing `m[es]` with integers and slices -/
def index (m : NArr α) (es : List Entry) (sl : List Slice) : NArr α where
  shape := removeInts es (m.slice sl).shape
  get idx := (m.slice sl).get (insertInts es idx)

/-- `m[es][...] = v` for `v` of the shape of the region -/
def assignIndex (m : NArr α) (es : List Entry) (sl : List Slice) (v : NArr α) : NArr α :=
  m.assign sl ⟨m.shape, fun idx => v.get (removeInts es idx)⟩

end NArr

/-- the index tuple of `sel` (`ndsl/quantity/bounds.py` 60-71) in 431-438, 447-454, 494-501, 502-509: an
integer for the interface dimension, `0 : extent` for the other one, everything else whole -/
def edgeEntries (intDim along : Dim) (i : Int) (ds : List DimSpec) : List Entry :=
  ds.map fun d =>
    if d.dim = intDim then .int i
    else if d.dim = along then
      .sl (some 0) (some ((ds.find? fun e => e.dim = along).map DimSpec.extent |>.getD 0))
    else .sl none none

/-- the entries after shifting, and the region of the array they address: `quantity.view.<corner>.sel(..)` -/
def edgeRegion (v : ViewKind) (intDim along : Dim) (i : Int) (ds : List DimSpec) :
    Except Err (List Entry × List Slice) := do
  let es ← boundaryIndex v ds (edgeEntries intDim along i ds)
  let sl ← addressed ds (.ok es)
  return (es, sl)

/-- `rotate_scalar_data(data, [along], np, k)`, `ndsl/halo/rotate.py` 4-34, with one dimension name: only
axis 0 is ever reversed, whatever the number of axes of `data` -/
def rotateEdge {α : Type} (along : Dim) (k : Int) (m : NArr α) : NArr α :=
  let k := k % 4
  if k = 2 then m.flip 0
  else if along.isI then (if k = 1 then m.flip 0 else m)
  else if along.isJ then (if k = 3 then m.flip 0 else m)
  else m

/-- the boundary of one type in a dictionary of boundaries; `KeyError` if missing -/
def findBoundary (bs : List Boundary) (bt : BType) : Except Err Boundary :=
  match bs.find? fun b => b.btype = bt with
  | some b => .ok b
  | none => .error .keyError

section
variable {α : Type} [Inhabited α] [Neg α]

/-- `on_c_grid`, `updater.py` 352-364 -/
def onCGrid (v : Qty α × Qty α) : Bool :=
  if ¬ (Dim.i ∈ v.1.dims) ∨ ¬ (Dim.jInterface ∈ v.1.dims) then false
  else if ¬ (Dim.j ∈ v.2.dims) ∨ ¬ (Dim.iInterface ∈ v.2.dims) then false
  else true

/-- `south_data`, 431-446 -/
def southData (q : Qty α) (rot : Int) : Except Err (NArr α) := do
  let (es, sl) ← edgeRegion (.corner .southwest) .jInterface .i 0 q.ds
  let m := rotateEdge .i (-rot) (q.data.index es sl)
  return if rot = 3 ∨ rot = 2 then m.map (- ·) else m

/-- `west_data`, 447-462 -/
def westData (q : Qty α) (rot : Int) : Except Err (NArr α) := do
  let (es, sl) ← edgeRegion (.corner .southwest) .iInterface .j 0 q.ds
  let m := rotateEdge .j (-rot) (q.data.index es sl)
  return if rot = 1 ∨ rot = 2 then m.map (- ·) else m

/-- `_Isend_vector_shared_boundary`, 426-477: destination and contents (a contiguous copy) of the two
messages of a rank, after the check of `start_synchronize_vector_interfaces` 414-415 -/
def edgeSends (bs : List Boundary) (v : Qty α × Qty α) : Except Err (List (Int × List α)) := do
  if ¬ onCGrid v then .error .valueError
  else
    let south ← findBoundary bs .south
    let west ← findBoundary bs .west
    let sd ← southData v.1 south.rot
    let wd ← westData v.2 west.rot
    return [(south.toRank, sd.flatten), (west.toRank, wd.flatten)]

/-- one receive of `_Irecv_vector_shared_boundary` 488-523 and its completion in `HaloUpdateRequest.wait`
334-349: the buffer has the shape of the destination -/
def edgeRecv (junk : Nat → α) (q : Qty α) (corner : BType) (intDim along : Dim) (msg : List α) :
    Except Err (Qty α) := do
  let (es, sl) ← edgeRegion (.corner corner) intDim along (-1) q.ds
  let shape := (q.data.index es sl).shape
  let buf ← recvInto junk (NArr.size shape).toNat msg
  let v ← NArr.reshape buf shape
  return { q with data := q.data.assignIndex es sl v }

/-- `synchronize_vector_interfaces` on rank `r`. Receives are matched with sends in order: the receive
from the east is the second one if north and east neighbour are the same rank. -/
def syncInterfaces (topo : Int → Except Err (List Boundary)) (junk : Nat → α)
    (st : Int → Qty α × Qty α) (r : Int) : Except Err (Qty α × Qty α) := do
  let bs ← topo r
  let _ ← edgeSends bs (st r)
  let north ← findBoundary bs .north
  let east ← findBoundary bs .east
  let fromNorth ← edgeSends (← topo north.toRank) (st north.toRank)
  let fromEast ← edgeSends (← topo east.toRank) (st east.toRank)
  let msgN := fromNorth.filter fun m => m.1 == r
  let msgE := (fromEast.filter fun m => m.1 == r).drop (if north.toRank = east.toRank then 1 else 0)
  match msgN, msgE with
  | mn :: _, me :: _ => do
    let x ← edgeRecv junk (st r).1 .northwest .jInterface .i mn.2
    let y ← edgeRecv junk (st r).2 .southeast .iInterface .j me.2
    return (x, y)
  | _, _ => .error .runtimeError

end

end NDSL
