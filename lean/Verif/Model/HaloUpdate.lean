import Verif.Model.Transformer
import Verif.Model.Partitioner

/-
Model of a complete halo update over all ranks: `Communicator.halo_update` and `vector_halo_update`
(`ndsl/comm/communicator.py` 390-529, 582-630, 686-732) through `HaloUpdater`
(`ndsl/halo/updater.py` 95-311).

The result on rank `r` is computed from the quantities of all ranks at the time of the call: every rank
packs and sends one message per destination, then receives one message from each of its
destinations and unpacks the messages in the order of its own transformers. That messages posted with
one tag between one pair of ranks are matched independently of the schedule is a separate property
(see `Model/Mpi`). A receive that no send matches never completes; the model returns `runtimeError`.
Timers and device synchronisation are not modelled.
-/
namespace NDSL

/-- `Communicator.boundaries`, `communicator.py` 621-630, for a tile partitioner -/
def TilePart.boundaries (p : TilePart) (rank : Int) : Except Err (List Boundary) :=
  .ok (BType.all.map fun bt => p.boundary bt rank)

/-- `Communicator.boundaries`, 621-630, for a cubed-sphere partitioner (missing corners left out) -/
def CubePart.boundaries (p : CubePart) (rank : Int) : Except Err (List Boundary) := do
  let bs ← BType.all.mapM fun bt => p.boundary bt rank
  return bs.filterMap id

/-- `HaloExchangeSpec(specification, send_slice, n_clockwise_rotations, recv_slice)`,
`updater.py` 129-134 -/
def exSpec (b : Boundary) (n : Int) (ds : List DimSpec) : Except Err ExSpec := do
  let s ← boundarySlice b.btype n true ds
  let r ← boundarySlice b.btype n false ds
  return ⟨s, b.rot, r⟩

/-- appending to an entry of a `defaultdict(list)` (insertion order is kept) -/
def dictAppend {β : Type} : List (Int × List β) → Int → List β → List (Int × List β)
  | [], k, vs => [(k, vs)]
  | (k', ws) :: rest, k, vs =>
    if k' = k then (k', ws ++ vs) :: rest else (k', ws) :: dictAppend rest k vs

/-- the exchange specifications per target rank, `from_scalar_specifications`,
`updater.py` 124-143. (A specification list is not empty, `communicator.py` 585.) -/
def scalarInfos (bs : List Boundary) (n : Int) (specs : List (List DimSpec)) :
    Except Err (List (Int × List ExSpec)) :=
  bs.foldlM (init := []) fun d b => do
    let xs ← specs.mapM (exSpec b n)
    return dictAppend d b.toRank xs

/-- the exchange specifications of both components per target rank, `from_vector_specifications`,
`updater.py` 178-209. The two dictionaries have the same keys in the same order; they are one
dictionary of pairs here. -/
def vectorInfos (bs : List Boundary) (n : Int) (specs : List (List DimSpec × List DimSpec)) :
    Except Err (List (Int × List (ExSpec × ExSpec))) :=
  bs.foldlM (init := []) fun d b => do
    let xs ← specs.mapM fun s => do
      let x ← exSpec b n s.1
      let y ← exSpec b n s.2
      return (x, y)
    return dictAppend d b.toRank xs

/-- What a data transformer does for one target rank: size of its two buffers, packing, unpacking. -/
structure Codec (S I α : Type) where
  size : List I → Nat
  pack : S → List I → List α → Except Err (List α)
  unpack : S → List I → List α → Except Err S

/-- the scalar transformer: `_compile` 311-334, `_pack_scalar`, `_unpack_scalar` -/
def scalarCodec (α : Type) [Inhabited α] : Codec (List (Qty α)) ExSpec α where
  size infos := (packBufferSize infos).toNat
  pack := packScalar
  unpack := unpackScalar

/-- quantities and exchange specifications of a vector transformer side by side -/
def vecItems {α : Type} (qs : List (Qty α × Qty α)) (infos : List (ExSpec × ExSpec)) :
    List (VecItem α) :=
  List.zipWith (fun q i => ⟨q.1, q.2, i.1, i.2⟩) qs infos

/-- the vector transformer: `_compile` 311-334, `_pack_vector` 447-493, `_unpack_vector` 532-567. The
length checks of 449-455 and 534-540 are assertions on the number of quantities. -/
def vectorCodec (α : Type) [Inhabited α] [Neg α] : Codec (List (Qty α × Qty α)) (ExSpec × ExSpec) α where
  size infos := (packBufferSize (infos.map (·.1)) + packBufferSize (infos.map (·.2))).toNat
  pack qs infos buf :=
    if qs.length ≠ infos.length then .error .runtimeError
    else packVectorLoop (vecItems qs infos) 0 buf
  unpack qs infos buf :=
    if qs.length ≠ infos.length then .error .runtimeError
    else unpackVectorLoop (vecItems qs infos) 0 buf

section
variable {S I α : Type}

/-- a recycled buffer of a given size: arbitrary contents -/
def junkBuf (junk : Nat → α) (size : Nat) : List α := (List.range size).map junk

/-- completion of a receive: the message overwrites the front of the buffer; a message longer than the
buffer is an error (MPI truncation) -/
def recvInto (junk : Nat → α) (size : Nat) (msg : List α) : Except Err (List α) :=
  if msg.length > size then .error .runtimeError
  else .ok (msg ++ (junkBuf junk size).drop msg.length)

/-- messages packed and sent by one rank with their destinations, `HaloUpdater.start`,
`updater.py` 253-273 -/
def sentBy (C : Codec S I α) (junk : Nat → α) (ts : List (Int × List I)) (s : S) :
    Except Err (List (Int × List α)) :=
  ts.mapM fun t => do
    let m ← C.pack s t.2 (junkBuf junk (C.size t.2))
    return (t.1, m)

/-- the receives of `HaloUpdater.start` 241-251 and the unpacking of `wait` 282-300 on rank `r` -/
def exchange (C : Codec S I α) (junk : Nat → α) (trs : Int → Except Err (List (Int × List I)))
    (st : Int → S) (r : Int) : Except Err S := do
  let ts ← trs r
  let _ ← sentBy C junk ts (st r)
  ts.foldlM (init := st r) fun s t => do
    let ts' ← trs t.1
    let sent ← sentBy C junk ts' (st t.1)
    match sent.find? (fun m => m.1 == r) with
    | none => .error .runtimeError
    | some m => do
      let buf ← recvInto junk (C.size t.2) m.2
      C.unpack s t.2 buf

end

section
variable {α : Type} [Inhabited α]

/-- `Communicator.halo_update` on rank `r`, `communicator.py` 390-440 and 582-596, all ranks calling it
with their own quantities and the same width. -/
def haloUpdate (topo : Int → Except Err (List Boundary)) (junk : Nat → α) (n : Int)
    (st : Int → List (Qty α)) (r : Int) : Except Err (List (Qty α)) :=
  if (st r).isEmpty then .error .runtimeError
  else if n = 0 then .error .valueError
  else exchange (scalarCodec α) junk
    (fun s => do scalarInfos (← topo s) n ((st s).map (·.ds))) st r

/-- `Communicator.vector_halo_update` on rank `r`, `communicator.py` 442-529 and 598-615. -/
def vectorHaloUpdate [Neg α] (topo : Int → Except Err (List Boundary)) (junk : Nat → α) (n : Int)
    (st : Int → List (Qty α × Qty α)) (r : Int) : Except Err (List (Qty α × Qty α)) :=
  if (st r).isEmpty then .error .runtimeError
  else if n = 0 then .error .valueError
  else exchange (vectorCodec α) junk
    (fun s => do vectorInfos (← topo s) n ((st s).map fun q => (q.1.ds, q.2.ds))) st r

/-- `TileCommunicator.start_halo_update`, 686-705: small layouts are refused -/
def TilePart.haloUpdate (p : TilePart) (junk : Nat → α) (n : Int)
    (st : Int → List (Qty α)) (r : Int) : Except Err (List (Qty α)) :=
  if p.layout.1 < 3 ∨ p.layout.2 < 3 then .error .notImplemented
  else NDSL.haloUpdate p.boundaries junk n st r

/-- `TileCommunicator.start_vector_halo_update`, 707-732 -/
def TilePart.vectorHaloUpdate [Neg α] (p : TilePart) (junk : Nat → α) (n : Int)
    (st : Int → List (Qty α × Qty α)) (r : Int) : Except Err (List (Qty α × Qty α)) :=
  if p.layout.1 < 3 ∨ p.layout.2 < 3 then .error .notImplemented
  else NDSL.vectorHaloUpdate p.boundaries junk n st r

/-- `CubedSphereCommunicator` uses the general functions -/
def CubePart.haloUpdate (p : CubePart) (junk : Nat → α) (n : Int)
    (st : Int → List (Qty α)) (r : Int) : Except Err (List (Qty α)) :=
  NDSL.haloUpdate p.boundaries junk n st r

def CubePart.vectorHaloUpdate [Neg α] (p : CubePart) (junk : Nat → α) (n : Int)
    (st : Int → List (Qty α × Qty α)) (r : Int) : Except Err (List (Qty α × Qty α)) :=
  NDSL.vectorHaloUpdate p.boundaries junk n st r

end

end NDSL
