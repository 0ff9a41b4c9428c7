/-
Model of a halo update on a GPU as work that runs concurrently: `HaloDataTransformerGPU` (`ndsl/halo/data_transformer.py`
569-1020) with its streams, `HaloUpdater.start` and `HaloUpdater.wait` (`ndsl/halo/updater.py` 222-310), the kernels of
`ndsl/halo/cuda_kernels.py`, and the transfers of MPI.

A kernel is launched on a stream and its threads run later, in any order; kernels of one stream run one after the other, those
of different streams at the same time. A transfer of MPI is work on a stream of its own: it reads or writes the buffer at any
time after it was posted and before its request was waited for. The host goes on after a launch and stops at a
synchronisation until the stream has nothing left.

Simplifications: a thread reads a place and writes a place in one step. The index arrays are those of `_flatten_indices`
(C23, C24); their lengths are the buffer sizes. What the message of a neighbour holds is in memory from the beginning, as the
place `inbox`. Timers and the check for an update in progress (C25) are left out.
-/
namespace NDSL.Streams

/-! ### The machine -/

/-- A thread: it reads `src` and writes `f` of that to `dst`. -/
structure Op (L V : Type) where
  src : L
  dst : L
  f : V → V

/-- The threads of one launch. -/
abbrev Kernel (L V : Type) := List (Op L V)

/-- What the host does. -/
inductive Act (S L V : Type) where
  | launch (s : S) (k : Kernel L V)
  | sync (s : S)
  | syncAll

/-- Memory, what was launched and has not run yet for each stream, and what the host still does. -/
structure State (S L V : Type) where
  mem : L → V
  queue : S → List (Kernel L V)
  prog : List (Act S L V)

variable {S L V : Type} [DecidableEq S] [DecidableEq L]

def Op.run (o : Op L V) (m : L → V) : L → V := fun l => if l = o.dst then o.f (m o.src) else m l

def setQueue (q : S → List (Kernel L V)) (s : S) (l : List (Kernel L V)) : S → List (Kernel L V) :=
  fun s' => if s' = s then l else q s'

/-- One step of the host or of one of the streams. -/
inductive Step : State S L V → State S L V → Prop where
  | launch {m q s k p} : Step ⟨m, q, .launch s k :: p⟩ ⟨m, setQueue q s (q s ++ [k]), p⟩
  | sync {m q s p} (h : q s = []) : Step ⟨m, q, .sync s :: p⟩ ⟨m, q, p⟩
  | syncAll {m q p} (h : ∀ s, q s = []) : Step ⟨m, q, .syncAll :: p⟩ ⟨m, q, p⟩
  | thread {m q p s pre o post rest} (h : q s = (pre ++ o :: post) :: rest) :
      Step ⟨m, q, p⟩ ⟨o.run m, setQueue q s ((pre ++ post) :: rest), p⟩
  | finish {m q p s rest} (h : q s = [] :: rest) : Step ⟨m, q, p⟩ ⟨m, setQueue q s rest, p⟩

/-- Any number of steps. -/
inductive Steps : State S L V → State S L V → Prop where
  | refl {a} : Steps a a
  | tail {a b c} (h : Steps a b) (s : Step b c) : Steps a c

/-- Nothing has been launched yet. -/
def begin (m : L → V) (p : List (Act S L V)) : State S L V := ⟨m, fun _ => [], p⟩

/-! ### The update -/

/-- Places in memory: an element of the x or y part of a quantity, of a transformer's buffers, of the messages. -/
inductive Loc where
  | qty (y : Bool) (k i : Nat)
  | pack (t i : Nat)
  | unpack (t i : Nat)
  | inbox (t i : Nat)
  | outbox (t i : Nat)
  deriving DecidableEq

/-- Streams: the private ones from the pool, those of the user (and the default one), one per transfer of MPI. -/
inductive Stream where
  | cuda (n : Nat)
  | user (n : Nat)
  | recv (t : Nat)
  | send (t : Nat)
  deriving DecidableEq

/-- `HaloExchangeSpec` with `_CuKernelArgs`, data_transformer.py 586-594: the indices of the x and, for vectors, the y part,
the rotation `(-pack_clockwise_rotation) % 4`. -/
structure Info where
  stream : Nat
  sendX : List Nat
  recvX : List Nat
  sendY : List Nat
  recvY : List Nat
  rotate : Nat

/-- A transformer and the rank it is for (`self._transformers.items()`); `vector` says what its type is. `supported` says
whether the element type is float32 or float64, for which there are kernels. -/
structure Trans where
  rank : Nat
  infos : List Info
  vector : Bool
  supported : Bool

variable [Neg V]

/-- What the threads of a packing kernel read, in the order of the buffer: `pack_scalar` and `pack_vector`, cuda_kernels.py
15-34 and 118-168. -/
def sources (vector : Bool) (k : Nat) (info : Info) : List (Loc × (V → V)) :=
  let x := fun f => info.sendX.map fun i => ((Loc.qty false k i, f) : Loc × (V → V))
  let y := fun f => info.sendY.map fun i => ((Loc.qty true k i, f) : Loc × (V → V))
  if vector then
    match info.rotate with
    | 0 => x id ++ y id
    | 1 => y id ++ x (- ·)
    | 2 => x (- ·) ++ y (- ·)
    | 3 => y (- ·) ++ x id
    | _ => []
  else x id

/-- What the threads of an unpacking kernel write, in the order of the buffer: `unpack_scalar` and `unpack_vector`,
cuda_kernels.py 46-62 and 188-206. -/
def targets (vector : Bool) (k : Nat) (info : Info) : List Loc :=
  info.recvX.map (Loc.qty false k) ++ if vector then info.recvY.map (Loc.qty true k) else []

/-- `pack_buffer_size` and `_unpack_buffer_size`, of both parts. -/
def sendSize (vector : Bool) (info : Info) : Nat := info.sendX.length + if vector then info.sendY.length else 0
def recvSize (vector : Bool) (info : Info) : Nat := info.recvX.length + if vector then info.recvY.length else 0

/-- The threads of a packing kernel. -/
def packKernel (t offset : Nat) (src : List (Loc × (V → V))) : Kernel Loc V :=
  src.zipIdx.map fun p => ⟨p.1.1, .pack t (offset + p.2), p.1.2⟩

/-- The threads of an unpacking kernel. -/
def unpackKernel (t offset : Nat) (dst : List Loc) : Kernel Loc V :=
  dst.zipIdx.map fun p => ⟨.unpack t (offset + p.2), p.1, id⟩

/-- `_opt_pack_scalar` and `_opt_pack_vector`, data_transformer.py 738-862: a launch for each quantity on its stream, if
there is a kernel for the element type (without one, an exception is made but not raised). -/
def packLaunches (t : Trans) : Nat → Nat → List Info → List (Stream × Kernel Loc V)
  | _, _, [] => []
  | k, offset, info :: rest =>
    (if t.supported then [(.cuda info.stream, packKernel t.rank offset (sources t.vector k info))] else []) ++
      packLaunches t (k + 1) (offset + sendSize t.vector info) rest

/-- `_opt_unpack_scalar` and `_opt_unpack_vector`, data_transformer.py 890-1010. -/
def unpackLaunches (t : Trans) : Nat → Nat → List Info → List (Stream × Kernel Loc V)
  | _, _, [] => []
  | k, offset, info :: rest =>
    (if t.supported then [(.cuda info.stream, unpackKernel t.rank offset (targets t.vector k info))] else []) ++
      unpackLaunches t (k + 1) (offset + recvSize t.vector info) rest

/-- `buffer_size` of `_compile`, data_transformer.py 311-335: of both buffers. -/
def bufferSize (t : Trans) : Nat := (t.infos.map (sendSize t.vector)).sum

/-- `_streamed_synchronize`, data_transformer.py 700-702. -/
def syncs (t : Trans) : List (Act Stream Loc V) := t.infos.map fun info => .sync (.cuda info.stream)

/-- What `Irecv` does with the buffer: the message arrives in it. -/
def recvKernel (t : Trans) : Kernel Loc V := (List.range (bufferSize t)).map fun i => ⟨.inbox t.rank i, .unpack t.rank i, id⟩

/-- What `Isend` does with the buffer: it is read. -/
def sendKernel (t : Trans) : Kernel Loc V := (List.range (bufferSize t)).map fun i => ⟨.pack t.rank i, .outbox t.rank i, id⟩

def launches (l : List (Stream × Kernel Loc V)) : List (Act Stream Loc V) := l.map fun p => .launch p.1 p.2

/-- `HaloUpdater.start`, updater.py 222-275: after a device synchronisation, receives are posted, everything is packed and
sends are posted; `get_unpack_buffer` and `get_pack_buffer` synchronise (data_transformer.py 291-309). -/
def start (ts : List Trans) : List (Act Stream Loc V) :=
  .syncAll ::
    ((ts.flatMap fun t => syncs t ++ launches [(.recv t.rank, recvKernel t)]) ++
      (ts.flatMap fun t => launches (packLaunches t 0 0 t.infos)) ++
      (ts.flatMap fun t => syncs t ++ launches [(.send t.rank, sendKernel t)]))

/-- `HaloUpdater.wait`, updater.py 277-310: requests are waited for, everything is unpacked, and the transformers are
synchronised (by `finalize`, data_transformer.py 229-242, too). -/
def wait (ts : List Trans) : List (Act Stream Loc V) :=
  (ts.map fun t => .sync (.send t.rank)) ++ (ts.map fun t => .sync (.recv t.rank)) ++
    (ts.flatMap fun t => launches (unpackLaunches t 0 0 t.infos)) ++ (ts.flatMap fun t => syncs t)

end NDSL.Streams
