/-
Model of the buffer pool, `ndsl/buffer.py` 20-72, and of its users: the halo data transformers
(`ndsl/halo/data_transformer.py` 192-240, 310-340), the context managers `array_buffer`, `send_buffer`,
`recv_buffer` (`buffer.py` 109-198) and `HaloUpdateRequest` (`ndsl/halo/updater.py` 314-349, with
`_Isend`/`_Irecv`, 522-547).

A buffer is its key (allocator, shape, dtype) and an identity. `send_buffer` and `recv_buffer` use the pool
through `array_buffer` only.
-/
namespace NDSL

/-- `(allocator, shape, dtype)`, as an opaque key -/
abbrev BufKey := Nat

structure Buf where
  key : BufKey
  id : Nat
  deriving DecidableEq, Repr

/-- somebody who obtained buffers -/
inductive BufUser where
  /-- a transformer: its pack and unpack buffer until `finalize` -/
  | transformer (bufs : Option (Buf × Buf))
  /-- an `array_buffer` block: open, or left -/
  | block (b : Buf) (inside : Bool)
  /-- an update request with the buffers of its requests; the request keeps its list after `wait` -/
  | request (bufs : List Buf) (waited : Bool)
  deriving DecidableEq

structure Pool where
  /-- `BUFFER_CACHE`: the free list of a key; the last element is popped first -/
  free : BufKey → List Buf
  next : Nat
  users : List BufUser

def Pool.init : Pool := ⟨fun _ => [], 0, []⟩

/-- `Buffer.pop_from_cache`, 43-64: the last buffer of the key, or a newly allocated one -/
def Pool.pop (p : Pool) (k : BufKey) : Buf × Pool :=
  match (p.free k).getLast? with
  | some b => (b, { p with free := fun k' => if k' = k then (p.free k).dropLast else p.free k' })
  | none => (⟨k, p.next⟩, { p with next := p.next + 1 })

/-- `Buffer.push_to_cache`, 66-73 -/
def Pool.push (p : Pool) (b : Buf) : Pool :=
  { p with free := fun k => if k = b.key then p.free k ++ [b] else p.free k }

/-- pop several buffers -/
def Pool.popAll (p : Pool) : List BufKey → List Buf × Pool
  | [] => ([], p)
  | k :: ks =>
    let (b, p) := p.pop k
    let (bs, p) := p.popAll ks
    (b :: bs, p)

def Pool.pushAll (p : Pool) (bs : List Buf) : Pool := bs.foldl Pool.push p

/-- what happens -/
inductive BufOp where
  /-- `HaloDataTransformer.__init__` / `_compile` -/
  | newTransformer (k : BufKey)
  /-- `__init__` whose second allocation raises: the first buffer is lost -/
  | failTransformer (k : BufKey)
  /-- `finalize` -/
  | finalize (user : Nat)
  /-- enter `array_buffer` -/
  | enter (k : BufKey)
  /-- leave the block normally, or by an exception (the generator has no `try`/`finally`) -/
  | leave (user : Nat) (exception : Bool)
  /-- `start_synchronize_vector_interfaces`: one buffer per message -/
  | newRequest (ks : List BufKey)
  /-- the same, when posting a message raises: the buffers popped so far are lost -/
  | failRequest (ks : List BufKey)
  /-- `HaloUpdateRequest.wait` -/
  | waitRequest (user : Nat)

/-- one step; an operation on a user of another kind does nothing -/
def Pool.step (p : Pool) : BufOp → Pool
  | .newTransformer k =>
    let (a, p) := p.pop k
    let (b, p) := p.pop k
    { p with users := p.users ++ [.transformer (some (a, b))] }
  | .failTransformer k => (p.pop k).2
  | .finalize u =>
    match p.users[u]? with
    | some (.transformer (some (a, b))) =>
      let p := (p.push a).push b
      { p with users := p.users.set u (.transformer none) }
    | _ => p
  | .enter k =>
    let (b, p) := p.pop k
    { p with users := p.users ++ [.block b true] }
  | .leave u exception =>
    match p.users[u]? with
    | some (.block b true) =>
      let p := if exception then p else p.push b
      { p with users := p.users.set u (.block b false) }
    | _ => p
  | .newRequest ks =>
    let (bs, p) := p.popAll ks
    { p with users := p.users ++ [.request bs false] }
  | .failRequest ks => (p.popAll ks).2
  | .waitRequest u =>
    match p.users[u]? with
    | some (.request bs _) =>
      let p := p.pushAll bs
      { p with users := p.users.set u (.request bs true) }
    | _ => p

def Pool.run (ops : List BufOp) : Pool := ops.foldl Pool.step Pool.init

end NDSL
