import Verif.Model.Basic

/-
Model of the start/wait protocol of `HaloUpdater`, `ndsl/halo/updater.py` 49-93 and 210-311. The contents
of the messages are modelled in `Model/HaloUpdate`; here a posted request is an identifier. The call of
`async_pack` may raise (for example when the number of quantities is not the number of specifications):
this is an input of the model. `update` (210-217) is a start followed by a wait. Timers are not modelled.
-/
namespace NDSL

/-- a posted request: identifier (fresh for each post), peer and tag -/
structure Req where
  id : Nat
  peer : Int
  tag : Int
  deriving DecidableEq, Repr

/-- a halo updater: `peers` are the keys of `_transformers`; `buffers` is false after the transformers
were finalized; `inflight` says whether `_inflight_x_quantities` is set (`_inflight_y_quantities` is only
ever set together with it); `nextId` numbers the requests of the underlying communicator -/
structure Upd where
  tag : Int
  peers : List Int
  finalizeOnWait : Bool
  buffers : Bool
  inflight : Bool
  recvs : List Req
  sends : List Req
  nextId : Nat

/-- `HaloUpdater.__init__`, 49-73, and `force_finalize_on_wait`, 75-80 -/
def Upd.new (tag : Int) (peers : List Int) (finalizeOnWait : Bool) (nextId : Nat) : Upd :=
  ⟨tag, peers, finalizeOnWait, true, false, [], [], nextId⟩

/-- a call; `start ok` says whether packing succeeds -/
inductive UpdCall where
  | start (packOk : Bool)
  | wait
  deriving DecidableEq

/-- what a call does -/
inductive UpdOut where
  | refused
  /-- `start` raised while packing, after posting these receives -/
  | failed (posted : List Req)
  | started (recvs sends : List Req)
  /-- requests completed in this order, then these transformers unpacked -/
  | waited (sends recvs : List Req) (unpacked : List Int)
  deriving DecidableEq

/-- post one request per peer -/
def postAll (tag : Int) : List Int → Nat → List Req
  | [], _ => []
  | p :: ps, n => ⟨n, p, tag⟩ :: postAll tag ps (n + 1)

/-- `start`, 219-275, and `wait`, 277-311. `get_unpack_buffer` raises when the buffers were finalized
(`data_transformer.py` 290-298), which it does for the first peer, before anything is posted. -/
def Upd.call (u : Upd) : UpdCall → Upd × UpdOut
  | .start packOk =>
    if u.inflight then (u, .refused)
    else if !u.buffers && !u.peers.isEmpty then ({ u with recvs := [] }, .refused)
    else
      let recvs := postAll u.tag u.peers u.nextId
      let n := u.nextId + u.peers.length
      if !packOk then ({ u with recvs := recvs, nextId := n }, .failed recvs)
      else
        let sends := postAll u.tag u.peers n
        ({ u with recvs := recvs, sends := sends, inflight := true, nextId := n + u.peers.length },
          .started recvs sends)
  | .wait =>
    if !u.inflight then (u, .refused)
    else ({ u with inflight := false, buffers := u.buffers && !u.finalizeOnWait },
      .waited u.sends u.recvs u.peers)

/-- run a history -/
def Upd.run (u : Upd) : List UpdCall → List UpdOut
  | [] => []
  | c :: cs => (u.call c).2 :: ((u.call c).1).run cs

/-- `__del__`, 82-93: raises when an exchange is in flight -/
def Upd.delete (u : Upd) : Bool := !u.inflight

end NDSL
