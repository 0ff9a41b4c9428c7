/-
Model of many ranks running one program of halo updates: `Communicator._get_halo_tag` and the creation of
updaters (`ndsl/comm/communicator.py` 57, 582-619), `HaloUpdater.start` and `wait`
(`ndsl/halo/updater.py` 219-311), and the delivery of messages by the underlying communicator.

* A rank's data is a value of an arbitrary type; packing, unpacking and local computation are arbitrary
  functions of it (their actual definitions are modelled in `Model/HaloUpdate`).
* Messages on a channel (sender, receiver, tag) keep their order. A receive takes either the message of its
  own position among the receives posted on the channel (MPI's matching rule, `atPost = true`) or the next
  message not yet taken, when it is waited for (`LocalComm`, `ndsl/comm/local_comm.py` 59-73, `atPost =
  false`).
* A wait can complete when every message it needs has been sent and, for its own sends, when every peer has
  posted the matching receive (the strictest behaviour MPI allows: no buffering of sends).
* A start posts its receives and then its sends in one step: it never blocks.
-/
namespace NDSL

/-- operations of the program -/
inductive NetOp where
  /-- create an updater: the next one in order of creation -/
  | create
  /-- create the one-shot updater of `start_synchronize_vector_interfaces`: it counts its tags on its own,
  from 1 (`communicator.py` 573-580, `updater.py` 384-391, 417) -/
  | createSync
  /-- local computation -/
  | compute (c : Nat)
  /-- `start` and `wait` of the `u`-th updater -/
  | start (u : Nat)
  | wait (u : Nat)
  deriving DecidableEq

/-- the application -/
structure App (σ μ : Type) where
  ranks : Nat
  /-- peers of an updater on a rank: the keys of `_transformers`, in order -/
  nbr : Nat → Nat → List Nat
  /-- contents of the message of an updater from a rank to a peer -/
  pack : Nat → Nat → Nat → σ → μ
  /-- data after unpacking the messages of all peers, in order -/
  unpack : Nat → Nat → List μ → σ → σ
  comp : Nat → Nat → σ → σ

/-- a message; `origin` is the position in the sender's program of the `start` that sent it (it is not used
by the program, only recorded) -/
structure NetMsg (μ : Type) where
  origin : Nat
  body : μ

/-- state of one rank. `posted t s`, `done t s` count the receives posted and completed from `s` with tag
`t`; `slot u s` is the position of the receive posted by updater `u` from `s`. -/
structure RankSt (σ : Type) where
  pc : Nat
  st : σ
  lastTag : Nat
  tags : List Nat
  inflight : Nat → Bool
  posted : Nat → Nat → Nat
  done : Nat → Nat → Nat
  slot : Nat → Nat → Nat

/-- a completed receive: receiver, program position of the `wait`, updater, sender, origin of the message -/
structure Rcv where
  rank : Nat
  pc : Nat
  upd : Nat
  src : Nat
  origin : Nat

structure Net (σ μ : Type) where
  rank : Nat → RankSt σ
  /-- messages sent so far: sender, receiver, tag -/
  chan : Nat → Nat → Nat → List (NetMsg μ)
  log : List Rcv

variable {σ μ : Type}

def Net.init (s0 : Nat → σ) : Net σ μ where
  rank r := ⟨0, s0 r, 0, [], fun _ => false, fun _ _ => 0, fun _ _ => 0, fun _ _ => 0⟩
  chan _ _ _ := []
  log := []

/-- replace the state of a rank -/
def Net.setRank (g : Net σ μ) (r : Nat) (s : RankSt σ) : Net σ μ :=
  { g with rank := fun r' => if r' = r then s else g.rank r' }

/-- `_get_halo_tag`, `communicator.py` 617-619 -/
def RankSt.create (s : RankSt σ) : RankSt σ :=
  { s with lastTag := s.lastTag + 1, tags := s.tags ++ [s.lastTag + 1] }

/-- the tag of an interface synchronisation, `updater.py` 384-391, 417 -/
def RankSt.createSync (s : RankSt σ) : RankSt σ := { s with tags := s.tags ++ [1] }

/-- `HaloUpdater.start`, posting receives: one more receive on each peer's channel -/
def RankSt.post (s : RankSt σ) (peers : List Nat) (u t : Nat) : RankSt σ :=
  { s with
    inflight := fun u' => if u' = u then true else s.inflight u'
    posted := fun t' p => if t' = t ∧ p ∈ peers then s.posted t' p + 1 else s.posted t' p
    slot := fun u' p => if u' = u ∧ p ∈ peers then s.posted t p else s.slot u' p }

/-- position of the message a receive takes -/
def RankSt.takes (s : RankSt σ) (atPost : Bool) (u t p : Nat) : Nat :=
  if atPost then s.slot u p else s.done t p

/-- can the wait of updater `u` (tag `t`) on rank `r` complete? -/
def Net.ready (a : App σ μ) (atPost : Bool) (g : Net σ μ) (r u t : Nat) : Bool :=
  (a.nbr u r).all fun p =>
    decide ((g.rank r).takes atPost u t p < (g.chan p r t).length) &&
    decide ((g.chan r p t).length ≤ (g.rank p).posted t r)

/-- the messages taken by a wait -/
def Net.taken (a : App σ μ) (atPost : Bool) (g : Net σ μ) (r u t : Nat) : List (Nat × NetMsg μ) :=
  (a.nbr u r).filterMap fun p =>
    ((g.chan p r t)[(g.rank r).takes atPost u t p]?).map fun m => (p, m)

/-- One step of rank `r`: `none` when the rank has finished, blocks, or its program is illegal (`start` of
an updater in flight or not created, `wait` without `start`: these raise). -/
def Net.step (a : App σ μ) (atPost : Bool) (prog : List NetOp) (g : Net σ μ) (r : Nat) :
    Option (Net σ μ) :=
  let s := g.rank r
  if a.ranks ≤ r then none
  else match prog[s.pc]? with
  | none => none
  | some .create => some (g.setRank r { s.create with pc := s.pc + 1 })
  | some .createSync => some (g.setRank r { s.createSync with pc := s.pc + 1 })
  | some (.compute c) => some (g.setRank r { s with st := a.comp c r s.st, pc := s.pc + 1 })
  | some (.start u) =>
    match s.tags[u]? with
    | none => none
    | some t =>
      if s.inflight u then none
      else
        let peers := a.nbr u r
        some { g.setRank r { s.post peers u t with pc := s.pc + 1 } with
          chan := fun src dst t' =>
            if src = r ∧ t' = t ∧ dst ∈ peers then
              g.chan src dst t' ++ [⟨s.pc, a.pack u r dst s.st⟩]
            else g.chan src dst t' }
  | some (.wait u) =>
    match s.tags[u]? with
    | none => none
    | some t =>
      if !s.inflight u then none
      else if !g.ready a atPost r u t then none
      else
        let peers := a.nbr u r
        let ms := g.taken a atPost r u t
        some { g.setRank r { s with
            pc := s.pc + 1
            inflight := fun u' => if u' = u then false else s.inflight u'
            done := fun t' p => if t' = t ∧ p ∈ peers then s.done t' p + 1 else s.done t' p
            st := a.unpack u r (ms.map fun m => m.2.body) s.st } with
          log := g.log ++ ms.map fun m => ⟨r, s.pc, u, m.1, m.2.origin⟩ }

/-- run a schedule: the ranks that take the next steps, one after the other -/
def Net.run (a : App σ μ) (atPost : Bool) (prog : List NetOp) :
    List Nat → Net σ μ → Option (Net σ μ)
  | [], g => some g
  | r :: rs, g => (g.step a atPost prog r).bind (Net.run a atPost prog rs)

end NDSL
