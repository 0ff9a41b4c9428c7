import Verif.Model.Basic

/-
Model of `Communicator.gather_state` and `Communicator.scatter_state` (`ndsl/comm/communicator.py` 303-388).

* A state is a dictionary; its entry `"time"`, which the code treats apart by name, is a separate field. The
  other entries keep the order of the dictionary.
* `scatter`/`gather` of one quantity are parameters (modelled in `Model/ScatterGather`), so these functions
  are modelled for any quantity type.
* The calls a rank makes on the communicator are recorded in a trace. The k-th call of one rank meets the k-th
  call of every other.
-/
namespace NDSL

/-- Python dictionaries: insertion order, distinct keys -/
def dictGet {V : Type} (d : List (String × V)) (k : String) : Option V :=
  (d.find? fun e => e.1 == k).map (·.2)

/-- `d[k] = v` -/
def dictSet {V : Type} : List (String × V) → String → V → List (String × V)
  | [], k, v => [(k, v)]
  | e :: d, k, v => if e.1 = k then (k, v) :: d else e :: dictSet d k v

/-- a state dictionary -/
structure St (Q T : Type) where
  q : List (String × Q)
  time : Option T

/-- collective calls -/
inductive Coll where
  | bcast
  | scatter
  deriving DecidableEq

variable {Q T : Type}

/-- the calls of `scatter` on one quantity: metadata, then data (`scatter`, 162-217) -/
def scatterCalls : List Coll := [.bcast, .scatter]

/-- the loop of `scatter_root` (362-366) or of `scatter_client` (373-377): `sent` are the quantities the root
sends, in the order of the calls; `sc q recv` is what this rank's scatter of `q` gives -/
def scatterLoop (sc : Q → Option Q → Except Err Q) :
    List String → List Q → List (String × Q) × List Coll → Except Err (List (String × Q) × List Coll)
  | name :: names, q :: sent, (recv, tr) => do
    let out ← sc q (dictGet recv name)
    scatterLoop sc names sent (dictSet recv name out, tr ++ scatterCalls)
  | _, _, s => .ok s

/-- names broadcast by the root and the quantities it sends, 357-361 -/
def rootNames (send : St Q T) : List String := send.q.map (·.1)
def rootArrays (send : St Q T) : List Q := (rootNames send).filterMap fun n => dictGet send.q n

/-- `recv_state` after the optional argument is replaced by `{}`, 380-381 -/
def recvOf (recv : Option (St Q T)) : St Q T := recv.getD ⟨[], none⟩

/-- the time entry: assigned from the broadcast, removed when that is `None` (367-369, 378, 386-387) -/
def timeAfter (sent : Option T) : Option T := sent

/-- `scatter_root`, 354-369 -/
def scatterRoot (sc : Q → Option Q → Except Err Q) (send : St Q T) (recv : Option (St Q T)) :
    Except Err (St Q T × List Coll) := do
  let r ← scatterLoop sc (rootNames send) (rootArrays send) ((recvOf recv).q, [.bcast])
  return (⟨r.1, timeAfter send.time⟩, r.2 ++ [.bcast])

/-- `scatter_client`, 371-378, given what the root broadcasts and sends -/
def scatterClient (sc : Q → Option Q → Except Err Q) (names : List String) (sent : List Q) (time : Option T)
    (recv : Option (St Q T)) : Except Err (St Q T × List Coll) := do
  let r ← scatterLoop sc names sent ((recvOf recv).q, [.bcast])
  return (⟨r.1, timeAfter time⟩, r.2 ++ [.bcast])

/-- `scatter_state` on rank `r`, 342-388 -/
def scatterState (sc : Nat → Q → Option Q → Except Err Q) (send : St Q T) (recv : Option (St Q T)) (r : Nat) :
    Except Err (St Q T × List Coll) :=
  if r = 0 then scatterRoot (sc 0) send recv
  else scatterClient (sc r) (rootNames send) (rootArrays send) send.time recv

/-- the loop of `gather_state` on the root, 318-339: the `k`-th gather of the root meets the `k`-th gather of
every rank. `conv` is the conversion to a host array without halo, 323-330. -/
def gatherLoop (conv : Q → Q) (gq : List Q → Option Q → Except Err Q) (states : List (St Q T)) :
    List String → Nat → List (String × Q) → Except Err (List (String × Q))
  | [], _, recv => .ok recv
  | name :: names, k, recv => do
    let out ← gq (states.filterMap fun s => (s.q[k]?).map fun e => conv e.2) (dictGet recv name)
    gatherLoop conv gq states names (k + 1) (dictSet recv name out)

/-- `gather_state`, 303-340: the root's result. Ranks with different numbers of entries do not complete the
same number of gathers (an error here). -/
def gatherState (conv : Q → Q) (gq : List Q → Option Q → Except Err Q) (states : List (St Q T))
    (recv : Option (St Q T)) : Except Err (St Q T) :=
  match states with
  | [] => .error .typeError
  | root :: _ =>
    if states.any fun s => decide (s.q.length ≠ root.q.length) then .error .runtimeError
    else do
      let q ← gatherLoop conv gq states (root.q.map (·.1)) 0 (recvOf recv).q
      return ⟨q, match root.time with
        | some t => some t
        | none => (recvOf recv).time⟩

end NDSL
