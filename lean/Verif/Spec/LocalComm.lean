import Verif.Model.LocalComm

/-! What can be observed in a history of calls on the in-process communicator. -/
namespace NDSL.Local
variable {V : Type}

/-- channel and array of a call that receives when it does not raise -/
def recvOf (c : Rec V) : Option ((Nat × Nat × Nat) × Nat) :=
  match c.op with
  | .recv r a src tag => some ((src, r, tag), a)
  | .wait i => (c.pre.reqs[i]?).map fun q => ((q.2.2.1, q.1, q.2.2.2), q.2.1)
  | _ => none

/-- channel and array of a call that sends -/
def sendOf (c : Rec V) : Option ((Nat × Nat × Nat) × Nat) :=
  match c.op with
  | .send r a dest tag => some ((r, dest, tag), a)
  | .isend r a dest tag => some ((r, dest, tag), a)
  | _ => none

def raised : Res V → Bool
  | .raised _ => true
  | _ => false

/-- contents of the arrays sent on a channel, each at the time of its sending, in order -/
def sentOn (ch : Nat × Nat × Nat) (h : List (Rec V)) : List V :=
  h.filterMap fun c => match sendOf c with
    | some (k, a) => if k = ch then some (c.pre.heap a) else none
    | none => none

/-- contents of the receive arrays after each completed receive on a channel, in order -/
def receivedOn (ch : Nat × Nat × Nat) (h : List (Rec V)) : List V :=
  h.filterMap fun c => match recvOf c with
    | some (k, a) => if k = ch ∧ raised c.res = false then some (c.post.heap a) else none
    | none => none

/-- objects rank 0 passed to `bcast(root=0)`, in order, and the number of such calls by a rank -/
def bcastArgs (h : List (Rec V)) : List (Option Nat) :=
  h.filterMap fun c => match c.op with
    | .bcast 0 v 0 => some v
    | _ => none

def bcastCalls (r : Nat) (h : List (Rec V)) : Nat :=
  (h.filter fun c => match c.op with
    | .bcast r' _ 0 => decide (r' = r)
    | _ => false).length

/-- what rank 0 passed to `Scatter(root=0)` (contents at that time), and the number of such calls by a rank -/
def scatterArgs (h : List (Rec V)) : List (Option (List V)) :=
  h.filterMap fun c => match c.op with
    | .scatter 0 rows _ 0 => some (rows.map fun l => l.map c.pre.heap)
    | _ => none

def scatterCalls (r : Nat) (h : List (Rec V)) : Nat :=
  (h.filter fun c => match c.op with
    | .scatter r' _ _ 0 => decide (r' = r)
    | _ => false).length

/-- what rank `r` contributed in its latest `Gather`, if it has called it (contents at that time) -/
def latest (r : Nat) (h : List (Rec V)) : Option V :=
  (h.filterMap fun c => match c.op with
    | .gather r' a _ => if r' = r then some (c.pre.heap a) else none
    | _ => none).getLast?

end NDSL.Local
