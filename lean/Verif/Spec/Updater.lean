import Verif.Model.Updater

/-
Vocabulary for the start/wait protocol, in terms of observed outcomes only.
-/
namespace NDSL

/-- outcomes of accepted calls -/
def UpdOut.accepted : UpdOut → Bool
  | .started .. => true
  | .waited .. => true
  | _ => false

/-- starts and waits alternate, and each wait completes the requests of the start before it, all sends and
all receives once, and then unpacks for each peer -/
def Alternate (peers : List Int) : List UpdOut → Prop
  | [] => True
  | [.started r s] => r.map Req.peer = peers ∧ s.map Req.peer = peers
  | .started r s :: .waited s' r' ps :: rest =>
    r.map Req.peer = peers ∧ s.map Req.peer = peers ∧ s' = s ∧ r' = r ∧ ps = peers ∧
      Alternate peers rest
  | _ => False

/-- an update is in flight after these outcomes: the last accepted call was a start -/
def inFlight (prev : List UpdOut) : Bool :=
  match (prev.filter UpdOut.accepted).getLast? with
  | some (.started ..) => true
  | _ => false

/-- some wait was accepted -/
def someWait (prev : List UpdOut) : Bool :=
  prev.any fun o => match o with
    | .waited .. => true
    | _ => false

/-- requests mentioned by an outcome -/
def UpdOut.posted : UpdOut → List Nat
  | .failed r => r.map Req.id
  | .started r s => r.map Req.id ++ s.map Req.id
  | _ => []

def UpdOut.completed : UpdOut → List Nat
  | .waited s r _ => s.map Req.id ++ r.map Req.id
  | _ => []

end NDSL
