import Verif.Model.CachingComm

/-!
Programs that complete receives in the order they are posted: on each communicator, non-blocking receives are
waited for once each and in the order of posting, no blocking receive, scatter or gather happens while one is
outstanding, and `Gather` is only called with a receive buffer (that is, by its root).
-/
namespace NDSL.Caching
variable {V : Type}

/-- requests made so far (communicator of a receive) and, per communicator, outstanding receives in order -/
structure Fifo where
  reqs : List (Option Nat)
  pend : Nat → List Nat

def Fifo.init : Fifo := ⟨[], fun _ => []⟩

/-- the bookkeeping of a call; `none` when the call breaks the rule -/
def Fifo.step (f : Fifo) : Call → Option Fifo
  | .scatter c | .recv c | .gather c true => if f.pend c = [] then some f else none
  | .gather _ false => none
  | .isend _ => some { f with reqs := f.reqs ++ [none] }
  | .irecv c => some ⟨f.reqs ++ [some c], fun x => if x = c then f.pend x ++ [f.reqs.length] else f.pend x⟩
  | .wait i =>
    match f.reqs[i]? with
    | some (some c) =>
      match f.pend c with
      | j :: rest => if j = i then some { f with pend := fun x => if x = c then rest else f.pend x } else none
      | [] => none
    | _ => some f
  | _ => some f

def Fifo.steps (f : Fifo) : List Call → Option Fifo
  | [] => some f
  | c :: cs => match f.step c with
    | some f' => f'.steps cs
    | none => none

/-- the calls obey the rule and no receive is left outstanding -/
def CompletesInOrder (calls : List Call) : Prop :=
  ∃ f, Fifo.init.steps calls = some f ∧ ∀ c, f.pend c = []

end NDSL.Caching
