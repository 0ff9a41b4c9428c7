import Verif.Model.Basic

/-
Model of the in-process communicator, `ndsl/comm/local_comm.py`.

* Several ranks' `LocalComm` objects share one `buffer_dict`; the model is that dictionary together with every
  rank's counters and the memory of all arrays (`heap`, addressed by number), so that later writes to an array
  that was sent, scattered, gathered or broadcast are visible where the code does not copy.
* A `ConcurrencyError` is `runtimeError`. Shapes are not modelled: `safe_assign_array` copies whole arrays.
* `Barrier`, and the calls that always raise (`allgather`, `sendrecv`, `allreduce`, ...), are left out, as is
  `Split` (each split communicator is again such a world with its own dictionary).
-/
namespace NDSL.Local

/-- the state shared by the ranks -/
structure World (V : Type) where
  heap : Nat → V
  /-- `buffer["send_recv"]`, by sender, receiver and tag; `none` is a missing key -/
  chan : Nat × Nat × Nat → Option (List V)
  /-- `buffer["bcast"]`: references to the broadcast objects (`none`: the object `None`) -/
  bcastBuf : List (Option Nat)
  /-- `buffer["scatter"]`: copies of the rows -/
  scatBuf : List (Option (List V))
  /-- `_i_buffer` of each rank, for broadcasts and for scatters -/
  iBcast : Nat → Nat
  iScat : Nat → Nat
  /-- `buffer["gather"]` -/
  gath : List (Option V)
  /-- receives posted with `Irecv`: rank, array, source, tag -/
  reqs : List (Nat × Nat × Nat × Nat)

/-- `LocalComm.__init__` for `n` ranks over an empty dictionary, 29-33; the gather list is created on first
use, 92-95 -/
def World.init {V : Type} (n : Nat) (heap : Nat → V) : World V :=
  ⟨heap, fun _ => none, [], [], fun _ => 0, fun _ => 0, List.replicate n none, []⟩

/-- calls; the first argument is the calling rank, arrays are addresses -/
inductive Op (V : Type) where
  | write (a : Nat) (v : V)
  | send (r a dest tag : Nat)
  | isend (r a dest tag : Nat)
  | recv (r a src tag : Nat)
  | irecv (r a src tag : Nat)
  | wait (req : Nat)
  | bcast (r : Nat) (value : Option Nat) (root : Nat)
  | scatter (r : Nat) (rows : Option (List Nat)) (a root : Nat)
  | gather (r a root : Nat)

/-- what a call gives its caller -/
inductive Res (V : Type) where
  | done
  /-- the object returned by `bcast` -/
  | ref (a : Option Nat)
  /-- the rows in the root's receive buffer of `Gather` -/
  | rows (l : List V)
  | raised (e : Err)
  deriving DecidableEq

variable {V : Type}

def setHeap (h : Nat → V) (a : Nat) (v : V) : Nat → V := fun x => if x = a then v else h x

/-- `_put_send_recv` and `Send`, 75-79, 149-151: a copy is appended -/
def put (s : World V) (r a dest tag : Nat) : World V :=
  { s with chan := fun k => if k = (r, dest, tag) then some ((s.chan k).getD [] ++ [s.heap a]) else s.chan k }

/-- `_get_send_recv` and `Recv`, 59-73, 161-163: the first element is popped -/
def doRecv (s : World V) (r a src tag : Nat) : World V × Res V :=
  match s.chan (src, r, tag) with
  | none => (s, .raised .runtimeError)
  | some [] => (s, .raised .indexError)
  | some (v :: l) =>
    ({ s with
        chan := fun k => if k = (src, r, tag) then some l else s.chan k
        heap := setHeap s.heap a v }, .done)

def bump (f : Nat → Nat) (r : Nat) : Nat → Nat := fun x => if x = r then f x + 1 else f x

/-- `_get_buffer("bcast", value)` and `bcast`, 49-57, 97-105 -/
def doBcast (s : World V) (r : Nat) (value : Option Nat) (root : Nat) : World V × Res V :=
  if root ≠ 0 then (s, .raised .notImplemented)
  else
    let buf := if r = 0 then s.bcastBuf ++ [value] else s.bcastBuf
    let s' : World V := { s with iBcast := bump s.iBcast r, bcastBuf := buf }
    match buf[s.iBcast r]? with
    | some v => (s', .ref v)
    | none => (s', .raised .indexError)

/-- `Scatter`, 113-125 -/
def doScatter (s : World V) (r : Nat) (rows : Option (List Nat)) (a root : Nat) : World V × Res V :=
  if root ≠ 0 then (s, .raised .notImplemented)
  else
    let buf := if r = 0 then s.scatBuf ++ [rows.map fun l => l.map s.heap] else s.scatBuf
    let s' : World V := { s with iScat := bump s.iScat r, scatBuf := buf }
    match buf[s.iScat r]? with
    | none => (s', .raised .indexError)
    | some none => (s', .raised .typeError)
    | some (some l) =>
      match l[r]? with
      | none => (s', .raised .indexError)
      | some v => ({ s' with heap := setHeap s'.heap a v }, .done)

/-- `Gather`, 127-143 -/
def doGather (s : World V) (r a root : Nat) : World V × Res V :=
  if s.gath.length ≤ r then (s, .raised .indexError)
  else
    let g := s.gath.set r (some (s.heap a))
    let s' : World V := { s with gath := g }
    if r = root then
      if g.any Option.isNone then (s', .raised .runtimeError)
      else (s', .rows (g.filterMap id))
    else (s', .done)

/-- one call -/
def step (s : World V) : Op V → World V × Res V
  | .write a v => ({ s with heap := setHeap s.heap a v }, .done)
  | .send r a dest tag => (put s r a dest tag, .done)
  | .isend r a dest tag => (put s r a dest tag, .done)   -- 153-159: sent immediately
  | .recv r a src tag => doRecv s r a src tag
  | .irecv r a src tag => ({ s with reqs := s.reqs ++ [(r, a, src, tag)] }, .done)   -- 165-169
  | .wait i =>
    match s.reqs[i]? with
    | some (r, a, src, tag) => doRecv s r a src tag
    | none => (s, .raised .indexError)
  | .bcast r value root => doBcast s r value root
  | .scatter r rows a root => doScatter s r rows a root
  | .gather r a root => doGather s r a root

/-- a call with the states before and after it and its result -/
structure Rec (V : Type) where
  pre : World V
  op : Op V
  res : Res V
  post : World V

/-- the history of a sequence of calls (made by any ranks in any order; a call that raises changes nothing
but counters and the caller may go on) -/
def hist (s : World V) : List (Op V) → List (Rec V)
  | [] => []
  | o :: os => ⟨s, o, (step s o).2, (step s o).1⟩ :: hist (step s o).1 os

def run (s : World V) : List (Op V) → World V
  | [] => s
  | o :: os => run (step s o).1 os

end NDSL.Local
