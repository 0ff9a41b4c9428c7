import Verif.Model.StateTransfer
/-
Model of `ndsl/checkpointer/snapshots.py`. Arrays live in a heap, so that they can be changed after
they were passed. The conversion of GPU arrays (21-22) is not modelled.
-/
namespace NDSL.Snap

/-- An array: its shape and its points. -/
structure Arr where
  shape : List Nat
  data : List Int
  deriving DecidableEq

/-- `_Snapshots`, 26-33, and the heap. -/
structure State where
  heap : Nat → Arr
  savepoints : List (String × List String)
  arrays : List (String × List Arr)

/-- What happens: a call of the checkpointer with arrays by name, or a change of an array. -/
inductive Op where
  | call (sp : String) (kwargs : List (String × Nat))
  | write (addr : Nat) (a : Arr)

/-- `store`, 35-42 -/
def store (s : State) (sp v : String) (a : Arr) : State :=
  { s with
    savepoints := dictSet s.savepoints v ((dictGet s.savepoints v).getD [] ++ [sp])
    arrays := dictSet s.arrays v ((dictGet s.arrays v).getD [] ++ [a]) }

/-- `SnapshotCheckpointer.__call__`, 66-69: a copy of each array is stored. -/
def call (s : State) (sp : String) (kwargs : List (String × Nat)) : State :=
  kwargs.foldl (fun s e => store s sp e.1 (s.heap e.2)) s

def step (s : State) : Op → State
  | .call sp kw => call s sp kw
  | .write addr a => { s with heap := fun x => if x = addr then a else s.heap x }

def init (heap : Nat → Arr) : State := ⟨heap, [], []⟩

def run (heap : Nat → Arr) (ops : List Op) : State := ops.foldl step (init heap)

/-- A variable of the dataset. -/
inductive Var where
  | names (dims : List String) (l : List String)
  | data (dims : List String) (a : Arr)
  deriving DecidableEq

/-- `make_dims`, 10-23: the arrays stacked along a new first axis. Arrays without axes cannot be
indexed by `[None, :]`; arrays of different shapes cannot be concatenated. -/
def makeDims (spDim label : String) (l : List Arr) : Except Err (List String × Arr) :=
  match l with
  | [] => .error .valueError
  | a :: _ =>
      if l.any fun b => decide (b.shape = []) then .error .indexError
      else if l.all fun b => decide (b.shape = a.shape) then
        .ok (spDim :: (List.range a.shape.length).map (fun i => label ++ "_dim" ++ toString i),
          ⟨l.length :: a.shape, (l.map (·.data)).flatten⟩)
      else .error .valueError

/-- The body of the loop 47-52 -/
def addVar (s : State) (ds : List (String × Var)) (e : String × List String) :
    Except Err (List (String × Var)) := do
  let d ← makeDims ("sp_" ++ e.1) e.1 ((dictGet s.arrays e.1).getD [])
  return dictSet (dictSet ds (e.1 ++ "_savepoints") (.names ["sp_" ++ e.1] e.2)) e.1 (.data d.1 d.2)

/-- `dataset`, 44-53 -/
def dataset (s : State) : Except Err (List (String × Var)) := s.savepoints.foldlM (addVar s) []

end NDSL.Snap
