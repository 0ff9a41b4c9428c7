import Verif.Model.Snapshots
/-
What was passed to the checkpointer.
-/
namespace NDSL.Snap

/-- The savepoints and values under which a variable was passed, in order; each value as the array
was when it was passed. -/
def passed (v : String) : (Nat → Arr) → List Op → List (String × Arr)
  | _, [] => []
  | heap, .call sp kw :: ops =>
      ((kw.filter fun e => decide (e.1 = v)).map fun e => (sp, heap e.2)) ++ passed v heap ops
  | heap, .write addr a :: ops => passed v (fun x => if x = addr then a else heap x) ops

/-- The name of a variable is not the name under which the savepoints of another are listed. -/
def NamesApart (heap : Nat → Arr) (ops : List Op) : Prop :=
  ∀ v w, passed v heap ops ≠ [] → passed w heap ops ≠ [] → v ≠ w ++ "_savepoints"

/-- The arrays of a variable can be stacked: they have one shape, with at least one axis. -/
def Stackable (l : List Arr) : Prop := ∃ shape, shape ≠ [] ∧ ∀ a ∈ l, a.shape = shape

end NDSL.Snap
