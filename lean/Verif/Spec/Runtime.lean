import Verif.Model.Runtime
/-
Specification for `NDSLRuntime`.
-/
namespace NDSL.Runtime

/-- The constructor of the class calls the constructor of the parent (or there is none to forget
it in). -/
def CallsSuper (c : Cls) : Prop := ∀ acts, c.init = some acts → .super ∈ acts

/-- The step is a call of the parent's constructor. -/
def isSuper : Act → Bool
  | .super => true
  | .set _ _ => false

/-- How often the constructor of a class calls that of the parent. -/
def superCalls (c : Cls) : Nat :=
  match c.init with
  | none => 1
  | some acts => acts.countP isSuper

/-- Following the positions in the path through runtimes held as attributes, one ends at a
quantity. -/
def QuantityAt : List (Nat × Val) → List Nat → Prop
  | _, [] => False
  | attrs, i :: path =>
    (path = [] ∧ ∃ n, attrs[i]? = some (n, .quantity)) ∨
      ∃ n sub, attrs[i]? = some (n, .runtime sub) ∧ QuantityAt sub path

end NDSL.Runtime
