import Verif.Model.StateFiles
import Verif.Spec.StateUpdate
/-
Specification: states by path (from `Spec/StateUpdate`), and the last of a list of calls.
-/
namespace NDSL.StateFiles
open NDSL.StateUpd
variable {F A : Type}

/-- The names of the fields of a state. -/
def fieldNames : St F → List String
  | .nil => []
  | .field n _ _ rest => n :: fieldNames rest
  | .nested n _ rest => n :: fieldNames rest
  | .gone n _ rest => n :: fieldNames rest

/-- The fields of a Python class have different names. -/
def DistinctFields : St F → Prop
  | .nil => True
  | .field n _ _ rest => n ∉ fieldNames rest ∧ DistinctFields rest
  | .nested n sub rest => n ∉ fieldNames rest ∧ DistinctFields sub ∧ DistinctFields rest
  | .gone n sub rest => n ∉ fieldNames rest ∧ DistinctFields sub ∧ DistinctFields rest

/-- No nested state was overwritten with `None`. -/
def Whole : St F → Prop
  | .nil => True
  | .field _ _ _ rest => Whole rest
  | .nested _ sub rest => Whole sub ∧ Whole rest
  | .gone _ _ _ => False

/-- The quantities of a state agree about the sizes of dimensions. -/
def Consistent (xa : F → A) (dims : A → List (String × Nat)) (s : St F) : Prop :=
  ∀ p q f g, value s p = some (some f) → value s q = some (some g) →
    ∀ d n m, (d, n) ∈ dims (xa f) → (d, m) ∈ dims (xa g) → n = m

/-- No quantity has the name of its only dimension. -/
def NoCoordinates (xa : F → A) (dims : A → List (String × Nat)) (s : St F) : Prop :=
  ∀ p n f, value s (p ++ [n]) = some (some f) → (dims (xa f)).map (·.1) ≠ [n]

/-- Two states of the same class: the same fields and nested states. -/
def SameClass (s t : St F) : Prop :=
  ∀ p, declared s p = declared t p ∧ (isState s p ↔ isState t p)

/-- A state that can be written: nested at most once. -/
def Writable (xa : F → A) (dims : A → List (String × Nat)) (s : St F) : Prop :=
  DistinctFields s ∧ Whole s ∧ (∀ p, isState s p → p.length ≤ 1) ∧ Consistent xa dims s

/-- The state last saved in a directory, by a rank, for a class, with a postfix. -/
def lastSaved (l : List (Save F)) (rank : Nat) (dir : String) (cls post : List Char) : Option (St F) :=
  (l.reverse.find? fun v => v.rank == rank && v.dir == dir && v.cls == cls && v.post == post).map (·.state)

end NDSL.StateFiles
