import Verif.Model.StateUpdate

/-
States and memory maps by path.
-/
namespace NDSL.StateUpd
variable {F A : Type}

/-- the value of the field at a path; `none`: there is no such field, `some none`: it is `None` -/
def value : St F → List String → Option (Option F)
  | _, [] => none
  | .nil, _ => none
  | .field n _ v rest, x :: q => if x = n then (if q = [] then some v else none) else value rest (x :: q)
  | .nested n sub rest, x :: q => if x = n then value sub q else value rest (x :: q)
  | .gone n _ rest, x :: q => if x = n then none else value rest (x :: q)

/-- whether the field at a path is declared optional -/
def declared : St F → List String → Option Bool
  | _, [] => none
  | .nil, _ => none
  | .field n o _ rest, x :: q => if x = n then (if q = [] then some o else none) else declared rest (x :: q)
  | .nested n sub rest, x :: q => if x = n then declared sub q else declared rest (x :: q)
  | .gone n sub rest, x :: q => if x = n then declared sub q else declared rest (x :: q)

/-- whether there is a nested state at a path -/
def isState : St F → List String → Prop
  | _, [] => False
  | .nil, _ => False
  | .field n _ _ rest, x :: q => if x = n then False else isState rest (x :: q)
  | .nested n sub rest, x :: q => if x = n then (q = [] ∨ isState sub q) else isState rest (x :: q)
  | .gone n _ rest, x :: q => if x = n then False else isState rest (x :: q)

/-- what a memory map gives for a path: `some none` is Python's `None` -/
def given : Mem A → List String → Option (Option A)
  | _, [] => none
  | .nil, _ => none
  | .none n rest, x :: q => if x = n then (if q = [] then some none else none) else given rest (x :: q)
  | .arr n a rest, x :: q => if x = n then (if q = [] then some (some a) else none) else given rest (x :: q)
  | .dict n sub rest, x :: q => if x = n then given sub q else given rest (x :: q)

/-- whether a memory map has a dictionary at a path -/
def isDict : Mem A → List String → Prop
  | _, [] => False
  | .nil, _ => False
  | .none n rest, x :: q => if x = n then False else isDict rest (x :: q)
  | .arr n _ rest, x :: q => if x = n then False else isDict rest (x :: q)
  | .dict n sub rest, x :: q => if x = n then (q = [] ∨ isDict sub q) else isDict rest (x :: q)

/-- the keys of a dictionary -/
def keys : Mem A → List String
  | .nil => []
  | .none n rest => n :: keys rest
  | .arr n _ rest => n :: keys rest
  | .dict n _ rest => n :: keys rest

/-- Python dictionaries have distinct keys, at every level -/
def Distinct : Mem A → Prop
  | .nil => True
  | .none n rest => n ∉ keys rest ∧ Distinct rest
  | .arr n _ rest => n ∉ keys rest ∧ Distinct rest
  | .dict n sub rest => n ∉ keys rest ∧ Distinct sub ∧ Distinct rest

/-- no name is used twice with different meanings: the flag kept for a name is the one declared at every path that
ends with that name, and no nested state has the name of a field -/
def NoClash (s : St F) : Prop :=
  (∀ (p : List String) (n : String) (b : Bool), declared s (p ++ [n]) = some b → flagOf s.flags n = some b) ∧
  (∀ (p : List String) (n : String), isState s (p ++ [n]) → flagOf s.flags n = none)

end NDSL.StateUpd
