import Verif.Model.FieldBundle

/-
What an access by name should and does show, read off the history of operations. Histories are given here newest
first.
-/
namespace NDSL.Bundle

/-- the number of bundles created -/
def count : List Op → Nat
  | [] => 0
  | .create _ _ _ :: past => count past + 1
  | _ :: past => count past

/-- storage and length of the last axis of a bundle -/
def storageOf : List Op → Nat → Option (Nat × Nat)
  | [], _ => none
  | .create s n _ :: past, b => if b = count past then some (s, n) else storageOf past b
  | _ :: past, b => storageOf past b

/-- the index a bundle has registered for a name now: the last one given -/
def registered : List Op → Nat → String → Option Int
  | [], _, _ => none
  | .create _ _ m :: past, b, name => if b = count past then dictGet m name else registered past b name
  | .map b' i name' :: past, b, name =>
    if b' = b ∧ name' = name ∧ b < count past then some i else registered past b name
  | .get _ _ :: past, b, name => registered past b name

/-- the view the access should give: the bundle's own storage at the index registered for the name -/
def ownView (past : List Op) (b : Nat) (name : String) : Option View :=
  match storageOf past b, registered past b name with
  | some (s, n), some i => if 0 ≤ i ∧ i < n then some ⟨s, i⟩ else if i < 0 ∧ 0 ≤ n + i then some ⟨s, n + i⟩ else none
  | _, _ => none

/-- the own view at the first access, by any bundle, of a name that had one -/
def firstAccess : List Op → String → Option View
  | [], _ => none
  | .get b name' :: past, name =>
    match firstAccess past name with
    | some v => some v
    | none => if name' = name then ownView past b name else none
  | _ :: past, name => firstAccess past name

end NDSL.Bundle
