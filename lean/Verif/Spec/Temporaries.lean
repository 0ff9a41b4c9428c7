import Verif.Model.Temporaries
import Verif.Spec.StorageData
/-
Vocabulary for C122: the paths that lead from an object to a quantity, the array a path leads to in a snapshot, and when numbers are taken as equal.
-/
namespace NDSL.Temporaries

open NDSL.Storage

/-- A class is defined in a package whose name is a part of the string "pyFV3". -/
def InPackage (module : String) : Prop :=
  ∃ pkg rest : List Char, module.toList = pkg ++ rest ∧ '.' ∉ pkg ∧ (rest = [] ∨ ∃ r, rest = '.' :: r) ∧ pkg <:+: "pyFV3".toList

/-- A path of attributes, none of which starts with two underscores, leads from an object over at most `depth` further objects of the package to a quantity. -/
inductive Reach (w : World) : Nat → Nat → List String → Nat → Prop
  | here {depth id name m} : (name, Attr.quantity m) ∈ (w.node id).attrs → ¬ "__".toList <+: name.toList → Reach w depth id [name] m
  | step {depth id name c path m} : (name, Attr.object c) ∈ (w.node id).attrs → ¬ "__".toList <+: name.toList →
      InPackage (w.node c).module → Reach w depth c path m → Reach w (depth + 1) id (name :: path) m

/-- First entry of a name. -/
def Dict.get : Dict → String → Option Snap
  | .nil, _ => none
  | .cons n v rest, name => if n = name then some v else rest.get name

/-- The array at a path. -/
def Snap.at : Snap → List String → Option Arr
  | .arr a, [] => some a
  | .sub d, n :: p => match d.get n with
    | some v => v.at p
    | none => none
  | _, _ => none

def Dict.names : Dict → List String
  | .nil => []
  | .cons n _ rest => n :: rest.names

mutual
/-- A snapshot has distinct names and no empty dictionaries inside. -/
def Snap.Full : Snap → Prop
  | .arr _ => True
  | .sub d => d.names ≠ [] ∧ d.Full
def Dict.Full : Dict → Prop
  | .nil => True
  | .cons n v rest => n ∉ rest.names ∧ v.Full ∧ rest.Full
end

/-- Numbers taken as equal. -/
def Near (x y : Num) : Prop :=
  (x = .nan ∧ y = .nan) ∨ (∃ s, x = .inf s ∧ y = .inf s) ∨
    ∃ a b : ℚ, x = .fin a ∧ y = .fin b ∧ |a - b| ≤ 1 / 10 ^ 8 + 1 / 10 ^ 5 * |b|

end NDSL.Temporaries
