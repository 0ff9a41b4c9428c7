import Verif.Model.StorageData
/-
Specification for storages made from arrays: the array is placed at a start in an array of zeros.
-/
namespace NDSL.Storage

variable {V : Type}

/-- `start k ≤ idx k < start k + size k` for every axis `k`. -/
def inBox : List Nat → List Nat → List Nat → Bool
  | [], [], [] => true
  | s :: ss, n :: ns, i :: is => decide (s ≤ i ∧ i < s + n) && inBox ss ns is
  | _, _, _ => false

/-- The array `d` at `start` and `z` everywhere else. -/
def placed (z : V) (d : Nd V) (start idx : List Nat) : V :=
  if inBox start d.shape idx then d.get (List.zipWith (· - ·) idx start) else z

/-- An index of an array of a given shape. -/
def isIndex : List Nat → List Nat → Prop
  | [], [] => True
  | n :: ns, i :: is => i < n ∧ isIndex ns is
  | _, _ => False

/-- An array of sizes `ns` at `start` fits in an array of a given shape. -/
def fitsAt : List Nat → List Nat → List Nat → Prop
  | [], [], [] => True
  | s :: ss, n :: ns, m :: ms => s + n ≤ m ∧ fitsAt ss ns ms
  | _, _, _ => False

end NDSL.Storage
