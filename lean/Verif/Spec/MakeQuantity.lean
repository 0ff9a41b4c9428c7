import Mathlib.Data.List.Forall2
import Verif.Model.MakeQuantity
import Verif.Spec.StorageData
/-
Vocabulary for C120: which shapes NumPy stretches to which, and where the value at an index comes from.
-/
namespace NDSL.MakeQuantity

open NDSL.Storage

/-- An array of shape `s` can be stretched to shape `t`: aligned at the last axes, lengths agree or are one in `s`; axes missing in `s`
are added in front, and axes of length one in front of `s` are dropped. -/
def Broadcasts (s t : List Nat) : Prop :=
  ∃ (lead : Nat) (extra core rest : List Nat), s = List.replicate lead 1 ++ core ∧ t = extra ++ rest ∧
    List.Forall₂ (fun a b => a = b ∨ a = 1) core rest ∧ (lead = 0 ∨ extra = [])

/-- The types of numbers a quantity may have: not a floating point type other than the configured one, unless allowed. -/
def Precise {V : Type} (env : Env V) (dtype : String) (allow : Bool) : Prop :=
  allow = true ∨ dtype ∉ env.floats ∨ dtype = env.Float

/-- The later memory has everything the earlier one had, unchanged. -/
def Keeps {V : Type} (heap heap' : List (Obj V)) : Prop := ∀ k < heap.length, heap'[k]? = heap[k]?

end NDSL.MakeQuantity
