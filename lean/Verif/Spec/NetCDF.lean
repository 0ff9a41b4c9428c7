import Verif.Model.NetCDF
/-
What the files should contain.
-/
namespace NDSL.NetCDF

variable {T C : Type}

/-- The states stored for a tile, in order. -/
def stored (tile : Nat) : List (Op T C) → List (St T C)
  | [] => []
  | .store t s :: ops => if t = tile then s :: stored tile ops else stored tile ops
  | .cleanup _ :: ops => stored tile ops

/-- A file contains exactly these states: their times, and for every field its contents, one for each
state. -/
def Contains (f : File T C) (l : List (St T C)) : Prop :=
  f.times = l.map (·.time) ∧
    ∀ v, (∃ s ∈ l, dictGet s.fields v ≠ none) → ∃ ch, dictGet f.vars v = some ch ∧
      ch.data.map some = l.map fun s => (dictGet s.fields v).map (·.content)

/-- Clean-ups happen only when the number of states stored so far fills its chunks, or when nothing is
stored afterwards. -/
def CleanupsLate (c tile : Nat) (ops : List (Op T C)) : Prop :=
  ∀ pre post, ops = pre ++ Op.cleanup tile :: post →
    c ∣ (stored tile pre).length ∨ stored tile post = []

/-- States that can be stored one after the other: the same names, and each field with the same
dimensions up to order. -/
def Uniform (l : List (St T C)) : Prop :=
  (∀ s ∈ l, (s.fields.map (·.1)).Nodup) ∧
  ∀ s ∈ l, ∀ s' ∈ l, (∀ k, k ∈ s.keys ↔ k ∈ s'.keys) ∧
    (s.time.isSome = s'.time.isSome) ∧
    ∀ v q, dictGet s.fields v = some q → ∃ q', dictGet s'.fields v = some q' ∧ q.dims.Perm q'.dims

end NDSL.NetCDF
