import Verif.Model.NDArray
import Verif.Spec.Halo

/-
Vocabulary for array properties: indices inside a shape, equality of arrays, centred coordinates.
-/
namespace NDSL

/-- `idx` is a valid index of an array of this shape -/
def InShape (shape idx : List Int) : Prop := List.Forall₂ (fun n i => 0 ≤ i ∧ i < n) shape idx

/-- two arrays are equal: same shape and same value at every valid index -/
def NArr.Same {α : Type} (a b : NArr α) : Prop :=
  a.shape = b.shape ∧ ∀ idx, InShape a.shape idx → a.get idx = b.get idx

/-- `x` and `y` are the positions of the x and y dimension: the only horizontal dims -/
structure XYAt (dims : List Dim) (x y : Nat) : Prop where
  hx : ∀ p (h : p < dims.length), dims[p].isI = true ↔ p = x
  hy : ∀ p (h : p < dims.length), dims[p].isJ = true ↔ p = y
  lx : x < dims.length
  ly : y < dims.length

/-- position of an index relative to the centre of an axis of length `n` (doubled) -/
def centred (n i : Int) : Int := 2 * i + 1 - n

/-- quarter turns clockwise of a pair of components -/
def turnV {α : Type} [Neg α] (k : Int) (v : α × α) : α × α :=
  if k % 4 = 0 then v
  else if k % 4 = 1 then (v.2, -v.1)
  else if k % 4 = 2 then (-v.1, -v.2)
  else (-v.2, v.1)

/-- sanity: on integers these are the quarter turns of `Spec/Directions` -/
theorem turnV_int (k : Int) (v : Int × Int) : turnV k v = turnsCW k v := by
  unfold turnV turnsCW turnCW
  repeat' split
  all_goals simp

end NDSL
