import Verif.Model.Xumpy
import Verif.Spec.StorageData
/-
Vocabulary for C123: the numbers a reduction is about, and what their greatest and least is.
-/
namespace NDSL.Xumpy

open NDSL.Storage NDSL.Temporaries

/-- `x ≤ y`; NaN is not comparable. -/
def Le : Num → Num → Prop
  | .nan, _ => False
  | _, .nan => False
  | .inf true, _ => True
  | _, .inf false => True
  | .fin a, .fin b => a ≤ b
  | _, _ => False

/-- The greatest of some numbers, NaN if NaN is one of them. -/
def Greatest (S : Num → Prop) (m : Num) : Prop := (S .nan → m = .nan) ∧ (¬ S .nan → S m ∧ ∀ x, S x → Le x m)

/-- The least of some numbers, NaN if NaN is one of them. -/
def Least (S : Num → Prop) (m : Num) : Prop := (S .nan → m = .nan) ∧ (¬ S .nan → S m ∧ ∀ x, S x → Le m x)

/-- The size of an array, of the compute domain for a quantity. -/
def Buffer.size : Buffer → List Nat
  | .array a => a.shape
  | .quantity q => q.extent
  | .other => []

/-- The number at an index, counted from the first point of the compute domain for a quantity. -/
def Buffer.val : Buffer → List Nat → Num
  | .array a, idx => a.get idx
  | .quantity q, idx => q.data.get (List.zipWith (· + ·) q.origin idx)
  | .other, _ => .nan

/-- Is axis `k` of `n` reduced? Axes are counted from the start or, negative, from the end; none given means all. -/
def drops (n : Nat) (axis : Option (List Int)) (k : Nat) : Bool :=
  match axis with
  | none => true
  | some l => l.contains (k : Int) || l.contains ((k : Int) - n)

/-- The entries of an index (or size) at the axes not reduced. -/
def kept (axis : Option (List Int)) (l : List Nat) : List Nat :=
  ((List.range l.length).filter fun k => !drops l.length axis k).map fun k => l.getD k 0

/-- The axes exist and are different. -/
def Valid (n : Nat) (axis : Option (List Int)) : Prop :=
  ∀ l, axis = some l → (∀ ax ∈ l, -(n : Int) ≤ ax ∧ ax < n) ∧ (l.map (· % (n : Int))).Nodup

/-- The numbers that are reduced to the one at index `ks`. -/
def Reduced (b : Buffer) (axis : Option (List Int)) (ks : List Nat) (x : Num) : Prop :=
  ∃ idx, isIndex b.size idx ∧ kept axis idx = ks ∧ x = b.val idx

end NDSL.Xumpy
