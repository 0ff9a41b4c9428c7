import Verif.Model.KSplit
/-
Specification of the splitting of columns: intervals `(start, length)` of levels.
-/
namespace NDSL.KSplit

variable {V : Type}

/-- Consecutive non-empty intervals from level `a` up to `npz`. -/
def TilesFrom (npz : Nat) : Nat → List (Nat × Nat) → Prop
  | a, [] => a = npz
  | a, (s, n) :: l => s = a ∧ 0 < n ∧ TilesFrom npz (a + n) l

/-- The parameters do not change within an interval. -/
def Constant (info : List (String × List V)) (ks : List (Nat × Nat)) : Prop :=
  ∀ i ∈ ks, ∀ k, i.1 ≤ k → k < i.1 + i.2 → ∀ e ∈ info, e.2[k]? = e.2[i.1]?

/-- Some parameter changes from each interval to the next. -/
def Changes (info : List (String × List V)) : List (Nat × Nat) → Prop
  | (a, m) :: (b, n) :: l => (∃ e ∈ info, e.2[a]? ≠ e.2[b]?) ∧ Changes info ((b, n) :: l)
  | _ => True

/-- The intervals that contain a level. -/
def containing (k : Nat) (ks : List (Nat × Nat)) : List (Nat × Nat) :=
  ks.filter fun i => decide (i.1 ≤ k ∧ k < i.1 + i.2)

end NDSL.KSplit
