import Verif.Model.ColumnStencils

/-
Specification of the column stencils: the tridiagonal system, its pivots, and extrema.
-/
namespace NDSL.Column

variable {K : Type}

/-- Row `k` of the tridiagonal system of size `nk`: no lower coefficient in the first row, no
upper coefficient in the last. -/
def Row [Field K] (nk : Nat) (a b c d x : Nat → K) (k : Nat) : Prop :=
  (if k = 0 then 0 else a k * x (k - 1)) + b k * x k + (if k + 1 = nk then 0 else c k * x (k + 1))
    = d k

/-- The pivots of Gaussian elimination without row exchanges. -/
def pivot [Field K] (a b c : Nat → K) : Nat → K
  | 0 => b 0
  | k + 1 => b (k + 1) - a (k + 1) * (c k / pivot a b c k)

/-- `(v, k)` is the extreme (for `better`) of the field over `s, ..., e` and the first level at
which it occurs. -/
def FirstExtreme [LT K] (field : Int → K) (worse : K → K → Prop) (s e : Int) (r : K × Int) : Prop :=
  s ≤ r.2 ∧ r.2 ≤ e ∧ field r.2 = r.1 ∧
    (∀ l, s ≤ l → l ≤ e → ¬ worse r.1 (field l)) ∧
    ∀ l, s ≤ l → l < r.2 → field l ≠ r.1

end NDSL.Column
