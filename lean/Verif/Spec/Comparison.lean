import Verif.Model.Comparison
/-
Vocabulary for C61: arrays compared with themselves, arrays without infinities, and closeness of numbers.
-/
namespace NDSL.Compare

/-- An array compared with itself. -/
def Data.Same : Data → Prop
  | .num _ pairs => ∀ p ∈ pairs, p.1 = p.2
  | .bool pairs => ∀ p ∈ pairs, p.1 = p.2
  | .other => False

/-- Not an infinity: a finite number or NaN. -/
def Fl.NotInf (x : Fl) : Prop := ∀ b, x ≠ .inf b

/-- `c` is within a fraction `eps` of the reference, or within `eps` of a zero reference. -/
def CloseLegacy (eps c r : ℚ) : Prop :=
  (r ≠ 0 ∧ |c - r| < eps * |r|) ∨ (r = 0 ∧ |c| < eps)

/-- Within an absolute distance, a fraction of the larger number or a number of units in the last
place. -/
def CloseMulti (sp : ℚ → ℚ) (eps frac ulp c r : ℚ) : Prop :=
  |c - r| < eps ∨ |c - r| < frac * max |c| |r| ∨ |c - r| ≤ ulp * sp (max |c| |r|)

end NDSL.Compare
