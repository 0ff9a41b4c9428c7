import Mathlib.Algebra.Order.Ring.Rat
import Mathlib.Algebra.Field.Rat
import Mathlib.Algebra.Order.Field.Basic
/-
What is meant by rounding to floating point numbers. Numbers have a mantissa of `p` bits and an exponent of at least `emin`; there is no largest number.
-/
namespace NDSL.Perturb

/-- `x` is a floating point number with a mantissa of `p` bits and exponents from `emin`: 53 bits and -1074 for 64 bit numbers, 24 and -149 for 32. -/
def Float' (p : Nat) (emin : Int) (x : ℚ) : Prop := ∃ m e : Int, |m| ≤ 2 ^ p ∧ emin ≤ e ∧ x = m * (2 : ℚ) ^ e

/-- `r` rounds to a nearest number, with any rule for ties. -/
def Nearest (p : Nat) (emin : Int) (r : ℚ → ℚ) : Prop := ∀ x, Float' p emin (r x) ∧ ∀ y, Float' p emin y → |r x - x| ≤ |y - x|

end NDSL.Perturb
