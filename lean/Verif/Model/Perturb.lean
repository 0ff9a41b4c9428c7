import Mathlib.Algebra.Order.Ring.Rat
import Mathlib.Algebra.Field.Rat
/-
Model of `perturb` in `ndsl/testing/perturbation.py`, with the rounding of floating point arithmetic left to parameters: `r64` and `r32` round
a rational to a number of 53 and of 24 bits. The arrays are in a store, so that two names may stand for the same array.
The draws of `np.random.uniform` are a list given from outside; the numbers are drawn one for each entry that is changed, in the order of the entries.
-/
namespace NDSL.Perturb

/-- The kind of an object of the mapping, as far as line 15 tells them apart: an `ndarray` of 64 or 32 bit floats, or anything else. -/
inductive Kind where
  | f64
  | f32
  | other
  deriving DecidableEq

/-- An entry of an array. -/
inductive Val where
  | nan
  | inf (negative : Bool)
  | fin (q : ℚ)
  deriving DecidableEq

/-- An array: entries in the order in which a mask selects them. -/
structure Arr where
  kind : Kind
  data : List Val

/-- `data < 1e30` for one entry, `perturbation.py` 16: no for NaN and plus infinity, yes for minus infinity. -/
def Val.notFill : Val → Bool
  | .nan => false
  | .inf negative => negative
  | .fin q => decide (q < 10 ^ 30)

/-- `1.0 + np.random.uniform(...)` for one draw, 18: the sum is rounded to 64 bits. -/
def factor (r64 : ℚ → ℚ) (u : ℚ) : ℚ := r64 (1 + u)

/-- One entry times a factor, 18. Factors are 64 bit numbers: for arrays of 32 bits the product is made with 64 bits and then rounded to 32. Factors near 1 keep infinities. -/
def Val.times (r64 r32 : ℚ → ℚ) (k : Kind) (f : ℚ) : Val → Val
  | .fin q => .fin (match k with
    | .f32 => r32 (r64 (q * f))
    | _ => r64 (q * f))
  | v => v

/-- The selected entries of one array are multiplied in place, 16-20. The draws left over are given back. -/
def entries (r64 r32 : ℚ → ℚ) (k : Kind) : List ℚ → List Val → List Val × List ℚ
  | us, [] => ([], us)
  | us, v :: l =>
    if v.notFill then
      let r := entries r64 r32 k us.tail l
      (v.times r64 r32 k (factor r64 (us.headD 0)) :: r.1, r.2)
    else
      let r := entries r64 r32 k us l
      (v :: r.1, r.2)

/-- The loop over the values of the mapping, 14-20: `refs` are the arrays in the order of the mapping, `none` for a value that is no array. -/
def perturb (r64 r32 : ℚ → ℚ) : List ℚ → List (Option Nat) → (Nat → Arr) → (Nat → Arr)
  | _, [], h => h
  | us, none :: l, h => perturb r64 r32 us l h
  | us, some a :: l, h =>
    if (h a).kind = .other then perturb r64 r32 us l h
    else
      let r := entries r64 r32 (h a).kind us (h a).data
      perturb r64 r32 r.2 l fun b => if b = a then { h a with data := r.1 } else h b

end NDSL.Perturb
