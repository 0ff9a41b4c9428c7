import Verif.Model.Thresholds
/-
What calibration and validation are about, independently of how they are recorded.
-/
namespace NDSL.Calib

variable {K : Type}

/-- The calls of a program: the name of a savepoint and the arrays passed by name. -/
abbrev Calls (K : Type) := List (String × List (String × List K))

/-- How often the savepoint is called. -/
def timesCalled (t : Calls K) (sp : String) : Nat := (t.filter fun e => decide (e.1 = sp)).length

/-- The array passed under a name in the `i`-th call of a savepoint. -/
def value (t : Calls K) (sp : String) (i : Nat) (v : String) : Option (List K) :=
  ((t.filter fun e => decide (e.1 = sp))[i]?).bind fun e => dictGet e.2 v

/-- Arguments passed by name have different names (the language guarantees it). -/
def Keyed (t : Calls K) : Prop := ∀ e ∈ t, (e.2.map (·.1)).Nodup

/-- What was passed in all the trials. -/
def values (ts : List (Calls K)) (sp : String) (i : Nat) (v : String) : List (List K) :=
  ts.filterMap fun t => value t sp i v

variable [Field K] [LinearOrder K]

/-- The mean magnitude over the trials of a point of a variable in a call of a savepoint. -/
def meanAbs (ts : List (Calls K)) (sp : String) (i : Nat) (v : String) (x : Nat) : K :=
  ((values ts sp i v).map fun a => |a.getD x 0|).sum / (ts.length : K)

/-- Two arrays agree within a relative tolerance (where the expected value is not zero) and an
absolute one; a tolerance not given allows everything. -/
def Within (rtol atol : Option K) (out expected : List K) : Prop :=
  (∀ r, rtol = some r → ∀ x (h : x < out.length) (h' : x < expected.length), expected[x] ≠ 0 →
    |out[x] - expected[x]| ≤ r * |expected[x]|) ∧
  (∀ t, atol = some t → out.length = expected.length ∧
    ∀ x (h : x < out.length) (h' : x < expected.length), |out[x] - expected[x]| ≤ t)

end NDSL.Calib
