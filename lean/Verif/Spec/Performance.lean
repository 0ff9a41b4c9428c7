import Verif.Model.Performance
import Verif.Spec.Timer
import Mathlib.Data.List.Forall2
/-
Specification of the performance report: what was measured in each collected step.
-/
namespace NDSL.Perf
open Timing

variable {T : Type}

/-- The uses of the timer of the steps at each collection since the last `clear`: everything done to
that timer before, where a collection resets it. -/
def stepHistories (past : List (Timing.Op T)) (acc : List (List (Timing.Op T))) :
    List (Op T) → List (List (Timing.Op T))
  | [] => acc
  | .step o :: h => stepHistories (past ++ [o]) acc h
  | .total _ :: h => stepHistories past acc h
  | .collect :: h => stepHistories (past ++ [.reset]) (acc ++ [past]) h
  | .clear :: h => stepHistories past [] h

/-- The uses of the total timer. -/
def totalHistory : List (Op T) → List (Timing.Op T)
  | [] => []
  | .total o :: h => o :: totalHistory h
  | _ :: h => totalHistory h

/-- The durations by name that a timer measured in a history since its last reset. -/
def Measured [Sub T] (ops : List (Timing.Op T)) (d : String → List T) : Prop :=
  ∃ log b, Logs true ops log b ∧ ∀ n, d n = durations n log

/-- The durations measured in each collected step. -/
def Steps [Sub T] (h : List (Op T)) (D : List (String → List T)) : Prop :=
  List.Forall₂ Measured (stepHistories [] [] h) D

/-- Something of that name was measured in some step. -/
def Timed (D : List (String → List T)) (n : String) : Prop := ∃ d ∈ D, d n ≠ []

/-- How often something of that name was measured. -/
def hitsOf (D : List (String → List T)) (n : String) : Nat := (D.map fun d => (d n).length).sum

/-- The times of that name: a sum for each step in which it was measured, in order. -/
def timesOf [Add T] (D : List (String → List T)) (n : String) : List T :=
  D.filterMap fun d => Timing.total (d n)

/-- The number of steps in which something was measured. -/
def ActiveSteps (D : List (String → List T)) (k : Nat) : Prop :=
  ∃ active : List Bool, List.Forall₂ (fun d a => a = true ↔ ∃ n, d n ≠ []) D active ∧
    k = active.count true

end NDSL.Perf
