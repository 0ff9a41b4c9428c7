import Verif.Model.StateTransfer
import Mathlib.Algebra.Order.Field.Basic
/-
Model of the calibration of thresholds, `ndsl/checkpointer/thresholds.py`, and of the validation
against them, `ndsl/checkpointer/validation.py`. Arrays are lists of their points, over an ordered
field (no rounding, no infinities, no NaN in the data). The three dictionaries of minimums, maximums
and sums always have the same keys; they are modelled as one dictionary of triples.
-/
namespace NDSL.Calib

variable {K : Type} [Field K] [LinearOrder K]

/-- `Threshold`, 18-21 -/
structure Threshold (K : Type) where
  relative : K
  absolute : K
  deriving DecidableEq

/-- `Threshold.merge`, 23-33 -/
def Threshold.merge (a b : Threshold K) : Threshold K :=
  ⟨max a.relative b.relative, max a.absolute b.absolute⟩

/-- What is recorded for a variable in a call of a savepoint. -/
structure Stat (K : Type) where
  min : List K
  max : List K
  absSum : List K
  deriving DecidableEq

/-- `|x|` -/
def absv (x : K) : K := if x < 0 then -x else x

/-- 99-105, for a variable not seen before in this call of the savepoint, and for one seen. Arrays
of one variable are assumed to have one shape. -/
def record (s : Option (Stat K)) (a : List K) : Stat K :=
  match s with
  | none => ⟨a, a, a.map absv⟩
  | some s => ⟨List.zipWith Min.min s.min a, List.zipWith Max.max s.max a,
      List.zipWith (· + ·) s.absSum (a.map absv)⟩

/-- `ThresholdCalibrationCheckpointer`, 59-78: for each savepoint the list over calls of the
dictionaries over variables; the numbers of calls in the current trial; the number of trials. -/
structure Cal (K : Type) where
  store : String → List (List (String × Stat K))
  nCalls : String → Nat
  nTrials : Nat
  factor : K

def Cal.new (factor : K) : Cal K := ⟨fun _ => [], fun _ => 0, 0, factor⟩

/-- The loop 97-105 over the variables of a call. -/
def recordAll (d : List (String × Stat K)) (kwargs : List (String × List K)) : List (String × Stat K) :=
  kwargs.foldl (fun d e => dictSet d e.1 (record (dictGet d e.1) e.2)) d

/-- `__call__`, 80-107 -/
def Cal.call (c : Cal K) (sp : String) (kwargs : List (String × List K)) : Cal K :=
  let i := c.nCalls sp
  let l := if (c.store sp).length < i + 1 then c.store sp ++ [[]] else c.store sp
  { c with
    store := fun s => if s = sp then l.modify i (fun d => recordAll d kwargs) else c.store s
    nCalls := fun s => if s = sp then i + 1 else c.nCalls s }

/-- A trial: the calls made in it, and whether it ended without an exception. -/
structure Trial (K : Type) where
  calls : List (String × List (String × List K))
  completed : Bool

/-- `trial`, 109-123: the counters restart; the trial is counted if it did not raise. -/
def Cal.trial (c : Cal K) (t : Trial K) : Cal K :=
  let c1 := t.calls.foldl (fun c e => c.call e.1 e.2) { c with nCalls := fun _ => 0 }
  if t.completed then { c1 with nTrials := c1.nTrials + 1 } else c1

def Cal.trials (c : Cal K) (ts : List (Trial K)) : Cal K := ts.foldl Cal.trial c

/-- `np.max` of a non-empty array -/
def maxList : List K → K
  | [] => 0
  | x :: l => l.foldl Max.max x

/-- 137-150. Points where the mean is zero give NaN (`0 / 0`, all values are zero there), which
`nanmax` leaves out. -/
def threshold (factor : K) (nTrials : Nat) (s : Stat K) : Threshold K :=
  let spread := List.zipWith (· - ·) s.max s.min
  let mean := s.absSum.map (· / (nTrials : K))
  let ratios := ((spread.zip mean).filter fun p => decide (p.2 ≠ 0)).map fun p => p.1 / p.2
  ⟨if mean.all fun m => decide (m = 0) then 0 else factor * maxList ratios, factor * maxList spread⟩

/-- `thresholds`, 125-151: for a savepoint that was seen, the list over the calls counted in the
current trial. -/
def Cal.thresholds (c : Cal K) (sp : String) : Except Err (List (List (String × Threshold K))) :=
  if c.nTrials < 2 then .error .runtimeError
  else .ok ((List.range (c.nCalls sp)).map fun i =>
    ((c.store sp).getD i []).map fun e => (e.1, threshold c.factor c.nTrials e.2))

/-! ### Validation -/

/-- `_remove_buffer_if_needed`, `validation.py` 34-48, in one dimension -/
def removeBuffer {α : Type} (a : List α) (target : Nat) : List α :=
  if ((a.length : Int) - target) % 2 = 1 then a.take (a.length - 1) else a

/-- `_remove_symmetric_halos`, 51-61, in one dimension, for arrays not smaller than the target -/
def removeHalos {α : Type} (a : List α) (target : Nat) : List α :=
  let n := (a.length - target) / 2
  if n = 0 then a else (a.take (a.length - n)).drop n

/-- `_clip_pace_array_to_target`, 13-31, in one dimension; the other dimensions are clipped in the
same way, independently. -/
def clip {α : Type} (a : List α) (target : Nat) : List α := removeHalos (removeBuffer a target) target

/-- `np.testing.assert_allclose` with one of the tolerances zero -/
def close (rtol atol : K) (actual desired : List K) : Bool :=
  decide (actual.length = desired.length) &&
    (actual.zip desired).all fun p => decide (absv (p.1 - p.2) ≤ atol + rtol * absv p.2)

/-- 123-143: the two checks of one variable, thresholds that are NaN are `none`. -/
def accepts (rtol atol : Option K) (output expected : List K) : Bool :=
  (match rtol with
    | none => true
    | some r => close r 0 (((output.zip expected).filter fun p => decide (p.2 ≠ 0)).map (·.1))
        (((output.zip expected).filter fun p => decide (p.2 ≠ 0)).map (·.2))) &&
  (match atol with
    | none => true
    | some a => close 0 a output expected)

/-- The reference data of a savepoint: for each call and rank the dictionary of variables. -/
abbrev Reference (K : Type) := String → Nat → Nat → List (String × List K)

/-- The thresholds given: per savepoint and call the dictionary of variables, `none` for NaN. -/
abbrev Given (K : Type) := String → List (List (String × (Option K × Option K)))

/-- `ValidationCheckpointer`, 64-85 -/
structure Val (K : Type) where
  thresholds : Given K
  reference : Reference K
  rank : Nat
  nCalls : String → Nat

/-- The loop 116-143. `assert_allclose` raises `AssertionError`, here `runtimeError`. -/
def checkVars (th : List (String × (Option K × Option K))) (ref : List (String × List K)) :
    List (String × List K) → Except Err Unit
  | [] => .ok ()
  | (v, a) :: rest => do
      match dictGet ref v with
      | none => .error .valueError
      | some expected =>
          match dictGet th v with
          | none => .error .keyError
          | some (r, t) =>
              if accepts r t (clip a expected.length) expected then checkVars th ref rest
              else .error .runtimeError

/-- `__call__`, 100-144 -/
def Val.call (c : Val K) (sp : String) (kwargs : List (String × List K)) : Except Err (Val K) := do
  match (c.thresholds sp)[c.nCalls sp]? with
  | none => .error .indexError
  | some th =>
      checkVars th (c.reference sp (c.nCalls sp) c.rank) kwargs
      return { c with nCalls := fun s => if s = sp then c.nCalls sp + 1 else c.nCalls s }

/-- `trial`, 87-98: the calls of one trial, from the first reference data. -/
def Val.trial (c : Val K) (calls : List (String × List (String × List K))) : Except Err (Val K) :=
  calls.foldlM (fun c e => c.call e.1 e.2) { c with nCalls := fun _ => 0 }

end NDSL.Calib
