import Mathlib.Algebra.Order.Ring.Rat
import Mathlib.Algebra.Field.Rat
import Mathlib.Algebra.Order.Field.Basic
import Verif.Model.StateTransfer
/-
Model of the pass/fail part of `ndsl/testing/comparison.py`. A floating point number is NaN, an
infinity or a rational: arithmetic on finite numbers is exact, without rounding or overflow. The two
arrays have the same shape, and are given as the list of pairs of computed and reference values.
Reports are not modelled.
-/
namespace NDSL.Compare

/-- Floating point numbers without rounding; integers are finite ones. -/
inductive Fl where
  | nan
  | inf (negative : Bool)
  | fin (q : ℚ)
  deriving DecidableEq

namespace Fl

/-- `np.isnan` -/
def isNan : Fl → Bool
  | nan => true
  | _ => false

/-- `np.abs` -/
def abs : Fl → Fl
  | nan => nan
  | inf _ => inf false
  | fin q => fin |q|

/-- `a - b` -/
def sub : Fl → Fl → Fl
  | fin a, fin b => fin (a - b)
  | inf a, fin _ => inf a
  | fin _, inf b => inf (!b)
  | inf a, inf b => if a = b then nan else inf a
  | _, _ => nan

/-- `a / b` -/
def div : Fl → Fl → Fl
  | fin a, fin b => if b = 0 then (if a = 0 then nan else inf (decide (a < 0))) else fin (a / b)
  | inf a, fin b => inf (if b < 0 then !a else a)
  | fin _, inf _ => fin 0
  | _, _ => nan

/-- `a < b`, for a threshold `b` that is a number. -/
def ltQ : Fl → ℚ → Bool
  | fin a, b => decide (a < b)
  | inf neg, _ => neg
  | nan, _ => false

/-- `a <= b`, for a threshold `b` that is a number. -/
def leQ : Fl → ℚ → Bool
  | fin a, b => decide (a ≤ b)
  | inf neg, _ => neg
  | nan, _ => false

/-- `a < b` -/
def lt : Fl → Fl → Bool
  | fin a, fin b => decide (a < b)
  | fin _, inf b => !b
  | inf a, fin _ => a
  | inf a, inf b => a && !b
  | _, _ => false

/-- `np.maximum`, of numbers that are not negative or NaN. -/
def maximum : Fl → Fl → Fl
  | fin a, fin b => fin (max a b)
  | fin _, inf b => inf b
  | inf a, fin _ => inf a
  | inf a, inf b => inf (a && b)
  | _, _ => nan

/-- `f * a` for a positive number `f` -/
def scale (f : ℚ) : Fl → Fl
  | fin a => fin (f * a)
  | x => x

/-- `np.spacing`: for finite numbers a function of the type. -/
def spacing (sp : ℚ → ℚ) : Fl → Fl
  | fin a => fin (sp a)
  | _ => nan

end Fl

/-- The types numbers are compared in. -/
inductive NumType where
  | f32 | f64 | i32 | i64
  deriving DecidableEq

/-- The two arrays, as pairs of the computed and the reference value. -/
inductive Data where
  | num (t : NumType) (pairs : List (Fl × Fl))
  | bool (pairs : List (Bool × Bool))
  | other
  deriving DecidableEq

/-- `ignore_near_zero_errors` -/
inductive Ignore where
  | flag (b : Bool)
  | dict (entries : List (String × ℚ))

/-- The near zero threshold in force, 96-106: none, or a number. -/
def nearZero (ignore : Ignore) (given : ℚ) : Except Err (Option ℚ) :=
  match ignore with
  | .flag false => .ok none
  | .flag true => .ok (some given)
  | .dict [] => .ok none
  | .dict (e :: d) =>
    match dictGet (e :: d) "near_zero" with
    | some q => .ok (some q)
    | none => .error .keyError

/-- `np.abs(computed) < near_zero and np.abs(references) < near_zero`, 101-104 and 109-112. -/
def bothNear (near : Option ℚ) (c r : Fl) : Bool :=
  match near with
  | none => false
  | some q => c.abs.ltQ q && r.abs.ltQ q

/-- One value of the metric of 79-85. -/
def legacyMetric (c r : Fl) : Fl :=
  ((c.sub r).div (if r = .fin 0 then .fin 1 else r)).abs

/-- One value of `success` for numbers, 92-113. -/
def legacyNum (eps : ℚ) (near : Option ℚ) (c r : Fl) : Bool :=
  ((c.isNan && r.isNan) || (legacyMetric c r).ltQ eps) || bothNear near c r

/-- A boolean as a number. -/
def ofBool (b : Bool) : ℚ := if b then 1 else 0

/-- One value of `success` for booleans, 86-113. -/
def legacyBool (eps : ℚ) (near : Option ℚ) (c r : Bool) : Bool :=
  decide (ofBool (c ^^ r) < eps) || bothNear near (.fin (ofBool c)) (.fin (ofBool r))

/-- `LegacyMetric(...).check`, 55-114. -/
def legacy (eps : ℚ) (ignore : Ignore) (given : ℚ) (data : Data) : Except Err Bool :=
  match data with
  | .num _ pairs => do
    let near ← nearZero ignore given
    return pairs.all fun (c, r) => legacyNum eps near c r
  | .bool pairs => do
    let near ← nearZero ignore given
    return pairs.all fun (c, r) => legacyBool eps near c r
  | .other => .error .typeError

/-- The thresholds shared by all comparisons of a process: attributes of the class, 222-223. -/
structure Shared where
  relative : ℚ
  ulp : ℚ
  deriving DecidableEq

/-- As at the start, 222-223. -/
def Shared.start : Shared := ⟨1 / 1000000, 1⟩

/-- The overrides of one comparison; -1 where there is none. -/
structure Overrides where
  absolute : ℚ
  relative : ℚ
  ulp : ℚ
  deriving DecidableEq

/-- None, 230-232. -/
def Overrides.none : Overrides := ⟨-1, -1, -1⟩

/-- The setters of 251-254: they change the attribute of the class. -/
def Shared.override (s : Shared) (o : Overrides) : Shared :=
  ⟨if o.relative > s.relative then o.relative else s.relative,
   if o.ulp > s.ulp then o.ulp else s.ulp⟩

/-- `absolute_eps`, 220-221 and 243-250: an attribute of the instance. -/
def absoluteEps (o : Overrides) (t : NumType) : ℚ :=
  let e : ℚ := match t with
    | .f32 | .i32 => 1 / 10 ^ 10
    | .f64 | .i64 => 1 / 10 ^ 13
  if o.absolute > e then o.absolute else e

/-- One value of `success` for numbers, 279-312. -/
def multiNum (sp : ℚ → ℚ) (eps : ℚ) (s : Shared) (c r : Fl) : Bool :=
  let m := c.abs.maximum r.abs
  let dist := (c.sub r).abs
  (c.isNan && r.isNan) ||
    ((dist.lt (Fl.scale s.relative m) || dist.ltQ eps) || (dist.div (m.spacing sp)).leQ s.ulp)

/-- `_compute_all_metrics` and `np.all`, 275-319. `sp` is the distance to the next number. -/
def multiCheck (sp : NumType → ℚ → ℚ) (s : Shared) (o : Overrides) : Data → Except Err Bool
  | .num t pairs => .ok (pairs.all fun (c, r) => multiNum (sp t) (absoluteEps o t) s c r)
  | .bool pairs => .ok (pairs.all fun (c, r) => c ^^ r)
  | .other => .error .typeError

/-- `MultiModalFloatMetric(...)`, 225-257: the shared thresholds after it and `check`. -/
def multi (sp : NumType → ℚ → ℚ) (s : Shared) (o : Overrides) (d : Data) :
    Shared × Except Err Bool :=
  (s.override o, multiCheck sp (s.override o) o d)

/-- The shared thresholds after a history of comparisons. -/
def history (s : Shared) (h : List Overrides) : Shared := h.foldl Shared.override s

end NDSL.Compare
