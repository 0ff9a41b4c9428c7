import Mathlib.Data.List.Dedup
import Verif.Model.Comparison
/-
Model of the reports of `ndsl/testing/comparison.py`: which points a report lists, in which order, with
which numbers, and what it counts. The numbers are those of `Verif.Model.Comparison`: NaN, infinities and
exact rationals. A line of text is modelled by what it shows; the formatting of numbers and the rounding
of percentages are not modelled. numpy is 2.1 or later, where `nonzero` of an array without axes raises.
-/
namespace NDSL.CompareReport

open NDSL.Compare

/-- The exceptions of reports. -/
inductive Fault where
  /-- `nonzero` of an array without axes: ValueError -/
  | scalar
  /-- ZeroDivisionError -/
  | zeroDivision
  /-- UnboundLocalError -/
  | unbound
  /-- the difference of two booleans: TypeError -/
  | typeError
  /-- `int(inf)`: OverflowError -/
  | overflow
  deriving DecidableEq

/-- `np.squeeze(np.atleast_1d(...))` on the shape, 30-31. -/
def squeeze (shape : List Nat) : List Nat := shape.filter (· ≠ 1)

/-- The indices of an array in the order of `nonzero` and `flatten`: the last axis varies fastest. -/
def indices : List Nat → List (List Nat)
  | [] => [[]]
  | n :: s => (List.range n).flatMap fun i => (indices s).map (i :: ·)

/-- `np.unravel_index` -/
def unravel : List Nat → Nat → List Nat
  | [], _ => []
  | _ :: s, k => k / s.prod :: unravel s (k % s.prod)

/-! ### The legacy metric, 116-195 -/

/-- One line of the details, 148-151, and the fields of the worst result, 153-158. -/
structure Line where
  index : List Nat
  computed : Fl
  reference : Fl
  absolute : Fl
  metric : Fl
  deriving DecidableEq

/-- The line of one failing point, 141-151. -/
def line (e : List Nat × Fl × Fl) : Line :=
  ⟨e.1, e.2.1, e.2.2, (e.2.1.sub e.2.2).abs, legacyMetric e.2.1 e.2.2⟩

/-- `np.logical_not(self.success).nonzero()` with the values there, 126-128. `shape` is after `squeeze`. -/
def failures (eps : ℚ) (near : Option ℚ) (shape : List Nat) (pairs : List (Fl × Fl)) :
    List (List Nat × Fl × Fl) :=
  ((indices shape).zip pairs).filter fun e => !legacyNum eps near e.2.1 e.2.2

/-- 153-158: `worst_metric_err` is 0 at first and the other names are not bound. -/
def worstStep (w : Option Line) (l : Line) : Option Line :=
  let worst : Fl := match w with
    | none => .fin 0
    | some w => w.metric
  if l.metric.isNan || worst.abs.lt l.metric.abs then some l else w

/-- What a report says, 123-177. -/
inductive LegacyReport where
  | passed
  | failed (count total : Nat) (worst : Line) (unique : Nat) (lines : List Line)
  deriving DecidableEq

/-- `LegacyMetric.report`, 122-183, for numbers. `np.unique` counts NaN once. -/
def legacyReport (eps : ℚ) (near : Option ℚ) (shape : List Nat) (pairs : List (Fl × Fl)) :
    Except Fault LegacyReport :=
  if pairs.all fun (c, r) => legacyNum eps near c r then .ok .passed
  else if squeeze shape = [] then .error .scalar
  else
    let ls := (failures eps near (squeeze shape) pairs).map line
    match ls.foldl worstStep none with
    | none => .error .unbound
    | some w => .ok (.failed ls.length pairs.length w (ls.map (·.absolute)).dedup.length ls)

/-- `LegacyMetric.report`, 122-183, for booleans: the difference in 145 raises at the first failure. -/
def legacyBoolReport (eps : ℚ) (near : Option ℚ) (shape : List Nat) (pairs : List (Bool × Bool)) :
    Except Fault LegacyReport :=
  if pairs.all fun (c, r) => legacyBool eps near c r then .ok .passed
  else if squeeze shape = [] then .error .scalar
  else .error .typeError

/-- Entries of the list a report returns. -/
inductive Text where
  | one (check : Bool)
  | summary (count total : Nat) (worst : Line) (unique : Nat)
  | title
  | columns
  | point (l : Line)
  | dots
  deriving DecidableEq

/-- The list of 123-177. -/
def LegacyReport.text : LegacyReport → List Text
  | .passed => [.one true]
  | .failed n t w u ls => .one false :: .summary n t w u :: .title :: .columns :: ls.map .point

/-- `LegacyMetric.__repr__`, 188-193. -/
def LegacyReport.repr (r : LegacyReport) : List Text :=
  if r.text.length > 30 then r.text.take 30 ++ [.dots] else r.text

/-! ### The multi modal metric, 210-460 -/

/-- The class attributes `relative_fraction` and `ulp_threshold` with their `is_default`, 197-208 and
222-223. -/
structure Process where
  shared : Shared
  relativeDefault : Bool
  ulpDefault : Bool
  deriving DecidableEq

/-- 222-223 -/
def Process.start : Process := ⟨.start, true, true⟩

/-- The setters of 205-208 called in 251-254. -/
def Process.override (p : Process) (o : Overrides) : Process :=
  ⟨p.shared.override o,
   if o.relative > p.shared.relative then false else p.relativeDefault,
   if o.ulp > p.shared.ulp then false else p.ulpDefault⟩

/-- `sort_report` -/
inductive Key where
  | ulp | absolute | relative | index | other
  deriving DecidableEq

/-- The distances and marks of one point, 279-297. -/
structure Marks where
  absolute : Fl
  absoluteOk : Bool
  relative : Fl
  relativeOk : Bool
  ulp : Fl
  ulpOk : Bool
  deriving DecidableEq

/-- 279-297 -/
def marks (sp : ℚ → ℚ) (eps : ℚ) (s : Shared) (c r : Fl) : Marks :=
  let m := c.abs.maximum r.abs
  let dist := (c.sub r).abs
  let ulp := dist.div (m.spacing sp)
  ⟨dist, dist.ltQ eps, dist.div m, dist.lt (Fl.scale s.relative m), ulp, ulp.leQ s.ulp⟩

/-- `a != b` -/
def ne (a b : Fl) : Bool := a.isNan || b.isNan || decide (a ≠ b)

/-- Column `k` of an array with `c` levels. -/
def column {α : Type} (c : Nat) (l : List α) (k : Nat) : List α := (l.drop (k * c)).take c

/-- A metric object for numbers: the fields set in 225-273. -/
structure Metric where
  /-- after `squeeze` -/
  shape : List Nat
  pairs : List (Fl × Fl)
  eps : ℚ
  epsDefault : Bool
  marks : List Marks
  success : List Bool
  sort : Key
  changing : Option Nat
  columnMap : Option (List Bool)
  deriving DecidableEq

/-- `MultiModalFloatMetric(...)`, 225-273, for numbers: the class attributes after it and the object.
`input` is `none` where the input is missing or of another shape, 262. -/
def make (sp : NumType → ℚ → ℚ) (p : Process) (o : Overrides) (t : NumType) (shape : List Nat)
    (pairs : List (Fl × Fl)) (input : Option (List Fl)) (sort : Key) : Process × Metric :=
  let p' := p.override o
  let eps := absoluteEps o t
  let changed := input.map fun l => (l.zip pairs).map fun (i, _, r) => ne i r
  (p',
   { shape := squeeze shape
     pairs := pairs
     eps := eps
     epsDefault := decide (¬ o.absolute > absoluteEps .none t)
     marks := pairs.map fun (c, r) => marks (sp t) eps p'.shared c r
     success := pairs.map fun (c, r) => multiNum (sp t) eps p'.shared c r
     sort := sort
     changing := changed.map fun l => l.count true
     columnMap := match changed, shape with
       | some l, [a, b, c] => some ((List.range (a * b)).map fun k => (column c l k).any id)
       | _, _ => none })

/-- `self.check`, 257. -/
def Metric.check (m : Metric) : Bool := m.success.all id

/-- The thresholds a report names and which of them are flagged as overridden, 329-331 and 379-382. They
are read when the report is made. -/
structure Thresholds where
  absolute : ℚ
  relative : ℚ
  ulp : ℚ
  absoluteFlag : Bool
  relativeFlag : Bool
  ulpFlag : Bool
  deriving DecidableEq

/-- 329-331 and 379-382 -/
def thresholds (p : Process) (m : Metric) : Thresholds :=
  ⟨m.eps, p.shared.relative, p.shared.ulp, !m.epsDefault, !p.relativeDefault, !p.ulpDefault⟩

/-- The one line report, 328-339. -/
inductive OneLine where
  | override (t : Thresholds)
  | clean (t : Thresholds)
  | failed (count total : Nat) (t : Thresholds)
  deriving DecidableEq

/-- `one_line_report`, 328-339, and `_has_override`, 321-326. -/
def oneLine (p : Process) (m : Metric) : Except Fault OneLine :=
  let t := thresholds p m
  if m.check && (t.relativeFlag || t.absoluteFlag || t.ulpFlag) then .ok (.override t)
  else if m.check then .ok (.clean t)
  else if m.shape = [] then .error .scalar
  else .ok (.failed (m.success.count false) m.pairs.length t)

/-- One line of the report, 417-425. -/
structure Point where
  index : List Nat
  computed : Fl
  reference : Fl
  marks : Marks
  /-- the number of units shown, 405-409; NaN is `none` -/
  units : Option Int
  deriving DecidableEq

/-- The column counts of 347-362: failing among the changing columns, and the changing columns. -/
def columnCounts (m : Metric) : Option (Nat × Nat) :=
  match m.columnMap, m.shape with
  | some map, [_, _, c] =>
    some (((List.range map.length).countP fun k =>
        (column c m.success k).any (!·) && map[k]?.getD false), map.count true)
  | _, _ => none

/-- The head of a report, 342-383. -/
structure Head where
  /-- columns failing and changing, columns changing, values changing; where shown -/
  local_ : Option (Nat × Nat × Nat)
  failures : Nat
  total : Nat
  thresholds : Thresholds
  deriving DecidableEq

/-- What a report says, 341-431. -/
structure Report where
  head : Head
  points : List Point
  deriving DecidableEq

/-- `int(self.ulp_distance[fi])`, 405-409. -/
def units : Fl → Except Fault (Option Int)
  | .nan => .ok none
  | .inf _ => .error .overflow
  | .fin q => .ok (some (if 0 ≤ q then q.floor else -(-q).floor))

/-- The order of the points, 385-397 with the reversal of 398. `argsort` is numpy's, which may order
equal keys in any way. -/
def order (argsort : List Fl → List Nat) (m : Metric) : Except Fault (List Nat) :=
  match m.sort with
  | .ulp => .ok (argsort (m.marks.map (·.ulp))).reverse
  | .absolute => .ok (argsort (m.marks.map (·.absolute))).reverse
  | .relative => .ok (argsort (m.marks.map (·.relative))).reverse
  | .index => .ok ((List.range m.pairs.length).reverse).reverse
  | .other => .error .unbound

/-- The body of the loop, 398-425. -/
def addPoint (m : Metric) (acc : List Point) (k : Nat) : Except Fault (List Point) :=
  match m.pairs[k]?, m.marks[k]? with
  | some (c, r), some d =>
    if c.isNan && r.isNan then .ok acc
    else do
      let u ← units d.ulp
      return acc ++ [⟨unravel m.shape k, c, r, d, u⟩]
  | _, _ => .ok acc

/-- 342-383 -/
def headOf (p : Process) (m : Metric) : Head :=
  { local_ := match m.changing, columnCounts m with
      | some n, some (bad, all) => some (bad, all, n)
      | _, _ => none
    failures := m.success.count false
    total := m.pairs.length
    thresholds := thresholds p m }

/-- `MultiModalFloatMetric.report`, 341-431. -/
def report (argsort : List Fl → List Nat) (p : Process) (m : Metric) : Except Fault Report :=
  if m.shape = [] then .error .scalar
  else if m.pairs.length = 0 then .error .zeroDivision
  else do
    let ks ← order argsort m
    let points ← ks.foldlM (addPoint m) []
    return ⟨headOf p m, points⟩

/-- The points among the twelve lines that `__repr__` shows, 436-441: the first line is the head. -/
def Report.shown (r : Report) : List Point := r.points.take 11

/-- For booleans `success` is set, 313-315, and the arrays of distances and marks keep what was in memory,
234-239; the report, 398-425, reads them. `memory` are the marks of the points. -/
def makeBool (memory : List Marks) (p : Process) (o : Overrides) (shape : List Nat)
    (pairs : List (Bool × Bool)) (sort : Key) : Process × Metric :=
  let p' := p.override o
  let eps := absoluteEps o .f64
  (p',
   { shape := squeeze shape
     pairs := pairs.map fun (c, r) => (.fin (ofBool c), .fin (ofBool r))
     eps := eps
     epsDefault := decide (¬ o.absolute > absoluteEps .none .f64)
     marks := memory
     success := pairs.map fun (c, r) => c ^^ r
     sort := sort
     changing := none
     columnMap := none })

end NDSL.CompareReport
