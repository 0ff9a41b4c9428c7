import Mathlib.Algebra.Field.Rat
import Verif.Model.Zarr
import Verif.Model.StateTransfer
/-
Model of whole states in the Zarr monitor, `ndsl/monitor/zarr_monitor.py` (`store` 92-104, `_ZarrTimeWriter` 321-367, `get_calendar`
370-374, `_ZarrConstantWriter` 276-318), and of the constants of the NetCDF monitor, `ndsl/monitor/netcdf_monitor.py` 174-205.

Simplifications: a time is a calendar and a number of microseconds, or a duration; seconds are exact rationals; what a writer
compares of a field with the first field (the set of dimensions and the units, C59) is one value `M`, its content one value `V`
(where the points of the ranks go is C59); the same call is made by all ranks, which share arrays, counters and attributes.
-/
namespace NDSL.ZarrStates

/-- `datetime` and `cftime.datetime`, or `timedelta`. -/
inductive Time where
  | date (calendar : String) (us : Int)
  | delta (us : Int)
  deriving DecidableEq, Repr

/-- `get_calendar`, 370-374. Plain datetimes are dates of this calendar. -/
def getCalendar : Time → String
  | .date c _ => c
  | .delta _ => "proleptic_gregorian"

/-- How a call ends on a rank: it returns, raises, or waits for a barrier that the first rank does not reach. -/
inductive Res where
  | done
  | raised (e : Err)
  | waiting
  deriving DecidableEq, Repr

/-- `_ZarrTimeWriter`: the time in the attributes, the array (`none` is not written), the counter. -/
structure TimeW where
  base : Option Time
  cells : List (Option ℚ)
  iTime : Nat
  deriving DecidableEq

/-- `cftime.date2num(time, units="seconds since {base}", calendar)`, 351-353: both must be dates. -/
def date2num : Time → Time → Except Err ℚ
  | .date _ b, .date _ t => .ok (((t - b : Int) : ℚ) / 1000000)
  | _, _ => .error .typeError

/-- `_encode_time`, 344-353. -/
def encode (base t : Time) : Except Err ℚ :=
  if getCalendar t ≠ getCalendar base then .error .valueError else date2num base t

/-- `_ZarrTimeWriter.append`, 355-367, on the first rank (`root`) or another. -/
def appendTime (root : Bool) (w : TimeW) (t : Time) : TimeW × Res :=
  -- 357-359
  let base := w.base.getD t
  let cells := if w.base.isNone then [none] else w.cells
  -- 360-362
  let cells := if cells.length ≤ w.iTime then cells ++ [none] else cells
  match encode base t with
  | .ok x => (⟨some base, cells.set w.iTime (some x), w.iTime + 1⟩, .done)
  | .error e => (⟨some base, cells, w.iTime⟩, if root then .raised e else .waiting)

variable {M V : Type} [DecidableEq M]

/-- `_ZarrVariableWriter`: what it compares with, and the values along time. -/
structure VarW (M V : Type) where
  first : Option M
  vals : List V

/-- `_ZarrVariableWriter.append`, 198-233. -/
def appendVar (w : VarW M V) (m : M) (v : V) : VarW M V × Res :=
  match w.first with
  | none => (⟨some m, w.vals ++ [v]⟩, .done)
  | some m' => if m = m' then (⟨some m', w.vals ++ [v]⟩, .done) else (w, .raised .valueError)

/-- A state: fields by name, and the time. -/
structure State (M V : Type) where
  fields : List (String × (M × V))
  time : Option Time

/-- The entries of the dictionary. -/
def State.entries (s : State M V) : List (String × ((M × V) ⊕ Time)) :=
  s.fields.map (fun e => (e.1, .inl e.2)) ++ match s.time with
    | some t => [("time", .inr t)]
    | none => []

/-- `sorted(state.items(), key=lambda x: x[0])`, 103. -/
def State.sorted (s : State M V) : List (String × ((M × V) ⊕ Time)) :=
  s.entries.mergeSort fun a b => decide (a.1 ≤ b.1)

/-- The monitor: the names of its writers, and the writers. -/
structure Mon (M V : Type) where
  names : Option (List String)
  vars : String → VarW M V
  time : TimeW

/-- `__init__`, 28-53. -/
def Mon.new : Mon M V := ⟨none, fun _ => ⟨none, []⟩, ⟨none, [], 0⟩⟩

/-- The loop of `store`, 103-104. -/
def loop (root : Bool) : Mon M V → List (String × ((M × V) ⊕ Time)) → Mon M V × Res
  | mon, [] => (mon, .done)
  | mon, (n, .inl (m, v)) :: es =>
    match appendVar (mon.vars n) m v with
    | (w, .done) => loop root { mon with vars := fun k => if k = n then w else mon.vars k } es
    | (w, r) => ({ mon with vars := fun k => if k = n then w else mon.vars k }, r)
  | mon, (_, .inr t) :: es =>
    match appendTime root mon.time t with
    | (w, .done) => loop root { mon with time := w } es
    | (w, r) => ({ mon with time := w }, r)

/-- `store`, 92-104. -/
def store (root : Bool) (mon : Mon M V) (s : State M V) : Mon M V × Res :=
  match Zarr.ensureWriters mon.names (s.entries.map (·.1)) with
  | .error e => (mon, .raised e)
  | .ok names => loop root { mon with names := some names } s.sorted

/-- States stored one after the other; how each call ended. -/
def storeAll (root : Bool) : Mon M V → List (State M V) → Mon M V × List Res
  | mon, [] => (mon, [])
  | mon, s :: ss =>
    let (mon, r) := store root mon s
    let (mon, rs) := storeAll root mon ss
    (mon, r :: rs)

/-- What a reader makes of the array of times at an index, in microseconds: `units` and `calendar` say what it counts from. -/
def TimeW.read (w : TimeW) (k : Nat) : Option (String × ℚ) :=
  match w.base, w.cells[k]? with
  | some (.date c b), some (some x) => some (c, b + x * 1000000)
  | _, _ => none

/-- `_ZarrConstantWriter.append`, 283-318, of all ranks in an order: no comparison of dimensions or units. -/
def constantField {W : Type} (p : CubePart) (fl : FloatOps) (order : List Int) (q : Int → Zarr.Fld W) :
    Except Err (Zarr.ZArray W) :=
  order.foldlM (fun a r => Zarr.writeRank p fl 0 r (q r) a) (Zarr.initZarr p (q 0))

/-- The files of constants of the NetCDF monitor: whether the directory exists, and the variables of each file. -/
structure Disk (V : Type) where
  dir : Bool
  files : List (String × List (String × V))

/-- `constants_filename + "_" + name + ".nc"`, `netcdf_monitor.py` 179-183. -/
def constantFile (name : String) : String := "constants_" ++ name ++ ".nc"

/-- The loop of `store_constant` on the rank that has the gathered state, 182-205. -/
def netcdfConstants {V : Type} : Disk V → List (String × V) → Disk V × Res
  | d, [] => (d, .done)
  | d, (n, v) :: es =>
    let ds := match dictGet d.files (constantFile n) with
      | some old => dictSet old n v
      | none => [(n, v)]
    if d.dir then netcdfConstants { d with files := dictSet d.files (constantFile n) ds } es
    else (d, .raised .valueError)

/-- `store_constant`, 174-205: only the first rank has the state. -/
def netcdfStoreConstant {V : Type} (root : Bool) (d : Disk V) (s : List (String × V)) : Disk V × Res :=
  if root then netcdfConstants d s else (d, .done)

end NDSL.ZarrStates
