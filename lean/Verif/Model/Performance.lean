import Verif.Model.Timer
import Mathlib.Algebra.Field.Defs
/-
Model of `ndsl/performance/collector.py` 58-153 and `ndsl/performance/report.py` 24-158: the
collector of timings of a rank and the report written at the end.

Simplifications: the fields of the report that describe the experiment (name, backend, hash,
date) are left out except the number of time steps; the JSON file is the report itself. The timers
are those of `Verif/Model/Timer.lean`; `Timer.times` and `Timer.hits` return copies.
-/
namespace NDSL.Perf
open Timing

variable {T : Type}

/-- `PerformanceCollector`, 59-65: `times_per_step`, `hits_per_step` and the two timers. -/
structure Coll (T : Type) where
  times : List (List (String × T))
  hits : List (List (String × Nat))
  stepTimer : Timer T
  totalTimer : Timer T

/-- `__init__`, 59-65 -/
def Coll.new : Coll T := ⟨[], [], .new true, .new true⟩

/-- What is done with a collector before the report is written. -/
inductive Op (T : Type) where
  | step (o : Timing.Op T)
  | total (o : Timing.Op T)
  | collect
  | clear

/-- The uses of the timers, `clear`, 67-69, and `collect_performance`, 71-78. The caller goes on
after an exception of a timer. -/
def Coll.op [Add T] [Sub T] (c : Coll T) : Op T → Coll T
  | .step o => { c with stepTimer := (c.stepTimer.step o).1 }
  | .total o => { c with totalTimer := (c.totalTimer.step o).1 }
  | .collect =>
    { c with
      times := c.times ++ [c.stepTimer.times]
      hits := c.hits ++ [c.stepTimer.hits]
      stepTimer := c.stepTimer.reset.1 }
  | .clear => { c with times := [], hits := [] }

def Coll.run [Add T] [Sub T] (c : Coll T) (h : List (Op T)) : Coll T := h.foldl Coll.op c

/-- 138-139: the total timer is added as one more step. -/
def Coll.addTotal (c : Coll T) : Coll T :=
  { c with times := c.times ++ [c.totalTimer.times], hits := c.hits ++ [c.totalTimer.hits] }

/-- 85-86 and 141-142: empty dictionaries are removed from the hits. -/
def Coll.dropEmpty (c : Coll T) : Coll T := { c with hits := c.hits.filter fun d => !d.isEmpty }

/-- A name is added to a set that is kept sorted. -/
def insertKey (k : String) : List String → List String
  | [] => [k]
  | x :: xs => if k < x then k :: x :: xs else if x < k then x :: insertKey k xs else x :: xs

/-- `collect_keys_from_data`, `report.py` 61-69: the sorted list of a set. -/
def collectKeys (times : List (List (String × T))) : List String :=
  (times.flatMap fun d => d.map (·.1)).foldl (fun ks k => insertKey k ks) []

/-- The data of one name, `report.py` 84-87. -/
def dataOf (times : List (List (String × T))) (name : String) : List T :=
  times.filterMap fun d => dictGet d name

/-- `TimeReport`, `report.py` 24-27 -/
structure TimeReport (D : Type) where
  hits : Nat
  times : D
  deriving DecidableEq

/-- `timing_info[name].hits += value`, `report.py` 115 -/
def addHits {D : Type} (info : List (String × TimeReport D)) (e : String × Nat) :
    Except Err (List (String × TimeReport D)) :=
  match dictGet info e.1 with
  | none => .error .keyError
  | some r => .ok (dictSet info e.1 { r with hits := r.hits + e.2 })

/-- `gather_hit_counts`, `report.py` 109-116 -/
def gatherHits {D : Type} (hits : List (List (String × Nat))) (info : List (String × TimeReport D)) :
    Except Err (List (String × TimeReport D)) :=
  hits.flatten.foldlM addHits info

/-- What is written: the number of time steps (may be -1) and the timings. -/
structure Report (D : Type) where
  timesteps : Int
  info : List (String × TimeReport D)
  deriving DecidableEq

/-- `write_out_rank_0` on rank 0, 80-112. -/
def Coll.writeRank0 (c : Coll T) : Except Err (Report (List T)) := do
  let c := c.dropEmpty
  let info ← gatherHits c.hits
    ((collectKeys c.times).map fun k => (k, TimeReport.mk 0 (dataOf c.times k)))
  return ⟨(c.hits.length : Int) - 1, info⟩

/-- The `n`-th `Gather` of all ranks, `report.py` 89-93: rank by rank what is sent. A rank without
an `n`-th name does not take part and the call does not complete; a rank that sends a different
number of values than the root is an error of MPI. -/
def gatherNth (ranks : List (List (List (String × T)))) (count n : Nat) : Except Err (List (List T)) :=
  ranks.mapM fun times =>
    match (collectKeys times)[n]? with
    | none => .error .runtimeError
    | some k => if (dataOf times k).length = count then .ok (dataOf times k) else .error .valueError

/-- `gather_timing_data`, `report.py` 72-99, on the root, with what all ranks recorded. -/
def gatherTimes (root : List (List (String × T))) (ranks : List (List (List (String × T)))) :
    Except Err (List (String × TimeReport (List (List T)))) :=
  (collectKeys root).zipIdx.mapM fun e => do
    let rows ← gatherNth ranks (dataOf root e.1).length e.2
    return (e.1, TimeReport.mk 0 rows)

/-- `write_out_performance` of all ranks, 116-153, with `collect_data_and_write_to_file`, `report.py`
135-158: what rank 0 writes. -/
def writeAll (ranks : List (Coll T)) : Except Err (Report (List (List T))) :=
  match ranks with
  | [] => .error .indexError
  | root :: _ => do
    let r := root.addTotal.dropEmpty
    let info ← gatherTimes r.times (ranks.map fun c => c.addTotal.dropEmpty.times)
    let info ← gatherHits r.hits info
    return ⟨(r.hits.length : Int) - 1, info⟩

/-- `get_sypd`, `report.py` 119-132, for times as lists of lists. -/
def sypd {K : Type} [Field K] (info : List (String × TimeReport (List (List K)))) (dt : K) : K :=
  match dictGet info "mainloop" with
  | none => -999
  | some r => 1 / 365 * (dt / (r.times.flatten.sum / (r.times.flatten.length : K)))

end NDSL.Perf
