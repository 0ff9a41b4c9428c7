import Verif.Model.Backend
import Verif.Model.StateUpdate
import Mathlib.Data.Nat.Sqrt
import Mathlib.Order.Lattice
/-
Model of the tests against reference data: which cases are generated (`ndsl/stencils/testing/conftest.py` 146-405), which
thresholds apply (`process_override`, `ndsl/stencils/testing/test_translate.py` 34-100, and 167-175), and the verdict of a case
(`test_sequential_savepoint` 139-300, `test_parallel_savepoint` 312-452).

Names are lists of characters. A data file is its name with the sizes of its dimensions `savepoint` and `rank`. Iterating over a
Python set gives its elements in an order given from outside. What a metric says of a variable is a function of the thresholds
given from outside; infinite loops, the computation itself and logging are not modelled. `int(x ** 0.5)` is the integer square
root.
-/
namespace NDSL.TestCases
open NDSL.Backend (split)

abbrev Name := List Char

/-- A file of the data directory: its name, and the sizes of `savepoint` and `rank`. -/
structure File where
  name : Name
  calls : Nat
  ranks : Nat
  deriving DecidableEq

inductive Topology where | cubedSphere | doublyPeriodic | unknown
  deriving DecidableEq

inductive GridMode where | default | file | compute | unknown
  deriving DecidableEq

/-- The options, 26-105. -/
structure Config where
  whichModules : Option Name
  skipModules : Option Name
  whichRank : Option Nat
  whichSavepoint : Option Nat
  topology : Topology
  grid : GridMode
  layout : Nat × Nat

def suffix : Name := ['-', 'I', 'n', '.', 'n', 'c']

/-- The data file of a savepoint. -/
def fileOf (files : List File) (name : Name) : Option File := files.find? fun f => f.name == name ++ suffix

/-- `set(str(fname.name)[:-6] for fname in data_path.glob("*-In.nc"))`, 181-184 -/
def stems (files : List File) : List Name :=
  (files.filter fun f => suffix.isSuffixOf f.name).map fun f => f.name.take (f.name.length - 6)

/-- The set of names of `_all_savepoint_names`, 177-192, as a list. -/
def selected (cfg : Config) (files : List File) : List Name :=
  let names := match cfg.whichModules with
    | none => stems files
    | some s => (split ',' s).filter fun n => n != []
  let names := match cfg.skipModules with
    | none => names
    | some s => names.filter fun n => !(split ',' s).contains n
  names.eraseDups

/-- `_test_class_from_name`, 148-159: the class of a test, here whether it is a `ParallelTranslate`. -/
def classOf (classes : Name → Option Bool) (name : Name) : Option Bool :=
  classes ("Translate".toList ++ name.map fun c => if c = '-' then '_' else c)

/-- `[name for name in savepoint_names if predicate(name)]`, 194-197 -/
def choose (classes : Name → Option Bool) (parallel : Bool) : List Name → Except Err (List Name)
  | [] => .ok []
  | n :: ns => match classOf classes n with
    | none => .error .valueError
    | some p => (choose classes parallel ns).map fun r => if p = parallel then n :: r else r

/-- `_get_ranks`, 208-222 -/
def getRanks (cfg : Config) : Except Err (List Nat) :=
  match cfg.whichRank with
  | some r => .ok [r]
  | none => match cfg.topology with
    | .doublyPeriodic => .ok (List.range (cfg.layout.1 * cfg.layout.2))
    | .cubedSphere => .ok (List.range (6 * cfg.layout.1 * cfg.layout.2))
    | .unknown => .error .notImplemented

/-- `SavepointCase`, savepoint.py 50-63, by its name, rank and call. -/
structure Case where
  name : Name
  rank : Nat
  call : Nat
  deriving DecidableEq

/-- The cases of a rank and a name, 320-345; a missing file raises. -/
def callCases (cfg : Config) (files : List File) (rank : Nat) (name : Name) : Except Err (List Case) :=
  match fileOf files name with
  | none => .error .runtimeError
  | some f =>
    let calls := match cfg.whichSavepoint with
      | some k => [k]
      | none => List.range f.calls
    .ok (calls.map fun c => ⟨name, rank, c⟩)

def concat {α β : Type} (f : α → Except Err (List β)) : List α → Except Err (List β)
  | [] => .ok []
  | a :: as => match f a, concat f as with
    | .ok x, .ok y => .ok (x ++ y)
    | .error e, _ => .error e
    | _, .error e => .error e

/-- `sorted(list(savepoint_names))` -/
def sortNames (names : List Name) : List Name := names.mergeSort fun a b => decide (String.ofList a ≤ String.ofList b)

/-- `_savepoint_cases`, 286-346 -/
def savepointCases (cfg : Config) (files : List File) (names : List Name) (ranks : List Nat) : Except Err (List Case) :=
  concat (fun rank =>
    if cfg.grid = .unknown then .error .notImplemented
    else concat (callCases cfg files rank) (sortNames names)) ranks

/-- `_sequential_savepoint_cases`, 244-283; `order` is the order in which the set is iterated. -/
def sequentialCases (order : List Name → List Name) (classes : Name → Option Bool) (cfg : Config) (files : List File) :
    Except Err (List Case) :=
  match choose classes false (order (selected cfg files)) with
  | .error e => .error e
  | .ok names => match getRanks cfg with
    | .error e => .error e
    | .ok ranks => savepointCases cfg files names ranks

/-- `_parallel_savepoint_cases`, 365-403, on one rank of the run. -/
def parallelCases (order : List Name → List Name) (classes : Name → Option Bool) (cfg : Config) (files : List File) (mpiRank : Nat) :
    Except Err (List Case) :=
  match choose classes true (order (selected cfg files)) with
  | .error e => .error e
  | .ok names => savepointCases cfg files names [mpiRank]

/-- `pytest_generate_tests`, 406-412: the cases generated on a rank of a run of `size` ranks. -/
def generated (order : List Name → List Name) (classes : Name → Option Bool) (cfg : Config) (files : List File) (size mpiRank : Nat) :
    Except Err (List Case) :=
  if size > 1 then parallelCases order classes cfg files mpiRank else sequentialCases order classes cfg files

/-! ### Communicators -/

inductive Comm where
  | tile (layout : Nat × Nat)
  | cube (layout : Nat × Nat)
  deriving DecidableEq

/-- Construction of a communicator: only that of the cubed sphere checks the number of ranks, communicator.py 791-796. -/
def Comm.make (size : Nat) : Comm → Except Err Comm
  | .tile l => .ok (.tile l)
  | .cube l => if size ≠ 6 * (l.1 * l.2) then .error .valueError else .ok (.cube l)

/-- The communicator of `test_parallel_savepoint`, test_translate.py 327-338. -/
def testComm (size : Nat) : Except Err Comm :=
  if size % 6 ≠ 0 then Comm.make size (.tile (Nat.sqrt size, Nat.sqrt size))
  else Comm.make size (.cube (Nat.sqrt (size / 6), Nat.sqrt (size / 6)))

/-! ### Thresholds -/

variable {K : Type}

/-- An entry of `ignore_near_zero_errors`: `True`, or a threshold of its own. -/
inductive NearZero (K : Type) where
  | yes
  | upTo (x : K)
  deriving DecidableEq

/-- The attributes of a test object that decide its verdict. `outVars` is missing in parallel tests. -/
structure Obj (K : Type) where
  maxError : K
  nearZero : K
  ignore : List (Name × NearZero K)
  outVars : Option (List Name)
  absEps : K
  relFraction : K
  ulp : K
  skip : Bool
  deriving DecidableEq

/-- `ignore_near_zero_errors` of a specification: a list, a dictionary, or something else. -/
inductive Ignore (K : Type) where
  | names (l : List Name)
  | values (l : List (Name × K))
  | other

/-- `multimodal` of a specification. -/
structure Multi (K : Type) where
  absEps : Option K
  relFraction : Option K
  ulp : Option K

/-- One specification of the overrides file. -/
structure Spec (K : Type) where
  platform : Option Name
  backend : Option Name
  maxError : Option K
  nearZero : Option K
  ignore : Option (Ignore K)
  allOther : Option K
  multimodal : Option (Multi K)
  skip : Option Bool

/-- `d[key] = v` on names. -/
def setKey {α : Type} (d : List (Name × α)) (k : Name) (v : α) : List (Name × α) :=
  if d.any fun e => e.1 == k then d.map fun e => if e.1 == k then (k, v) else e else d ++ [(k, v)]

def getKey {α : Type} (d : List (Name × α)) (k : Name) : Option α := (d.find? fun e => e.1 == k).map fun e => e.2

/-- 54-77 -/
def setIgnore (s : Spec K) (t : Obj K) : Except Err (Obj K) :=
  match s.ignore with
  | none => .ok t
  | some (.names l) => .ok { t with ignore := l.foldl (fun d n => setKey d n .yes) t.ignore }
  | some (.values l) =>
    let ignore := l.foldl (fun d e => setKey d e.1 (.upTo e.2)) t.ignore
    match s.allOther with
    | none => .ok { t with ignore := ignore }
    | some x => match t.outVars with
      | none => .error .keyError
      | some vars =>
        .ok { t with ignore := vars.foldl (fun d n => if d.any fun e => e.1 == n then d else setKey d n (.upTo x)) ignore }
  | some .other => .error .typeError

/-- 49-53 and 78-92: the one matching specification. -/
def apply (s : Spec K) (t : Obj K) : Except Err (Obj K) :=
  let t := { t with maxError := s.maxError.getD t.maxError, nearZero := s.nearZero.getD t.nearZero }
  match setIgnore s t with
  | .error e => .error e
  | .ok t =>
    let t := match s.multimodal with
      | none => t
      | some m => { t with absEps := m.absEps.getD t.absEps, relFraction := m.relFraction.getD t.relFraction, ulp := m.ulp.getD t.ulp }
    .ok { t with skip := s.skip.getD t.skip }

/-- Whether a specification is for this backend and platform, 37-47; a backend that does not exist raises. -/
def isFor (valid : Name → Bool) (backend platform : Name) (s : Spec K) : Except Err Bool :=
  match s.backend with
  | none => .ok (s.platform.getD platform == platform)
  | some b => if valid b then .ok (b == backend && s.platform.getD platform == platform) else .error .valueError

def matching (valid : Name → Bool) (backend platform : Name) : List (Spec K) → Except Err (List (Spec K))
  | [] => .ok []
  | s :: ss => match isFor valid backend platform s, matching valid backend platform ss with
    | .ok b, .ok r => .ok (if b then s :: r else r)
    | .error e, _ => .error e
    | _, .error e => .error e

/-- `process_override`, 34-100; the message of the last case adds a `Backend` to a string. -/
def processOverride (valid : Name → Bool) (backend platform : Name) (overrides : List (Name × List (Spec K))) (name : Name) (t : Obj K) :
    Except Err (Obj K) :=
  match getKey overrides name with
  | none => .ok t
  | some specs => match matching valid backend platform specs with
    | .error e => .error e
    | .ok [] => .ok t
    | .ok [s] => apply s t
    | .ok (_ :: _ :: _) => .error .typeError

/-- The thresholds of a test, 167-175: at least those of the GPU on a GPU, then the overrides, if there is a file. -/
def thresholds [Max K] (gpuMaxErr gpuNearZero : K) (gpu : Bool) (valid : Name → Bool) (backend platform : Name)
    (overrides : Option (List (Name × List (Spec K)))) (name : Name) (t : Obj K) : Except Err (Obj K) :=
  let t := if gpu then { t with maxError := max t.maxError gpuMaxErr, nearZero := max t.nearZero gpuNearZero } else t
  match overrides with
  | none => .ok t
  | some o => processOverride valid backend platform o name t

/-! ### Verdict -/

/-- What the block of a variable comes to: the metric passes, fails, or something raises in it (`subtests.test` records the last
two and goes on). -/
inductive Check where | pass | fail | raises
  deriving DecidableEq

/-- One turn of the loop over variables, 229-262: `passing_names` and `failing_names`. -/
def loopStep (check : Name → Check) (s : List Name × List Name) (v : Name) : List Name × List Name :=
  let failing := s.2 ++ [v]
  match check v with
  | .pass => (s.1 ++ failing.getLast?.toList, failing.dropLast)
  | _ => (s.1, failing)

def loop (check : Name → Check) (vars : List Name) : List Name × List Name := vars.foldl (loopStep check) ([], [])

inductive Verdict where
  | passed
  | failed
  | skipped
  | xfailed
  | error (e : Err)
  deriving DecidableEq

/-- What there is for a case: whether the data has the rank, the variables asked for, those in the reference, whether the
computation comes back, and what metrics say with given thresholds. -/
structure Given (K : Type) where
  ranks : Nat
  inputs : Bool
  computed : Bool
  hasRef : Name → Bool
  check : Obj K → Name → Check

/-- The comparison of outputs, 217-300. -/
def compare (g : Given K) (t : Obj K) (vars : List Name) : Verdict :=
  if !(vars.all g.hasRef) then .error .keyError
  else match loop (g.check t) vars with
    | (_, _ :: _) => .failed
    | ([], []) => .failed
    | (_ :: _, []) => .passed

/-- `test_sequential_savepoint` with the thresholds of the case. -/
def sequentialTest (g : Given K) (t : Obj K) (rank : Nat) (vars : List Name) : Verdict :=
  if t.skip then .passed
  else if ¬ g.ranks > rank then .skipped
  else if !g.inputs then .error .keyError
  else if !g.computed then .error .runtimeError
  else compare g t vars

/-- `test_parallel_savepoint`: `compute` tells whether the grid is to be computed and the test does not do that; `vars` is a set,
in some order. -/
def parallelTest (g : Given K) (t : Obj K) (compute : Bool) (rank : Nat) (vars : List Name) : Verdict :=
  if t.skip then .passed
  else if compute then .xfailed
  else if ¬ g.ranks > rank then .skipped
  else if !g.computed then .error .runtimeError
  else compare g t vars

/-- The name of the file with the data of a failed case, 271 and 423: savepoint and rank. -/
def failureFile (parallel : Bool) (c : Case) : Name × Option Nat := (c.name, if parallel then some c.rank else none)

/-- `summary-{savepoint}-{rank}.log`, 464 -/
def summaryFile (c : Case) : Name × Nat := (c.name, c.rank)

end NDSL.TestCases
