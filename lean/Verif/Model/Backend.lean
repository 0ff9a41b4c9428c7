import Verif.Model.Compile

/-
Model of `ndsl/config/backend.py` and of the dictionary form of `CompilationConfig`
(`ndsl/dsl/stencil_config.py` 30-60, 145-172). Strings are lists of characters.
-/
namespace NDSL.Backend

open Lean in
/-- A string literal as a list of character literals (so that the kernel computes with it). -/
macro "chars!" s:str : term => do
  let cs := s.getString.toList.map fun c => (Syntax.mkCharLit c)
  let arr := cs.toArray
  `([$arr,*])

/-- `BackendStrategy`, 7-11. -/
inductive Strategy where | stencil | orchestration
  deriving DecidableEq, Repr
/-- `BackendTargetDevice`, 14-18. -/
inductive Device where | cpu | gpu
  deriving DecidableEq, Repr
/-- `BackendFramework`, 21-27. -/
inductive Framework where | gridtools | dace | python | numpy
  deriving DecidableEq, Repr
/-- `BackendLoopOrder`, 30-38. -/
inductive LoopOrder where | ijk | ikj | jki | jik | kij | kji
  deriving DecidableEq, Repr

/-- The `.value` of the enumerations, 7-38. -/
def Strategy.value : Strategy → List Char
  | .stencil => chars! "st"
  | .orchestration => chars! "orch"
def Device.value : Device → List Char
  | .cpu => chars! "cpu"
  | .gpu => chars! "gpu"
def Framework.value : Framework → List Char
  | .gridtools => chars! "gt"
  | .dace => chars! "dace"
  | .python => chars! "python"
  | .numpy => chars! "numpy"
def LoopOrder.value : LoopOrder → List Char
  | .ijk => chars! "IJK"
  | .ikj => chars! "IKJ"
  | .jki => chars! "JKI"
  | .jik => chars! "JIK"
  | .kij => chars! "KIJ"
  | .kji => chars! "KJI"

/-- `_NDSL_TO_GT4PY_BACKEND_NAMING`, 41-55. -/
def naming : List (List Char × List Char) :=
  [(chars! "st:python:cpu:IJK", chars! "debug"),
   (chars! "st:numpy:cpu:IJK", chars! "numpy"),
   (chars! "st:gt:cpu:IJK", chars! "gt:cpu_kfirst"),
   (chars! "st:gt:cpu:KJI", chars! "gt:cpu_ifirst"),
   (chars! "st:gt:gpu:KJI", chars! "gt:gpu"),
   (chars! "st:dace:cpu:IJK", chars! "dace:cpu_kfirst"),
   (chars! "orch:dace:cpu:IJK", chars! "dace:cpu_kfirst"),
   (chars! "st:dace:cpu:KIJ", chars! "dace:cpu"),
   (chars! "orch:dace:cpu:KIJ", chars! "dace:cpu"),
   (chars! "st:dace:cpu:KJI", chars! "dace:cpu_KJI"),
   (chars! "orch:dace:cpu:KJI", chars! "dace:cpu_KJI"),
   (chars! "st:dace:gpu:KJI", chars! "dace:gpu"),
   (chars! "orch:dace:gpu:KJI", chars! "dace:gpu")]

/-- `str.split(":")`: pieces between separators, in order (never empty). -/
def split (sep : Char) : List Char → List (List Char)
  | [] => [[]]
  | c :: cs =>
    if c = sep then [] :: split sep cs
    else match split sep cs with
      | [] => [[c]]
      | p :: ps => (c :: p) :: ps

/-- `str.lower` and `str.upper` on a character; only ASCII letters occur in accepted names. -/
def lower (s : List Char) : List Char := s.map Char.toLower
def upper (s : List Char) : List Char := s.map Char.toUpper

/-- `BackendStrategy(value)`: the member with this value, or `ValueError`; same for the other
enumerations. -/
def enumOf {α : Type} (members : List α) (value : α → List Char) (s : List Char) : Except Err α :=
  match members.find? (fun m => value m == s) with
  | some m => .ok m
  | none => .error .valueError

/-- A constructed `Backend`, 97-102. -/
structure Backend where
  name : List Char
  strategy : Strategy
  framework : Framework
  device : Device
  loopOrder : LoopOrder
  deriving DecidableEq, Repr

/-- `Backend.as_gt4py`, 173-175. -/
def asGt4py (b : Backend) : Except Err (List Char) :=
  match naming.find? (fun e => e.1 == b.name) with
  | some e => .ok e.2
  | none => .error .keyError

/-- `Backend.__init__`, 85-123. `registry` is GT4Py's: for the name of a registered GT4Py
backend, the device of its storages (`true` for "gpu"); `none` if it is not registered. -/
def mk (registry : List Char → Option Bool) (name : List Char) : Except Err Backend :=
  if ¬ (naming.any fun e => e.1 == name) then .error .valueError
  else
    match split ':' name with
    | [p0, p1, p2, p3] => do
      let st ← enumOf [Strategy.stencil, .orchestration] Strategy.value (lower p0)
      let fw ← enumOf [Framework.gridtools, .dace, .python, .numpy] Framework.value (lower p1)
      let dv ← enumOf [Device.cpu, .gpu] Device.value (lower p2)
      let lo ← enumOf [LoopOrder.ijk, .ikj, .jki, .jik, .kij, .kji] LoopOrder.value (upper p3)
      let b : Backend := ⟨name, st, fw, dv, lo⟩
      let g ← asGt4py b
      match registry g with
      | none => .error .valueError
      | some onGpu =>
        if dv = .gpu ∧ onGpu = false then .error .valueError
        else .ok b
    | _ => .error .valueError

/-- `Backend.__eq__` between backends, 131-138. -/
def beq (a b : Backend) : Bool := a.name == b.name

/-- `str.index` of a character. -/
def indexOf (s : List Char) (c : Char) : Option Nat := s.findIdx? (· == c)

/-- `Backend.as_layout_map`, 183-188. -/
def asLayoutMap (b : Backend) : List (Option Nat) :=
  (chars! "IJK").map fun axis =>
    (indexOf b.loopOrder.value axis).map fun k => b.loopOrder.value.length - 1 - k

/-- `as_safe_for_path`, 180-181. -/
def asSafeForPath (b : Backend) : List Char := b.name.map fun c => if c = ':' then '_' else c

/-- `is_orchestrated`, `is_stencil`, `is_gpu_backend`, 190-197. -/
def isOrchestrated (b : Backend) : Bool := b.strategy == .orchestration
def isStencil (b : Backend) : Bool := b.strategy == .stencil
def isGpu (b : Backend) : Bool := b.device == .gpu

/-! ### `CompilationConfig` and its dictionary -/

/-- The options a `CompilationConfig` built without a communicator holds,
`ndsl/dsl/stencil_config.py` 30-60. -/
structure CConfig where
  backend : Backend
  rebuild : Bool
  validateArgs : Bool
  formatSource : Bool
  deviceSync : Bool
  runMode : Compile.RunMode
  minimalCaching : Bool
  deriving DecidableEq, Repr

/-- `CompilationConfig.__init__` with `communicator=None`, `ndsl/dsl/stencil_config.py` 31-60. -/
def CConfig.mk' (b : Backend) (rebuild validateArgs formatSource deviceSync : Bool)
    (m : Compile.RunMode) (minimal : Bool) : Except Err CConfig :=
  if b.device = .cpu ∧ deviceSync = true then .error .runtimeError
  else .ok ⟨b, rebuild, validateArgs, formatSource, deviceSync, m, minimal⟩

/-- Values of the dictionary: booleans and strings. -/
inductive DVal where
  | bool (b : Bool)
  | str (s : List Char)
  deriving DecidableEq, Repr

/-- A Python `dict` with string keys: associations, the last written wins (built here without
repeated keys). -/
abbrev DDict := List (List Char × DVal)

/-- `RunMode.name`. -/
def modeName : Compile.RunMode → List Char
  | .build => chars! "Build"
  | .buildAndRun => chars! "BuildAndRun"
  | .run => chars! "Run"

/-- `RunMode[name]`: `KeyError` for an unknown name. -/
def modeOf (s : List Char) : Except Err Compile.RunMode :=
  match [Compile.RunMode.build, .buildAndRun, .run].find? (fun m => modeName m == s) with
  | some m => .ok m
  | none => .error .keyError

/-- `CompilationConfig.as_dict`, 145-154. -/
def asDict (c : CConfig) : DDict :=
  [(chars! "backend", .str c.backend.name),
   (chars! "rebuild", .bool c.rebuild),
   (chars! "validate_args", .bool c.validateArgs),
   (chars! "format_source", .bool c.formatSource),
   (chars! "device_sync", .bool c.deviceSync),
   (chars! "run_mode", .str (modeName c.runMode)),
   (chars! "use_minimal_caching", .bool c.minimalCaching)]

/-- `data.get(key)`. -/
def dget (d : DDict) (k : List Char) : Option DVal := (d.find? fun e => e.1 == k).map (·.2)

/-- `data.get(key, default)` for an option used as a flag. Simplification: a string where a
flag is expected counts as set (Python's truth value of a non-empty string). -/
def getBool (d : DDict) (k : List Char) (dflt : Bool) : Bool :=
  match dget d k with
  | some (.bool b) => b
  | some (.str s) => !s.isEmpty
  | none => dflt

/-- `CompilationConfig.from_dict`, 156-172. A flag where a name is expected is an unknown name:
`ValueError` from `Backend`, `KeyError` from `RunMode[...]`. -/
def fromDict (registry : List Char → Option Bool) (d : DDict) : Except Err CConfig := do
  let b ← match dget d (chars! "backend") with
    | some (.str s) => mk registry s
    | some (.bool _) => .error .valueError
    | none => mk registry (chars! "st:python:cpu:IJK")
  let m ← match dget d (chars! "run_mode") with
    | some (.str s) => modeOf s
    | some (.bool _) => .error .keyError
    | none => modeOf (chars! "BuildAndRun")
  CConfig.mk' b (getBool d (chars! "rebuild") false)
    (getBool d (chars! "validate_args") true)
    (getBool d (chars! "format_source") false)
    (getBool d (chars! "device_sync") false) m
    (getBool d (chars! "use_minimal_caching") false)

end NDSL.Backend
