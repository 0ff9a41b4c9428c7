import Verif.Model.Boilerplate
/-
Model of what the environment decides: messages (`ndsl/logging.py`), the precision (`ndsl/dsl/__init__.py` 18-36,
`ndsl/dsl/typing.py` 52-68), the set of constants (`ndsl/constants.py` 14-35, 81-87), the debugger (`ndsl/debug/config.py`,
`ndsl/debug/debugger.py` 15-31), the mode of orchestration and the settings of DaCe (`ndsl/dsl/dace/dace_config.py` 32-39,
198-349).

Names and texts are lists of characters, environment variables a function. Letters other than the 26 keep their case under
`lower()`. The settings of DaCe are one function for the whole process; their values are texts, those for flags of the
compiler the flags without the fixed ones (`-std=c++17` ...). MPI is there.
-/
namespace NDSL.Settings

abbrev Text := List Char

/-- `os.environ`. -/
abbrev Env := Text → Option Text

/-! ### messages -/

/-- `AVAILABLE_LOG_LEVELS`, `logging.py` 13-19. -/
inductive Level where
  | debug | info | warning | error | critical
  deriving DecidableEq

/-- The numbers of the levels in Python's `logging`. -/
def Level.value : Level → Nat
  | .debug => 10 | .info => 20 | .warning => 30 | .error => 40 | .critical => 50

/-- The keys of `AVAILABLE_LOG_LEVELS`. -/
def levelOf (t : Text) : Option Level :=
  if t = chars! "info" then some .info
  else if t = chars! "debug" then some .debug
  else if t = chars! "warning" then some .warning
  else if t = chars! "error" then some .error
  else if t = chars! "critical" then some .critical
  else none

/-- `str.lower`. -/
def lower (t : Text) : Text := t.map Char.toLower

/-- `_get_log_level`, 22-31: the level, and whether a warning was given. -/
def logLevel (env : Env) : Level × Bool :=
  match levelOf (lower ((env (chars! "NDSL_LOGLEVEL")).getD (chars! "info"))) with
  | some l => (l, false)
  | none => (.info, true)

/-- A logger: its level, the levels of its own handlers, and whether it is disabled. -/
structure Logger where
  level : Level
  handlers : List Level
  disabled : Bool
  deriving DecidableEq

/-- `_ndsl_logger`, 34-51. -/
def everyRank (env : Env) : Logger := ⟨(logLevel env).1, [(logLevel env).1], false⟩

/-- `_ndsl_logger_on_rank_0`, 54-76. -/
def onRank0 (env : Env) (rank : Nat) : Logger :=
  if rank = 0 then ⟨(logLevel env).1, [(logLevel env).1], false⟩ else ⟨(logLevel env).1, [], true⟩

/-- How often a message of level `l` is printed: by the handlers of the logger and, since messages are passed on, by those of
the root logger. That has one handler, for all levels, if `logging.warning` has been called (28-30). -/
def Logger.prints (g : Logger) (warned : Bool) (l : Level) : Nat :=
  if g.disabled then 0
  else if l.value < g.level.value then 0
  else (g.handlers.filter fun h => h.value ≤ l.value).length + if warned then 1 else 0

/-! ### precision -/

/-- `_get_literal_precision`, `dsl/__init__.py` 21-31, and `int` of it, 34. -/
def precision (env : Env) : Nat :=
  let p := (env (chars! "NDSL_LITERAL_PRECISION")).getD (chars! "64")
  if p = chars! "32" then 32 else if p = chars! "64" then 64 else 64

/-- `str` of a number. -/
def str (n : Nat) : Text := Nat.toDigits 10 n

/-- 35-36. -/
def setEnv (env : Env) (k v : Text) : Env := fun x => if x = k then some v else env x

def exported (env : Env) : Env :=
  setEnv (setEnv env (chars! "GT4PY_LITERAL_INT_PRECISION") (str (precision env)))
    (chars! "GT4PY_LITERAL_FLOAT_PRECISION") (str (precision env))

/-- `global_set_precision`, `typing.py` 52-68: the number of bits of `Float` and of `Int`. -/
def globalSetPrecision (p : Nat) : Except Err (Nat × Nat) :=
  if p = 64 then .ok (64, 64) else if p = 32 then .ok (32, 32) else .error .notImplemented

/-! ### constants -/

/-- `ConstantVersions`, `constants.py` 14-17. -/
inductive Version where
  | gfdl | ufs | geos
  deriving DecidableEq

/-- `_get_constant_version`, 20-32, and the choice of the version by its name, 35. -/
def constantVersion (env : Env) : Except Err Version :=
  let v := (env (chars! "NDSL_CONSTANTS")).getD (chars! "UFS")
  if v = chars! "GFDL" then .ok .gfdl
  else if v = chars! "UFS" then .ok .ufs
  else if v = chars! "GEOS" then .ok .geos
  else .error .runtimeError

/-- `NQ`, 81-87. -/
def nq : Version → Nat
  | .geos => 9
  | .ufs => 8
  | .gfdl => 8

/-! ### debugger -/

/-- Values in the configuration. -/
inductive Val where
  | texts (l : List Text) | text (t : Text) | flag (b : Bool) | number (n : Int) | counts (l : List (Text × Int))
  deriving DecidableEq

/-- What there is at a path: nothing, a directory, or a file with entries (`none`: an empty file). -/
inductive At where
  | nothing | directory | file (entries : Option (List (Text × Val)))

/-- How the start can fail. -/
inductive Fail where
  | notFound | isDirectory | typeError
  deriving DecidableEq

/-- `Debugger`, `debugger.py` 15-31. -/
structure Debugger where
  stencils : Val := .texts []
  track : Val := .texts []
  computeOnly : Val := .flag false
  dirName : Val := .text (chars! "./")
  saveAll : Val := .flag false
  rank : Nat
  step : Val := .number 0
  calls : Val := .counts []
  tracked : Val := .counts []
  deriving DecidableEq

/-- One keyword argument of `Debugger(...)`; `rank` is already given. -/
def Debugger.set (d : Debugger) (k : Text) (v : Val) : Except Fail Debugger :=
  if k = chars! "stencils_or_class" then .ok { d with stencils := v }
  else if k = chars! "track_parameter_by_name" then .ok { d with track := v }
  else if k = chars! "save_compute_domain_only" then .ok { d with computeOnly := v }
  else if k = chars! "dir_name" then .ok { d with dirName := v }
  else if k = chars! "save_all_stencils" then .ok { d with saveAll := v }
  else if k = chars! "step" then .ok { d with step := v }
  else if k = chars! "calls_count" then .ok { d with calls := v }
  else if k = chars! "track_parameter_count" then .ok { d with tracked := v }
  else .error .typeError

def Debugger.setAll : List (Text × Val) → Debugger → Except Fail Debugger
  | [], d => .ok d
  | (k, v) :: l, d => match d.set k v with
    | .ok d' => Debugger.setAll l d'
    | .error e => .error e

/-- `_set_debugger`, `debug/config.py` 34-48: the debugger, if any, and whether a warning was given. -/
def setDebugger (env : Env) (files : Text → At) (rank : Nat) : Bool × Except Fail (Option Debugger) :=
  let config := (env (chars! "NDSL_DEBUG_CONFIG")).getD []
  match files config with
  | .nothing => if config ≠ [] then (true, .error .notFound) else (false, .ok none)
  | .directory => (false, .error .isDirectory)
  | .file none => (false, .error .typeError)
  | .file (some entries) => (false, (Debugger.setAll entries { rank := rank }).map some)

/-! ### DaCe -/

/-- Variables for yes and no: `os.getenv(..., "False") == "True"`, `dace_config.py` 39, 209-214. -/
def flag (env : Env) (name : Text) : Bool := (env name).getD (chars! "False") = chars! "True"

/-- The mode of orchestration, 198-206. -/
def mode (env : Env) (given : Option Boilerplate.Mode) : Except Err Boilerplate.Mode :=
  match given with
  | some m => .ok m
  | none =>
    let v := (env (chars! "FV3_DACEMODE")).getD (chars! "BuildAndRun")
    let v := if v = [] then chars! "BuildAndRun" else v
    if v = chars! "BuildAndRun" then .ok .buildAndRun
    else if v = chars! "Build" then .ok .build
    else if v = chars! "Run" then .ok .run
    else .error .keyError

/-- The settings of DaCe made here. -/
inductive Key where
  | buildType | cpuArgs | openmpSections | cudaArgs | cudaArch | blockSize | streams | viewArguments | uniqueFunctions
  | dontFuseCallbacks | unrollThreshold | verboseErrors | storeHistory | syncDebug | dataTypes
  deriving DecidableEq

/-- The machine: level of optimisation of GT4Py, whether it is a Grace CPU, and the kind of GPU, if there is one. -/
structure Machine where
  opt : Nat
  neoverse : Bool
  gpu : Option Text

/-- `str` of a flag. -/
def boolText (b : Bool) : Text := if b then chars! "True" else chars! "False"

/-- 224-349: what an orchestrated configuration sets. -/
def sets (env : Env) (prec : Nat) (m : Machine) : List (Key × Text) :=
  [(.buildType, if m.opt = 0 then chars! "Debug" else if m.opt = 2 ∨ m.opt = 1 then chars! "RelWithDebInfo"
      else chars! "Release"),
   (.cpuArgs, chars! "-march=" ++ (if m.neoverse then chars! "armv8-a" else chars! "native") ++ chars! " -O" ++ str m.opt),
   (.openmpSections, chars! "0"),
   (.cudaArgs, chars! "-O" ++ str m.opt ++ chars! " -Xcompiler " ++
      (if m.neoverse then chars! "-mcpu=native" else chars! "-march=native")),
   (.cudaArch, m.gpu.getD (chars! "60")),
   (.blockSize, chars! "64,8,1"),
   (.streams, chars! "-1"),
   (.viewArguments, chars! "True"),
   (.uniqueFunctions, chars! "none"),
   (.dontFuseCallbacks, chars! "True"),
   (.unrollThreshold, chars! "-1"),
   (.verboseErrors, chars! "True"),
   (.storeHistory, chars! "False"),
   (.syncDebug, boolText (flag env (chars! "NDSL_DACE_FORCE_SYNC_GPU")))] ++
  if prec = 32 then [(.dataTypes, chars! "c")] else []

/-- `Config.set` for each of them, in order. -/
def applySets (l : List (Key × Text)) (cur : Key → Text) : Key → Text :=
  l.foldl (fun c kv => fun k => if k = kv.1 then kv.2 else c k) cur

/-- The settings after `DaceConfig.__init__`, 224-349. -/
def configured (env : Env) (prec : Nat) (m : Machine) (orchestrated : Bool) (cur : Key → Text) : Key → Text :=
  if orchestrated then applySets (sets env prec m) cur else cur

/-- A history of configurations made in one process, each with the environment of its time. -/
def history (prec : Nat) (m : Machine) : List (Env × Bool) → (Key → Text) → Key → Text
  | [], cur => cur
  | (env, o) :: l, cur => history prec m l (configured env prec m o cur)

/-! ### start -/

/-- What `import ndsl` leaves behind. -/
structure Started where
  env : Env
  log : Logger
  log0 : Logger
  warned : Bool
  bits : Nat × Nat
  version : Version
  debugger : Option Debugger

/-- How the import can fail. -/
inductive Stop where
  | err (e : Err) | fail (f : Fail)
  deriving DecidableEq

/-- `import ndsl`: the loggers, the precision, the types, the constants, the debugger, in this order. -/
def start (env : Env) (files : Text → At) (rank : Nat) : Except Stop Started :=
  match globalSetPrecision (precision env) with
  | .error e => .error (.err e)
  | .ok bits =>
    match constantVersion (exported env) with
    | .error e => .error (.err e)
    | .ok v =>
      match (setDebugger (exported env) files rank).2 with
      | .error f => .error (.fail f)
      | .ok d => .ok ⟨exported env, everyRank env, onRank0 env rank, (logLevel env).2, bits, v, d⟩

end NDSL.Settings
