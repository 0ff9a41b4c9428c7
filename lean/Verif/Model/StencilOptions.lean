import Verif.Model.Backend
/-
Model of the options with which a stencil is compiled: `StencilConfig.__init__`, `__hash__`, `__eq__`, `stencil_kwargs` and
`_get_oir_pipeline` (`ndsl/dsl/stencil_config.py` 174-263), for objects that live on and are changed: a
`CompilationConfig` is mutable and may be shared by several `StencilConfig`s.

Simplifications: the DaCe configuration and `verbose` are left out. The passes of GT4Py's `DefaultPipeline` are a list of
names given from outside; the pipeline runs those not skipped, in order.
-/
namespace NDSL.StencilOptions
open NDSL.Backend

local notation "Text" => List Char

/-- The options of a `CompilationConfig`, 30-60 (`Backend.CConfig`). -/
abbrev Comp := CConfig

/-- `CompilationConfig.__init__`, 42-43: refused for `device_sync` on a CPU. -/
def Comp.make (c : Comp) : Except Err Comp :=
  if c.backend.device == .cpu && c.deviceSync then .error .runtimeError else .ok c

/-- A `StencilConfig`: a reference to its `CompilationConfig`, `backend_opts`, `compare_to_numpy` and the hash. -/
structure Config where
  comp : Nat
  numpy : Bool
  deviceSync : Bool
  formatSource : Bool
  hash : Nat
  deriving DecidableEq

/-- All objects there are. -/
structure World where
  comps : List Comp
  configs : List Config

def bytes (t : Text) : List Nat := t.map Char.toNat

/-- `_compute_hash`, 211-226, with the bytes of `Compile.hashInput`. -/
def computeHash (md5 : List Nat → Nat) (c : Comp) (gt4py : Text) (numpy : Bool) : Nat :=
  Compile.hash md5 ⟨c.backend.name, bytes gt4py, c.rebuild, c.validateArgs, c.minimalCaching, numpy,
    c.formatSource, c.deviceSync, c.runMode⟩

/-- What a program does with configurations: make one of either kind, or assign to the attributes of a
`CompilationConfig`. -/
inductive Op where
  | newComp (c : Comp)
  | assign (i : Nat) (c : Comp)
  | newConfig (i : Nat) (numpy : Bool)

/-- One operation; one that raises leaves the world as it is. -/
def step (md5 : List Nat → Nat) (w : World) : Op → World
  | .newComp c => match Comp.make c with
    | .ok c => { w with comps := w.comps ++ [c] }
    | .error _ => w
  | .assign i c => { w with comps := w.comps.set i c }
  | .newConfig i numpy => match w.comps[i]? with
    | none => w
    | some c => match asGt4py c.backend with
      | .error _ => w
      | .ok g => { w with configs := w.configs ++ [⟨i, numpy, c.deviceSync, c.formatSource, computeHash md5 c g numpy⟩] }

def run (md5 : List Nat → Nat) (ops : List Op) (w : World) : World := ops.foldl (step md5) w

/-- `__eq__`, 231-235, of two `StencilConfig`s. -/
def Config.eq (a b : Config) : Bool := a.hash == b.hash

/-- A value in the dictionary of arguments. -/
inductive Val where
  | text (t : Text)
  | flag (b : Bool)
  | pipeline (skip : List Text)
  deriving DecidableEq

/-- `_get_oir_pipeline`, 258-263: `KeyError` for a name that is no pass. -/
def pipeline (steps skip : List Text) : Except Err Val :=
  if skip.all fun s => steps.contains s then .ok (.pipeline skip) else .error .keyError

/-- The passes `DefaultPipeline(skip=...)` runs. -/
def runs (steps skip : List Text) : List Text := steps.filter fun s => !skip.contains s

/-- A function: `__module__`, `__qualname__` up to the last dot, and `__name__`. -/
structure Func where
  module : Text
  scope : Text
  name : Text
  deriving DecidableEq

/-- `func.__module__ + "." + func.__name__`, 243. -/
def Func.stencilName (f : Func) : Text := f.module ++ '.' :: f.name

/-- `stencil_kwargs`, 237-252. -/
def kwargs (steps : List Text) (w : World) (c : Config) (f : Func) (skip : List Text) : Except Err (List (String × Val)) :=
  match w.comps[c.comp]? with
  | none => .error .indexError
  | some cc => match asGt4py cc.backend with
    | .error e => .error e
    | .ok g =>
      let kw := [("backend", Val.text g), ("rebuild", .flag cc.rebuild), ("name", .text f.stencilName),
        ("device_sync", .flag c.deviceSync), ("format_source", .flag c.formatSource)]
      let kw := if !isGpu cc.backend then kw.filter fun e => e.1 != "device_sync" else kw
      if skip.isEmpty then .ok kw
      else match pipeline steps skip with
        | .error e => .error e
        | .ok p => .ok (kw ++ [("oir_pipeline", p)])

end NDSL.StencilOptions
