import Verif.Model.Compile
/-
Model of where compiled stencils are kept: `ndsl/dsl/__init__.py` 43-48, `ndsl/comm/decomposition.py` 58-97,
`ndsl/dsl/stencil_config.py` 31-60, `ndsl/dsl/caches/codepath.py`, `ndsl/dsl/caches/cache_location.py` 54-62,
`ndsl/dsl/dace/build.py` 117-153, and of what a stencil does when called in build mode (`ndsl/dsl/stencil.py` 412-417).

All directories are below one root (`root_path`), which is left out. Ranks are not negative.
-/
namespace NDSL.CacheDirs

open Compile

abbrev Name := List Char

/-- `f"{n:06d}"`, also `f"{n:06}"`. -/
def pad6 (n : Nat) : Name := List.replicate (6 - (Nat.toDigits 10 n).length) '0' ++ Nat.toDigits 10 n

/-- `.gt_cache`. -/
def plain : Name := ['.', 'g', 't', '_', 'c', 'a', 'c', 'h', 'e']

/-- `f".gt_cache_{rank:06}"`. -/
def rankDir (r : Nat) : Name := plain ++ '_' :: pad6 r

/-- `FV3CodePath.value`, `codepath.py` 14-23. -/
def pathStr : CodePath → Name
  | .all => ['F', 'V', '3', '_', 'A']
  | .bottomLeft => ['F', 'V', '3', '_', 'B', 'L']
  | .left => ['F', 'V', '3', '_', 'L']
  | .topLeft => ['F', 'V', '3', '_', 'T', 'L']
  | .top => ['F', 'V', '3', '_', 'T']
  | .topRight => ['F', 'V', '3', '_', 'T', 'R']
  | .right => ['F', 'V', '3', '_', 'R']
  | .bottomRight => ['F', 'V', '3', '_', 'B', 'R']
  | .bottom => ['F', 'V', '3', '_', 'B']
  | .center => ['F', 'V', '3', '_', 'C']

/-- `get_cache_directory`, `cache_location.py` 61-62. -/
def codeDir (c : CodePath) : Name := plain ++ '_' :: pathStr c

/-- The directory set when `ndsl.dsl` is imported, `ndsl/dsl/__init__.py` 43-48: `env` is the variable `GT_CACHE_DIR_NAME`. -/
def imported (env : Option Name) (rank : Nat) : Name := env.getD (rankDir rank)

/-- `build_cache_path`, `decomposition.py` 63-81. -/
def cachePath (minimal : Bool) (i : DecompInfo) : Name :=
  if i.size = 1 then plain
  else if minimal then rankDir i.equivalent.toNat
  else rankDir i.rank.toNat

/-- `CompilationConfig.__init__`, 51-60, with `set_distributed_caches`, `decomposition.py` 84-97: the directory afterwards.
`dirs` are the directories that exist, `cur` is the one set so far. -/
def compilation (dirs : Name → Bool) (mode : RunMode) (minimal : Bool) (comm : Option (Int × Part)) (cur : Name) :
    Except Err Name := do
  let i ← decompositionInfo mode minimal comm
  if comm.isSome then
    if mode = .run then
      if dirs (cachePath minimal i) then .ok (cachePath minimal i) else .error .runtimeError
    else .ok cur
  else .ok cur

/-- `set_distributed_caches` of `build.py` 117-153 on an orchestrated backend, as `DaceConfig.__init__` calls it; `run` tells whether
the orchestration mode is `Run`. -/
def daceDirs (dirs : Name → Bool) (run : Bool) (c : CodePath) : Except Err Name :=
  if run && !dirs (codeDir c) then .error .runtimeError else .ok (codeDir c)

/-- What a rank of a program asks for. -/
structure Job where
  /-- `GT_CACHE_DIR_NAME` -/
  env : Option Name
  /-- the orchestration mode is `Run`, if the backend is orchestrated -/
  orchestrated : Option Bool
  mode : RunMode
  minimal : Bool
  comm : Option (Int × Part)

/-- The rank of a job in the world communicator, and its code path (`dace_config.py` 357-375; on the cubed sphere). -/
def Job.rank (j : Job) : Nat :=
  match j.comm with
  | some (r, _) => r.toNat
  | none => 0

def Job.path (j : Job) : Except Err CodePath :=
  match j.comm with
  | some (r, p) => identifyCodePath r p false
  | none => .ok .all

/-- The directory where the stencils of a rank are written or read: after the import, the configuration of DaCe and then that of the
compilation. -/
def setup (dirs : Name → Bool) (j : Job) : Except Err Name := do
  let cur ← match j.orchestrated with
    | none => .ok (imported j.env j.rank)
    | some run => do daceDirs dirs run (← j.path)
  compilation dirs j.mode j.minimal j.comm cur

/-! ### Build mode -/

/-- An object: what its attributes and those of its class are. -/
structure Obj (α : Type) where
  own : String → Option α
  cls : String → Option α

/-- `setattr(obj, name, f)`. -/
def Obj.setattr {α : Type} (o : Obj α) (name : String) (f : α) : Obj α :=
  { o with own := fun n => if n = name then some f else o.own n }

/-- `obj(...)`: Python looks `__call__` up in the class. -/
def Obj.call {α : Type} (o : Obj α) : Option α := o.cls "__call__"

/-- A stencil after `FrozenStencil.__init__`, `stencil.py` 412-417: `run` is the method, `nothing` the function that does nothing. -/
def frozen {α : Type} (mode : RunMode) (run nothing : α) : Obj α :=
  let o : Obj α := ⟨fun _ => none, fun n => if n = "__call__" then some run else none⟩
  if mode = .build then o.setattr "__call__" nothing else o

end NDSL.CacheDirs
