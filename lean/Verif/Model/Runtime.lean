import Verif.Model.Basic
/-
Model of `ndsl/dsl/ndsl_runtime.py` (`NDSLRuntime`: construction, 24-78, and access to locals, 80-104)
with the change of class made by `orchestrate`, `ndsl/dsl/dace/orchestration.py` 669-710.

Simplifications: single inheritance; the constructor of a class is a list of steps (call of the parent
constructor, assignment of an attribute); runtimes held as attributes form a tree.
-/
namespace NDSL.Runtime

/-- The value of an attribute, as far as it is looked at. -/
inductive Val where
  | quantity
  | localQ
  | runtime (attrs : List (Nat × Val))
  | other

/-- A step of a constructor. -/
inductive Act where
  | super
  | set (name : Nat) (v : Val)

/-- A class below `NDSLRuntime`: its own constructor, if it has one, and its name. -/
structure Cls where
  id : Nat
  init : Option (List Act)

/-- The object under construction: attributes (latest first), whether `NDSLRuntime.__init__` has run,
how many wrappers are around `__call__`, and how many attributes had been set when each of them was
made. -/
structure Obj where
  attrs : List (Nat × Val) := []
  baseInit : Bool := false
  wrappers : List Nat := []

/-- What does not change: whether the object is the top level one (`_TOP_LEVEL == self`), whether it
can be called, and whether the backend is orchestrated. -/
structure Setting where
  isTop : Bool
  callable : Bool
  orchestrated : Bool

/-- `check_for_quantity`, 59-69: the number of warnings. -/
def warnings : List (Nat × Val) → Nat
  | [] => 0
  | (_, .quantity) :: rest => 1 + warnings rest
  | (_, .runtime attrs) :: rest => warnings attrs + warnings rest
  | _ :: rest => warnings rest

/-- `__post_init__`, 50-78. The number is that of the warnings. -/
def postInit (S : Setting) (o : Obj) : Except Err (Obj × Nat) :=
  if o.baseInit = false then .error .runtimeError
  else
    .ok ({ o with wrappers := if S.callable && S.orchestrated then o.wrappers ++ [o.attrs.length]
                              else o.wrappers },
      if S.isTop then warnings o.attrs else 0)

/-- The steps of a constructor; `parent` is the constructor of the parent class. -/
def steps (parent : Obj → Except Err (Obj × Nat)) : List Act → Obj → Except Err (Obj × Nat)
  | [], o => .ok (o, 0)
  | .set n v :: as, o => steps parent as { o with attrs := (n, v) :: o.attrs }
  | .super :: as, o =>
    match parent o with
    | .error e => .error e
    | .ok (o, w) =>
      match steps parent as o with
      | .error e => .error e
      | .ok (o, w') => .ok (o, w + w')

/-- The constructor of a class, from the class to the base: `new_init`, 35-44, for classes below
`NDSLRuntime`, and `NDSLRuntime.__init__`, 24-27, at the end. A class without constructor of its own
inherits its parent's, which is wrapped once more (48). -/
def construct (S : Setting) : List Cls → Obj → Except Err (Obj × Nat)
  | [], o => .ok ({ o with baseInit := true }, 0)
  | c :: rest, o =>
    match (match c.init with
      | some acts => steps (construct S rest) acts o
      | none => construct S rest o) with
    | .error e => .error e
    | .ok (o, w) =>
      match postInit S o with
      | .error e => .error e
      | .ok (o, w') => .ok (o, w + w')

/-! ### Several objects -/

/-- `_TOP_LEVEL`, 15 and 40-42: the first object whose construction began. -/
def enter (top : Option Nat) (self : Nat) : Option Nat := if top.isNone then some self else top

/-- Constructions one after the other: objects with their classes, and the warnings for each. -/
def session (callable orchestrated : Bool) : Option Nat → List (Nat × List Cls) →
    List (Except Err Nat)
  | _, [] => []
  | top, (self, classes) :: rest =>
    let top := enter top self
    (match construct ⟨decide (top = some self), callable, orchestrated⟩ classes {} with
      | .error e => .error e
      | .ok (_, w) => .ok w) :: session callable orchestrated top rest

/-! ### Locals -/

/-- The class of an object: the names from the most derived class up; `orchestrate` puts a new class
in front, made for this object (`orchestration.py` 685-710). -/
structure Inst where
  serial : Nat
  classes : List Nat
  patched : Bool
  deriving DecidableEq, Repr

/-- `isinstance(x, type(o))`. -/
def isInstance (x o : Inst) : Bool :=
  if o.patched then decide (x.serial = o.serial)
  else match o.classes with
    | [] => true
    | c :: _ => decide (c ∈ x.classes)

/-- `__getattribute__`, 80-104: reading the attribute of `o`, from a frame that has the given `self`,
if any. -/
def getAttribute (o : Inst) (isLocal : Bool) (self : Option Inst) : Except Err Unit :=
  if isLocal then
    match self with
    | none => .error .runtimeError
    | some x => if isInstance x o then .ok () else .error .runtimeError
  else .ok ()

end NDSL.Runtime
