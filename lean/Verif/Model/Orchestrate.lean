/-!
# Orchestrating a method of one object

`orchestrate` and `orchestrate_function` of `ndsl/dsl/dace/orchestration.py` (617-741), with the cache of bound
methods (544-546, 606-614).  Simplifications: a class carries the methods found along its bases, and is not changed by
others; objects, functions and classes have numbers that are not used again (the cache keeps them alive); what a
compiled program does is the subject of other modules.
-/
namespace NDSL.Orchestrate

/-- Exceptions of Python. -/
inductive Err where
  | runtime | attributeError
  deriving DecidableEq, Repr

/-- What an argument is declared as: a compile-time argument, a quantity, a state (or a class derived from it), or
something else. -/
inductive Ann where
  | compiletime | quantity | state | other (n : Nat)
  deriving DecidableEq, Repr

/-- A bound method ready to be compiled, `SDFGEnabledCallable` 548-557: the object, the function and the configuration. -/
structure Wrapped where
  obj : Nat
  func : Nat
  config : Nat
  deriving DecidableEq, Repr

/-- What a function does: its own code, or, in a patched class, the call of a bound method, 689-690. -/
inductive Body where
  | own
  | calls (t : Wrapped)
  deriving DecidableEq, Repr

/-- A function with the declarations of its arguments (`__annotations__`). -/
structure Fn where
  body : Body
  ann : String → Option Ann

/-- A class: its names, the classes it derives from, and its methods. -/
structure Cls where
  name : String
  qualname : String
  bases : List Nat
  methods : String → Option Nat

/-- An object: its class and its own attributes. -/
structure Obj where
  cls : Nat
  attrs : String → Option Wrapped

/-- All objects, with the cache `bound_callables`, 546, by the object and the function. -/
structure World where
  cls : Nat → Cls
  nCls : Nat
  fn : Nat → Fn
  nFn : Nat
  obj : Nat → Obj
  bound : Nat → Nat → Option Wrapped

/-- The function found in the class of an object, `type.__getattribute__(type(obj), name)`, 653. -/
def World.find (w : World) (o : Nat) (m : String) : Option Nat := (w.cls (w.obj o).cls).methods m

/-- `hasattr`, 643. -/
def World.has (w : World) (o : Nat) (m : String) : Bool := ((w.obj o).attrs m).isSome || (w.find o m).isSome

/-- The declarations after 655-663: the named arguments and those declared as quantities or states are compile-time. -/
def flag (args : List String) (ann : String → Option Ann) : String → Option Ann := fun a =>
  if a ∈ args then some .compiletime
  else match ann a with
    | some .quantity => some .compiletime
    | some .state => some .compiletime
    | x => x

/-- The flagging of a function, 655-663. -/
def World.annotate (w : World) (f : Nat) (args : List String) : World :=
  { w with fn := fun g => if g = f then { w.fn f with ann := flag args (w.fn f).ann } else w.fn g }

/-- `_LazyComputepathMethod(func, config).__get__(obj)`, 667 and 606-614. -/
def World.bind (w : World) (o f c : Nat) : World × Wrapped :=
  match w.bound o f with
  | some t => (w, t)
  | none => ({ w with bound := fun i j => if i = o ∧ j = f then some ⟨o, f, c⟩ else w.bound i j }, ⟨o, f, c⟩)

/-- The new class of an object whose call is orchestrated, 669-710: derived from its class, with the same name. -/
def World.patch (w : World) (o : Nat) (t : Wrapped) : World :=
  let old := (w.obj o).cls
  { w with
    cls := fun k => if k = w.nCls then
      ⟨(w.cls old).name, (w.cls old).qualname ++ "_patched", old :: (w.cls old).bases,
        fun m => if m = "__call__" then some w.nFn else (w.cls old).methods m⟩ else w.cls k
    nCls := w.nCls + 1
    fn := fun g => if g = w.nFn then ⟨.calls t, fun _ => none⟩ else w.fn g
    nFn := w.nFn + 1
    obj := fun p => if p = o then { w.obj o with cls := w.nCls } else w.obj p }

/-- `setattr(obj, name, wrapped)`, 711-713. -/
def World.setAttr (w : World) (o : Nat) (m : String) (t : Wrapped) : World :=
  { w with obj := fun p => if p = o then { w.obj o with attrs := fun n => if n = m then some t else (w.obj o).attrs n } else w.obj p }

/-- `orchestrate`, 617-713; `on` says which configurations ask for orchestration. -/
def World.orchestrate (w : World) (on : Nat → Bool) (o : Nat) (m : String) (c : Nat) (args : List String) : Except Err World :=
  if on c = false then .ok w
  else if w.has o m = false then .error .runtime
  else match w.find o m with
    | none => .error .attributeError
    | some f =>
      let (w, t) := (w.annotate f args).bind o f c
      .ok (if m = "__call__" then w.patch o t else w.setAttr o m t)

/-- What a call of a method runs: a function as it is, or the program compiled from a function for an object, under a
configuration. -/
inductive Outcome where
  | plain (func obj : Nat)
  | compiled (func obj config : Nat)
  | attributeError
  deriving DecidableEq, Repr

/-- A bound method when called, 567-583. -/
def Wrapped.call (t : Wrapped) : Outcome := .compiled t.func t.obj t.config

/-- The call of a method found in the class. -/
def World.callClass (w : World) (o : Nat) (m : String) : Outcome :=
  match w.find o m with
  | none => .attributeError
  | some f =>
    match (w.fn f).body with
    | .own => .plain f o
    | .calls t => t.call

/-- `obj(...)` looks in the class only; `obj.method(...)` looks at the attributes of the object first. -/
def World.call (w : World) (o : Nat) (m : String) : Outcome :=
  if m = "__call__" then w.callClass o m
  else match (w.obj o).attrs m with
    | some t => t.call
    | none => w.callClass o m

/-- An orchestration: object, method, configuration, compile-time arguments. -/
structure Op where
  obj : Nat
  method : String
  config : Nat
  args : List String

/-- A program that orchestrates methods one after the other and catches exceptions. -/
def World.run (w : World) (on : Nat → Bool) : List Op → World
  | [] => w
  | op :: ops =>
    match w.orchestrate on op.obj op.method op.config op.args with
    | .ok w' => w'.run on ops
    | .error _ => w.run on ops

/-- What `orchestrate_function`, 716-741, returns for a function: itself, or the function to be compiled
(`_LazyComputepathFunction`, 483-532). -/
inductive Lazy where
  | same (f : Nat)
  | lazy (f config : Nat)
  deriving DecidableEq, Repr

/-- `orchestrate_function(config, args)(func)`, 730-741: only the named arguments are flagged. -/
def World.orchestrateFunction (w : World) (on : Nat → Bool) (f c : Nat) (args : List String) : World × Lazy :=
  if on c = false then (w, .same f)
  else ({ w with fn := fun g => if g = f then { w.fn f with ann := fun a => if a ∈ args then some .compiletime else (w.fn f).ann a } else w.fn g },
    .lazy f c)

end NDSL.Orchestrate
