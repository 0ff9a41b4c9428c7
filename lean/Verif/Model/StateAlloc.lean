/-
Model of the allocation of states: `State._init`, `_check_no_locals`, `_FactorySwapDimensionsDefinitions`, `empty`,
`zeros`, `ones`, `full`, `fill` and `LocalState` (`ndsl/quantity/state.py` 56-345 and 598-766), `Local.__init__`
(`ndsl/quantity/local.py` 19-44) and the search for runtime objects in the stack
(`ndsl/internal/python_extensions.py` 6-43).

Simplifications: the shape which the factory's sizer gives for dimensions, under the data dimensions set at that
time, is a parameter, as is the error for unknown dimensions; dtypes and units are names; default values of fields
are left out; the contents of an array are one value for all points. `dacite.from_dict` builds the objects from the
dictionary, inner ones first, and calls their `__post_init__`. The stack is the list of the runtime objects in it,
innermost first.
-/
namespace NDSL.Alloc

/-- exceptions -/
inductive AErr where
  | valueError | typeError | keyError | runtimeError | attributeError
  deriving DecidableEq

/-- `_field.metadata`: entries may be missing. -/
structure Meta where
  dims : Option (List String)
  units : Option String
  dtype : Option String
  deriving DecidableEq

/-- The type of a field that is no dataclass: `Quantity`, `Quantity | None`, `Local`, anything else. -/
inductive Kind where
  | quantity | optional | loc | other
  deriving DecidableEq

/-- A dataclass: its fields in order with `_field.init`. Nested dataclasses may be subclasses of `LocalState`
(`guarded`). -/
inductive Cls where
  | nil
  | leaf (name : String) (init : Bool) (m : Meta) (k : Kind) (rest : Cls)
  | nested (name : String) (init guarded : Bool) (sub rest : Cls)
  deriving DecidableEq

/-- What an array contains. -/
inductive Content where
  | junk | zeros | ones | num (v : Int)
  deriving DecidableEq

/-- A quantity; `isLocal`: it is a `Local`. -/
structure Q where
  dims : List String
  units : String
  dtype : String
  shape : List Nat
  isLocal : Bool
  content : Content
  deriving DecidableEq

/-- An object: its attributes; a nested object has a `_parent_runtime` if it was guarded when it was built. -/
inductive Obj where
  | nil
  | leaf (name : String) (q : Q) (rest : Obj)
  | nested (name : String) (parent : Option Nat) (sub rest : Obj)
  deriving DecidableEq

/-- Data dimensions: name and size. -/
abbrev DDims := List (String × Nat)

/-- The part of a factory that matters: `factory.sizer.data_dimensions`. -/
structure Factory where
  ddims : DDims
  deriving DecidableEq

/-- `Local(data=quantity._data, ...)`, 88-97 and `local.py` 33: the data are overwritten. -/
def asLocal (q : Q) : Q := { q with isLocal := true, content := .num 123456789 }

/-- One field, 78-101: the dictionary entry. -/
def initLeaf (size : List String → Except AErr (List Nat)) (fill : Content) (m : Meta) (k : Kind) : Except AErr Q :=
  match k with
  | .other => .error .typeError
  | k =>
    match m.dims, m.units, m.dtype with
    | none, _, _ => .error .valueError
    | some _, none, _ => .error .keyError
    | some _, some _, none => .error .keyError
    | some d, some u, some t =>
      match size d with
      | .error e => .error e
      | .ok s =>
        let q : Q := ⟨d, u, t, s, false, fill⟩
        .ok (if k = .loc then asLocal q else q)

/-- `_init_recursive`, 71-107: the dictionary, as an object without parents. -/
def initDict (size : List String → Except AErr (List Nat)) (fill : Content) : Cls → Except AErr Obj
  | .nil => .ok .nil
  | .leaf n init m k rest =>
    if init then
      match initLeaf size fill m k with
      | .error e => .error e
      | .ok q => (initDict size fill rest).map (.leaf n q ·)
    else initDict size fill rest
  | .nested n init _ sub rest =>
    if init then
      match initDict size fill sub with
      | .error e => .error e
      | .ok o => (initDict size fill rest).map (.nested n none o ·)
    else initDict size fill rest

/-- `find_first_NDSLRuntime_caller`, python_extensions.py 6-22. -/
def firstRuntime (stack : List Nat) : Option Nat := stack.head?

/-- `__post_init__` of a `LocalState`, 598-607, unless replaced by `_no_op__post_init__`. -/
def postInit (active guarded : Bool) (stack : List Nat) : Except AErr (Option Nat) :=
  if active && guarded then
    match firstRuntime stack with
    | none => .error .runtimeError
    | some p => .ok (some p)
  else .ok none

/-- `dacite.from_dict`, 110-114: builds nested objects and calls `__post_init__`. -/
def build (active : Bool) (stack : List Nat) : Cls → Obj → Except AErr Obj
  | .leaf _ init _ _ rest, o =>
    if init then
      match o with
      | .leaf n q os => (build active stack rest os).map (.leaf n q ·)
      | _ => .error .typeError
    else build active stack rest o
  | .nested _ init guarded sub rest, o =>
    if init then
      match o with
      | .nested n _ o1 os =>
        match build active stack sub o1 with
        | .error e => .error e
        | .ok o1 =>
          match postInit active guarded stack with
          | .error e => .error e
          | .ok p => (build active stack rest os).map (.nested n p o1 ·)
      | _ => .error .typeError
    else build active stack rest o
  | .nil, _ => .ok .nil

/-- `_init`, 56-114: the object and its parent. -/
def initState (size : List String → Except AErr (List Nat)) (fill : Content) (active guarded : Bool) (stack : List Nat)
    (c : Cls) : Except AErr (Obj × Option Nat) :=
  match initDict size fill c with
  | .error e => .error e
  | .ok d =>
    match build active stack c d with
    | .error e => .error e
    | .ok o => (postInit active guarded stack).map (o, ·)

/-- `with _FactorySwapDimensionsDefinitions(factory, ddims): ...`, 131-156: the factory afterwards, also after an
exception. -/
def withDims {α : Type} (f : Factory) (dd : DDims) (body : Factory → Except AErr α) : Factory × Except AErr α :=
  let original := f.ddims
  let f := { f with ddims := dd }
  let r := body f
  ({ f with ddims := original }, r)

/-- `_check_no_locals`, 158-171. -/
def checkNoLocals : Cls → Except AErr Unit
  | .nil => .ok ()
  | .leaf _ _ _ k rest => if k = .loc then .error .typeError else checkNoLocals rest
  | .nested _ _ _ sub rest =>
    match checkNoLocals sub with
    | .error e => .error e
    | .ok _ => checkNoLocals rest

/-- `_check_only_locals`, 612-624. -/
def checkOnlyLocals : Cls → Except AErr Unit
  | .nil => .ok ()
  | .leaf _ _ _ k rest => if k = .quantity then .error .typeError else checkOnlyLocals rest
  | .nested _ _ _ sub rest =>
    match checkOnlyLocals sub with
    | .error e => .error e
    | .ok _ => checkOnlyLocals rest

/-- `fill`, 335-345: over all fields, initialised or not. -/
def fillObj (v : Int) : Cls → Obj → Except AErr Obj
  | .leaf _ init _ _ rest, o =>
    if init then
      match o with
      | .leaf n q os => (fillObj v rest os).map (.leaf n { q with content := .num v } ·)
      | _ => .error .attributeError
    else .error .attributeError
  | .nested _ init _ sub rest, o =>
    if init then
      match o with
      | .nested n p o1 os =>
        match fillObj v sub o1 with
        | .error e => .error e
        | .ok o1 => (fillObj v rest os).map (.nested n p o1 ·)
      | _ => .error .attributeError
    else .error .attributeError
  | .nil, _ => .ok .nil

/-- `_swap_local_recursive` and `_restore_local_recursive`, 694-700 and 709-715. -/
def swapKind (a b : Kind) : Cls → Cls
  | .nil => .nil
  | .leaf n i m k rest => .leaf n i m (if k = a then b else k) (swapKind a b rest)
  | .nested n i g sub rest => .nested n i g (swapKind a b sub) (swapKind a b rest)

/-- What a user calls on a class; `none` for no data dimensions. -/
inductive Op where
  | empty (dd : Option DDims)
  | zeros (dd : Option DDims)
  | ones (dd : Option DDims)
  | full (v : Int) (dd : Option DDims)
  | makeLocals (dd : Option DDims)
  | makeAsState (dd : Option DDims)
  deriving DecidableEq

/-- The class, whether it is a `LocalState`, and the factory. -/
structure W where
  cls : Cls
  isLocal : Bool
  fac : Factory
  deriving DecidableEq

/-- The sizer: the shape for dimensions under given data dimensions. -/
abbrev Sizer := DDims → List String → Except AErr (List Nat)

/-- `empty`, `zeros`, `ones`, 173-243, for a `State`; `LocalState` raises, 755-790. -/
def alloc (size : Sizer) (stack : List Nat) (fill : Content) (dd : Option DDims) (w : W) :
    W × Except AErr (Obj × Option Nat) :=
  if w.isLocal then (w, .error .typeError)
  else match checkNoLocals w.cls with
  | .error e => (w, .error e)
  | .ok _ =>
    let r := withDims w.fac (dd.getD []) fun f => initState (size f.ddims) fill true false stack w.cls
    ({ w with fac := r.1 }, r.2)

/-- `full`, 245-268. -/
def allocFull (size : Sizer) (stack : List Nat) (v : Int) (dd : Option DDims) (w : W) :
    W × Except AErr (Obj × Option Nat) :=
  match alloc size stack .junk dd w with
  | (w, .error e) => (w, .error e)
  | (w, .ok (o, p)) => (w, (fillObj v w.cls o).map (·, p))

/-- `make_locals`, 626-650 (a method of `LocalState` only). -/
def makeLocals (size : Sizer) (stack : List Nat) (dd : Option DDims) (w : W) : W × Except AErr (Obj × Option Nat) :=
  if w.isLocal then
    match checkOnlyLocals w.cls with
    | .error e => (w, .error e)
    | .ok _ =>
      let r := withDims w.fac (dd.getD []) fun f => initState (size f.ddims) .junk true true stack w.cls
      ({ w with fac := r.1 }, r.2)
  else (w, .error .attributeError)

/-- `make_as_state`, 652-719: the types of the fields are changed, and changed back if nothing was raised. -/
def makeAsState (size : Sizer) (stack : List Nat) (dd : Option DDims) (w : W) : W × Except AErr (Obj × Option Nat) :=
  if w.isLocal then
    match checkOnlyLocals w.cls with
    | .error e => (w, .error e)
    | .ok _ =>
      let w := { w with cls := swapKind .loc .quantity w.cls }
      let r := withDims w.fac (dd.getD []) fun f => initState (size f.ddims) .junk false true stack w.cls
      let w := { w with fac := r.1 }
      match r.2 with
      | .error e => (w, .error e)
      | .ok o => ({ w with cls := swapKind .quantity .loc w.cls }, .ok o)
  else (w, .error .attributeError)

/-- One call. -/
def step (size : Sizer) (stack : List Nat) (w : W) : Op → W × Except AErr (Obj × Option Nat)
  | .empty dd => alloc size stack .junk dd w
  | .zeros dd => alloc size stack .zeros dd w
  | .ones dd => alloc size stack .ones dd w
  | .full v dd => allocFull size stack v dd w
  | .makeLocals dd => makeLocals size stack dd w
  | .makeAsState dd => makeAsState size stack dd w

/-- Calls one after the other, each from its own place. -/
def run (size : Sizer) : List (List Nat × Op) → W → W
  | [], w => w
  | (s, o) :: l, w => run size l (step size s w o).1

/-- `LocalState.__getattribute__`, 721-753, for an attribute that was found: `parent` is that of the object which
holds it, `none` for objects of other classes. -/
def guard (parent : Option Nat) (stack : List Nat) (q : Q) : Except AErr Q :=
  if q.isLocal then
    match parent with
    | none => .ok q
    | some p => if stack = [] then .error .runtimeError else if p ∈ stack then .ok q else .error .runtimeError
  else .ok q

/-- `obj.a.b.c` from a place with the given stack. -/
def access (stack : List Nat) : Option Nat → Obj → List String → Except AErr Q
  | _, _, [] => .error .attributeError
  | _, .nil, _ => .error .attributeError
  | par, .leaf n q rest, x :: path =>
    if x = n then (if path = [] then guard par stack q else .error .attributeError) else access stack par rest (x :: path)
  | par, .nested n p sub rest, x :: path =>
    if x = n then access stack p sub path else access stack par rest (x :: path)

end NDSL.Alloc
