import Verif.Model.Basic
/-
Model of calls to orchestrated programs: the cache of loaded executables and their arguments
(`ndsl/dsl/dace/orchestration.py` 372-424 and 427-480, `ndsl/dsl/dace/dace_executable.py`), and the
cache of bound methods (`orchestration.py` 535-614).

Simplifications: what DaCe builds, loads and makes of the arguments are functions given from
outside; programs are compared by identity; nested fields of a state are given as one list of
hashes. The transfer of arguments and results between devices (68-92) is left out: the first works
on a list that is thrown away.
-/
namespace NDSL.Orch

/-- CPython's hash of an integer. -/
def pyHash (n : Int) : Int :=
  if n = -1 then -2 else n.sign * ((n.natAbs % (2 ^ 61 - 1) : Nat) : Int)

/-- An argument of a call. `what` stands for everything that is not part of the hash: for an array
or quantity its shape, strides and type. -/
inductive Arg where
  | array (address : Int) (what : Nat)
  | state (fields : List Int) (what : Nat)
  | value (hash : Int) (what : Nat)
  | unhashable (what : Nat)
  deriving DecidableEq, Repr

/-- The hash of what is put into the tuple, `dace_executable.py` 38-47; for a state `State._hash`,
`quantity/state.py` 481-499. `H` is CPython's hash of a tuple, which is a function of the hashes of
its elements; `none` if the hash is a `TypeError`. -/
def hashOf (H : List Int → Int) : Arg → Option Int
  | .array a _ => some (pyHash a)
  | .state fields _ => some (pyHash (H fields))
  | .value h _ => some h
  | .unhashable _ => none

/-- The hashes of all elements, if each has one. -/
def allHashes (H : List Int → Int) : List Arg → Option (List Int)
  | [] => some []
  | a :: as =>
    match hashOf H a, allHashes H as with
    | some h, some hs => some (h :: hs)
    | _, _ => none

/-- A call: program, positional arguments, keyword arguments in the order given, and the closure:
what the program takes from its own object (`__sdfg_closure__`), such as arrays that are attributes;
DaCe adds it when it makes the arguments. -/
structure Call where
  prog : Nat
  args : List Arg
  kwargs : List (Nat × Arg)
  closure : Nat := 0
  deriving DecidableEq, Repr

/-- `DaceExecutable`, 11-24. -/
structure Exe (Lib M : Type) where
  lib : Lib
  arguments : Option M
  argumentsHash : Int
  skipHash : Bool
  deriving DecidableEq, Repr

variable {Lib M : Type}

/-- `hash_expected_dsl_args`, 26-61. -/
def hashExpected (H : List Int → Int) (exe : Exe Lib M) (c : Call) : Exe Lib M × Int :=
  if exe.skipHash then ({ exe with arguments := none }, 0)
  else
    match allHashes H (c.args ++ c.kwargs.map (·.2)) with
    | some hs => (exe, H hs)
    | none => ({ exe with arguments := none, skipHash := true }, 0)

inductive Mode where
  | buildAndRun | build | run
  deriving DecidableEq, Repr

/-- What is outside the model: the library that a build leaves for a program, the library found by
`get_sdfg_path` in run mode, the marshalled arguments (`_create_sdfg_args`) and the empty ones. -/
structure World (Lib M : Type) where
  built : Nat → Lib
  precompiled : Nat → Option Lib
  marshal : Lib → Call → M
  empty : M

/-- `config.loaded_dace_executables`. -/
abbrev Loaded (Lib M : Type) := Nat → Option (Exe Lib M)

def Loaded.put (s : Loaded Lib M) (p : Nat) (e : Exe Lib M) : Loaded Lib M :=
  fun q => if q = p then some e else s q

/-- How a call ends without running: `exit(0)` after a build, or an exception. -/
inductive Stop where
  | exit
  | error (e : Err)
  deriving DecidableEq, Repr

/-- `_parse_sdfg`, 427-480, and the build part of `_call_sdfg`, 378-386 with 342-369: after this the
executable is in the cache, or the program has ended. In build mode all ranks exit. -/
def prepare (W : World Lib M) (mode : Mode) (s : Loaded Lib M) (p : Nat) :
    Except Stop (Loaded Lib M) :=
  match s p with
  | some _ =>
    if mode = .build then .error (.error .valueError) else .ok s
  | none =>
    match mode with
    | .build => .error .exit
    | .buildAndRun => .ok (s.put p ⟨W.built p, some W.empty, 0, false⟩)
    | .run =>
      match W.precompiled p with
      | none => .error (.error .runtimeError)
      | some lib => .ok (s.put p ⟨lib, none, 0, false⟩)

/-- The arguments used for a call, 402-415: the cached ones if the hash is the cached hash. -/
def argumentsFor (W : World Lib M) (H : List Int → Int) (exe : Exe Lib M) (c : Call) :
    Exe Lib M × M :=
  let (exe, h) := hashExpected H exe c
  match exe.arguments with
  | none =>
    let m := W.marshal exe.lib c
    ({ exe with arguments := some m, argumentsHash := h }, m)
  | some m =>
    if h = exe.argumentsHash then (exe, m)
    else
      let m := W.marshal exe.lib c
      ({ exe with arguments := some m, argumentsHash := h }, m)

/-- `_call_sdfg`, 372-424: the library and the arguments that are run, and the new cache. -/
def call (W : World Lib M) (H : List Int → Int) (mode : Mode) (s : Loaded Lib M) (c : Call) :
    Loaded Lib M × Except Stop (Lib × M) :=
  match prepare W mode s c.prog with
  | .error e => (s, .error e)
  | .ok s =>
    match s c.prog with
    | none => (s, .error (.error .runtimeError))
    | some exe =>
      let (exe, m) := argumentsFor W H exe c
      (s.put c.prog exe, .ok (exe.lib, m))

/-- The cache after a history of calls. -/
def after (W : World Lib M) (H : List Int → Int) (mode : Mode) (hist : List Call) : Loaded Lib M :=
  hist.foldl (fun s c => (call W H mode s c).1) fun _ => none

/-! ### Bound methods -/

/-- An object: the address (`id`) can be used again when the object is gone; the serial number
cannot. -/
structure Obj where
  id : Nat
  serial : Nat
  deriving DecidableEq, Repr

/-- `SDFGEnabledCallable`, 548-604: it holds the object and, through the wrapper, the function and
the configuration. -/
structure Bound where
  obj : Obj
  func : Obj
  config : Nat
  deriving DecidableEq, Repr

/-- Live objects, the number of objects made so far, and `bound_callables`, 546. -/
structure Heap where
  live : List Obj
  count : Nat
  bound : Nat → Nat → Option Bound

/-- The cache of bound methods and the objects it holds. -/
def Heap.holds (h : Heap) (o : Obj) : Prop :=
  ∃ i j b, h.bound i j = some b ∧ (b.obj = o ∨ b.func = o)

/-- `__get__`, 606-614. -/
def Heap.get (h : Heap) (obj func : Obj) (config : Nat) : Heap × Bound :=
  match h.bound obj.id func.id with
  | some b => (h, b)
  | none =>
    let b : Bound := ⟨obj, func, config⟩
    ({ h with bound := fun i j => if i = obj.id ∧ j = func.id then some b else h.bound i j }, b)

end NDSL.Orch
