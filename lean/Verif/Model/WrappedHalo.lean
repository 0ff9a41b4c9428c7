/-!
# The halo updater that looks its quantities up in a state

`ndsl/dsl/dace/wrapped_halo_exchange.py` on top of the life cycle of `ndsl/halo/updater.py`.  Quantities are
objects, given by a number; what is packed into buffers and sent is the subject of other modules, so the updater
here only records which quantities it packed and unpacked.
-/
namespace NDSL.WrappedHalo

/-- Exceptions of Python. -/
inductive Err where
  | runtime | keyError | attributeError | notImplemented | assertion
  deriving DecidableEq, Repr

/-- What kind of object the state is, `dataclasses.is_dataclass` and `isinstance(state, dict)`. -/
inductive Kind where
  | dataclass | dict | other
  deriving DecidableEq, Repr

/-- A state: the quantity under a name, as an entry of a dictionary or as an attribute. -/
structure State where
  kind : Kind
  held : String → Option Nat

/-- The quantities of one exchange, those along x and, for vectors, those along y. -/
abbrev Pair := List Nat × Option (List Nat)

/-- What the updater and the communicator did. -/
inductive Event where
  | packed (p : Pair)
  | unpacked (p : Pair)
  | synchronized (x y : Nat)
  deriving DecidableEq, Repr

/-- The wrapper, wrapped_halo_exchange.py 18-31, with the quantities in flight of its updater
(`_inflight_x_quantities`, updater.py). -/
structure W where
  state : State
  x : List String
  y : Option (List String)
  comm : Bool
  inflight : Option Pair
  log : List Event

/-- `WrappedHaloUpdater.__init__` with an updater not in use, wrapped_halo_exchange.py 18-31. -/
def W.new (s : State) (x : List String) (y : Option (List String)) (comm : Bool) : W := ⟨s, x, y, comm, none, []⟩

/-- `state.__getattribute__(name)` for a dataclass, `state[name]` for a dictionary. -/
def State.get (s : State) (n : String) : Except Err Nat :=
  match s.held n with
  | some q => .ok q
  | none => .error (if s.kind = .dict then .keyError else .attributeError)

/-- The list of quantities under the names, wrapped_halo_exchange.py 46, 49, 55-56, 60-61. -/
def State.collect (s : State) : List String → Except Err (List Nat)
  | [] => .ok []
  | n :: ns => do
    let q ← s.get n
    let qs ← s.collect ns
    return q :: qs

/-- `HaloUpdater.start`, updater.py 222-275: refused while an exchange is in flight. -/
def W.startUpdater (w : W) (p : Pair) : Except Err W :=
  match w.inflight with
  | some _ => .error .runtime
  | none => .ok { w with inflight := some p, log := w.log ++ [.packed p] }

/-- `start`, wrapped_halo_exchange.py 41-64. -/
def W.start (w : W) : Except Err W :=
  match w.y with
  | none =>
    if w.state.kind = .dataclass then do
      let xs ← w.state.collect w.x
      w.startUpdater (xs, none)
    else if w.state.kind = .dict then do
      let xs ← w.state.collect w.x
      w.startUpdater (xs, none)
    else .error .notImplemented
  | some y =>
    if w.state.kind = .dataclass then do
      let xs ← w.state.collect w.x
      let ys ← w.state.collect y
      w.startUpdater (xs, some ys)
    else if w.state.kind = .dict then do
      let xs ← w.state.collect w.x
      let ys ← w.state.collect y
      w.startUpdater (xs, some ys)
    else .error .notImplemented

/-- `wait`, wrapped_halo_exchange.py 66-68 and updater.py 277-311 (with `__debug__`): the quantities in flight
are unpacked. -/
def W.wait (w : W) : Except Err W :=
  match w.inflight with
  | none => .error .runtime
  | some p => .ok { w with inflight := none, log := w.log ++ [.unpacked p] }

/-- `update`, wrapped_halo_exchange.py 70-73. -/
def W.update (w : W) : Except Err W := do
  let w ← w.start
  w.wait

/-- `state.__getattribute__(name)` in `interface`, for any kind of state.  The entries of a dictionary are not
its attributes; its methods are, and no method is accepted as a quantity: both end in an `AttributeError`. -/
def State.attr (s : State) (n : String) : Except Err Nat :=
  if s.kind = .dict then .error .attributeError
  else match s.held n with
    | some q => .ok q
    | none => .error .attributeError

/-- `interface`, wrapped_halo_exchange.py 75-83. -/
def W.interface (w : W) : Except Err W :=
  if w.comm = false then .error .assertion
  else match w.y with
    | none => .error .assertion
    | some y =>
      match w.x, y with
      | [a], [b] => do
        let p ← w.state.attr a
        let q ← w.state.attr b
        return { w with log := w.log ++ [.synchronized p q] }
      | _, _ => .error .assertion

/-- What `check_for_attribute` returns: a truth value, or the attribute itself. -/
inductive Check where
  | truth (b : Bool)
  | value (q : Nat)
  deriving DecidableEq, Repr

/-- `check_for_attribute`, wrapped_halo_exchange.py 33-39. -/
def checkFor (s : State) (n : String) : Except Err Check :=
  if s.kind = .dataclass then
    match s.held n with
    | some q => .ok (.value q)
    | none => .error .attributeError
  else if s.kind = .dict then .ok (.truth (s.held n).isSome)
  else .ok (.truth false)

/-- What a program does with the state and the wrapper: puts a quantity under a name, takes a name away, or calls
the wrapper. -/
inductive Op where
  | assign (n : String) (q : Nat)
  | remove (n : String)
  | start
  | wait
  | update
  | interface
  deriving DecidableEq, Repr

/-- One step of the program. -/
def W.step (w : W) : Op → Except Err W
  | .assign n q => .ok { w with state := { w.state with held := fun m => if m = n then some q else w.state.held m } }
  | .remove n => .ok { w with state := { w.state with held := fun m => if m = n then none else w.state.held m } }
  | .start => w.start
  | .wait => w.wait
  | .update => w.update
  | .interface => w.interface

/-- A program that catches every exception. -/
def W.run (w : W) : List Op → W
  | [] => w
  | op :: ops =>
    match w.step op with
    | .ok w' => w'.run ops
    | .error _ => w.run ops

end NDSL.WrappedHalo
