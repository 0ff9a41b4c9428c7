import Verif.Model.StorageData
import Verif.Model.StateTransfer
/-
Model of how the parallel translate tests put serialized data into quantities and take it out again,
`ndsl/stencils/testing/parallel_translate.py`: `_serialize_slice` (154-174), `ParallelTranslateGrid.state_from_inputs`
(186-213), `ParallelTranslate.outputs_from_state` (102-120), and the loop of `ParallelTranslate.state_from_inputs` (70-87).

Simplifications: data is in main memory; the sizer returns an origin, an extent and a shape for every list of dims; a quantity
has distinct dims, so that `transpose` to dims with one of them moved is the moving of that axis; data types and units are left
out; `real_dims` is not given, as in all calls.
-/
namespace NDSL.ParallelTranslate

open NDSL.Storage

variable {V : Type}

/-- A dimension: in `I_DIMS`, in `J_DIMS`, or another. -/
inductive Axis where
  | I
  | J
  | other
  deriving DecidableEq, Repr

/-- The property `n_halo`: one number or a pair. -/
inductive Halo where
  | one (n : Int)
  | pair (i j : Int)

/-- The halo along a dimension, 159-170. -/
def Halo.along : Halo → Axis → Int
  | _, .other => 0
  | .one n, _ => n
  | .pair i _, .I => i
  | .pair _ j, .J => j

structure Qty (V : Type) where
  dims : List Axis
  origin : List Nat
  extent : List Nat
  data : Nd V

/-- A bound of a slice of an axis of length `n`, counted from the end if negative. -/
def bound (n : Nat) (x : Int) : Nat := if x < 0 then (x + n).toNat else x.toNat

/-- `_serialize_slice`, 154-174, as numpy takes it for an array of the shape `ns`. -/
def slices (h : Halo) : List Axis → List Nat → List Nat → List Nat → List (Nat × Nat)
  | d :: ds, o :: os, e :: es, n :: ns =>
    (bound n (o - h.along d), bound n (o + e + h.along d)) :: slices h ds os es ns
  | _, _, _, _ => []

def Qty.slices (q : Qty V) (h : Halo) : List (Nat × Nat) :=
  ParallelTranslate.slices h q.dims q.origin q.extent q.data.shape

/-- `a[lo0:hi0, lo1:hi1, ...]` -/
def read (a : Nd V) (sl : List (Nat × Nat)) : Except Err (Nd V) :=
  match regions a.shape sl with
  | none => .error .indexError
  | some rs => .ok ⟨rs.map (·.2), fun i => a.get (List.zipWith (· + ·) (rs.map (·.1)) i)⟩

/-- `k_dim = dims.pop(k); dims.insert(len(dims), k_dim)`, 207-208, on any list with an entry for each axis. -/
def toEnd {α : Type} (k : Nat) (l : List α) : List α := l.eraseIdx k ++ (l[k]?).toList

/-- `dims.insert(k, dims.pop(-1))`, 111, on any list with an entry for each axis. -/
def fromEnd {α : Type} (k : Nat) (l : List α) : List α :=
  match l.getLast? with
  | some x => if k ≤ l.dropLast.length then l.dropLast.insertIdx k x else l
  | none => []

/-- The transposition of 209. -/
def Qty.kToEnd (k : Nat) (q : Qty V) : Except Err (Qty V) :=
  if k < q.dims.length then
    .ok ⟨toEnd k q.dims, toEnd k q.origin, toEnd k q.extent, ⟨toEnd k q.data.shape, fun i => q.data.get (fromEnd k i)⟩⟩
  else .error .indexError

/-- The transposition of 112. -/
def Qty.kFromEnd (k : Nat) (q : Qty V) : Qty V :=
  ⟨fromEnd k q.dims, fromEnd k q.origin, fromEnd k q.extent, ⟨fromEnd k q.data.shape, fun i => q.data.get (toEnd k i)⟩⟩

/-- What the quantity factory knows. -/
structure Sizer where
  origin : List Axis → List Nat
  extent : List Axis → List Nat
  shape : List Axis → List Nat

/-- An entry of `inputs` or `outputs`: its name, the property `name`, `dims` and `n_halo` (3 if not given). -/
structure Var where
  name : String
  std : Option String
  dims : List Axis
  halo : Halo

/-- What the state and the outputs hold: quantities, and arrays or numbers. -/
inductive Val (V : Type) where
  | qty (q : Qty V)
  | raw (d : Nd V)

/-- The body of the loop of 188-212 for one input: the value for the state. -/
def inputValue (z : V) (s : Sizer) (kaxis : String → Option Nat) (v : Var) (d : Nd V) : Except Err (Val V) :=
  if v.dims.length > 0 then do
    let q : Qty V := ⟨v.dims, s.origin v.dims, s.extent v.dims, zeros z (s.shape v.dims)⟩
    let a ← assign q.data (q.slices v.halo) d
    let q := { q with data := a }
    match kaxis v.name with
    | some k => (q.kToEnd k).map .qty
    | none => .ok (.qty q)
  else .ok (.raw d)

/-- `ParallelTranslateGrid.state_from_inputs`, 186-213, from a state already begun. -/
def stateFrom (z : V) (s : Sizer) (kaxis : String → Option Nat) (data : List (String × Nd V)) :
    List Var → List (String × Val V) → Except Err (List (String × Val V))
  | [], st => .ok st
  | v :: vs, st =>
    match dictGet data v.name with
    | none => .error .keyError
    | some d => do
      let x ← inputValue z s kaxis v d
      stateFrom z s kaxis data vs (dictSet st (v.std.getD v.name) x)

/-- The body of the loop of 105-119 for one output: the value for the returned dictionary and the new state. -/
def outputValue (kaxis : String → Option Nat) (v : Var) (st : List (String × Val V)) :
    Except Err (Val V × List (String × Val V)) :=
  match v.std with
  | none => .error .keyError
  | some std =>
    match dictGet st std with
    | none => .error .keyError
    | some (.qty q) =>
      let q' := match kaxis v.name with
        | some k => q.kFromEnd k
        | none => q
      let st' := match kaxis v.name with
        | some _ => dictSet st std (.qty q')
        | none => st
      if v.dims.length > 0 then (read q'.data (q'.slices v.halo)).map fun d => (.raw d, st')
      else .ok (.qty q', st')
    | some (.raw d) =>
      if v.dims.length > 0 ∨ (kaxis v.name).isSome then .error .typeError else .ok (.raw d, st)

/-- `outputs_from_state`, 102-120, with a dictionary already begun: the dictionary and the state afterwards. -/
def outputsFrom (kaxis : String → Option Nat) :
    List Var → List (String × Val V) → List (String × Val V) → Except Err (List (String × Val V) × List (String × Val V))
  | [], st, out => .ok (out, st)
  | v :: vs, st, out => do
    let r ← outputValue kaxis v st
    outputsFrom kaxis vs r.2 (dictSet out v.name r.1)

/-! ### `ParallelTranslate.state_from_inputs` -/

/-- What the state of that class holds: what was put into it, or a quantity made of an entry of it. -/
inductive Entry (D : Type) where
  | data (d : D)
  | quantity (dims : List Axis) (of : Entry D)
  deriving DecidableEq

/-- The loop of 73-87, after the input data was made storages under the same names (72): each entry of the state is made a quantity,
unless without dims, and kept under its standard name. -/
def plainState {D : Type} : List Var → List (String × Entry D) → Except Err (List (String × Entry D))
  | [], st => .ok st
  | v :: vs, st =>
    match dictGet st v.name with
    | none => .error .keyError
    | some x =>
      plainState vs (dictSet st (v.std.getD v.name) (if v.dims.length > 0 then .quantity v.dims x else x))

end NDSL.ParallelTranslate
