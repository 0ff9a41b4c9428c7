import Verif.Model.StorageData
/-
Model of the helpers that choose between numpy and CuPy, `ndsl/dsl/gt4py_utils.py`: `asarray` 420-448, `sum`, `repeat`,
`moveaxis`, `tile`, `squeeze`, `unique` 451-477 and 496-504 (all of one form), `index` 461-462, `stack` 507-512; and of
`read_serialized_data`, `pad_field_in_j` and `as_numpy`, `ndsl/stencils/testing/translate.py` 19-48.

`cp` tells whether CuPy is there. Simplifications: data types are numbers and `cast d` converts a value to the type `d`; the order
of arrays in memory is left out. What numpy and CuPy do is assumed: numpy refuses arrays on a GPU with a `TypeError`; neither
stacks arrays of both devices; an index out of bounds is an error for numpy and wraps around for CuPy.
-/
namespace NDSL.ArrayLib

open NDSL.Storage

variable {V : Type}

inductive Device where
  | cpu
  | gpu
  deriving DecidableEq, Repr

/-- Python's exceptions, as far as they occur here. -/
inductive Fault where
  | attribute
  | type
  | index
  | value
  deriving DecidableEq, Repr

/-- `np.ndarray` or `cp.ndarray`. -/
structure Arr (V : Type) where
  device : Device
  dtype : Nat
  data : Nd V

/-- What the helpers are given. A list and a memoryview are in main memory; `dtype` is the type numpy gives them. `holder` is an
object such as a `Quantity`, with an attribute `data` that is an array, which numpy and CuPy take for that array. -/
inductive Obj (V : Type) where
  | list (dtype : Nat) (data : Nd V)
  | view (dtype : Nat) (data : Nd V)
  | arr (a : Arr V)
  | holder (a : Arr V)

/-- The array numpy or CuPy make of it. -/
def Obj.arr' : Obj V → Arr V
  | .list t d => ⟨.cpu, t, d⟩
  | .view t d => ⟨.cpu, t, d⟩
  | .arr a => a
  | .holder a => a

/-- Values of an asked data type, if one is asked. -/
def convert (cast : Nat → V → V) (dtype : Option Nat) (dev : Device) (a : Arr V) : Arr V :=
  match dtype with
  | none => ⟨dev, a.dtype, a.data⟩
  | some t => ⟨dev, t, ⟨a.data.shape, fun i => cast t (a.data.get i)⟩⟩

/-- `np.asarray(array, dtype, order)` -/
def npAsarray (cast : Nat → V → V) (o : Obj V) (dtype : Option Nat) : Except Fault (Arr V) :=
  match o.arr'.device with
  | .cpu => .ok (convert cast dtype .cpu o.arr')
  | .gpu => .error .type

/-- `cp.asarray(array, dtype, order)`; `cp` may be `None`. -/
def cpAsarray (cp : Bool) (cast : Nat → V → V) (o : Obj V) (dtype : Option Nat) : Except Fault (Arr V) :=
  if cp then .ok (convert cast dtype .gpu o.arr') else .error .attribute

/-- `cp.asnumpy(array, order=order)` -/
def cpAsnumpy (o : Obj V) : Arr V := ⟨.cpu, o.arr'.dtype, o.arr'.data⟩

/-- The test of 432-438 for an object that is no list. -/
def Obj.onDevice : Obj V → Bool
  | .list _ _ => false
  | .view _ _ => true
  | .arr a => a.device == .gpu
  | .holder a => a.device == .gpu

/-- The argument `to_type`: `np.ndarray` or not. -/
inductive To where
  | numpy
  | other
  deriving DecidableEq, Repr

/-- `asarray`, 420-448. -/
def asarray (cp : Bool) (cast : Nat → V → V) (o : Obj V) (ty : To) (dtype : Option Nat) : Except Fault (Arr V) :=
  match o with
  | .list _ _ =>
    if cp then
      match ty with
      | .numpy => .ok (cpAsnumpy o)
      | .other => cpAsarray cp cast o dtype
    else
      match ty with
      | .numpy => npAsarray cast o dtype
      | .other => cpAsarray cp cast o dtype
  | _ =>
    if cp && o.onDevice then
      match ty with
      | .numpy => .ok (cpAsnumpy o)
      | .other => cpAsarray cp cast o dtype
    else
      match ty with
      | .numpy => npAsarray cast o dtype
      | .other => cpAsarray cp cast o dtype

/-- The form of `sum`, `repeat`, `moveaxis`, `tile`, `squeeze` and `unique`: the library of the array's device is called. `op` is
what the operation does with a data type and an array in either library. -/
def viaLibrary (cp : Bool) (op : Nat → Nd V → Except Fault (Nat × Nd V)) (a : Arr V) : Except Fault (Arr V) :=
  if cp && a.device == .gpu then (op a.dtype a.data).map fun r => ⟨.gpu, r.1, r.2⟩
  else if a.device = .cpu then (op a.dtype a.data).map fun r => ⟨.cpu, r.1, r.2⟩
  else .error .type

/-- What `key` is in `index`: one number, or an array of numbers on a device. -/
inductive Key where
  | one (n : Nat)
  | array (d : Device) (ks : List Nat)

/-- The type of a key, as `to_type`. -/
def Key.type : Key → To
  | .one _ => .other
  | .array .cpu _ => .numpy
  | .array .gpu _ => .other

/-- `a[key]` for an array of indices along the first axis. -/
def take (a : Arr V) (ks : List Nat) : Except Fault (Arr V) :=
  match a.data.shape with
  | [] => .error .index
  | n :: rest =>
    match a.device with
    | .cpu =>
      if ks.all (· < n) then
        .ok ⟨.cpu, a.dtype, ⟨ks.length :: rest, fun i => a.data.get ((ks[i.headD 0]?).getD 0 :: i.tail)⟩⟩
      else .error .index
    | .gpu =>
      .ok ⟨.gpu, a.dtype, ⟨ks.length :: rest, fun i => a.data.get ((ks[i.headD 0]?).getD 0 % n :: i.tail)⟩⟩

/-- `a[key]` for one index along the first axis. -/
def takeOne (a : Arr V) (k : Nat) : Except Fault (Arr V) :=
  match a.data.shape with
  | [] => .error .index
  | n :: rest =>
    if k < n then .ok ⟨a.device, a.dtype, ⟨rest, fun i => a.data.get (k :: i)⟩⟩ else .error .index

/-- `index`, 461-462. -/
def index (cp : Bool) (cast : Nat → V → V) (o : Obj V) (key : Key) : Except Fault (Arr V) := do
  let a ← asarray cp cast o key.type none
  match key with
  | .one k => takeOne a k
  | .array _ ks => take a ks

/-- `xp.stack(arrays, axis)` for arrays of a library's device. -/
def libStack (dev : Device) (l : List (Arr V)) (axis : Nat) : Except Fault (Arr V) :=
  match l with
  | [] => .error .value
  | a :: _ =>
    if l.any (fun b => b.device != dev) then .error .type
    else if l.any (fun b => b.data.shape != a.data.shape) then .error .value
    else if axis > a.data.shape.length then .error .index
    else .ok ⟨dev, a.dtype, ⟨a.data.shape.insertIdx axis l.length, fun i =>
      match l[(i[axis]?).getD 0]? with
      | some b => b.data.get (i.eraseIdx axis)
      | none => a.data.get (i.eraseIdx axis)⟩⟩

/-- `stack`, 507-512: the library is that of the first array. -/
def stack (cp : Bool) (l : List (Arr V)) (axis : Nat) : Except Fault (Arr V) :=
  match l with
  | [] => .error .index
  | a :: _ => libStack (if cp && a.device == .gpu then .gpu else .cpu) l axis

/-! ### `ndsl/stencils/testing/translate.py` -/

/-- `read_serialized_data`, 19-23: what is made of the data that was read. -/
def readSerialized (d : Nd V) : Except Fault (Nd V) :=
  if d.shape.foldl (· * ·) 1 = 1 then
    match d.shape with
    | [] => .error .index
    | _ :: rest => .ok ⟨rest, fun i => d.get (0 :: i)⟩
  else .ok d

/-- `np.tile(a, reps)`: the shape is filled up with ones in front, or `reps` is. -/
def tile (reps : List Nat) (a : Nd V) : Nd V :=
  let fill := List.replicate (reps.length - a.shape.length) 1
  let s := fill ++ a.shape
  let r := List.replicate (s.length - reps.length) 1 ++ reps
  ⟨List.zipWith (· * ·) r s, fun i => a.get ((List.zipWith (· % ·) i s).drop fill.length)⟩

/-- `a.transpose(1, 0, 2)` -/
def transpose102 (a : Nd V) : Except Fault (Nd V) :=
  match a.shape with
  | [x, y, z] => .ok ⟨[y, x, z], fun i =>
    match i with
    | [p, q, r] => a.get [q, p, r]
    | i => a.get i⟩
  | _ => .error .value

/-- `field[:, 0, :]` -/
def firstRow (a : Nd V) : Except Fault (Nd V) :=
  match a.shape with
  | x :: y :: z =>
    if z = [] then .error .index
    else if y = 0 then .error .index
    else .ok ⟨x :: z, fun i => match i with
      | p :: r => a.get (p :: 0 :: r)
      | [] => a.get []⟩
  | _ => .error .index

/-- `pad_field_in_j`, 26-29. -/
def padField (cp : Bool) (field : Arr V) (nj : Nat) : Except Fault (Arr V) := do
  let row ← firstRow field.data
  let t ← viaLibrary cp (fun t d => .ok (t, tile [nj, 1, 1] d)) ⟨field.device, field.dtype, row⟩
  let d ← transpose102 t.data
  return ⟨t.device, t.dtype, d⟩

/-- What `as_numpy` is given, apart from a dictionary. -/
inductive Val (V : Type) where
  | quantity (data : Arr V)
  | array (a : Arr V)
  | thing

/-- `_convert` in `as_numpy`, 35-43: `value[:]` of a quantity is its whole array. -/
def toNumpy (cp : Bool) : Val V → Except Fault (Arr V)
  | .quantity a => .ok a
  | .array a =>
    if a.device = .cpu then .ok a
    else if cp then .ok ⟨.cpu, a.dtype, a.data⟩ else .error .type
  | .thing => .error .type

/-- `as_numpy` of a dictionary, 45-46. -/
def dictToNumpy (cp : Bool) (l : List (String × Val V)) : Except Fault (List (String × Arr V)) :=
  l.mapM fun e => (toNumpy cp e.2).map fun a => (e.1, a)

end NDSL.ArrayLib
