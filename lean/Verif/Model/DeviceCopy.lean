import Verif.Model.StorageData
/-
Model of the helpers for arrays in main memory and on a GPU, `ndsl/utils.py`: `safe_assign_array` (65-82) and
`safe_mpi_allocate` (91-117).

Simplifications: numpy and CuPy refuse to assign between devices with a `TypeError`, and otherwise assign in the same way (the
model of numpy's assignment is that of `StorageData.lean`); data types are left out. CuPy's allocator is a number, that of the
default pool is 0; an allocation fails if the memory does not suffice, which is a parameter of each call.
-/
namespace NDSL.DeviceCopy

open NDSL.Storage

variable {V : Type}

inductive Device where
  | cpu
  | gpu
  deriving DecidableEq

/-- An array and where it is. -/
structure Arr (V : Type) where
  device : Device
  data : Nd V

/-- `to_array[:] = from_array` -/
def rawAssign (dst src : Arr V) : Except Err (Arr V) :=
  if dst.data.shape = [] then .error .indexError
  else if dst.device = src.device then
    match assign dst.data [] src.data with
    | .ok d => .ok ⟨dst.device, d⟩
    | .error e => .error e
  else .error .typeError

/-- `safe_assign_array`, 65-82: the new value of `to_array`; `cp` tells whether there is CuPy. -/
def safeAssign (cp : Bool) (dst src : Arr V) : Except Err (Arr V) :=
  match rawAssign dst src with
  | .ok r => .ok r
  | .error e =>
    if e = .valueError ∨ e = .typeError then
      if cp && dst.device == .gpu then rawAssign dst ⟨.gpu, src.data⟩
      else if cp && src.device == .gpu then rawAssign dst ⟨.cpu, src.data⟩
      else .error e
    else .error e

/-- What allocates: `cupy.empty` or `cupy.zeros`, or something else, which makes an array in main memory or on the GPU. -/
inductive Maker where
  | cupy
  | other (d : Device)
  deriving DecidableEq

/-- An array that was made: where, and on a GPU by which allocator. -/
structure Made where
  device : Device
  by_ : Nat
  deriving DecidableEq

/-- CuPy's allocator in use. -/
abbrev St := Nat

/-- `safe_mpi_allocate`, 91-117: `enough` tells whether the memory suffices, `debug` is `__debug__`. -/
def safeAlloc (cp debug : Bool) (s : St) (m : Maker) (enough : Bool) : St × Except Err Made :=
  if cp && decide (m = .cupy) then
    let original := s
    let s := 0
    if enough then (original, .ok ⟨.gpu, s⟩) else (s, .error .runtimeError)
  else
    if enough then
      match m with
      | .other .cpu => (s, .ok ⟨.cpu, s⟩)
      | _ => if debug && cp then (s, .error .runtimeError) else (s, .ok ⟨.gpu, s⟩)
    else (s, .error .runtimeError)

/-- What a program does: set the allocator, or make an array. -/
inductive Op where
  | set (a : Nat)
  | make (m : Maker) (enough : Bool)

/-- The allocator and all arrays made, in order. -/
def run (cp debug : Bool) : List Op → St × List Made → St × List Made
  | [], w => w
  | .set a :: l, w => run cp debug l (a, w.2)
  | .make m e :: l, w =>
    let r := safeAlloc cp debug w.1 m e
    run cp debug l (r.1, match r.2 with
      | .ok x => w.2 ++ [x]
      | .error _ => w.2)

end NDSL.DeviceCopy
