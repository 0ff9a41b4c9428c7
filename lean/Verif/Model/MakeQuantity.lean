import Verif.Model.Sizer
import Verif.Model.StorageData
/-
Model of making quantities: `Quantity.__init__` (`ndsl/quantity/quantity.py` 31-145) and the methods of
`QuantityFactory` that allocate (`ndsl/initialization/allocator.py` 60-242).

Arrays live in a list of objects and are known by their place in it, so that sharing can be told from copying.
What GT4Py does with the axis labels it is given (the order in memory, the alignment) is an unknown function of
the array and the labels; what it allocates is a new object with the values asked for. Conversions between
types of numbers, of negative origins, and between CPU and GPU memory in `asarray` are not modelled.
-/
namespace NDSL.MakeQuantity

open NDSL.Storage

variable {V : Type}

/-- The class of an array: `np.ndarray`, `cupy.ndarray`, or another one with a shape and a type of numbers. -/
inductive Lib where
  | numpy | cupy | other
  deriving DecidableEq

/-- An array in memory. -/
structure Obj (V : Type) where
  arr : Nd V
  dtype : String
  lib : Lib

/-- What GT4Py is told about an axis: `"I"`, `"J"`, `"K"` or `None`, or its length. -/
inductive Label where
  | axis (name : Option String)
  | size (n : Nat)
  deriving DecidableEq

/-- `dim in axis_dims` for two strings: is the one a part of the other? -/
def isPart (a : List Char) : List Char → Bool
  | [] => a == []
  | c :: b => a.isPrefixOf (c :: b) || isPart a b

/-- `SPATIAL_DIMS`, `constants.py` 39-54. -/
def spatialNames : List String := ["i", "i_interface", "j", "j_interface", "k", "k_interface"]

/-- The name of a dimension, `constants.py` 39-45 and 57. -/
def dimName : Dim → String
  | .i => "i" | .iInterface => "i_interface" | .j => "j" | .jInterface => "j_interface" | .k => "k"
  | .kInterface => "k_interface" | .kSoil => "k_soil" | .tile => "tile" | .other s => s

/-- Entry `index` of `("I", "J", "K", None, ...)`. -/
def axisAt : Nat → Option String
  | 0 => some "I" | 1 => some "J" | 2 => some "K" | _ => none

/-- The labels of the axes, `quantity.py` 94-106 and `allocator.py` 178-187. -/
def labels (dims : List Dim) (shape : List Nat) : List Label :=
  dims.mapIdx fun index dim =>
    if spatialNames.any fun a => isPart (dimName dim).toList a.toList then .axis (axisAt index) else .size (shape.getD index 0)

/-- What is outside of the code: whether GT4Py finds the memory order of the object at a place good for a backend and
labels, which backends use the GPU, the configured precision, the types that are floating point (`is_float`), and the
values of uninitialised memory. -/
structure Env (V : Type) where
  optimal : Nat → String → List Label → Bool
  gpu : String → Bool
  Float : String
  floats : List String
  zero : V
  one : V
  junk : List Nat → V

/-- The arguments of the constructor but `data`. -/
structure Args where
  dims : List Dim
  units : String
  backend : String
  origin : Option (List Int) := none
  extent : Option (List Int) := none
  allow : Bool := false
  halo : Int := 0

/-- A quantity: the place of its array, and its metadata. -/
structure Qty where
  ref : Nat
  dims : List Dim
  units : String
  backend : String
  origin : List Int
  extent : List Int
  halo : Int
  dtype : String
  deriving DecidableEq

/-- `gt_storage.from_array` of a backend: a new object with the values of another. -/
def backendLib (env : Env V) (backend : String) : Lib := if env.gpu backend then .cupy else .numpy

/-- `Quantity.__init__`, 31-145, for the object at place `ref`. -/
def create (env : Env V) (heap : List (Obj V)) (ref : Nat) (a : Args) : Except Err (List (Obj V) × Qty) :=
  match heap[ref]? with
  | none => .error .typeError
  | some data =>
    -- 65-73
    if !a.allow && env.floats.contains data.dtype && data.dtype != env.Float then .error .valueError
    else
      -- 74-82
      let origin := a.origin.getD (List.replicate a.dims.length 0)
      let extent := a.extent.getD (List.zipWith (fun (length : Nat) (start : Int) => (length : Int) - start) data.arr.shape origin)
      -- 84-87
      if data.lib = .other then .error .typeError
      -- 89, 495-506
      else if a.dims.length ≠ data.arr.shape.length ∨ origin.length ≠ data.arr.shape.length ∨
          extent.length ≠ data.arr.shape.length then .error .valueError
      else
        -- 91-130
        let rightDevice := data.lib == backendLib env a.backend
        let q : Nat → Qty := fun r => ⟨r, a.dims, a.units, a.backend, origin, extent, a.halo, data.dtype⟩
        if env.optimal ref a.backend (labels a.dims data.arr.shape) && rightDevice then .ok (heap, q ref)
        else .ok (heap ++ [⟨data.arr, data.dtype, backendLib env a.backend⟩], q heap.length)

/-- The slices of the compute domain, `bounds.py` 147-166: `origin` to `origin + extent`. -/
def Qty.slices (q : Qty) : List (Nat × Nat) := List.zipWith (fun o e => (o.toNat, (o + e).toNat)) q.origin q.extent

/-- `a[lo0:hi0, lo1:hi1, ...]` -/
def readSlices (a : Nd V) (slices : List (Nat × Nat)) : Except Err (Nd V) :=
  match regions a.shape slices with
  | none => .error .indexError
  | some rs => .ok ⟨rs.map (·.2), fun idx => a.get (List.zipWith (fun i (r : Nat × Nat) => r.1 + i) idx rs)⟩

/-- `Quantity.field`, `quantity.py` 272-274. -/
def Qty.field (q : Qty) (heap : List (Obj V)) : Except Err (Nd V) :=
  match heap[q.ref]? with
  | none => .error .typeError
  | some o => readSlices o.arr q.slices

/-- `QuantityFactory`, `allocator.py` 16-28. -/
structure Factory where
  sizer : Sizer
  backend : String

/-- `_allocate`, 171-208; `values` is what the allocator of GT4Py fills in. -/
def allocateQty (env : Env V) (f : Factory) (heap : List (Obj V)) (values : List Nat → V) (dims : List Dim) (units dtype : String)
    (allow : Bool) : Except Err (List (Obj V) × Qty) := do
  let a ← allocate f.sizer dims
  if a.shape.any (decide <| · < 0) then .error .valueError
  else
    create env (heap ++ [⟨⟨a.shape.map Int.toNat, values⟩, dtype, backendLib env f.backend⟩]) heap.length
      { dims := dims, units := units, backend := f.backend, origin := some a.origin, extent := some a.extent, allow := allow,
        halo := f.sizer.nHalo }

/-- `empty`, 60-73. -/
def empty (env : Env V) (f : Factory) (heap : List (Obj V)) (dims : List Dim) (units dtype : String) (allow : Bool) :=
  allocateQty env f heap env.junk dims units dtype allow

/-- `zeros`, 75-88. -/
def zeros (env : Env V) (f : Factory) (heap : List (Obj V)) (dims : List Dim) (units dtype : String) (allow : Bool) :=
  allocateQty env f heap (fun _ => env.zero) dims units dtype allow

/-- `ones`, 90-103. -/
def ones (env : Env V) (f : Factory) (heap : List (Obj V)) (dims : List Dim) (units dtype : String) (allow : Bool) :=
  allocateQty env f heap (fun _ => env.one) dims units dtype allow

/-- `q[:] = value`, `quantity.py` 353-355, or `q.view[:] = value`, `bounds.py` 144-166, where `slices` are those of the compute
domain: both raise for an array without axes. -/
def write (heap : List (Obj V)) (q : Qty) (slices : List (Nat × Nat)) (value : Nd V) : Except Err (List (Obj V)) :=
  match heap[q.ref]? with
  | none => .error .typeError
  | some o =>
    if o.arr.shape = [] then .error .indexError
    else do
    let arr ← assign o.arr slices value
    return heap.set q.ref { o with arr := arr }

/-- `full`, 105-126: `value` is a number or an array. -/
def full (env : Env V) (f : Factory) (heap : List (Obj V)) (dims : List Dim) (units : String) (value : Nd V) (dtype : String)
    (allow : Bool) : Except Err (List (Obj V) × Qty) := do
  let (heap, q) ← allocateQty env f heap env.junk dims units dtype allow
  let heap ← write heap q [] value
  return (heap, q)

/-- `from_array`, 128-149, of the array at place `data`. -/
def fromArray (env : Env V) (f : Factory) (heap : List (Obj V)) (data : Nat) (dims : List Dim) (units : String) (allow : Bool) :
    Except Err (List (Obj V) × Qty) :=
  match heap[data]? with
  | none => .error .typeError
  | some d => do
    let (heap, base) ← zeros env f heap dims units d.dtype allow
    let heap ← write heap base [] d.arr
    return (heap, base)

/-- `from_compute_array`, 151-169 -/
def fromComputeArray (env : Env V) (f : Factory) (heap : List (Obj V)) (data : Nat) (dims : List Dim) (units : String)
    (allow : Bool) : Except Err (List (Obj V) × Qty) :=
  match heap[data]? with
  | none => .error .typeError
  | some d => do
    let (heap, base) ← zeros env f heap dims units d.dtype allow
    let heap ← write heap base base.slices d.arr
    return (heap, base)

/-- What a halo specification says, but for strides and item size (`quantity.py` 201-220). -/
structure HaloSpec where
  points : Int
  shape : List Nat
  origin : List Int
  extent : List Int
  dims : List Dim
  dtype : String
  deriving DecidableEq

/-- `Quantity.halo_spec`, `quantity.py` 201-220. -/
def Qty.haloSpec (q : Qty) (heap : List (Obj V)) (points : Int) : Except Err HaloSpec :=
  match heap[q.ref]? with
  | none => .error .typeError
  | some o => if points > q.halo then .error .valueError else .ok ⟨points, o.arr.shape, q.origin, q.extent, q.dims, q.dtype⟩

/-- `get_quantity_halo_spec`, `allocator.py` 210-242: the temporary quantity is dropped. -/
def haloSpec (env : Env V) (f : Factory) (heap : List (Obj V)) (dims : List Dim) (points : Option Int) (dtype : String) :
    Except Err HaloSpec := do
  let (heap, temp) ← zeros env f heap dims "" dtype false
  temp.haloSpec heap (points.getD f.sizer.nHalo)

end NDSL.MakeQuantity
