import Verif.Model.Gpu
import Verif.Spec.NDArray

/-
Specification vocabulary for quantities in device memory.
-/
namespace NDSL

/-- `sum of index times stride` as a recursive sum -/
def bytes : List Int → List Int → Int
  | i :: is, s :: ss => i * s + bytes is ss
  | _, _ => 0

/-- The element of the array at `idx` is the element of memory at byte `Σ idx * stride`: strides are whole
elements, and every index of the array is inside the memory. -/
structure InMemory {α : Type} (g : GQty α) : Prop where
  item : 0 < g.itemsize
  shape : g.q.data.shape = g.q.ds.map DimSpec.shape
  strides : g.strides.length = g.q.ds.length
  whole : ∀ s ∈ g.strides, ∃ e, s = e * g.itemsize
  holds : ∀ idx, InShape g.q.data.shape idx → ∃ e : Nat, bytes idx g.strides = e * g.itemsize ∧
    g.mem[e]? = some (g.q.data.get idx)

/-- different indices are at different places -/
def NoOverlap {α : Type} (g : GQty α) : Prop :=
  ∀ idx idx', InShape g.q.data.shape idx → InShape g.q.data.shape idx' →
    bytes idx g.strides = bytes idx' g.strides → idx = idx'

/-- a region inside an array, one slice per dimension -/
def InsideArr (ds : List DimSpec) (sl : List Slice) : Prop :=
  List.Forall₂ (fun d s => 0 ≤ s.start ∧ s.start ≤ s.stop ∧ s.stop ≤ d.shape) ds sl

/-- After the threads have run in this order, without a fault, the device memory holds the quantity `q'`,
and memory that is not part of the array is untouched. -/
def DeviceHolds {α : Type} (g : GQty α) (q' : Qty α) (sched : List (Thread α)) : Prop :=
  ∃ mem', runThreads sched g.mem = some mem' ∧
    InMemory { g with q := q', mem := mem' } ∧ mem'.length = g.mem.length ∧
    ∀ e : Nat, (∀ idx, InShape g.q.data.shape idx → bytes idx g.strides ≠ e * g.itemsize) →
      mem'[e]? = g.mem[e]?

/-- the components of a vector quantity have their x- and y-type dimensions at the same positions -/
def SameAxes (dx dy : List Dim) : Prop :=
  dx.map Dim.isI = dy.map Dim.isI ∧ dx.map Dim.isJ = dy.map Dim.isJ

end NDSL
