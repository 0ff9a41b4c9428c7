import Verif.Model.BoundarySlice

/-
n-dimensional arrays with NumPy semantics, and the model of `ndsl/halo/rotate.py`.

An array is a shape and a function from index lists to values; only indices inside the shape are
meaningful. Views (`rot90`, `flip`, slicing) are index maps.
-/
namespace NDSL

/-- a NumPy array -/
structure NArr (α : Type) where
  shape : List Int
  get : List Int → α

namespace NArr

variable {α β : Type}

/-- entry of an index list / shape -/
abbrev ent (l : List Int) (a : Nat) : Int := l.getD a 0

/-- exchange entries `a` and `b` -/
def swapEnt (l : List Int) (a b : Nat) : List Int := (l.set a (ent l b)).set b (ent l a)

/-- `numpy.flip(m, axis=a)`: `out[.., i, ..] = m[.., n-1-i, ..]`. -/
def flip (m : NArr α) (a : Nat) : NArr α where
  shape := m.shape
  get idx := m.get (idx.set a (ent m.shape a - 1 - ent idx a))

/-- `numpy.swapaxes` / `transpose` exchanging two axes. -/
def swapAxes (m : NArr α) (a b : Nat) : NArr α where
  shape := swapEnt m.shape a b
  get idx := m.get (swapEnt idx a b)

/-- `numpy.rot90(m, axes=(a, b))` (k = 1), defined by NumPy as `transpose(flip(m, b), a<->b)`. -/
def rot90 (m : NArr α) (a b : Nat) : NArr α := (m.flip b).swapAxes a b

/-- elementwise map (`-data`) -/
def map (f : α → β) (m : NArr α) : NArr β := ⟨m.shape, fun idx => f (m.get idx)⟩

/-- index tuples of a shape in C (row-major) order -/
def indices : List Int → List (List Int)
  | [] => [[]]
  | n :: ns => (List.range n.toNat).flatMap fun (i : Nat) => (indices ns).map ((i : Int) :: ·)

/-- `a.flatten()` (C order) -/
def flatten (m : NArr α) : List α := (indices m.shape).map m.get

/-- number of elements of a shape -/
def size : List Int → Int
  | [] => 1
  | n :: ns => n * size ns

/-- row-major position of an index tuple -/
def flatIndex : List Int → List Int → Int
  | _ :: ns, i :: is => i * size ns + flatIndex ns is
  | _, _ => 0

/-- `numpy.reshape(l, shape, order="C")` of a one-dimensional array; `ValueError` unless the sizes
agree. -/
def reshape [Inhabited α] (l : List α) (shape : List Int) : Except Err (NArr α) :=
  if (l.length : Int) = size shape then
    .ok ⟨shape, fun idx => l.getD (flatIndex shape idx).toNat default⟩
  else .error .valueError

/-- basic slicing `m[slices]` by slices inside the array -/
def slice (m : NArr α) (sl : List Slice) : NArr α where
  shape := sl.map fun s => max 0 (s.stop - s.start)
  get idx := m.get (List.zipWith (fun s i => s.start + i) sl idx)

/-- decision whether an index is inside a slice tuple -/
def inSlices : List Slice → List Int → Bool
  | [], [] => true
  | s :: ss, i :: is => decide (s.start ≤ i ∧ i < s.stop) && inSlices ss is
  | _, _ => false

/-- `m[slices] = v` for `v` of the shape of the region. -/
def assign (m : NArr α) (sl : List Slice) (v : NArr α) : NArr α where
  shape := m.shape
  get idx := if inSlices sl idx then v.get (List.zipWith (fun s i => i - s.start) sl idx)
    else m.get idx

end NArr

/-! ### `ndsl/halo/rotate.py` -/

/-- The loop of `rotate_scalar_data` 9-14: the last position holding a dim satisfying `p`
(positions counted from `k`). -/
def lastPos (p : Dim → Bool) : List Dim → Nat → Option Nat → Option Nat
  | [], _, acc => acc
  | d :: ds, k, acc => lastPos p ds (k + 1) (if p d then some k else acc)

/-- `x_dim`, `y_dim` of `rotate_scalar_data`, 9-14. -/
def xDim (dims : List Dim) : Option Nat := lastPos Dim.isI dims 0 none
def yDim (dims : List Dim) : Option Nat := lastPos (fun d => !d.isI && d.isJ) dims 0 none

/-- reversing every horizontal axis, `rotate_scalar_data` 27-33 -/
def flipHorizontal {α : Type} (dims : List Dim) (m : NArr α) : NArr α where
  shape := m.shape
  get idx := m.get (((dims.zip m.shape).zip idx).map fun ((d, n), i) =>
    if d.isHorizontal then n - 1 - i else i)

/-- `rotate_scalar_data`, `ndsl/halo/rotate.py` 4-34. -/
def rotateScalar {α : Type} (dims : List Dim) (k : Int) (m : NArr α) : NArr α :=
  let k := k % 4
  if k = 0 then m
  else if k = 2 then flipHorizontal dims m
  else
    match xDim dims, yDim dims with
    | some x, some y => if k = 1 then m.rot90 y x else m.rot90 x y
    | some x, none => if k = 1 then m.flip x else m
    | none, some y => if k = 3 then m.flip y else m
    | none, none => m

/-- `rotate_vector_data`, `ndsl/halo/rotate.py` 37-50. -/
def rotateVector {α : Type} [Neg α] (dims : List Dim) (k : Int) (u v : NArr α) : NArr α × NArr α :=
  let u := rotateScalar dims k u
  let v := rotateScalar dims k v
  let k := k % 4
  if k = 0 then (u, v)
  else if k = 1 then (v, u.map (- ·))
  else if k = 2 then (u.map (- ·), v.map (- ·))
  else (v.map (- ·), u)

end NDSL
