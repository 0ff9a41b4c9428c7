import Verif.Model.Basic
import Verif.Model.StateTransfer
/-
Model of `make_storage_data` and `make_storage_dict` with their helpers in `ndsl/dsl/gt4py_utils.py`: which array,
aligned index and dimensions are handed to gt4py.

Simplifications: data types, backends and devices are left out (`asarray` is the identity); starts, axes and dummies are
not negative; a storage is the list of arguments of `gt_storage.from_array`, which copies them. numpy's operations are
modelled for arrays of any rank: slices are cut off at the end of an axis, an assignment broadcasts axes of size one and
missing leading axes. A failed `assert` is a `runtimeError`.
-/
namespace NDSL.Storage

variable {V : Type}

/-- An array: defined for lists of as many indices as `shape` has entries, each below its entry. -/
structure Nd (V : Type) where
  shape : List Nat
  get : List Nat → V

def fromOpt {α : Type} (e : Err) : Option α → Except Err α
  | some x => .ok x
  | none => .error e

/-- `np.zeros(shape)` -/
def zeros (z : V) (shape : List Nat) : Nd V := ⟨shape, fun _ => z⟩

/-- What slices `lo:hi` of the first axes select: a start and a length for every axis; `none` for too many slices. -/
def regions : List Nat → List (Nat × Nat) → Option (List (Nat × Nat))
  | ns, [] => some (ns.map fun n => (0, n))
  | [], _ :: _ => none
  | n :: ns, s :: ss => (regions ns ss).map ((min s.1 n, min s.2 n - min s.1 n) :: ·)

/-- Is an index in the selection? -/
def within : List (Nat × Nat) → List Nat → Bool
  | [], [] => true
  | r :: rs, i :: is => decide (r.1 ≤ i) && decide (i < r.1 + r.2) && within rs is
  | _, _ => false

/-- Can an array of shape `s` be assigned to a selection with lengths `r`, both of the same rank? -/
def fits : List Nat → List Nat → Bool
  | [], [] => true
  | s :: ss, r :: rs => (s == r || s == 1) && fits ss rs
  | _, _ => false

/-- `a[lo0:hi0, lo1:hi1, ...] = d` -/
def assign (a : Nd V) (slices : List (Nat × Nat)) (d : Nd V) : Except Err (Nd V) :=
  match regions a.shape slices with
  | none => .error .indexError
  | some rs =>
    let lens := rs.map (·.2)
    let lead := d.shape.length - lens.length
    let core := d.shape.drop lead
    if (d.shape.take lead).all (· == 1) && fits core (lens.drop (lens.length - core.length)) then
      .ok ⟨a.shape, fun idx =>
        if within rs idx then
          let off := List.zipWith (fun i (r : Nat × Nat) => i - r.1) idx rs
          let off := off.drop (lens.length - core.length)
          d.get (List.replicate lead 0 ++ List.zipWith (fun i s => if s = 1 then 0 else i) off core)
        else a.get idx⟩
    else .error .valueError

/-- `a[..., np.newaxis, ...]` with the new axis at `k` -/
def newaxis (a : Nd V) (k : Nat) : Nd V := ⟨a.shape.take k ++ 1 :: a.shape.drop k, fun idx => a.get (idx.eraseIdx k)⟩

/-- `np.repeat(a, m, axis=k)` -/
def repeatAxis (a : Nd V) (m k : Nat) : Nd V := ⟨a.shape.modify k (· * m), fun idx => a.get (idx.modify k (· / m))⟩

/-- `np.tile(a, reps)` for at least as many `reps` as axes. -/
def tile (a : Nd V) (reps : List Nat) : Nd V :=
  let full := List.replicate (reps.length - a.shape.length) 1 ++ a.shape
  ⟨List.zipWith (· * ·) full reps, fun idx =>
    a.get ((List.zipWith (· % ·) idx full).drop (reps.length - a.shape.length))⟩

/-- `np.moveaxis(a, 2, k)` for an array of rank 3. -/
def moveLast (a : Nd V) (k : Nat) : Nd V :=
  ⟨(a.shape.take 2).take k ++ a.shape.getD 2 0 :: (a.shape.take 2).drop k, fun idx => a.get (idx.eraseIdx k ++ [idx.getD k 0])⟩

/-- The place of an index in memory, row by row. -/
def flat : List Nat → List Nat → Nat
  | _ :: ns, i :: is => i * ns.prod + flat ns is
  | _, _ => 0

/-- The index of a place in memory. -/
def unflat : List Nat → Nat → List Nat
  | [], _ => []
  | _ :: ns, p => p / ns.prod :: unflat ns (p % ns.prod)

/-- `a.reshape(shape)` -/
def reshape (a : Nd V) (shape : List Nat) : Except Err (Nd V) :=
  if a.shape.prod = shape.prod then .ok ⟨shape, fun idx => a.get (unflat a.shape (flat shape idx))⟩ else .error .valueError

/-- `np.squeeze(a)` -/
def squeeze (a : Nd V) : Nd V :=
  let expand := fun (idx : List Nat) => (a.shape.foldl (fun (acc : List Nat × List Nat) n =>
    if n = 1 then (acc.1 ++ [0], acc.2) else (acc.1 ++ [acc.2.headD 0], acc.2.tail)) ([], idx)).1
  ⟨a.shape.filter (· != 1), fun idx => a.get (expand idx)⟩

/-- Dimensions of a storage; a data dimension is its size as a text. -/
inductive SDim where
  | I
  | J
  | K
  | data (n : Nat)
deriving DecidableEq

/-- `_mask_to_dimensions`, 53-63. -/
def maskToDims (mask : List Bool) (shape : List Nat) : Except Err (List SDim) :=
  if mask.length < 3 then .error .runtimeError else do
    let first := (List.zip mask [SDim.I, SDim.J, SDim.K]).filterMap fun p => if p.1 then some p.2 else none
    let more ← (((List.range mask.length).drop 3).filter fun i => mask.getD i false).mapM fun i =>
      fromOpt .indexError (shape[i]?.map SDim.data)
    return first ++ more

/-- `_translate_origin`, 66-78. -/
def translateOrigin (origin : List Nat) (mask : List Bool) : Except Err (List Nat) :=
  if origin.length = mask.count true then .ok origin
  else if mask.length ≠ 3 then .error .runtimeError
  else do
    let first ← ((List.range 3).filter fun i => mask.getD i false).mapM fun i => fromOpt .indexError origin[i]?
    return first ++ origin.drop mask.length

/-- The arguments of `make_storage_data`. -/
structure Args where
  shape : Option (List Nat) := none
  origin : List Nat := [3, 3, 0]
  mask : Option (List Bool) := none
  start : List Nat := [0, 0, 0]
  dummy : Option (List Nat) := none
  axis : Nat := 2
  maxDim : Nat := 3
  readOnly : Bool := true

/-- The truth value of `dummy`. -/
def hasDummy : Option (List Nat) → Bool
  | some (_ :: _) => true
  | _ => false

/-- The first axis that is not a dummy, 213-214. -/
def freeAxis (dummy : List Nat) : Except Err Nat := fromOpt .indexError ([0, 1, 2].filter fun i => !dummy.contains i).head?

/-- `_make_storage_data_1d`, 213-231, after the data has been copied. -/
def spread1 (shape : List Nat) (axis : Nat) (readOnly : Bool) (b : Nd V) : Except Err (Nd V) :=
  if readOnly then
    if axis = 1 then reshape b [1, b.shape.headD 0] else .ok b
  else
    if shape.length ≤ axis then .error .indexError
    else if axis = 2 then .ok (tile b (shape.set axis 1))
    else if axis = 1 then do
      let n0 ← fromOpt .indexError shape[0]?
      let x := repeatAxis (newaxis b 0) n0 0
      let n2 ← fromOpt .indexError shape[2]?
      return repeatAxis (newaxis x 2) n2 2
    else do
      let n1 ← fromOpt .indexError shape[1]?
      let y := repeatAxis (newaxis b 1) n1 1
      let n2 ← fromOpt .indexError shape[2]?
      return repeatAxis (newaxis y 2) n2 2

/-- `_make_storage_data_1d`, 196-231. -/
def data1 (z : V) (d : Nd V) (shape start : List Nat) (dummy : Option (List Nat)) (axis : Nat) (readOnly : Bool) :
    Except Err (Nd V) := do
  let axis := min axis (shape.length - 1)
  let n ← fromOpt .indexError shape[axis]?
  let axis ← if hasDummy dummy then freeAxis (dummy.getD []) else .ok axis
  let k ← fromOpt .indexError start[2]?
  let len := d.shape.headD 0
  let b ← assign (zeros z [n]) [(k, k + len)] d
  spread1 shape axis readOnly b

/-- `_make_storage_data_2d`, 234-270. -/
def data2 (z : V) (d : Nd V) (shape start : List Nat) (dummy : Option (List Nat)) (axis : Nat) (readOnly : Bool) :
    Except Err (Nd V) := do
  let doReshape := hasDummy dummy || axis != 2
  let shape2 := if doReshape then shape.eraseIdx (if hasDummy dummy then (dummy.getD []).headD 0 else axis) else shape.take 2
  match start.take 2, d.shape with
  | [s1, s2], [n1, n2] =>
    let b ← assign (zeros z shape2) [(s1, s1 + n1), (s2, s2 + n2)] d
    if readOnly then if doReshape then reshape b shape else .ok b
    else do
      let m ← fromOpt .indexError shape[axis]?
      let b := repeatAxis (newaxis b 2) m 2
      if axis ≠ 2 then .ok (moveLast b axis) else .ok b
  | _, _ => .error .valueError

/-- `_make_storage_data_3d`, 273-290. -/
def data3 (z : V) (d : Nd V) (shape start : List Nat) : Except Err (Nd V) :=
  match start, d.shape with
  | [i, j, k], [ni, nj, nk] => assign (zeros z shape) [(i, i + ni), (j, j + nj), (k, k + nk)] d
  | _, _ => .error .valueError

/-- `_make_storage_data_Nd`, 293-306. -/
def dataN (z : V) (d : Nd V) (shape start : List Nat) : Except Err (Nd V) :=
  if d.shape.length < start.length then .error .indexError
  else assign (zeros z shape) (List.zipWith (fun s n => (s, s + n)) start d.shape) d

/-- What gt4py is given. -/
structure Made (V : Type) where
  array : Nd V
  aligned : List Nat
  dims : List SDim

/-- The mask and the shape that are used if no mask is given, 132-147. -/
def defaultMask (nDims : Nat) (shape : List Nat) (a : Args) : Except Err (List Bool × List Nat) :=
  if !a.readOnly then .ok ([true, true, true], shape)
  else if nDims = 1 then
    if a.axis = 1 then do
      let n ← fromOpt .indexError shape[a.axis]?
      return ([true, true, false], [1, n])
    else .ok ((List.range a.maxDim).map (· == a.axis), shape)
  else if hasDummy a.dummy || a.axis != 2 then .ok ([true, true, true], shape)
  else .ok (List.replicate nDims true ++ List.replicate (a.maxDim - nDims) false, shape)

/-- The mask and the shape, 132-148. -/
def maskAndShape (nDims : Nat) (shape : List Nat) (a : Args) : Except Err (List Bool × List Nat) :=
  match a.mask with
  | some m => .ok (m, shape)
  | none => defaultMask nDims shape a

/-- The choice by the rank of the data, 150-183. -/
def dataAny (z : V) (d : Nd V) (shape : List Nat) (a : Args) : Except Err (Nd V) :=
  if d.shape.length = 1 then data1 z d shape a.start a.dummy a.axis a.readOnly
  else if d.shape.length = 2 then data2 z d shape a.start a.dummy a.axis a.readOnly
  else if 4 ≤ d.shape.length then dataN z d shape a.start
  else data3 z d shape a.start

/-- `make_storage_data`, 81-193. -/
def makeStorageData (z : V) (d : Nd V) (a : Args) : Except Err (Made V) := do
  let ms ← maskAndShape d.shape.length (a.shape.getD d.shape) a
  let b ← dataAny z d ms.2 a
  let al ← translateOrigin a.origin ms.1
  let dims ← maskToDims ms.1 b.shape
  return ⟨b, al, dims⟩

/-- `make_storage_dict`, 354-383: `data[:, :, :, i]` for an array of rank 4. -/
def makeStorageDict (z : V) (d : Nd V) (names : List String) (a : Args) : Except Err (List (String × Made V)) := do
  let n ← fromOpt .indexError d.shape[3]?
  (List.range n).foldlM (fun dict i => do
    let name ← fromOpt .indexError names[i]?
    let s := squeeze ⟨d.shape.eraseIdx 3, fun idx => d.get (idx.take 3 ++ i :: idx.drop 3)⟩
    let m ← makeStorageData z s { a with shape := some (a.shape.getD d.shape), mask := none, maxDim := 3, readOnly := true }
    return dictSet dict name m) []

end NDSL.Storage
