import Verif.Model.Temporaries
/-
Model of the reductions of `ndsl/xumpy` (`minmax.py`, `count_nonzero.py`) on arrays and quantities.

Numbers are rationals, infinities and NaN. A quantity is its array with origin and extent of the compute domain; `field` is the view of
the compute domain (`ndsl/quantity/quantity.py` 272-274). Devices and data types are left out. numpy's reductions are modelled for any
rank: an axis may be counted from the end, one out of range or given twice is an error, and so is the maximum over no numbers.
-/
namespace NDSL.Xumpy

open NDSL.Storage NDSL.Temporaries

/-- `np.maximum`: NaN wins. -/
def maxNum : Num → Num → Num
  | .nan, _ => .nan
  | _, .nan => .nan
  | .inf true, y => y
  | .inf false, _ => .inf false
  | x, .inf true => x
  | _, .inf false => .inf false
  | .fin a, .fin b => .fin (if a ≤ b then b else a)

/-- `np.minimum`: NaN wins. -/
def minNum : Num → Num → Num
  | .nan, _ => .nan
  | _, .nan => .nan
  | .inf false, y => y
  | .inf true, _ => .inf true
  | x, .inf false => x
  | _, .inf true => .inf true
  | .fin a, .fin b => .fin (if a ≤ b then a else b)

/-- The place of an axis of an array of rank `n`. -/
def place (n : Nat) (ax : Int) : Option Nat :=
  if 0 ≤ ax ∧ ax < n then some ax.toNat else if ax < 0 ∧ 0 ≤ ax + n then some (ax + n).toNat else none

/-- The argument `axis`: for each axis of the array, is it reduced? -/
def reduced (n : Nat) : Option (List Int) → Except Err (List Bool)
  | none => .ok (List.replicate n true)
  | some axes =>
    match axes.mapM (place n) with
    | none => .error .indexError
    | some ps => if ps.Nodup then .ok ((List.range n).map fun k => ps.contains k) else .error .valueError

/-- Entries at axes marked with `b`. -/
def only (b : Bool) : List Bool → List Nat → List Nat
  | m :: ms, i :: is => if m = b then i :: only b ms is else only b ms is
  | _, _ => []

/-- The index with entries `ks` at axes that are kept, `rs` at those reduced. -/
def merge : List Bool → List Nat → List Nat → List Nat
  | true :: ms, ks, r :: rs => r :: merge ms ks rs
  | false :: ms, k :: ks, rs => k :: merge ms ks rs
  | _, _, _ => []

/-- The values reduced to the one at index `ks`. -/
def along (marks : List Bool) (a : Arr) (ks : List Nat) : List Num :=
  (indices (only true marks a.shape)).map fun rs => a.get (merge marks ks rs)

/-- `a.max(axis=axis)`, `a.min(axis=axis)` with `np.maximum`, `np.minimum` as `f`. -/
def reduce (f : Num → Num → Num) (a : Arr) (axis : Option (List Int)) : Except Err Arr := do
  let marks ← reduced a.shape.length axis
  let shape := only false marks a.shape
  if (indices shape).isEmpty then return ⟨shape, fun _ => .nan⟩
  if (indices (only true marks a.shape)).isEmpty then .error .valueError
  else return ⟨shape, fun ks => match along marks a ks with
    | [] => .nan
    | x :: l => l.foldl f x⟩

/-- `np.count_nonzero(a, axis)`: NaN is not zero. -/
def countArr (a : Arr) (axis : Option (List Int)) : Except Err (Nd Nat) := do
  let marks ← reduced a.shape.length axis
  return ⟨only false marks a.shape, fun ks => ((along marks a ks).filter fun x => x != .fin 0).length⟩

/-- A quantity: array, origin and extent. -/
structure Qty where
  data : Arr
  origin : List Nat
  extent : List Nat

/-- `Quantity.field` -/
def Qty.field (q : Qty) : Arr := ⟨q.extent, fun idx => q.data.get (List.zipWith (· + ·) q.origin idx)⟩

/-- What the functions take. -/
inductive Buffer where
  | array (a : Arr)
  | quantity (q : Qty)
  | other

/-- `max`, `minmax.py` 55-79. -/
def max (b : Buffer) (axis : Option (List Int)) : Except Err Arr :=
  match b with
  | .array a => reduce maxNum a axis
  | .quantity q => reduce maxNum q.field axis
  | .other => .error .notImplemented

/-- `min`, `minmax.py` 82-104. -/
def min (b : Buffer) (axis : Option (List Int)) : Except Err Arr :=
  match b with
  | .array a => reduce minNum a axis
  | .quantity q => reduce minNum q.field axis
  | .other => .error .notImplemented

/-- `count_nonzero`, `count_nonzero.py` 10-33. -/
def countNonzero (b : Buffer) (axis : Option (List Int)) : Except Err (Nd Nat) :=
  match b with
  | .array a => countArr a axis
  | .quantity q => countArr q.field axis
  | .other => .error .notImplemented

/-- `out[:] = d`: an array of rank 0 cannot be sliced. -/
def setAll (out d : Arr) : Except Err Arr := if out.shape = [] then .error .indexError else assign out [] d

/-- `out_quantity.field[:] = d`: written through the view. -/
def setField (out : Qty) (d : Arr) : Except Err Qty := do
  let v ← setAll out.field d
  return { out with data := ⟨out.data.shape, fun idx =>
    if within (List.zip out.origin out.extent) idx then v.get (List.zipWith (· - ·) idx out.origin) else out.data.get idx⟩ }

/-- `max_on_horizontal_plane` (with `maxNum`) and `min_on_horizontal_plane` (with `minNum`), `minmax.py` 15-52: what is then in `out`.
Which function runs depends on the first argument only; a quantity has `field`, an array has not (`AttributeError`, a `typeError` here). An
array of input writes to a quantity with `out[:]`, which is the whole array of it (`Quantity.__setitem__`). -/
def onPlane (f : Num → Num → Num) (inp out : Buffer) : Except Err Buffer :=
  match inp with
  | .array a => do
    let d ← reduce f a (some [0, 1])
    match out with
    | .array o => return .array (← setAll o d)
    | .quantity q => return .quantity { q with data := ← setAll q.data d }
    | .other => .error .typeError
  | .quantity q => do
    let d ← reduce f q.field (some [0, 1])
    match out with
    | .quantity o => return .quantity (← setField o d)
    | _ => .error .typeError
  | .other => .error .notImplemented

/-- `max_on_horizontal_plane`, `minmax.py` 15-35. -/
def maxOnPlane : Buffer → Buffer → Except Err Buffer := onPlane maxNum

/-- `min_on_horizontal_plane`, `minmax.py` 38-58. -/
def minOnPlane : Buffer → Buffer → Except Err Buffer := onPlane minNum

end NDSL.Xumpy
