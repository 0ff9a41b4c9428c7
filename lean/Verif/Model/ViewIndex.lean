import Verif.Model.BoundarySlice
/-
Model of reading and writing through a quantity's views with the whole of basic indexing: integers, slices with steps and
new axes (`ndsl/quantity/bounds.py` 14-71, 74-207, `ndsl/quantity/quantity.py` 229-241 and 267-274), with NumPy's part of
it. Arrays are functions of the indices; a quantity has as many dimensions as its array, of the sizes `shape`.

Simplifications: what is not an integer, a slice or `None` (arrays, `...`) is left out; a value written is a single one or
has the shape of what it is written to, that is, no other broadcasting.
-/
namespace NDSL.View

/-- An entry of an index. -/
inductive Entry where
  | int (i : Int)
  | sl (start stop step : Option Int)
  | new
  deriving DecidableEq

/-- `slice(None, None)` -/
def Entry.all : Entry := .sl none none none

/-- The argument of `__getitem__`: a tuple (or list), or a single entry. -/
inductive Index where
  | one (e : Entry)
  | tuple (l : List Entry)
  deriving DecidableEq

/-- bounds.py 149-150; 45-48. -/
def Index.entries : Index → List Entry
  | .one e => [e]
  | .tuple l => l

/-- An entry of 159-168, with `_shift_slice` (195-198) and `bound_default_slice` (`ndsl/comm/_boundary_utils.py` 22-31). -/
def computeEntry (d : DimSpec) : Entry → Entry
  | .int i => .int (i + d.origin)
  | .sl a b s =>
    .sl (some ((shiftIndex a d.origin d.extent).getD d.origin))
      (some ((shiftIndex b d.origin d.extent).getD (d.origin + d.extent))) s
  | .new => .new

/-- `_fill_index`, 191-192. -/
def fill (index : List Entry) (length : Nat) : List Entry := index ++ List.replicate (length - index.length) Entry.all

/-- `BoundedArrayView._get_compute_index`, 148-169. -/
def computeIndex (ds : List DimSpec) (index : List Entry) : Except Err (List Entry) :=
  if index.length > ds.length then .error .indexError
  else .ok (List.zipWith computeEntry ds (fill index ds.length))

/-- `_shift_boundary_slice`, `_boundary_utils.py` 34-55; `None` cannot be added to. -/
def boundaryEntry (v : ViewKind) (d : DimSpec) : Entry → Except Err Entry
  | .int i => .ok (.int (i + (viewOffset v d).1))
  | .sl a b s =>
    .ok (.sl (some ((a.map (· + (viewOffset v d).1)).getD d.origin))
      (some ((b.map (· + (viewOffset v d).2)).getD (d.origin + d.extent))) s)
  | .new => .error .typeError

/-- `shift_boundary_slice_tuple`, `_boundary_utils.py` 7-19. -/
def boundaryEntries (v : ViewKind) : List DimSpec → List Entry → Except Err (List Entry)
  | d :: ds, e :: es =>
    match boundaryEntry v d e with
    | .error x => .error x
    | .ok e' => (boundaryEntries v ds es).map (e' :: ·)
  | _, _ => .ok []

/-- `BoundaryArrayView._get_array_index`, bounds.py 44-58. -/
def boundaryIndex (v : ViewKind) (ds : List DimSpec) (index : List Entry) : Except Err (List Entry) :=
  if index.length > ds.length then .error .indexError
  else boundaryEntries v ds (fill index ds.length)

/-- The index given to the array: of the plain view (`none`) or one of the corners or `interior`. -/
def arrayIndex (v : Option ViewKind) (ds : List DimSpec) (index : Index) : Except Err (List Entry) :=
  match v with
  | none => computeIndex ds index.entries
  | some k => boundaryIndex k ds index.entries

/-! ### NumPy -/

/-- `slice(a, b, s).indices(n)`, a step of zero is refused. -/
def clip (n : Int) (s : Int) (a : Int) : Int :=
  let lower := if s < 0 then -1 else 0
  let upper := if s < 0 then n - 1 else n
  if a < 0 then max (a + n) lower else min a upper
def firstOf (n s : Int) : Option Int → Int
  | none => if s < 0 then n - 1 else 0
  | some a => clip n s a
def lastOf (n s : Int) : Option Int → Int
  | none => if s < 0 then -1 else n
  | some b => clip n s b

/-- `len(range(lo, hi, s))` -/
def countOf (lo hi s : Int) : Nat :=
  if 0 < s then (if lo < hi then ((hi - lo - 1) / s + 1).toNat else 0)
  else if hi < lo then ((lo - hi - 1) / (-s) + 1).toNat else 0

/-- What an entry takes of an axis: a point (the axis is dropped), so many points from the first on by steps; or a new
axis. -/
inductive Pick where
  | at (i : Int)
  | run (first step : Int) (count : Nat)
  | new
  deriving DecidableEq

/-- A slice of an axis of size `n`. -/
def pickSlice (n : Int) (a b s : Option Int) : Except Err Pick :=
  let s := s.getD 1
  if s = 0 then .error .valueError
  else .ok (.run (firstOf n s a) s (countOf (firstOf n s a) (lastOf n s b) s))

/-- Basic indexing: axes that are left are taken whole, too many entries are refused. -/
def picks : List Int → List Entry → Except Err (List Pick)
  | shape, .new :: es => (picks shape es).map (.new :: ·)
  | n :: shape, .int i :: es =>
    match npInt n i with
    | .error x => .error x
    | .ok j => (picks shape es).map (.at j :: ·)
  | n :: shape, .sl a b s :: es =>
    match pickSlice n a b s with
    | .error x => .error x
    | .ok p => (picks shape es).map (p :: ·)
  | [], .int _ :: _ => .error .indexError
  | [], .sl _ _ _ :: _ => .error .indexError
  | shape, [] => .ok (shape.map fun n => .run 0 1 n.toNat)

/-- The shape of a selection. -/
def shapeOf : List Pick → List Nat
  | [] => []
  | .at _ :: l => shapeOf l
  | .run _ _ c :: l => c :: shapeOf l
  | .new :: l => 1 :: shapeOf l

/-- The place in the array of an index of the selection. -/
def place : List Pick → List Nat → List Int
  | .at i :: l, idx => i :: place l idx
  | .run f s _ :: l, k :: idx => (f + k * s) :: place l idx
  | .new :: l, _ :: idx => place l idx
  | _, _ => []

/-- The index of the selection of a place in the array, if it is among them. -/
def locate : List Pick → List Int → Option (List Nat)
  | [], [] => some []
  | .at i :: l, g :: gs => if g = i then locate l gs else none
  | .run f s c :: l, g :: gs =>
    if (g - f) % s = 0 ∧ 0 ≤ (g - f) / s ∧ (g - f) / s < c then (locate l gs).map (((g - f) / s).toNat :: ·) else none
  | .new :: l, gs => (locate l gs).map (0 :: ·)
  | _, _ => none

/-- An array. -/
structure Arr (V : Type) where
  shape : List Nat
  get : List Nat → V

variable {V : Type}

/-- `self._data[...]` -/
def npGet (ds : List DimSpec) (data : List Int → V) (es : List Entry) : Except Err (Arr V) :=
  (picks (ds.map (·.shape)) es).map fun p => ⟨shapeOf p, fun idx => data (place p idx)⟩

/-- `self._data[...] = value` -/
def npSet (ds : List DimSpec) (data : List Int → V) (es : List Entry) (value : List Nat → V) : Except Err (List Int → V) :=
  (picks (ds.map (·.shape)) es).map fun p g => match locate p g with
    | some idx => value idx
    | none => data g

/-- bounds.py 137-143 and 33-39 for a quantity without dimensions: what is refused. -/
def scalarGet (data : List Int → V) : Index → Except Err (Arr V)
  | .tuple (_ :: _) => .error .indexError
  | .tuple [] => .ok ⟨[], fun _ => data []⟩
  | .one e =>
    match e with
    | .sl a b s => if Entry.sl a b s = Entry.all then .ok ⟨[], fun _ => data []⟩ else .error .indexError
    | _ => .ok ⟨[], fun _ => data []⟩

/-- `__getitem__` of a view, bounds.py 133-143 and 29-39. -/
def getItem (v : Option ViewKind) (ds : List DimSpec) (data : List Int → V) (index : Index) : Except Err (Arr V) :=
  if 0 < ds.length then (arrayIndex v ds index).bind (npGet ds data) else scalarGet data index

/-- `__setitem__` of a view, bounds.py 145-146 and 41-42: the array afterwards. -/
def setItem (v : Option ViewKind) (ds : List DimSpec) (data : List Int → V) (index : Index) (value : List Nat → V) :
    Except Err (List Int → V) :=
  (arrayIndex v ds index).bind fun es => npSet ds data es value

/-- `kwargs.get(dim, slice(None, None))` -/
def named (kwargs : List (String × Entry)) (dim : String) : Entry :=
  ((kwargs.find? fun e => e.1 == dim).map (·.2)).getD Entry.all

/-- `Quantity.sel`, quantity.py 229-241, and `BoundaryArrayView.sel`, bounds.py 60-71. -/
def sel (v : Option ViewKind) (names : List String) (ds : List DimSpec) (data : List Int → V)
    (kwargs : List (String × Entry)) : Except Err (Arr V) :=
  getItem v ds data (.tuple (names.map (named kwargs)))

/-- `Quantity.field`, quantity.py 272-274. -/
def field (ds : List DimSpec) (data : List Int → V) : Except Err (Arr V) := getItem none ds data (.one Entry.all)

end NDSL.View
