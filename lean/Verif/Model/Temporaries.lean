import Mathlib.Algebra.Order.Ring.Rat
import Mathlib.Algebra.Order.Group.Abs
import Mathlib.Algebra.Order.Group.Unbundled.Abs
import Verif.Model.Basic
import Verif.Model.StorageData
/-
Model of `ndsl/stencils/testing/temporaries.py`: copies of the temporaries of a program, and their comparison.

Objects are known by number and may refer to each other in circles. What `dir` lists of an object is a list of names with what `getattr` gives:
a quantity (known by the number of its memory), nothing (`AttributeError`), or an object. Other exceptions of properties are not modelled, nor are
quantities without axes (`attr[:]` raises for them). Names in reports are kept as lists; the code joins them with dots.
Numbers are rationals, infinities and NaN; the sums and products of `np.allclose` are exact.
-/
namespace NDSL.Temporaries

open NDSL.Storage

inductive Num where
  | fin (q : ℚ)
  | inf (negative : Bool)
  | nan
  deriving DecidableEq

abbrev Arr := Nd Num

/-- What an attribute gives. -/
inductive Attr where
  | quantity (mem : Nat)
  | missing
  | object (id : Nat)
  deriving DecidableEq

/-- An object: the module of its class, and its attributes in the order of `dir`. -/
structure Node where
  module : String
  attrs : List (String × Attr)

/-- The objects, and the memory of quantities, at some time. -/
structure World where
  node : Nat → Node
  mem : Nat → Arr

mutual
/-- An entry of a snapshot: a copied array, or a dictionary. -/
inductive Snap where
  | arr (a : Arr)
  | sub (d : Dict)
inductive Dict where
  | nil
  | cons (name : String) (value : Snap) (rest : Dict)
end

/-- `a.startswith("__")` -/
def isDunder (name : List Char) : Bool := ['_', '_'].isPrefixOf name

/-- The part of a module's name before the first dot. -/
def package (module : List Char) : List Char := module.takeWhile (· != '.')

/-- `x in y` for two strings. -/
def isPart (a : List Char) : List Char → Bool
  | [] => a == []
  | c :: b => a.isPrefixOf (c :: b) || isPart a b

/-- `... in ("pyFV3")`, 18: the parentheses make no tuple, so this asks for a part of the string. -/
def looksInto (module : String) : Bool := isPart (package module.toList) "pyFV3".toList

/-- One attribute of the loop of `copy_temporaries`, 11-22; `sub` is the copy of an object one level deeper, `none` when too deep. -/
def entry (w : World) (sub : Option (Nat → Dict)) (name : String) (attr : Attr) (rest : Dict) : Dict :=
  match attr with
  | .quantity m => .cons name (.arr (w.mem m)) rest
  | .missing => rest
  | .object id =>
    if looksInto (w.node id).module then
      match sub with
      | none => rest
      | some f =>
        match f id with
        | .nil => rest
        | d => .cons name (.sub d) rest
    else rest

/-- The loop over names, 10-22. -/
def entries (w : World) (sub : Option (Nat → Dict)) : List (String × Attr) → Dict
  | [] => .nil
  | (name, attr) :: l => if isDunder name.toList then entries w sub l else entry w sub name attr (entries w sub l)

/-- `copy_temporaries`, 8-23. -/
def copyTemporaries (w : World) : Nat → Nat → Dict
  | 0, id => entries w none (w.node id).attrs
  | depth + 1, id => entries w (some (copyTemporaries w depth)) (w.node id).attrs

/-- Lengths of two arrays stretched to each other, last axis first; `none` when they do not fit. -/
def stretch : List Nat → List Nat → Option (List Nat)
  | [], t => some t
  | s, [] => some s
  | a :: s, b :: t => if a = b ∨ b = 1 then (stretch s t).map (a :: ·) else if a = 1 then (stretch s t).map (b :: ·) else none

/-- The index in an array of shape `s` (last axis first) of an index in the stretched array. -/
def pick : List Nat → List Nat → List Nat
  | [], _ => []
  | _, [] => []
  | n :: s, i :: idx => (if n = 1 then 0 else i) :: pick s idx

/-- All indices of a shape. -/
def indices : List Nat → List (List Nat)
  | [] => [[]]
  | n :: s => (List.range n).flatMap fun i => (indices s).map (i :: ·)

/-- `np.isclose(a, b, equal_nan=True)` with the default tolerances `rtol = 1e-5`, `atol = 1e-8`. -/
def isClose : Num → Num → Bool
  | .fin a, .fin b => decide (|a - b| ≤ 1 / 100000000 + 1 / 100000 * |b|)
  | .inf x, .inf y => x == y
  | .nan, .nan => true
  | _, _ => false

/-- `np.allclose(a, b, equal_nan=True)`: arrays that cannot be stretched to each other are a `ValueError`. -/
def allClose (a b : Arr) : Except Err Bool :=
  match stretch a.shape.reverse b.shape.reverse with
  | none => .error .valueError
  | some s => .ok ((indices s).all fun idx =>
      isClose (a.get (pick a.shape.reverse idx).reverse) (b.get (pick b.shape.reverse idx).reverse))

/-- `d[name]` -/
def Dict.item : Dict → String → Except Err Snap
  | .nil, _ => .error .keyError
  | .cons n v rest, name => if n = name then .ok v else rest.item name

mutual
/-- One entry of the loop of `_assert_same_temporaries`, 34-47: the names of what differs. Comparing an array with a dictionary is a `TypeError`, a dictionary
with an array an `IndexError` at its first entry. -/
def compareSnap (name : String) : Snap → Snap → Except Err (List (List String))
  | .arr a, .arr b => do
    if ← allClose a b then return [] else return [[name]]
  | .arr _, .sub _ => .error .typeError
  | .sub d, v => do
    let l ← compare d v
    return l.map (name :: ·)
/-- `_assert_same_temporaries`, 32-47. -/
def compare : Dict → Snap → Except Err (List (List String))
  | .nil, _ => .ok []
  | .cons _ _ _, .arr _ => .error .indexError
  | .cons name v rest, .sub d => do
    let x ← d.item name
    let l ← compareSnap name v x
    let r ← compare rest (.sub d)
    return l ++ r
end

/-- `assert_same_temporaries`, 26-29; an `AssertionError` is a `runtimeError`. -/
def assertSame (d1 d2 : Dict) : Except Err Unit := do
  let diffs ← compare d1 (.sub d2)
  if diffs.length > 0 then .error .runtimeError else return ()

end NDSL.Temporaries
