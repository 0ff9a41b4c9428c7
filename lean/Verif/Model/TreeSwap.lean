import Verif.Model.Basic
/-
Model of `ndsl/dsl/dace/stree/optimizations/tree_common_op.py`: `swap_node_position_in_tree` (6-33), `detect_cycle` (36-44)
and `list_index` (47-53), on objects with references to their parent and their children.

Simplifications: an object is a number, its other attributes are left out; whether two objects are equal for Python's `==` is a
parameter, which may depend on all objects. The validation at the start (line 11), which raises for a tree whose references do
not agree, is left out: the theorems are about trees whose references agree. `breakpoint()` is counted, and execution goes on
after it. `none` is an exception.
-/
namespace NDSL.TreeSwap

/-- A node of a schedule tree. A node that is no scope has no children. -/
structure Node where
  children : List Nat
  parent : Option Nat

/-- All objects. -/
abbrev Heap := Nat → Node

def setChildren (h : Heap) (n : Nat) (l : List Nat) : Heap := fun x => if x = n then { h x with children := l } else h x

def setParent (h : Heap) (n p : Nat) : Heap := fun x => if x = n then { h x with parent := some p } else h x

/-- `list_index`, 47-53: by identity; `StopIteration` if it is not there. -/
def listIndex (l : List Nat) (n : Nat) : Option Nat := l.findIdx? (· == n)

/-- `l.insert(i, x)` -/
def insertAt (l : List Nat) (i x : Nat) : List Nat := l.take i ++ x :: l.drop i

/-- `l.remove(n)`: the first element that is the same or equal; `ValueError` if there is none. -/
def removeEq (eq : Nat → Bool) (n : Nat) : List Nat → Option (List Nat)
  | [] => none
  | x :: l => if x == n || eq x then some l else (removeEq eq n l).map (x :: ·)

/-- `for child in l: child.parent = p`, 30-33. -/
def reparent (h : Heap) (l : List Nat) (p : Nat) : Heap := l.foldl (fun h c => setParent h c p) h

/-- `swap_node_position_in_tree`, 6-33; `eq h a b` is `a == b`. -/
def swap (eq : Heap → Nat → Nat → Bool) (h : Heap) (top child : Nat) : Option Heap :=
  match (h top).parent with
  | none => none
  | some p =>
    let h1 := setChildren h top (h child).children
    let h2 := setChildren h1 child [top]
    match listIndex (h2 p).children top with
    | none => none
    | some i =>
      let h3 := setChildren h2 p (insertAt (h2 p).children i child)
      let h4 := setParent (setParent h3 top child) child p
      match removeEq (eq h4 · top) top (h4 p).children with
      | none => none
      | some l =>
        let h5 := setChildren h4 p l
        let h6 := reparent h5 (h5 top).children top
        some (reparent h6 (h6 child).children child)

/-- `detect_cycle`, 36-44: the nodes visited and the number of stops at `breakpoint()`; `none` at the limit of recursion. -/
def detectCycle (h : Heap) : Nat → List Nat → List Nat → Option (List Nat × Nat)
  | 0, _, _ => none
  | _ + 1, [], v => some (v, 0)
  | fuel + 1, n :: l, v =>
    let b := if v.contains n then 1 else 0
    match detectCycle h fuel (h n).children (n :: v) with
    | none => none
    | some (v', c) => match detectCycle h fuel l v' with
      | none => none
      | some (v'', d) => some (v'', b + c + d)

end NDSL.TreeSwap
