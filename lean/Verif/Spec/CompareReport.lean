import Verif.Model.CompareReport
/-
Vocabulary for C118: the value of an array at an index, and what is meant by an order from the largest
distance to the smallest.
-/
namespace NDSL.CompareReport

open NDSL.Compare

/-- The place of an index in the flattened array, if the index is within the shape. -/
def place : List Nat → List Nat → Option Nat
  | [], [] => some 0
  | n :: s, i :: ix => if i < n then (place s ix).map fun k => i * s.prod + k else none
  | _, _ => none

/-- The value of an array, given flattened, at an index. -/
def value {α : Type} (shape : List Nat) (l : List α) (ix : List Nat) : Option α :=
  (place shape ix).bind fun k => l[k]?

/-- `a` is not before `b` in numpy's order of numbers: NaN comes last, the rest by size. -/
def Fl.NotBefore (a b : Fl) : Prop :=
  a = .nan ∨ (b ≠ .nan ∧ a.lt b = false)

/-- What numpy promises of `argsort`: every position once, and the values there in increasing order. -/
def Argsort (argsort : List Fl → List Nat) : Prop :=
  ∀ l : List Fl, (argsort l).Perm (List.range l.length) ∧
    (argsort l).Pairwise fun i j => ∀ a b, l[i]? = some a → l[j]? = some b → Fl.NotBefore b a

/-- The distance that a report is sorted by. -/
def Key.of : Key → Marks → Fl
  | .ulp, d => d.ulp
  | .absolute, d => d.absolute
  | _, d => d.relative

/-- The indices follow each other in the order of the array, each at most once. -/
def Increasing (s : List Nat) (l : List (List Nat)) : Prop :=
  l.Pairwise fun a b => ∃ j k, place s a = some j ∧ place s b = some k ∧ j < k

/-- The whole number shown for a number of units in the last place: NaN, or the part before the point. -/
def Shows (x : Fl) (u : Option Int) : Prop :=
  (x = .nan ∧ u = none) ∨ ∃ (q : ℚ) (n : Int), x = .fin q ∧ u = some n ∧ (n : ℚ) ≤ q ∧ q < n + 1

/-- The thresholds after a history of comparisons in one process. -/
def Process.after (hist : List Overrides) : Process := hist.foldl Process.override .start

end NDSL.CompareReport
