import Verif.Model.DebugChecks
/-
Specification for C114: orders of execution, and the points of a subset.
-/
namespace NDSL.DebugChecks

/-- `a` comes before `b`. -/
def Before (order : List Nat) (a b : Nat) : Prop := [a, b].Sublist order

/-- An order in which the nodes of a program can run: every node once, the source of an edge before its target. -/
structure Schedule (g : Graph) (order : List Nat) : Prop where
  all : order.Perm (List.range g.next)
  edges : ∀ a b, (a, b) ∈ g.edges → Before order a b

/-- Edges and outputs of the program are between its nodes. -/
structure Closed (g : Graph) : Prop where
  edges : ∀ a b, (a, b) ∈ g.edges → a < g.next ∧ b < g.next
  outs : ∀ o ∈ g.outs, o.dst < g.next

/-- The index lies in the range. -/
def Range.Has (r : Range) (i : Int) : Prop := r.first ≤ i ∧ i ≤ r.last ∧ r.step ∣ i - r.first

/-- The point lies in the subset. -/
inductive Covers : List Range → List Int → Prop
  | nil : Covers [] []
  | cons {r : Range} {i : Int} {rs : List Range} {is : List Int} : r.Has i → Covers rs is → Covers (r :: rs) (i :: is)

/-- The words tracers are known by. -/
def tracerWords : List (List Char) :=
  ["qvapor", "qliquid", "qrain", "qice", "qsnow", "qgraupel", "qo3mr", "qsgs_tke", "qcld"].map String.toList

/-- Outputs of maps that are in no other map, to a container that is no view. -/
def Out.Plain (o : Out) : Prop := o.inside = false ∧ o.access = true ∧ o.view = false

end NDSL.DebugChecks
