import Verif.Model.Labels
/-
Vocabulary for C119: executions of a graph of states.
-/
namespace NDSL.Labels

variable {E Mem : Type}

/-- What states do to the memory, and what an edge does with it: nothing if it is not taken. -/
structure Meaning (E Mem : Type) where
  work : Nat → Mem → Mem
  take : E → Mem → Option Mem

/-- The first edge out of a state that is taken, with the memory after it and the state it leads to. -/
def Graph.goes (g : Graph E) (w : Meaning E Mem) (m : Mem) (s : Nat) : Option (Mem × Nat) :=
  (g.outs s).findSome? fun e =>
    match e.2.2 with
    | none => some (m, e.2.1)
    | some l => (w.take l m).map fun m' => (m', e.2.1)

/-- From memory `m` in state `s` the program runs through the states listed and ends with the memory at the end. New states, numbered
from `base`, do nothing. -/
inductive Runs (g : Graph E) (w : Meaning E Mem) (base : Nat) : Mem → Nat → List Nat → Mem → Prop
  | stop {m m' : Mem} {s : Nat} : m' = (if s < base then w.work s m else m) → g.goes w m' s = none → Runs g w base m s [s] m'
  | step {m m1 m2 m' : Mem} {s s' : Nat} {t : List Nat} : m1 = (if s < base then w.work s m else m) →
      g.goes w m1 s = some (m2, s') → Runs g w base m2 s' t m' → Runs g w base m s (s :: t) m'

/-- A program as it is given: no labels, states distinct and below `next`, edges between states. -/
structure Graph.Plain (g : Graph E) : Prop where
  labels : g.labels = []
  nodup : g.nodes.Nodup
  below : ∀ s ∈ g.nodes, s < g.next
  edges : ∀ e ∈ g.edges, e.1 ∈ g.nodes ∧ e.2.1 ∈ g.nodes

/-- The state without an edge into it; there is no other. -/
def Graph.Start (g : Graph E) (s : Nat) : Prop := s ∈ g.nodes ∧ ∀ x ∈ g.nodes, g.ins x = [] ↔ x = s

/-- The labels of a state. -/
def Graph.labelsOf (g : Graph E) (s : Nat) : List Kind := (g.labels.filter (·.1 == s)).map (·.2)

/-- Some edge out of a state is taken, if there is one: a program ends in states without edges out only. -/
def Graph.Total (g : Graph E) (w : Meaning E Mem) : Prop := ∀ s m, g.outs s ≠ [] → g.goes w m s ≠ none

end NDSL.Labels
