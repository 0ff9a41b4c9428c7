/-
Model of `set_label` of `ndsl/dsl/dace/labeler.py`, which surrounds the control flow of a program with two
empty states. A program is a graph of numbered states; an edge has a label, which is nothing for an edge
that is always taken. `add_state_after` and `add_state_before` are DaCe's: the new state takes over the
edges out of, or into, the given one. What DaCe does with labels afterwards is not modelled.
-/
namespace NDSL.Labels

variable {E : Type}

/-- The two labels. -/
inductive Kind where
  | enter | exit
  deriving DecidableEq

/-- The states of a program in the order of `sdfg.nodes()`, its edges, the labels of states and the number of
the next new state. -/
structure Graph (E : Type) where
  nodes : List Nat
  edges : List (Nat × Nat × Option E)
  labels : List (Nat × Kind)
  next : Nat

/-- `sdfg.out_edges(state)` -/
def Graph.outs (g : Graph E) (s : Nat) : List (Nat × Nat × Option E) := g.edges.filter (·.1 == s)

/-- `sdfg.in_edges(state)` -/
def Graph.ins (g : Graph E) (s : Nat) : List (Nat × Nat × Option E) := g.edges.filter (·.2.1 == s)

/-- `sdfg.add_state_after(state, label)` and the library node, 54-57, 64-68. -/
def Graph.after (g : Graph E) (s : Nat) (k : Kind) : Graph E × Nat :=
  ({ nodes := g.nodes ++ [g.next]
     edges := g.edges.filter (·.1 != s) ++ (g.outs s).map (fun e => (g.next, e.2)) ++ [(s, g.next, none)]
     labels := g.labels ++ [(g.next, k)]
     next := g.next + 1 }, g.next)

/-- `sdfg.add_state_before(state, label)` and the library node, 59-63. -/
def Graph.before (g : Graph E) (s : Nat) (k : Kind) : Graph E × Nat :=
  ({ nodes := g.nodes ++ [g.next]
     edges := g.edges.filter (·.2.1 != s) ++ (g.ins s).map (fun e => (e.1, g.next, e.2.2)) ++ [(g.next, s, none)]
     labels := g.labels ++ [(g.next, k)]
     next := g.next + 1 }, g.next)

/-- The first half of the loop body, 50-63: the graph and `state`, which is bound to the new state. -/
def enterStep (top : Bool) (g : Graph E) (s : Nat) : Graph E × Nat :=
  if (g.ins s).isEmpty then (if top then g.after s .enter else g.before s .enter) else (g, s)

/-- The loop body, 49-69. -/
def labelStep (top : Bool) (g : Graph E) (s : Nat) : Graph E :=
  let (g', state) := enterStep top g s
  if (g'.outs state).isEmpty then (g'.after state .exit).1 else g'

/-- `set_label`, 34-69: over the states there were at the beginning. -/
def setLabel (top : Bool) (g : Graph E) : Graph E := g.nodes.foldl (labelStep top) g

end NDSL.Labels
