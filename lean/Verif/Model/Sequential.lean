/-
Model of `make_SDFG_CPU_sequential`, `ndsl/dsl/dace/sdfg/loop_transform.py` 4-19.

A program graph of DaCe: a flag for OpenMP sections, and nodes. The nodes of all its states are put in one list. A
node is the entry of a scope (of a map or of a consume loop: `EntryNode`), a node holding a whole graph of its own,
or any other: tasklet, access, exit, library call. Each may have a schedule (`getattr(node, "schedule", False)`).

Not modelled: edges, states, what the nodes compute.
-/
namespace NDSL.Sequential

/-- `dace.ScheduleType`; `other` stands for those on a device and the special ones -/
inductive Schedule where
  | default
  | sequential
  | multicore
  | persistent
  | other (n : Nat)
  deriving DecidableEq, Repr

/-- the nodes of a graph -/
inductive Nodes where
  | done
  | entry (s : Option Schedule) (rest : Nodes)
  | nested (s : Option Schedule) (sections : Bool) (body rest : Nodes)
  | plain (s : Option Schedule) (rest : Nodes)
  deriving DecidableEq, Repr

/-- a graph -/
structure Graph where
  sections : Bool
  nodes : Nodes
  deriving DecidableEq, Repr

/-- the first loop, lines 7-8: over this graph and all graphs in it -/
def Nodes.noSections : Nodes → Nodes
  | .done => .done
  | .entry s rest => .entry s rest.noSections
  | .nested s _ body rest => .nested s false body.noSections rest.noSections
  | .plain s rest => .plain s rest.noSections

/-- lines 13-19 for one entry -/
def entrySchedule (s : Option Schedule) : Option Schedule :=
  if s = some .multicore ∨ s = some .persistent ∨ s = some .default then some .sequential else s

/-- the second loop, lines 11-19: over the nodes of this graph and of all graphs in it -/
def Nodes.noParallel : Nodes → Nodes
  | .done => .done
  | .entry s rest => .entry (entrySchedule s) rest.noParallel
  | .nested s sec body rest => .nested s sec body.noParallel rest.noParallel
  | .plain s rest => .plain s rest.noParallel

/-- the graph after the call -/
def makeSequential (g : Graph) : Graph := ⟨false, g.nodes.noSections.noParallel⟩

end NDSL.Sequential
