import Verif.Model.Basic
import Verif.Model.Backend
/-
Model of the schedule tree passes `CleanUpScheduleTree` (`ndsl/dsl/dace/stree/optimizations/clean_tree.py` 1-66) and
`SpecializeCartesianMaps` (`specialize_maps.py` 1-22), of `StreePipeline.run` (`ndsl/dsl/dace/stree/pipeline.py` 9-43) and of
the choice of passes in `_build_sdfg` (`ndsl/dsl/dace/orchestration.py` 200-237).

A schedule tree is a list of nodes: boundaries between states, statements (tasklets, copies, assignments, calls) and scopes.
Statements, conditions and the binding of iteration variables are functions on an arbitrary state. Ranges are as in DaCe:
start, inclusive stop, step.

Simplifications: parents of nodes are left out; the variables of a map keep their value after it; the classes of DaCe's scopes
other than those the passes name are one kind, `block`.
-/
namespace NDSL.CleanTree

/-- A range of a map: `start`, inclusive `stop`, `step`. -/
structure Rng where
  start : Int
  stop : Int
  step : Int
  deriving DecidableEq, Repr

/-- The iterations of a range, for a positive step. -/
def Rng.iters (r : Rng) : List Int :=
  (List.range ((r.stop - r.start) / r.step + 1).toNat).map fun (n : Nat) => r.start + n * r.step

/-- `node.node.map`: parameters and ranges. -/
structure Map where
  params : List String
  ranges : List Rng
  deriving DecidableEq, Repr

/-- The scopes of a schedule tree over a state `M`. -/
inductive Kind (M : Type) where
  | whileS (c : M → Bool)
  | forS (init : M → M) (c : M → Bool) (update : M → M)
  | mapS (m : Map)
  | ifS (c : M → Bool)
  | elifS (c : M → Bool)
  | elseS
  | block

/-- A list of nodes. -/
inductive Nodes (M : Type) where
  | nil
  | boundary (rest : Nodes M)
  | stmt (s : M → M) (rest : Nodes M)
  | scope (k : Kind M) (body rest : Nodes M)

variable {M : Type}

/-! ### What a tree does -/

/-- A loop, for at most `n` iterations; `none` if it has not ended by then. -/
def loop (n : Nat) (c : M → Bool) (body : M → Option M) (m : M) : Option M :=
  match n with
  | 0 => none
  | n + 1 => if c m then (body m).bind (loop n c body) else some m

/-- Run a body for a list of values of the iteration variables, in order. -/
def runOrder (body : M → Option M) (bind : List String → List Int → M → M) (params : List String) :
    List (List Int) → M → Option M
  | [], m => some m
  | x :: xs, m => (body (bind params x m)).bind (runOrder body bind params xs)

/-- All combinations of values. -/
def product : List (List Int) → List (List Int)
  | [] => [[]]
  | l :: ls => l.flatMap fun x => (product ls).map (x :: ·)

def Map.points (m : Map) : List (List Int) := product (m.ranges.map Rng.iters)

/-- Running nodes with loops of at most `n` iterations: `bind` sets iteration variables, `σ` is the order in which the points
of a map run, `taken` tells whether a branch of the conditional before has run. -/
def exec (bind : List String → List Int → M → M) (σ : List (List Int) → List (List Int)) (n : Nat) :
    Nodes M → Bool → M → Option M
  | .nil, _, m => some m
  | .boundary rest, taken, m => exec bind σ n rest taken m
  | .stmt s rest, taken, m => exec bind σ n rest taken (s m)
  | .scope (.whileS c) body rest, taken, m => (loop n c (exec bind σ n body false) m).bind (exec bind σ n rest taken)
  | .scope (.forS init c update) body rest, taken, m =>
    (loop n c (fun m => (exec bind σ n body false m).map update) (init m)).bind (exec bind σ n rest taken)
  | .scope (.mapS mp) body rest, taken, m =>
    (runOrder (exec bind σ n body false) bind mp.params (σ mp.points) m).bind (exec bind σ n rest taken)
  | .scope (.ifS c) body rest, _, m =>
    if c m then (exec bind σ n body false m).bind (exec bind σ n rest true) else exec bind σ n rest false m
  | .scope (.elifS c) body rest, taken, m =>
    if !taken && c m then (exec bind σ n body false m).bind (exec bind σ n rest true) else exec bind σ n rest taken m
  | .scope .elseS body rest, taken, m =>
    if !taken then (exec bind σ n body false m).bind (exec bind σ n rest true) else exec bind σ n rest taken m
  | .scope .block body rest, taken, m => (exec bind σ n body false m).bind (exec bind σ n rest taken)

/-! ### `CleanUpScheduleTree` -/

/-- The scopes with a `visit_` method of their own, clean_tree.py 29-57. -/
def Kind.visited : Kind M → Bool
  | .whileS _ | .forS .. | .mapS _ | .ifS _ => true
  | .elifS _ | .elseS | .block => false

/-- `_remove_state_boundaries_from_children` (`drop`) and the visits of the children, 18-57; other scopes get DaCe's
`generic_visit`, which visits the children and keeps them. Visiting a boundary does nothing, so removing before or while visiting
is the same. -/
def visit (drop : Bool) : Nodes M → Nodes M
  | .nil => .nil
  | .boundary rest => if drop then visit drop rest else .boundary (visit drop rest)
  | .stmt s rest => .stmt s (visit drop rest)
  | .scope k body rest => .scope k (visit k.visited body) (visit drop rest)

/-- `_removed_state_boundaries` after the visit. -/
def removed (drop : Bool) : Nodes M → Nat
  | .nil => 0
  | .boundary rest => (if drop then 1 else 0) + removed drop rest
  | .stmt _ rest => removed drop rest
  | .scope k body rest => removed k.visited body + removed drop rest

/-- `visit_ScheduleTreeRoot`, 59-66. -/
def clean (t : Nodes M) : Nodes M := visit true t

/-! ### `SpecializeCartesianMaps` -/

/-- The ranges that `visit_MapScope` puts in place, specialize_maps.py 11-20. -/
def newRanges (size : String → Option Int) : List String → Except Err (List Rng)
  | [] => .ok []
  | p :: ps =>
    let key := if p = "__i" then some "__I" else if p = "__j" then some "__J" else if p.startsWith "__k" then some "__K" else none
    match key with
    | none => newRanges size ps
    | some k => match size k with
      | none => .error .keyError
      | some n => (newRanges size ps).map (⟨0, n, 1⟩ :: ·)

/-- `SpecializeCartesianMaps.visit`. -/
def specialize (size : String → Option Int) : Nodes M → Except Err (Nodes M)
  | .nil => .ok .nil
  | .boundary rest => (specialize size rest).map .boundary
  | .stmt s rest => (specialize size rest).map (.stmt s)
  | .scope (.mapS mp) body rest =>
    match newRanges size mp.params, specialize size body, specialize size rest with
    | .ok rs, .ok b, .ok r => .ok (.scope (.mapS { mp with ranges := rs }) b r)
    | .error e, _, _ => .error e
    | _, .error e, _ => .error e
    | _, _, .error e => .error e
  | .scope k body rest =>
    match specialize size body, specialize size rest with
    | .ok b, .ok r => .ok (.scope k b r)
    | .error e, _ => .error e
    | _, .error e => .error e

/-! ### The pipeline -/

/-- `StreePipeline.run`, pipeline.py 27-43: the tree after all passes and, if verbose, the trees written after each. `i` is the
number of the first pass. -/
def runPasses {T : Type} (verbose : Bool) : Nat → List (String × (T → T)) → T → T × List (Nat × String × T)
  | _, [], t => (t, [])
  | i, p :: ps, t =>
    let r := runPasses verbose (i + 1) ps (p.2 t)
    (r.1, if verbose then (i, p.1, p.2 t) :: r.2 else r.2)

inductive Axis where | i | j | k
  deriving DecidableEq, Repr

inductive Pass where
  | cleanUp
  | merge (a : Axis)
  | refine
  deriving DecidableEq, Repr

/-- The passes of a loop order, orchestration.py 201-234. -/
def passes : Backend.LoopOrder → Except Err (List Pass)
  | .ijk => .ok [.cleanUp, .merge .i, .merge .j, .merge .k, .refine]
  | .kji => .ok [.cleanUp, .merge .k, .merge .j, .merge .i, .refine]
  | .kij => .ok [.cleanUp, .merge .k, .merge .i, .merge .j, .refine]
  | _ => .error .notImplemented

/-- The passes of `CPUPipeline` and `GPUPipeline` when none are given, pipeline.py 46-71. -/
def defaultCpu : List Pass := [.merge .k]
def defaultGpu : List Pass := []

end NDSL.CleanTree
