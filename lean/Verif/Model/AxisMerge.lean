/-
Model of the schedule tree optimisation `CartesianAxisMerge`
(`ndsl/dsl/dace/stree/optimizations/axis_merge.py`) and of the dependency check it uses
(`memlet_helpers.py`).

Schedule trees: maps (parallel loops), sequential loops, conditionals and tasklets. A tasklet reads
its in-memlets and writes its out-memlets; what it computes is an arbitrary function of the values
read. Memory maps a datum and the list of its indices to a value. Names of data and of iteration
variables are numbers. Ranges are as in DaCe: `start`, inclusive `stop`, `step`.

Not modelled: library calls, callbacks, dynamic memlets, tasklet code that mentions iteration
variables, maps over several variables at once, bounds of ranges that are symbols (they are numbers
here) and the disabled rewriting of conditionals (`PUSH_IFSCOPE_DOWNWARD = False`).
-/
namespace NDSL.AxisMerge

/-- An index expression: an iteration variable plus an offset, or a constant. -/
inductive Ix where
  | var (p : Nat) (off : Int)
  | const (c : Int)
  deriving DecidableEq, Repr

abbrev Env := Nat → Int

def Ix.eval (env : Env) : Ix → Int
  | .var p o => env p + o
  | .const c => c

/-- A memlet: a datum and, for each dimension, the first index and the number of elements. -/
structure Memlet where
  data : Nat
  subset : List (Ix × Nat)
  deriving DecidableEq, Repr

/-- A cell of memory: datum and indices. -/
abbrev Cell := Nat × List Int
abbrev Mem (V : Type) := Cell → V

/-- The indices relative to the start of a subset, if inside. -/
def relative (env : Env) : List (Ix × Nat) → List Int → Option (List Int)
  | [], [] => some []
  | (s, n) :: ss, i :: is =>
    if s.eval env ≤ i ∧ i < s.eval env + n then
      match relative env ss is with
      | some r => some ((i - s.eval env) :: r)
      | none => none
    else none
  | _, _ => none

/-- The absolute indices of relative ones. -/
def absolute (env : Env) : List (Ix × Nat) → List Int → List Int
  | (s, _) :: ss, i :: is => (s.eval env + i) :: absolute env ss is
  | _, _ => []

def Memlet.covers (env : Env) (m : Memlet) (c : Cell) : Bool :=
  decide (c.1 = m.data) && (relative env m.subset c.2).isSome

/-- A tasklet; `f inputs n rel` is the value for relative index `rel` of output `n`, given the
values of the inputs by number and relative index. -/
structure Tasklet (V : Type) where
  ins : List Memlet
  outs : List Memlet
  f : (Nat → List Int → V) → Nat → List Int → V

/-- A range: `start`, inclusive `stop`, `step` (`range.ranges[0]`). -/
structure Rng where
  start : Int
  stop : Int
  step : Int
  deriving DecidableEq, Repr

/-- The iterations of a range, for a positive step. -/
def Rng.iters (r : Rng) : List Int :=
  (List.range ((r.stop - r.start) / r.step + 1).toNat).map fun (n : Nat) => r.start + n * r.step

/-- `_execution_condition`, `axis_merge.py` 68-79: the condition on the iteration variable. -/
structure Guard where
  p : Nat
  r : Rng
  deriving DecidableEq, Repr

def Guard.holds (env : Env) (g : Guard) : Bool :=
  decide (env g.p ≥ g.r.start) && decide (env g.p ≤ g.r.stop) &&
    decide ((env g.p - g.r.start) % g.r.step = 0)

/-- A list of schedule tree nodes. -/
inductive Tree (V : Type) where
  | done
  | tasklet (t : Tasklet V) (rest : Tree V)
  | ifS (g : Guard) (body rest : Tree V)
  | mapS (p : Nat) (r : Rng) (body rest : Tree V)
  | forS (p : Nat) (r : Rng) (body rest : Tree V)

variable {V : Type}

def Env.set (env : Env) (p : Nat) (i : Int) : Env := fun q => if q = p then i else env q

/-- The value of an input of a tasklet. -/
def input [Inhabited V] (env : Env) (mem : Mem V) (ins : List Memlet) (n : Nat) (rel : List Int) : V :=
  match ins[n]? with
  | none => default
  | some m =>
    if m.covers env (m.data, absolute env m.subset rel) then mem (m.data, absolute env m.subset rel)
    else default

/-- Write the outputs one after the other; `n` is the number of the first. -/
def writeOuts (env : Env) (val : Nat → List Int → V) : List Memlet → Nat → Mem V → Mem V
  | [], _, mem => mem
  | m :: ms, n, mem =>
    writeOuts env val ms (n + 1) fun c =>
      if c.1 = m.data then
        match relative env m.subset c.2 with
        | some rel => val n rel
        | none => mem c
      else mem c

def Tasklet.exec [Inhabited V] (t : Tasklet V) (env : Env) (mem : Mem V) : Mem V :=
  writeOuts env (t.f (input env mem t.ins)) t.outs 0 mem

/-- Run a body for the values of an iteration variable, in the given order. -/
def runOrder (body : Env → Mem V → Mem V) (p : Nat) (env : Env) (order : List Int) (mem : Mem V) :
    Mem V :=
  order.foldl (fun mem i => body (env.set p i) mem) mem

/-- In which order the iterations of a map over a variable run. -/
abbrev Sched := Nat → List Int → List Int

/-- Execution of a tree: loops run in order, maps in the order the schedule gives. -/
def Tree.exec [Inhabited V] (σ : Sched) : Tree V → Env → Mem V → Mem V
  | .done, _, mem => mem
  | .tasklet t rest, env, mem => rest.exec σ env (t.exec env mem)
  | .ifS g body rest, env, mem =>
    rest.exec σ env (if g.holds env then body.exec σ env mem else mem)
  | .mapS p r body rest, env, mem =>
    rest.exec σ env (runOrder (body.exec σ) p env (σ p r.iters) mem)
  | .forS p r body rest, env, mem =>
    rest.exec σ env (runOrder (body.exec σ) p env r.iters mem)

def Tree.append : Tree V → Tree V → Tree V
  | .done, u => u
  | .tasklet t rest, u => .tasklet t (rest.append u)
  | .ifS g body rest, u => .ifS g body (rest.append u)
  | .mapS p r body rest, u => .mapS p r body (rest.append u)
  | .forS p r body rest, u => .forS p r body (rest.append u)

/-! ### Collecting memlets, `memlet_helpers.py` 94-130 -/

/-- `MemletCollector(collect_reads=False)`: the out-memlets of all tasklets below. -/
def Tree.outMemlets : Tree V → List Memlet
  | .done => []
  | .tasklet t rest => t.outs ++ rest.outMemlets
  | .ifS _ body rest => body.outMemlets ++ rest.outMemlets
  | .mapS _ _ body rest => body.outMemlets ++ rest.outMemlets
  | .forS _ _ body rest => body.outMemlets ++ rest.outMemlets

/-- `MemletCollector(collect_writes=False)`: the in-memlets; conditions are left as they are. -/
def Tree.inMemlets : Tree V → List Memlet
  | .done => []
  | .tasklet t rest => t.ins ++ rest.inMemlets
  | .ifS _ body rest => body.inMemlets ++ rest.inMemlets
  | .mapS _ _ body rest => body.inMemlets ++ rest.inMemlets
  | .forS _ _ body rest => body.inMemlets ++ rest.inMemlets

/-- `subset[axis][0]`: the first index of a memlet along the axis, if it has that dimension. -/
def Memlet.axisIndex (axis : Nat) (m : Memlet) : Option Ix := (m.subset[axis]?).map (·.1)

/-- `no_data_dependencies_on_cartesian_axis`, `memlet_helpers.py` 21-52. -/
def noDataDependencies (axis : Nat) (first second : Tree V) : Bool :=
  first.outMemlets.all fun w =>
    if w.subset.length ≤ axis then true
    else second.inMemlets.all fun r =>
      if w.data = r.data then decide (w.axisIndex axis = r.axisIndex axis) else true

/-! ### Guards, `axis_merge.py` 56-99 -/

/-- Whether all nodes of a list are maps. -/
def Tree.allMaps : Tree V → Bool
  | .done => true
  | .mapS _ _ _ rest => rest.allMaps
  | _ => false

/-- The children of a map after `InsertOvercomputationGuard.visit_MapScope`, 81-99: if all are
maps, visit those; otherwise wrap them in a condition, unless the range is unchanged. -/
def Tree.guardChildren (g : Guard) (unchanged : Bool) : Tree V → Tree V
  | .mapS p r body rest =>
    if rest.allMaps then
      .mapS p r (body.guardChildren g unchanged) (rest.guardChildren g unchanged)
    else if unchanged then .mapS p r body rest else .ifS g (.mapS p r body rest) .done
  | .done => .done
  | t => if unchanged then t else .ifS g t .done

/-! ### Renaming, `axis_merge.py` 112-144 -/

def Ix.rename (a b : Nat) : Ix → Ix
  | .var p o => .var (if p = a then b else p) o
  | .const c => .const c

def Memlet.rename (a b : Nat) (m : Memlet) : Memlet :=
  { m with subset := m.subset.map fun s => (s.1.rename a b, s.2) }

/-- `ReplaceAxisSymbol`: replaces the iteration variable in the parameters of maps and in
memlets; conditions are left as they are. -/
def Tree.rename (a b : Nat) : Tree V → Tree V
  | .done => .done
  | .tasklet t rest =>
    .tasklet ⟨t.ins.map (Memlet.rename a b), t.outs.map (Memlet.rename a b), t.f⟩ (rest.rename a b)
  | .ifS g body rest => .ifS g (body.rename a b) (rest.rename a b)
  | .mapS p r body rest => .mapS (if p = a then b else p) r (body.rename a b) (rest.rename a b)
  | .forS p r body rest => .forS p r (body.rename a b) (rest.rename a b)

/-! ### Rewriting steps -/

/-- The merged range, 349-359. -/
def mergedRange (r1 r2 : Rng) : Rng := ⟨min r1.start r2.start, max r1.stop r2.stop, 1⟩

/-- The children of the merged map, 361-391. -/
def mergedBody (p1 p2 : Nat) (r1 r2 : Rng) (body1 body2 : Tree V) : Tree V :=
  let m := mergedRange r1 r2
  let children := (body1.guardChildren ⟨p1, r1⟩ (m = r1)).append
    (body2.guardChildren ⟨p1, r2⟩ (m = r2))
  if p2 = p1 then children else children.rename p2 p1

/-- `_is_axis_map`, 25-28, and `_can_merge_axis_maps`, 47-53, followed by the merge of two
consecutive maps, 349-396. `isAxis` tells whether an iteration variable is of the axis. -/
def mergeMaps (isAxis : Nat → Bool) (axis : Nat) : Tree V → Option (Tree V)
  | .mapS p1 r1 body1 (.mapS p2 r2 body2 rest) =>
    if isAxis p1 && isAxis p2 && noDataDependencies axis body1 body2 then
      some (.mapS p1 (mergedRange r1 r2) (mergedBody p1 p2 r1 r2 body1 body2) rest)
    else none
  | _ => none

/-- The pushing part of `_push_tasklet_down`, 241-246: a tasklet before a map becomes the first
child of the map. -/
def pushTasklet : Tree V → Option (Tree V)
  | .tasklet t (.mapS p r body rest) => some (.mapS p r (.tasklet t body) rest)
  | _ => none

/-- `_for_merge`, 200-212, with `swap_node_position_in_tree`, `tree_common_op.py` 6-33: a sequential
loop whose only child is a map over the axis is moved inside the map. -/
def swapFor (isAxis : Nat → Bool) : Tree V → Option (Tree V)
  | .forS p r (.mapS q s body .done) rest =>
    if isAxis p then none
    else if isAxis q then some (.mapS q s (.forS p r body .done) rest) else none
  | _ => none

/-! ### The driver -/

def Tree.isDone : Tree V → Bool
  | .done => true
  | _ => false

/-- Replace the nodes after the first; `rest` gives them. -/
def Tree.setRest : Tree V → Tree V → Tree V
  | .done, u => u
  | .tasklet t _, u => .tasklet t u
  | .ifS g body _, u => .ifS g body u
  | .mapS p r body _, u => .mapS p r body u
  | .forS p r body _, u => .forS p r body u

def Tree.rest : Tree V → Tree V
  | .done => .done
  | .tasklet _ rest => rest
  | .ifS _ _ rest => rest
  | .mapS _ _ _ rest => rest
  | .forS _ _ _ rest => rest

mutual

/-- `_merge_node`, 169-195: rewrite the first node of a list of nodes (the nodes before it are not
touched); the number counts the merges. Bounded by fuel; without fuel nothing is done. -/
def mergeNode (isAxis : Nat → Bool) (axis : Nat) : Nat → Tree V → Tree V × Nat
  | 0, t => (t, 0)
  | _ + 1, .done => (.done, 0)
  | fuel + 1, .mapS p r body rest =>
    -- `_map_overcompute_merge`, 324-396
    if rest.isDone || !isAxis p then
      let b := mergeList isAxis axis fuel body
      (.mapS p r b.1 rest, b.2)
    else
      match mergeMaps isAxis axis (.mapS p r body rest) with
      | some t => (t, 1)
      | none => (.mapS p r body rest, 0)
  | fuel + 1, .forS p r body rest =>
    -- `_for_merge`, 197-214
    match swapFor isAxis (.forS p r body rest) with
    | some (.mapS q s (.forS p' r' inner .done) rest') =>
      let b := mergeList isAxis axis fuel inner
      (.mapS q s (.forS p' r' b.1 .done) rest', b.2 + 1)
    | _ =>
      let b := mergeList isAxis axis fuel body
      (.forS p r b.1 rest, b.2)
  | fuel + 1, .ifS g body rest =>
    -- `_default_control_flow`, 216-220
    let b := mergeList isAxis axis fuel body
    (.ifS g b.1 rest, b.2)
  | fuel + 1, .tasklet t rest =>
    -- `_push_tasklet_down`, 222-249
    if rest.isDone then (.tasklet t rest, 0)
    else
      let n := mergeNode isAxis axis fuel rest
      match pushTasklet (.tasklet t n.1) with
      | some u =>
        let m := mergeNode isAxis axis fuel u
        (m.1, n.2 + m.2)
      | none => (.tasklet t n.1, n.2)

/-- `_merge`, 398-415, and the loop over the children of a map, 331-334: rewrite each node in turn;
a node that was merged with the next one is not looked at again. -/
def mergeList (isAxis : Nat → Bool) (axis : Nat) : Nat → Tree V → Tree V × Nat
  | 0, t => (t, 0)
  | _ + 1, .done => (.done, 0)
  | fuel + 1, t =>
    let n := mergeNode isAxis axis fuel t
    let m := mergeList isAxis axis fuel n.1.rest
    (n.1.setRest m.1, n.2 + m.2)

end

/-- `visit_ScheduleTreeRoot`, 417-467: repeat until a pass merges nothing, and drop the changes of
that pass. -/
def mergeRoot (isAxis : Nat → Bool) (axis : Nat) (fuel : Nat) : Nat → Tree V → Tree V
  | 0, t => t
  | passes + 1, t =>
    let n := mergeList isAxis axis fuel t
    if n.2 = 0 then t else mergeRoot isAxis axis fuel passes n.1

end NDSL.AxisMerge
