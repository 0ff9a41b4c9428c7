import Verif.Model.AxisMerge
/-
Model of the schedule tree optimisation `CartesianRefineTransients`
(`ndsl/dsl/dace/stree/optimizations/refine_transients.py`), on the trees of `Model/AxisMerge.lean`:
an axis of a temporary array is reduced to a single element.

Simplifications: DaCe's `subsets.union` gives the smallest box around two ranges; only whether that
box has one element along an axis matters here, so the union of two different index expressions
along an axis, or of anything longer than one element, is "more than one element". (DaCe compares
index expressions as polynomials in symbols; here they are a variable plus a number, or a number.)
Containers that are not DaCe arrays count as not transient. The lifetime of the array (75), the
warning for arrays with fewer than three dimensions (40-45) and the logging are left out. Memory
shared by iterations that run at the same time is not modelled: the iterations of a map run one
after the other, in any order.
-/
namespace NDSL.Refine

open NDSL.AxisMerge

variable {V : Type}

/-- A container of the tree: `shape`, `strides` and whether it is a transient array. -/
structure Container where
  shape : List Nat
  strides : List Nat
  transient : Bool
  deriving DecidableEq, Repr

/-- `ScheduleTreeRoot.containers`: by name. -/
abbrev Containers := Nat → Option Container

/-- What is known of a union of ranges, for each dimension: the index, if it is one element. -/
abbrev Box := List (Option Ix)

/-- The box of one memlet. -/
def boxOf (m : Memlet) : Box := m.subset.map fun s => if s.2 = 1 then some s.1 else none

/-- One dimension of a union of two boxes. -/
def joinIx (a b : Option Ix) : Option Ix := if a = b then a else none

/-- `dace.subsets.union`; `None` stands for no range at all. -/
def union : Option Box → Option Box → Option Box
  | none, b => b
  | a, none => a
  | some a, some b => some (List.zipWith joinIx a b)

/-- The union part of `_record_access`, 117-134, over the memlets of a whole tree. -/
def record (d : Nat) (ms : List Memlet) : Option Box :=
  ms.foldl (fun acc m => if m.data = d then union acc (some (boxOf m)) else acc) none

/-- `visit_TaskletNode`, 153-155: what is read is recorded as written and the other way round. -/
def rangeWrites (d : Nat) (t : Tree V) : Option Box := record d t.inMemlets
def rangeReads (d : Nat) (t : Tree V) : Option Box := record d t.outMemlets

/-- Whether a tasklet has a memlet of the container. -/
def touches (d : Nat) (t : Tasklet V) : Bool := (t.ins ++ t.outs).any fun m => decide (m.data = d)

/-- Whether the container is accessed by a tasklet that is not below a map over the axis. -/
def accessedHere (isAxis : Nat → Bool) (d : Nat) : Tree V → Bool
  | .done => false
  | .tasklet t rest => touches d t || accessedHere isAxis d rest
  | .ifS _ body rest => accessedHere isAxis d body || accessedHere isAxis d rest
  | .mapS p _ body rest => (!isAxis p && accessedHere isAxis d body) || accessedHere isAxis d rest
  | .forS _ _ body rest => accessedHere isAxis d body || accessedHere isAxis d rest

/-- `_find_first_map_or_loop`, 101-115, and the recording of maps, 136-151: the number of maps over
the axis that are the innermost such map around some access to the container. Sequential loops do
not count. -/
def mapCount (isAxis : Nat → Bool) (d : Nat) : Tree V → Nat
  | .done => 0
  | .tasklet _ rest => mapCount isAxis d rest
  | .ifS _ body rest => mapCount isAxis d body + mapCount isAxis d rest
  | .mapS p _ body rest =>
    (if isAxis p && accessedHere isAxis d body then 1 else 0) + mapCount isAxis d body
      + mapCount isAxis d rest
  | .forS _ _ body rest => mapCount isAxis d body + mapCount isAxis d rest

/-- `_change_index_of_tuple`, 11-23. -/
def changeIndex (l : List Nat) (index value : Nat) : List Nat := l.set index value

/-- The order of the dimensions, 67-73. -/
def layoutOf (layoutMap : List Nat) (n : Nat) : List Nat :=
  if n = 3 then layoutMap
  else layoutMap.map (· + (n - 3)) ++ (List.range (n - 3)).reverse

/-- DaCe's `set_strides_from_layout`, called in 74: the first dimension listed is contiguous. -/
def stridesGo (shape : List Nat) : List Nat → Nat → List Nat → List Nat
  | [], _, strides => strides
  | d :: ds, total, strides =>
    stridesGo shape ds (total * shape.getD d 1) (strides.set d total)

def stridesFor (shape layout : List Nat) : List Nat :=
  stridesGo shape layout 1 (shape.map fun _ => 0)

/-- `_reduce_cartesian_axis_size_to_1`, 26-76. -/
def reduceAxis (layoutMap : List Nat) (axis : Nat) (reads writes : Option Box) (c : Container) :
    Container × Bool :=
  if c.shape.length < 3 then (c, false)
  else
    match union reads writes with
    | none => (c, false)
    | some box =>
      match box[axis]? with
      | some (some _) =>
        let shape := changeIndex c.shape axis 1
        ({ c with shape := shape, strides := stridesFor shape (layoutOf layoutMap shape.length) },
          true)
      | _ => (c, false)

/-- One round of the loop over the axes, 271-290: arrays used in several maps are left alone. -/
def refineAxis (layoutMap : List Nat) (isAxis : Nat → Nat → Bool) (d : Nat) (t : Tree V) (axis : Nat)
    (c : Container) : Container :=
  if mapCount (isAxis axis) d t > 1 then c
  else (reduceAxis layoutMap axis (rangeReads d t) (rangeWrites d t) c).1

/-- The loop over the axes for one container, 267-290. -/
def refineContainer (layoutMap : List Nat) (isAxis : Nat → Nat → Bool) (d : Nat) (t : Tree V)
    (c : Container) : Container :=
  if c.transient then
    refineAxis layoutMap isAxis d t 2
      (refineAxis layoutMap isAxis d t 1 (refineAxis layoutMap isAxis d t 0 c))
  else c

/-- The containers after the loop of `visit_ScheduleTreeRoot`, 267-293. -/
def refineContainers (layoutMap : List Nat) (isAxis : Nat → Nat → Bool) (cs : Containers)
    (t : Tree V) : Containers :=
  fun d => (cs d).map (refineContainer layoutMap isAxis d t)

/-- The ranges of a memlet after `RebuildMemletsFromContainers.visit_TaskletNode`, 190-194. -/
def rebuildSubset : List Nat → List (Ix × Nat) → List (Ix × Nat)
  | n :: shape, s :: ss => (if n = 1 then (Ix.const 0, 1) else s) :: rebuildSubset shape ss
  | _, ss => ss

/-- `RebuildMemletsFromContainers.visit_TaskletNode`, 177-194; all transient arrays are in the set
of refined arrays (293), whether or not they were reduced. -/
def rebuildMemlet (cs : Containers) (m : Memlet) : Memlet :=
  match cs m.data with
  | none => m
  | some c => if c.transient then { m with subset := rebuildSubset c.shape m.subset } else m

def rebuildTasklet (cs : Containers) (t : Tasklet V) : Tasklet V :=
  ⟨t.ins.map (rebuildMemlet cs), t.outs.map (rebuildMemlet cs), t.f⟩

/-- `RebuildMemletsFromContainers.visit_ScheduleTreeRoot`, 196-199. -/
def rebuild (cs : Containers) : Tree V → Tree V
  | .done => .done
  | .tasklet t rest => .tasklet (rebuildTasklet cs t) (rebuild cs rest)
  | .ifS g body rest => .ifS g (rebuild cs body) (rebuild cs rest)
  | .mapS p r body rest => .mapS p r (rebuild cs body) (rebuild cs rest)
  | .forS p r body rest => .forS p r (rebuild cs body) (rebuild cs rest)

/-- `CartesianRefineTransients.visit_ScheduleTreeRoot`, 261-297. -/
def refine (layoutMap : List Nat) (isAxis : Nat → Nat → Bool) (cs : Containers) (t : Tree V) :
    Containers × Tree V :=
  let cs' := refineContainers layoutMap isAxis cs t
  (cs', rebuild cs' t)

end NDSL.Refine
