import Verif.Model.RefineTransients
import Verif.Spec.AxisMerge
/-
Specification for the refinement of temporaries: the sequence of tasklets a program runs, when an
array is written before it is read, and when it is local to the iterations of a loop.
-/
namespace NDSL.Refine

open NDSL.AxisMerge

variable {V : Type}

/-- One tasklet run, with the values of the iteration variables. -/
abbrev Step (V : Type) := Env × Tasklet V

/-- The tasklets a program runs, in order. -/
def steps (σ : Sched) : Tree V → Env → List (Step V)
  | .done, _ => []
  | .tasklet t rest, env => (env, t) :: steps σ rest env
  | .ifS g body rest, env => (if g.holds env then steps σ body env else []) ++ steps σ rest env
  | .mapS p r body rest, env =>
    ((σ p r.iters).flatMap fun i => steps σ body (env.set p i)) ++ steps σ rest env
  | .forS p r body rest, env =>
    (r.iters.flatMap fun i => steps σ body (env.set p i)) ++ steps σ rest env

/-- The tasklet run reads element `i` of the array. -/
def Reads (d : Nat) (s : Step V) (i : List Int) : Prop :=
  ∃ m ∈ s.2.ins, m.data = d ∧ (relative s.1 m.subset i).isSome

/-- The tasklet run writes element `i` of the array. -/
def Writes (d : Nat) (s : Step V) (i : List Int) : Prop :=
  ∃ m ∈ s.2.outs, m.data = d ∧ (relative s.1 m.subset i).isSome

/-- Each element of the array that is read was written by an earlier tasklet of the sequence. -/
def WrittenFirst (d : Nat) (l : List (Step V)) : Prop :=
  ∀ before s after, l = before ++ s :: after → ∀ i, Reads d s i → ∃ w ∈ before, Writes d w i

/-- The array is only used inside loops or maps over the variable, and each iteration only reads
what the same iteration has written before. -/
def LocalTo (σ : Sched) (d p : Nat) : Tree V → Prop
  | .done => True
  | .tasklet t rest => (∀ m ∈ t.ins ++ t.outs, m.data ≠ d) ∧ LocalTo σ d p rest
  | .ifS _ body rest => LocalTo σ d p body ∧ LocalTo σ d p rest
  | .mapS q r body rest =>
    (if q = p then body.NoBind p ∧
        ∀ env : Env, ∀ i ∈ r.iters, WrittenFirst d (steps σ body (env.set p i))
      else LocalTo σ d p body) ∧ LocalTo σ d p rest
  | .forS q r body rest =>
    (if q = p then body.NoBind p ∧
        ∀ env : Env, ∀ i ∈ r.iters, WrittenFirst d (steps σ body (env.set p i))
      else LocalTo σ d p body) ∧ LocalTo σ d p rest

/-- The ranges are not empty and inside the array. -/
def Within (env : Env) : List Nat → List (Ix × Nat) → Prop
  | [], [] => True
  | n :: shape, s :: ss =>
    (0 ≤ s.1.eval env ∧ 1 ≤ s.2 ∧ s.1.eval env + s.2 ≤ n) ∧ Within env shape ss
  | _, _ => False

/-- All memlets of the tree that are about the array. -/
def accesses (d : Nat) (t : Tree V) : List Memlet :=
  (t.inMemlets ++ t.outMemlets).filter fun m => decide (m.data = d)

/-- The container is a temporary. -/
def IsTransient (cs : Containers) (d : Nat) : Prop := ∃ c, cs d = some c ∧ c.transient = true

/-- All accesses to the array are inside it. -/
def InBounds (σ : Sched) (cs : Containers) (t : Tree V) (env : Env) : Prop :=
  ∀ s ∈ steps σ t env, ∀ m ∈ s.2.ins ++ s.2.outs, ∀ c, cs m.data = some c → c.transient = true →
    Within s.1 c.shape m.subset

/-- The place in memory of an element: the sum of index times stride. -/
def address : List Nat → List Nat → Nat
  | i :: is, s :: ss => i * s + address is ss
  | _, _ => 0

/-- Indices inside a shape. -/
def Inside (shape i : List Nat) : Prop :=
  i.length = shape.length ∧ ∀ (a : Nat) (n x : Nat), shape[a]? = some n → i[a]? = some x → x < n

end NDSL.Refine
