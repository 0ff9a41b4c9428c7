import Verif.Model.AxisMerge
/-
Specification for the merging of loops: which values a range stands for, which programs are
considered and what a fair order of the iterations of a map is.
-/
namespace NDSL.AxisMerge

variable {V : Type}

/-- `i` is one of `start, start + step, start + 2 step, …` not beyond `stop`. -/
def Rng.Has (r : Rng) (i : Int) : Prop := ∃ n : Nat, i = r.start + n * r.step ∧ i ≤ r.stop

/-- Each map runs each of its iterations exactly once, in some order. -/
def Sched.Fair (σ : Sched) : Prop := ∀ q l, (σ q l).Perm l

/-- Two memlets address the axis with the same single index, relative to the variable `p`. -/
def SameIndex (axis p : Nat) (w m : Memlet) : Prop :=
  ∃ off, w.subset[axis]? = some (Ix.var p off, 1) ∧ m.subset[axis]? = some (Ix.var p off, 1)

/-- Whatever is written is only accessed at the same index along the axis: what one iteration of
the axis writes, no other iteration reads or writes. -/
def Pointwise (axis p : Nat) (t : Tree V) : Prop :=
  ∀ w ∈ t.outMemlets, ∀ m ∈ t.outMemlets ++ t.inMemlets, w.data = m.data → SameIndex axis p w m

/-- No loop or map in the tree runs over the variable. -/
def Tree.NoBind (p : Nat) : Tree V → Prop
  | .done => True
  | .tasklet _ rest => rest.NoBind p
  | .ifS _ body rest => body.NoBind p ∧ rest.NoBind p
  | .mapS q _ body rest => q ≠ p ∧ body.NoBind p ∧ rest.NoBind p
  | .forS q _ body rest => q ≠ p ∧ body.NoBind p ∧ rest.NoBind p

/-- The shape of the trees stencils give: all tasklets are below the same number of nested maps,
steps are positive, no loop runs over the axis variable, and maps over the axis variable are not
nested in each other. -/
def Tree.Layered (p : Nat) : Nat → Tree V → Prop
  | _, .done => True
  | n, .tasklet _ rest => n = 0 ∧ rest.Layered p n
  | n, .ifS _ body rest => body.Layered p n ∧ rest.Layered p n
  | n, .forS q _ body rest => q ≠ p ∧ body.Layered p n ∧ rest.Layered p n
  | 0, .mapS _ _ _ _ => False
  | n + 1, .mapS q r body rest =>
    1 ≤ r.step ∧ (q = p → body.NoBind p) ∧ body.Layered p n ∧ rest.Layered p (n + 1)

/-- No condition in the tree is about the variable. -/
def Tree.NoGuard (a : Nat) : Tree V → Prop
  | .done => True
  | .tasklet _ rest => rest.NoGuard a
  | .ifS g body rest => g.p ≠ a ∧ body.NoGuard a ∧ rest.NoGuard a
  | .mapS _ _ body rest => body.NoGuard a ∧ rest.NoGuard a
  | .forS _ _ body rest => body.NoGuard a ∧ rest.NoGuard a

/-- No memlet in the tree uses the variable. -/
def Tree.NoIndex (a : Nat) (t : Tree V) : Prop :=
  ∀ m ∈ t.outMemlets ++ t.inMemlets, ∀ s ∈ m.subset, ∀ off, s.1 ≠ Ix.var a off

/-- The tree does not mention the variable. -/
def Tree.Free (a : Nat) (t : Tree V) : Prop := t.NoBind a ∧ t.NoGuard a ∧ t.NoIndex a

end NDSL.AxisMerge
