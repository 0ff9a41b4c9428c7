import Verif.Model.DistBuild
/-
Specification for the distributed build.
-/
namespace NDSL.Dist

variable {P : Type} [DecidableEq P]

/-- All ranks call the same programs in the same order, and programs have different names. -/
def SamePrograms (J : Job P) (ps : List Nat) : Prop :=
  (∀ r < J.ranks, J.progs r = ps) ∧ (ps.map J.name).Nodup

/-- For each rank exactly one rank builds for its code path. -/
def OneBuilder (J : Job P) : Prop :=
  ∀ r < J.ranks, ∃ c < J.ranks, J.compiles c = true ∧ J.path c = J.path r ∧
    ∀ c' < J.ranks, J.compiles c' = true → J.path c' = J.path r → c' = c

/-- The events are about ranks of the job. -/
def OfJob (J : Job P) (es : List Ev) : Prop :=
  ∀ e ∈ es, ∃ r < J.ranks, e = .move r ∨ e = .crash r

def NoCrash (es : List Ev) : Prop := ∀ r, Ev.crash r ∉ es

/-- No rank can move. -/
def AtRest (J : Job P) (s : St P) : Prop := ∀ r < J.ranks, J.move s r = none

/-- All ranks have loaded all programs, each the library built in this run for its code path. -/
def AllLoaded (J : Job P) (ps : List Nat) (s : St P) : Prop :=
  ∀ r < J.ranks, (s.rank r).loaded = ps.map fun p => (p, some (J.version (J.path r) p))

end NDSL.Dist
