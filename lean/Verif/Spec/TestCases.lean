import Verif.Model.TestCases
/-
What the tests against reference data have to do: which savepoints are asked for, on which ranks and calls, and when a case
passes.
-/
namespace NDSL.TestCases

/-- The name is one of those in a text, separated by commas. -/
def Listed (s name : Name) : Prop :=
  ',' ∉ name ∧ ∃ pre post, s = pre ++ (name ++ post) ∧ (pre = [] ∨ ∃ p, pre = p ++ [',']) ∧ (post = [] ∨ ∃ p, post = ',' :: p)

/-- The savepoint is asked for: it is named, or nothing is named and there is data for it; and it is not to be skipped. -/
def Wanted (cfg : Config) (files : List File) (name : Name) : Prop :=
  (match cfg.whichModules with
    | none => ∃ f ∈ files, f.name = name ++ "-In.nc".toList
    | some s => name ≠ [] ∧ Listed s name) ∧
  (match cfg.skipModules with
    | none => True
    | some s => ¬ Listed s name)

/-- The rank is asked for in a serial run: the one given, or all ranks of the topology. -/
def RankWanted (cfg : Config) (rank : Nat) : Prop :=
  match cfg.whichRank with
  | some r => rank = r
  | none => match cfg.topology with
    | .cubedSphere => rank < 6 * cfg.layout.1 * cfg.layout.2
    | .doublyPeriodic => rank < cfg.layout.1 * cfg.layout.2
    | .unknown => False

/-- The call is asked for: the one given, or all calls in the data. -/
def CallWanted (cfg : Config) (f : File) (call : Nat) : Prop :=
  match cfg.whichSavepoint with
  | some k => call = k
  | none => call < f.calls

/-- A specification is for this backend and platform if it names no other. -/
def For {K : Type} (backend platform : Name) (s : Spec K) : Prop :=
  (∀ b, s.backend = some b → b = backend) ∧ ∀ p, s.platform = some p → p = platform

/-- Orders in which a set can be iterated. -/
def IsOrder (order : List Name → List Name) : Prop := ∀ l, (order l).Perm l

/-- What the near-zero entry of a variable is after the specification has been applied. -/
def entryAfter {K : Type} (s : Spec K) (t : Obj K) (n : Name) : Option (NearZero K) :=
  match s.ignore with
  | none => getKey t.ignore n
  | some (.names l) => if n ∈ l then some .yes else getKey t.ignore n
  | some (.values l) => match getKey l n, getKey t.ignore n, s.allOther with
    | some x, _, _ => some (.upTo x)
    | none, some y, _ => some y
    | none, none, none => none
    | none, none, some x => if n ∈ t.outVars.getD [] then some (.upTo x) else none
  | some .other => none

end NDSL.TestCases
