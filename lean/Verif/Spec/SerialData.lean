import Verif.Model.SerialData
import Verif.Spec.StorageData
/-
What C112 speaks of: streams of all ranks that agree on savepoints, fields and shapes, and how a field reaches a test.
-/
namespace NDSL.Serial
open NDSL.Storage (Nd isIndex)

variable {V : Type}

/-- The number of elements of a shape. -/
def elements : List Nat → Nat
  | [] => 1
  | n :: ns => n * elements ns

/-- The axes with which a field of this shape is delivered: a single element loses its first axis. -/
def axes (shape : List Nat) : List Nat := if elements shape = 1 then shape.tail else shape

/-- `out` is how the field `raw` is delivered: the same values, 0 for 1e40; a single element as it is. -/
def Delivers [DecidableEq V] (v : Values V) (raw out : Nd V) : Prop :=
  out.shape = axes raw.shape ∧
  if elements raw.shape = 1 then ∀ idx, isIndex out.shape idx → out.get idx = raw.get (0 :: idx)
  else ∀ idx, isIndex out.shape idx → out.get idx = if raw.get idx = v.fill then v.zero else raw.get idx

/-- The savepoints of a stream with a name, in order. -/
def calls (s : List (Point V)) (name : String) : List (Point V) := s.filter fun p => p.name = name

/-- The streams `st` of all ranks are in the directory, each has `n` savepoints `name`; those of rank 0 have the fields `names`; a field
has one shape everywhere. Ranks other than the first may lack a field, if there is one savepoint and the field is an array. -/
structure Regular (c : Conf) (dir : String → Option (List (Point V))) (name : String) (n : Nat) (st : Nat → List (Point V))
    (names : List String) (shape : String → List Nat) : Prop where
  opened : ∀ r, r < c.ranks → dir ("Generator_rank" ++ toString r) = some (st r)
  some_rank : 0 < c.ranks
  count : ∀ r, r < c.ranks → (calls (st r) name).length = n
  some_call : 0 < n
  first : ∀ p, (calls (st 0) name)[0]? = some p → p.fields.map (·.1) = names
  axis : ∀ x ∈ names, shape x ≠ []
  fields : ∀ r, r < c.ranks → ∀ x ∈ names,
    (∀ p ∈ calls (st r) name, ∃ d, dictGet p.fields x = some d ∧ d.shape = shape x) ∨
    (n = 1 ∧ 0 < r ∧ axes (shape x) ≠ [] ∧ ∀ p ∈ calls (st r) name, dictGet p.fields x = none)

/-- `out` is the array `mid`, without three cells at each side of the first two axes for a tracer at a savepoint of the dynamics. -/
def Trimmed (name x : String) (mid out : Nd V) : Prop :=
  (¬ (special name ∧ tracer x) → out.shape = mid.shape ∧ ∀ idx, isIndex out.shape idx → out.get idx = mid.get idx) ∧
  (special name ∧ tracer x → ∃ a b rest, mid.shape = a :: b :: rest ∧ out.shape = (a - 6) :: (b - 6) :: rest ∧
    ∀ i j r, isIndex out.shape (i :: j :: r) → out.get (i :: j :: r) = mid.get ((i + 3) :: (j + 3) :: r))

/-- The streams `st` of all ranks are in the directory, each has `k` savepoints `name`, one for each block, with the fields `names`, each
of one shape. -/
structure Blocks (c : Conf) (dir : String → Option (List (Point V))) (name : String) (k : Nat) (st : Nat → List (Point V))
    (names : List String) (shape : String → List Nat) : Prop where
  opened : ∀ r, r < c.ranks → dir ("Generator_rank" ++ toString r) = some (st r)
  some_rank : 0 < c.ranks
  count : ∀ r, r < c.ranks → (calls (st r) name).length = k
  some_block : 1 < k
  first : ∀ p, (calls (st 0) name)[0]? = some p → p.fields.map (·.1) = names
  axis : ∀ x ∈ names, shape x ≠ []
  fields : ∀ r, r < c.ranks → ∀ x ∈ names, ∀ p ∈ calls (st r) name, ∃ d, dictGet p.fields x = some d ∧ d.shape = shape x

end NDSL.Serial
