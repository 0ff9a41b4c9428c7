import Verif.Model.Network

/-
Specification of programs of halo updates: all ranks do each operation together.
-/
namespace NDSL
variable {σ μ : Type}

/-- occurrences of an operation among the first `k` of the program -/
def opCount (prog : List NetOp) (o : NetOp) (k : Nat) : Nat := (prog.take k).count o

/-- A legal program: an updater is created before it is used, is not started while in flight, and is waited
for only when in flight. There is no interface synchronisation in it. -/
def LegalProg (prog : List NetOp) : Prop :=
  ∀ k u, (prog[k]? = some (.start u) →
      opCount prog (.start u) k = opCount prog (.wait u) k ∧ u < opCount prog .create k) ∧
    (prog[k]? = some (.wait u) →
      opCount prog (.start u) k = opCount prog (.wait u) k + 1 ∧ u < opCount prog .create k) ∧
    prog[k]? ≠ some .createSync

/-- the peer relation: symmetric, without repetitions, between existing ranks -/
structure GoodPeers (a : App σ μ) : Prop where
  nodup : ∀ u r, (a.nbr u r).Nodup
  range : ∀ u r p, p ∈ a.nbr u r → p < a.ranks
  symm : ∀ u r p, r < a.ranks → p < a.ranks → (p ∈ a.nbr u r ↔ r ∈ a.nbr u p)

/-- A completed receive got its own message: it was sent by a start of the same updater, and if it was
completed by the n-th wait of the updater then it was sent by the n-th start. -/
def OwnUpdate (a : App σ μ) (prog : List NetOp) (e : Rcv) : Prop :=
  e.rank < a.ranks ∧ e.src ∈ a.nbr e.upd e.rank ∧
  prog[e.pc]? = some (.wait e.upd) ∧ prog[e.origin]? = some (.start e.upd) ∧ e.origin < e.pc ∧
  opCount prog (.start e.upd) e.origin = opCount prog (.wait e.upd) e.pc

/-- The reference: data of all ranks, and the messages of the last start of each updater. -/
structure Lock (σ μ : Type) where
  st : Nat → σ
  box : Nat → Nat → Nat → μ

/-- every rank does the operation -/
def Lock.step (a : App σ μ) (l : Lock σ μ) : NetOp → Lock σ μ
  | .create => l
  | .createSync => l
  | .compute c => { l with st := fun r => a.comp c r (l.st r) }
  | .start u => { l with box := fun u' s d => if u' = u then a.pack u s d (l.st s) else l.box u' s d }
  | .wait u => { l with st := fun r => a.unpack u r ((a.nbr u r).map fun p => l.box u p r) (l.st r) }

/-- all ranks together, up to operation `k` -/
def lockstep (a : App σ μ) (prog : List NetOp) (l0 : Lock σ μ) (k : Nat) : Lock σ μ :=
  (prog.take k).foldl (Lock.step a) l0

end NDSL
