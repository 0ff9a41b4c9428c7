import Verif.Model.Streams
/-
What a halo update is to do, said without kernels, buffers or offsets, and when a program of the user is free of races.
-/
namespace NDSL.Streams
section
variable {S L V : Type} [DecidableEq S] [DecidableEq L]

/-- Two threads touch the same place and at least one writes it. -/
def Conflict (a b : Op L V) : Prop := a.dst = b.dst ∨ a.dst = b.src ∨ b.dst = a.src

/-- No two of the threads conflict. -/
def NoRace (ops : List (Op L V)) : Prop := ops.Pairwise fun a b => ¬ Conflict a b

/-- Threads one after the other. -/
def runOps (ops : List (Op L V)) (m : L → V) : L → V := ops.foldl (fun m o => o.run m) m

/-- What the launches give one after the other, as if the host waited for each. -/
def seq (p : List (Act S L V)) (m : L → V) : L → V :=
  p.foldl (fun m a => match a with | .launch _ k => runOps k m | _ => m) m

/-- Exactly `n` steps. -/
inductive StepsN : Nat → State S L V → State S L V → Prop where
  | refl {a} : StepsN 0 a a
  | tail {n a b c} (h : StepsN n a b) (s : Step b c) : StepsN (n + 1) a c

/-- A step of the host for each action, one for each thread, and one to end each kernel. -/
def work (p : List (Act S L V)) : Nat := (p.map fun a => match a with | .launch _ k => k.length + 2 | _ => 1).sum

/-- `P s o`: the thread `o` may be pending on `s`. Every launch is without conflict with what may be pending on other
streams. -/
def Safe : (S → Op L V → Prop) → List (Act S L V) → Prop
  | _, [] => True
  | P, .launch s k :: r =>
    NoRace k ∧ (∀ s', s' ≠ s → ∀ p, P s' p → ∀ o ∈ k, ¬ Conflict p o) ∧ Safe (fun s' o => P s' o ∨ (s' = s ∧ o ∈ k)) r
  | P, .sync s :: r => Safe (fun s' o => s' ≠ s ∧ P s' o) r
  | _, .syncAll :: r => Safe (fun _ _ => False) r

/-- A program without races, when nothing is pending at the beginning. -/
def RaceFree (p : List (Act S L V)) : Prop := Safe (fun _ _ => False) p

end

/-! ### The user -/

def IsQty : Loc → Prop
  | .qty _ _ _ => True
  | _ => False

/-- Launches and synchronisations of the user, on streams of the user, with threads that touch quantities. -/
def UserOnly {V : Type} (p : List (Act Stream Loc V)) : Prop := ∀ a ∈ p, match a with
  | .launch s k => (∃ n, s = .user n) ∧ ∀ o ∈ k, IsQty o.src ∧ IsQty o.dst
  | .sync s => ∃ n, s = .user n
  | .syncAll => True

/-- No thread reads or writes one of these places. -/
def Avoids {V : Type} (p : List (Act Stream Loc V)) (ls : List Loc) : Prop := ∀ a ∈ p, match a with
  | .launch _ k => ∀ o ∈ k, o.src ∉ ls ∧ o.dst ∉ ls
  | _ => True

/-! ### The update -/

/-- A quarter turn of a vector. -/
def turn {V : Type} [Neg V] (v : List V × List V) : List V × List V := (v.2, v.1.map (- ·))

/-- The vector after that many quarter turns. -/
def turned {V : Type} [Neg V] : Nat → List V × List V → List V × List V
  | 0, v => v
  | n + 1, v => turn (turned n v)

/-- What one quantity contributes to a message. -/
def contribution {V : Type} [Neg V] (m : Loc → V) (vector : Bool) (k : Nat) (info : Info) : List V :=
  let x := info.sendX.map fun i => m (.qty false k i)
  let y := info.sendY.map fun i => m (.qty true k i)
  if vector then (turned info.rotate (x, y)).1 ++ (turned info.rotate (x, y)).2 else x

/-- What is sent to a neighbour. -/
def message {V : Type} [Neg V] (m : Loc → V) (t : Trans) : List V :=
  t.infos.zipIdx.flatMap fun p => contribution m t.vector p.2 p.1

/-- The points whose values come from a neighbour, in the order of its message. -/
def halo (t : Trans) : List Loc :=
  t.infos.zipIdx.flatMap fun p =>
    (p.1.recvX.map fun i => Loc.qty false p.2 i) ++ if t.vector then p.1.recvY.map fun i => Loc.qty true p.2 i else []

/-- Every halo point with the place of the message it comes from. -/
def received (ts : List Trans) : List (Loc × Loc) :=
  ts.flatMap fun t => (halo t).zipIdx.map fun p => (p.1, Loc.inbox t.rank p.2)

/-- Memory with the halos filled from the messages. -/
def filled {V : Type} (ts : List Trans) (m : Loc → V) : Loc → V := fun l =>
  match (received ts).find? fun p => p.1 = l with
  | some p => m p.2
  | none => m l

/-- A set of transformers as `HaloUpdater` makes it: one for each rank, with quarter turns, an element type with kernels,
messages as long as what is filled from them, and no halo point filled twice. -/
structure Proper (ts : List Trans) : Prop where
  ranks : (ts.map fun t => t.rank).Nodup
  supported : ∀ t ∈ ts, t.supported = true
  turns : ∀ t ∈ ts, ∀ i ∈ t.infos, i.rotate < 4
  sizes : ∀ t ∈ ts, (halo t).length = (t.infos.map (sendSize t.vector)).sum
  once : (ts.flatMap halo).Nodup

end NDSL.Streams
