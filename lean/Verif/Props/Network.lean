import Verif.Lemmas.Network

/-! C27, C28: tags, messages and schedules of halo updates. -/
namespace NDSL
variable {σ μ : Type}

/-- C27. At any moment of any run, on every rank the updaters created so far have different tags, and an
updater has the same tag on all ranks that have created it. -/
theorem C27_tags (a : App σ μ) (hp : GoodPeers a) (prog : List NetOp) (hl : LegalProg prog) (atPost : Bool)
    (l0 : Lock σ μ) (sched : List Nat) (g : Net σ μ)
    (hrun : (Net.init l0.st).run a atPost prog sched = some g) :
    (∀ r u v t : Nat, r < a.ranks → (g.rank r).tags[u]? = some t → (g.rank r).tags[v]? = some t → u = v) ∧
    (∀ r r' u t t' : Nat, r < a.ranks → r' < a.ranks → (g.rank r).tags[u]? = some t →
      (g.rank r').tags[u]? = some t' → t = t') := by
  have h := run_inv hl hp sched _ _ (init_inv a prog l0) hrun
  constructor
  · intro r u v t hr h1 h2
    have := tags_get (h.rank r hr) h1
    have := tags_get (h.rank r hr) h2
    omega
  · intro r r' u t t' hr hr' h1 h2
    rw [tags_get (h.rank r hr) h1, tags_get (h.rank r' hr') h2]

/-- C27. In any run, whatever the order in which ranks proceed and in which updates are waited for, every
receive completed by a wait took the message that its peer sent in the start of the same update: same
updater, and the n-th start for the n-th wait. This holds both when receives are matched in the order they
are posted (MPI) and when they are matched as they are waited for (in-process communicator). -/
theorem C27_messages (a : App σ μ) (hp : GoodPeers a) (prog : List NetOp) (hl : LegalProg prog)
    (atPost : Bool) (l0 : Lock σ μ) (sched : List Nat) (g : Net σ μ)
    (hrun : (Net.init l0.st).run a atPost prog sched = some g) :
    ∀ e ∈ g.log, OwnUpdate a prog e :=
  (run_inv hl hp sched _ _ (init_inv a prog l0) hrun).log

/-- C28. No deadlock: in any state reached by any schedule, if some rank has not finished, some rank can
take a step. Schedules are finite: no run has more steps than ranks times operations. -/
theorem C28_no_deadlock (a : App σ μ) (hp : GoodPeers a) (prog : List NetOp) (hl : LegalProg prog)
    (atPost : Bool) (l0 : Lock σ μ) (sched : List Nat) (g : Net σ μ)
    (hrun : (Net.init l0.st).run a atPost prog sched = some g) :
    sched.length ≤ a.ranks * prog.length ∧
    ((∃ r, r < a.ranks ∧ (g.rank r).pc ≠ prog.length) →
      ∃ r, r < a.ranks ∧ ∃ g', g.step a atPost prog r = some g') ∧
    ∃ rest g', (Net.init l0.st).run a atPost prog (sched ++ rest) = some g' ∧
      ∀ r, r < a.ranks → (g'.rank r).pc = prog.length := by
  have hi := init_inv a prog l0
  have h := run_inv hl hp sched _ _ hi hrun
  have hs := run_steps hl hp sched _ _ hi hrun (by intro r; simp [Net.init])
  refine ⟨?_, ?_, ?_⟩
  · have := stepsDone_le (fun r => (g.rank r).pc) prog.length a.ranks (fun r _ => hs.2 r)
    rw [hs.1] at this
    omega
  · rintro ⟨r, hr, hne⟩
    exact progress atPost hl hp h ⟨r, hr, by have := hs.2 r; omega⟩
  · obtain ⟨rest, g', h1, h2⟩ := can_finish atPost hl hp _ g h hs.2 (Nat.le_refl _)
    exact ⟨rest, g', by rw [netRun_append, hrun]; exact h1, h2⟩

/-- C28. Schedule independence: in any state reached by any schedule the data of a rank is what it has, at
the same place of the program, when all ranks proceed together. -/
theorem C28_lockstep (a : App σ μ) (hp : GoodPeers a) (prog : List NetOp) (hl : LegalProg prog)
    (atPost : Bool) (l0 : Lock σ μ) (sched : List Nat) (g : Net σ μ)
    (hrun : (Net.init l0.st).run a atPost prog sched = some g) (r : Nat) (hr : r < a.ranks) :
    (g.rank r).st = (lockstep a prog l0 (g.rank r).pc).st r :=
  ((run_inv hl hp sched _ _ (init_inv a prog l0) hrun).rank r hr).st

/-- C28. Two schedules, with either rule for matching receives, that run all ranks to the end leave the
same data on every rank. -/
theorem C28_schedule_independent (a : App σ μ) (hp : GoodPeers a) (prog : List NetOp)
    (hl : LegalProg prog) (m1 m2 : Bool) (l0 : Lock σ μ) (sched1 sched2 : List Nat) (g1 g2 : Net σ μ)
    (h1 : (Net.init l0.st).run a m1 prog sched1 = some g1)
    (h2 : (Net.init l0.st).run a m2 prog sched2 = some g2)
    (f1 : ∀ r, r < a.ranks → (g1.rank r).pc = prog.length)
    (f2 : ∀ r, r < a.ranks → (g2.rank r).pc = prog.length) (r : Nat) (hr : r < a.ranks) :
    (g1.rank r).st = (g2.rank r).st := by
  rw [C28_lockstep a hp prog hl m1 l0 sched1 g1 h1 r hr, C28_lockstep a hp prog hl m2 l0 sched2 g2 h2 r hr,
    f1 r hr, f2 r hr]

/-! ### Examples -/

/-- two ranks, each the other's peer; a rank's data is the list of what it received after its own
identity; message: sender, updater, data so far -/
def pairApp : App (List Nat) (List Nat) where
  ranks := 2
  nbr _ r := if r = 0 then [1] else if r = 1 then [0] else []
  pack u r _ s := (10 * u + r) :: s
  unpack _ _ ms s := s ++ ms.flatten
  comp c r s := (100 * c + r) :: s

theorem pairApp_good : GoodPeers pairApp := by
  refine ⟨?_, ?_, ?_⟩
  · intro u r; simp only [pairApp]; split_ifs <;> simp
  · intro u r p h
    simp only [pairApp] at h ⊢
    split_ifs at h <;> simp at h <;> omega
  · intro u r p hr hp
    simp only [pairApp] at *
    have : r = 0 ∨ r = 1 := by omega
    have : p = 0 ∨ p = 1 := by omega
    rcases ‹r = 0 ∨ r = 1› with rfl | rfl <;> rcases ‹p = 0 ∨ p = 1› with rfl | rfl <;> simp

/-- decidable form of `LegalProg` at one position -/
def legalAt (prog : List NetOp) (k : Nat) : Bool :=
  match prog[k]? with
  | some (.start u) =>
    decide (opCount prog (.start u) k = opCount prog (.wait u) k ∧ u < opCount prog .create k)
  | some (.wait u) =>
    decide (opCount prog (.start u) k = opCount prog (.wait u) k + 1 ∧ u < opCount prog .create k)
  | some .createSync => false
  | _ => true

theorem legal_of_check {prog : List NetOp} (h : (List.range prog.length).all (legalAt prog) = true) :
    LegalProg prog := by
  rw [List.all_eq_true] at h
  intro k u
  refine ⟨?_, ?_, ?_⟩ <;> intro hk <;>
    have := h k (List.mem_range.2 (List.getElem?_eq_some_iff.1 hk).1) <;>
    simp only [legalAt, hk] at this
  · simpa using this
  · simpa using this
  · cases this

/-- two updates in flight together, waited for in the other order, then one of them again -/
def twoUpdates : List NetOp :=
  [.create, .create, .start 0, .compute 7, .start 1, .wait 1, .wait 0, .start 0, .wait 0]

theorem twoUpdates_legal : LegalProg twoUpdates := legal_of_check (by decide)

/-- a schedule in which rank 0 runs ahead as far as it can, and the final data -/
example : (((Net.init fun r => [r]).run pairApp false twoUpdates
      [0, 0, 0, 0, 0, 1, 1, 1, 1, 1, 0, 0, 0, 1, 1, 1, 0, 1]).map fun g =>
        ((g.rank 0).st, (g.rank 1).st, (g.rank 0).pc, (g.rank 1).pc, g.log.length)) =
    some ([700, 0, 11, 701, 1, 1, 1, 1, 701, 1, 10, 700, 0, 0, 0],
      [701, 1, 10, 700, 0, 0, 0, 0, 700, 0, 11, 701, 1, 1, 1], 9, 9, 6) := by decide +kernel

/-- rank 0 cannot complete its wait before rank 1 has started -/
example : ((Net.init fun r => [r]).run pairApp true twoUpdates [0, 0, 0, 0, 0, 0]).isNone = true := by
  decide +kernel

/-- The restriction to programs without interface synchronisation is needed. A synchronisation started while
the first updater is in flight has the same tag as it; on the in-process communicator, which matches a
receive when it is waited for, waiting for the synchronisation first takes the updater's message. -/
def syncInside : List NetOp := [.create, .createSync, .start 0, .start 1, .wait 1, .wait 0]

theorem C27_interface_sync_violated : ∃ g, (Net.init fun r => [r]).run pairApp false syncInside
      [0, 0, 0, 0, 1, 1, 1, 1, 0, 0, 1, 1] = some g ∧
    (g.rank 0).tags = [1, 1] ∧
    (g.log.any fun e => decide (e.upd = 1 ∧ syncInside[e.origin]? = some (.start 0))) = true := by
  refine ⟨_, rfl, ?_, ?_⟩ <;> decide +kernel

end NDSL
