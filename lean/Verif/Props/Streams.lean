import Verif.Lemmas.HaloSafe
/-
C106: a halo update on a GPU. Kernels on several streams, transfers of MPI and kernels of the user run at the same time, in
any order the streams allow; the result does not depend on it.
-/
namespace NDSL
open Streams
variable {V : Type} [Neg V]

/-- For every program of the user around an update, and every way of running it: the quantities hold what the launches of the
user give one after the other, with the halos filled in from the messages where the update is waited for; and the messages
sent are the values at the start of the update, turned for the neighbour. What the user launches between start and wait may
use anything but the halos that are filled. -/
theorem C106_update (hneg : ∀ v : V, - -v = v) (ts : List Trans) (h : Proper ts) (user mid post : List (Act Stream Loc V))
    (uu : UserOnly user) (um : UserOnly mid) (up : UserOnly post) (am : Avoids mid (ts.flatMap halo))
    (hu : RaceFree user) (hm : RaceFree (mid ++ post)) (m : Loc → V) (τ : State Stream Loc V)
    (hs : Steps (begin m (user ++ start ts ++ mid ++ wait ts ++ post ++ [.syncAll])) τ) (hend : τ.prog = []) :
    (∀ l, IsQty l → τ.mem l = seq post (filled ts (seq mid (seq user m))) l) ∧
    ∀ t ∈ ts, ∀ i, τ.mem (.outbox t.rank i) = ((message (seq user m) t)[i]?).getD (m (.outbox t.rank i)) := by
  obtain ⟨hm1, hm2⟩ := safe_split hm
  have hsafe : RaceFree (user ++ (start ts ++ (mid ++ (wait ts ++ (post ++ [.syncAll]))))) :=
    safe_update h hu hm1 um am (safe_append hm2 trivial)
  rw [List.append_assoc, List.append_assoc, List.append_assoc, List.append_assoc] at hs
  obtain ⟨-, hmem⟩ := safe_result hsafe (fun s hd => by
    rw [dirty_append, dirty_append, dirty_append, dirty_append, dirty_append] at hd
    exact hd) hs hend
  rw [seq_append, seq_append, seq_append, seq_append, seq_append] at hmem
  have hlast : ∀ m : Loc → V, seq [(Act.syncAll : Act Stream Loc V)] m = m := fun _ => rfl
  rw [hlast] at hmem
  constructor
  · intro l hl
    rw [hmem]
    exact seq_congr post IsQty (fun s o hd => (does_user up hd).2.1) _ _ (fun l hl => seq_update h um _ l hl) l hl
  · intro t ht i
    have hn : ∀ p : List (Act Stream Loc V), UserOnly p → ∀ m, seq p m (.outbox t.rank i) = m (.outbox t.rank i) :=
      fun p hp m => seq_other p m _ fun s o hd e => by
        have := (does_user hp hd).2.2
        rw [e] at this
        exact this
    rw [hmem, hn post up, seq_wait, run_other, hn mid um, start_outbox h hneg _ ht, hn user uu]
    intro o ho e
    obtain ⟨t', _, j, l, hl, rfl⟩ := (mem_unpacks h o).mp ho
    have := halo_qty t' l (List.mem_of_getElem? hl)
    simp only at e
    rw [e] at this
    exact this

/-- When the update has been waited for, nothing of it is running any more: only streams of the user may be in use. -/
theorem C106_finished (ts : List Trans) (h : Proper ts) (user mid : List (Act Stream Loc V))
    (uu : UserOnly user) (um : UserOnly mid) (am : Avoids mid (ts.flatMap halo))
    (hu : RaceFree user) (hm : RaceFree mid) (m : Loc → V) (τ : State Stream Loc V)
    (hs : Steps (begin m (user ++ start ts ++ mid ++ wait ts)) τ) (hend : τ.prog = []) (s : Stream)
    (hstream : ∀ n, s ≠ .user n) : τ.queue s = [] := by
  have hsafe : RaceFree (user ++ (start ts ++ (mid ++ (wait ts ++ [])))) := safe_update h hu hm um am trivial
  rw [List.append_nil] at hsafe
  rw [List.append_assoc, List.append_assoc] at hs
  exact clean_stream hsafe hs hend s (clean_update uu um s hstream)

/-- The host never waits for ever, whatever the program: an execution takes a bounded number of steps, and when nothing can
be done any more the host has finished and nothing is pending. -/
theorem C106_ends (p : List (Act Stream Loc V)) (m : Loc → V) (n : Nat) (τ : State Stream Loc V)
    (hs : StepsN n (begin m p) τ) :
    n ≤ work p ∧
    ((∀ τ', ¬ Step τ τ') → τ.prog = [] ∧ ∀ s, τ.queue s = []) := by
  obtain ⟨G, _, hb⟩ := bounded hs
  refine ⟨Nat.le.intro hb, fun hstop => ?_⟩
  have hp : τ.prog = [] := Classical.byContradiction fun hne => by
    obtain ⟨τ', h'⟩ := progress τ hne
    exact hstop τ' h'
  refine ⟨hp, fun s => ?_⟩
  obtain ⟨mem, q, prog⟩ := τ
  cases hk : q s with
  | nil => exact hk
  | cons k rest =>
    cases k with
    | nil => exact absurd (.finish hk) (hstop _)
    | cons o k => exact absurd (.thread (pre := []) hk) (hstop _)

/-! ### A case -/

/-- Two neighbours and two quantities, vectors; the first neighbour is turned by a quarter. -/
def streamCase : List Trans :=
  [⟨1, [⟨0, [2, 3], [0, 1], [2, 3], [0, 1], 1⟩, ⟨1, [2], [0], [2], [0], 1⟩], true, true⟩,
   ⟨4, [⟨0, [2, 4], [5, 6], [2, 4], [5, 6], 0⟩, ⟨2, [4], [6], [4], [6], 2⟩], true, true⟩]

theorem streamCase_proper : Proper streamCase :=
  ⟨by decide, by decide, by decide, by decide, by decide⟩

/-- A kernel of the user that overwrites what was sent. -/
def streamMid : List (Act Stream Loc Int) := [.launch (.user 0) [⟨.qty false 0 4, .qty false 0 2, (· + 1)⟩]]

/-- A kernel that reads a halo point. -/
def streamPost : List (Act Stream Loc Int) := [.launch (.user 0) [⟨.qty true 0 0, .qty true 1 9, id⟩]]

theorem streamMid_user : UserOnly streamMid := by
  intro a ha
  simp only [streamMid, List.mem_singleton] at ha
  subst ha
  exact ⟨⟨0, rfl⟩, fun o ho => by rw [List.mem_singleton] at ho; subst ho; exact ⟨trivial, trivial⟩⟩

theorem streamPost_user : UserOnly streamPost := by
  intro a ha
  simp only [streamPost, List.mem_singleton] at ha
  subst ha
  exact ⟨⟨0, rfl⟩, fun o ho => by rw [List.mem_singleton] at ho; subst ho; exact ⟨trivial, trivial⟩⟩

theorem streamMid_avoids : Avoids streamMid (streamCase.flatMap halo) := by
  intro a ha
  simp only [streamMid, List.mem_singleton] at ha
  subst ha
  exact fun o ho => by rw [List.mem_singleton] at ho; subst ho; decide

theorem stream_raceFree : RaceFree (streamMid ++ streamPost) :=
  ⟨List.pairwise_singleton _ _, fun _ _ _ h => h.elim, List.pairwise_singleton _ _,
    fun s' hs' p hp => by rcases hp with hp | hp; exact hp.elim; exact absurd hp.1 hs', trivial⟩

/-- A memory in which every place holds something else. -/
def streamMem : Loc → Int
  | .qty y k i => 100 * (k + 1) + 10 * (if y then 1 else 0) + i
  | .inbox t i => 1000 * t + i
  | _ => -1

example : ∃ τ : State Stream Loc Int,
    Steps (begin streamMem ([] ++ start streamCase ++ streamMid ++ wait streamCase ++ streamPost ++ [.syncAll])) τ ∧ τ.prog = [] ∧
    τ.mem (.qty true 0 0) = 1002 ∧ τ.mem (.qty true 1 9) = 1002 ∧ τ.mem (.qty false 0 2) = 105 ∧
    (List.range 6).map (fun i => τ.mem (.outbox 1 i)) = [112, 113, -102, -103, 212, -202] := by
  refine ⟨⟨seq (start streamCase ++ streamMid ++ wait streamCase ++ streamPost ++ [.syncAll]) streamMem, fun _ => [], []⟩, ?_, rfl, ?_⟩
  · have := steps_seq streamMem (fun _ => []) ([] ++ start streamCase ++ streamMid ++ wait streamCase ++ streamPost ++ [.syncAll])
      [] (fun a _ => by cases a <;> first | exact rfl | exact fun _ => rfl)
    rw [List.append_nil] at this
    exact this
  · decide +kernel

/-! ### What does not hold -/

/-- One neighbour, one quantity of an element type without kernels. -/
def streamInts : List Trans := [⟨1, [⟨0, [1], [0], [], [], 0⟩], false, false⟩]

/-- (Not so: an element type without kernels is refused. The exception is made but not raised: the update runs to its end,
sends what the buffer held before, and the halo stays as it was.) -/
theorem C106_dtype_violated : ∃ (m : Loc → Int) (τ : State Stream Loc Int),
    Steps (begin m (start streamInts ++ wait streamInts)) τ ∧ τ.prog = [] ∧ (∀ s, τ.queue s = []) ∧
    τ.mem (.qty false 0 0) = m (.qty false 0 0) ∧ τ.mem (.qty false 0 0) ≠ m (.inbox 1 0) ∧
    τ.mem (.outbox 1 0) = m (.pack 1 0) ∧ τ.mem (.outbox 1 0) ≠ m (.qty false 0 1) := by
  refine ⟨streamMem, ⟨seq (start streamInts ++ wait streamInts) streamMem, fun _ => [], []⟩, ?_, rfl, fun _ => rfl, ?_⟩
  · have := steps_seq streamMem (fun _ => []) (start streamInts ++ wait streamInts) []
      (fun a _ => by cases a <;> first | exact rfl | exact fun _ => rfl)
    rw [List.append_nil] at this
    exact this
  · decide +kernel

/-- One neighbour, one quantity. -/
def streamOne : List Trans := [⟨1, [⟨0, [1], [0], [], [], 0⟩], false, true⟩]

/-- A kernel that reads the halo, launched while the update is under way. -/
def streamEarly : Act Stream Loc Int := .launch (.user 0) [⟨.qty false 0 0, .qty false 0 5, id⟩]

/-- (Not so: what was launched before the wait sees the halo as it was then. The wait does not wait for the user's streams: a
kernel that reads a halo point may read the old value or the new one.) -/
theorem C106_overlap_violated : ∃ (m : Loc → Int) (τ τ' : State Stream Loc Int),
    Steps (begin m (start streamOne ++ [streamEarly] ++ wait streamOne)) τ ∧
    Steps (begin m (start streamOne ++ [streamEarly] ++ wait streamOne)) τ' ∧
    τ.prog = [] ∧ τ'.prog = [] ∧ (∀ s, τ.queue s = []) ∧ (∀ s, τ'.queue s = []) ∧
    τ.mem (.qty false 0 5) = m (.qty false 0 0) ∧ τ'.mem (.qty false 0 5) = m (.inbox 1 0) ∧
    τ.mem (.qty false 0 5) ≠ τ'.mem (.qty false 0 5) := by
  refine ⟨streamMem, ⟨seq (start streamOne ++ [streamEarly] ++ wait streamOne) streamMem, fun _ => [], []⟩,
    ⟨runOps [⟨.qty false 0 0, .qty false 0 5, id⟩] (seq (wait streamOne) (seq (start streamOne) streamMem)),
      setQueue (setQueue (fun _ => []) (.user 0) [[⟨.qty false 0 0, .qty false 0 5, id⟩]]) (.user 0) [], []⟩,
    ?_, ?_, rfl, rfl, fun _ => rfl, fun s => ?_, ?_⟩
  · have := steps_seq streamMem (fun _ => []) (start streamOne ++ [streamEarly] ++ wait streamOne) []
      (fun a _ => by cases a <;> first | exact rfl | exact fun _ => rfl)
    rw [List.append_nil] at this
    exact this
  · have h1 := steps_seq streamMem (fun _ => []) (start streamOne) ([streamEarly] ++ wait streamOne)
      (fun a _ => by cases a <;> first | exact rfl | exact fun _ => rfl)
    rw [← List.append_assoc] at h1
    refine steps_trans h1 ?_
    refine steps_trans (.tail .refl .launch) ?_
    have h2 := steps_seq (seq (start streamOne) streamMem)
      (setQueue (fun _ => []) (.user 0) [[⟨.qty false 0 0, .qty false 0 5, id⟩]]) (wait streamOne) [] (fun a ha => by
        simp only [wait, streamOne, launches, unpackLaunches, syncs, List.map_cons, List.map_nil, List.flatMap_cons, List.flatMap_nil,
          if_true, List.append_nil, List.cons_append, List.nil_append, List.mem_cons, List.not_mem_nil, or_false] at ha
        rcases ha with rfl | rfl | rfl | rfl <;> rfl)
    rw [List.append_nil] at h2
    refine steps_trans h2 ?_
    exact steps_kernel _ _ _ _ _ _ (setQueue_self _ _ _)
  · show setQueue (setQueue (fun _ => []) (.user 0) _) (.user 0) [] s = []
    unfold setQueue
    by_cases h : s = .user 0
    · rw [if_pos h]
    · rw [if_neg h, if_neg h]
  · decide +kernel

end NDSL
