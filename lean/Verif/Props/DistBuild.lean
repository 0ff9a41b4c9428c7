import Verif.Spec.DistBuild
import Verif.Props.Compile
import Mathlib.Data.List.Nodup
import Mathlib.Tactic.Tauto
/-
C90: the distributed build.
-/
namespace NDSL.Dist

variable {P : Type} [DecidableEq P]

/-- Whether the rank has entered the barrier of its current program. -/
def Phase.late : Phase → Nat
  | .waiting | .load => 1
  | _ => 0

/-- The moves, one by one. -/
theorem move_cases {J : Job P} {s s' : St P} {r : Nat} (h : J.move s r = some s') :
    ∃ p rest, (s.rank r).alive = true ∧ (s.rank r).todo = p :: rest ∧
      (((s.rank r).phase = .start ∧ J.compiles r = true ∧
          s' = (s.write (J.path r) (J.name p) none).put r { s.rank r with phase := .compiling }) ∨
       ((s.rank r).phase = .start ∧ J.compiles r = false ∧
          s' = s.put r { s.rank r with phase := .ready }) ∨
       ((s.rank r).phase = .compiling ∧
          s' = (s.write (J.path r) (J.name p) (some (J.version (J.path r) p))).put r
            { s.rank r with phase := .ready }) ∨
       ((s.rank r).phase = .ready ∧
          s' = s.put r { s.rank r with phase := .waiting, entered := (s.rank r).entered + 1 }) ∨
       ((s.rank r).phase = .waiting ∧ (∀ q < J.ranks, (s.rank r).entered ≤ (s.rank q).entered) ∧
          s' = s.put r { s.rank r with phase := .load }) ∨
       ((s.rank r).phase = .load ∧
          s' = s.put r { s.rank r with
            phase := .start, todo := rest,
            loaded := (s.rank r).loaded ++ [(p, s.files (J.path r) (J.name p))] })) := by
  unfold Job.move at h
  cases ha : (s.rank r).alive with
  | false => simp only [ha] at h; cases h
  | true =>
    cases ht : (s.rank r).todo with
    | nil => simp only [ha, ht] at h; cases h
    | cons p rest =>
      refine ⟨p, rest, rfl, rfl, ?_⟩
      cases hp : (s.rank r).phase with
      | start =>
        simp only [ha, ht, hp] at h
        cases hc : J.compiles r with
        | true => rw [hc, if_pos rfl] at h; exact .inl ⟨rfl, rfl, by rw [← Option.some.inj h]; simp only [ha, ht]⟩
        | false =>
          rw [hc, if_neg (by decide)] at h
          exact .inr (.inl ⟨rfl, rfl, by rw [← Option.some.inj h]; simp only [ha, ht]⟩)
      | compiling =>
        simp only [ha, ht, hp] at h
        exact .inr (.inr (.inl ⟨rfl, by rw [← Option.some.inj h]; simp only [ha, ht]⟩))
      | ready =>
        simp only [ha, ht, hp] at h
        exact .inr (.inr (.inr (.inl ⟨rfl, by rw [← Option.some.inj h]; simp only [ha, ht]⟩)))
      | waiting =>
        simp only [ha, ht, hp] at h
        by_cases ho : J.open s r = true
        · rw [if_pos ho] at h
          refine .inr (.inr (.inr (.inr (.inl ⟨rfl, ?_, by rw [← Option.some.inj h]; simp only [ha, ht]⟩))))
          intro q hq
          unfold Job.open at ho
          rw [List.all_eq_true] at ho
          simpa using ho q (List.mem_range.mpr hq)
        · rw [if_neg ho] at h; cases h
      | load =>
        simp only [ha, ht, hp] at h
        exact .inr (.inr (.inr (.inr (.inr ⟨rfl, by rw [← Option.some.inj h]; simp only [ha, ht]⟩))))

/-- What holds in all reachable states. -/
structure Inv (J : Job P) (ps : List Nat) (s : St P) : Prop where
  todo : ∀ r < J.ranks, (s.rank r).todo = ps.drop (s.rank r).loaded.length
  len : ∀ r < J.ranks, (s.rank r).loaded.length ≤ ps.length
  idle : ∀ r < J.ranks, (s.rank r).todo = [] → (s.rank r).phase = .start
  ent : ∀ r < J.ranks, (s.rank r).entered = (s.rank r).loaded.length + (s.rank r).phase.late
  sync : ∀ r < J.ranks, ∀ q < J.ranks, (s.rank r).loaded.length ≤ (s.rank q).entered
  load : ∀ r < J.ranks, ∀ q < J.ranks, (s.rank r).phase = .load →
    (s.rank r).loaded.length + 1 ≤ (s.rank q).entered
  comp : ∀ r < J.ranks, (s.rank r).phase = .compiling → J.compiles r = true
  built : ∀ c < J.ranks, J.compiles c = true → ∀ (j p : Nat), ps[j]? = some p →
    j < (s.rank c).entered ∨ (j = (s.rank c).entered ∧ (s.rank c).phase = .ready) →
    s.files (J.path c) (J.name p) = some (J.version (J.path c) p)
  good : ∀ r < J.ranks, (s.rank r).loaded =
    (ps.take (s.rank r).loaded.length).map fun p => (p, some (J.version (J.path r) p))

theorem inv_init (J : Job P) (ps : List Nat) (h : SamePrograms J ps) (files : P → Nat → Option Nat) :
    Inv J ps (J.init files) := by
  refine ⟨?_, ?_, ?_, ?_, ?_, ?_, ?_, ?_, ?_⟩
  · intro r hr; simpa [Job.init] using h.1 r hr
  · intro r hr; simp [Job.init]
  · intro r hr _; rfl
  · intro r hr; rfl
  · intro r hr q hq; simp [Job.init]
  · intro r hr q hq h; cases h
  · intro r hr h; cases h
  · intro c hc _ j p _ h
    rcases h with h | ⟨_, h⟩
    · simp [Job.init] at h
    · cases h
  · intro r hr; simp [Job.init]

theorem put_self (s : St P) (r : Nat) (x : Rank) : (s.put r x).rank r = x := by simp [St.put]
theorem put_ne (s : St P) (r q : Nat) (x : Rank) (h : q ≠ r) : (s.put r x).rank q = s.rank q := by
  simp [St.put, h]
theorem put_files (s : St P) (r : Nat) (x : Rank) : (s.put r x).files = s.files := rfl
theorem write_rank (s : St P) (a : P) (n : Nat) (v : Option Nat) : (s.write a n v).rank = s.rank := rfl

/-- A step that changes one rank and does not touch libraries. -/
theorem inv_put {J : Job P} {ps : List Nat} {s : St P} (h : Inv J ps s) (r : Nat) (x : Rank)
    (hr : r < J.ranks)
    (todo : x.todo = ps.drop x.loaded.length) (len : x.loaded.length ≤ ps.length)
    (idle : x.todo = [] → x.phase = .start)
    (ent : x.entered = x.loaded.length + x.phase.late)
    (mono : (s.rank r).entered ≤ x.entered)
    (sync : ∀ q < J.ranks, q ≠ r → x.loaded.length ≤ (s.rank q).entered)
    (load : ∀ q < J.ranks, q ≠ r → x.phase = .load → x.loaded.length + 1 ≤ (s.rank q).entered)
    (comp : x.phase = .compiling → J.compiles r = true)
    (built : J.compiles r = true → ∀ (j p : Nat), ps[j]? = some p →
      j < x.entered ∨ (j = x.entered ∧ x.phase = .ready) →
      s.files (J.path r) (J.name p) = some (J.version (J.path r) p))
    (good : x.loaded = (ps.take x.loaded.length).map fun p => (p, some (J.version (J.path r) p))) :
    Inv J ps (s.put r x) := by
  refine ⟨?_, ?_, ?_, ?_, ?_, ?_, ?_, ?_, ?_⟩
  · intro q hq
    by_cases e : q = r
    · subst e; rw [put_self]; exact todo
    · rw [put_ne _ _ _ _ e]; exact h.todo q hq
  · intro q hq
    by_cases e : q = r
    · subst e; rw [put_self]; exact len
    · rw [put_ne _ _ _ _ e]; exact h.len q hq
  · intro q hq
    by_cases e : q = r
    · subst e; rw [put_self]; exact idle
    · rw [put_ne _ _ _ _ e]; exact h.idle q hq
  · intro q hq
    by_cases e : q = r
    · subst e; rw [put_self]; exact ent
    · rw [put_ne _ _ _ _ e]; exact h.ent q hq
  · intro q hq t ht
    by_cases e : q = r <;> by_cases e' : t = r
    · subst e e'; rw [put_self]; omega
    · subst e; rw [put_self, put_ne _ _ _ _ e']; exact sync t ht e'
    · subst e'; rw [put_self, put_ne _ _ _ _ e]; have := h.sync q hq t ht; omega
    · rw [put_ne _ _ _ _ e, put_ne _ _ _ _ e']; exact h.sync q hq t ht
  · intro q hq t ht
    by_cases e : q = r <;> by_cases e' : t = r
    · subst e e'; rw [put_self]; intro hl; rw [ent, hl]; exact Nat.le_refl _
    · subst e; rw [put_self, put_ne _ _ _ _ e']; exact load t ht e'
    · subst e'; rw [put_self, put_ne _ _ _ _ e]; intro hl; have := h.load q hq t ht hl; omega
    · rw [put_ne _ _ _ _ e, put_ne _ _ _ _ e']; exact h.load q hq t ht
  · intro q hq
    by_cases e : q = r
    · subst e; rw [put_self]; exact comp
    · rw [put_ne _ _ _ _ e]; exact h.comp q hq
  · intro c hc
    by_cases e : c = r
    · subst e; rw [put_self, put_files]; exact built
    · rw [put_ne _ _ _ _ e, put_files]; exact h.built c hc
  · intro q hq
    by_cases e : q = r
    · subst e; rw [put_self]; exact good
    · rw [put_ne _ _ _ _ e]; exact h.good q hq

/-- Writing the library of the current program of a compiling rank that has not entered its
barrier. -/
theorem inv_write {J : Job P} {ps : List Nat} {s : St P} (h : Inv J ps s) (hJ : OneBuilder J)
    (hs : SamePrograms J ps) (r p : Nat) (v : Option Nat) (hr : r < J.ranks)
    (hc : J.compiles r = true) (hp : ps[(s.rank r).loaded.length]? = some p)
    (hph : (s.rank r).phase = .start ∨ (s.rank r).phase = .compiling) :
    Inv J ps (s.write (J.path r) (J.name p) v) := by
  refine ⟨h.todo, h.len, h.idle, h.ent, h.sync, h.load, h.comp, ?_, h.good⟩
  intro c hcr hcc j p' hj hd
  have hb := h.built c hcr hcc j p' hj hd
  show (if J.path c = J.path r ∧ J.name p' = J.name p then v else s.files (J.path c) (J.name p')) = _
  rw [if_neg, hb]
  rintro ⟨h1, h2⟩
  obtain ⟨b, -, -, -, hu⟩ := hJ r hr
  have e1 := hu c hcr hcc h1
  have e2 := hu r hr hc rfl
  have e : c = r := e1.trans e2.symm
  subst e
  have he := h.ent c hcr
  have hl : (s.rank c).phase.late = 0 := by rcases hph with e | e <;> rw [e] <;> rfl
  rw [hl] at he
  have hnr : (s.rank c).phase ≠ .ready := by rcases hph with e | e <;> rw [e] <;> decide
  have hlt : j < (s.rank c).loaded.length := by
    rcases hd with hd | ⟨-, hd⟩
    · have hd : j < (s.rank c).entered := hd
      omega
    · exact absurd hd hnr
  have hn := hs.2
  have g1 : (ps.map J.name)[j]? = some (J.name p) := by rw [List.getElem?_map, hj, ← h2]; rfl
  have g2 : (ps.map J.name)[(s.rank c).loaded.length]? = some (J.name p) := by
    rw [List.getElem?_map, hp]; rfl
  have hjl : j < (ps.map J.name).length := by
    have := h.len c hcr; rw [List.length_map]; omega
  have := (List.nodup_iff_injective_get.mp hn)
  obtain ⟨l1, k1⟩ := List.getElem?_eq_some_iff.mp g1
  obtain ⟨l2, k2⟩ := List.getElem?_eq_some_iff.mp g2
  have := (List.Nodup.getElem_inj_iff hn (hi := l1) (hj := l2)).mp (k1.trans k2.symm)
  omega

theorem inv_move {J : Job P} {ps : List Nat} {s s' : St P} (hJ : OneBuilder J)
    (hs : SamePrograms J ps) (h : Inv J ps s) (r : Nat) (hr : r < J.ranks)
    (hm : J.move s r = some s') : Inv J ps s' := by
  obtain ⟨p, rest, -, ht, hcase⟩ := move_cases hm
  have hd := h.todo r hr
  rw [ht] at hd
  have hlt : (s.rank r).loaded.length < ps.length := by
    rcases Nat.lt_or_ge (s.rank r).loaded.length ps.length with e | e
    · exact e
    · rw [List.drop_eq_nil_of_le e] at hd; cases hd
  have hd' := List.drop_eq_getElem_cons hlt
  rw [← hd] at hd'
  injection hd' with e1 e2
  have hp : ps[(s.rank r).loaded.length]? = some p := by
    rw [List.getElem?_eq_getElem hlt, ← e1]
  have he := h.ent r hr
  have hne : (s.rank r).todo ≠ [] := by rw [ht]; simp
  rcases hcase with ⟨h1, hc, rfl⟩ | ⟨h1, hc, rfl⟩ | ⟨h1, rfl⟩ | ⟨h1, rfl⟩ | ⟨h1, ho, rfl⟩ | ⟨h1, rfl⟩
  · have hw := inv_write h hJ hs r p none hr hc hp (.inl h1)
    rw [h1] at he
    refine inv_put hw r _ hr (h.todo r hr) (h.len r hr) (fun e => absurd e hne) he
      (Nat.le_refl _) (fun q hq _ => h.sync r hr q hq) (fun q hq _ hl => by cases hl) (fun _ => hc) ?_ (h.good r hr)
    intro _ j p' hj hd
    rcases hd with hd | ⟨-, hd⟩
    · exact hw.built r hr hc j p' hj (.inl hd)
    · cases hd
  · rw [h1] at he
    refine inv_put h r _ hr (h.todo r hr) (h.len r hr) (fun e => absurd e hne) he
      (Nat.le_refl _) (fun q hq _ => h.sync r hr q hq) (fun q hq _ hl => by cases hl) (fun e => by cases e) ?_ (h.good r hr)
    intro hc'; rw [hc] at hc'; cases hc'
  · have hc := h.comp r hr h1
    · have hw := inv_write h hJ hs r p (some (J.version (J.path r) p)) hr hc hp (.inr h1)
      rw [h1] at he
      refine inv_put hw r _ hr (h.todo r hr) (h.len r hr) (fun e => absurd e hne) he
        (Nat.le_refl _) (fun q hq _ => h.sync r hr q hq) (fun q hq _ hl => by cases hl)
        (fun e => by cases e) ?_ (h.good r hr)
      intro _ j p' hj hd
      rcases hd with hd | ⟨hd, -⟩
      · exact hw.built r hr hc j p' hj (.inl hd)
      · have : j = (s.rank r).loaded.length := by
          have : (s.rank r).entered = (s.rank r).loaded.length := he
          simp only at hd
          omega
        subst this
        rw [hp] at hj
        cases hj
        show (if J.path r = J.path r ∧ J.name p = J.name p then _ else _) = _
        rw [if_pos ⟨rfl, rfl⟩]
  · rw [h1] at he
    refine inv_put h r _ hr (h.todo r hr) (h.len r hr) (fun e => absurd e hne) ?_
      (Nat.le_succ _) (fun q hq _ => h.sync r hr q hq) (fun q hq _ hl => by cases hl) (fun e => by cases e) ?_ (h.good r hr)
    · show (s.rank r).entered + 1 = _
      rw [he]; rfl
    · intro hc j p' hj hd
      rcases hd with hd | ⟨-, hd⟩
      · refine h.built r hr hc j p' hj ?_
        simp only at hd
        rcases Nat.lt_or_ge j (s.rank r).entered with e | e
        · exact .inl e
        · exact .inr ⟨by omega, h1⟩
      · cases hd
  · rw [h1] at he
    refine inv_put h r _ hr (h.todo r hr) (h.len r hr) (fun e => absurd e hne) he
      (Nat.le_refl _) (fun q hq _ => h.sync r hr q hq) ?_ (fun e => by cases e) ?_ (h.good r hr)
    · intro q hq _ _
      have := ho q hq
      have he : (s.rank r).entered = (s.rank r).loaded.length + 1 := he
      show (s.rank r).loaded.length + 1 ≤ _
      omega
    · intro hc j p' hj hd
      rcases hd with hd | ⟨-, hd⟩
      · exact h.built r hr hc j p' hj (.inl hd)
      · cases hd
  · rw [h1] at he
    have hload : s.files (J.path r) (J.name p) = some (J.version (J.path r) p) := by
      obtain ⟨c, hc, hcc, hcp, -⟩ := hJ r hr
      have := h.load r hr c hc h1
      have := h.built c hc hcc _ p hp (.inl (by omega))
      rw [hcp] at this
      exact this
    refine inv_put h r _ hr ?_ ?_ (fun _ => rfl) ?_ (Nat.le_refl _) ?_ (fun q hq _ hl => by cases hl)
      (fun e => by cases e) ?_ ?_
    · simp only [List.length_append, List.length_singleton]; exact e2
    · simp only [List.length_append, List.length_singleton]; exact hlt
    · simp only [List.length_append, List.length_singleton]; exact he
    · intro q hq _
      simp only [List.length_append, List.length_singleton]
      exact h.load r hr q hq h1
    · intro hc j p' hj hd
      rcases hd with hd | ⟨-, hd⟩
      · exact h.built r hr hc j p' hj (.inl hd)
      · cases hd
    · simp only [List.length_append, List.length_singleton, hload]
      rw [List.take_add_one, hp, List.map_append, ← h.good r hr]
      rfl

theorem inv_crash {J : Job P} {ps : List Nat} {s : St P} (h : Inv J ps s) (r : Nat)
    (hr : r < J.ranks) : Inv J ps (s.put r { s.rank r with alive := false }) :=
  inv_put h r _ hr (h.todo r hr) (h.len r hr) (h.idle r hr) (h.ent r hr) (Nat.le_refl _)
    (fun q hq _ => h.sync r hr q hq) (fun q hq _ => h.load r hr q hq) (h.comp r hr)
    (h.built r hr) (h.good r hr)

theorem inv_run {J : Job P} {ps : List Nat} (hJ : OneBuilder J) (hs : SamePrograms J ps) :
    ∀ (es : List Ev) (s s' : St P), OfJob J es → Inv J ps s → J.run es s = some s' → Inv J ps s' := by
  intro es
  induction es with
  | nil => intro s s' _ h hr; cases hr; exact h
  | cons e es ih =>
    intro s s' ho h hr
    obtain ⟨r, hrk, he⟩ := ho e (by simp)
    simp only [Job.run] at hr
    cases hev : J.event s e with
    | none => rw [hev] at hr; cases hr
    | some t =>
      rw [hev] at hr
      refine ih t s' (fun x hx => ho x (by simp [hx])) ?_ hr
      rcases he with rfl | rfl
      · exact inv_move hJ hs h r hrk hev
      · cases hev; exact inv_crash h r hrk

/-- **C90**: whatever the speed of the ranks, whatever libraries earlier runs left behind, and even if
ranks end at any point: each library that a rank loads is the one built in this run for its code
path and for that program, complete. -/
theorem C90_loads (J : Job P) (ps : List Nat) (hJ : OneBuilder J) (hs : SamePrograms J ps)
    (files : P → Nat → Option Nat) (es : List Ev) (ho : OfJob J es) (s : St P)
    (hrun : J.run es (J.init files) = some s) :
    ∀ r < J.ranks, ∀ x ∈ (s.rank r).loaded, x.2 = some (J.version (J.path r) x.1) := by
  have h := inv_run hJ hs es _ s ho (inv_init J ps hs files) hrun
  intro r hr x hx
  rw [h.good r hr] at hx
  obtain ⟨p, -, rfl⟩ := List.mem_map.mp hx
  rfl

/-- Nobody has ended if there was no crash. -/
theorem alive_run {J : Job P} : ∀ (es : List Ev) (s s' : St P), NoCrash es →
    (∀ r, (s.rank r).alive = true) → J.run es s = some s' → ∀ r, (s'.rank r).alive = true := by
  intro es
  induction es with
  | nil => intro s s' _ h hr; cases hr; exact h
  | cons e es ih =>
    intro s s' ho h hr
    simp only [Job.run] at hr
    cases hev : J.event s e with
    | none => rw [hev] at hr; cases hr
    | some t =>
      rw [hev] at hr
      refine ih t s' (fun r hx => ho r (by simp [hx])) ?_ hr
      cases e with
      | crash r => exact absurd (List.mem_cons_self ..) (ho r)
      | move r =>
        obtain ⟨p, rest, ha, -, hc⟩ := move_cases hev
        intro q
        by_cases e : q = r
        · subst e
          rcases hc with ⟨-, -, rfl⟩ | ⟨-, -, rfl⟩ | ⟨-, rfl⟩ | ⟨-, rfl⟩ | ⟨-, -, rfl⟩ | ⟨-, rfl⟩ <;>
            rw [put_self] <;> exact ha
        · rcases hc with ⟨-, -, rfl⟩ | ⟨-, -, rfl⟩ | ⟨-, rfl⟩ | ⟨-, rfl⟩ | ⟨-, -, rfl⟩ | ⟨-, rfl⟩ <;>
            rw [put_ne _ _ _ _ e] <;> exact h q

/-- A rank with something to do that cannot move waits for a rank that is behind. -/
theorem stuck_waits {J : Job P} {s : St P} {r : Nat} (ha : (s.rank r).alive = true)
    (ht : (s.rank r).todo ≠ []) (hm : J.move s r = none) :
    (s.rank r).phase = .waiting ∧ ∃ q < J.ranks, (s.rank q).entered < (s.rank r).entered := by
  unfold Job.move at hm
  cases hd : (s.rank r).todo with
  | nil => exact absurd hd ht
  | cons p rest =>
    cases hp : (s.rank r).phase with
    | start =>
      simp only [ha, hd, hp] at hm
      split at hm <;> cases hm
    | compiling => simp only [ha, hd, hp] at hm; cases hm
    | ready => simp only [ha, hd, hp] at hm; cases hm
    | load => simp only [ha, hd, hp] at hm; cases hm
    | waiting =>
      refine ⟨rfl, ?_⟩
      simp only [ha, hd, hp] at hm
      by_cases ho : J.open s r = true
      · rw [if_pos ho] at hm; cases hm
      · unfold Job.open at ho
        rw [List.all_eq_true] at ho
        simp only [List.mem_range, decide_eq_true_eq, not_forall] at ho
        obtain ⟨q, hq, hlt⟩ := ho
        exact ⟨q, hq, by omega⟩

/-- **C90** (no deadlock): if no rank has ended, then as long as some rank has something to load,
some rank can move; so when no rank can move, all have loaded everything. -/
theorem C90_no_deadlock (J : Job P) (ps : List Nat) (hJ : OneBuilder J) (hs : SamePrograms J ps)
    (files : P → Nat → Option Nat) (es : List Ev) (ho : OfJob J es) (hn : NoCrash es) (s : St P)
    (hrun : J.run es (J.init files) = some s) (hrest : AtRest J s) : AllLoaded J ps s := by
  have h := inv_run hJ hs es _ s ho (inv_init J ps hs files) hrun
  have ha := alive_run es _ s hn (fun _ => rfl) hrun
  have key : ∀ (n r : Nat), r < J.ranks → (s.rank r).entered ≤ n → (s.rank r).todo = [] := by
    intro n
    induction n with
    | zero =>
      intro r hr hle
      by_contra ht
      obtain ⟨-, q, hq, hlt⟩ := stuck_waits (ha r) ht (hrest r hr)
      omega
    | succ n ih =>
      intro r hr hle
      by_contra ht
      obtain ⟨hw, q, hq, hlt⟩ := stuck_waits (ha r) ht (hrest r hr)
      have hq0 := ih q hq (by omega)
      have e1 := h.ent q hq
      have e2 := h.idle q hq hq0
      have e3 := h.todo q hq
      rw [hq0] at e3
      have e4 : ps.length ≤ (s.rank q).loaded.length := by
        have := congrArg List.length e3
        simp only [List.length_nil, List.length_drop] at this
        omega
      have e5 := h.ent r hr
      have e6 := h.todo r hr
      have e7 : (s.rank r).loaded.length < ps.length := by
        rcases Nat.lt_or_ge (s.rank r).loaded.length ps.length with e | e
        · exact e
        · rw [List.drop_eq_nil_of_le e] at e6; exact absurd e6 ht
      rw [e2] at e1
      rw [hw] at e5
      simp only [Phase.late] at e1 e5
      omega
  intro r hr
  have e := key _ r hr (Nat.le_refl _)
  have e3 := h.todo r hr
  rw [e] at e3
  have e4 : ps.length ≤ (s.rank r).loaded.length := by
    have := congrArg List.length e3
    simp only [List.length_nil, List.length_drop] at this
    omega
  have := h.good r hr
  rw [List.take_of_length_le e4] at this
  exact this

/-! ### Termination -/

def Phase.index : Phase → Nat
  | .start => 0
  | .compiling => 1
  | .ready => 2
  | .waiting => 3
  | .load => 4

/-- The moves a rank has left. -/
def left (x : Rank) : Nat := 5 * x.todo.length - x.phase.index

def totalLeft (n : Nat) (s : St P) : Nat := ((List.range n).map fun r => left (s.rank r)).sum

theorem sum_change (f g : Nat → Nat) (r : Nat) : ∀ (n : Nat), r < n → (∀ q, q ≠ r → f q = g q) →
    f r < g r → ((List.range n).map f).sum < ((List.range n).map g).sum := by
  intro n
  induction n with
  | zero => intro h; omega
  | succ n ih =>
    intro hr ho hlt
    rw [List.range_succ, List.map_append, List.map_append, List.sum_append, List.sum_append]
    simp only [List.map_cons, List.map_nil, List.sum_cons, List.sum_nil]
    by_cases e : r = n
    · subst e
      have : (List.range r).map f = (List.range r).map g := by
        apply List.map_congr_left
        intro q hq
        exact ho q (by have := List.mem_range.mp hq; omega)
      rw [this]
      omega
    · have := ih (by omega) ho hlt
      have := ho n (fun h => e h.symm)
      omega

theorem move_left {J : Job P} {s s' : St P} {r : Nat} (hm : J.move s r = some s') (hr : r < J.ranks) :
    totalLeft J.ranks s' < totalLeft J.ranks s := by
  obtain ⟨p, rest, -, ht, hc⟩ := move_cases hm
  refine sum_change _ _ r J.ranks hr ?_ ?_
  · intro q e
    rcases hc with ⟨-, -, rfl⟩ | ⟨-, -, rfl⟩ | ⟨-, rfl⟩ | ⟨-, rfl⟩ | ⟨-, -, rfl⟩ | ⟨-, rfl⟩ <;>
      rw [put_ne _ _ _ _ e] <;> rfl
  · have hlen : (s.rank r).todo.length = rest.length + 1 := by rw [ht]; rfl
    rcases hc with ⟨h1, -, rfl⟩ | ⟨h1, -, rfl⟩ | ⟨h1, rfl⟩ | ⟨h1, rfl⟩ | ⟨h1, -, rfl⟩ | ⟨h1, rfl⟩ <;>
      rw [put_self] <;> simp only [left, h1, hlen, Phase.index] <;> omega

theorem moves_bound {J : Job P} : ∀ (es : List Ev) (s s' : St P), OfJob J es → NoCrash es →
    J.run es s = some s' → es.length + totalLeft J.ranks s' ≤ totalLeft J.ranks s := by
  intro es
  induction es with
  | nil => intro s s' _ _ hr; cases hr; simp
  | cons e es ih =>
    intro s s' ho hn hr
    simp only [Job.run] at hr
    cases hev : J.event s e with
    | none => rw [hev] at hr; cases hr
    | some t =>
      rw [hev] at hr
      have := ih t s' (fun x hx => ho x (by simp [hx])) (fun r hx => hn r (by simp [hx])) hr
      obtain ⟨r, hrk, he⟩ := ho e (by simp)
      rcases he with rfl | rfl
      · have := move_left hev hrk
        simp only [List.length_cons]
        omega
      · exact absurd (List.mem_cons_self ..) (hn r)

/-- **C90** (termination): without crashes, any sequence of moves has at most five times the number
of ranks times the number of programs. -/
theorem C90_terminates (J : Job P) (ps : List Nat) (hs : SamePrograms J ps)
    (files : P → Nat → Option Nat) (es : List Ev) (ho : OfJob J es) (hn : NoCrash es) (s : St P)
    (hrun : J.run es (J.init files) = some s) : es.length ≤ 5 * (J.ranks * ps.length) := by
  have h := moves_bound es _ s ho hn hrun
  have e : ∀ n ≤ J.ranks, totalLeft n (J.init files) = 5 * (n * ps.length) := by
    intro n
    induction n with
    | zero => intro _; simp [totalLeft]
    | succ n ih =>
      intro hle
      have := ih (by omega)
      unfold totalLeft at this ⊢
      rw [List.range_succ, List.map_append, List.sum_append, this]
      have hl : left ((J.init files).rank n) = 5 * ps.length := by
        simp [left, Job.init, hs.1 n (by omega), Phase.index]
      simp only [List.map_cons, List.map_nil, List.sum_cons, List.sum_nil, hl]
      rw [Nat.add_mul]
      omega
  rw [e _ (Nat.le_refl _)] at h
  omega

/-! ### Crashes -/

/-- Once a rank has ended it stays where it is. -/
theorem dead_stays {J : Job P} (c : Nat) : ∀ (es : List Ev) (s s' : St P),
    (s.rank c).alive = false → J.run es s = some s' →
    (s'.rank c).entered = (s.rank c).entered ∧ (s'.rank c).alive = false := by
  intro es
  induction es with
  | nil => intro s s' h hr; cases hr; exact ⟨rfl, h⟩
  | cons e es ih =>
    intro s s' h hr
    simp only [Job.run] at hr
    cases hev : J.event s e with
    | none => rw [hev] at hr; cases hr
    | some t =>
      rw [hev] at hr
      have ht : (t.rank c).entered = (s.rank c).entered ∧ (t.rank c).alive = false := by
        cases e with
        | crash r =>
          cases hev
          by_cases e : c = r
          · subst e; rw [put_self]; exact ⟨rfl, rfl⟩
          · rw [put_ne _ _ _ _ e]; exact ⟨rfl, h⟩
        | move r =>
          obtain ⟨p, rest, ha, -, hc⟩ := move_cases hev
          have e : c ≠ r := by rintro rfl; rw [h] at ha; cases ha
          rcases hc with ⟨-, -, rfl⟩ | ⟨-, -, rfl⟩ | ⟨-, rfl⟩ | ⟨-, rfl⟩ | ⟨-, -, rfl⟩ | ⟨-, rfl⟩ <;>
            rw [put_ne _ _ _ _ e] <;> exact ⟨rfl, h⟩
      obtain ⟨h1, h2⟩ := ih t s' ht.2 hr
      exact ⟨h1.trans ht.1, h2⟩

/-- **C90** (a rank that ends): if a rank ends while it builds a program (or at any point before the
barrier of it), no rank ever loads that program or a later one, in any continuation: all others wait
for ever. -/
theorem C90_crash_blocks (c : Nat) (J : Job P) (ps : List Nat) (hJ : OneBuilder J) (hs : SamePrograms J ps)
    (files : P → Nat → Option Nat) (es es' : List Ev) (ho : OfJob J (es ++ .crash c :: es'))
    (s s' : St P) (hrun : J.run es (J.init files) = some s)
    (hrun' : J.run (.crash c :: es') s = some s') (hc : c < J.ranks)
    (hbefore : (s.rank c).phase ≠ .waiting ∧ (s.rank c).phase ≠ .load) :
    ∀ r < J.ranks, (s'.rank r).loaded.length ≤ (s.rank c).loaded.length := by
  have h := inv_run hJ hs es _ s (fun e he => ho e (by simp [he])) (inv_init J ps hs files) hrun
  have h' := inv_run hJ hs _ s s' (fun e he => ho e (by simp at he ⊢; tauto)) h hrun'
  simp only [Job.run, Job.event, Option.bind] at hrun'
  obtain ⟨e1, -⟩ := dead_stays c es' _ s' (by rw [put_self]) hrun'
  rw [put_self] at e1
  intro r hr
  have e2 := h'.sync r hr c hc
  have e3 := h.ent c hc
  have e4 : (s.rank c).phase.late = 0 := by
    cases hp : (s.rank c).phase with
    | waiting => exact absurd hp hbefore.1
    | load => exact absurd hp hbefore.2
    | _ => rfl
  have e1 : (s'.rank c).entered = (s.rank c).entered := e1
  omega

/-! ### Partitioners -/

/-- **C90** (partitioners): the condition on builders holds for all partitioners of C43: square
layouts, layouts with a side of two, and a single code path. -/
theorem C90_partitioners (p : Compile.Part) (single : Bool) (h : Compile.CompiledOnce p single)
    (progs : List Nat) (name : Nat → Nat) (version : Option Compile.CodePath → Nat → Nat) :
    OneBuilder (ofPart p single progs name version) := by
  intro r hr
  simp only [ofPart] at hr
  have hr : ((r : Nat) : Int) < p.totalRanks := by omega
  obtain ⟨path, h1, c, ⟨h2, h3, h4, h5⟩, hu⟩ := h r (by omega) hr
  refine ⟨c.toNat, ?_, ?_, ?_, ?_⟩
  · simp only [ofPart]; omega
  · have : ((c.toNat : Nat) : Int) = c := by omega
    simp only [ofPart, this, h4]
    rfl
  · have : ((c.toNat : Nat) : Int) = c := by omega
    simp only [ofPart, this, h5, h1]
  · intro c' hc' hcc hcp
    simp only [ofPart] at hc' hcc hcp
    have hc' : ((c' : Nat) : Int) < p.totalRanks := by omega
    have e1 : Compile.determineCompilingRank c' p single = .ok true := by
      cases hd : Compile.determineCompilingRank c' p single with
      | error e => rw [hd] at hcc; simp [Except.toOption] at hcc
      | ok b => rw [hd] at hcc; simp [Except.toOption] at hcc; rw [hcc]
    have e2 : Compile.identifyCodePath c' p single = .ok path := by
      rw [h1] at hcp
      cases hd : Compile.identifyCodePath c' p single with
      | error e => rw [hd] at hcp; simp [Except.toOption] at hcp
      | ok b => rw [hd] at hcp; simp [Except.toOption] at hcp; rw [hcp]
    have := hu c' (by omega) hc' e1 e2
    omega

/-! ### Cases -/

/-- Two ranks, one code path, built by rank 0. The libraries are numbered by program. -/
def pair (progs : Nat → List Nat) (name : Nat → Nat) : Job Nat :=
  ⟨2, fun _ => 0, fun r => r == 0, progs, name, fun _ p => 100 + p⟩

example : OneBuilder (pair (fun _ => [7, 8]) id) := by
  intro r _
  exact ⟨0, by decide, rfl, rfl, by simp [pair]⟩

example : SamePrograms (pair (fun _ => [7, 8]) id) [7, 8] := ⟨fun _ _ => rfl, by decide⟩

/-- A whole run, with an old library of program 7 lying around. -/
example : ((pair (fun _ => [7, 8]) id).run
    ([1, 1, 0, 0, 0, 0, 0, 0, 0, 1, 1, 1, 1, 0, 0, 0, 1, 1].map Ev.move)
      ((pair (fun _ => [7, 8]) id).init fun _ n => if n = 7 then some 99 else none)).map
    (fun s => [(s.rank 0).loaded, (s.rank 1).loaded])
    = some [[(7, some 107), (8, some 108)], [(7, some 107), (8, some 108)]] := by decide

example : OneBuilder (ofPart (.cube ⟨⟨(4, 4)⟩⟩) false [1, 2] id fun _ p => p) :=
  C90_partitioners _ _ (Compile.C43_square _ 4 (by decide) rfl) _ _ _

/-- **C90** (equal names): two programs of the same name, such as the same method of two objects of
one class, share a folder. A rank that is quick overwrites the first library with the second before
a slow rank has loaded the first; the slow rank then runs the wrong library, or finds none. -/
theorem C90_names_violated :
    ∃ (J : Job Nat) (es es' : List Ev) (s s' : St Nat), OneBuilder J ∧ (∀ r < J.ranks, J.progs r = [7, 8]) ∧
      OfJob J es ∧ OfJob J es' ∧ NoCrash es ∧ NoCrash es' ∧
      J.run es (J.init fun _ _ => none) = some s ∧ J.run es' (J.init fun _ _ => none) = some s' ∧
      (s.rank 1).loaded = [(7, some (J.version (J.path 1) 8))] ∧ (s'.rank 1).loaded = [(7, none)] := by
  refine ⟨pair (fun _ => [7, 8]) fun _ => 3, [1, 1, 0, 0, 0, 0, 0, 0, 0, 1, 1].map Ev.move,
    [1, 1, 0, 0, 0, 0, 0, 0, 1, 1].map Ev.move, _, _, ?_, fun _ _ => rfl, ?_, ?_, ?_, ?_, rfl, rfl,
    by decide, by decide⟩
  · intro r _
    exact ⟨0, by decide, rfl, rfl, by simp [pair]⟩
  · intro e he
    simp only [List.map_cons, List.map_nil, List.mem_cons, List.not_mem_nil, or_false] at he
    rcases he with rfl | rfl | rfl | rfl | rfl | rfl | rfl | rfl | rfl | rfl | rfl <;>
      first | exact ⟨0, by decide, .inl rfl⟩ | exact ⟨1, by decide, .inl rfl⟩
  · intro e he
    simp only [List.map_cons, List.map_nil, List.mem_cons, List.not_mem_nil, or_false] at he
    rcases he with rfl | rfl | rfl | rfl | rfl | rfl | rfl | rfl | rfl | rfl <;>
      first | exact ⟨0, by decide, .inl rfl⟩ | exact ⟨1, by decide, .inl rfl⟩
  · intro r; simp
  · intro r; simp

/-- **C90** (other ranks): the barrier is one of all ranks of the machine. If some rank does not call
the program, the others wait for ever. -/
theorem C90_absent_violated :
    ∃ (J : Job Nat) (es : List Ev) (s : St Nat), OneBuilder J ∧ OfJob J es ∧ NoCrash es ∧
      J.run es (J.init fun _ _ => none) = some s ∧ AtRest J s ∧ (s.rank 0).todo = [7] ∧
      (s.rank 0).phase = .waiting := by
  refine ⟨pair (fun r => if r = 0 then [7] else []) id, [0, 0, 0].map Ev.move, _, ?_, ?_, ?_, rfl, ?_,
    by decide, by decide⟩
  · intro r _
    exact ⟨0, by decide, rfl, rfl, by simp [pair]⟩
  · intro e he
    simp only [List.map_cons, List.map_nil, List.mem_cons, List.not_mem_nil, or_false] at he
    rcases he with rfl | rfl | rfl <;> exact ⟨0, by decide, .inl rfl⟩
  · intro r; simp
  · intro r hr
    have hr : r < 2 := hr
    rcases (by omega : r = 0 ∨ r = 1) with rfl | rfl <;> rfl

/-- A case for `C90_crash_blocks`: rank 0 ends while it builds the first program; rank 1 waits. -/
example : ((pair (fun _ => [7, 8]) id).run
    [.move 0, .crash 0, .move 1, .move 1] ((pair (fun _ => [7, 8]) id).init fun _ _ => some 5)).map
    (fun s => ((s.rank 1).phase, (s.rank 1).loaded.length, ((pair (fun _ => [7, 8]) id).move s 1).isSome))
    = some (.waiting, 0, false) := by decide

end NDSL.Dist
