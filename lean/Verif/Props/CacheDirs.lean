import Verif.Model.CacheDirs
import Verif.Props.Compile
import Verif.Props.StateFiles
/-
C117: where compiled stencils are kept.
-/
namespace NDSL.CacheDirs

open Compile

/-! ### Names -/

theorem pad6_value (n : Nat) : Nat.ofDigitChars 10 (pad6 n) 0 = n := by
  unfold pad6
  have h : ∀ k (l : List Char), Nat.ofDigitChars 10 (List.replicate k '0' ++ l) 0 = Nat.ofDigitChars 10 l 0 := by
    intro k l
    induction k with
    | zero => rfl
    | succ k ih =>
      rw [List.replicate_succ, List.cons_append]
      simpa [Nat.ofDigitChars, List.foldl_cons] using ih
  rw [h]
  exact Nat.ofDigitChars_ten_toDigits

/-- C117: different ranks have different directories, however many there are; none of them is that of another code path or the
plain one. -/
theorem C117_distinct (a b : Nat) (c : CodePath) :
    (rankDir a = rankDir b → a = b) ∧ rankDir a ≠ plain ∧ rankDir a ≠ codeDir c ∧ (∀ d, codeDir c = codeDir d → c = d) := by
  refine ⟨?_, ?_, ?_, ?_⟩
  · intro h
    have := List.append_cancel_left h
    have := (List.cons.inj this).2
    rw [← pad6_value a, this, pad6_value]
  · intro h
    have := congrArg List.length h
    simp [rankDir] at this
  · intro h
    have := (List.cons.inj (List.append_cancel_left h)).2
    have hd : ∀ x ∈ pad6 a, x.isDigit = true := by
      intro x hx
      unfold pad6 at hx
      rcases List.mem_append.mp hx with hx | hx
      · rw [(List.mem_replicate.mp hx).2]; decide
      · exact Nat.isDigit_of_mem_toDigits (by decide) (by decide) hx
    rw [this] at hd
    have := hd 'F' (by cases c <;> simp [pathStr])
    revert this
    decide
  · intro d h
    have := (List.cons.inj (List.append_cancel_left h)).2
    revert this
    cases c <;> cases d <;> decide

/-! ### Stencils -/

theorem info_plain (mode : RunMode) (r : Int) (p : Part) (n : Int) (hl : p.layout = (n, n)) :
    decompositionInfo mode false (some (r, p)) = .ok ⟨r, p.totalRanks, r, true⟩ := by
  unfold decompositionInfo
  simp [hl]

theorem info_min (mode : RunMode) (r : Int) (p : Part) (n : Int) (hl : p.layout = (n, n)) (e : Int)
    (he : compilingEquivalent mode r p = .ok e) :
    decompositionInfo mode true (some (r, p)) = .ok ⟨r, p.totalRanks, e, rankIsCompiling r p.totalRanks⟩ := by
  unfold decompositionInfo
  simp [hl, he, bind, Except.bind]

theorem info_ok (mode : RunMode) (minimal : Bool) (r : Int) (p : Part) (n : Int) (hn : 1 ≤ n) (hl : p.layout = (n, n))
    (hr : 0 ≤ r) (hr2 : r < p.totalRanks) :
    ∃ i, decompositionInfo mode minimal (some (r, p)) = .ok i := by
  cases minimal with
  | false => exact ⟨_, info_plain mode r p n hl⟩
  | true =>
    by_cases hm : mode = .run
    · subst hm
      obtain ⟨e, _, he, _⟩ := C44_run_mode p (.tile ⟨(referenceSide n, referenceSide n)⟩) n hn hl rfl r hr hr2
      exact ⟨_, info_min .run r p n hl e he⟩
    · exact ⟨_, info_min mode r p n hl _ (by simp only [compilingEquivalent, if_neg hm]; rfl)⟩

/-- C117: building, each rank writes to a directory of its own number. -/
theorem C117_written (dirs : Name → Bool) (mode : RunMode) (hm : mode ≠ .run) (minimal : Bool) (r : Int) (p : Part) (n : Int)
    (hn : 1 ≤ n) (hl : p.layout = (n, n)) (hr : 0 ≤ r) (hr2 : r < p.totalRanks) :
    setup dirs ⟨none, none, mode, minimal, some (r, p)⟩ = .ok (rankDir r.toNat) := by
  obtain ⟨i, hi⟩ := info_ok mode minimal r p n hn hl hr hr2
  simp only [setup, compilation, hi, bind, Except.bind, Option.isSome_some, if_true, if_neg hm]
  rfl

/-- C117: running on the same ranks, each rank reads what it wrote. -/
theorem C117_own (dirs : Name → Bool) (mode : RunMode) (hm : mode ≠ .run) (minimal : Bool) (r : Int) (p : Part) (n : Int)
    (hn : 1 ≤ n) (hl : p.layout = (n, n)) (hr : 0 ≤ r) (hr2 : r < p.totalRanks) (h1 : p.totalRanks ≠ 1) (env : Option Name)
    (hd : ∀ d, setup (fun _ => false) ⟨none, none, mode, minimal, some (r, p)⟩ = .ok d → dirs d = true) :
    setup dirs ⟨env, none, .run, false, some (r, p)⟩ = setup (fun _ => false) ⟨none, none, mode, minimal, some (r, p)⟩ := by
  have hw := C117_written (fun _ => false) mode hm minimal r p n hn hl hr hr2
  rw [hw]
  have hdir := hd _ hw
  simp only [setup, compilation, info_plain .run r p n hl, bind, Except.bind, Option.isSome_some, if_true, cachePath, if_neg h1,
    Bool.false_eq_true, if_false, hdir]

/-- C117: running with minimal caching on the cubed sphere, after a build on one, two or three ranks a side (as many as now, if
fewer): each rank reads the directory of a rank of the build that compiled, and that has the same code path. -/
theorem C117_minimal (dirs : Name → Bool) (mode : RunMode) (hm : mode ≠ .run) (minimal : Bool) (n : Int) (hn : 1 ≤ n)
    (env : Option Name) (r : Int) (hr : 0 ≤ r) (hr2 : r < (Part.cube ⟨⟨(n, n)⟩⟩).totalRanks)
    (hd : ∀ s d, 0 ≤ s → s < (Part.cube ⟨⟨(referenceSide n, referenceSide n)⟩⟩).totalRanks →
      setup (fun _ => false) ⟨none, none, mode, minimal, some (s, .cube ⟨⟨(referenceSide n, referenceSide n)⟩⟩)⟩ = .ok d →
      dirs d = true) :
    ∃ e, 0 ≤ e ∧ e < (Part.cube ⟨⟨(referenceSide n, referenceSide n)⟩⟩).totalRanks ∧
      rankIsCompiling e (Part.cube ⟨⟨(referenceSide n, referenceSide n)⟩⟩).totalRanks = true ∧
      identifyCodePath e (.cube ⟨⟨(referenceSide n, referenceSide n)⟩⟩) false = identifyCodePath r (.cube ⟨⟨(n, n)⟩⟩) false ∧
      setup dirs ⟨env, none, .run, true, some (r, .cube ⟨⟨(n, n)⟩⟩)⟩ =
        setup (fun _ => false) ⟨none, none, mode, minimal, some (e, .cube ⟨⟨(referenceSide n, referenceSide n)⟩⟩)⟩ := by
  have hs : 1 ≤ referenceSide n := by unfold referenceSide; split <;> omega
  obtain ⟨e, path, he, e0, e1, hp, hq, _⟩ := C44_run_mode (.cube ⟨⟨(n, n)⟩⟩) (.cube ⟨⟨(referenceSide n, referenceSide n)⟩⟩) n hn rfl rfl
    r hr hr2
  have hT : (Part.cube ⟨⟨(referenceSide n, referenceSide n)⟩⟩).totalRanks = 6 * (referenceSide n * referenceSide n) := rfl
  have e2 : e < (Part.cube ⟨⟨(referenceSide n, referenceSide n)⟩⟩).totalRanks := by rw [hT]; omega
  have hw := C117_written (fun _ => false) mode hm minimal e (.cube ⟨⟨(referenceSide n, referenceSide n)⟩⟩) (referenceSide n) hs rfl e0 e2
  refine ⟨e, e0, e2, ?_, hq.trans hp.symm, ?_⟩
  · simp only [rankIsCompiling, decide_eq_true_eq, hT]; omega
  · rw [hw]
    have hdir := hd e _ e0 e2 hw
    have h1 : ¬ (Part.cube ⟨⟨(n, n)⟩⟩).totalRanks = 1 := by
      have : (Part.cube ⟨⟨(n, n)⟩⟩).totalRanks = 6 * (n * n) := rfl
      omega
    simp only [setup, compilation, info_min .run r (.cube ⟨⟨(n, n)⟩⟩) n rfl e he, bind, Except.bind, Option.isSome_some, if_true,
      cachePath, if_neg h1, hdir]

/-- C117 (not so): on one rank, what was built is found. It is written to the directory of rank 0 and looked for in the plain one. -/
theorem C117_one_rank_violated (env : Option Name) (minimal minimal' : Bool) :
    setup (fun _ => false) ⟨none, none, .build, minimal, some (0, .tile ⟨(1, 1)⟩)⟩ = .ok (rankDir 0) ∧
    setup (fun d => decide (d = rankDir 0)) ⟨env, none, .run, minimal', some (0, .tile ⟨(1, 1)⟩)⟩ = .error .runtimeError := by
  refine ⟨C117_written _ _ (by decide) _ 0 _ 1 (by decide) rfl (by decide) (by decide), ?_⟩
  cases minimal' <;> rfl

/-- C117 (not so): the variable that names the directory holds in all modes. It is used when building, and not when running. -/
theorem C117_variable_violated (dirs : Name → Bool) (d : Name) (r : Int) (p : Part) (n : Int) (hl : p.layout = (n, n))
    (h1 : p.totalRanks ≠ 1) (hno : dirs (rankDir r.toNat) = false) :
    setup dirs ⟨some d, none, .build, false, some (r, p)⟩ = .ok d ∧
    setup dirs ⟨some d, none, .run, false, some (r, p)⟩ = .error .runtimeError := by
  constructor
  · simp only [setup, compilation, info_plain _ r p n hl, bind, Except.bind, Option.isSome_some, if_true]
    rfl
  · simp only [setup, compilation, info_plain .run r p n hl, bind, Except.bind, Option.isSome_some, if_true, cachePath, if_neg h1,
      Bool.false_eq_true, if_false, hno]

/-- C117 (not so): with minimal caching, a rank that waits for another to compile then reads what that one wrote. It looks in its
own directory, and so compiles again. -/
theorem C117_shared_violated (dirs : Name → Bool) (q : CubePart) (n : Int) (hn : 1 ≤ n) (hl : q.tile.layout = (n, n)) (r : Int)
    (hr : 0 ≤ r) (hr2 : r < q.totalRanks) (i : DecompInfo)
    (hi : decompositionInfo .buildAndRun true (some (r, .cube q)) = .ok i) (hw : rankIsCompiling r q.totalRanks = false) :
    waitsFor i true .buildAndRun = some i.equivalent ∧
    setup dirs ⟨none, none, .buildAndRun, true, some (r, .cube q)⟩ ≠
      setup dirs ⟨none, none, .buildAndRun, true, some (i.equivalent, .cube q)⟩ := by
  have hl1 : q.tile.layout.1 = n := by rw [hl]
  have hl2 : q.tile.layout.2 = n := by rw [hl]
  obtain ⟨e, he, e0, e1, _, _, hc, _⟩ := C44_build_modes q .buildAndRun (by decide) (by omega) (by omega) r hr hr2
  have hi' := info_min .buildAndRun r (.cube q) n hl e he
  rw [hi] at hi'
  injection hi' with hi'
  subst hi'
  have hne : r ≠ e := fun c => by rw [c, hc] at hw; cases hw
  have hsz : (1 : Int) < (Part.cube q).totalRanks := by
    have h6 : (Part.cube q).totalRanks = 6 * (q.tile.layout.1 * q.tile.layout.2) := rfl
    have : q.totalRanks = (Part.cube q).totalRanks := rfl
    omega
  refine ⟨?_, ?_⟩
  · have hc' : rankIsCompiling r (Part.cube q).totalRanks = false := hw
    simp only [waitsFor, blockWaiting, hc']
    rw [if_pos (by rfl), if_pos hsz]
  · rw [C117_written dirs .buildAndRun (by decide) true r (.cube q) n hn hl hr hr2,
      C117_written dirs .buildAndRun (by decide) true e (.cube q) n hn hl e0 e1]
    intro c
    injection c with c
    have := (C117_distinct _ _ .all).1 c
    omega

/-- C117: without a communicator the directory stays as it was, in all modes. -/
theorem C117_alone (dirs : Name → Bool) (env : Option Name) (mode : RunMode) (minimal : Bool) :
    setup dirs ⟨env, none, mode, minimal, none⟩ = .ok (env.getD (rankDir 0)) := rfl

/-! ### Orchestrated programs -/

/-- C117: orchestrated programs are written and read by code path: ranks with the same code path share a directory, and running
reads what was built. -/
theorem C117_orchestrated (dirs : Name → Bool) (run : Bool) (mode : RunMode) (hm : mode ≠ .run) (minimal : Bool) (env : Option Name)
    (r : Int) (p : Part) (n : Int) (hn : 1 ≤ n) (hl : p.layout = (n, n)) (hr : 0 ≤ r) (hr2 : r < p.totalRanks) :
    ∃ c, identifyCodePath r p false = .ok c ∧
      setup dirs ⟨env, some run, mode, minimal, some (r, p)⟩ =
        if run = true ∧ dirs (codeDir c) = false then .error .runtimeError else .ok (codeDir c) := by
  obtain ⟨e, c, _, _, _, hc, _⟩ := C44_run_mode p (.tile ⟨(referenceSide n, referenceSide n)⟩) n hn hl rfl r hr hr2
  obtain ⟨i, hi⟩ := info_ok mode minimal r p n hn hl hr hr2
  refine ⟨c, hc, ?_⟩
  simp only [setup, Job.path, hc, bind, Except.bind, daceDirs]
  cases run with
  | false => simp [compilation, hi, bind, Except.bind, hm]
  | true =>
    cases hd : dirs (codeDir c) with
    | true => simp [compilation, hi, bind, Except.bind, hm]
    | false => simp

/-- C117 (not so): orchestrated programs that were built can be run in run mode. The directories of the code paths are there, but
the configuration of the compilation looks for those of the ranks. -/
theorem C117_orchestrated_run_violated (dirs : Name → Bool) (hd : ∀ d, dirs d = true ↔ ∃ c, d = codeDir c) (run minimal : Bool) (env : Option Name) (r : Int) (p : Part) (n : Int) (hn : 1 ≤ n)
    (hl : p.layout = (n, n)) (hr : 0 ≤ r) (hr2 : r < p.totalRanks) :
    setup dirs ⟨env, some run, .run, minimal, some (r, p)⟩ = .error .runtimeError := by
  obtain ⟨e, c, _, _, _, hc, _⟩ := C44_run_mode p (.tile ⟨(referenceSide n, referenceSide n)⟩) n hn hl rfl r hr hr2
  obtain ⟨i, hi⟩ := info_ok .run minimal r p n hn hl hr hr2
  have hcd : dirs (codeDir c) = true := (hd _).mpr ⟨c, rfl⟩
  have hplain : ∀ c, plain ≠ codeDir c := by
    intro c h
    have := congrArg List.length h
    simp [codeDir] at this
  have hno : dirs (cachePath minimal i) = false := by
    cases hx : dirs (cachePath minimal i) with
    | false => rfl
    | true =>
      obtain ⟨c', hc'⟩ := (hd _).mp hx
      unfold cachePath at hc'
      split at hc'
      · exact absurd hc' (hplain c')
      · split at hc'
        · exact absurd hc' (C117_distinct _ 0 c').2.2.1
        · exact absurd hc' (C117_distinct _ 0 c').2.2.1
  simp only [setup, Job.path, hc, bind, Except.bind, daceDirs, hcd, Bool.not_true, Bool.and_false, Bool.false_eq_true, if_false,
    compilation, hi, Option.isSome_some, if_true, hno]

/-! ### Build mode -/

/-- C117 (not so): in build mode stencils do nothing when called. They run as in the other modes, although the object has an
attribute that does nothing, which Python does not look at. -/
theorem C117_build_mode_violated {α : Type} (mode : RunMode) (run nothing : α) : (frozen mode run nothing).call = some run ∧
    ((frozen mode run nothing).own "__call__" = some nothing ↔ mode = .build) ∧ ∀ n, n ≠ "__call__" → (frozen mode run nothing).own n = none := by
  cases mode
  all_goals
    refine ⟨rfl, ?_, fun n hn => ?_⟩
    · simp [frozen, Obj.setattr]
    · simp [frozen, Obj.setattr, hn]

/-! ### Instances -/

example : rankDir 53 = ".gt_cache_000053".toList ∧ rankDir 1234567 = ".gt_cache_1234567".toList := by decide +kernel

example : ∃ dirs : Name → Bool, ∀ d, dirs d = true ↔ ∃ c, d = codeDir c := by
  classical
  exact ⟨fun d => decide (∃ c, d = codeDir c), fun d => by simp⟩

/-- Rank 30 of a 4 by 4 layout reads what rank 7 of a 3 by 3 layout wrote. -/
example : setup (fun d => decide (d = rankDir 7)) ⟨none, none, .run, true, some (30, .cube ⟨⟨(4, 4)⟩⟩)⟩ = .ok (rankDir 7) := by
  decide +kernel

end NDSL.CacheDirs
