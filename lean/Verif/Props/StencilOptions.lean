import Verif.Model.StencilOptions
/-
C131: the options given for compiling a stencil are those it is compiled with.
-/
namespace NDSL.StencilOptions
open NDSL.Backend

local notation "Text" => List Char

/-- What the program does in `ops` leaves the `CompilationConfig` number `i` alone. -/
def LeavesAlone (i : Nat) (ops : List Op) : Prop := ∀ c, Op.assign i c ∉ ops

/-- The arguments for the compiler: the backend and whether to rebuild, the name, the format of the source, and the
synchronisation for a GPU only. -/
def IsArguments (gt4py : Text) (gpu rebuild formatSource deviceSync : Bool) (name : Text) (kw : List (String × Val)) : Prop :=
  (kw.map fun e => e.1).Nodup ∧ ∀ k v, (k, v) ∈ kw ↔
    (k = "backend" ∧ v = .text gt4py) ∨ (k = "rebuild" ∧ v = .flag rebuild) ∨ (k = "name" ∧ v = .text name) ∨
    (k = "format_source" ∧ v = .flag formatSource) ∨ (k = "device_sync" ∧ gpu = true ∧ v = .flag deviceSync)

theorem step_keeps (md5 : List Nat → Nat) (w : World) (op : Op) {n : Nat} {cfg : Config} (h : w.configs[n]? = some cfg) :
    (step md5 w op).configs[n]? = some cfg := by
  have hn : n < w.configs.length := by
    rw [List.getElem?_eq_some_iff] at h
    exact h.1
  cases op with
  | newComp c => unfold step; dsimp only; split <;> exact h
  | assign i c => exact h
  | newConfig i numpy =>
    unfold step; dsimp only
    split
    · exact h
    · split
      · exact h
      · dsimp only
        rw [List.getElem?_append_left hn]
        exact h

theorem run_keeps (md5 : List Nat → Nat) (ops : List Op) (w : World) {n : Nat} {cfg : Config} (h : w.configs[n]? = some cfg) :
    (run md5 ops w).configs[n]? = some cfg := by
  induction ops generalizing w with
  | nil => exact h
  | cons op ops ih => exact ih _ (step_keeps md5 w op h)

theorem step_comps (md5 : List Nat → Nat) (w : World) (op : Op) {i : Nat} (h : i < w.comps.length) :
    i < (step md5 w op).comps.length ∧
      ((∀ c, op ≠ .assign i c) → (step md5 w op).comps[i]? = w.comps[i]?) := by
  cases op with
  | newComp c =>
    unfold step; dsimp only
    split
    · refine ⟨by simp; omega, fun _ => ?_⟩
      dsimp only
      rw [List.getElem?_append_left h]
    · exact ⟨h, fun _ => rfl⟩
  | assign j c =>
    refine ⟨by simpa [step] using h, fun hne => ?_⟩
    have : j ≠ i := fun e => hne c (by rw [e])
    simp only [step]
    rw [List.getElem?_set_ne this]
  | newConfig j numpy =>
    unfold step; dsimp only
    split
    · exact ⟨h, fun _ => rfl⟩
    · split
      · exact ⟨h, fun _ => rfl⟩
      · exact ⟨h, fun _ => rfl⟩

theorem run_comps (md5 : List Nat → Nat) (ops : List Op) (w : World) {i : Nat} (h : i < w.comps.length) :
    i < (run md5 ops w).comps.length ∧
      (LeavesAlone i ops → (run md5 ops w).comps[i]? = w.comps[i]?) := by
  induction ops generalizing w with
  | nil => exact ⟨h, fun _ => rfl⟩
  | cons op ops ih =>
    obtain ⟨h1, h2⟩ := step_comps md5 w op h
    obtain ⟨h3, h4⟩ := ih _ h1
    refine ⟨h3, fun hl => ?_⟩
    show (run md5 ops (step md5 w op)).comps[i]? = _
    rw [h4 (fun c hc => hl c (List.mem_cons_of_mem _ hc)), h2 (fun c he => hl c (by rw [he]; exact List.mem_cons_self))]

/-- The base dictionary. -/
theorem kwargs_nil (steps : List Text) (w : World) (c : Config) (f : Func) {cc : Comp} {g : Text}
    (h : w.comps[c.comp]? = some cc) (hg : asGt4py cc.backend = .ok g) :
    ∃ kw, kwargs steps w c f [] = .ok kw ∧
      IsArguments g (cc.backend.device == .gpu) cc.rebuild c.formatSource c.deviceSync f.stencilName kw := by
  unfold kwargs
  rw [h]; dsimp only
  rw [hg]; dsimp only
  refine ⟨_, rfl, ?_⟩
  unfold isGpu
  cases hd : cc.backend.device with
  | cpu =>
    have e : (!(Device.cpu == Device.gpu)) = true := rfl
    rw [if_pos e]
    refine ⟨by simp, fun k v => ?_⟩
    simp
  | gpu =>
    have e : ¬ (!(Device.gpu == Device.gpu)) = true := by decide
    rw [if_neg e]
    refine ⟨by simp, fun k v => ?_⟩
    simp
    grind

/-- **C131.** Whatever happens to configurations, in any order: a stencil configuration made with options `c` and left alone
afterwards compiles a stencil with exactly these options, under the name of its function. -/
theorem C131_options (md5 : List Nat → Nat) (steps : List Text) (w : World) (before after : List Op) (i : Nat) (numpy : Bool)
    (c : Comp) (g : Text) (hc : (run md5 before w).comps[i]? = some c) (hg : asGt4py c.backend = .ok g)
    (hl : LeavesAlone i after) (f : Func) :
    ∃ cfg kw, (run md5 (before ++ .newConfig i numpy :: after) w).configs[(run md5 before w).configs.length]? = some cfg ∧
      kwargs steps (run md5 (before ++ .newConfig i numpy :: after) w) cfg f [] = .ok kw ∧
      IsArguments g (c.backend.device == .gpu) c.rebuild c.formatSource c.deviceSync f.stencilName kw := by
  obtain ⟨w1, hw1⟩ : ∃ w1, w1 = run md5 before w := ⟨_, rfl⟩
  have hrun : run md5 (before ++ .newConfig i numpy :: after) w = run md5 after (step md5 w1 (.newConfig i numpy)) := by
    rw [hw1]; simp [run, List.foldl_append]
  rw [← hw1] at hc ⊢
  rw [hrun]
  have hstep : step md5 w1 (.newConfig i numpy) =
      { w1 with configs := w1.configs ++ [⟨i, numpy, c.deviceSync, c.formatSource, computeHash md5 c g numpy⟩] } := by
    simp only [step, hc, hg]
  have hcfg : (step md5 w1 (.newConfig i numpy)).configs[w1.configs.length]? =
      some ⟨i, numpy, c.deviceSync, c.formatSource, computeHash md5 c g numpy⟩ := by
    rw [hstep]; simp
  have hi : i < (step md5 w1 (.newConfig i numpy)).comps.length := by
    rw [hstep]
    rw [List.getElem?_eq_some_iff] at hc
    exact hc.1
  have hnow : (run md5 after (step md5 w1 (.newConfig i numpy))).comps[i]? = some c := by
    rw [(run_comps md5 after _ hi).2 hl, hstep]
    exact hc
  obtain ⟨kw, h1, h2⟩ := kwargs_nil steps (run md5 after (step md5 w1 (.newConfig i numpy)))
    ⟨i, numpy, c.deviceSync, c.formatSource, computeHash md5 c g numpy⟩ f hnow hg
  exact ⟨_, kw, run_keeps md5 after _ hcfg, h1, h2⟩

/-- Changed afterwards: the backend and whether to rebuild are those of now, the format and the synchronisation those of
when the configuration was made. -/
theorem C131_changed (md5 : List Nat → Nat) (steps : List Text) (w : World) (before after : List Op) (i : Nat) (numpy : Bool)
    (c : Comp) (g : Text) (hc : (run md5 before w).comps[i]? = some c) (hg : asGt4py c.backend = .ok g) (f : Func) :
    ∃ cfg now, (run md5 (before ++ .newConfig i numpy :: after) w).configs[(run md5 before w).configs.length]? = some cfg ∧
      (run md5 (before ++ .newConfig i numpy :: after) w).comps[i]? = some now ∧
      ∀ g', asGt4py now.backend = .ok g' → ∃ kw,
        kwargs steps (run md5 (before ++ .newConfig i numpy :: after) w) cfg f [] = .ok kw ∧
        IsArguments g' (now.backend.device == .gpu) now.rebuild c.formatSource c.deviceSync f.stencilName kw := by
  obtain ⟨w1, hw1⟩ : ∃ w1, w1 = run md5 before w := ⟨_, rfl⟩
  have hrun : run md5 (before ++ .newConfig i numpy :: after) w = run md5 after (step md5 w1 (.newConfig i numpy)) := by
    rw [hw1]; simp [run, List.foldl_append]
  rw [← hw1] at hc ⊢
  rw [hrun]
  have hstep : step md5 w1 (.newConfig i numpy) =
      { w1 with configs := w1.configs ++ [⟨i, numpy, c.deviceSync, c.formatSource, computeHash md5 c g numpy⟩] } := by
    simp only [step, hc, hg]
  have hcfg : (step md5 w1 (.newConfig i numpy)).configs[w1.configs.length]? =
      some ⟨i, numpy, c.deviceSync, c.formatSource, computeHash md5 c g numpy⟩ := by
    rw [hstep]; simp
  have hi : i < (step md5 w1 (.newConfig i numpy)).comps.length := by
    rw [hstep]
    rw [List.getElem?_eq_some_iff] at hc
    exact hc.1
  have hi2 := (run_comps md5 after _ hi).1
  refine ⟨_, _, run_keeps md5 after _ hcfg, List.getElem?_eq_getElem hi2, fun g' hg' => ?_⟩
  exact kwargs_nil steps (run md5 after (step md5 w1 (.newConfig i numpy)))
    ⟨i, numpy, c.deviceSync, c.formatSource, computeHash md5 c g numpy⟩ f (List.getElem?_eq_getElem hi2) hg'

/-- **C131.** Passes to be skipped: with names of passes only, the same arguments and a pipeline that runs, in the usual order,
exactly the other passes; any other name is a `KeyError`. -/
theorem C131_skip (steps : List Text) (w : World) (cfg : Config) (f : Func) (skip : List Text) (hne : skip ≠ [])
    (kw : List (String × Val)) (h : kwargs steps w cfg f [] = .ok kw) :
    ((∀ s ∈ skip, s ∈ steps) → kwargs steps w cfg f skip = .ok (kw ++ [("oir_pipeline", .pipeline skip)]) ∧
      (runs steps skip).Sublist steps ∧ ∀ s, s ∈ runs steps skip ↔ s ∈ steps ∧ s ∉ skip) ∧
    ((∃ s ∈ skip, s ∉ steps) → kwargs steps w cfg f skip = .error .keyError) := by
  have hempty : skip.isEmpty = false := by cases skip with
    | nil => exact absurd rfl hne
    | cons a l => rfl
  have key : kwargs steps w cfg f skip = match pipeline steps skip with
      | .error e => .error e
      | .ok p => .ok (kw ++ [("oir_pipeline", p)]) := by
    unfold kwargs at h ⊢
    cases h1 : w.comps[cfg.comp]? with
    | none => rw [h1] at h; simp at h
    | some cc =>
      rw [h1] at h
      dsimp only at h ⊢
      cases h2 : asGt4py cc.backend with
      | error e => rw [h2] at h; simp at h
      | ok g =>
        rw [h2] at h
        dsimp only at h ⊢
        rw [hempty]
        simp only [List.isEmpty_nil, if_true, Except.ok.injEq] at h
        simp only [Bool.false_eq_true, if_false]
        rw [h]
        rfl
  refine ⟨fun hs => ⟨?_, List.filter_sublist, fun s => by simp [runs]⟩, fun ⟨s, hs, hn⟩ => ?_⟩
  · rw [key, pipeline, if_pos (by simpa using hs)]
  · rw [key, pipeline, if_neg (by simp; exact ⟨s, hs, hn⟩)]

theorem split_last {a b c d : Text} (hb : '.' ∉ b) (hd : '.' ∉ d) (h : a ++ '.' :: b = c ++ '.' :: d) : a = c ∧ b = d := by
  induction a generalizing c with
  | nil => cases c with
    | nil => simpa using h
    | cons x c =>
      simp only [List.nil_append, List.cons_append, List.cons.injEq] at h
      exact absurd (by rw [h.2]; simp) hb
  | cons x a ih => cases c with
    | nil =>
      simp only [List.nil_append, List.cons_append, List.cons.injEq] at h
      exact absurd (by rw [← h.2]; simp) hd
    | cons y c =>
      simp only [List.cons_append, List.cons.injEq] at h
      obtain ⟨h1, h2⟩ := ih h.2
      exact ⟨by rw [h.1, h1], h2⟩

/-- **C131.** Functions of different modules or names (identifiers, so without dots) give stencils of different names. -/
theorem C131_name (f g : Func) (hf : '.' ∉ f.name) (hg : '.' ∉ g.name) :
    f.stencilName = g.stencilName ↔ f.module = g.module ∧ f.name = g.name := by
  constructor
  · exact fun h => split_last hf hg h
  · rintro ⟨h1, h2⟩
    simp only [Func.stencilName, h1, h2]

/-- Functions of one name in two scopes of a module share it. -/
theorem C131_name_violated :
    let f : Func := ⟨chars! "m", chars! "A", chars! "f"⟩
    let g : Func := ⟨chars! "m", chars! "B", chars! "f"⟩
    f ≠ g ∧ f.stencilName = g.stencilName := by decide

/-- The compiled backend without and with GPU. -/
def cpu : Backend := ⟨chars! "st:numpy:cpu:IJK", .stencil, .numpy, .cpu, .ijk⟩
def gpu : Backend := ⟨chars! "st:gt:gpu:KJI", .stencil, .gridtools, .gpu, .kji⟩
def plain (b : Backend) (rebuild format sync : Bool) : Comp := ⟨b, rebuild, true, format, sync, .buildAndRun, false⟩

/-- A format asked for after the stencil configuration was made is not used, while `rebuild` is. -/
theorem C131_stale_violated (md5 : List Nat → Nat) :
    let w := run md5 [.newComp (plain gpu false false true), .newConfig 0 false, .assign 0 (plain gpu true true false)] ⟨[], []⟩
    ∃ cfg, w.configs[0]? = some cfg ∧ w.comps[0]? = some (plain gpu true true false) ∧
      kwargs [] w cfg ⟨chars! "m", [], chars! "f"⟩ [] = .ok [("backend", .text (chars! "gt:gpu")), ("rebuild", .flag true),
        ("name", .text (chars! "m.f")), ("device_sync", .flag true), ("format_source", .flag false)] :=
  ⟨_, rfl, rfl, rfl⟩

/-- Two stencil configurations, equal when made, stay equal although they compile differently after a change. -/
theorem C131_equal_violated (md5 : List Nat → Nat) :
    let w := run md5 [.newComp (plain cpu false false false), .newComp (plain cpu false false false), .newConfig 0 false,
      .newConfig 1 false, .assign 0 (plain gpu true false false)] ⟨[], []⟩
    ∃ a b, w.configs[0]? = some a ∧ w.configs[1]? = some b ∧ a.eq b = true ∧
      kwargs [] w a ⟨chars! "m", [], chars! "f"⟩ [] ≠ kwargs [] w b ⟨chars! "m", [], chars! "f"⟩ [] := by
  refine ⟨_, _, rfl, rfl, ?_, ?_⟩
  · simp [Config.eq]
  · intro h
    injection h with h
    injection h with h1 h2
    simp at h1

/-- A configuration for a GPU, with others made and changed before and after. -/
example (md5 : List Nat → Nat) : ∃ cfg kw,
    (run md5 ([.newComp (plain cpu true false false), .newComp (plain gpu true true true)] ++
      .newConfig 1 false :: [.assign 0 (plain gpu false false false)]) ⟨[], []⟩).configs[0]? = some cfg ∧
    kwargs [] (run md5 ([.newComp (plain cpu true false false), .newComp (plain gpu true true true)] ++
      .newConfig 1 false :: [.assign 0 (plain gpu false false false)]) ⟨[], []⟩) cfg ⟨chars! "m", [], chars! "f"⟩ [] = .ok kw ∧
    IsArguments (chars! "gt:gpu") true true true true (chars! "m.f") kw :=
  C131_options md5 [] ⟨[], []⟩ _ _ 1 false (plain gpu true true true) (chars! "gt:gpu") rfl rfl
    (by intro c hc; simp at hc) ⟨chars! "m", [], chars! "f"⟩

/-- For a CPU there is no synchronisation among the arguments, and it cannot be asked for. -/
example (md5 : List Nat → Nat) :
    run md5 [.newComp (plain cpu true false true)] ⟨[], []⟩ = ⟨[], []⟩ ∧
    (let w := run md5 [.newComp (plain cpu true false false), .newConfig 0 false] ⟨[], []⟩
     ∃ cfg, w.configs[0]? = some cfg ∧ kwargs [chars! "a", chars! "b", chars! "c"] w cfg ⟨chars! "m", [], chars! "f"⟩ [chars! "b"] =
      .ok [("backend", .text (chars! "numpy")), ("rebuild", .flag true), ("name", .text (chars! "m.f")),
        ("format_source", .flag false), ("oir_pipeline", .pipeline [chars! "b"])]) ∧
    runs [chars! "a", chars! "b", chars! "c"] [chars! "b"] = [chars! "a", chars! "c"] :=
  ⟨rfl, ⟨_, rfl, rfl⟩, rfl⟩

end NDSL.StencilOptions
