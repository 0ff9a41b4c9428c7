import Verif.Model.Backend

/-! Property C46 (backend names) and C69 (configuration dictionaries). -/
namespace NDSL.Backend

/-- The pieces of a name joined by colons. -/
def joined (b : Backend) : List Char :=
  b.strategy.value ++ [':'] ++ b.framework.value ++ [':'] ++ b.device.value ++ [':']
    ++ b.loopOrder.value

/-- What must hold of every entry of the naming table. -/
def entryOk (reg : Option Bool) (e : List Char × List Char) : Bool :=
  match mk (fun _ => reg) e.1 with
  | .ok b => decide (joined b = e.1) && decide (b.name = e.1) && decide (asGt4py b = .ok e.2)
      && (decide (b.device = .cpu) || decide (reg = some true))
  | .error er => decide (er = .valueError) && decide (reg ≠ some true)

theorem mk_registry (registry : List Char → Option Bool) (e : List Char × List Char)
    (he : e ∈ naming) : mk registry e.1 = mk (fun _ => registry e.2) e.1 := by
  simp only [naming, List.mem_cons, List.not_mem_nil, or_false] at he
  rcases he with rfl | rfl | rfl | rfl | rfl | rfl | rfl | rfl | rfl | rfl | rfl | rfl | rfl <;> rfl

theorem table_ok : ∀ reg ∈ [none, some false, some true], ∀ e ∈ naming, entryOk reg e = true := by
  decide +kernel

theorem mk_unknown (registry : List Char → Option Bool) (name : List Char)
    (h : ∀ g, (name, g) ∉ naming) : mk registry name = .error .valueError := by
  unfold mk
  rw [if_pos]
  simp only [List.any_eq_true, not_exists, not_and, beq_iff_eq]
  rintro e he rfl
  exact h e.2 he

/-- **C46**: whatever GT4Py has registered, a name is either rejected with `ValueError`, or it
is one of the documented names and the backend built decodes it: strategy, framework, device
and loop order joined by colons spell the name, the GT4Py name is the one tabulated, it is
registered, and a GPU backend stores on the GPU. -/
theorem C46_decodes (registry : List Char → Option Bool) (name : List Char) :
    mk registry name = .error .valueError ∨
      ∃ b g onGpu, mk registry name = .ok b ∧ (name, g) ∈ naming ∧ b.name = name ∧
        joined b = name ∧ asGt4py b = .ok g ∧ registry g = some onGpu ∧
        (b.device = .gpu → onGpu = true) := by
  by_cases h : ∃ g, (name, g) ∈ naming
  · obtain ⟨g, hg⟩ := h
    have hr := mk_registry registry (name, g) hg
    simp only at hr
    have hmem : registry g ∈ [none, some false, some true] := by
      cases registry g with
      | none => simp
      | some b => cases b <;> simp
    have ht := table_ok (registry g) hmem (name, g) hg
    unfold entryOk at ht
    simp only at ht
    cases hm : mk (fun _ => registry g) name with
    | error er =>
      left
      rw [hm] at ht
      simp only [Bool.and_eq_true, decide_eq_true_eq] at ht
      rw [hr, hm, ht.1]
    | ok b =>
      right
      rw [hm] at ht
      simp only [Bool.and_eq_true, Bool.or_eq_true, decide_eq_true_eq] at ht
      obtain ⟨⟨⟨h1, h2⟩, h3⟩, h4⟩ := ht
      cases hreg : registry g with
      | none =>
        exfalso
        rw [hreg] at hm
        unfold mk at hm
        revert hm
        split
        · intro hm; cases hm
        · split
          · simp only [bind, Except.bind]
            repeat' split
            all_goals intro hm; simp_all
          · intro hm; cases hm
      | some v =>
        refine ⟨b, g, v, by rw [hr, hm], hg, h2, h1, h3, hreg, ?_⟩
        intro hd
        rcases h4 with h4 | h4
        · rw [hd] at h4; cases h4
        · rw [hreg] at h4; exact Option.some.inj h4
  · left
    exact mk_unknown registry name (fun g hg => h ⟨g, hg⟩)

/-- **C46** (completeness): every documented name is accepted when its GT4Py backend is
registered and, for a GPU name, stores on the GPU. -/
theorem C46_accepts (registry : List Char → Option Bool) (name g : List Char)
    (h : (name, g) ∈ naming) (hr : registry g = some true) : ∃ b, mk registry name = .ok b := by
  have h1 := mk_registry registry (name, g) h
  simp only at h1
  have ht := table_ok (some true) (by simp) (name, g) h
  rw [h1, hr]
  unfold entryOk at ht
  simp only at ht
  cases hm : mk (fun _ => some true) name with
  | ok b => exact ⟨b, rfl⟩
  | error er => rw [hm] at ht; simp at ht

/-- **C46**: any name outside the table is rejected. -/
theorem C46_rejects (registry : List Char → Option Bool) (name : List Char)
    (h : ∀ g, (name, g) ∉ naming) : mk registry name = .error .valueError :=
  mk_unknown registry name h

/-- **C46** (layout map): the axis that runs as the `k`-th loop of the nest has layout value
`2 - k`, for each of the three loops, so the layout map is a permutation, inverse to the
loop order read backwards. -/
theorem C46_layout_map (b : Backend) :
    ∃ i j k : Nat, asLayoutMap b = [some i, some j, some k] ∧
      i ≤ 2 ∧ j ≤ 2 ∧ k ≤ 2 ∧ i ≠ j ∧ j ≠ k ∧ i ≠ k ∧
      b.loopOrder.value[2 - i]? = some 'I' ∧ b.loopOrder.value[2 - j]? = some 'J' ∧
      b.loopOrder.value[2 - k]? = some 'K' := by
  obtain ⟨n, s, f, d, lo⟩ := b
  cases lo
  · exact ⟨2, 1, 0, rfl, by simp only [LoopOrder.value]; decide⟩
  · exact ⟨2, 0, 1, rfl, by simp only [LoopOrder.value]; decide⟩
  · exact ⟨0, 2, 1, rfl, by simp only [LoopOrder.value]; decide⟩
  · exact ⟨1, 2, 0, rfl, by simp only [LoopOrder.value]; decide⟩
  · exact ⟨1, 0, 2, rfl, by simp only [LoopOrder.value]; decide⟩
  · exact ⟨0, 1, 2, rfl, by simp only [LoopOrder.value]; decide⟩

theorem split_joined (b : Backend) : split ':' (joined b)
    = [b.strategy.value, b.framework.value, b.device.value, b.loopOrder.value] := by
  obtain ⟨n, s, f, d, lo⟩ := b
  cases s <;> cases f <;> cases d <;> cases lo <;> rfl

/-- The pieces determine the name, so two backends are equal exactly when all four parts
are. -/
theorem C46_equality (registry : List Char → Option Bool) (n₁ n₂ : List Char) (a b : Backend)
    (ha : mk registry n₁ = .ok a) (hb : mk registry n₂ = .ok b) :
    beq a b = true ↔ a.strategy = b.strategy ∧ a.framework = b.framework ∧
      a.device = b.device ∧ a.loopOrder = b.loopOrder := by
  have fa : a.name = joined a := by
    rcases C46_decodes registry n₁ with h | ⟨x, g, o, h1, h2, h3, h4, -⟩
    · rw [h] at ha; cases ha
    · rw [h1] at ha; cases ha; rw [h3, h4]
  have fb : b.name = joined b := by
    rcases C46_decodes registry n₂ with h | ⟨x, g, o, h1, h2, h3, h4, -⟩
    · rw [h] at hb; cases hb
    · rw [h1] at hb; cases hb; rw [h3, h4]
  unfold beq
  rw [beq_iff_eq, fa, fb]
  constructor
  · intro h
    have h' := congrArg (split ':') h
    rw [split_joined, split_joined] at h'
    simp only [List.cons.injEq, and_true] at h'
    obtain ⟨h1, h2, h3, h4⟩ := h'
    refine ⟨?_, ?_, ?_, ?_⟩
    · revert h1; cases a.strategy <;> cases b.strategy <;> decide
    · revert h2; cases a.framework <;> cases b.framework <;> decide
    · revert h3; cases a.device <;> cases b.device <;> decide
    · revert h4; cases a.loopOrder <;> cases b.loopOrder <;> decide
  · rintro ⟨h1, h2, h3, h4⟩
    simp [joined, h1, h2, h3, h4]

/-- **C46**: of two accepted names with the same GT4Py backend, only the strategy can differ. -/
theorem C46_gt4py_name (e₁ e₂ : List Char × List Char) (h₁ : e₁ ∈ naming) (h₂ : e₂ ∈ naming)
    (h : e₁.2 = e₂.2) : (split ':' e₁.1).tail = (split ':' e₂.1).tail := by
  have key : ∀ e₁ ∈ naming, ∀ e₂ ∈ naming, e₁.2 = e₂.2 →
      (split ':' e₁.1).tail = (split ':' e₂.1).tail := by decide +kernel
  exact key e₁ h₁ e₂ h₂ h

/-- **C46** (questions): the answers to the three questions are read off the name of an accepted backend, and every backend is
either orchestrated or not. -/
theorem C46_questions (registry : List Char → Option Bool) (name : List Char) (b : Backend) (hb : mk registry name = .ok b) :
    (isOrchestrated b = true ↔ (split ':' name)[0]? = some (chars! "orch")) ∧
      (isStencil b = true ↔ (split ':' name)[0]? = some (chars! "st")) ∧
      (isGpu b = true ↔ (split ':' name)[2]? = some (chars! "gpu")) ∧ isStencil b = !isOrchestrated b := by
  rcases C46_decodes registry name with h | ⟨x, g, o, h1, h2, h3, h4, -⟩
  · rw [h] at hb; cases hb
  · rw [h1] at hb
    have e : x = b := by cases hb; rfl
    subst e
    rw [← h4]
    clear hb h1 h2 h3 h4
    obtain ⟨n, s, f, d, lo⟩ := x
    cases s <;> cases f <;> cases d <;> cases lo <;> (simp only [joined, isOrchestrated, isStencil, isGpu]; decide)

/-- **C46** (paths): the form for paths has no colon, is as long as the name, has the same characters elsewhere, and tells
accepted backends apart. -/
theorem C46_path (registry : List Char → Option Bool) (n₁ n₂ : List Char) (a b : Backend)
    (ha : mk registry n₁ = .ok a) (hb : mk registry n₂ = .ok b) :
    ':' ∉ asSafeForPath a ∧ (asSafeForPath a).length = n₁.length ∧
      (∀ (i : Nat) (c : Char), n₁[i]? = some c → c ≠ ':' → (asSafeForPath a)[i]? = some c) ∧
      (∀ i : Nat, n₁[i]? = some ':' → (asSafeForPath a)[i]? = some '_') ∧ (asSafeForPath a = asSafeForPath b → n₁ = n₂) := by
  have hname : ∀ n x, mk registry n = .ok x → x.name = n ∧ ∃ g, (n, g) ∈ naming := by
    intro n x hx
    rcases C46_decodes registry n with h | ⟨y, g, o, h1, h2, h3, -⟩
    · rw [h] at hx; cases hx
    · rw [h1] at hx; cases hx; exact ⟨h3, g, h2⟩
  obtain ⟨e1, g1, m1⟩ := hname _ _ ha
  obtain ⟨e2, g2, m2⟩ := hname _ _ hb
  unfold asSafeForPath
  rw [e1, e2]
  refine ⟨?_, by simp, ?_, ?_, ?_⟩
  · intro h
    obtain ⟨c, _, hc⟩ := List.mem_map.1 h
    split at hc
    · revert hc; decide
    · contradiction
  · intro i c hi hc
    simp [List.getElem?_map, hi, hc]
  · intro i hi
    simp [List.getElem?_map, hi]
  · have key : ∀ x ∈ naming, ∀ y ∈ naming, (x.1.map fun c => if c = ':' then '_' else c) = (y.1.map fun c => if c = ':' then '_' else c) →
        x.1 = y.1 := by decide +kernel
    exact key _ m1 _ m2

example : asSafeForPath ⟨chars! "orch:dace:gpu:KJI", .orchestration, .dace, .gpu, .kji⟩ = chars! "orch_dace_gpu_KJI" := by decide

example : ∃ b, mk (fun _ => some true) (chars! "orch:dace:gpu:KJI") = .ok b ∧
    b.strategy = .orchestration ∧ b.device = .gpu ∧ asLayoutMap b = [some 0, some 1, some 2] := by
  refine ⟨⟨chars! "orch:dace:gpu:KJI", .orchestration, .dace, .gpu, .kji⟩, ?_, rfl, rfl, rfl⟩
  decide +kernel
example : mk (fun _ => some true) (chars! "st:numpy:gpu:IJK") = .error .valueError := by
  decide +kernel

/-! ### C69 -/

theorem modeOf_modeName (m : Compile.RunMode) : modeOf (modeName m) = .ok m := by
  cases m <;> decide +kernel

/-- **C69**: writing a configuration to a dictionary and reading it back gives the same
configuration, for every configuration that can be built. -/
theorem C69_roundtrip (registry : List Char → Option Bool) (name : List Char) (b : Backend)
    (hb : mk registry name = .ok b) (r v f s : Bool) (m : Compile.RunMode) (u : Bool)
    (c : CConfig) (hc : CConfig.mk' b r v f s m u = .ok c) :
    fromDict registry (asDict c) = .ok c := by
  have hname : b.name = name := by
    rcases C46_decodes registry name with h | ⟨x, g, o, h1, h2, h3, -⟩
    · rw [h] at hb; cases hb
    · rw [h1] at hb; cases hb; exact h3
  unfold CConfig.mk' at hc
  split at hc
  · cases hc
  · rename_i hdev
    cases hc
    have e1 : dget (asDict ⟨b, r, v, f, s, m, u⟩) (chars! "backend") = some (.str b.name) := rfl
    have e2 : dget (asDict ⟨b, r, v, f, s, m, u⟩) (chars! "run_mode") = some (.str (modeName m)) :=
      rfl
    have e3 : getBool (asDict ⟨b, r, v, f, s, m, u⟩) (chars! "rebuild") false = r := rfl
    have e4 : getBool (asDict ⟨b, r, v, f, s, m, u⟩) (chars! "validate_args") true = v := rfl
    have e5 : getBool (asDict ⟨b, r, v, f, s, m, u⟩) (chars! "format_source") false = f := rfl
    have e6 : getBool (asDict ⟨b, r, v, f, s, m, u⟩) (chars! "device_sync") false = s := rfl
    have e7 : getBool (asDict ⟨b, r, v, f, s, m, u⟩) (chars! "use_minimal_caching") false = u := rfl
    simp only [fromDict, e1, e2, e3, e4, e5, e6, e7, hname, hb, modeOf_modeName, bind, Except.bind]
    unfold CConfig.mk'
    rw [if_neg hdev]

/-- **C69** (defaults): what an empty dictionary gives; unlike the constructor, `rebuild` is
then off. -/
theorem C69_defaults (registry : List Char → Option Bool) (b : Backend)
    (hb : mk registry (chars! "st:python:cpu:IJK") = .ok b) :
    fromDict registry [] = .ok ⟨b, false, true, false, false, .buildAndRun, false⟩ := by
  have hdev : ¬ (b.device = .cpu ∧ (false : Bool) = true) := by simp
  simp only [fromDict, dget, List.find?_nil, Option.map_none, hb, bind, Except.bind, getBool]
  rw [show modeOf (chars! "BuildAndRun") = .ok .buildAndRun from by decide +kernel]
  simp only [CConfig.mk']
  rw [if_neg hdev]

example : ∃ b c, mk (fun _ => some true) (chars! "st:gt:gpu:KJI") = .ok b ∧
    CConfig.mk' b true false true true .run true = .ok c ∧
    fromDict (fun _ => some true) (asDict c) = .ok c :=
  ⟨⟨chars! "st:gt:gpu:KJI", .stencil, .gridtools, .gpu, .kji⟩, _, by decide +kernel, rfl,
    by decide +kernel⟩

end NDSL.Backend
