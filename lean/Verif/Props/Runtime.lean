import Verif.Spec.Runtime
/-
C92: construction of runtime classes, and locals.
-/
namespace NDSL.Runtime

/-- Steps keep that the base constructor has run. -/
theorem steps_base (parent : Obj → Except Err (Obj × Nat))
    (hp : ∀ o o' w, parent o = .ok (o', w) → o'.baseInit = true) :
    ∀ (acts : List Act) (o o' : Obj) (w : Nat), steps parent acts o = .ok (o', w) →
      (o.baseInit = true ∨ .super ∈ acts) → o'.baseInit = true := by
  intro acts
  induction acts with
  | nil => intro o o' w h hb; cases h; simpa using hb
  | cons a acts ih =>
    intro o o' w h hb
    cases a with
    | set n v =>
      refine ih { o with attrs := (n, v) :: o.attrs } o' w h ?_
      simpa using hb
    | super =>
      simp only [steps] at h
      cases hpo : parent o with
      | error e => rw [hpo] at h; cases h
      | ok r =>
        obtain ⟨o1, w1⟩ := r
        rw [hpo] at h
        simp only at h
        cases hst : steps parent acts o1 with
        | error e => rw [hst] at h; cases h
        | ok r2 =>
          obtain ⟨o2, w2⟩ := r2
          rw [hst] at h
          cases h
          exact ih o1 o' w2 hst (.inl (hp o o1 w1 hpo))

theorem steps_nobase (parent : Obj → Except Err (Obj × Nat)) :
    ∀ (acts : List Act) (o : Obj), .super ∉ acts → ∃ o', steps parent acts o = .ok (o', 0) ∧
      o'.baseInit = o.baseInit := by
  intro acts
  induction acts with
  | nil => intro o _; exact ⟨o, rfl, rfl⟩
  | cons a acts ih =>
    intro o h
    cases a with
    | super => exact absurd (List.mem_cons_self ..) h
    | set n v => exact ih { o with attrs := (n, v) :: o.attrs } (fun hh => h (by simp [hh]))

theorem steps_ok (parent : Obj → Except Err (Obj × Nat)) (hp : ∀ o, ∃ r, parent o = .ok r) :
    ∀ (acts : List Act) (o : Obj), ∃ r, steps parent acts o = .ok r := by
  intro acts
  induction acts with
  | nil => intro o; exact ⟨_, rfl⟩
  | cons a acts ih =>
    intro o
    cases a with
    | set n v => exact ih _
    | super =>
      obtain ⟨⟨o1, w1⟩, h1⟩ := hp o
      obtain ⟨⟨o2, w2⟩, h2⟩ := ih o1
      exact ⟨(o2, w1 + w2), by simp only [steps, h1, h2]⟩

theorem steps_err (parent : Obj → Except Err (Obj × Nat))
    (hp : ∀ o, o.baseInit = false → parent o = .error .runtimeError) :
    ∀ (acts : List Act) (o : Obj), .super ∈ acts → o.baseInit = false →
      steps parent acts o = .error .runtimeError := by
  intro acts
  induction acts with
  | nil => intro o h; cases h
  | cons a acts ih =>
    intro o h ho
    cases a with
    | set n v => exact ih _ (by simpa using h) ho
    | super => simp only [steps, hp o ho]

theorem postInit_ok (S : Setting) (o : Obj) (h : o.baseInit = true) :
    ∃ r, postInit S o = .ok r ∧ r.1.baseInit = true := by
  unfold postInit
  rw [if_neg (by simp [h])]
  exact ⟨_, rfl, h⟩

/-- The inner part of a constructor. -/
def body (S : Setting) (c : Cls) (rest : List Cls) (o : Obj) : Except Err (Obj × Nat) :=
  match c.init with
  | some acts => steps (construct S rest) acts o
  | none => construct S rest o

theorem construct_cons (S : Setting) (c : Cls) (rest : List Cls) (o : Obj) :
    construct S (c :: rest) o =
      match body S c rest o with
      | .error e => .error e
      | .ok (o, w) =>
        match postInit S o with
        | .error e => .error e
        | .ok (o, w') => .ok (o, w + w') := rfl

theorem construct_base (S : Setting) : ∀ (cs : List Cls) (o o' : Obj) (w : Nat),
    construct S cs o = .ok (o', w) → o'.baseInit = true := by
  intro cs
  cases cs with
  | nil => intro o o' w h; cases h; rfl
  | cons c rest =>
    intro o o' w h
    rw [construct_cons] at h
    cases hb : body S c rest o with
    | error e => rw [hb] at h; cases h
    | ok r =>
      obtain ⟨o1, w1⟩ := r
      rw [hb] at h
      simp only at h
      cases hpo : postInit S o1 with
      | error e => rw [hpo] at h; cases h
      | ok r2 =>
        rw [hpo] at h
        cases h
        by_cases hh : o1.baseInit = true
        · obtain ⟨r, h1, h2⟩ := postInit_ok S o1 hh
          rw [hpo] at h1
          cases h1
          exact h2
        · unfold postInit at hpo
          rw [if_pos (by simpa using hh)] at hpo
          cases hpo

theorem construct_ok (S : Setting) : ∀ (cs : List Cls), (∀ c ∈ cs, CallsSuper c) →
    ∀ o, ∃ r, construct S cs o = .ok r := by
  intro cs
  induction cs with
  | nil => intro _ o; exact ⟨_, rfl⟩
  | cons c rest ih =>
    intro h o
    have hp := ih (fun x hx => h x (by simp [hx]))
    have hbody : ∃ r, body S c rest o = .ok r ∧ r.1.baseInit = true := by
      unfold body
      cases hi : c.init with
      | none =>
        obtain ⟨⟨o1, w1⟩, h1⟩ := hp o
        exact ⟨_, h1, construct_base S rest o o1 w1 h1⟩
      | some acts =>
        obtain ⟨⟨o1, w1⟩, h1⟩ := steps_ok (construct S rest) hp acts o
        exact ⟨_, h1, steps_base _ (construct_base S rest) acts o o1 w1 h1
          (.inr (h c (by simp) acts hi))⟩
    obtain ⟨⟨o1, w1⟩, h1, h2⟩ := hbody
    obtain ⟨⟨o2, w2⟩, h3, -⟩ := postInit_ok S o1 h2
    exact ⟨(o2, w1 + w2), by rw [construct_cons, h1]; simp only [h3]⟩

theorem construct_err (S : Setting) : ∀ (cs : List Cls), (∃ c ∈ cs, ¬ CallsSuper c) →
    ∀ o, o.baseInit = false → construct S cs o = .error .runtimeError := by
  intro cs
  induction cs with
  | nil => rintro ⟨c, hc, -⟩; cases hc
  | cons c rest ih =>
    intro h o ho
    rw [construct_cons]
    unfold body
    by_cases hc : CallsSuper c
    · have hrest : ∃ c ∈ rest, ¬ CallsSuper c := by
        obtain ⟨x, hx, hn⟩ := h
        rcases List.mem_cons.mp hx with rfl | hx
        · exact absurd hc hn
        · exact ⟨x, hx, hn⟩
      have hp := ih hrest
      cases hi : c.init with
      | none => simp only [hp o ho]
      | some acts => simp only [steps_err _ hp acts o (hc acts hi) ho]
    · have : ∃ acts, c.init = some acts ∧ .super ∉ acts := by
        unfold CallsSuper at hc
        simpa using hc
      obtain ⟨acts, hi, hn⟩ := this
      obtain ⟨o', h1, h2⟩ := steps_nobase (construct S rest) acts o hn
      simp only [hi, h1]
      unfold postInit
      rw [if_pos (by rw [h2, ho])]

/-- **C92** (base constructor): constructing an object of a class derived from `NDSLRuntime`
succeeds exactly if each class in the chain that has a constructor calls the one of its parent; else
it is a RuntimeError. -/
theorem C92_super (S : Setting) (cs : List Cls) :
    ((∃ r, construct S cs {} = .ok r) ↔ ∀ c ∈ cs, CallsSuper c) ∧
    ((∃ c ∈ cs, ¬ CallsSuper c) → construct S cs {} = .error .runtimeError) := by
  refine ⟨⟨?_, fun h => construct_ok S cs h {}⟩, fun h => construct_err S cs h {} rfl⟩
  rintro ⟨r, h⟩ c hc
  refine Classical.byContradiction fun hn => ?_
  rw [construct_err S cs ⟨c, hc, hn⟩ {} rfl] at h
  cases h

/-! ### Orchestration -/

theorem steps_wrappers (parent : Obj → Except Err (Obj × Nat)) (n : Nat)
    (hp : ∀ o o' w, parent o = .ok (o', w) → o'.wrappers.length = o.wrappers.length + n) :
    ∀ (acts : List Act) (o o' : Obj) (w : Nat), steps parent acts o = .ok (o', w) →
      o'.wrappers.length = o.wrappers.length
        + acts.countP isSuper * n := by
  intro acts
  induction acts with
  | nil => intro o o' w h; cases h; simp
  | cons a acts ih =>
    intro o o' w h
    cases a with
    | set k v =>
      have := ih _ o' w h
      rw [List.countP_cons_of_neg (by simp [isSuper])]
      exact this
    | super =>
      simp only [steps] at h
      cases hpo : parent o with
      | error e => rw [hpo] at h; cases h
      | ok r =>
        obtain ⟨o1, w1⟩ := r
        rw [hpo] at h
        simp only at h
        cases hst : steps parent acts o1 with
        | error e => rw [hst] at h; cases h
        | ok r2 =>
          obtain ⟨o2, w2⟩ := r2
          rw [hst] at h
          cases h
          rw [ih o1 o' w2 hst, hp o o1 w1 hpo, List.countP_cons_of_pos (by rfl), Nat.add_mul]
          omega

/-- **C92** (wrappers): an object whose constructors each call the parent's once has as many
wrappers around its `__call__` as there are classes between it and `NDSLRuntime`; hence exactly one
for a class derived directly. -/
theorem C92_wrappers (S : Setting) (hc : S.callable = true) (ho : S.orchestrated = true) :
    ∀ (cs : List Cls), (∀ c ∈ cs, superCalls c = 1) → ∀ (o o' : Obj) (w : Nat),
      construct S cs o = .ok (o', w) → o'.wrappers.length = o.wrappers.length + cs.length := by
  intro cs
  induction cs with
  | nil => intro _ o o' w h; cases h; rfl
  | cons c rest ih =>
    intro h1 o o' w h
    have hp := ih (fun x hx => h1 x (by simp [hx]))
    rw [construct_cons] at h
    cases hb : body S c rest o with
    | error e => rw [hb] at h; cases h
    | ok r =>
      obtain ⟨o1, w1⟩ := r
      rw [hb] at h
      simp only at h
      have e1 : o1.wrappers.length = o.wrappers.length + rest.length := by
        unfold body at hb
        have hs := h1 c (by simp)
        unfold superCalls at hs
        cases hi : c.init with
        | none => rw [hi] at hb; exact hp o o1 w1 hb
        | some acts =>
          rw [hi] at hb hs
          have := steps_wrappers (construct S rest) rest.length hp acts o o1 w1 hb
          simp only at hs
          rw [hs] at this
          omega
      unfold postInit at h
      by_cases hbi : o1.baseInit = false
      · rw [if_pos hbi] at h; cases h
      · rw [if_neg hbi] at h
        cases h
        simp only [hc, ho, Bool.and_self, if_true, List.length_append, List.length_singleton,
          List.length_cons, List.length_nil, e1]
        omega

/-- **C92** (backends without orchestration): nothing is wrapped. -/
theorem C92_not_wrapped (S : Setting) (h : (S.callable && S.orchestrated) = false) :
    ∀ (cs : List Cls) (o o' : Obj) (w : Nat), construct S cs o = .ok (o', w) →
      o'.wrappers = o.wrappers := by
  intro cs
  induction cs with
  | nil => intro o o' w h; cases h; rfl
  | cons c rest ih =>
    intro o o' w hr
    rw [construct_cons] at hr
    have hsteps : ∀ (acts : List Act) (o o' : Obj) (w : Nat),
        steps (construct S rest) acts o = .ok (o', w) → o'.wrappers = o.wrappers := by
      intro acts
      induction acts with
      | nil => intro o o' w h; cases h; rfl
      | cons a acts iha =>
        intro o o' w h
        cases a with
        | set k v => exact iha { o with attrs := (k, v) :: o.attrs } o' w h
        | super =>
          simp only [steps] at h
          cases hpo : construct S rest o with
          | error e => rw [hpo] at h; cases h
          | ok r =>
            obtain ⟨o1, w1⟩ := r
            rw [hpo] at h
            simp only at h
            cases hst : steps (construct S rest) acts o1 with
            | error e => rw [hst] at h; cases h
            | ok r2 =>
              obtain ⟨o2, w2⟩ := r2
              rw [hst] at h
              cases h
              rw [iha o1 o' w2 hst, ih o o1 w1 hpo]
    cases hb : body S c rest o with
    | error e => rw [hb] at hr; cases hr
    | ok r =>
      obtain ⟨o1, w1⟩ := r
      rw [hb] at hr
      simp only at hr
      have e1 : o1.wrappers = o.wrappers := by
        unfold body at hb
        cases hi : c.init with
        | none => rw [hi] at hb; exact ih o o1 w1 hb
        | some acts => rw [hi] at hb; exact hsteps acts o o1 w1 hb
      unfold postInit at hr
      by_cases hbi : o1.baseInit = false
      · rw [if_pos hbi] at hr; cases hr
      · rw [if_neg hbi] at hr
        cases hr
        simp only [h, Bool.false_eq_true, if_false, e1]

/-- A class with a constructor that first calls the parent's and then sets attributes. -/
def plain (id : Nat) (attrs : List Nat) (v : Val) : Cls :=
  ⟨id, some (.super :: attrs.map fun n => .set n v)⟩

/-- **C92** (inheritance): with a class between, `__call__` is wrapped twice, the first time before
the constructor of the class itself has set its attributes, and the inner wrapper is what gets
orchestrated the second time. -/
theorem C92_twice_violated :
    ∃ o w, construct ⟨false, true, true⟩ [plain 2 [10, 11] .other, plain 1 [12] .other] {} = .ok (o, w) ∧
      o.wrappers = [1, 3] := ⟨_, _, rfl, rfl⟩

example : (∀ c ∈ [plain 2 [10, 11] .other, plain 1 [12] .other], superCalls c = 1) ∧
    CallsSuper (plain 1 [12] .localQ) ∧ ¬ CallsSuper ⟨3, some [.set 10 .other]⟩ := by
  refine ⟨?_, ?_, ?_⟩
  · intro c hc
    simp only [List.mem_cons, List.not_mem_nil, or_false] at hc
    rcases hc with rfl | rfl <;> rfl
  · intro acts h; cases h; exact List.mem_cons_self ..
  · intro h
    have := h _ rfl
    simp at this

/-! ### Warnings -/

/-- **C92** (warnings): in a program that constructs any number of runtimes one after the other, only
the first construction gives warnings about quantities. -/
theorem C92_warnings (callable orchestrated : Bool) (top : Nat) :
    ∀ (l : List (Nat × List Cls)), (∀ x ∈ l, x.1 ≠ top) →
      ∀ r ∈ session callable orchestrated (some top) l, ∀ w, r = .ok w → w = 0 := by
  have hz : ∀ (S : Setting), S.isTop = false → ∀ (cs : List Cls) (o o' : Obj) (w : Nat),
      construct S cs o = .ok (o', w) → w = 0 := by
    intro S hS cs
    induction cs with
    | nil => intro o o' w h; cases h; rfl
    | cons c rest ih =>
      have hsteps : ∀ (acts : List Act) (o o' : Obj) (w : Nat),
          steps (construct S rest) acts o = .ok (o', w) → w = 0 := by
        intro acts
        induction acts with
        | nil => intro o o' w h; cases h; rfl
        | cons a acts iha =>
          intro o o' w h
          cases a with
          | set k v => exact iha { o with attrs := (k, v) :: o.attrs } o' w h
          | super =>
            simp only [steps] at h
            cases hpo : construct S rest o with
            | error e => rw [hpo] at h; cases h
            | ok r =>
              obtain ⟨o1, w1⟩ := r
              rw [hpo] at h
              simp only at h
              cases hst : steps (construct S rest) acts o1 with
              | error e => rw [hst] at h; cases h
              | ok r2 =>
                obtain ⟨o2, w2⟩ := r2
                rw [hst] at h
                cases h
                rw [iha o1 o' w2 hst, ih o o1 w1 hpo]
      intro o o' w h
      rw [construct_cons] at h
      cases hb : body S c rest o with
      | error e => rw [hb] at h; cases h
      | ok r =>
        obtain ⟨o1, w1⟩ := r
        rw [hb] at h
        simp only at h
        have e1 : w1 = 0 := by
          unfold body at hb
          cases hi : c.init with
          | none => rw [hi] at hb; exact ih o o1 w1 hb
          | some acts => rw [hi] at hb; exact hsteps acts o o1 w1 hb
        unfold postInit at h
        by_cases hbi : o1.baseInit = false
        · rw [if_pos hbi] at h; cases h
        · rw [if_neg hbi, hS] at h
          cases h
          rw [e1]
          rfl
  intro l
  induction l with
  | nil => intro _ r hr; cases hr
  | cons x l ih =>
    intro h r hr w hw
    obtain ⟨self, cs⟩ := x
    simp only [session, enter, Option.isNone_some, Bool.false_eq_true, if_false] at hr
    rcases List.mem_cons.mp hr with rfl | hr
    · have hne : self ≠ top := h _ (List.mem_cons_self ..)
      have ht : decide (some top = some self) = false := by
        simp only [decide_eq_false_iff_not, Option.some.injEq]
        exact fun e => hne e.symm
      rw [ht] at hw
      cases hcon : construct ⟨false, callable, orchestrated⟩ cs {} with
      | error e => rw [hcon] at hw; cases hw
      | ok r =>
        obtain ⟨o, w'⟩ := r
        rw [hcon] at hw
        cases hw
        exact hz _ rfl cs {} o w hcon
    · exact ih (fun y hy => h y (by simp [hy])) r hr w hw

/-- **C92** (warnings, first object): for the first object of a class derived directly, there is one
warning for each attribute that is a quantity, also those of runtimes held by it, at any depth. -/
theorem C92_first (callable orchestrated : Bool) (id self : Nat) (attrs : List (Nat × Val)) :
    session callable orchestrated none
        [(self, [⟨id, some (.super :: attrs.map fun x => .set x.1 x.2)⟩])]
      = [.ok (warnings attrs.reverse)] := by
  have hs : ∀ (parent : Obj → Except Err (Obj × Nat)) (l : List (Nat × Val)) (o : Obj),
      steps parent (l.map fun x => .set x.1 x.2) o = .ok ({ o with attrs := l.reverse ++ o.attrs }, 0) := by
    intro parent l
    induction l with
    | nil => intro o; rfl
    | cons x l ih =>
      intro o
      simp only [List.map_cons, steps, ih, List.reverse_cons, List.append_assoc, List.singleton_append]
  have hc : construct ⟨true, callable, orchestrated⟩
      [⟨id, some (.super :: attrs.map fun x => .set x.1 x.2)⟩] {} =
      match postInit ⟨true, callable, orchestrated⟩ { attrs := attrs.reverse, baseInit := true } with
      | .error e => .error e
      | .ok (o, w') => .ok (o, 0 + 0 + w') := by
    rw [construct_cons]
    simp only [body, steps, construct, hs, List.append_nil]
  simp only [session, enter, Option.isNone_none, if_true, decide_true, hc, postInit,
    Bool.true_eq_false, if_false, Nat.zero_add]

/-- A path in the rest of the attributes. -/
def later : List Nat → List Nat
  | [] => []
  | i :: p => (i + 1) :: p

theorem later_inj (p q : List Nat) (h : later p = later q) : p = q := by
  cases p <;> cases q <;> simp_all [later]

theorem nodup_later (ps : List (List Nat)) (h : ps.Nodup) : (ps.map later).Nodup :=
  List.Pairwise.map later (fun a b h e => h (later_inj a b e)) h

theorem not_quantityAt_nil (attrs : List (Nat × Val)) : ¬ QuantityAt attrs [] := by
  cases attrs <;> simp [QuantityAt]

theorem quantityAt_later (x : Nat × Val) (rest : List (Nat × Val)) (i : Nat) (p : List Nat) :
    QuantityAt (x :: rest) ((i + 1) :: p) ↔ QuantityAt rest (i :: p) := by
  simp only [QuantityAt, List.getElem?_cons_succ]

/-- **C92** (warnings, depth): there is exactly one warning for each way from the object through
runtimes held as attributes to a quantity. -/
theorem C92_depth (attrs : List (Nat × Val)) :
    ∃ paths : List (List Nat), paths.Nodup ∧ paths.length = warnings attrs ∧
      ∀ p, p ∈ paths ↔ QuantityAt attrs p := by
  fun_induction warnings attrs with
  | case1 =>
    refine ⟨[], List.nodup_nil, rfl, fun p => ?_⟩
    cases p <;> simp [QuantityAt]
  | case2 n rest ih =>
    obtain ⟨ps, hn, hl, hp⟩ := ih
    refine ⟨[0] :: ps.map later, ?_, by simp [hl]; omega, ?_⟩
    · refine List.nodup_cons.mpr ⟨?_, (nodup_later ps hn)⟩
      intro hm
      obtain ⟨q, _, hq⟩ := List.mem_map.mp hm
      cases q <;> simp [later] at hq
    · intro p
      rw [List.mem_cons, List.mem_map]
      cases p with
      | nil =>
        constructor
        · rintro (h | ⟨q, hq, h⟩)
          · cases h
          · cases q with
            | nil => exact absurd ((hp _).mp hq) (not_quantityAt_nil _)
            | cons i q => cases h
        · intro h; exact absurd h (not_quantityAt_nil _)
      | cons i p =>
        cases i with
        | zero =>
          simp only [QuantityAt, List.getElem?_cons_zero]
          constructor
          · rintro (h | ⟨q, hq, h⟩)
            · injection h with _ h; exact Or.inl ⟨h, n, rfl⟩
            · cases q <;> simp [later] at h
          · rintro (⟨rfl, _⟩ | ⟨m, sub, h, _⟩)
            · exact Or.inl rfl
            · injection h with h; injection h with _ h; cases h
        | succ i =>
          rw [quantityAt_later, ← hp]
          constructor
          · rintro (h | ⟨q, hq, h⟩)
            · cases h
            · have : q = i :: p := later_inj _ _ h
              exact this ▸ hq
          · intro h; exact Or.inr ⟨_, h, rfl⟩
  | case3 n sub rest ih1 ih2 =>
    obtain ⟨qs, hqn, hql, hqp⟩ := ih1
    obtain ⟨ps, hn, hl, hp⟩ := ih2
    refine ⟨qs.map (0 :: ·) ++ ps.map later, ?_, by simp [hl, hql], ?_⟩
    · refine List.nodup_append.mpr ⟨(List.Pairwise.map (0 :: ·) (fun a b h => by simpa using h) hqn),
        (nodup_later ps hn), ?_⟩
      intro a ha b hb e
      obtain ⟨q, _, hq⟩ := List.mem_map.mp ha
      obtain ⟨r, _, hr⟩ := List.mem_map.mp hb
      subst hq
      subst e
      cases r <;> simp [later] at hr
    · intro p
      rw [List.mem_append, List.mem_map, List.mem_map]
      cases p with
      | nil =>
        constructor
        · rintro (⟨q, _, h⟩ | ⟨q, hq, h⟩)
          · cases h
          · cases q with
            | nil => exact absurd ((hp _).mp hq) (not_quantityAt_nil _)
            | cons i q => cases h
        · intro h; exact absurd h (not_quantityAt_nil _)
      | cons i p =>
        cases i with
        | zero =>
          simp only [QuantityAt, List.getElem?_cons_zero]
          constructor
          · rintro (⟨q, hq, h⟩ | ⟨q, hq, h⟩)
            · injection h with _ h; subst h
              exact Or.inr ⟨n, sub, rfl, (hqp _).mp hq⟩
            · cases q <;> simp [later] at h
          · rintro (⟨_, m, h⟩ | ⟨m, sub', h, hs⟩)
            · injection h with h; injection h with _ h; cases h
            · injection h with h; injection h with _ h; injection h with h; subst h
              exact Or.inl ⟨p, (hqp _).mpr hs, rfl⟩
        | succ i =>
          rw [quantityAt_later, ← hp]
          constructor
          · rintro (⟨q, _, h⟩ | ⟨q, hq, h⟩)
            · cases h
            · have : q = i :: p := later_inj _ _ h
              exact this ▸ hq
          · intro h; exact Or.inr ⟨_, h, rfl⟩
  | case4 x rest h1 h2 ih =>
    obtain ⟨ps, hn, hl, hp⟩ := ih
    refine ⟨ps.map later, (nodup_later ps hn), by simp [hl], ?_⟩
    intro p
    rw [List.mem_map]
    cases p with
    | nil =>
      constructor
      · rintro ⟨q, hq, h⟩
        cases q with
        | nil => exact absurd ((hp _).mp hq) (not_quantityAt_nil _)
        | cons i q => cases h
      · intro h; exact absurd h (not_quantityAt_nil _)
    | cons i p =>
      cases i with
      | zero =>
        simp only [QuantityAt, List.getElem?_cons_zero]
        constructor
        · rintro ⟨q, hq, h⟩
          cases q <;> simp [later] at h
        · rintro (⟨_, m, h⟩ | ⟨m, sub', h, hs⟩)
          · injection h with h; exact absurd h (h1 m)
          · injection h with h; exact absurd h (h2 m sub')
      | succ i =>
        rw [quantityAt_later, ← hp]
        constructor
        · rintro ⟨q, hq, h⟩
          have : q = i :: p := later_inj _ _ h
          exact this ▸ hq
        · intro h; exact ⟨_, h, rfl⟩

example : QuantityAt [(1, .other), (2, .runtime [(3, .quantity)])] [1, 0] :=
  Or.inr ⟨2, _, rfl, Or.inl ⟨rfl, 3, rfl⟩⟩

/-- **C92** (warnings, later objects): a second object with a quantity gives no warning. -/
theorem C92_second_violated :
    session true false none [(0, [plain 1 [10] .localQ]), (1, [plain 2 [10, 11] .quantity])]
      = [.ok 0, .ok 0] ∧
    session true false none [(1, [plain 2 [10, 11] .quantity])] = [.ok 2] := by
  constructor
  · simp [session, enter, construct, plain, steps, postInit, warnings]
  · simp [session, enter, construct, plain, steps, postInit, warnings]

/-! ### Locals -/

/-- **C92** (locals, own methods): a local can be read in every method of the object itself, with
every backend. -/
theorem C92_own (o : Inst) (isLocal : Bool) : getAttribute o isLocal (some o) = .ok () := by
  unfold getAttribute isInstance
  cases isLocal with
  | false => rfl
  | true =>
    cases o.patched with
    | true => simp
    | false => cases h : o.classes <;> simp [h]

/-- **C92** (locals, elsewhere): it cannot be read where there is no `self`, or where `self` is not
an instance of the object's class; other attributes are not restricted. -/
theorem C92_elsewhere (o : Inst) (x : Inst) :
    getAttribute o true none = .error .runtimeError ∧
    ((∀ c ∈ o.classes.head?, c ∉ x.classes) → o.classes ≠ [] → x.serial ≠ o.serial →
      getAttribute o true (some x) = .error .runtimeError) ∧
    (∀ self, getAttribute o false self = .ok ()) := by
  refine ⟨rfl, ?_, fun _ => rfl⟩
  intro h hne hs
  unfold getAttribute isInstance
  cases o.patched with
  | true => simp [hs]
  | false =>
    cases hc : o.classes with
    | nil => exact absurd hc hne
    | cons c rest =>
      have := h c (by rw [hc]; rfl)
      simp [this]

/-- **C92** (locals, another object of the class): whether it may read them depends on the backend:
yes without orchestration, no with it. -/
theorem C92_sibling_violated (a b : Nat) (h : a ≠ b) (classes : List Nat) (hc : classes ≠ []) :
    getAttribute ⟨a, classes, false⟩ true (some ⟨b, classes, false⟩) = .ok () ∧
    getAttribute ⟨a, classes, true⟩ true (some ⟨b, classes, true⟩) = .error .runtimeError := by
  cases classes with
  | nil => exact absurd rfl hc
  | cons c rest => simp [getAttribute, isInstance, Ne.symm h]

example : (∀ c ∈ (⟨1, [5, 4], false⟩ : Inst).classes.head?, c ∉ (⟨2, [6, 4], false⟩ : Inst).classes) ∧
    (⟨1, [5, 4], false⟩ : Inst).classes ≠ [] := by decide

end NDSL.Runtime
