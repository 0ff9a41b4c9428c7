import Verif.Spec.StateAlloc
import Mathlib.Tactic.SplitIfs
/-
C95: allocating states, local states and the factory they use.
-/
namespace NDSL.Alloc

/-- **C95**, the factory: whatever is allocated, in any order, successfully or not, the factory's data dimensions are
afterwards what they were. -/
theorem step_fac (size : Sizer) (s : List Nat) (w : W) (o : Op) : (step size s w o).1.fac = w.fac := by
  have al (c dd) : (alloc size s c dd w).1.fac = w.fac := by
    unfold alloc
    split_ifs
    · rfl
    · split <;> rfl
  cases o with
  | empty dd => exact al _ _
  | zeros dd => exact al _ _
  | ones dd => exact al _ _
  | full v dd =>
    have := al .junk dd
    unfold step allocFull
    simp only
    split <;> rename_i h <;> rw [h] at this <;> exact this
  | makeLocals dd =>
    simp only [step, makeLocals]
    split_ifs
    · split <;> rfl
    · rfl
  | makeAsState dd =>
    simp only [step, makeAsState]
    split_ifs
    · split
      · rfl
      · split <;> rfl
    · rfl

/-- **C95**: whatever is allocated, in whichever order and whether or not it fails, the data dimensions of the factory
are afterwards what they were before. -/
theorem C95_factory (size : Sizer) (l : List (List Nat × Op)) (w : W) : (run size l w).fac = w.fac := by
  induction l generalizing w with
  | nil => rfl
  | cons a l ih => exact (ih _).trans (step_fac size a.1 w a.2)

theorem declared_nil (c : Cls) : declaredAt c [] = none := by cases c <;> rfl
theorem field_nil (c : Cls) : fieldAt c [] = none := by cases c <;> rfl
theorem quantity_nil (o : Obj) : quantityAt o [] = none := by cases o <;> rfl

theorem declared_not_name {c : Cls} {n : String} (h : n ∉ names c) (p : List String) : declaredAt c (n :: p) = none := by
  induction c with
  | nil => rfl
  | leaf m _ _ _ rest ih =>
    have h' := not_or.mp (mt List.mem_cons.mpr h)
    simp only [declaredAt, if_neg h'.1]; exact ih h'.2
  | nested m _ _ sub rest _ ih =>
    have h' := not_or.mp (mt List.mem_cons.mpr h)
    simp only [declaredAt, if_neg h'.1]; exact ih h'.2

theorem field_not_name {c : Cls} {n : String} (h : n ∉ names c) (p : List String) : fieldAt c (n :: p) = none := by
  induction c with
  | nil => rfl
  | leaf m _ _ _ rest ih =>
    have h' := not_or.mp (mt List.mem_cons.mpr h)
    simp only [fieldAt, if_neg h'.1]; exact ih h'.2
  | nested m _ _ sub rest _ ih =>
    have h' := not_or.mp (mt List.mem_cons.mpr h)
    simp only [fieldAt, if_neg h'.1]; exact ih h'.2

/-- A statement about all declared fields, split at the first one. -/
theorem declared_leaf {n : String} {i : Bool} {m : Meta} {k : Kind} {rest : Cls} (h : n ∉ names rest) (a : Kind) :
    (∀ p, declaredAt (.leaf n i m k rest) p ≠ some a) ↔ k ≠ a ∧ ∀ p, declaredAt rest p ≠ some a := by
  constructor
  · intro hp
    refine ⟨fun e => hp [n] (by simp [declaredAt, e]), fun p e => ?_⟩
    cases p with
    | nil => rw [declared_nil] at e; cases e
    | cons x q =>
      by_cases hx : x = n
      · rw [hx, declared_not_name h] at e; cases e
      · exact hp (x :: q) (by simp only [declaredAt, if_neg hx]; exact e)
  · rintro ⟨hk, hr⟩ p e
    cases p with
    | nil => cases e
    | cons x q =>
      by_cases hx : x = n
      · simp only [declaredAt, if_pos hx] at e
        split_ifs at e
        cases e; exact hk rfl
      · simp only [declaredAt, if_neg hx] at e; exact hr _ e

theorem declared_nested {n : String} {i g : Bool} {sub rest : Cls} (h : n ∉ names rest) (a : Kind) :
    (∀ p, declaredAt (.nested n i g sub rest) p ≠ some a) ↔
      (∀ p, declaredAt sub p ≠ some a) ∧ ∀ p, declaredAt rest p ≠ some a := by
  constructor
  · intro hp
    refine ⟨fun p e => hp (n :: p) (by simp only [declaredAt, if_true]; exact e), fun p e => ?_⟩
    cases p with
    | nil => rw [declared_nil] at e; cases e
    | cons x q =>
      by_cases hx : x = n
      · rw [hx, declared_not_name h] at e; cases e
      · exact hp (x :: q) (by simp only [declaredAt, if_neg hx]; exact e)
  · rintro ⟨hk, hr⟩ p e
    cases p with
    | nil => cases e
    | cons x q =>
      by_cases hx : x = n
      · simp only [declaredAt, if_pos hx] at e; exact hk _ e
      · simp only [declaredAt, if_neg hx] at e; exact hr _ e

theorem field_leaf {n : String} {i : Bool} {m : Meta} {k : Kind} {rest : Cls} (h : n ∉ names rest) (P : Kind → Meta → Prop) :
    (∀ p k' m', fieldAt (.leaf n i m k rest) p = some (k', m') → P k' m') ↔
      (i = true → P k m) ∧ ∀ p k' m', fieldAt rest p = some (k', m') → P k' m' := by
  constructor
  · intro hp
    refine ⟨fun e => hp [n] k m (by simp [fieldAt, e]), fun p k' m' e => ?_⟩
    cases p with
    | nil => rw [field_nil] at e; cases e
    | cons x q =>
      by_cases hx : x = n
      · rw [hx, field_not_name h] at e; cases e
      · exact hp (x :: q) _ _ (by simp only [fieldAt, if_neg hx]; exact e)
  · rintro ⟨hk, hr⟩ p k' m' e
    cases p with
    | nil => cases e
    | cons x q =>
      by_cases hx : x = n
      · simp only [fieldAt, if_pos hx] at e
        split_ifs at e with hi
        cases e; exact hk hi.2
      · simp only [fieldAt, if_neg hx] at e; exact hr _ _ _ e

theorem field_nested {n : String} {i g : Bool} {sub rest : Cls} (h : n ∉ names rest) (P : Kind → Meta → Prop) :
    (∀ p k' m', fieldAt (.nested n i g sub rest) p = some (k', m') → P k' m') ↔
      (i = true → ∀ p k' m', fieldAt sub p = some (k', m') → P k' m') ∧
        ∀ p k' m', fieldAt rest p = some (k', m') → P k' m' := by
  constructor
  · intro hp
    refine ⟨fun hi p k' m' e => hp (n :: p) k' m' (by simp only [fieldAt, if_true, hi]; exact e), fun p k' m' e => ?_⟩
    cases p with
    | nil => rw [field_nil] at e; cases e
    | cons x q =>
      by_cases hx : x = n
      · rw [hx, field_not_name h] at e; cases e
      · exact hp (x :: q) _ _ (by simp only [fieldAt, if_neg hx]; exact e)
  · rintro ⟨hk, hr⟩ p k' m' e
    cases p with
    | nil => cases e
    | cons x q =>
      by_cases hx : x = n
      · simp only [fieldAt, if_pos hx] at e
        split_ifs at e with hi
        exact hk hi _ _ _ e
      · simp only [fieldAt, if_neg hx] at e; exact hr _ _ _ e

theorem checkNoLocals_iff (c : Cls) (hd : Distinct c) : checkNoLocals c = .ok () ↔ ∀ p, declaredAt c p ≠ some .loc := by
  induction c with
  | nil => exact ⟨fun _ p e => (by cases p <;> cases e), fun _ => rfl⟩
  | leaf n i m k rest ih =>
    rw [declared_leaf hd.1, ← ih hd.2, checkNoLocals]
    split_ifs with hk <;> simp [hk]
  | nested n i g sub rest ih1 ih2 =>
    rw [declared_nested hd.1, ← ih1 hd.2.1, ← ih2 hd.2.2, checkNoLocals]
    cases checkNoLocals sub <;> simp

theorem checkOnlyLocals_iff (c : Cls) (hd : Distinct c) :
    checkOnlyLocals c = .ok () ↔ ∀ p, declaredAt c p ≠ some .quantity := by
  induction c with
  | nil => exact ⟨fun _ p e => (by cases p <;> cases e), fun _ => rfl⟩
  | leaf n i m k rest ih =>
    rw [declared_leaf hd.1, ← ih hd.2, checkOnlyLocals]
    split_ifs with hk <;> simp [hk]
  | nested n i g sub rest ih1 ih2 =>
    rw [declared_nested hd.1, ← ih1 hd.2.1, ← ih2 hd.2.2, checkOnlyLocals]
    cases checkOnlyLocals sub <;> simp

theorem checkNoLocals_err (c : Cls) (e : AErr) (h : checkNoLocals c = .error e) : e = .typeError := by
  induction c with
  | nil => cases h
  | leaf n i m k rest ih =>
    rw [checkNoLocals] at h
    split_ifs at h
    · cases h; rfl
    · exact ih h
  | nested n i g sub rest ih1 ih2 =>
    rw [checkNoLocals] at h
    cases hs : checkNoLocals sub with
    | error e' => rw [hs] at h; cases h; exact ih1 hs
    | ok u => rw [hs] at h; exact ih2 h

theorem initLeaf_ok (size : List String → Except AErr (List Nat)) (fill : Content) (m : Meta) (k : Kind) :
    (∃ q, initLeaf size fill m k = .ok q) ↔ Allocatable size k m := by
  obtain ⟨d, u, t⟩ := m
  constructor
  · rintro ⟨q, h⟩
    cases k <;> cases d <;> cases u <;> cases t <;> simp only [initLeaf] at h <;> try cases h
    all_goals
      rename_i d u t
      cases hs : size d with
      | error e => rw [hs] at h; cases h
      | ok s => exact ⟨by simp, d, u, t, s, rfl, hs⟩
  · rintro ⟨hk, d', u', t', s, hm, hs⟩
    cases hm
    cases k <;> simp [initLeaf, hs] at hk ⊢

/-- What a field is initialised with. -/
def contentOf (fill : Content) (k : Kind) : Content := if k = .loc then .num 123456789 else fill

theorem initLeaf_spec (size : List String → Except AErr (List Nat)) (fill : Content) (m : Meta) (k : Kind) (q : Q)
    (h : initLeaf size fill m k = .ok q) : AsDeclared size m (decide (k = .loc)) (contentOf fill k) q := by
  obtain ⟨d, u, t⟩ := m
  cases k <;> cases d <;> cases u <;> cases t <;> simp only [initLeaf] at h <;> try cases h
  all_goals
    rename_i d u t
    cases hs : size d with
    | error e => rw [hs] at h; cases h
    | ok s =>
      rw [hs] at h
      simp at h
      subst h
      exact ⟨rfl, rfl, rfl, hs, rfl, rfl⟩

theorem initDict_ok (size : List String → Except AErr (List Nat)) (fill : Content) (c : Cls) (hd : Distinct c) :
    (∃ o, initDict size fill c = .ok o) ↔ ∀ p k m, fieldAt c p = some (k, m) → Allocatable size k m := by
  induction c with
  | nil => exact ⟨fun _ p k m e => (by cases p <;> cases e), fun _ => ⟨_, rfl⟩⟩
  | leaf n i m k rest ih =>
    rw [field_leaf hd.1, ← ih hd.2, ← initLeaf_ok size fill, initDict]
    cases i
    · simp
    · simp only [if_true, forall_const]
      cases initLeaf size fill m k <;> cases initDict size fill rest <;> simp [Except.map]
  | nested n i g sub rest ih1 ih2 =>
    rw [field_nested hd.1, ← ih1 hd.2.1, ← ih2 hd.2.2, initDict]
    cases i
    · simp
    · simp only [if_true, forall_const]
      cases initDict size fill sub <;> cases initDict size fill rest <;> simp [Except.map]

/-- A relation between optional values: both absent, or both present and related. -/
def Both {α β : Type} (r : α → β → Prop) : Option α → Option β → Prop
  | none, none => True
  | some a, some b => r a b
  | _, _ => False

theorem initDict_spec (size : List String → Except AErr (List Nat)) (fill : Content) (c : Cls) (hd : Distinct c) (o : Obj)
    (h : initDict size fill c = .ok o) (p : List String) :
    Both (fun f q => AsDeclared size f.2 (decide (f.1 = .loc)) (contentOf fill f.1) q) (fieldAt c p) (quantityAt o p) := by
  induction c generalizing o p with
  | nil => cases h; cases p <;> trivial
  | leaf n i m k rest ih =>
    rw [initDict] at h
    cases i
    · simp only [Bool.false_eq_true, if_false] at h
      cases p with
      | nil => rw [field_nil, quantity_nil]; trivial
      | cons x q =>
        have := ih hd.2 o h (x :: q)
        by_cases hx : x = n
        · subst hx
          rw [field_not_name hd.1] at this
          simpa [fieldAt] using this
        · simpa only [fieldAt, if_neg hx] using this
    · simp only [if_true] at h
      cases hq : initLeaf size fill m k with
      | error e => rw [hq] at h; cases h
      | ok q =>
        rw [hq] at h
        cases hr : initDict size fill rest with
        | error e => rw [hr] at h; cases h
        | ok r =>
          rw [hr] at h
          cases h
          cases p with
          | nil => trivial
          | cons x t =>
            by_cases hx : x = n
            · simp only [fieldAt, quantityAt, if_pos hx]
              by_cases ht : t = []
              · simp only [ht, true_and, if_true]
                exact initLeaf_spec size fill m k q hq
              · simp only [ht, false_and, if_false]; trivial
            · simp only [fieldAt, quantityAt, if_neg hx]
              exact ih hd.2 r hr _
  | nested n i g sub rest ih1 ih2 =>
    rw [initDict] at h
    cases i
    · simp only [Bool.false_eq_true, if_false] at h
      cases p with
      | nil => rw [field_nil, quantity_nil]; trivial
      | cons x q =>
        have := ih2 hd.2.2 o h (x :: q)
        by_cases hx : x = n
        · subst hx
          rw [field_not_name hd.1] at this
          simpa [fieldAt] using this
        · simpa only [fieldAt, if_neg hx] using this
    · simp only [if_true] at h
      cases hq : initDict size fill sub with
      | error e => rw [hq] at h; cases h
      | ok q =>
        rw [hq] at h
        cases hr : initDict size fill rest with
        | error e => rw [hr] at h; cases h
        | ok r =>
          rw [hr] at h
          cases h
          cases p with
          | nil => trivial
          | cons x t =>
            by_cases hx : x = n
            · simp only [fieldAt, quantityAt, if_pos hx, if_true]
              exact ih1 hd.2.1 q hq _
            · simp only [fieldAt, quantityAt, if_neg hx]
              exact ih2 hd.2.2 r hr _

/-- Building objects succeeds unless a `LocalState` is built outside of every runtime object. -/
theorem build_spec (size : List String → Except AErr (List Nat)) (fill : Content) (active : Bool) (stack : List Nat) (c : Cls)
    (d : Obj) (h : initDict size fill c = .ok d) :
    (active = true ∧ HasGuarded c ∧ stack = [] → build active stack c d = .error .runtimeError) ∧
    (¬ (active = true ∧ HasGuarded c ∧ stack = []) → ∃ o, build active stack c d = .ok o ∧
      ∀ p, quantityAt o p = quantityAt d p) := by
  induction c generalizing d with
  | nil => cases h; exact ⟨fun h => h.2.1.elim, fun _ => ⟨_, rfl, fun _ => rfl⟩⟩
  | leaf n i m k rest ih =>
    rw [initDict] at h
    cases i
    · simp only [Bool.false_eq_true, if_false] at h
      simpa [build, HasGuarded] using ih d h
    · simp only [if_true] at h
      cases hq : initLeaf size fill m k with
      | error e => rw [hq] at h; cases h
      | ok q =>
        rw [hq] at h
        cases hr : initDict size fill rest with
        | error e => rw [hr] at h; cases h
        | ok r =>
          rw [hr] at h
          cases h
          obtain ⟨h1, h2⟩ := ih r hr
          constructor
          · intro hc; simp [build, h1 hc, Except.map]
          · intro hc
            obtain ⟨o, ho, hp⟩ := h2 hc
            refine ⟨.leaf n q o, by simp [build, ho, Except.map], fun p => ?_⟩
            cases p with
            | nil => rfl
            | cons x t => simp only [quantityAt, hp]
  | nested n i g sub rest ih1 ih2 =>
    rw [initDict] at h
    cases i
    · simp only [Bool.false_eq_true, if_false] at h
      simpa [build, HasGuarded] using ih2 d h
    · simp only [if_true] at h
      cases hq : initDict size fill sub with
      | error e => rw [hq] at h; cases h
      | ok q =>
        rw [hq] at h
        cases hr : initDict size fill rest with
        | error e => rw [hr] at h; cases h
        | ok r =>
          rw [hr] at h
          cases h
          obtain ⟨h1, h2⟩ := ih1 q hq
          obtain ⟨k1, k2⟩ := ih2 r hr
          by_cases hs : active = true ∧ HasGuarded sub ∧ stack = []
          · refine ⟨fun _ => by simp [build, h1 hs], fun hc => ?_⟩
            exact absurd ⟨hs.1, Or.inl ⟨rfl, Or.inr hs.2.1⟩, hs.2.2⟩ hc
          · obtain ⟨o, ho, hp⟩ := h2 hs
            by_cases hg : active = true ∧ g = true ∧ stack = []
            · obtain ⟨rfl, rfl, rfl⟩ := hg
              refine ⟨fun _ => by simp [build, ho, postInit, firstRuntime], fun hc => ?_⟩
              exact absurd ⟨rfl, Or.inl ⟨rfl, Or.inl rfl⟩, rfl⟩ hc
            · have hpi : ∃ pr, postInit active g stack = .ok pr := by
                unfold postInit firstRuntime
                cases active <;> cases g <;> cases stack <;> simp at hg ⊢
              obtain ⟨pr, hpr⟩ := hpi
              constructor
              · rintro ⟨ha, hh, he⟩
                rcases hh with ⟨_, hh | hh⟩ | hh
                · exact absurd ⟨ha, hh, he⟩ hg
                · exact absurd ⟨ha, hh, he⟩ hs
                · simp [build, ho, hpr, k1 ⟨ha, hh, he⟩, Except.map]
              · intro hc
                obtain ⟨o2, ho2, hp2⟩ := k2 fun hh => hc ⟨hh.1, Or.inr hh.2.1, hh.2.2⟩
                refine ⟨.nested n pr o o2, by simp [build, ho, hpr, ho2, Except.map], fun p => ?_⟩
                cases p with
                | nil => rfl
                | cons x t => simp only [quantityAt, hp, hp2]

/-- What `_init` does. -/
theorem initState_spec (size : List String → Except AErr (List Nat)) (fill : Content) (active guarded : Bool)
    (stack : List Nat) (c : Cls) (hd : Distinct c) :
    ((∃ r, initState size fill active guarded stack c = .ok r) ↔
      (∀ p k m, fieldAt c p = some (k, m) → Allocatable size k m) ∧
        (active = true → stack = [] → guarded = false ∧ ¬ HasGuarded c)) ∧
    ∀ o par, initState size fill active guarded stack c = .ok (o, par) →
      (∀ p, Both (fun f q => AsDeclared size f.2 (decide (f.1 = .loc)) (contentOf fill f.1) q) (fieldAt c p) (quantityAt o p)) ∧
      par = (if active = true ∧ guarded = true then stack.head? else none) ∧
      ∃ d, initDict size fill c = .ok d ∧ build active stack c d = .ok o := by
  rw [← initDict_ok size fill c hd]
  unfold initState
  cases h : initDict size fill c with
  | error e => simp
  | ok d =>
    obtain ⟨b1, b2⟩ := build_spec size fill active stack c d h
    by_cases hg : active = true ∧ HasGuarded c ∧ stack = []
    · simp only [b1 hg]
      obtain ⟨rfl, hg, rfl⟩ := hg
      simp [hg]
    · obtain ⟨o, ho, hp⟩ := b2 hg
      simp only [ho]
      have e : postInit active guarded stack = if active = true ∧ guarded = true ∧ stack = [] then .error .runtimeError
          else .ok (if active = true ∧ guarded = true then stack.head? else none) := by
        cases active <;> cases guarded <;> cases stack <;> rfl
      constructor
      · constructor
        · rintro ⟨r, hr⟩
          refine ⟨⟨d, rfl⟩, fun ha hs => ⟨?_, fun hh => hg ⟨ha, hh, hs⟩⟩⟩
          rw [e] at hr
          by_cases hc : active = true ∧ guarded = true ∧ stack = []
          · rw [if_pos hc] at hr; cases hr
          · cases guarded
            · rfl
            · exact absurd ⟨ha, rfl, hs⟩ hc
        · rintro ⟨-, hh⟩
          rw [e, if_neg]
          · exact ⟨_, rfl⟩
          · rintro ⟨ha, hgu, hs⟩
            rw [(hh ha hs).1] at hgu; cases hgu
      · intro o' par hr
        rw [e] at hr
        split_ifs at hr <;> try cases hr
        all_goals
          refine ⟨fun p => ?_, by first | rfl | simp_all, d, rfl, ho⟩
          rw [hp]
          exact initDict_spec size fill c hd d h p

theorem withDims_snd {α : Type} (f : Factory) (dd : DDims) (body : Factory → Except AErr α) :
    (withDims f dd body).2 = body ⟨dd⟩ := rfl

/-- **C95**, `zeros`, `ones`, `empty` of a `State`: the allocation succeeds if and only if no field anywhere is a `Local`,
every initialised field can be allocated with the data dimensions given, and there is a runtime object around if a nested
state needs one; a `Local` is refused with a `TypeError`. Then the state holds, at every path, exactly the declared
fields, with the declared dimensions, units and dtype, the shape for the given data dimensions and the promised
content. -/
theorem C95_alloc (size : Sizer) (stack : List Nat) (fill : Content) (dd : Option DDims) (w : W) (hw : w.isLocal = false)
    (hd : Distinct w.cls) :
    ((∃ r, (alloc size stack fill dd w).2 = .ok r) ↔ (∀ p, declaredAt w.cls p ≠ some .loc) ∧
      (∀ p k m, fieldAt w.cls p = some (k, m) → Allocatable (size (dd.getD [])) k m) ∧
      (stack = [] → ¬ HasGuarded w.cls)) ∧
    ((∃ p, declaredAt w.cls p = some .loc) → (alloc size stack fill dd w).2 = .error .typeError) ∧
    ∀ o par, (alloc size stack fill dd w).2 = .ok (o, par) → par = none ∧
      ∀ p, Both (fun f q => AsDeclared (size (dd.getD [])) f.2 false fill q) (fieldAt w.cls p) (quantityAt o p) := by
  have i := initState_spec (size (dd.getD [])) fill true false stack w.cls hd
  unfold alloc
  rw [hw]
  simp only [Bool.false_eq_true, if_false]
  cases hc : checkNoLocals w.cls with
  | error e =>
    have hn : ¬ ∀ p, declaredAt w.cls p ≠ some .loc := by
      rw [← checkNoLocals_iff _ hd, hc]; simp
    rw [checkNoLocals_err _ _ hc]
    simp [hn]
  | ok u =>
    have hn : ∀ p, declaredAt w.cls p ≠ some .loc := (checkNoLocals_iff _ hd).mp hc
    simp only [withDims_snd]
    refine ⟨?_, fun h => absurd h.choose_spec (hn _), fun o par h => ?_⟩
    · rw [i.1]; simp [hn]
    · obtain ⟨a, b, -⟩ := i.2 o par h
      refine ⟨by simpa using b, fun p => ?_⟩
      have ap := a p
      have : ∀ f, fieldAt w.cls p = some f → f.1 ≠ .loc := by
        intro f hf e
        have key : ∀ (c : Cls) (p : List String) (f : Kind × Meta), fieldAt c p = some f → declaredAt c p = some f.1 := by
          intro c
          induction c with
          | nil => intro p f h; cases p <;> cases h
          | leaf n i m k rest ih =>
            intro p f h
            cases p with
            | nil => cases h
            | cons x t =>
              by_cases hx : x = n
              · simp only [fieldAt, if_pos hx] at h
                split_ifs at h with hi
                cases h
                simp [declaredAt, hx, hi.1]
              · simp only [fieldAt, if_neg hx] at h
                simp only [declaredAt, if_neg hx]; exact ih _ _ h
          | nested n i g sub rest ih1 ih2 =>
            intro p f h
            cases p with
            | nil => cases h
            | cons x t =>
              by_cases hx : x = n
              · simp only [fieldAt, if_pos hx] at h
                split_ifs at h with hi
                simp only [declaredAt, if_pos hx]; exact ih1 _ _ h
              · simp only [fieldAt, if_neg hx] at h
                simp only [declaredAt, if_neg hx]; exact ih2 _ _ h
        have := key _ _ _ hf
        rw [e] at this
        exact hn p this
      cases hf : fieldAt w.cls p with
      | none => rw [hf] at ap; cases hq : quantityAt o p with
        | none => trivial
        | some q => rw [hq] at ap; exact ap.elim
      | some f =>
        rw [hf] at ap
        cases hq : quantityAt o p with
        | none => rw [hq] at ap; exact ap.elim
        | some q =>
          rw [hq] at ap
          have hne := this f hf
          simpa [Both, contentOf, hne] using ap

theorem fillObj_spec (size : List String → Except AErr (List Nat)) (fill : Content) (v : Int) (active : Bool) (stack : List Nat)
    (c : Cls) (d o : Obj) (h : initDict size fill c = .ok d) (hb : build active stack c d = .ok o) :
    (AllInit c → ∃ o', fillObj v c o = .ok o' ∧ ∀ p, quantityAt o' p = (quantityAt o p).map fun q => { q with content := .num v }) ∧
    (¬ AllInit c → fillObj v c o = .error .attributeError) := by
  induction c generalizing d o with
  | nil => cases h; cases hb; exact ⟨fun _ => ⟨_, rfl, fun p => by cases p <;> rfl⟩, fun h => absurd trivial h⟩
  | leaf n i m k rest ih =>
    rw [initDict] at h
    cases i
    · exact ⟨fun h => absurd h.1 (by simp), fun _ => by simp [fillObj]⟩
    · simp only [if_true] at h
      cases hq : initLeaf size fill m k with
      | error e => rw [hq] at h; cases h
      | ok q =>
        rw [hq] at h
        cases hr : initDict size fill rest with
        | error e => rw [hr] at h; cases h
        | ok r =>
          rw [hr] at h
          cases h
          simp only [build, if_true] at hb
          cases hbr : build active stack rest r with
          | error e => rw [hbr] at hb; cases hb
          | ok o1 =>
            rw [hbr] at hb; cases hb
            obtain ⟨h1, h2⟩ := ih r o1 hr hbr
            constructor
            · rintro ⟨-, ha⟩
              obtain ⟨o', ho', hp⟩ := h1 ha
              refine ⟨_, by simp [fillObj, ho', Except.map]; rfl, fun p => ?_⟩
              cases p with
              | nil => rfl
              | cons x t =>
                simp only [quantityAt, hp]
                split_ifs <;> rfl
            · intro hn
              have := h2 fun ha => hn ⟨rfl, ha⟩
              simp [fillObj, this, Except.map]
  | nested n i g sub rest ih1 ih2 =>
    rw [initDict] at h
    cases i
    · exact ⟨fun h => absurd h.1 (by simp), fun _ => by simp [fillObj]⟩
    · simp only [if_true] at h
      cases hq : initDict size fill sub with
      | error e => rw [hq] at h; cases h
      | ok q =>
        rw [hq] at h
        cases hr : initDict size fill rest with
        | error e => rw [hr] at h; cases h
        | ok r =>
          rw [hr] at h
          cases h
          simp only [build, if_true] at hb
          cases hbs : build active stack sub q with
          | error e => rw [hbs] at hb; cases hb
          | ok o0 =>
            rw [hbs] at hb
            simp only at hb
            cases hpi : postInit active g stack with
            | error e => rw [hpi] at hb; cases hb
            | ok pr =>
              rw [hpi] at hb
              simp only at hb
              cases hbr : build active stack rest r with
              | error e => rw [hbr] at hb; cases hb
              | ok o1 =>
                rw [hbr] at hb; cases hb
                obtain ⟨h1, h2⟩ := ih1 q o0 hq hbs
                obtain ⟨k1, k2⟩ := ih2 r o1 hr hbr
                constructor
                · rintro ⟨-, ha, hb⟩
                  obtain ⟨o', ho', hp⟩ := h1 ha
                  obtain ⟨o2, ho2, hp2⟩ := k1 hb
                  refine ⟨_, by simp [fillObj, ho', ho2, Except.map]; rfl, fun p => ?_⟩
                  cases p with
                  | nil => rfl
                  | cons x t =>
                    simp only [quantityAt, hp, hp2]
                    split_ifs <;> rfl
                · intro hn
                  by_cases ha : AllInit sub
                  · obtain ⟨o', ho', hp⟩ := h1 ha
                    have := k2 fun hb => hn ⟨rfl, ha, hb⟩
                    simp [fillObj, ho', this, Except.map]
                  · simp [fillObj, h2 ha]

/-- **C95**, `full`: for a class all of whose fields are initialised it succeeds exactly when `empty` does, and every
field holds the value. -/
theorem C95_full (size : Sizer) (stack : List Nat) (v : Int) (dd : Option DDims) (w : W) (hw : w.isLocal = false)
    (hd : Distinct w.cls) (hi : AllInit w.cls) :
    ((∃ r, (allocFull size stack v dd w).2 = .ok r) ↔ ∃ r, (alloc size stack .junk dd w).2 = .ok r) ∧
    ∀ o par, (allocFull size stack v dd w).2 = .ok (o, par) →
      ∀ p, Both (fun f q => AsDeclared (size (dd.getD [])) f.2 false (.num v) q) (fieldAt w.cls p) (quantityAt o p) := by
  have hs := (C95_alloc size stack .junk dd w hw hd).2.2
  have hcls : (alloc size stack .junk dd w).1.cls = w.cls := by
    unfold alloc; rw [hw]; simp only [Bool.false_eq_true, if_false]; split <;> rfl
  unfold allocFull
  cases ha : alloc size stack .junk dd w with
  | mk w' r =>
    rw [ha] at hs hcls
    cases r with
    | error e => simp
    | ok r =>
      obtain ⟨o, par⟩ := r
      simp only at hs hcls ⊢
      have hb : ∃ d, initDict (size (dd.getD [])) .junk w.cls = .ok d ∧ build true stack w.cls d = .ok o := by
        have h2 : (alloc size stack .junk dd w).2 = .ok (o, par) := by rw [ha]
        unfold alloc at h2
        rw [hw] at h2
        simp only [Bool.false_eq_true, if_false] at h2
        cases hc : checkNoLocals w.cls with
        | error e => rw [hc] at h2; cases h2
        | ok u =>
          rw [hc] at h2
          exact ((initState_spec (size (dd.getD [])) .junk true false stack w.cls hd).2 o par h2).2.2
      obtain ⟨d, hd1, hb⟩ := hb
      obtain ⟨o', ho', hp⟩ := (fillObj_spec _ .junk v true stack w.cls d o hd1 hb).1 hi
      rw [hcls, ho']
      refine ⟨⟨fun _ => ⟨_, rfl⟩, fun _ => ⟨_, rfl⟩⟩, ?_⟩
      intro o2 par2 h2 p
      cases h2
      have := (hs o par rfl).2 p
      rw [hp]
      cases hf : fieldAt w.cls p with
      | none => rw [hf] at this; cases hq : quantityAt o p with
        | none => trivial
        | some q => rw [hq] at this; exact this.elim
      | some f => rw [hf] at this; cases hq : quantityAt o p with
        | none => rw [hq] at this; exact this.elim
        | some q =>
          rw [hq] at this
          obtain ⟨a1, a2, a3, a4, a5, a6⟩ := this
          exact ⟨a1, a2, a3, a4, a5, rfl⟩

/-- **C95**, the class with a field that is not initialised: `zeros` works, `full` raises. -/
def partInit : W :=
  ⟨.leaf "a" true ⟨some ["x"], some "m", some "Float"⟩ .quantity
    (.leaf "b" false ⟨some ["x"], some "m", some "Float"⟩ .quantity .nil), false, ⟨[]⟩⟩

/-- A sizer that knows the dimension `x` and the data dimensions. -/
def sizer1 : Sizer := fun dd ds => ds.foldr (fun d r =>
  match r with
  | .error e => .error e
  | .ok l => if d = "x" then .ok (3 :: l) else match dd.lookup d with
    | some n => .ok (n :: l)
    | none => .error .valueError) (.ok [])

theorem C95_full_violated :
    (alloc sizer1 [] .zeros none partInit).2 =
      .ok (.leaf "a" ⟨["x"], "m", "Float", [3], false, .zeros⟩ .nil, none) ∧
    (allocFull sizer1 [] 7 none partInit).2 = .error .attributeError := by
  constructor <;> rfl

theorem checkOnlyLocals_err (c : Cls) (e : AErr) (h : checkOnlyLocals c = .error e) : e = .typeError := by
  induction c with
  | nil => cases h
  | leaf n i m k rest ih =>
    simp only [checkOnlyLocals] at h
    split_ifs at h
    · cases h; rfl
    · exact ih h
  | nested n i g sub rest ih1 ih2 =>
    simp only [checkOnlyLocals] at h
    cases hs : checkOnlyLocals sub with
    | error e' => rw [hs] at h; cases h; exact ih1 hs
    | ok u => rw [hs] at h; exact ih2 h

/-- **C95**, `make_locals` of a `LocalState`: it succeeds if and only if no field anywhere is a `Quantity`, every
initialised field can be allocated and the call comes from a runtime object; then the state belongs to the innermost
such object and holds exactly the declared fields, the `Local`s filled with 123456789. -/
theorem C95_locals (size : Sizer) (stack : List Nat) (dd : Option DDims) (w : W) (hw : w.isLocal = true)
    (hd : Distinct w.cls) :
    ((∃ r, (makeLocals size stack dd w).2 = .ok r) ↔ (∀ p, declaredAt w.cls p ≠ some .quantity) ∧
      (∀ p k m, fieldAt w.cls p = some (k, m) → Allocatable (size (dd.getD [])) k m) ∧ stack ≠ []) ∧
    ((∃ p, declaredAt w.cls p = some .quantity) → (makeLocals size stack dd w).2 = .error .typeError) ∧
    ∀ o par, (makeLocals size stack dd w).2 = .ok (o, par) → par = stack.head? ∧
      ∀ p, Both (fun f q => AsDeclared (size (dd.getD [])) f.2 (decide (f.1 = .loc))
        (if f.1 = .loc then .num 123456789 else .junk) q) (fieldAt w.cls p) (quantityAt o p) := by
  have i := initState_spec (size (dd.getD [])) .junk true true stack w.cls hd
  unfold makeLocals
  rw [hw]
  simp only [if_true]
  cases hc : checkOnlyLocals w.cls with
  | error e =>
    have hn : ¬ ∀ p, declaredAt w.cls p ≠ some .quantity := by
      rw [← checkOnlyLocals_iff _ hd, hc]; simp
    rw [checkOnlyLocals_err _ _ hc]
    simp [hn]
  | ok u =>
    have hn : ∀ p, declaredAt w.cls p ≠ some .quantity := (checkOnlyLocals_iff _ hd).mp hc
    simp only [withDims_snd]
    refine ⟨?_, fun h => absurd h.choose_spec (hn _), fun o par h => ?_⟩
    · rw [i.1]; simp [hn]
    · obtain ⟨a, b, -⟩ := i.2 o par h
      exact ⟨by simpa using b, a⟩

/-- Access in a class all of whose nested states are guarded. -/
theorem build_access (stack t : List Nat) (r : Nat) (hr : stack.head? = some r) (c : Cls) (hg : AllGuarded c) (d o : Obj)
    (h : build true stack c d = .ok o) (p : List String) (q : Q) (hq : quantityAt o p = some q) :
    access t (some r) o p = guard (some r) t q := by
  induction c generalizing d o p with
  | nil => cases h; cases p <;> cases hq
  | leaf n i m k rest ih =>
    simp only [build] at h
    cases i
    · exact ih hg d o h p hq
    · simp only [if_true] at h
      cases d with
      | nil => cases h
      | nested _ _ _ _ => cases h
      | leaf n' q' os =>
        simp only at h
        cases hb : build true stack rest os with
        | error e => rw [hb] at h; cases h
        | ok o1 =>
          rw [hb] at h; cases h
          cases p with
          | nil => cases hq
          | cons x l =>
            simp only [quantityAt] at hq
            simp only [access]
            by_cases hx : x = n'
            · rw [if_pos hx] at hq ⊢
              by_cases hl : l = []
              · rw [if_pos hl] at hq ⊢; cases hq; rfl
              · rw [if_neg hl] at hq; cases hq
            · rw [if_neg hx] at hq ⊢
              exact ih hg os o1 hb _ hq
  | nested n i g sub rest ih1 ih2 =>
    obtain ⟨rfl, hg1, hg2⟩ := hg
    simp only [build] at h
    cases i
    · exact ih2 hg2 d o h p hq
    · simp only [if_true] at h
      cases d with
      | nil => cases h
      | leaf _ _ _ => cases h
      | nested n' p' o0 os =>
        simp only at h
        cases hb : build true stack sub o0 with
        | error e => rw [hb] at h; cases h
        | ok o1 =>
          rw [hb] at h
          have hpi : postInit true true stack = .ok (some r) := by simp [postInit, firstRuntime, hr]
          simp only [hpi] at h
          cases hb2 : build true stack rest os with
          | error e => rw [hb2] at h; cases h
          | ok o2 =>
            rw [hb2] at h; cases h
            cases p with
            | nil => cases hq
            | cons x l =>
              simp only [quantityAt] at hq
              simp only [access]
              by_cases hx : x = n'
              · rw [if_pos hx] at hq ⊢
                exact ih1 hg1 o0 o1 hb _ hq
              · rw [if_neg hx] at hq ⊢
                exact ih2 hg2 os o2 hb2 _ hq

/-- **C95**, locals stay with their runtime object: if all nested states are `LocalState`s, a `Local` of a state made by
`make_locals` in the runtime object `r` can be read from a place if and only if `r` is in the stack of that place; from
anywhere else reading raises a `RuntimeError`. -/
theorem C95_access (size : Sizer) (r : Nat) (s : List Nat) (dd : Option DDims) (w : W) (hw : w.isLocal = true)
    (hd : Distinct w.cls) (hg : AllGuarded w.cls) (o : Obj) (par : Option Nat)
    (h : (makeLocals size (r :: s) dd w).2 = .ok (o, par)) (t : List Nat) (p : List String) (q : Q)
    (hq : quantityAt o p = some q) (hl : q.isLocal = true) :
    access t par o p = if r ∈ t then .ok q else .error .runtimeError := by
  have hpar := ((C95_locals size (r :: s) dd w hw hd).2.2 o par h).1
  unfold makeLocals at h
  rw [hw] at h
  simp only [if_true] at h
  cases hc : checkOnlyLocals w.cls with
  | error e => rw [hc] at h; cases h
  | ok u =>
    rw [hc] at h
    obtain ⟨-, -, d, -, hb⟩ := (initState_spec (size (dd.getD [])) .junk true true (r :: s) w.cls hd).2 o par h
    rw [hpar]
    rw [List.head?_cons, build_access (r :: s) t r rfl w.cls hg d o hb p q hq]
    unfold guard
    rw [hl]
    simp only [if_true]
    by_cases ht : t = []
    · subst ht; simp
    · simp [ht]

theorem swap_swap (c : Cls) (hd : Distinct c) (h : ∀ p, declaredAt c p ≠ some .quantity) :
    swapKind .quantity .loc (swapKind .loc .quantity c) = c := by
  rw [← checkOnlyLocals_iff _ hd] at h
  clear hd
  induction c with
  | nil => rfl
  | leaf n i m k rest ih =>
    simp only [checkOnlyLocals] at h
    by_cases hk : k = .quantity
    · rw [if_pos hk] at h; cases h
    · rw [if_neg hk] at h
      simp only [swapKind, ih h]
      cases k <;> simp at hk ⊢
  | nested n i g sub rest ih1 ih2 =>
    simp only [checkOnlyLocals] at h
    cases hs : checkOnlyLocals sub with
    | error e => rw [hs] at h; cases h
    | ok u => rw [hs] at h; simp only [swapKind, ih1 hs, ih2 h]

theorem names_swap (a b : Kind) (c : Cls) : names (swapKind a b c) = names c := by
  induction c with
  | nil => rfl
  | leaf n i m k rest ih => simp [swapKind, names, ih]
  | nested n i g sub rest ih1 ih2 => simp [swapKind, names, ih2]

theorem distinct_swap (a b : Kind) (c : Cls) (h : Distinct c) : Distinct (swapKind a b c) := by
  induction c with
  | nil => trivial
  | leaf n i m k rest ih => exact ⟨by rw [names_swap]; exact h.1, ih h.2⟩
  | nested n i g sub rest ih1 ih2 => exact ⟨by rw [names_swap]; exact h.1, ih1 h.2.1, ih2 h.2.2⟩

theorem field_swap (a b : Kind) (c : Cls) (p : List String) :
    fieldAt (swapKind a b c) p = (fieldAt c p).map fun f => (if f.1 = a then b else f.1, f.2) := by
  induction c generalizing p with
  | nil => cases p <;> rfl
  | leaf n i m k rest ih =>
    cases p with
    | nil => rfl
    | cons x t => simp only [swapKind, fieldAt, ih]; split_ifs <;> simp_all
  | nested n i g sub rest ih1 ih2 =>
    cases p with
    | nil => rfl
    | cons x t => simp only [swapKind, fieldAt, ih1, ih2]; split_ifs <;> rfl

/-- **C95**, `make_as_state` of a `LocalState`: where it succeeds, the class is as before, and the result holds a plain
quantity for every declared field, readable from everywhere; it needs no runtime object. -/
theorem C95_as_state (size : Sizer) (stack : List Nat) (dd : Option DDims) (w : W) (hw : w.isLocal = true)
    (hd : Distinct w.cls) :
    ((∃ r, (makeAsState size stack dd w).2 = .ok r) ↔ (∀ p, declaredAt w.cls p ≠ some .quantity) ∧
      ∀ p k m, fieldAt w.cls p = some (k, m) → Allocatable (size (dd.getD [])) k m) ∧
    ∀ o par, (makeAsState size stack dd w).2 = .ok (o, par) → (makeAsState size stack dd w).1 = w ∧ par = none ∧
      ∀ p, Both (fun f q => AsDeclared (size (dd.getD [])) f.2 false .junk q) (fieldAt w.cls p) (quantityAt o p) := by
  have i := initState_spec (size (dd.getD [])) .junk false true stack _ (distinct_swap .loc .quantity _ hd)
  have hal : (∀ p k m, fieldAt (swapKind .loc .quantity w.cls) p = some (k, m) → Allocatable (size (dd.getD [])) k m) ↔
      ∀ p k m, fieldAt w.cls p = some (k, m) → Allocatable (size (dd.getD [])) k m := by
    constructor
    · intro h p k m hf
      have := h p (if k = .loc then .quantity else k) m (by rw [field_swap, hf]; rfl)
      refine ⟨?_, this.2⟩
      intro e; subst e; exact this.1 rfl
    · intro h p k m hf
      rw [field_swap] at hf
      cases hg : fieldAt w.cls p with
      | none => rw [hg] at hf; cases hf
      | some f =>
        rw [hg] at hf; cases hf
        have := h p f.1 f.2 hg
        refine ⟨?_, this.2⟩
        intro e
        split_ifs at e with hk
        exact this.1 e
  unfold makeAsState
  rw [hw]
  simp only [if_true]
  cases hc : checkOnlyLocals w.cls with
  | error e =>
    have hn : ¬ ∀ p, declaredAt w.cls p ≠ some .quantity := by
      rw [← checkOnlyLocals_iff _ hd, hc]; simp
    simp [hn]
  | ok u =>
    have hn : ∀ p, declaredAt w.cls p ≠ some .quantity := (checkOnlyLocals_iff _ hd).mp hc
    simp only [withDims_snd]
    rw [hal] at i
    cases hr : initState (size (dd.getD [])) .junk false true stack (swapKind .loc .quantity w.cls) with
    | error e =>
      rw [hr] at i
      simp only [hn]
      refine ⟨⟨fun h => by simp at h, fun h => ?_⟩, fun _ _ h => by simp at h⟩
      exact absurd (i.1.mpr ⟨h.2, by simp⟩) (by simp)
    | ok r =>
      rw [hr] at i
      simp only
      refine ⟨⟨fun _ => ⟨hn, (i.1.mp ⟨_, rfl⟩).1⟩, fun _ => ⟨_, rfl⟩⟩, fun o par h => ?_⟩
      obtain ⟨a, b, -⟩ := i.2 o par h
      refine ⟨?_, by simpa using b, fun p => ?_⟩
      · rw [swap_swap _ hd hn]
        cases w with
        | mk c l f => simp only at hw; subst hw; rfl
      · have ap := a p
        rw [field_swap] at ap
        cases hf : fieldAt w.cls p with
        | none => rw [hf] at ap; cases hq : quantityAt o p with
          | none => trivial
          | some q => rw [hq] at ap; exact ap.elim
        | some f =>
          rw [hf] at ap
          cases hq : quantityAt o p with
          | none => rw [hq] at ap; exact ap.elim
          | some q =>
            rw [hq] at ap
            have e : (if f.1 = Kind.loc then Kind.quantity else f.1) ≠ .loc := by split_ifs with h <;> simp_all
            simpa [Both, contentOf, e] using ap

/-- A `LocalState` with a `Local` along `x` and along a data dimension `n`. -/
def scratch : W :=
  ⟨.leaf "a" true ⟨some ["x", "n"], some "m", some "Float"⟩ .loc
    (.nested "sub" true true (.leaf "b" true ⟨some ["x"], some "m", some "Float"⟩ .loc .nil) .nil), true, ⟨[]⟩⟩

/-- **C95** fails after a failed `make_as_state`: without the size of `n` it raises, and leaves the fields of the class as
quantities, so that from then on `make_locals` is refused even with the right data dimensions. -/
theorem C95_as_state_violated :
    (makeLocals sizer1 [1] (some [("n", 2)]) scratch).2.toBool = true ∧
    (makeAsState sizer1 [1] none scratch).2 = .error .valueError ∧
    (makeLocals sizer1 [1] (some [("n", 2)]) (makeAsState sizer1 [1] none scratch).1).2 = .error .typeError := by
  refine ⟨?_, ?_, ?_⟩ <;> rfl

/-- **C95**, not all temporaries are protected: a field `Quantity | None` of a `LocalState` is accepted and is an
ordinary quantity, and the `Local`s in a nested dataclass that is no `LocalState` can be read from anywhere. -/
theorem C95_guard_violated :
    ∃ o par, (makeLocals sizer1 [1] none
      ⟨.leaf "a" true ⟨some ["x"], some "m", some "Float"⟩ .optional
        (.nested "sub" true false (.leaf "b" true ⟨some ["x"], some "m", some "Float"⟩ .loc .nil) .nil), true, ⟨[]⟩⟩).2 =
      .ok (o, par) ∧
      access [] par o ["a"] = .ok ⟨["x"], "m", "Float", [3], false, .junk⟩ ∧
      access [] par o ["sub", "b"] = .ok ⟨["x"], "m", "Float", [3], true, .num 123456789⟩ := by
  refine ⟨.leaf "a" ⟨["x"], "m", "Float", [3], false, .junk⟩ (.nested "sub" none
    (.leaf "b" ⟨["x"], "m", "Float", [3], true, .num 123456789⟩ .nil) .nil), some 1, ?_, ?_, ?_⟩ <;> rfl

/-- A nested state for which `zeros` with a data dimension works. -/
example : (alloc sizer1 [] .zeros (some [("n", 2)])
    ⟨.leaf "a" true ⟨some ["x", "n"], some "m", some "Float"⟩ .quantity
      (.nested "sub" true false (.leaf "b" true ⟨some ["x"], some "m", some "Float"⟩ .optional .nil) .nil), false,
      ⟨[("k", 4)]⟩⟩).2 =
    .ok (.leaf "a" ⟨["x", "n"], "m", "Float", [3, 2], false, .zeros⟩
      (.nested "sub" none (.leaf "b" ⟨["x"], "m", "Float", [3], false, .zeros⟩ .nil) .nil), none) := by rfl

/-- A local state that fulfils the hypotheses of `C95_access`; its nested `Local` is read from the runtime object 1 and
from one called by it, not from another. -/
example : Distinct scratch.cls ∧ AllGuarded scratch.cls ∧ ∃ o par,
    (makeLocals sizer1 [1, 5] (some [("n", 2)]) scratch).2 = .ok (o, par) ∧ (access [7, 1] par o ["sub", "b"]).toBool = true ∧
    access [5] par o ["sub", "b"] = .error .runtimeError := by
  refine ⟨by simp [Distinct, scratch, names], by simp [AllGuarded, scratch],
    .leaf "a" ⟨["x", "n"], "m", "Float", [3, 2], true, .num 123456789⟩ (.nested "sub" (some 1)
    (.leaf "b" ⟨["x"], "m", "Float", [3], true, .num 123456789⟩ .nil) .nil), some 1, ?_, ?_, ?_⟩ <;> rfl

/-- `full` of the initialised part and `make_as_state` work too. -/
example : AllInit scratch.cls ∧ (makeAsState sizer1 [] (some [("n", 2)]) scratch).2.toBool = true ∧
    (allocFull sizer1 [] 7 none ⟨.leaf "a" true ⟨some ["x"], some "m", some "Float"⟩ .quantity .nil, false, ⟨[]⟩⟩).2 =
      .ok (.leaf "a" ⟨["x"], "m", "Float", [3], false, .num 7⟩ .nil, none) := by
  refine ⟨by simp [AllInit, scratch], ?_, ?_⟩ <;> rfl

end NDSL.Alloc
