import Verif.Props.AxisMerge
/-
C116: merging loops ends for every program, and every computation is kept once.
-/
namespace NDSL.AxisMerge

variable {V : Type}

/-! ### Specification -/

/-- The computations of a program, in the order of the program. -/
def Tree.work : Tree V → List ((Nat → List Int → V) → Nat → List Int → V)
  | .done => []
  | .tasklet t rest => t.f :: rest.work
  | .ifS _ body rest => body.work ++ rest.work
  | .mapS _ _ body rest => body.work ++ rest.work
  | .forS _ _ body rest => body.work ++ rest.work

/-- The number of parallel loops. -/
def Tree.maps : Tree V → Nat
  | .done => 0
  | .tasklet _ rest => rest.maps
  | .ifS _ body rest => body.maps + rest.maps
  | .mapS _ _ body rest => 1 + body.maps + rest.maps
  | .forS _ _ body rest => body.maps + rest.maps

/-- For each parallel loop over the axis, the sequential loops around it that are not over the axis, of which `d` are around the
whole. -/
def Tree.around (isAxis : Nat → Bool) : Nat → Tree V → Nat
  | _, .done => 0
  | d, .tasklet _ rest => rest.around isAxis d
  | d, .ifS _ body rest => body.around isAxis d + rest.around isAxis d
  | d, .mapS p _ body rest => (if isAxis p then d else 0) + body.around isAxis d + rest.around isAxis d
  | d, .forS p _ body rest => body.around isAxis (if isAxis p then d else d + 1) + rest.around isAxis d

/-! ### One step -/

/-- The number of nodes. -/
def Tree.size : Tree V → Nat
  | .done => 0
  | .tasklet _ rest => 1 + rest.size
  | .ifS _ body rest => 1 + body.size + rest.size
  | .mapS _ _ body rest => 1 + body.size + rest.size
  | .forS _ _ body rest => 1 + body.size + rest.size

theorem work_append (a b : Tree V) : (a.append b).work = a.work ++ b.work := by
  induction a with
  | done => rfl
  | tasklet t r ih => simp [Tree.append, Tree.work, ih]
  | ifS g x r _ ih => simp [Tree.append, Tree.work, ih]
  | mapS p q x r _ ih => simp [Tree.append, Tree.work, ih]
  | forS p q x r _ ih => simp [Tree.append, Tree.work, ih]

theorem maps_append (a b : Tree V) : (a.append b).maps = a.maps + b.maps := by
  induction a with
  | done => simp [Tree.append, Tree.maps]
  | tasklet t r ih => simp [Tree.append, Tree.maps, ih]
  | ifS g x r _ ih => simp [Tree.append, Tree.maps, ih]; omega
  | mapS p q x r _ ih => simp [Tree.append, Tree.maps, ih]; omega
  | forS p q x r _ ih => simp [Tree.append, Tree.maps, ih]; omega

theorem around_append (isAxis : Nat → Bool) (d : Nat) (a b : Tree V) :
    (a.append b).around isAxis d = a.around isAxis d + b.around isAxis d := by
  induction a with
  | done => simp [Tree.append, Tree.around]
  | tasklet t r ih => simp [Tree.append, Tree.around, ih]
  | ifS g x r _ ih => simp [Tree.append, Tree.around, ih]; omega
  | mapS p q x r _ ih => simp [Tree.append, Tree.around, ih]; omega
  | forS p q x r _ ih => simp [Tree.append, Tree.around, ih]; omega

theorem work_guard (g : Guard) (u : Bool) (t : Tree V) : (t.guardChildren g u).work = t.work := by
  induction t with
  | done => rfl
  | tasklet t r ih => unfold Tree.guardChildren; cases u <;> simp [Tree.work]
  | ifS g x r _ ih => unfold Tree.guardChildren; cases u <;> simp [Tree.work]
  | forS p q x r _ ih => unfold Tree.guardChildren; cases u <;> simp [Tree.work]
  | mapS p q x r ih1 ih2 =>
    unfold Tree.guardChildren
    by_cases h : r.allMaps
    · simp [h, Tree.work, ih1, ih2]
    · cases u <;> simp [h, Tree.work]

theorem maps_guard (g : Guard) (u : Bool) (t : Tree V) : (t.guardChildren g u).maps = t.maps := by
  induction t with
  | done => rfl
  | tasklet t r ih => unfold Tree.guardChildren; cases u <;> simp [Tree.maps]
  | ifS g x r _ ih => unfold Tree.guardChildren; cases u <;> simp [Tree.maps]
  | forS p q x r _ ih => unfold Tree.guardChildren; cases u <;> simp [Tree.maps]
  | mapS p q x r ih1 ih2 =>
    unfold Tree.guardChildren
    by_cases h : r.allMaps
    · simp [h, Tree.maps, ih1, ih2]
    · cases u <;> simp [h, Tree.maps]

theorem around_guard (isAxis : Nat → Bool) (d : Nat) (g : Guard) (u : Bool) (t : Tree V) :
    (t.guardChildren g u).around isAxis d = t.around isAxis d := by
  induction t with
  | done => rfl
  | tasklet t r ih => unfold Tree.guardChildren; cases u <;> simp [Tree.around]
  | ifS g x r _ ih => unfold Tree.guardChildren; cases u <;> simp [Tree.around]
  | forS p q x r _ ih => unfold Tree.guardChildren; cases u <;> simp [Tree.around]
  | mapS p q x r ih1 ih2 =>
    unfold Tree.guardChildren
    by_cases h : r.allMaps
    · simp [h, Tree.around, ih1, ih2]
    · cases u <;> simp [h, Tree.around]

theorem work_rename (a b : Nat) (t : Tree V) : (t.rename a b).work = t.work := by
  induction t with
  | done => rfl
  | tasklet t r ih => simp [Tree.rename, Tree.work, ih]
  | ifS g x r ih1 ih => simp [Tree.rename, Tree.work, ih, ih1]
  | mapS p q x r ih1 ih => simp [Tree.rename, Tree.work, ih, ih1]
  | forS p q x r ih1 ih => simp [Tree.rename, Tree.work, ih, ih1]

theorem maps_rename (a b : Nat) (t : Tree V) : (t.rename a b).maps = t.maps := by
  induction t with
  | done => rfl
  | tasklet t r ih => simp [Tree.rename, Tree.maps, ih]
  | ifS g x r ih1 ih => simp [Tree.rename, Tree.maps, ih, ih1]
  | mapS p q x r ih1 ih => simp [Tree.rename, Tree.maps, ih, ih1]
  | forS p q x r ih1 ih => simp [Tree.rename, Tree.maps, ih, ih1]

theorem around_rename (isAxis : Nat → Bool) (a b : Nat) (ha : isAxis a = true) (hb : isAxis b = true) (t : Tree V) (d : Nat) :
    (t.rename a b).around isAxis d = t.around isAxis d := by
  induction t generalizing d with
  | done => rfl
  | tasklet t r ih => simp [Tree.rename, Tree.around, ih]
  | ifS g x r ih1 ih => simp [Tree.rename, Tree.around, ih, ih1]
  | mapS p q x r ih1 ih =>
    have : isAxis (if p = a then b else p) = isAxis p := by
      by_cases h : p = a
      · rw [if_pos h, h, ha, hb]
      · rw [if_neg h]
    simp only [Tree.rename, Tree.around, ih, ih1, this]
  | forS p q x r ih1 ih => simp [Tree.rename, Tree.around, ih, ih1]

/-- How much a program can still be merged. -/
def Tree.left (isAxis : Nat → Bool) (d : Nat) (t : Tree V) : Nat := t.maps + t.around isAxis d

/-- What a rewriting with `n` merges keeps. -/
structure Step (isAxis : Nat → Bool) (t u : Tree V) (n : Nat) : Prop where
  work : u.work = t.work
  less : ∀ d, u.left isAxis d + n ≤ t.left isAxis d
  small : u.maps < t.maps ∨ (u.maps = t.maps ∧ u.size = t.size)

theorem Step.refl (isAxis : Nat → Bool) (t : Tree V) : Step isAxis t t 0 :=
  ⟨rfl, fun _ => Nat.le_refl _, .inr ⟨rfl, rfl⟩⟩

theorem Step.trans {isAxis : Nat → Bool} {t u v : Tree V} {n m : Nat} (a : Step isAxis t u n) (b : Step isAxis u v m) :
    Step isAxis t v (n + m) :=
  ⟨b.work.trans a.work, fun d => by have := a.less d; have := b.less d; omega, by
    have := a.small; have := b.small; omega⟩

theorem step_merge (isAxis : Nat → Bool) (axis : Nat) (t u : Tree V) (h : mergeMaps isAxis axis t = some u) :
    Step isAxis t u 1 ∧ u.maps < t.maps := by
  unfold mergeMaps at h
  split at h
  · rename_i p1 r1 b1 p2 r2 b2 rest
    split at h
    · rename_i hc
      simp only [Bool.and_eq_true] at hc
      injection h with h
      subst h
      have hw : (mergedBody p1 p2 r1 r2 b1 b2).work = b1.work ++ b2.work := by
        unfold mergedBody
        by_cases e : p2 = p1
        · simp [e, work_append, work_guard]
        · simp [e, work_append, work_guard, work_rename]
      have hm : (mergedBody p1 p2 r1 r2 b1 b2).maps = b1.maps + b2.maps := by
        unfold mergedBody
        by_cases e : p2 = p1
        · simp [e, maps_append, maps_guard]
        · simp [e, maps_append, maps_guard, maps_rename]
      have ha : ∀ d, (mergedBody p1 p2 r1 r2 b1 b2).around isAxis d = b1.around isAxis d + b2.around isAxis d := by
        intro d
        unfold mergedBody
        by_cases e : p2 = p1
        · simp [e, around_append, around_guard]
        · simp [e, around_append, around_guard, around_rename isAxis p2 p1 hc.1.2 hc.1.1]
      refine ⟨⟨?_, ?_, .inl ?_⟩, ?_⟩
      · simp [Tree.work, hw]
      · intro d
        simp only [Tree.left, Tree.maps, Tree.around, hm, ha]
        omega
      · simp only [Tree.maps, hm]; omega
      · simp only [Tree.maps, hm]; omega
    · cases h
  · cases h

theorem step_push (isAxis : Nat → Bool) (t u : Tree V) (h : pushTasklet t = some u) : Step isAxis t u 0 := by
  unfold pushTasklet at h
  split at h
  · injection h with h
    subst h
    refine ⟨by simp [Tree.work], fun d => ?_, .inr ⟨by simp [Tree.maps], ?_⟩⟩
    · simp [Tree.left, Tree.maps, Tree.around]
    · simp only [Tree.size]; omega
  · cases h

theorem step_swap (isAxis : Nat → Bool) (t u : Tree V) (h : swapFor isAxis t = some u) : Step isAxis t u 1 := by
  unfold swapFor at h
  split at h
  · split at h
    · cases h
    · rename_i hp
      split at h
      · rename_i hq
        injection h with h
        subst h
        simp only [Bool.not_eq_true] at hp
        refine ⟨by simp [Tree.work], fun d => ?_, .inr ⟨?_, ?_⟩⟩
        · simp only [Tree.left, Tree.maps, Tree.around, hp, hq, if_true, Bool.false_eq_true, if_false]
          omega
        · simp only [Tree.maps]
          try omega
        · simp only [Tree.size]
          try omega
      · cases h
  · cases h

/-! ### A pass -/

theorem Step.map {isAxis : Nat → Bool} {a b : Tree V} {n : Nat} (h : Step isAxis a b n) (p : Nat) (r : Rng) (rest : Tree V) :
    Step isAxis (.mapS p r a rest) (.mapS p r b rest) n := by
  refine ⟨by simp [Tree.work, h.work], fun d => ?_, ?_⟩
  · have := h.less d
    simp only [Tree.left, Tree.maps, Tree.around] at *
    omega
  · have := h.small
    simp only [Tree.maps, Tree.size]
    omega

theorem Step.for {isAxis : Nat → Bool} {a b : Tree V} {n : Nat} (h : Step isAxis a b n) (p : Nat) (r : Rng) (rest : Tree V) :
    Step isAxis (.forS p r a rest) (.forS p r b rest) n := by
  refine ⟨by simp [Tree.work, h.work], fun d => ?_, ?_⟩
  · have := h.less (if isAxis p then d else d + 1)
    simp only [Tree.left, Tree.maps, Tree.around] at *
    omega
  · have := h.small
    simp only [Tree.maps, Tree.size]
    omega

theorem Step.if {isAxis : Nat → Bool} {a b : Tree V} {n : Nat} (h : Step isAxis a b n) (g : Guard) (rest : Tree V) :
    Step isAxis (.ifS g a rest) (.ifS g b rest) n := by
  refine ⟨by simp [Tree.work, h.work], fun d => ?_, ?_⟩
  · have := h.less d
    simp only [Tree.left, Tree.maps, Tree.around] at *
    omega
  · have := h.small
    simp only [Tree.maps, Tree.size]
    omega

theorem Step.tasklet {isAxis : Nat → Bool} {a b : Tree V} {n : Nat} (h : Step isAxis a b n) (t : Tasklet V) :
    Step isAxis (.tasklet t a) (.tasklet t b) n := by
  refine ⟨by simp [Tree.work, h.work], fun d => ?_, ?_⟩
  · have := h.less d
    simp only [Tree.left, Tree.maps, Tree.around] at *
    omega
  · have := h.small
    simp only [Tree.maps, Tree.size]
    omega

theorem Step.rest {isAxis : Nat → Bool} {t u : Tree V} {n : Nat} (h : Step isAxis t.rest u n) (ht : t ≠ .done) :
    Step isAxis t (t.setRest u) n := by
  cases t with
  | done => exact absurd rfl ht
  | tasklet t r => exact Step.tasklet h t
  | ifS g b r =>
    refine ⟨by simp [Tree.work, Tree.setRest, h.work, Tree.rest], fun d => ?_, ?_⟩
    · have := h.less d
      simp only [Tree.left, Tree.maps, Tree.around, Tree.setRest, Tree.rest] at *
      omega
    · have := h.small
      simp only [Tree.maps, Tree.size, Tree.setRest, Tree.rest] at *
      omega
  | mapS g q b r =>
    refine ⟨by simp [Tree.work, Tree.setRest, h.work, Tree.rest], fun d => ?_, ?_⟩
    · have := h.less d
      simp only [Tree.left, Tree.maps, Tree.around, Tree.setRest, Tree.rest] at *
      omega
    · have := h.small
      simp only [Tree.maps, Tree.size, Tree.setRest, Tree.rest] at *
      omega
  | forS g q b r =>
    refine ⟨by simp [Tree.work, Tree.setRest, h.work, Tree.rest], fun d => ?_, ?_⟩
    · have := h.less d
      simp only [Tree.left, Tree.maps, Tree.around, Tree.setRest, Tree.rest] at *
      omega
    · have := h.small
      simp only [Tree.maps, Tree.size, Tree.setRest, Tree.rest] at *
      omega

theorem swap_shape (isAxis : Nat → Bool) (t u : Tree V) (h : swapFor isAxis t = some u) :
    ∃ q s p r inner rest, u = .mapS q s (.forS p r inner .done) rest := by
  unfold swapFor at h
  split at h
  · split at h
    · cases h
    · split at h
      · injection h with h
        exact ⟨_, _, _, _, _, _, h.symm⟩
      · cases h
  · cases h

theorem push_shape (t u : Tree V) (h : pushTasklet t = some u) : ∃ p r b rest, u = .mapS p r b rest := by
  unfold pushTasklet at h
  split at h
  · injection h with h
    exact ⟨_, _, _, _, h.symm⟩
  · cases h

theorem setRest_rest (t u : Tree V) (h : t.isDone = true) : t.setRest u = u := by
  cases t <;> simp_all [Tree.isDone, Tree.setRest]

theorem step_pass (isAxis : Nat → Bool) (axis fuel : Nat) (t : Tree V) :
    Step isAxis t (mergeNode isAxis axis fuel t).1 (mergeNode isAxis axis fuel t).2 ∧
    ((mergeNode isAxis axis fuel t).1 = .done → t = .done) ∧
    Step isAxis t (mergeList isAxis axis fuel t).1 (mergeList isAxis axis fuel t).2 := by
  induction fuel generalizing t with
  | zero => simp only [mergeNode, mergeList]; exact ⟨Step.refl _ _, id, Step.refl _ _⟩
  | succ fuel ih =>
    have node : Step isAxis t (mergeNode isAxis axis (fuel + 1) t).1 (mergeNode isAxis axis (fuel + 1) t).2 ∧
        ((mergeNode isAxis axis (fuel + 1) t).1 = .done → t = .done) := by
      cases t with
      | done => simp only [mergeNode]; exact ⟨Step.refl _ _, id⟩
      | mapS p r body rest =>
        simp only [mergeNode]
        by_cases h : (rest.isDone || !isAxis p) = true
        · rw [if_pos h]
          exact ⟨(ih body).2.2.map p r rest, fun c => by cases c⟩
        · rw [if_neg h]
          cases hm : mergeMaps isAxis axis (.mapS p r body rest) with
          | none => exact ⟨Step.refl _ _, fun c => by cases c⟩
          | some u =>
            refine ⟨(step_merge isAxis axis _ u hm).1, fun c => ?_⟩
            simp only at c
            subst c
            unfold mergeMaps at hm
            split at hm
            · split at hm
              · cases hm
              · cases hm
            · cases hm
      | forS p r body rest =>
        simp only [mergeNode]
        cases hs : swapFor isAxis (.forS p r body rest) with
        | none => exact ⟨(ih body).2.2.for p r rest, fun c => by cases c⟩
        | some u =>
          obtain ⟨q, s, p', r', inner, rest', e⟩ := swap_shape isAxis _ u hs
          subst e
          have st := step_swap isAxis _ _ hs
          have := st.trans (((ih inner).2.2.for p' r' .done).map q s rest')
          rw [Nat.add_comm 1] at this
          exact ⟨this, fun c => by cases c⟩
      | ifS g body rest =>
        simp only [mergeNode]
        exact ⟨(ih body).2.2.if g rest, fun c => by cases c⟩
      | tasklet tk rest =>
        simp only [mergeNode]
        by_cases h : rest.isDone = true
        · rw [if_pos h]; exact ⟨Step.refl _ _, id⟩
        · rw [if_neg h]
          have s1 := (ih rest).1.tasklet tk
          cases hp : pushTasklet (.tasklet tk (mergeNode isAxis axis fuel rest).1) with
          | none => exact ⟨s1, fun c => by cases c⟩
          | some u =>
            have s2 := s1.trans (step_push isAxis _ u hp)
            refine ⟨s2.trans (ih u).1, fun c => ?_⟩
            have := (ih u).2.1 c
            obtain ⟨_, _, _, _, e⟩ := push_shape _ u hp
            rw [e] at this
            cases this
    refine ⟨node.1, node.2, ?_⟩
    by_cases hd : t = .done
    · subst hd; simp only [mergeList]; exact Step.refl _ _
    · have hl : mergeList isAxis axis (fuel + 1) t =
          ((mergeNode isAxis axis fuel t).1.setRest (mergeList isAxis axis fuel (mergeNode isAxis axis fuel t).1.rest).1,
            (mergeNode isAxis axis fuel t).2 + (mergeList isAxis axis fuel (mergeNode isAxis axis fuel t).1.rest).2) := by
        cases t with
        | done => exact absurd rfl hd
        | tasklet _ _ => simp only [mergeList]
        | ifS _ _ _ => simp only [mergeList]
        | mapS _ _ _ _ => simp only [mergeList]
        | forS _ _ _ _ => simp only [mergeList]
      rw [hl]
      exact (ih t).1.trans ((ih _).2.2.rest fun c => hd ((ih t).2.1 c))

/-! ### Limits on the depth of recursion -/

/-- With enough fuel the result is always `r`. -/
def ConvNode (isAxis : Nat → Bool) (axis : Nat) (t : Tree V) (F : Nat) : Prop :=
  ∀ f, F ≤ f → mergeNode isAxis axis f t = mergeNode isAxis axis F t

def ConvList (isAxis : Nat → Bool) (axis : Nat) (t : Tree V) (F : Nat) : Prop :=
  ∀ f, F ≤ f → mergeList isAxis axis f t = mergeList isAxis axis F t

theorem mergeList_succ (isAxis : Nat → Bool) (axis fuel : Nat) (t : Tree V) (hd : t ≠ .done) :
    mergeList isAxis axis (fuel + 1) t =
      ((mergeNode isAxis axis fuel t).1.setRest (mergeList isAxis axis fuel (mergeNode isAxis axis fuel t).1.rest).1,
        (mergeNode isAxis axis fuel t).2 + (mergeList isAxis axis fuel (mergeNode isAxis axis fuel t).1.rest).2) := by
  cases t with
  | done => exact absurd rfl hd
  | tasklet _ _ => simp only [mergeList]
  | ifS _ _ _ => simp only [mergeList]
  | mapS _ _ _ _ => simp only [mergeList]
  | forS _ _ _ _ => simp only [mergeList]

theorem rest_small (t : Tree V) (h : t ≠ .done) : t.rest.maps ≤ t.maps ∧ t.rest.size < t.size := by
  cases t with
  | done => exact absurd rfl h
  | tasklet _ _ => simp only [Tree.rest, Tree.maps, Tree.size]; omega
  | ifS _ _ _ => simp only [Tree.rest, Tree.maps, Tree.size]; omega
  | mapS _ _ _ _ => simp only [Tree.rest, Tree.maps, Tree.size]; omega
  | forS _ _ _ _ => simp only [Tree.rest, Tree.maps, Tree.size]; omega

theorem conv (isAxis : Nat → Bool) (axis : Nat) (m : Nat) : ∀ (s : Nat) (t : Tree V), t.maps = m → t.size = s →
    (∃ F, ConvNode isAxis axis t F) ∧ ∃ F, ConvList isAxis axis t F := by
  induction m using Nat.strongRecOn with
  | _ m ihm =>
    intro s
    induction s using Nat.strongRecOn with
    | _ s ihs =>
      intro t hm hs
      have ih : ∀ u : Tree V, (u.maps < m ∨ (u.maps = m ∧ u.size < s)) →
          (∃ F, ConvNode isAxis axis u F) ∧ ∃ F, ConvList isAxis axis u F := by
        intro u hu
        by_cases h : u.maps < m
        · exact ihm u.maps h u.size u rfl rfl
        · have h' : u.maps = m ∧ u.size < s := by omega
          exact ihs u.size h'.2 u h'.1 rfl
      -- a node that is not a tasklet
      have node1 : ∀ u : Tree V, (u.maps < m ∨ (u.maps = m ∧ u.size ≤ s)) → (∀ tk r, u ≠ .tasklet tk r) →
          ∃ F, ConvNode isAxis axis u F := by
        intro u hu hnt
        cases u with
        | done =>
          refine ⟨0, fun f _ => ?_⟩
          cases f <;> simp only [mergeNode]
        | tasklet tk r => exact absurd rfl (hnt tk r)
        | mapS p r body rest =>
          obtain ⟨F, hF⟩ := (ih body (by simp only [Tree.maps, Tree.size] at hu; omega)).2
          refine ⟨F + 1, fun f hf => ?_⟩
          obtain ⟨g, rfl⟩ : ∃ g, f = g + 1 := ⟨f - 1, by omega⟩
          simp only [mergeNode]
          rw [hF g (by omega)]
        | ifS c body rest =>
          obtain ⟨F, hF⟩ := (ih body (by simp only [Tree.maps, Tree.size] at hu; omega)).2
          refine ⟨F + 1, fun f hf => ?_⟩
          obtain ⟨g, rfl⟩ : ∃ g, f = g + 1 := ⟨f - 1, by omega⟩
          simp only [mergeNode]
          rw [hF g (by omega)]
        | forS p r body rest =>
          cases hsw : swapFor isAxis (.forS p r body rest) with
          | none =>
            obtain ⟨F, hF⟩ := (ih body (by simp only [Tree.maps, Tree.size] at hu; omega)).2
            refine ⟨F + 1, fun f hf => ?_⟩
            obtain ⟨g, rfl⟩ : ∃ g, f = g + 1 := ⟨f - 1, by omega⟩
            simp only [mergeNode, hsw]
            rw [hF g (by omega)]
          | some v =>
            have st := (step_swap isAxis _ _ hsw).small
            obtain ⟨q, s', p', r', inner, rest', e⟩ := swap_shape isAxis _ v hsw
            subst e
            obtain ⟨F, hF⟩ := (ih inner (by simp only [Tree.maps, Tree.size] at hu st; omega)).2
            refine ⟨F + 1, fun f hf => ?_⟩
            obtain ⟨g, rfl⟩ : ∃ g, f = g + 1 := ⟨f - 1, by omega⟩
            simp only [mergeNode, hsw]
            rw [hF g (by omega)]
      have node : ∃ F, ConvNode isAxis axis t F := by
        cases t with
        | tasklet tk rest =>
          by_cases hd : rest.isDone = true
          · refine ⟨1, fun f hf => ?_⟩
            obtain ⟨g, rfl⟩ : ∃ g, f = g + 1 := ⟨f - 1, by omega⟩
            simp only [mergeNode, hd, if_true]
          · obtain ⟨F, hF⟩ := (ih rest (by simp only [Tree.maps, Tree.size] at hm hs; omega)).1
            have st := (step_pass isAxis axis F rest).1.small
            cases hp : pushTasklet (.tasklet tk (mergeNode isAxis axis F rest).1) with
            | none =>
              refine ⟨F + 1, fun f hf => ?_⟩
              obtain ⟨g, rfl⟩ : ∃ g, f = g + 1 := ⟨f - 1, by omega⟩
              simp only [mergeNode]
              rw [hF g (by omega)]
              simp only [hp]
            | some u =>
              have sp := (step_push isAxis _ u hp).small
              obtain ⟨F2, hF2⟩ := node1 u (by simp only [Tree.maps, Tree.size] at hm hs sp; omega) (by
                obtain ⟨_, _, _, _, e⟩ := push_shape _ u hp
                intro tk r c
                rw [e] at c
                cases c)
              refine ⟨F + F2 + 1, fun f hf => ?_⟩
              obtain ⟨g, rfl⟩ : ∃ g, f = g + 1 := ⟨f - 1, by omega⟩
              simp only [mergeNode]
              rw [hF g (by omega), hF (F + F2) (by omega)]
              simp only [hp]
              rw [hF2 g (by omega), hF2 (F + F2) (by omega)]
        | done => exact node1 _ (by omega) (by intro _ _ c; cases c)
        | mapS _ _ _ _ => exact node1 _ (by omega) (by intro _ _ c; cases c)
        | ifS _ _ _ => exact node1 _ (by omega) (by intro _ _ c; cases c)
        | forS _ _ _ _ => exact node1 _ (by omega) (by intro _ _ c; cases c)
      refine ⟨node, ?_⟩
      by_cases hd : t = .done
      · subst hd
        refine ⟨0, fun f _ => ?_⟩
        cases f <;> simp only [mergeList]
      · obtain ⟨F, hF⟩ := node
        have sp := step_pass isAxis axis F t
        have st := sp.1.small
        have hr := rest_small (mergeNode isAxis axis F t).1 fun c => hd (sp.2.1 c)
        obtain ⟨F2, hF2⟩ := (ih (mergeNode isAxis axis F t).1.rest (by omega)).2
        refine ⟨F + F2 + 1, fun f hf => ?_⟩
        obtain ⟨g, rfl⟩ : ∃ g, f = g + 1 := ⟨f - 1, by omega⟩
        rw [mergeList_succ _ _ _ _ hd, mergeList_succ _ _ _ _ hd, hF g (by omega), hF (F + F2) (by omega), hF2 g (by omega),
          hF2 (F + F2) (by omega)]

/-! ### The theorems -/

/-- C116: merging ends for every program. There is one result, whatever the limits of recursion and of the number of passes, if
these are large enough; as many passes are enough as there are parallel loops, and sequential loops around them; and another pass
over the result merges nothing. -/
theorem C116_ends (isAxis : Nat → Bool) (axis : Nat) (t : Tree V) :
    ∃ (r : Tree V) (F : Nat), ∀ fuel, F ≤ fuel →
      (∀ passes, t.maps + t.around isAxis 0 ≤ passes → mergeRoot isAxis axis fuel passes t = r) ∧
      (mergeList isAxis axis fuel r).2 = 0 := by
  have key : ∀ (n : Nat) (t : Tree V), t.left isAxis 0 ≤ n → ∃ (r : Tree V) (F : Nat), ∀ fuel, F ≤ fuel →
      (∀ passes, t.left isAxis 0 ≤ passes → mergeRoot isAxis axis fuel passes t = r) ∧
      (mergeList isAxis axis fuel r).2 = 0 := by
    intro n
    induction n with
    | zero =>
      intro t h
      refine ⟨t, 0, fun fuel _ => ?_⟩
      have hz : (mergeList isAxis axis fuel t).2 = 0 := by
        have := (step_pass isAxis axis fuel t).2.2.less 0
        omega
      refine ⟨fun passes _ => ?_, hz⟩
      cases passes with
      | zero => simp only [mergeRoot]
      | succ k => simp only [mergeRoot, hz, if_true]
    | succ n ih =>
      intro t h
      obtain ⟨F, hF⟩ := (conv isAxis axis t.maps t.size t rfl rfl).2
      by_cases hz : (mergeList isAxis axis F t).2 = 0
      · refine ⟨t, F, fun fuel hf => ⟨fun passes _ => ?_, by rw [hF fuel hf]; exact hz⟩⟩
        cases passes with
        | zero => simp only [mergeRoot]
        | succ k => simp only [mergeRoot, hF fuel hf, hz, if_true]
      · have hl := (step_pass isAxis axis F t).2.2.less 0
        obtain ⟨r, F2, hr⟩ := ih (mergeList isAxis axis F t).1 (by omega)
        refine ⟨r, F + F2, fun fuel hf => ⟨fun passes hp => ?_, (hr fuel (by omega)).2⟩⟩
        cases passes with
        | zero => omega
        | succ k =>
          simp only [mergeRoot, hF fuel (by omega), hz, if_false]
          exact (hr fuel (by omega)).1 k (by omega)
  exact key _ t (Nat.le_refl _)

/-- C116: whatever is merged, the computations of the program are the same, each once, in the same order; and there are no more
parallel loops than before. -/
theorem C116_kept (isAxis : Nat → Bool) (axis fuel passes : Nat) (t : Tree V) :
    (mergeRoot isAxis axis fuel passes t).work = t.work ∧ (mergeRoot isAxis axis fuel passes t).maps ≤ t.maps := by
  induction passes generalizing t with
  | zero => exact ⟨rfl, Nat.le_refl _⟩
  | succ k ih =>
    simp only [mergeRoot]
    by_cases h : (mergeList isAxis axis fuel t).2 = 0
    · rw [if_pos h]; exact ⟨rfl, Nat.le_refl _⟩
    · rw [if_neg h]
      have st := (step_pass isAxis axis fuel t).2.2
      have := st.small
      exact ⟨(ih _).1.trans st.work, by have := (ih (mergeList isAxis axis fuel t).1).2; omega⟩

/-- C116: of two maps over the axis next to each other, whose bodies are allowed to be merged, one is left. -/
theorem C116_merged (isAxis : Nat → Bool) (axis : Nat) (p1 p2 : Nat) (r1 r2 : Rng) (b1 b2 rest : Tree V)
    (h1 : isAxis p1 = true) (h2 : isAxis p2 = true) (hd : noDataDependencies axis b1 b2 = true) (fuel : Nat) :
    ∃ t, mergeNode isAxis axis (fuel + 1) (.mapS p1 r1 b1 (.mapS p2 r2 b2 rest)) = (t, 1) ∧
      t.maps + 1 = (Tree.mapS p1 r1 b1 (.mapS p2 r2 b2 rest)).maps := by
  have hm : mergeMaps isAxis axis (.mapS p1 r1 b1 (.mapS p2 r2 b2 rest)) =
      some (.mapS p1 (mergedRange r1 r2) (mergedBody p1 p2 r1 r2 b1 b2) rest) := by
    simp [mergeMaps, h1, h2, hd]
  refine ⟨.mapS p1 (mergedRange r1 r2) (mergedBody p1 p2 r1 r2 b1 b2) rest, ?_, ?_⟩
  · simp only [mergeNode, Tree.isDone, h1, Bool.not_true, Bool.or_false, Bool.false_eq_true, if_false, hm]
  · have hb : (mergedBody p1 p2 r1 r2 b1 b2).maps = b1.maps + b2.maps := by
      unfold mergedBody
      by_cases e : p2 = p1
      · simp [e, maps_append, maps_guard]
      · simp [e, maps_append, maps_guard, maps_rename]
    simp only [Tree.maps, hb]
    omega

/-- The number of nodes of the list itself. -/
def Tree.len : Tree V → Nat
  | .done => 0
  | .tasklet _ rest => 1 + rest.len
  | .ifS _ _ rest => 1 + rest.len
  | .mapS _ _ _ rest => 1 + rest.len
  | .forS _ _ _ rest => 1 + rest.len

/-- Two maps over the axis that are allowed to be merged, and what follows. -/
def Pair (isAxis : Nat → Bool) (axis : Nat) (t : Tree V) : Prop :=
  ∃ p1 r1 b1 p2 r2 b2 rest, t = .mapS p1 r1 b1 (.mapS p2 r2 b2 rest) ∧ isAxis p1 = true ∧ isAxis p2 = true ∧
    noDataDependencies axis b1 b2 = true

theorem append_not_done (a t : Tree V) (h : t ≠ .done) : a.append t ≠ .done := by
  cases a with
  | done => exact h
  | tasklet _ _ => exact fun c => by cases c
  | ifS _ _ _ => exact fun c => by cases c
  | mapS _ _ _ _ => exact fun c => by cases c
  | forS _ _ _ _ => exact fun c => by cases c

theorem isDone_iff (t : Tree V) : t.isDone = true ↔ t = .done := by
  cases t <;> simp [Tree.isDone]

/-- Merging at a map merges it with the next one, or leaves what follows. -/
theorem map_step (isAxis : Nat → Bool) (axis fuel : Nat) (p : Nat) (r : Rng) (b rest : Tree V) :
    0 < (mergeNode isAxis axis (fuel + 1) (.mapS p r b rest)).2 ∨
      (mergeNode isAxis axis (fuel + 1) (.mapS p r b rest)).1.rest = rest := by
  simp only [mergeNode]
  by_cases h : (rest.isDone || !isAxis p) = true
  · rw [if_pos h]; right; rfl
  · rw [if_neg h]
    cases mergeMaps isAxis axis (.mapS p r b rest) with
    | some u => left; exact Nat.one_pos
    | none => right; rfl

theorem node_pair (isAxis : Nat → Bool) (axis : Nat) (t : Tree V) (ht : Pair isAxis axis t) (pre : Tree V) :
    ∀ fuel, pre.len + 1 < fuel → 0 < (mergeNode isAxis axis fuel (pre.append t)).2 ∨
      ∃ pre' : Tree V, pre'.len < pre.len ∧ (mergeNode isAxis axis fuel (pre.append t)).1.rest = pre'.append t := by
  have hne : t ≠ .done := by
    obtain ⟨_, _, _, _, _, _, _, e, _⟩ := ht
    rw [e]; exact fun c => by cases c
  induction pre with
  | done =>
    intro fuel hf
    obtain ⟨f, rfl⟩ : ∃ f, fuel = f + 1 := ⟨fuel - 1, by omega⟩
    obtain ⟨p1, r1, b1, p2, r2, b2, rest, e, h1, h2, h3⟩ := ht
    left
    obtain ⟨u, hu, _⟩ := C116_merged isAxis axis p1 p2 r1 r2 b1 b2 rest h1 h2 h3 f
    show 0 < (mergeNode isAxis axis (f + 1) t).2
    rw [e, hu]
    exact Nat.one_pos
  | mapS p r b pre _ =>
    intro fuel hf
    obtain ⟨f, rfl⟩ : ∃ f, fuel = f + 1 := ⟨fuel - 1, by omega⟩
    rcases map_step isAxis axis f p r b (pre.append t) with h | h
    · exact .inl h
    · exact .inr ⟨pre, by simp only [Tree.len]; omega, h⟩
  | ifS g b pre _ =>
    intro fuel hf
    obtain ⟨f, rfl⟩ : ∃ f, fuel = f + 1 := ⟨fuel - 1, by omega⟩
    refine .inr ⟨pre, by simp only [Tree.len]; omega, ?_⟩
    simp only [Tree.append, mergeNode]
    rfl
  | forS p r b pre _ =>
    intro fuel hf
    obtain ⟨f, rfl⟩ : ∃ f, fuel = f + 1 := ⟨fuel - 1, by omega⟩
    simp only [Tree.append, mergeNode]
    cases hs : swapFor isAxis (.forS p r b (pre.append t)) with
    | none => exact .inr ⟨pre, by simp only [Tree.len]; omega, rfl⟩
    | some u =>
      obtain ⟨q, s, p', r', inner, rest', e⟩ := swap_shape isAxis _ u hs
      subst e
      exact .inl (Nat.succ_pos _)
  | tasklet tk pre ih =>
    intro fuel hf
    obtain ⟨f, rfl⟩ : ∃ f, fuel = f + 1 := ⟨fuel - 1, by omega⟩
    simp only [Tree.len] at hf
    have hd : ¬ (pre.append t).isDone = true := fun c => append_not_done pre t hne ((isDone_iff _).mp c)
    have hnd : (mergeNode isAxis axis f (pre.append t)).1 ≠ .done := fun c =>
      append_not_done pre t hne ((step_pass isAxis axis f (pre.append t)).2.1 c)
    simp only [Tree.append, mergeNode]
    rw [if_neg hd]
    cases hp : pushTasklet (.tasklet tk (mergeNode isAxis axis f (pre.append t)).1) with
    | none =>
      rcases ih f (by omega) with h | ⟨pre', hl, h⟩
      · exact .inl h
      · refine .inr ⟨(mergeNode isAxis axis f (pre.append t)).1.setRest pre', ?_, ?_⟩
        · have : ∀ x y : Tree V, x ≠ .done → (x.setRest y).len = 1 + y.len := by
            intro x y hx
            cases x with
            | done => exact absurd rfl hx
            | _ => rfl
          rw [this _ _ hnd]
          simp only [Tree.len]
          omega
        · show (mergeNode isAxis axis f (pre.append t)).1 = _
          have : ∀ x y : Tree V, x ≠ .done → x.rest = y.append t → x = (x.setRest y).append t := by
            intro x y hx e
            cases x with
            | done => exact absurd rfl hx
            | tasklet _ r => simp only [Tree.setRest, Tree.append, ← e, Tree.rest]
            | ifS _ _ r => simp only [Tree.setRest, Tree.append, ← e, Tree.rest]
            | mapS _ _ _ r => simp only [Tree.setRest, Tree.append, ← e, Tree.rest]
            | forS _ _ _ r => simp only [Tree.setRest, Tree.append, ← e, Tree.rest]
          exact this _ _ hnd h
    | some u =>
      dsimp only
      rcases ih f (by omega) with h | ⟨pre', hl, h⟩
      · left; omega
      · -- the map takes the tasklet; what follows it is as before
        obtain ⟨g, rfl⟩ : ∃ g, f = g + 1 := ⟨f - 1, by omega⟩
        revert hp h
        generalize (mergeNode isAxis axis (g + 1) (pre.append t)) = x
        intro hp h
        obtain ⟨x, n⟩ := x
        unfold pushTasklet at hp
        dsimp only at hp h
        split at hp
        · rename_i e
          injection hp with hp
          injection e with _ e
          subst e
          subst hp
          rcases map_step isAxis axis g _ _ _ _ with h' | h'
          · left
            exact Nat.lt_of_lt_of_le h' (Nat.le_add_left _ _)
          · right
            exact ⟨pre', by simp only [Tree.len]; omega, h'.trans h⟩
        · cases hp

theorem list_pair (isAxis : Nat → Bool) (axis : Nat) (t : Tree V) (ht : Pair isAxis axis t) (pre : Tree V) (fuel : Nat)
    (hf : 2 * pre.len + 2 < fuel) : 0 < (mergeList isAxis axis fuel (pre.append t)).2 := by
  have hne : t ≠ .done := by
    obtain ⟨_, _, _, _, _, _, _, e, _⟩ := ht
    rw [e]; exact fun c => by cases c
  generalize hn : pre.len = n at hf
  induction n using Nat.strongRecOn generalizing pre fuel with
  | _ n ih =>
    obtain ⟨f, rfl⟩ : ∃ f, fuel = f + 1 := ⟨fuel - 1, by omega⟩
    rw [mergeList_succ _ _ _ _ (append_not_done pre t hne)]
    rcases node_pair isAxis axis t ht pre f (by omega) with h | ⟨pre', hl, h⟩
    · dsimp only; omega
    · rw [h]
      have := ih pre'.len (by omega) pre' f rfl (by omega)
      dsimp only
      omega

/-- C116: in the result no two maps over the axis that are allowed to be merged follow each other, outside other loops. -/
theorem C116_none_left (isAxis : Nat → Bool) (axis : Nat) (t : Tree V) :
    ∃ F, ∀ fuel, F ≤ fuel → ∀ passes, t.maps + t.around isAxis 0 ≤ passes →
      ∀ (pre rest b1 b2 : Tree V) (p1 p2 : Nat) (r1 r2 : Rng), isAxis p1 = true → isAxis p2 = true →
        mergeRoot isAxis axis fuel passes t = pre.append (.mapS p1 r1 b1 (.mapS p2 r2 b2 rest)) →
        noDataDependencies axis b1 b2 = false := by
  obtain ⟨r, F, h⟩ := C116_ends isAxis axis t
  refine ⟨F, fun fuel hf passes hp pre rest b1 b2 p1 p2 r1 r2 h1 h2 e => ?_⟩
  rw [(h fuel hf).1 passes hp] at e
  cases hd : noDataDependencies axis b1 b2 with
  | false => rfl
  | true =>
    have := list_pair isAxis axis _ ⟨p1, r1, b1, p2, r2, b2, rest, rfl, h1, h2, hd⟩ pre (F + 2 * pre.len + 3) (by omega)
    rw [← e, (h (F + 2 * pre.len + 3) (by omega)).2] at this
    exact absurd this (Nat.lt_irrefl 0)

/-- Four maps become one, in two passes; `C116_ends` allows four. -/
example : fourTree.maps = 4 ∧ fourTree.around (fun _ => true) 0 = 0 ∧
    (mergeRoot (fun _ => true) 0 10 4 fourTree).maps = 1 ∧ (mergeRoot (fun _ => true) 0 10 4 fourTree).work.length = 4 := by
  decide +kernel

/-- A loop moved inside a map counts as a merge. -/
example : loopTree.maps = 1 ∧ loopTree.around isVar1 0 = 1 ∧ (mergeList isVar1 0 10 loopTree).2 = 1 := by decide +kernel

end NDSL.AxisMerge
