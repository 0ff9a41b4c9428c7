import Mathlib.Tactic.NormNum
import Verif.Spec.DebugChecks
/-
C114: the checks that "syncdebug" inserts.
-/
namespace NDSL.DebugChecks

/-! ### Which outputs are found -/

theorem inside_iff (w s : List Char) : inside w s = true ↔ w <:+: s := by
  induction s with
  | nil =>
    rw [inside]
    cases w <;> simp
  | cons c cs ih =>
    rw [inside, Bool.or_eq_true, ih, List.isPrefixOf_iff_prefix, List.infix_cons_iff]

/-- C114: with words to look for, the outputs found are those of maps in no other map to containers that are no views, whose name
contains one of the words, and none of those to leave out; dynamic outputs are left out when asked. -/
theorem C114_found (g : Graph) (ws bs : List (List Char)) (skip : Bool) (o : Out) :
    o ∈ filterAll g ws bs skip ↔
      o ∈ g.outs ∧ o.Plain ∧ (∃ w ∈ ws, w <:+: o.data) ∧ (∀ b ∈ bs, ¬ b <:+: o.data) ∧ (skip = true → o.dynamic = false) := by
  have h1 : (ws.all fun w => !inside w o.data) = false ↔ ∃ w ∈ ws, w <:+: o.data := by
    rw [← Bool.not_eq_true, List.all_eq_true]
    constructor
    · intro h
      apply Classical.byContradiction
      intro c
      apply h
      intro w hw
      cases hi : inside w o.data
      · rfl
      · exact absurd ⟨w, hw, (inside_iff _ _).mp hi⟩ c
    · intro ⟨w, hw, hi⟩ h
      have := h w hw
      rw [(inside_iff _ _).mpr hi] at this
      cases this
  have h2 : (bs.any fun w => inside w o.data) = false ↔ ∀ b ∈ bs, ¬ b <:+: o.data := by
    rw [← Bool.not_eq_true, List.any_eq_true]
    constructor
    · intro h b hb c
      exact h ⟨b, hb, (inside_iff _ _).mpr c⟩
    · intro h ⟨b, hb, c⟩
      exact h b hb ((inside_iff _ _).mp c)
  rw [filterAll, List.mem_filter, List.mem_filter, ← h1, ← h2]
  unfold Out.Plain
  cases o.inside <;> cases o.access <;> cases o.view <;> cases (ws.all fun w => !inside w o.data) <;>
    cases (bs.any fun w => inside w o.data) <;> cases skip <;> cases o.dynamic <;> simp

/-- C114 (not so): without words to look for, all outputs are found. None is. -/
theorem C114_all_violated (g : Graph) (bs : List (List Char)) (skip : Bool) : filterAll g [] bs skip = [] := by
  apply List.eq_nil_iff_forall_not_mem.mpr
  intro o ho
  obtain ⟨_, _, ⟨w, hw, _⟩, _⟩ := (C114_found g [] bs skip o).mp ho
  cases hw

/-- C114 (not so): the NaN checker, the trace of outputs and the trace of progress look at every output. They insert nothing, in
any program, so that NaNs are never found. -/
theorem C114_nan_violated (g : Graph) (i j k : Int) (r : Range) :
    nanChecker none none none g = .ok (g, 0) ∧ nanChecker (some r) (some r) (some r) g = .ok (g, 0) ∧
    traceAll i j k g = (g, 0) ∧ executionProgress g = (g, 0) := by
  unfold nanChecker traceAll executionProgress
  simp only [C114_all_violated]
  exact ⟨rfl, rfl, rfl, rfl⟩

/-- C114: ranges for the NaN checker are given for all three axes or for none. -/
theorem C114_ranges (i j k : Option Range) (g : Graph) :
    nanChecker i j k g = .error .runtimeError ↔
      ¬ ((i.isSome ∧ j.isSome ∧ k.isSome) ∨ (i.isNone ∧ j.isNone ∧ k.isNone)) := by
  cases i <;> cases j <;> cases k <;> simp [nanChecker]

/-! ### Orders -/

theorem before_trans {l : List Nat} {a b c : Nat} (hl : l.Nodup) (h1 : Before l a b) (h2 : Before l b c) : Before l a c := by
  unfold Before at *
  induction l with
  | nil => cases h1
  | cons x xs ih =>
    have hx := List.nodup_cons.mp hl
    cases h1 with
    | cons _ h1 =>
      cases h2 with
      | cons _ h2 => exact .cons _ (ih hx.2 h1 h2)
      | cons_cons _ h2 =>
        exact absurd (h1.subset (by simp)) hx.1
    | cons_cons _ h1 =>
      cases h2 with
      | cons _ h2 => exact .cons_cons _ (List.singleton_sublist.mpr (h2.subset (by simp)))
      | cons_cons _ h2 => exact absurd (List.singleton_sublist.mp h1) hx.1

theorem Schedule.nodup {g : Graph} {σ : List Nat} (h : Schedule g σ) : σ.Nodup :=
  h.all.nodup_iff.mpr List.nodup_range

theorem filter_range (n k : Nat) : (List.range (n + k)).filter (fun i => decide (i < n)) = List.range n := by
  rw [List.range_add, List.filter_append]
  have h1 : (List.range n).filter (fun i => decide (i < n)) = List.range n := by
    rw [List.filter_eq_self]
    intro a ha
    simpa using ha
  have h2 : ((List.range k).map (n + ·)).filter (fun i => decide (i < n)) = [] := by
    rw [List.filter_eq_nil_iff]
    intro a ha
    obtain ⟨x, _, e⟩ := List.mem_map.mp ha
    subst e
    simp
  rw [h1, h2, List.append_nil]

theorem before_filter {σ : List Nat} {n a b : Nat} (h : Before σ a b) (ha : a < n) (hb : b < n) :
    Before (σ.filter fun i => decide (i < n)) a b := by
  have := List.Sublist.filter (fun i => decide (i < n)) h
  show [a, b].Sublist _
  simpa [ha, hb] using this

theorem before_of_filter {σ : List Nat} {n a b : Nat} (h : Before (σ.filter fun i => decide (i < n)) a b) : Before σ a b :=
  h.trans List.filter_sublist

variable {cond : Cond} {asserts : Bool} {ar : Option (List Range)}

theorem check_next (g : Graph) (o : Out) : (checkNode cond asserts ar g o).next = g.next + 2 := by
  unfold checkNode
  cases o.gpu <;> rfl

theorem check_edges (g : Graph) (o : Out) (hg : o.gpu = true) (a b : Nat) :
    (a, b) ∈ (checkNode cond asserts ar g o).edges ↔
      ((a, b) ∈ g.edges ∧ a ≠ o.dst) ∨ (a = g.next ∧ (o.dst, b) ∈ g.edges) ∨
        (a = o.dst ∧ b = g.next + 1) ∨ (a = g.next + 1 ∧ b = g.next) := by
  unfold checkNode
  simp only [hg, Bool.not_true, Bool.false_eq_true, if_false, List.mem_append, List.mem_map, List.mem_cons, List.not_mem_nil, or_false,
    Prod.mk.injEq]
  constructor
  · rintro (⟨e, he, h⟩ | h | h)
    · by_cases c : e.1 = o.dst
      · rw [if_pos c] at h
        injection h with h1 h2
        right; left
        refine ⟨h1.symm, ?_⟩
        rw [← c, ← h2]; exact he
      · rw [if_neg c] at h
        subst h
        exact .inl ⟨he, c⟩
    · exact .inr (.inr (.inl h))
    · exact .inr (.inr (.inr h))
  · rintro (⟨he, c⟩ | ⟨h1, he⟩ | h | h)
    · exact .inl ⟨(a, b), he, by simp [c]⟩
    · exact .inl ⟨(o.dst, b), he, by simp [h1]⟩
    · exact .inr (.inl h)
    · exact .inr (.inr h)

theorem check_closed (g : Graph) (o : Out) (h : Closed g) (hg : o.gpu = true) (hd : o.dst < g.next) :
    Closed (checkNode cond asserts ar g o) := by
  constructor
  · intro a b hab
    rw [check_next]
    rcases (check_edges g o hg a b).mp hab with ⟨he, _⟩ | ⟨e, he⟩ | ⟨e1, e2⟩ | ⟨e1, e2⟩
    · have := h.edges a b he; omega
    · have := h.edges _ b he; omega
    · omega
    · omega
  · intro x hx
    rw [check_next]
    unfold checkNode at hx
    simp only [hg, Bool.not_true, Bool.false_eq_true, if_false, List.mem_append, List.mem_cons, List.not_mem_nil, or_false] at hx
    rcases hx with hx | hx
    · have := h.outs x hx; omega
    · subst hx; simp

/-- One check: an order of the checked program is, on the nodes of the program, an order of the program. -/
theorem step_restrict (g : Graph) (o : Out) (h : Closed g) (hg : o.gpu = true) (σ : List Nat)
    (hs : Schedule (checkNode cond asserts ar g o) σ) : Schedule g (σ.filter fun i => decide (i < g.next)) := by
  constructor
  · have := List.Perm.filter (fun i => decide (i < g.next)) hs.all
    rw [check_next, filter_range] at this
    exact this
  · intro a b hab
    have hlt := h.edges a b hab
    apply before_filter _ hlt.1 hlt.2
    by_cases c : a = o.dst
    · subst c
      have h1 := hs.edges o.dst (g.next + 1) ((check_edges g o hg _ _).mpr (.inr (.inr (.inl ⟨rfl, rfl⟩))))
      have h2 := hs.edges (g.next + 1) g.next ((check_edges g o hg _ _).mpr (.inr (.inr (.inr ⟨rfl, rfl⟩))))
      have h3 := hs.edges g.next b ((check_edges g o hg _ _).mpr (.inr (.inl ⟨rfl, hab⟩)))
      exact before_trans hs.nodup (before_trans hs.nodup h1 h2) h3
    · exact hs.edges a b ((check_edges g o hg _ _).mpr (.inl ⟨hab, c⟩))

theorem filter_filter_lt (σ : List Nat) {n m : Nat} (h : n ≤ m) :
    (σ.filter fun i => decide (i < m)).filter (fun i => decide (i < n)) = σ.filter fun i => decide (i < n) := by
  rw [List.filter_filter]
  apply List.filter_congr
  intro a _
  by_cases c : a < n
  · simp [c, Nat.lt_of_lt_of_le c h]
  · simp [c]

theorem fold_next_le (found : List Out) (g : Graph) : g.next ≤ (found.foldl (checkNode cond asserts ar) g).next := by
  induction found generalizing g with
  | nil => exact Nat.le_refl _
  | cons o os ih =>
    have := ih (checkNode cond asserts ar g o)
    rw [check_next] at this
    rw [List.foldl_cons]
    omega

theorem fold_closed (found : List Out) (g : Graph) (h : Closed g) (hf : ∀ o ∈ found, o.gpu = true ∧ o.dst < g.next) :
    Closed (found.foldl (checkNode cond asserts ar) g) := by
  induction found generalizing g with
  | nil => exact h
  | cons o os ih =>
    rw [List.foldl_cons]
    have ho := hf o List.mem_cons_self
    refine ih _ (check_closed g o h ho.1 ho.2) ?_
    intro x hx
    have := hf x (List.mem_cons_of_mem _ hx)
    rw [check_next]
    exact ⟨this.1, by omega⟩

theorem fold_restrict (found : List Out) (g : Graph) (h : Closed g) (hf : ∀ o ∈ found, o.gpu = true ∧ o.dst < g.next)
    (σ : List Nat) (hs : Schedule (found.foldl (checkNode cond asserts ar) g) σ) :
    Schedule g (σ.filter fun i => decide (i < g.next)) := by
  induction found generalizing g with
  | nil =>
    have : σ.filter (fun i => decide (i < g.next)) = σ := by
      rw [List.filter_eq_self]
      intro a ha
      have := (hs.all.mem_iff).mp ha
      simpa using this
    rw [this]; exact hs
  | cons o os ih =>
    have ho := hf o List.mem_cons_self
    have h1 := ih _ (check_closed g o h ho.1 ho.2) (by
      intro x hx
      have := hf x (List.mem_cons_of_mem _ hx)
      rw [check_next]
      exact ⟨this.1, by omega⟩) hs
    have h2 := step_restrict g o h ho.1 _ h1
    rwa [filter_filter_lt _ (by rw [check_next]; omega)] at h2

theorem run_filter {M : Type} (act : Nat → M → M) (n : Nat) (σ : List Nat) (m : M) :
    run (fun i => if i < n then act i else id) σ m = run act (σ.filter fun i => decide (i < n)) m := by
  unfold run
  induction σ generalizing m with
  | nil => rfl
  | cons i σ ih =>
    rw [List.foldl_cons, ih, List.filter_cons]
    by_cases c : i < n
    · simp [c]
    · simp [c]

/-- C114: checks on containers of the GPU do not change what the program does: whatever the order in which the program with checks
runs, its nodes run in an order in which the program without checks can run, and the contents of memory at the end are the same,
inserted nodes changing nothing themselves. -/
theorem C114_same {M : Type} (act : Nat → M → M) (found : List Out) (g : Graph) (h : Closed g)
    (hf : ∀ o ∈ found, o ∈ g.outs ∧ o.gpu = true) (σ : List Nat) (hs : Schedule (insertAll cond asserts ar found g).1 σ) (m : M) :
    ∃ τ, Schedule g τ ∧ run (fun i => if i < g.next then act i else id) σ m = run act τ m :=
  ⟨_, fold_restrict found g h (fun o ho => ⟨(hf o ho).2, h.outs o (hf o ho).1⟩) σ hs, run_filter act g.next σ m⟩

/-! ### The checked program can run -/

theorem sublist_flatMap {l1 l2 : List Nat} (f : Nat → List Nat) (h : l1.Sublist l2) : (l1.flatMap f).Sublist (l2.flatMap f) := by
  induction h with
  | slnil => exact List.Sublist.refl _
  | cons a _ ih =>
    rw [List.flatMap_cons]
    exact ih.trans (List.sublist_append_right _ _)
  | cons_cons a _ ih =>
    rw [List.flatMap_cons, List.flatMap_cons]
    exact List.Sublist.append (List.Sublist.refl _) ih

theorem step_runs (g : Graph) (o : Out) (h : Closed g) (hg : o.gpu = true) (hd : o.dst < g.next) (τ : List Nat)
    (hs : Schedule g τ) : ∃ σ, Schedule (checkNode cond asserts ar g o) σ := by
  have hmem : o.dst ∈ τ := (hs.all.mem_iff).mpr (by simpa using hd)
  obtain ⟨l1, l2, e⟩ := List.append_of_mem hmem
  have hn := hs.nodup
  let f : Nat → List Nat := fun i => if i = o.dst then [o.dst, g.next + 1, g.next] else [i]
  refine ⟨τ.flatMap f, ?_, ?_⟩
  · rw [check_next]
    have hne : ∀ l : List Nat, o.dst ∉ l → l.flatMap f = l := by
      intro l hl
      induction l with
      | nil => rfl
      | cons x xs ih =>
        have hx : x ≠ o.dst := fun c => hl (c ▸ List.mem_cons_self)
        rw [List.flatMap_cons, ih (fun c => hl (List.mem_cons_of_mem _ c))]
        simp [f, hx]
    rw [e] at hn
    have h1 : o.dst ∉ l1 := by
      intro c
      have := (List.nodup_append.mp hn).2.2 _ c _ (List.mem_cons_self (a := o.dst) (l := l2))
      exact this rfl
    have h2 : o.dst ∉ l2 := (List.nodup_cons.mp (List.nodup_append.mp hn).2.1).1
    have e2 : τ.flatMap f = l1 ++ ([o.dst, g.next + 1, g.next] ++ l2) := by
      rw [e, List.flatMap_append, List.flatMap_cons, hne _ h1, hne _ h2]
      simp [f]
    have p1 : (l1 ++ ([o.dst, g.next + 1, g.next] ++ l2)).Perm ((l1 ++ o.dst :: l2) ++ [g.next, g.next + 1]) := by
      have a1 : (l1 ++ o.dst :: l2) ++ [g.next, g.next + 1] = l1 ++ (o.dst :: (l2 ++ [g.next, g.next + 1])) := by simp
      rw [a1]
      refine List.Perm.append_left _ ?_
      show (o.dst :: ([g.next + 1, g.next] ++ l2)).Perm _
      refine List.Perm.cons _ ?_
      refine (List.perm_append_comm).trans (List.Perm.append_left _ ?_)
      exact List.Perm.swap _ _ _
    rw [e2]
    refine p1.trans ?_
    rw [← e, List.range_succ, List.range_succ, List.append_assoc]
    exact List.Perm.append_right _ hs.all
  · intro a b hab
    rcases (check_edges g o hg a b).mp hab with ⟨he, c⟩ | ⟨e1, he⟩ | ⟨e1, e2⟩ | ⟨e1, e2⟩
    · have hb := sublist_flatMap f (hs.edges a b he)
      refine List.Sublist.trans ?_ hb
      by_cases cb : b = o.dst
      · simp [f, c, cb]
      · simp [f, c, cb]
    · have hb := sublist_flatMap f (hs.edges _ b he)
      subst e1
      refine List.Sublist.trans ?_ hb
      have hne : b ≠ o.dst := by
        intro cb
        have hb2 := hs.edges _ b he
        rw [cb] at hb2
        have := List.Nodup.sublist hb2 hs.nodup
        simp at this
      simp only [List.flatMap_cons, f, if_true, hne, if_false, List.flatMap_nil, List.append_nil]
      show [g.next, b].Sublist ([o.dst, g.next + 1] ++ [g.next, b])
      exact List.sublist_append_right _ _
    · have hb := sublist_flatMap f (List.singleton_sublist.mpr hmem)
      refine List.Sublist.trans ?_ hb
      subst e1; subst e2
      simp [f]
    · have hb := sublist_flatMap f (List.singleton_sublist.mpr hmem)
      refine List.Sublist.trans ?_ hb
      subst e1; subst e2
      simp only [List.flatMap_cons, f, if_true, List.flatMap_nil, List.append_nil]
      exact .cons _ (List.Sublist.refl _)

/-- C114: a program that can run can run with checks on containers of the GPU. -/
theorem C114_runs (found : List Out) (g : Graph) (h : Closed g) (hf : ∀ o ∈ found, o ∈ g.outs ∧ o.gpu = true) (τ : List Nat)
    (hs : Schedule g τ) : ∃ σ, Schedule (insertAll cond asserts ar found g).1 σ := by
  have key : ∀ (found : List Out) (g : Graph) (τ : List Nat), Closed g → (∀ o ∈ found, o.gpu = true ∧ o.dst < g.next) →
      Schedule g τ → ∃ σ, Schedule (found.foldl (checkNode cond asserts ar) g) σ := by
    intro found
    induction found with
    | nil => intro g τ _ _ hs; exact ⟨τ, hs⟩
    | cons o os ih =>
      intro g τ h hf hs
      have ho := hf o List.mem_cons_self
      obtain ⟨σ, hσ⟩ := step_runs (cond := cond) (asserts := asserts) (ar := ar) g o h ho.1 ho.2 τ hs
      refine ih _ σ (check_closed g o h ho.1 ho.2) ?_ hσ
      intro x hx
      have := hf x (List.mem_cons_of_mem _ hx)
      rw [check_next]
      exact ⟨this.1, by omega⟩
  exact key found g τ h (fun o ho => ⟨(hf o ho).2, h.outs o (hf o ho).1⟩) hs

/-! ### Where the checks are -/

/-- An edge leads from `d` to a node that is `r` or comes before it in every order. -/
def Leads (g : Graph) (d r : Nat) : Prop :=
  ∃ b, (d, b) ∈ g.edges ∧ (b = r ∨ ∀ σ, Schedule g σ → Before σ b r)

theorem leads_step (g : Graph) (o : Out) (h : Closed g) (hg : o.gpu = true) (d r : Nat) (hd : d < g.next)
    (hl : Leads g d r) : Leads (checkNode cond asserts ar g o) d r := by
  obtain ⟨b, hb, hr⟩ := hl
  by_cases c : d = o.dst
  · subst c
    refine ⟨g.next + 1, (check_edges g o hg _ _).mpr (.inr (.inr (.inl ⟨rfl, rfl⟩))), .inr ?_⟩
    intro σ hs
    have h2 := hs.edges (g.next + 1) g.next ((check_edges g o hg _ _).mpr (.inr (.inr (.inr ⟨rfl, rfl⟩))))
    have h3 := hs.edges g.next b ((check_edges g o hg _ _).mpr (.inr (.inl ⟨rfl, hb⟩)))
    have h4 := before_trans hs.nodup h2 h3
    rcases hr with e | hr
    · subst e; exact h4
    · exact before_trans hs.nodup h4 (before_of_filter (hr _ (step_restrict g o h hg σ hs)))
  · refine ⟨b, (check_edges g o hg _ _).mpr (.inl ⟨hb, c⟩), ?_⟩
    rcases hr with e | hr
    · exact .inl e
    · exact .inr fun σ hs => before_of_filter (hr _ (step_restrict g o h hg σ hs))

theorem leads_fold (found : List Out) (g : Graph) (h : Closed g) (hf : ∀ o ∈ found, o.gpu = true ∧ o.dst < g.next) (d r : Nat)
    (hd : d < g.next) (hl : Leads g d r) : Leads (found.foldl (checkNode cond asserts ar) g) d r := by
  induction found generalizing g with
  | nil => exact hl
  | cons o os ih =>
    have ho := hf o List.mem_cons_self
    refine ih _ (check_closed g o h ho.1 ho.2) ?_ (by rw [check_next]; omega) (leads_step g o h ho.1 d r hd hl)
    intro x hx
    have := hf x (List.mem_cons_of_mem _ hx)
    rw [check_next]
    exact ⟨this.1, by omega⟩

theorem checks_keep (found : List Out) (g : Graph) (c : Check) (hc : c ∈ g.checks) :
    c ∈ (found.foldl (checkNode cond asserts ar) g).checks := by
  induction found generalizing g with
  | nil => exact hc
  | cons o os ih =>
    refine ih _ ?_
    unfold checkNode
    cases o.gpu
    · exact hc
    · exact List.mem_append_left _ hc

theorem between_leads (found : List Out) (g : Graph) (h : Closed g) (hf : ∀ o ∈ found, o ∈ g.outs ∧ o.gpu = true) (o : Out)
    (ho : o ∈ found) :
    ∃ c ∈ (insertAll cond asserts ar found g).1.checks,
      c.node = o.dst ∧ c.data = o.data ∧ c.cond = cond ∧ c.asserts = asserts ∧ c.ranges = checkRanges o ar ∧ c.indices = o.dims ∧
      ∀ σ, Schedule (insertAll cond asserts ar found g).1 σ →
        (∀ w, (w, o.dst) ∈ g.edges → Before σ w c.id) ∧ Before σ o.dst c.id ∧ ∀ r, Leads g o.dst r → Before σ c.id r := by
  have hf' : ∀ o ∈ found, o.gpu = true ∧ o.dst < g.next := fun o ho => ⟨(hf o ho).2, h.outs o (hf o ho).1⟩
  obtain ⟨pre, post, e⟩ := List.append_of_mem ho
  have hpre : ∀ o ∈ pre, o.gpu = true ∧ o.dst < g.next := fun x hx => hf' x (by rw [e]; simp [hx])
  have hpost : ∀ o ∈ post, o.gpu = true ∧ o.dst < g.next := fun x hx => hf' x (by rw [e]; simp [hx])
  have ho' := hf' o ho
  let g1 := pre.foldl (checkNode cond asserts ar) g
  have hg1 : Closed g1 := fold_closed pre g h hpre
  have hle : g.next ≤ g1.next := fold_next_le pre g
  let g2 := checkNode cond asserts ar g1 o
  have hg2 : Closed g2 := check_closed g1 o hg1 ho'.1 (by omega)
  have hn2 : g2.next = g1.next + 2 := check_next g1 o
  have efin : (insertAll cond asserts ar found g).1 = post.foldl (checkNode cond asserts ar) g2 := by
    show found.foldl (checkNode cond asserts ar) g = _
    rw [e, List.foldl_append, List.foldl_cons]
  refine ⟨⟨g1.next + 1, o.dst, o.data, checkRanges o ar, o.dims, cond, asserts⟩, ?_, rfl, rfl, rfl, rfl, rfl, rfl, ?_⟩
  · rw [efin]
    apply checks_keep
    show _ ∈ (checkNode cond asserts ar g1 o).checks
    unfold checkNode
    rw [ho'.1]
    simp
  · intro σ hs
    rw [efin] at hs
    have hs2 : Schedule g2 (σ.filter fun i => decide (i < g2.next)) := fold_restrict post g2 hg2 (fun x hx => by
      have := hpost x hx
      exact ⟨this.1, by omega⟩) σ hs
    have hs0 : Schedule g (σ.filter fun i => decide (i < g.next)) := by
      have := fold_restrict (cond := cond) (asserts := asserts) (ar := ar) found g h hf' σ (by
        have e' : found.foldl (checkNode cond asserts ar) g = _ := efin
        rw [e']; exact hs)
      exact this
    have b1 := hs2.edges o.dst (g1.next + 1) ((check_edges g1 o ho'.1 _ _).mpr (.inr (.inr (.inl ⟨rfl, rfl⟩))))
    have b1' := before_of_filter b1
    refine ⟨?_, b1', ?_⟩
    · intro w hw
      exact before_trans hs.nodup (before_of_filter (hs0.edges w o.dst hw)) b1'
    · intro r hr
      obtain ⟨b, hb, hbr⟩ := leads_fold (cond := cond) (asserts := asserts) (ar := ar) pre g h hpre o.dst r ho'.2 hr
      have h2 := before_of_filter (hs2.edges (g1.next + 1) g1.next
        ((check_edges g1 o ho'.1 _ _).mpr (.inr (.inr (.inr ⟨rfl, rfl⟩)))))
      have h3 := before_of_filter (hs2.edges g1.next b ((check_edges g1 o ho'.1 _ _).mpr (.inr (.inl ⟨rfl, hb⟩))))
      have h4 := before_trans hs.nodup h2 h3
      rcases hbr with e | hbr
      · subst e; exact h4
      · have hs1 := step_restrict g1 o hg1 ho'.1 _ hs2
        exact before_trans hs.nodup h4 (before_of_filter (before_of_filter (hbr _ hs1)))

/-- C114: every output found on the GPU has a check, that reads the container, covers the ranges asked for or else the subset
the map writes, and runs after the container is written and before anything that reads it from there. -/
theorem C114_between (found : List Out) (g : Graph) (h : Closed g) (hf : ∀ o ∈ found, o ∈ g.outs ∧ o.gpu = true) (o : Out)
    (ho : o ∈ found) :
    ∃ c ∈ (insertAll cond asserts ar found g).1.checks,
      c.node = o.dst ∧ c.data = o.data ∧ c.cond = cond ∧ c.asserts = asserts ∧ c.ranges = checkRanges o ar ∧ c.indices = o.dims ∧
      ∀ σ, Schedule (insertAll cond asserts ar found g).1 σ →
        (∀ w, (w, o.dst) ∈ g.edges → Before σ w c.id) ∧ Before σ o.dst c.id ∧ ∀ r, (o.dst, r) ∈ g.edges → Before σ c.id r := by
  obtain ⟨c, hc, e1, e2, e3, e4, e5, e6, hσ⟩ := between_leads (cond := cond) (asserts := asserts) (ar := ar) found g h hf o ho
  exact ⟨c, hc, e1, e2, e3, e4, e5, e6, fun σ hs => ⟨(hσ σ hs).1, (hσ σ hs).2.1, fun r hr => (hσ σ hs).2.2 r ⟨r, hr, .inl rfl⟩⟩⟩

/-- C114: on the GPU, the number logged is the number of checks inserted. -/
theorem C114_count (found : List Out) (g : Graph) (hf : ∀ o ∈ found, o.gpu = true) :
    (insertAll cond asserts ar found g).1.checks.length = g.checks.length + (insertAll cond asserts ar found g).2 := by
  show (found.foldl (checkNode cond asserts ar) g).checks.length = g.checks.length + found.length
  induction found generalizing g with
  | nil => rfl
  | cons o os ih =>
    rw [List.foldl_cons, ih _ (fun x hx => hf x (List.mem_cons_of_mem _ hx))]
    have : (checkNode cond asserts ar g o).checks.length = g.checks.length + 1 := by
      unfold checkNode
      rw [hf o List.mem_cons_self]
      simp
    rw [this, List.length_cons]
    omega

/-! ### What the checks test -/

theorem mem_rangeList (r : Range) (i : Int) : i ∈ rangeList r ↔ r.Has i := by
  unfold rangeList Range.Has
  rw [List.mem_filterMap]
  constructor
  · rintro ⟨n, hn, h⟩
    rw [List.mem_range] at hn
    by_cases c : (n : Int) % r.step = 0
    · rw [if_pos c] at h
      injection h with h
      subst h
      refine ⟨by omega, by omega, ?_⟩
      rw [show r.first + (n : Int) - r.first = n by omega]
      exact Int.dvd_of_emod_eq_zero c
    · rw [if_neg c] at h
      cases h
  · rintro ⟨h1, h2, h3⟩
    refine ⟨(i - r.first).toNat, by rw [List.mem_range]; omega, ?_⟩
    have e : (((i - r.first).toNat : Nat) : Int) = i - r.first := by omega
    rw [e, if_pos (Int.emod_eq_zero_of_dvd h3)]
    congr 1
    omega

theorem mem_points (rs : List Range) (p : List Int) : p ∈ points rs ↔ Covers rs p := by
  induction rs generalizing p with
  | nil =>
    rw [points, List.mem_singleton]
    constructor
    · intro h; subst h; exact .nil
    · intro h; cases h; rfl
  | cons r rs ih =>
    rw [points, List.mem_flatMap]
    constructor
    · rintro ⟨i, hi, hp⟩
      obtain ⟨q, hq, e⟩ := List.mem_map.mp hp
      subst e
      exact .cons ((mem_rangeList r i).mp hi) ((ih q).mp hq)
    · intro h
      cases h with
      | cons h1 h2 => exact ⟨_, (mem_rangeList r _).mpr h1, List.mem_map.mpr ⟨_, (ih _).mpr h2, rfl⟩⟩

/-- C114: in a program whose containers named like `delp` are on the GPU, the checks inserted for `delp` stop the program, for
every output of a map in no other map to a container whose name contains `delp`, exactly if the subset written holds a negative
number, before it is read from there; and the number logged is the number of these outputs. -/
theorem C114_delp (g : Graph) (h : Closed g) (hgpu : ∀ o ∈ g.outs, "delp".toList <:+: o.data → o.gpu = true) :
    (negativeDelp g).2 = (g.outs.filter fun o => !o.inside && o.access && !o.view && decide ("delp".toList <:+: o.data)).length ∧
    ∀ o ∈ g.outs, o.Plain → "delp".toList <:+: o.data → o.subset.length = o.dims →
      ∃ c ∈ (negativeDelp g).1.checks, c.node = o.dst ∧ c.asserts = true ∧
        (∀ value, c.fires value = true ↔ ∃ p x, Covers o.subset p ∧ value p = some x ∧ x < 0) ∧
        ∀ σ, Schedule (negativeDelp g).1 σ → Before σ o.dst c.id ∧ ∀ r, (o.dst, r) ∈ g.edges → Before σ c.id r := by
  have hall : ∀ o ∈ filterAll g ["delp".toList] [] false, o ∈ g.outs ∧ o.gpu = true := by
    intro o ho
    obtain ⟨h1, _, ⟨w, hw, hi⟩, _⟩ := (C114_found _ _ _ _ _).mp ho
    rw [List.mem_singleton] at hw
    subst hw
    exact ⟨h1, hgpu o h1 hi⟩
  refine ⟨?_, ?_⟩
  · show (filterAll g ["delp".toList] [] false).length = _
    unfold filterAll
    rw [List.filter_filter]
    congr 1
    apply List.filter_congr
    intro o _
    have : decide ("delp".toList <:+: o.data) = inside "delp".toList o.data := by
      rw [Bool.eq_iff_iff, decide_eq_true_iff, inside_iff]
    rw [this]
    cases o.inside <;> cases o.access <;> cases o.view <;> cases hi : inside "delp".toList o.data <;> simp [hi] <;> exact hi
  · intro o ho hp hn hdim
    have hm : o ∈ filterAll g ["delp".toList] [] false :=
      (C114_found _ _ _ _ _).mpr ⟨ho, hp, ⟨_, List.mem_singleton.mpr rfl, hn⟩, by simp, by simp⟩
    obtain ⟨c, hc, e1, _, e3, e4, e5, _, hσ⟩ := C114_between (cond := .below 0) (asserts := true) (ar := none) _ g h hall o hm
    refine ⟨c, hc, e1, e4, ?_, fun σ hs => ⟨(hσ σ hs).2.1, (hσ σ hs).2.2⟩⟩
    intro value
    unfold Check.fires
    have er : checkRanges o none = o.subset := by
      show o.subset.take o.dims = o.subset
      rw [← hdim, List.take_length]
    rw [e3, e5, er, List.any_eq_true]
    constructor
    · rintro ⟨p, hp, hv⟩
      cases hx : value p with
      | none => rw [hx] at hv; cases hv
      | some x =>
        rw [hx] at hv
        exact ⟨p, x, (mem_points _ _).mp hp, hx, by simpa [Cond.holds] using hv⟩
    · rintro ⟨p, x, hp, hx, hv⟩
      refine ⟨p, (mem_points _ _).mpr hp, ?_⟩
      rw [hx]
      simpa [Cond.holds] using hv

/-- C114: likewise for the tracers, by their names, with numbers below -1e-8. -/
theorem C114_tracers (g : Graph) (h : Closed g) (hgpu : ∀ o ∈ g.outs, (∃ w ∈ tracerWords, w <:+: o.data) → o.gpu = true)
    (o : Out) (ho : o ∈ g.outs) (hp : o.Plain) (hn : ∃ w ∈ tracerWords, w <:+: o.data) (hdim : o.subset.length = o.dims) :
    ∃ c ∈ (negativeTracers g).1.checks, c.node = o.dst ∧ c.asserts = true ∧
      (∀ value, c.fires value = true ↔ ∃ p x, Covers o.subset p ∧ value p = some x ∧ x < -1 / 100000000) ∧
      ∀ σ, Schedule (negativeTracers g).1 σ → Before σ o.dst c.id ∧ ∀ r, (o.dst, r) ∈ g.edges → Before σ c.id r := by
  have hall : ∀ o ∈ filterAll g tracerNames [] false, o ∈ g.outs ∧ o.gpu = true := by
    intro o ho
    obtain ⟨h1, _, hw, _⟩ := (C114_found _ _ _ _ _).mp ho
    exact ⟨h1, hgpu o h1 hw⟩
  have hm : o ∈ filterAll g tracerNames [] false := (C114_found _ _ _ _ _).mpr ⟨ho, hp, hn, by simp, by simp⟩
  obtain ⟨c, hc, e1, _, e3, e4, e5, _, hσ⟩ :=
    C114_between (cond := .below (-1 / 100000000)) (asserts := true) (ar := none) _ g h hall o hm
  refine ⟨c, hc, e1, e4, ?_, fun σ hs => ⟨(hσ σ hs).2.1, (hσ σ hs).2.2⟩⟩
  intro value
  unfold Check.fires
  have er : checkRanges o none = o.subset := by
    show o.subset.take o.dims = o.subset
    rw [← hdim, List.take_length]
  rw [e3, e5, er, List.any_eq_true]
  constructor
  · rintro ⟨p, hp, hv⟩
    cases hx : value p with
    | none => rw [hx] at hv; cases hv
    | some x =>
      rw [hx] at hv
      exact ⟨p, x, (mem_points _ _).mp hp, hx, by simpa [Cond.holds] using hv⟩
  · rintro ⟨p, x, hp, hx, hv⟩
    refine ⟨p, (mem_points _ _).mpr hp, ?_⟩
    rw [hx]
    simpa [Cond.holds] using hv

/-- C114: turned on, the tools leave a program without such names as it is. -/
theorem C114_untouched (g : Graph) (h : ∀ o ∈ g.outs, ∀ w ∈ "delp".toList :: tracerWords, ¬ w <:+: o.data) :
    syncDebug g = .ok g := by
  have e1 : filterAll g ["delp".toList] [] false = [] := by
    apply List.eq_nil_iff_forall_not_mem.mpr
    intro o ho
    obtain ⟨h1, _, ⟨w, hw, hi⟩, _⟩ := (C114_found _ _ _ _ _).mp ho
    rw [List.mem_singleton] at hw
    subst hw
    exact h o h1 _ List.mem_cons_self hi
  have e2 : filterAll g tracerNames [] false = [] := by
    apply List.eq_nil_iff_forall_not_mem.mpr
    intro o ho
    obtain ⟨h1, _, ⟨w, hw, hi⟩, _⟩ := (C114_found _ _ _ _ _).mp ho
    exact h o h1 _ (List.mem_cons_of_mem _ hw) hi
  have e3 : (negativeDelp g).1 = g := by unfold negativeDelp; rw [e1]; rfl
  unfold syncDebug
  rw [(C114_nan_violated g 0 0 0 ⟨0, 0, 1⟩).1]
  show Except.ok (negativeTracers (negativeDelp g).1).1 = _
  rw [e3]
  unfold negativeTracers
  rw [e2]
  rfl

theorem outs_fold (found : List Out) (g : Graph) (o : Out) (ho : o ∈ (found.foldl (checkNode cond asserts ar) g).outs) :
    o ∈ g.outs ∨ ∃ x ∈ found, x.gpu = true ∧ o.gpu = true ∧ o.data = x.data := by
  induction found generalizing g with
  | nil => exact .inl ho
  | cons x xs ih =>
    rcases ih _ ho with h | ⟨y, hy, h⟩
    · unfold checkNode at h
      cases hx : x.gpu
      · rw [hx] at h; exact .inl h
      · rw [hx] at h
        simp only [Bool.not_true, Bool.false_eq_true, if_false, List.mem_append, List.mem_cons, List.not_mem_nil, or_false] at h
        rcases h with h | h
        · exact .inl h
        · subst h; exact .inr ⟨x, List.mem_cons_self, hx, rfl, rfl⟩
    · exact .inr ⟨y, List.mem_cons_of_mem _ hy, h⟩

theorem outs_keep (found : List Out) (g : Graph) (o : Out) (ho : o ∈ g.outs) :
    o ∈ (found.foldl (checkNode cond asserts ar) g).outs := by
  induction found generalizing g with
  | nil => exact ho
  | cons x xs ih =>
    refine ih _ ?_
    unfold checkNode
    cases x.gpu
    · exact ho
    · exact List.mem_append_left _ ho

/-- The check of a limit on a subset. -/
theorem fires_below (c : Check) (l : ℚ) (rs : List Range) (hc : c.cond = .below l) (hr : c.ranges = rs) (value : List Int → Option ℚ) :
    c.fires value = true ↔ ∃ p x, Covers rs p ∧ value p = some x ∧ x < l := by
  unfold Check.fires
  rw [hc, hr, List.any_eq_true]
  constructor
  · rintro ⟨p, hp, hv⟩
    cases hx : value p with
    | none => rw [hx] at hv; cases hv
    | some x =>
      rw [hx] at hv
      exact ⟨p, x, (mem_points _ _).mp hp, hx, by simpa [Cond.holds] using hv⟩
  · rintro ⟨p, x, hp, hx, hv⟩
    refine ⟨p, (mem_points _ _).mpr hp, ?_⟩
    rw [hx]
    simpa [Cond.holds] using hv

/-- C114: turned on, the tools insert both kinds of checks, and the program runs as without them. -/
theorem C114_sync (g : Graph) (h : Closed g)
    (hgpu : ∀ o ∈ g.outs, ∀ w ∈ "delp".toList :: tracerWords, w <:+: o.data → o.gpu = true) :
    ∃ g', syncDebug g = .ok g' ∧
      (∀ (w : List Char) (limit : ℚ) (o : Out), (w = "delp".toList ∧ limit = 0 ∨ w ∈ tracerWords ∧ limit = -1 / 100000000) →
        o ∈ g.outs → o.Plain → w <:+: o.data → o.subset.length = o.dims →
        ∃ c ∈ g'.checks, c.node = o.dst ∧ c.asserts = true ∧
          (∀ value, c.fires value = true ↔ ∃ p x, Covers o.subset p ∧ value p = some x ∧ x < limit) ∧
          ∀ σ, Schedule g' σ → Before σ o.dst c.id ∧ ∀ r, (o.dst, r) ∈ g.edges → Before σ c.id r) ∧
      ∀ {M : Type} (act : Nat → M → M) (σ : List Nat) (m : M), Schedule g' σ →
        ∃ τ, Schedule g τ ∧ run (fun i => if i < g.next then act i else id) σ m = run act τ m := by
  have h1 : ∀ o ∈ filterAll g ["delp".toList] [] false, o ∈ g.outs ∧ o.gpu = true := by
    intro o ho
    obtain ⟨h1, _, ⟨w, hw, hi⟩, _⟩ := (C114_found _ _ _ _ _).mp ho
    rw [List.mem_singleton] at hw
    subst hw
    exact ⟨h1, hgpu o h1 _ List.mem_cons_self hi⟩
  have h1' : ∀ o ∈ filterAll g ["delp".toList] [] false, o.gpu = true ∧ o.dst < g.next :=
    fun o ho => ⟨(h1 o ho).2, h.outs o (h1 o ho).1⟩
  let g1 : Graph := (filterAll g ["delp".toList] [] false).foldl (checkNode (.below 0) true none) g
  have hc1 : Closed g1 := fold_closed _ g h h1'
  have hle : g.next ≤ g1.next := fold_next_le _ g
  have h2 : ∀ o ∈ filterAll g1 tracerNames [] false, o ∈ g1.outs ∧ o.gpu = true := by
    intro o ho
    obtain ⟨a1, _, ⟨w, hw, hi⟩, _⟩ := (C114_found _ _ _ _ _).mp ho
    refine ⟨a1, ?_⟩
    rcases outs_fold _ g o a1 with b | ⟨x, _, _, b, _⟩
    · exact hgpu o b w (List.mem_cons_of_mem _ hw) hi
    · exact b
  have h2' : ∀ o ∈ filterAll g1 tracerNames [] false, o.gpu = true ∧ o.dst < g1.next :=
    fun o ho => ⟨(h2 o ho).2, hc1.outs o (h2 o ho).1⟩
  let g2 : Graph := (filterAll g1 tracerNames [] false).foldl (checkNode (.below (-1 / 100000000)) true none) g1
  refine ⟨g2, ?_, ?_, ?_⟩
  · unfold syncDebug
    rw [(C114_nan_violated g 0 0 0 ⟨0, 0, 1⟩).1]
    rfl
  · intro w limit o hw ho hp hi hdim
    have er : checkRanges o none = o.subset := by
      show o.subset.take o.dims = o.subset
      rw [← hdim, List.take_length]
    rcases hw with ⟨e, el⟩ | ⟨hw, el⟩
    · subst e; subst el
      have hm : o ∈ filterAll g ["delp".toList] [] false :=
        (C114_found _ _ _ _ _).mpr ⟨ho, hp, ⟨_, List.mem_singleton.mpr rfl, hi⟩, by simp, by simp⟩
      obtain ⟨c, hc, e1, _, e3, e4, e5, _, hσ⟩ := C114_between (cond := .below 0) (asserts := true) (ar := none) _ g h h1 o hm
      refine ⟨c, checks_keep _ g1 c hc, e1, e4, fires_below c 0 _ e3 (e5.trans er), ?_⟩
      intro σ hs
      have := hσ _ (fold_restrict _ g1 hc1 h2' σ hs)
      exact ⟨before_of_filter this.2.1, fun r hr => before_of_filter (this.2.2 r hr)⟩
    · subst el
      have hm : o ∈ filterAll g1 tracerNames [] false :=
        (C114_found _ _ _ _ _).mpr ⟨outs_keep _ g o ho, hp, ⟨w, hw, hi⟩, by simp, by simp⟩
      obtain ⟨c, hc, e1, _, e3, e4, e5, _, hσ⟩ :=
        between_leads (cond := .below (-1 / 100000000)) (asserts := true) (ar := none) _ g1 hc1 h2 o hm
      refine ⟨c, hc, e1, e4, fires_below c _ _ e3 (e5.trans er), ?_⟩
      intro σ hs
      refine ⟨(hσ σ hs).2.1, fun r hr => (hσ σ hs).2.2 r ?_⟩
      exact leads_fold _ g h h1' o.dst r (h.outs o ho) ⟨r, hr, .inl rfl⟩
  · intro M act σ m hs
    have a := fold_restrict _ g1 hc1 h2' σ hs
    have b := fold_restrict _ g h h1' _ a
    rw [filter_filter_lt _ hle] at b
    exact ⟨_, b, run_filter act g.next σ m⟩

/-! ### Containers elsewhere, and of other ranks -/

/-- A program on the CPU: node 0 writes the container 1, node 2 reads it. -/
def onCpu : Graph :=
  ⟨3, [(0, 1), (1, 2)], [⟨1, false, true, false, "delp".toList, false, 1, false, [⟨0, 9, 1⟩]⟩], []⟩

/-- C114 (not so): inserted checks change nothing. For a container that is not on the GPU no check is inserted, although one is
logged, and what reads it no longer waits for what writes it: the program gets an order in which it reads the value of before. -/
theorem C114_cpu_violated :
    (∀ τ, Schedule onCpu τ → run (fun i m => if i = 0 then (7, m.2) else if i = 2 then (m.1, m.1) else m) τ (0, 0) = (7, 7)) ∧
    (negativeDelp onCpu).2 = 1 ∧ (negativeDelp onCpu).1.checks = [] ∧
    Schedule (negativeDelp onCpu).1 [3, 2, 0, 1, 4] ∧
    run (fun i m => if i = 0 then (7, m.2) else if i = 2 then (m.1, m.1) else m) [3, 2, 0, 1, 4] (0, 0) = (7, 0) := by
  have hf : filterAll onCpu ["delp".toList] [] false = onCpu.outs := by decide +kernel
  have hg : (negativeDelp onCpu).1 = ⟨5, [(0, 1), (3, 2)], onCpu.outs, []⟩ := by
    unfold negativeDelp; rw [hf]; rfl
  refine ⟨?_, ?_, ?_, ?_, rfl⟩
  · intro τ hs
    have h1 := hs.edges 0 1 (by simp [onCpu])
    have h2 := hs.edges 1 2 (by simp [onCpu])
    have hl : τ.length = 3 := by rw [hs.all.length_eq]; rfl
    have h3 : [0, 1, 2].Sublist τ := by
      have hn := hs.nodup
      match τ, hl with
      | [a, b, c], _ =>
        have ha : a ∈ List.range 3 := (hs.all.mem_iff).mp (by simp)
        have hb : b ∈ List.range 3 := (hs.all.mem_iff).mp (by simp)
        have hc : c ∈ List.range 3 := (hs.all.mem_iff).mp (by simp)
        have : ∀ a ∈ List.range 3, ∀ b ∈ List.range 3, ∀ c ∈ List.range 3, [0, 1].Sublist [a, b, c] → [1, 2].Sublist [a, b, c] →
          [0, 1, 2].Sublist [a, b, c] := by decide
        exact this a ha b hb c hc h1 h2
    have e := h3.eq_of_length (by rw [hl]; rfl)
    rw [← e]
    rfl
  · unfold negativeDelp; rw [hf]; rfl
  · rw [hg]
  · rw [hg]
    constructor
    · decide
    · intro a b hab
      simp only [List.mem_cons, Prod.mk.injEq, List.not_mem_nil, or_false] at hab
      unfold Before
      rcases hab with ⟨e1, e2⟩ | ⟨e1, e2⟩ <;> subst e1 <;> subst e2 <;> decide

/-- C114 (not so): with three ranges given, a check has one for each index it uses. For a container of more than three axes it has
three. -/
theorem C114_axes_violated (o : Out) (hd : 3 < o.dims) (i j k : Range) :
    (checkRanges o (some [i, j, k])).length < o.dims := by
  show ([i, j, k].take o.dims).length < o.dims
  rw [List.length_take]
  simp only [List.length_cons, List.length_nil]
  omega

/-- C114: up to three axes it does, the first ones. -/
theorem C114_axes (o : Out) (hd : o.dims ≤ 3) (i j k : Range) :
    checkRanges o (some [i, j, k]) = [i, j, k].take o.dims ∧ (checkRanges o (some [i, j, k])).length = o.dims := by
  refine ⟨rfl, ?_⟩
  show ([i, j, k].take o.dims).length = o.dims
  rw [List.length_take]
  simp only [List.length_cons, List.length_nil]
  omega

/-! ### Instances -/

/-- A program on the GPU: 0 writes `delp` (1) and 2 reads it. -/
def onGpu : Graph :=
  ⟨3, [(0, 1), (1, 2)], [⟨1, false, true, false, "delp".toList, true, 1, false, [⟨0, 9, 1⟩]⟩], []⟩

theorem onGpu_closed : Closed onGpu where
  edges := by
    intro a b h
    simp [onGpu] at h
    rcases h with ⟨e1, e2⟩ | ⟨e1, e2⟩ <;> subst e1 <;> subst e2 <;> decide
  outs := by intro o h; simp [onGpu] at h; subst h; decide

theorem onGpu_schedule : Schedule onGpu [0, 1, 2] where
  all := by decide
  edges := by
    intro a b h
    simp [onGpu] at h
    unfold Before
    rcases h with ⟨e1, e2⟩ | ⟨e1, e2⟩ <;> subst e1 <;> subst e2 <;> decide

/-- The hypotheses of `C114_delp` hold of it, and the checked program can run. -/
example : (∃ c ∈ (negativeDelp onGpu).1.checks, c.node = 1 ∧ c.asserts = true) ∧ ∃ σ, Schedule (negativeDelp onGpu).1 σ := by
  have hg : ∀ o ∈ onGpu.outs, "delp".toList <:+: o.data → o.gpu = true := by
    intro o ho _; simp [onGpu] at ho; subst ho; rfl
  refine ⟨?_, ?_⟩
  · obtain ⟨c, hc, h1, h2, _⟩ := (C114_delp onGpu onGpu_closed hg).2 ⟨1, false, true, false, "delp".toList, true, 1, false, [⟨0, 9, 1⟩]⟩
      (by simp [onGpu]) ⟨rfl, rfl, rfl⟩ (List.infix_rfl) rfl
    exact ⟨c, hc, h1, h2⟩
  · refine C114_runs _ onGpu onGpu_closed ?_ _ onGpu_schedule
    intro o ho
    obtain ⟨h1, _, ⟨w, hw, hi⟩, _⟩ := (C114_found _ _ _ _ _).mp ho
    rw [List.mem_singleton] at hw
    subst hw
    exact ⟨h1, hg o h1 hi⟩

/-- `C114_sync` applies to it. -/
example : ∃ g', syncDebug onGpu = .ok g' ∧ ∃ c ∈ g'.checks, c.node = 1 := by
  obtain ⟨g', h1, h2, _⟩ := C114_sync onGpu onGpu_closed (by intro o ho _ _ _; simp [onGpu] at ho; subst ho; rfl)
  obtain ⟨c, hc, e, _⟩ := h2 "delp".toList 0 ⟨1, false, true, false, "delp".toList, true, 1, false, [⟨0, 9, 1⟩]⟩ (.inl ⟨rfl, rfl⟩)
    (by simp [onGpu]) ⟨rfl, rfl, rfl⟩ List.infix_rfl rfl
  exact ⟨g', h1, c, hc, e⟩

example : (negativeDelp onGpu).1.edges = [(0, 1), (3, 2), (1, 4), (4, 3)] := by decide +kernel

/-- A subset with a step and a point of it. -/
example : Covers [⟨0, 9, 3⟩, ⟨2, 2, 1⟩] [6, 2] := by
  refine .cons ⟨by decide, by decide, by decide⟩ (.cons ⟨by decide, by decide, by decide⟩ .nil)

end NDSL.DebugChecks
