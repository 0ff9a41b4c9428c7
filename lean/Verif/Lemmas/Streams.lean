import Verif.Spec.Streams
/-
Work on streams that never conflicts gives what running it in the order of the launches gives.
-/
namespace NDSL.Streams
variable {S L V : Type} [DecidableEq S] [DecidableEq L]

theorem Conflict.symm {a b : Op L V} (h : Conflict a b) : Conflict b a := by
  unfold Conflict at *
  rcases h with h | h | h
  · exact .inl h.symm
  · exact .inr (.inr h)
  · exact .inr (.inl h)

/-- `D s`: something may be in the queue of `s`. -/
def dirty : (S → Prop) → List (Act S L V) → S → Prop
  | D, [] => D
  | D, .launch s _ :: r => dirty (fun s' => D s' ∨ s' = s) r
  | D, .sync s :: r => dirty (fun s' => s' ≠ s ∧ D s') r
  | _, .syncAll :: r => dirty (fun _ => False) r

theorem run_comm {a b : Op L V} (h : ¬ Conflict a b) (m : L → V) : a.run (b.run m) = b.run (a.run m) := by
  unfold Conflict at h
  funext l
  have h1 : ¬ a.dst = b.dst := fun e => h (.inl e)
  have h2 : ¬ a.dst = b.src := fun e => h (.inr (.inl e))
  have h3 : ¬ b.dst = a.src := fun e => h (.inr (.inr e))
  simp only [Op.run]
  by_cases e1 : l = a.dst
  · have : ¬ l = b.dst := fun e => h1 (e1.symm.trans e)
    rw [if_pos e1, if_neg this, if_pos e1, if_neg (fun e => h3 e.symm)]
  · rw [if_neg e1, if_neg e1]
    by_cases e2 : l = b.dst
    · rw [if_pos e2, if_pos e2, if_neg (fun e => h2 e.symm)]
    · rw [if_neg e2, if_neg e2]

theorem runOps_append (a b : List (Op L V)) (m : L → V) : runOps (a ++ b) m = runOps b (runOps a m) := List.foldl_append

theorem runOps_front {ops : List (Op L V)} {o : Op L V} (h : ∀ p ∈ ops, ¬ Conflict p o) (m : L → V) :
    o.run (runOps ops m) = runOps ops (o.run m) := by
  induction ops generalizing m with
  | nil => rfl
  | cons p ops ih =>
    show o.run (runOps ops (p.run m)) = runOps ops (p.run (o.run m))
    rw [ih (fun q hq => h q (List.mem_cons_of_mem _ hq)), run_comm (h p List.mem_cons_self)]

/-! ### The invariant -/

variable (S L V) in
abbrev Pending := List (S × Kernel L V)

def flat (G : Pending S L V) : List (Op L V) := G.flatMap fun e => e.2

structure Inv (m0 : L → V) (p0 : List (Act S L V)) (σ : State S L V) : Prop where
  ex : ∃ (G : Pending S L V) (P : S → Op L V → Prop) (D : S → Prop),
    (∀ s, σ.queue s = (G.filter fun e => e.1 = s).map fun e => e.2) ∧
    seq σ.prog (runOps (flat G) σ.mem) = seq p0 m0 ∧
    (G.Pairwise fun a b => a.1 ≠ b.1 → ∀ p ∈ a.2, ∀ o ∈ b.2, ¬ Conflict p o) ∧
    (∀ e ∈ G, NoRace e.2) ∧
    Safe P σ.prog ∧ (∀ e ∈ G, ∀ o ∈ e.2, P e.1 o) ∧
    (∀ e ∈ G, D e.1) ∧ (∀ s, dirty D σ.prog s → dirty (fun _ => False) p0 s)

theorem inv_begin (m : L → V) (p : List (Act S L V)) (h : Safe (fun _ _ => False) p) : Inv m p (begin m p) :=
  ⟨[], fun _ _ => False, fun _ => False, fun _ => rfl, rfl, .nil, fun _ h => (by cases h), h, fun _ h => (by cases h),
    fun _ h => (by cases h), fun _ h => h⟩

theorem queue_empty {G : Pending S L V} {s : S} (h : ((G.filter fun e => e.1 = s).map fun e => e.2) = []) :
    ∀ e ∈ G, e.1 ≠ s := by
  intro e he hs
  have h' := List.map_eq_nil_iff.mp h
  rw [List.filter_eq_nil_iff] at h'
  exact h' e he (by simp [hs])

/-- The first entry of a stream. -/
theorem split_first {G : Pending S L V} {s : S} {k : Kernel L V} {rest : List (Kernel L V)}
    (h : ((G.filter fun e => e.1 = s).map fun e => e.2) = k :: rest) :
    ∃ A B, G = A ++ (s, k) :: B ∧ (∀ e ∈ A, e.1 ≠ s) ∧ rest = (B.filter fun e => e.1 = s).map fun e => e.2 := by
  induction G with
  | nil => cases h
  | cons e G ih =>
    by_cases hs : e.1 = s
    · rw [List.filter_cons_of_pos (by simp [hs]), List.map_cons, List.cons.injEq] at h
      exact ⟨[], G, by rw [← h.1, ← hs]; rfl, fun _ h => (by cases h), h.2.symm⟩
    · rw [List.filter_cons_of_neg (by simp [hs])] at h
      obtain ⟨A, B, h1, h2, h3⟩ := ih h
      refine ⟨e :: A, B, by rw [h1]; rfl, fun x hx => ?_, h3⟩
      rcases List.mem_cons.mp hx with rfl | hx
      · exact hs
      · exact h2 x hx

theorem setQueue_self (q : S → List (Kernel L V)) (s : S) (l : List (Kernel L V)) : setQueue q s l s = l := if_pos rfl
theorem setQueue_ne (q : S → List (Kernel L V)) {s s' : S} (l : List (Kernel L V)) (h : s' ≠ s) :
    setQueue q s l s' = q s' := if_neg h

theorem filter_mid (A B : Pending S L V) (s : S) (k : Kernel L V) (s' : S) :
    ((A ++ (s, k) :: B).filter fun e => e.1 = s').map (fun e => e.2) =
      (A.filter fun e => e.1 = s').map (fun e => e.2) ++
        ((if s = s' then [k] else []) ++ (B.filter fun e => e.1 = s').map fun e => e.2) := by
  rw [List.filter_append, List.map_append, List.filter_cons]
  by_cases h : s = s' <;> simp [h]

theorem inv_step {m0 : L → V} {p0 : List (Act S L V)} {σ τ : State S L V} (h : Inv m0 p0 σ) (hs : Step σ τ) :
    Inv m0 p0 τ := by
  obtain ⟨G, P, D, hq, hseq, hpair, hrace, hsafe, hP, hD, hdirty⟩ := h.ex
  cases hs with
  | @launch m q s k p =>
    obtain ⟨s1, s2, s3⟩ := hsafe
    refine ⟨G ++ [(s, k)], _, fun s' => D s' ∨ s' = s, fun s' => ?_, ?_, ?_, ?_, s3, ?_, ?_, hdirty⟩
    · simp only at hq
      rw [filter_mid, ← hq s']
      by_cases he : s' = s
      · subst he; simp [setQueue_self]
      · have he' : ¬ s = s' := fun e => he e.symm
        simp [setQueue_ne _ _ he, he']
    · have e : flat (G ++ [(s, k)]) = flat G ++ k := by simp [flat]
      rw [e, runOps_append]
      exact hseq
    · rw [List.pairwise_append]
      refine ⟨hpair, List.pairwise_singleton _ _, fun a ha b hb hne p hp o ho => ?_⟩
      rw [List.mem_singleton] at hb; subst hb
      exact s2 a.1 hne p (hP a ha p hp) o ho
    · intro e he
      rcases List.mem_append.mp he with he | he
      · exact hrace e he
      · rw [List.mem_singleton] at he; subst he; exact s1
    · intro e he o ho
      rcases List.mem_append.mp he with he | he
      · exact .inl (hP e he o ho)
      · rw [List.mem_singleton] at he; subst he; exact .inr ⟨rfl, ho⟩
    · intro e he
      rcases List.mem_append.mp he with he | he
      · exact .inl (hD e he)
      · rw [List.mem_singleton] at he; subst he; exact .inr rfl
  | @sync m q s p hemp =>
    have hne := queue_empty ((hq s).symm.trans hemp)
    exact ⟨G, _, fun s' => s' ≠ s ∧ D s', hq, hseq, hpair, hrace, hsafe, fun e he o ho => ⟨hne e he, hP e he o ho⟩,
      fun e he => ⟨hne e he, hD e he⟩, hdirty⟩
  | @syncAll m q p hemp =>
    have hG : ∀ e ∈ G, False := fun e he => queue_empty ((hq e.1).symm.trans (hemp e.1)) e he rfl
    exact ⟨G, _, fun _ => False, hq, hseq, hpair, hrace, hsafe, fun e he => (hG e he).elim, hG, hdirty⟩
  | @thread m q p s pre o post rest hqs =>
    obtain ⟨A, B, rfl, hA, hrest⟩ := split_first ((hq s).symm.trans hqs)
    have hk := hrace (s, pre ++ o :: post) (by simp)
    refine ⟨A ++ (s, pre ++ post) :: B, P, D, fun s' => ?_, ?_, ?_, ?_, hsafe, ?_, ?_, hdirty⟩
    · rw [filter_mid]
      show setQueue q s _ s' = _
      by_cases he : s' = s
      · subst he
        rw [setQueue_self, hrest]
        have : (A.filter fun e => e.1 = s') = [] := by
          rw [List.filter_eq_nil_iff]; intro e he'; simpa using hA e he'
        simp [this]
      · rw [setQueue_ne _ _ he]
        have := hq s'
        simp only at this
        rw [this, filter_mid]
        have he' : ¬ s = s' := fun e => he e.symm
        simp [he']
    · rw [← hseq]
      congr 1
      have e1 : flat (A ++ (s, pre ++ post) :: B) = (flat A ++ pre) ++ (post ++ flat B) := by simp [flat]
      have e2 : flat (A ++ (s, pre ++ o :: post) :: B) = (flat A ++ pre) ++ (o :: (post ++ flat B)) := by simp [flat]
      rw [e1, e2, runOps_append, runOps_append (flat A ++ pre)]
      have comm : ∀ x ∈ flat A ++ pre, ¬ Conflict x o := by
        intro x hx
        rcases List.mem_append.mp hx with hx | hx
        · obtain ⟨a, ha, hx⟩ := List.mem_flatMap.mp hx
          exact (List.pairwise_append.mp hpair).2.2 a ha (s, pre ++ o :: post) List.mem_cons_self (hA a ha) x hx o (by simp)
        · exact (List.pairwise_append.mp hk).2.2 x hx o List.mem_cons_self
      show runOps (post ++ flat B) (runOps (flat A ++ pre) (o.run m)) = runOps (post ++ flat B) (o.run (runOps (flat A ++ pre) m))
      rw [runOps_front comm]
    · rw [List.pairwise_append, List.pairwise_cons] at hpair ⊢
      refine ⟨hpair.1, ⟨fun b hb hne x hx y hy => hpair.2.1.1 b hb hne x ?_ y hy, hpair.2.1.2⟩, fun a ha b hb hne x hx y hy => ?_⟩
      · rcases List.mem_append.mp hx with hx | hx <;> simp [hx]
      · rcases List.mem_cons.mp hb with rfl | hb
        · refine hpair.2.2 a ha (s, pre ++ o :: post) List.mem_cons_self hne x hx y ?_
          rcases List.mem_append.mp hy with hy | hy <;> simp [hy]
        · exact hpair.2.2 a ha b (List.mem_cons_of_mem _ hb) hne x hx y hy
    · intro e he
      rcases List.mem_append.mp he with he | he
      · exact hrace e (by simp [he])
      · rcases List.mem_cons.mp he with rfl | he
        · exact List.Pairwise.sublist (by simp) hk
        · exact hrace e (by simp [he])
    · intro e he x hx
      rcases List.mem_append.mp he with he | he
      · exact hP e (by simp [he]) x hx
      · rcases List.mem_cons.mp he with rfl | he
        · refine hP (s, pre ++ o :: post) (by simp) x ?_
          rcases List.mem_append.mp hx with hx | hx <;> simp [hx]
        · exact hP e (by simp [he]) x hx
    · intro e he
      rcases List.mem_append.mp he with he | he
      · exact hD e (by simp [he])
      · rcases List.mem_cons.mp he with rfl | he
        · exact hD (s, pre ++ o :: post) (by simp)
        · exact hD e (by simp [he])
  | @finish m q p s rest hqs =>
    obtain ⟨A, B, rfl, hA, hrest⟩ := split_first ((hq s).symm.trans hqs)
    refine ⟨A ++ B, P, D, fun s' => ?_, ?_, ?_, ?_, hsafe, ?_, ?_, hdirty⟩
    · show setQueue q s rest s' = _
      by_cases he : s' = s
      · subst he
        rw [setQueue_self, hrest]
        have : (A.filter fun e => e.1 = s') = [] := by
          rw [List.filter_eq_nil_iff]; intro e he'; simpa using hA e he'
        simp [this]
      · rw [setQueue_ne _ _ he]
        have := hq s'
        simp only at this
        rw [this, filter_mid]
        have he' : ¬ s = s' := fun e => he e.symm
        simp [he']
    · rw [← hseq]
      have e1 : flat (A ++ (s, []) :: B) = flat (A ++ B) := by simp [flat]
      rw [e1]
    · exact hpair.sublist (by simp)
    · intro e he; exact hrace e (by simp at he ⊢; rcases he with h | h <;> simp [h])
    · intro e he; exact hP e (by simp at he ⊢; rcases he with h | h <;> simp [h])
    · intro e he; exact hD e (by simp at he ⊢; rcases he with h | h <;> simp [h])

theorem inv_steps {m0 : L → V} {p0 : List (Act S L V)} {τ : State S L V} (h : Safe (fun _ _ => False) p0)
    (hs : Steps (begin m0 p0) τ) : Inv m0 p0 τ := by
  induction hs with
  | refl => exact inv_begin m0 p0 h
  | tail _ s ih => exact inv_step ih s

/-- When the host has finished and every stream it used was synchronised since, nothing is pending and memory is what the
launches one after the other give. -/
theorem safe_result {m0 : L → V} {p0 : List (Act S L V)} {τ : State S L V} (h : Safe (fun _ _ => False) p0)
    (hc : ∀ s, ¬ dirty (fun _ => False) p0 s) (hs : Steps (begin m0 p0) τ) (hend : τ.prog = []) :
    (∀ s, τ.queue s = []) ∧ τ.mem = seq p0 m0 := by
  obtain ⟨G, P, D, hq, hseq, hpair, hrace, hsafe, hP, hD, hdirty⟩ := (inv_steps h hs).ex
  rw [hend] at hdirty hseq
  have hG : G = [] := by
    cases G with
    | nil => rfl
    | cons e G => exact absurd (hdirty e.1 (hD e List.mem_cons_self)) (hc e.1)
  subst hG
  exact ⟨fun s => hq s, hseq⟩

/-- The host never gets stuck: as long as it has not finished, something can be done. -/
theorem progress (σ : State S L V) (h : σ.prog ≠ []) : ∃ τ, Step σ τ := by
  obtain ⟨m, q, p⟩ := σ
  by_cases hq : ∃ s, q s ≠ []
  · obtain ⟨s, hs⟩ := hq
    cases hk : q s with
    | nil => exact absurd hk hs
    | cons k rest =>
      cases k with
      | nil => exact ⟨_, .finish hk⟩
      | cons o k => exact ⟨_, .thread (pre := []) hk⟩
  · have hall : ∀ s, q s = [] := fun s => Classical.byContradiction fun hn => hq ⟨s, hn⟩
    cases p with
    | nil => exact absurd rfl h
    | cons a p =>
      cases a with
      | launch s k => exact ⟨_, .launch⟩
      | sync s => exact ⟨_, .sync (hall s)⟩
      | syncAll => exact ⟨_, .syncAll hall⟩

/-! ### Programs in parts -/

theorem safe_mono {P Q : S → Op L V → Prop} {p : List (Act S L V)} (h : Safe P p) (hPQ : ∀ s o, Q s o → P s o) : Safe Q p := by
  induction p generalizing P Q with
  | nil => trivial
  | cons a p ih =>
    cases a with
    | launch s k =>
      obtain ⟨h1, h2, h3⟩ := h
      refine ⟨h1, fun s' hs' o ho => h2 s' hs' o (hPQ s' o ho), ih h3 fun s' o ho => ?_⟩
      rcases ho with ho | ho
      · exact .inl (hPQ s' o ho)
      · exact .inr ho
    | sync s => exact ih h fun s' o ho => ⟨ho.1, hPQ s' o ho.2⟩
    | syncAll => exact ih h fun s' o ho => ho

/-- What may be pending after a part. -/
def after : (S → Op L V → Prop) → List (Act S L V) → S → Op L V → Prop
  | P, [] => P
  | P, .launch s k :: r => after (fun s' o => P s' o ∨ (s' = s ∧ o ∈ k)) r
  | P, .sync s :: r => after (fun s' o => s' ≠ s ∧ P s' o) r
  | _, .syncAll :: r => after (fun _ _ => False) r

theorem safe_append {P : S → Op L V → Prop} {a b : List (Act S L V)} (ha : Safe P a) (hb : Safe (after P a) b) :
    Safe P (a ++ b) := by
  induction a generalizing P with
  | nil => exact hb
  | cons x a ih =>
    cases x with
    | launch s k => exact ⟨ha.1, ha.2.1, ih ha.2.2 hb⟩
    | sync s => exact ih (P := fun s' o => s' ≠ s ∧ P s' o) ha hb
    | syncAll => exact ih (P := fun _ _ => False) ha hb

theorem seq_append (a b : List (Act S L V)) (m : L → V) : seq (a ++ b) m = seq b (seq a m) := List.foldl_append

theorem dirty_append (D : S → Prop) (a b : List (Act S L V)) : dirty D (a ++ b) = dirty (dirty D a) b := by
  induction a generalizing D with
  | nil => rfl
  | cons x a ih => cases x <;> exact ih _

theorem dirty_mono {D E : S → Prop} (p : List (Act S L V)) (h : ∀ s, D s → E s) : ∀ s, dirty D p s → dirty E p s := by
  induction p generalizing D E with
  | nil => exact h
  | cons a p ih =>
    cases a with
    | launch t k => exact ih fun s hs => hs.imp (h s) id
    | sync t => exact ih fun s hs => ⟨hs.1, h s hs.2⟩
    | syncAll => exact ih fun _ hs => hs

/-- A sequence of synchronisations. -/
theorem safe_syncs {P : S → Op L V → Prop} (ss : List S) {r : List (Act S L V)} (h : Safe (fun s o => s ∉ ss ∧ P s o) r) :
    Safe P (ss.map Act.sync ++ r) := by
  induction ss generalizing P with
  | nil => exact safe_mono h fun s o ho => ⟨by simp, ho⟩
  | cons s ss ih =>
    exact ih (P := fun s' o => s' ≠ s ∧ P s' o) (safe_mono h fun s' o ho => ⟨by simp [ho.2.1, ho.1], ho.2.2⟩)

/-- A sequence of launches. -/
theorem safe_launches {P : S → Op L V → Prop} (ls : List (S × Kernel L V)) {r : List (Act S L V)}
    (hr : NoRace (flat ls)) (hP : ∀ s p, P s p → ∀ o ∈ flat ls, ¬ Conflict p o)
    (h : Safe (fun s o => P s o ∨ ∃ e ∈ ls, e.1 = s ∧ o ∈ e.2) r) :
    Safe P ((ls.map fun e => Act.launch e.1 e.2) ++ r) := by
  induction ls generalizing P with
  | nil => exact safe_mono h fun s o ho => .inl ho
  | cons e ls ih =>
    have hr' : NoRace (e.2 ++ flat ls) := hr
    obtain ⟨r1, r2, r3⟩ := List.pairwise_append.mp hr'
    refine ⟨r1, fun s' _ p hp o ho => hP s' p hp o (by show o ∈ e.2 ++ flat ls; simp [ho]), ?_⟩
    refine ih r2 (fun s p hp o ho => ?_) (safe_mono h fun s o ho => ?_)
    · rcases hp with hp | hp
      · exact hP s p hp o (by show o ∈ e.2 ++ flat ls; simp [ho])
      · exact r3 p hp.2 o ho
    · rcases ho with (ho | ho) | ⟨x, hx, ho⟩
      · exact .inl ho
      · exact .inr ⟨e, List.mem_cons_self, ho.1.symm, ho.2⟩
      · exact .inr ⟨x, List.mem_cons_of_mem _ hx, ho⟩

theorem seq_syncs (ss : List S) (m : L → V) : seq (ss.map (Act.sync (L := L) (V := V))) m = m := by
  induction ss with
  | nil => rfl
  | cons s ss ih => exact ih

theorem seq_launches (ls : List (S × Kernel L V)) (m : L → V) :
    seq (ls.map fun e => Act.launch e.1 e.2) m = runOps (flat ls) m := by
  induction ls generalizing m with
  | nil => rfl
  | cons e ls ih =>
    show seq (ls.map fun e => Act.launch e.1 e.2) (runOps e.2 m) = runOps (e.2 ++ flat ls) m
    rw [ih, runOps_append]

/-! ### What threads without conflict do -/

theorem run_other (ops : List (Op L V)) (m : L → V) (l : L) (h : ∀ o ∈ ops, o.dst ≠ l) : runOps ops m l = m l := by
  induction ops generalizing m with
  | nil => rfl
  | cons o ops ih =>
    show runOps ops (o.run m) l = m l
    rw [ih _ fun p hp => h p (List.mem_cons_of_mem _ hp)]
    exact if_neg fun e => h o List.mem_cons_self e.symm

theorem run_written (ops : List (Op L V)) (hr : NoRace ops) (m : L → V) (o : Op L V) (ho : o ∈ ops) :
    runOps ops m o.dst = o.f (m o.src) := by
  induction ops generalizing m with
  | nil => cases ho
  | cons p ops ih =>
    obtain ⟨h1, h2⟩ := List.pairwise_cons.mp hr
    show runOps ops (p.run m) o.dst = _
    rcases List.mem_cons.mp ho with rfl | ho
    · rw [run_other]
      · exact if_pos rfl
      · intro q hq e; exact h1 q hq (.inl e.symm)
    · rw [ih h2 _ ho]
      have : ¬ o.src = p.dst := fun e => h1 o ho (.inr (.inl e.symm))
      rw [Op.run, if_neg this]

theorem run_congr (ops : List (Op L V)) (A : L → Prop) (h : ∀ o ∈ ops, A o.src) (m m' : L → V)
    (hm : ∀ l, A l → m l = m' l) : ∀ l, A l → runOps ops m l = runOps ops m' l := by
  induction ops generalizing m m' with
  | nil => exact hm
  | cons o ops ih =>
    refine ih (fun p hp => h p (List.mem_cons_of_mem _ hp)) _ _ fun l hl => ?_
    show (if l = o.dst then o.f (m o.src) else m l) = if l = o.dst then o.f (m' o.src) else m' l
    rw [hm _ (h o List.mem_cons_self), hm l hl]

end NDSL.Streams
