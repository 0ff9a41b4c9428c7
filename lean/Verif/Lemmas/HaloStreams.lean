import Verif.Lemmas.Streams
/-
The launches of a halo update: what they read and write, that they never conflict, and what they give.
-/
namespace NDSL.Streams

/-! ### Programs -/
section
variable {S L V : Type} [DecidableEq S] [DecidableEq L]

theorem noRace_of {ops : List (Op L V)} (h1 : (ops.map fun o => o.dst).Nodup)
    (h2 : ∀ a ∈ ops, ∀ b ∈ ops, a.dst ≠ b.src) : NoRace ops := by
  have h := List.pairwise_map.mp h1
  refine List.Pairwise.imp_of_mem (fun {a b} ha hb hne hc => ?_) h
  rcases hc with e | e | e
  · exact hne e
  · exact h2 a ha b hb e
  · exact h2 b hb a ha e

/-- The threads of a program. -/
def Does (p : List (Act S L V)) (s : S) (o : Op L V) : Prop := ∃ k, Act.launch s k ∈ p ∧ o ∈ k

theorem safe_frame {P Q : S → Op L V → Prop} (p : List (Act S L V)) {r : List (Act S L V)} (h : Safe Q p)
    (hn : ∀ s o, P s o → ∀ s' o', Does p s' o' → ¬ Conflict o o')
    (hr : Safe (fun s o => P s o ∨ after Q p s o) r) : Safe (fun s o => P s o ∨ Q s o) (p ++ r) := by
  induction p generalizing Q with
  | nil => exact hr
  | cons a p ih =>
    have hn' : ∀ s o, P s o → ∀ s' o', Does p s' o' → ¬ Conflict o o' :=
      fun s o ho s' o' ⟨k, hk, hok⟩ => hn s o ho s' o' ⟨k, List.mem_cons_of_mem _ hk, hok⟩
    cases a with
    | launch s k =>
      refine ⟨h.1, fun s' hs' p' hp' o ho => ?_, safe_mono (ih h.2.2 hn' hr) fun s' o ho => ?_⟩
      · rcases hp' with hp' | hp'
        · exact hn s' p' hp' s o ⟨k, List.mem_cons_self, ho⟩
        · exact h.2.1 s' hs' p' hp' o ho
      · rcases ho with (ho | ho) | ho
        · exact .inl ho
        · exact .inr (.inl ho)
        · exact .inr (.inr ho)
    | sync s =>
      show Safe (fun s' o => s' ≠ s ∧ (P s' o ∨ Q s' o)) (p ++ r)
      refine safe_mono (ih (Q := fun s' o => s' ≠ s ∧ Q s' o) h hn' hr) fun s' o ho => ?_
      exact ho.2.imp id fun h => ⟨ho.1, h⟩
    | syncAll =>
      show Safe (fun _ _ => False) (p ++ r)
      exact safe_mono (ih (Q := fun _ _ => False) h hn' hr) fun s' o ho => ho.elim

theorem after_sub {P : S → Op L V → Prop} (p : List (Act S L V)) (s : S) (o : Op L V) (h : after P p s o) :
    P s o ∨ Does p s o := by
  induction p generalizing P with
  | nil => exact .inl h
  | cons a p ih =>
    have up : Does p s o → Does (a :: p) s o := fun ⟨k, hk, ho⟩ => ⟨k, List.mem_cons_of_mem _ hk, ho⟩
    cases a with
    | launch s' k =>
      rcases ih h with (h | h) | h
      · exact .inl h
      · exact .inr ⟨k, by rw [h.1]; exact List.mem_cons_self, h.2⟩
      · exact .inr (up h)
    | sync s' =>
      rcases ih (P := fun t o => t ≠ s' ∧ P t o) h with h | h
      · exact .inl h.2
      · exact .inr (up h)
    | syncAll =>
      rcases ih (P := fun _ _ => False) h with h | h
      · exact h.elim
      · exact .inr (up h)

theorem safe_split {P : S → Op L V → Prop} {a b : List (Act S L V)} (h : Safe P (a ++ b)) :
    Safe P a ∧ Safe (after P a) b := by
  induction a generalizing P with
  | nil => exact ⟨trivial, h⟩
  | cons x a ih =>
    cases x with
    | launch s k => exact ⟨⟨h.1, h.2.1, (ih h.2.2).1⟩, (ih h.2.2).2⟩
    | sync s => exact ih (P := fun s' o => s' ≠ s ∧ P s' o) h
    | syncAll => exact ih (P := fun _ _ => False) h

theorem dirty_sub {D : S → Prop} (p : List (Act S L V)) (s : S) (h : dirty D p s) : D s ∨ ∃ k, Act.launch s k ∈ p := by
  induction p generalizing D with
  | nil => exact .inl h
  | cons a p ih =>
    cases a with
    | launch s' k =>
      rcases ih h with (h | h) | ⟨k', h⟩
      · exact .inl h
      · exact .inr ⟨k, by rw [h]; exact List.mem_cons_self⟩
      · exact .inr ⟨k', List.mem_cons_of_mem _ h⟩
    | sync s' =>
      rcases ih (D := fun t => t ≠ s' ∧ D t) h with h | ⟨k', h⟩
      · exact .inl h.2
      · exact .inr ⟨k', List.mem_cons_of_mem _ h⟩
    | syncAll =>
      rcases ih (D := fun _ => False) h with h | ⟨k', h⟩
      · exact h.elim
      · exact .inr ⟨k', List.mem_cons_of_mem _ h⟩

theorem dirty_syncs {D : S → Prop} (ss : List S) (s : S) (h : dirty D (ss.map (Act.sync (L := L) (V := V))) s) :
    D s ∧ s ∉ ss := by
  induction ss generalizing D with
  | nil => exact ⟨h, by simp⟩
  | cons s' ss ih =>
    have := ih (D := fun t => t ≠ s' ∧ D t) h
    exact ⟨this.1.2, by simp [this.1.1, this.2]⟩

/-- A stream that was synchronised is used only if something was launched since. -/
theorem dirty_since {D : S → Prop} (a b : List (Act S L V)) (ss : List S) (s : S)
    (h : dirty D (a ++ (ss.map Act.sync ++ b)) s) (hs : s ∈ ss) : ∃ k, Act.launch s k ∈ b := by
  rw [dirty_append, dirty_append] at h
  rcases dirty_sub b s h with h | h
  · exact absurd hs (dirty_syncs ss s h).2
  · exact h

/-- The streams that were not left in use have nothing pending when the host has finished. -/
theorem clean_stream {m0 : L → V} {p0 : List (Act S L V)} {τ : State S L V} (h : RaceFree p0)
    (hs : Steps (begin m0 p0) τ) (hend : τ.prog = []) (s : S) (hc : ¬ dirty (fun _ => False) p0 s) : τ.queue s = [] := by
  obtain ⟨G, P, D, hq, hseq, hpair, hrace, hsafe, hP, hD, hdirty⟩ := (inv_steps h hs).ex
  rw [hend] at hdirty
  rw [hq s, List.map_eq_nil_iff, List.filter_eq_nil_iff]
  intro e he hes
  have hes' : e.1 = s := by simpa using hes
  exact hc (hdirty s (by rw [← hes']; exact hD e he))

/-- Memory outside of what is written. -/
theorem seq_other (p : List (Act S L V)) (m : L → V) (l : L) (h : ∀ s o, Does p s o → o.dst ≠ l) : seq p m l = m l := by
  induction p generalizing m with
  | nil => rfl
  | cons a p ih =>
    have ih' := fun m => ih m fun s o ⟨k, hk, ho⟩ => h s o ⟨k, List.mem_cons_of_mem _ hk, ho⟩
    cases a with
    | launch s k =>
      show seq p (runOps k m) l = m l
      rw [ih', run_other]
      exact fun o ho => h s o ⟨k, List.mem_cons_self, ho⟩
    | sync s => exact ih' m
    | syncAll => exact ih' m

theorem seq_congr (p : List (Act S L V)) (A : L → Prop) (h : ∀ s o, Does p s o → A o.src) (m m' : L → V)
    (hm : ∀ l, A l → m l = m' l) : ∀ l, A l → seq p m l = seq p m' l := by
  induction p generalizing m m' with
  | nil => exact hm
  | cons a p ih =>
    have ih' := fun m m' => ih (fun s o ⟨k, hk, ho⟩ => h s o ⟨k, List.mem_cons_of_mem _ hk, ho⟩) m m'
    cases a with
    | launch s k =>
      exact ih' _ _ (run_congr k A (fun o ho => h s o ⟨k, List.mem_cons_self, ho⟩) m m' hm)
    | sync s => exact ih' m m' hm
    | syncAll => exact ih' m m' hm

/-- Running every launch at once is an execution, if what the host uses is not in use. -/
theorem steps_trans {a b c : State S L V} (h1 : Steps a b) (h2 : Steps b c) : Steps a c := by
  induction h2 with
  | refl => exact h1
  | tail _ s ih => exact .tail ih s

theorem steps_kernel (m : L → V) (q : S → List (Kernel L V)) (p : List (Act S L V)) (s : S) (k : Kernel L V) (rest) 
    (h : q s = k :: rest) : Steps ⟨m, q, p⟩ ⟨runOps k m, setQueue q s rest, p⟩ := by
  induction k generalizing m q with
  | nil => exact .tail .refl (.finish h)
  | cons o k ih =>
    have h1 : Step ⟨m, q, p⟩ ⟨o.run m, setQueue q s (k :: rest), p⟩ := .thread (pre := []) h
    have h2 := ih (o.run m) (setQueue q s (k :: rest)) (setQueue_self _ _ _)
    have e : setQueue (setQueue q s (k :: rest)) s rest = setQueue q s rest := by
      funext t; unfold setQueue; split <;> rfl
    rw [e] at h2
    exact steps_trans (.tail .refl h1) h2

/-- The queue allows the action at once. -/
def Free (q : S → List (Kernel L V)) : Act S L V → Prop
  | .launch s _ => q s = []
  | .sync s => q s = []
  | .syncAll => ∀ s, q s = []

theorem steps_seq (m : L → V) (q : S → List (Kernel L V)) (p r : List (Act S L V)) (h : ∀ a ∈ p, Free q a) :
    Steps ⟨m, q, p ++ r⟩ ⟨seq p m, q, r⟩ := by
  induction p generalizing m with
  | nil => exact .refl
  | cons a p ih =>
    have ih' := fun m => ih m fun a ha => h a (List.mem_cons_of_mem _ ha)
    have hf := h a List.mem_cons_self
    cases a with
    | launch s k =>
      have hf' : q s = [] := hf
      have h1 : Step ⟨m, q, .launch s k :: (p ++ r)⟩ ⟨m, setQueue q s (q s ++ [k]), p ++ r⟩ := .launch
      rw [hf'] at h1
      have h2 := steps_kernel m (setQueue q s ([] ++ [k])) (p ++ r) s k [] (setQueue_self _ _ _)
      have e : setQueue (setQueue q s ([] ++ [k])) s [] = q := by
        funext t; unfold setQueue; split
        · rename_i h; rw [h, hf']
        · rfl
      rw [e] at h2
      exact steps_trans (.tail .refl h1) (steps_trans h2 (ih' _))
    | sync s => exact steps_trans (.tail .refl (.sync hf)) (ih' m)
    | syncAll => exact steps_trans (.tail .refl (.syncAll hf)) (ih' m)

/-! ### Every execution ends -/

def cost (G : Pending S L V) : Nat := (G.map fun e => e.2.length + 1).sum

theorem cost_step {G : Pending S L V} {σ τ : State S L V}
    (hq : ∀ s, σ.queue s = (G.filter fun e => e.1 = s).map fun e => e.2) (hs : Step σ τ) :
    ∃ G' : Pending S L V, (∀ s, τ.queue s = (G'.filter fun e => e.1 = s).map fun e => e.2) ∧
      cost G' + work τ.prog + 1 = cost G + work σ.prog := by
  cases hs with
  | @launch m q s k p =>
    refine ⟨G ++ [(s, k)], fun s' => ?_, ?_⟩
    · simp only at hq
      rw [filter_mid, ← hq s']
      by_cases he : s' = s
      · subst he; simp [setQueue_self]
      · have he' : ¬ s = s' := fun e => he e.symm
        simp [setQueue_ne _ _ he, he']
    · simp [cost, work]; omega
  | @sync m q s p hemp => exact ⟨G, hq, by simp [work]; omega⟩
  | @syncAll m q p hemp => exact ⟨G, hq, by simp [work]; omega⟩
  | @thread m q p s pre o post rest hqs =>
    obtain ⟨A, B, rfl, hA, hrest⟩ := split_first ((hq s).symm.trans hqs)
    refine ⟨A ++ (s, pre ++ post) :: B, fun s' => ?_, by simp [cost]; omega⟩
    rw [filter_mid]
    show setQueue q s _ s' = _
    by_cases he : s' = s
    · subst he
      rw [setQueue_self, hrest]
      have : (A.filter fun e => e.1 = s') = [] := by
        rw [List.filter_eq_nil_iff]; intro e he'; simpa using hA e he'
      simp [this]
    · rw [setQueue_ne _ _ he]
      have := hq s'
      simp only at this
      rw [this, filter_mid]
      have he' : ¬ s = s' := fun e => he e.symm
      simp [he']
  | @finish m q p s rest hqs =>
    obtain ⟨A, B, rfl, hA, hrest⟩ := split_first ((hq s).symm.trans hqs)
    refine ⟨A ++ B, fun s' => ?_, by simp [cost]; omega⟩
    show setQueue q s rest s' = _
    by_cases he : s' = s
    · subst he
      rw [setQueue_self, hrest]
      have : (A.filter fun e => e.1 = s') = [] := by
        rw [List.filter_eq_nil_iff]; intro e he'; simpa using hA e he'
      simp [this]
    · rw [setQueue_ne _ _ he]
      have := hq s'
      simp only at this
      rw [this, filter_mid]
      have he' : ¬ s = s' := fun e => he e.symm
      simp [he']

theorem bounded {m0 : L → V} {p0 : List (Act S L V)} {n : Nat} {τ : State S L V} (h : StepsN n (begin m0 p0) τ) :
    ∃ G : Pending S L V, (∀ s, τ.queue s = (G.filter fun e => e.1 = s).map fun e => e.2) ∧
      n + (cost G + work τ.prog) = work p0 := by
  generalize hb : begin m0 p0 = σ at h
  induction h with
  | refl => subst hb; exact ⟨[], fun _ => rfl, by simp [cost, begin]⟩
  | tail _ s ih =>
    obtain ⟨G, hq, hc⟩ := ih hb
    obtain ⟨G', hq', hc'⟩ := cost_step hq s
    exact ⟨G', hq', by omega⟩

end
end NDSL.Streams
