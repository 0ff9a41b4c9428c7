import Verif.Lemmas.NetCDF
/-
C58: every stored time step is written to disk exactly once.
-/
namespace NDSL.NetCDF

variable {T C : Type}

/-- What happens on one tile. -/
def project (tile : Nat) : List (Op T C) → List (LOp T C)
  | [] => []
  | .store t s :: ops => if t = tile then .store s :: project tile ops else project tile ops
  | .cleanup t :: ops => if t = tile then .cleanup :: project tile ops else project tile ops

theorem lstored_project (tile : Nat) (ops : List (Op T C)) :
    lstored (project tile ops) = stored tile ops := by
  induction ops with
  | nil => rfl
  | cons op ops ih =>
    cases op with
    | store t s =>
      simp only [project, stored]
      by_cases h : t = tile
      · simp only [h, if_true, lstored, ih]
      · simp only [h, if_false, ih]
    | cleanup t =>
      simp only [project, stored]
      by_cases h : t = tile
      · simp only [h, if_true, lstored, ih]
      · simp only [h, if_false, ih]

theorem project_split {tile : Nat} : ∀ (ops : List (Op T C)) (pre post : List (LOp T C)),
    project tile ops = pre ++ LOp.cleanup :: post → ∃ pre' post', ops = pre' ++ Op.cleanup tile :: post' ∧
      project tile pre' = pre ∧ project tile post' = post := by
  intro ops
  induction ops with
  | nil =>
    intro pre post e
    have := congrArg List.length e
    simp [project] at this
  | cons op ops ih =>
    intro pre post e
    cases op with
    | store t s =>
      simp only [project] at e
      by_cases ht : t = tile
      · rw [if_pos ht] at e
        cases pre with
        | nil => cases e
        | cons x pre =>
          rw [List.cons_append, List.cons.injEq] at e
          obtain ⟨p', q', e1, e2, e3⟩ := ih pre post e.2
          exact ⟨.store t s :: p', q', by rw [e1]; rfl, by simp only [project, if_pos ht, e2, e.1], e3⟩
      · rw [if_neg ht] at e
        obtain ⟨p', q', e1, e2, e3⟩ := ih pre post e
        exact ⟨.store t s :: p', q', by rw [e1]; rfl, by simp only [project, if_neg ht, e2], e3⟩
    | cleanup t =>
      simp only [project] at e
      by_cases ht : t = tile
      · rw [if_pos ht] at e
        cases pre with
        | nil =>
          rw [List.nil_append, List.cons.injEq] at e
          exact ⟨[], ops, by rw [ht]; rfl, rfl, e.2⟩
        | cons x pre =>
          rw [List.cons_append, List.cons.injEq] at e
          obtain ⟨p', q', e1, e2, e3⟩ := ih pre post e.2
          exact ⟨.cleanup t :: p', q', by rw [e1]; rfl, by simp only [project, if_pos ht, e2, e.1], e3⟩
      · rw [if_neg ht] at e
        obtain ⟨p', q', e1, e2, e3⟩ := ih pre post e
        exact ⟨.cleanup t :: p', q', by rw [e1]; rfl, by simp only [project, if_neg ht, e2], e3⟩

theorem late_project {c tile : Nat} {ops : List (Op T C)} (h : CleanupsLate c tile ops) :
    LLate c 0 (project tile ops) := by
  intro pre post e
  obtain ⟨p', q', e1, e2, e3⟩ := project_split ops pre post e
  have := h p' q' e1
  rw [← e2, ← e3, lstored_project, lstored_project, Nat.zero_add]
  exact this

theorem append_fs {c tile : Nat} {w w' : Writer T C} {fs fs' : FS T C} {s : St T C}
    (h : append c tile w fs s = .ok (w', fs')) (fs2 : FS T C) :
    (∃ fs2', append c tile w fs2 s = .ok (w', fs2') ∧ ∀ n, fs n = fs2 n → fs' n = fs2' n) ∧
      ∀ k t, t ≠ tile → fs' (fileName k t) = fs (fileName k t) := by
  unfold append at h ⊢
  cases hch : nextChunk c w.chunked s.fields with
  | error x => rw [hch] at h; cases h
  | ok ch =>
    rw [hch] at h
    by_cases hz : (w.iTime + 1) % c = 0
    · have h' := Except.ok.inj ((if_pos hz).symm.trans h)
      obtain ⟨h1, h2⟩ := Prod.mk.inj h'
      constructor
      · refine ⟨_, (if_pos hz).trans (congrArg Except.ok (Prod.ext h1 rfl)), ?_⟩
        intro n hn
        rw [← h2]
        simp only [flush]
        rw [hn]
      · intro k t ht
        rw [← h2]
        simp only [flush]
        rw [if_neg (fun c => ht (fileName_inj c).2)]
    · have h' := Except.ok.inj ((if_neg hz).symm.trans h)
      obtain ⟨h1, h2⟩ := Prod.mk.inj h'
      constructor
      · refine ⟨_, (if_neg hz).trans (congrArg Except.ok (Prod.ext h1 rfl)), ?_⟩
        intro n hn
        rw [← h2, hn]
      · intro k t ht
        rw [← h2]

theorem store_fs {c tile : Nat} {m m' : Monitor T C} {fs fs' : FS T C} {s : St T C}
    (h : store c tile m fs s = .ok (m', fs')) (fs2 : FS T C) :
    (∃ fs2', store c tile m fs2 s = .ok (m', fs2') ∧ ∀ n, fs n = fs2 n → fs' n = fs2' n) ∧
      ∀ k t, t ≠ tile → fs' (fileName k t) = fs (fileName k t) := by
  unfold store at h ⊢
  split at h
  · cases ha : append c tile m.writer fs s with
    | error x => rw [ha] at h; cases h
    | ok r =>
      obtain ⟨w, g⟩ := r
      rw [ha] at h
      obtain ⟨e1, e2⟩ := Prod.mk.inj (Except.ok.inj h)
      obtain ⟨⟨g2, h1, h2⟩, h3⟩ := append_fs ha fs2
      rw [h1]
      refine ⟨⟨g2, ?_, ?_⟩, ?_⟩
      · exact congrArg Except.ok (Prod.ext e1 rfl)
      · intro n hn; rw [← e2]; exact h2 n hn
      · intro k t ht; rw [← e2]; exact h3 k t ht
  · split at h
    · rename_i ks _ hset
      rw [if_pos hset]
      cases ha : append c tile m.writer fs s with
      | error x => rw [ha] at h; cases h
      | ok r =>
        obtain ⟨w, g⟩ := r
        rw [ha] at h
        obtain ⟨e1, e2⟩ := Prod.mk.inj (Except.ok.inj h)
        obtain ⟨⟨g2, h1, h2⟩, h3⟩ := append_fs ha fs2
        rw [h1]
        refine ⟨⟨g2, ?_, ?_⟩, ?_⟩
        · exact congrArg Except.ok (Prod.ext e1 rfl)
        · intro n hn; rw [← e2]; exact h2 n hn
        · intro k t ht; rw [← e2]; exact h3 k t ht
    · cases h

theorem cleanup_fs (c tile : Nat) (m : Monitor T C) (fs fs2 : FS T C) :
    (cleanup c tile m fs).1 = (cleanup c tile m fs2).1 ∧
      (∀ n, fs n = fs2 n → (cleanup c tile m fs).2 n = (cleanup c tile m fs2).2 n) ∧
      ∀ k t, t ≠ tile → (cleanup c tile m fs).2 (fileName k t) = fs (fileName k t) := by
  unfold cleanup flush
  cases hc : m.writer.chunked with
  | none =>
    simp only [hc]
    refine ⟨trivial, fun n hn => hn, fun k t _ => trivial⟩
  | some ch =>
    simp only [hc]
    refine ⟨trivial, ?_, ?_⟩
    · intro n hn; rw [hn]
    · intro k t ht
      rw [if_neg (fun c => ht (fileName_inj c).2)]

/-- What happens on a tile depends only on what is done there. -/
theorem run_project {c tile : Nat} (ops : List (Op T C)) :
    ∀ {y y' : Sys T C} {fs : FS T C}, ops.foldlM (step c) y = .ok y' →
      (∀ k, y.fs (fileName k tile) = fs (fileName k tile)) →
      ∃ fs', (project tile ops).foldlM (lstep c tile) (y.monitors tile, fs) =
        .ok (y'.monitors tile, fs') ∧ ∀ k, y'.fs (fileName k tile) = fs' (fileName k tile) := by
  induction ops with
  | nil => intro y y' fs h hfs; cases h; exact ⟨fs, rfl, hfs⟩
  | cons op ops ih =>
    intro y y' fs h hfs
    rw [List.foldlM_cons] at h
    cases op with
    | store t s =>
      cases hs : store c t (y.monitors t) y.fs s with
      | error x =>
        have : step c y (.store t s) = .error x := by simp only [step]; rw [hs]; rfl
        rw [this] at h; cases h
      | ok r =>
        obtain ⟨m, g⟩ := r
        have e : step c y (.store t s) = .ok ⟨fun u => if u = t then m else y.monitors u, g⟩ := by
          simp only [step]; rw [hs]; rfl
        rw [e] at h
        simp only [project]
        by_cases ht : t = tile
        · subst ht
          rw [if_pos rfl, List.foldlM_cons]
          obtain ⟨⟨g2, h1, h2⟩, _⟩ := store_fs hs fs
          have e2 : lstep c t (y.monitors t, fs) (.store s) = .ok (m, g2) := h1
          rw [e2]
          obtain ⟨fs', i1, i2⟩ := ih (fs := g2) h (fun k => h2 _ (hfs k))
          simp only [if_true] at i1
          exact ⟨fs', i1, i2⟩
        · rw [if_neg ht]
          obtain ⟨_, h3⟩ := store_fs hs fs
          obtain ⟨fs', i1, i2⟩ := ih (fs := fs) h
            (fun k => (h3 k tile (fun c => ht c.symm)).trans (hfs k))
          simp only [if_neg (fun c : tile = t => ht c.symm)] at i1
          exact ⟨fs', i1, i2⟩
    | cleanup t =>
      have e : step c y (.cleanup t) = .ok ⟨fun u => if u = t then
          (cleanup c t (y.monitors t) y.fs).1 else y.monitors u, (cleanup c t (y.monitors t) y.fs).2⟩ :=
        rfl
      rw [e] at h
      simp only [project]
      by_cases ht : t = tile
      · subst ht
        rw [if_pos rfl, List.foldlM_cons]
        obtain ⟨h1, h2, _⟩ := cleanup_fs c t (y.monitors t) y.fs fs
        have e2 : lstep c t (y.monitors t, fs) .cleanup = .ok (cleanup c t (y.monitors t) fs) := rfl
        rw [e2]
        obtain ⟨fs', i1, i2⟩ := ih (fs := (cleanup c t (y.monitors t) fs).2) h
          (fun k => h2 _ (hfs k))
        simp only [if_true] at i1
        rw [h1] at i1
        exact ⟨fs', i1, i2⟩
      · rw [if_neg ht]
        obtain ⟨_, _, h3⟩ := cleanup_fs c t (y.monitors t) y.fs fs
        obtain ⟨fs', i1, i2⟩ := ih (fs := fs) h
          (fun k => (h3 k tile (fun c => ht c.symm)).trans (hfs k))
        simp only [if_neg (fun c : tile = t => ht c.symm)] at i1
        exact ⟨fs', i1, i2⟩

theorem init_inv (c tile : Nat) (hc : 0 < c) :
    Inv c tile (Monitor.new : Monitor T C) (fun _ => none) [] [] [] := by
  refine ⟨rfl, fun b hb => absurd hb (List.not_mem_nil), hc, ?_, rfl, rfl, fun _ => rfl,
    fun c => absurd rfl c, ⟨fun _ => rfl, fun s0 rest h => (by cases h)⟩,
    fun s hs => absurd hs (List.not_mem_nil)⟩
  intro k
  simp

/-- States as they can be: the names of the fields are different, and none is the time. -/
def Proper (l : List (St T C)) : Prop :=
  ∀ s ∈ l, (s.fields.map (·.1)).Nodup ∧ dictGet s.fields "time" = none

/-- No clean-up closes an unfinished chunk. -/
theorem inv_run_strict {c tile : Nat} : ∀ (lops : List (LOp T C)) {m : Monitor T C} {fs : FS T C}
    {l : List (St T C)} {blocks p}, Inv c tile m fs l blocks p →
    (∀ pre post, lops = pre ++ LOp.cleanup :: post → c ∣ l.length + (lstored pre).length) →
    Proper (l ++ lstored lops) → ∀ {x}, lops.foldlM (lstep c tile) (m, fs) = .ok x →
      ∃ blocks p, Inv c tile x.1 x.2 (l ++ lstored lops) blocks p := by
  intro lops
  induction lops with
  | nil =>
    intro m fs l blocks p hi _ _ x hx
    cases hx
    exact ⟨blocks, p, by simpa [lstored] using hi⟩
  | cons op lops ih =>
    intro m fs l blocks p hi hlate hpr x hx
    rw [List.foldlM_cons] at hx
    cases op with
    | store s =>
      simp only [lstored] at hpr ⊢
      cases hs : lstep c tile (m, fs) (.store s) with
      | error e => rw [hs] at hx; cases hx
      | ok r =>
        rw [hs] at hx
        obtain ⟨b', p', h'⟩ := hi.store (hpr s (by simp)).1 (fun z hz => (hpr z (by
          rw [List.mem_append, List.mem_singleton] at hz
          rw [List.mem_append, List.mem_cons]
          rcases hz with hz | hz
          · exact .inl hz
          · exact .inr (.inl hz))).2) hs
        have := ih h' (by
          intro pre post e
          have := hlate (.store s :: pre) post (by rw [e]; rfl)
          simp only [lstored, List.length_cons] at this
          rw [List.length_append, List.length_cons, List.length_nil]
          have e : l.length + (0 + 1) + (lstored pre).length =
            l.length + ((lstored pre).length + 1) := by omega
          rw [e]; exact this) (by rw [List.append_assoc]; exact hpr) hx
        rw [List.append_assoc] at this
        exact this
    | cleanup =>
      simp only [lstored] at hpr ⊢
      obtain ⟨g1, _⟩ := hi.cleanup
      have hpn : p = [] := by
        have hd := hlate [] lops rfl
        simp only [lstored, List.length_nil, Nat.add_zero] at hd
        have hlen : l.length = c * blocks.length + p.length := by
          rw [hi.split, List.length_append, length_flatten_const hi.full]
        rw [hlen, Nat.dvd_add_right (Nat.dvd_mul_right _ _)] at hd
        apply Classical.byContradiction
        intro hne
        have := Nat.le_of_dvd (List.length_pos_iff.mpr hne) hd
        have := hi.short
        omega
      refine ih (g1 hpn) ?_ hpr hx
      intro pre post e
      exact hlate (.cleanup :: pre) post (by rw [e]; rfl)

theorem running_inv {c : Nat} (hc : 0 < c) {ops : List (Op T C)} {y : Sys T C} (h : run c ops = .ok y)
    {tile : Nat} (hp : Proper (stored tile ops))
    (hlate : ∀ pre post, ops = pre ++ Op.cleanup tile :: post → c ∣ (stored tile pre).length) :
    ∃ fs blocks p, Inv c tile (y.monitors tile) fs (stored tile ops) blocks p ∧
      ∀ k, y.fs (fileName k tile) = fs (fileName k tile) := by
  obtain ⟨fs', h1, h2⟩ := run_project (tile := tile) (fs := fun _ => none) ops h (fun _ => rfl)
  have hl2 : ∀ pre post, project tile ops = pre ++ LOp.cleanup :: post →
      c ∣ ([] : List (St T C)).length + (lstored pre).length := by
    intro pre post e
    obtain ⟨p', q', e1, e2, _⟩ := project_split ops pre post e
    have := hlate p' q' e1
    rw [← e2, lstored_project, List.length_nil, Nat.zero_add]
    exact this
  obtain ⟨blocks, p, hi⟩ := inv_run_strict (project tile ops) (init_inv c tile hc) hl2
    (by rw [List.nil_append, lstored_project]; exact hp) h1
  rw [List.nil_append, lstored_project] at hi
  exact ⟨fs', blocks, p, hi, h2⟩

/-- **C58**: at any moment, if there was no clean-up before a chunk was filled, the files of a tile
contain the states stored so far, in order, each exactly once, except the last ones, less than a
chunk; whatever happens on other tiles. -/
theorem C58_running {c : Nat} (hc : 0 < c) {ops : List (Op T C)} {y : Sys T C} (h : run c ops = .ok y)
    {tile : Nat} (hp : Proper (stored tile ops))
    (hlate : ∀ pre post, ops = pre ++ Op.cleanup tile :: post → c ∣ (stored tile pre).length) :
    ∃ (blocks : List (List (St T C))) (rest : List (St T C)),
      stored tile ops = blocks.flatten ++ rest ∧ (∀ b ∈ blocks, b.length = c) ∧ rest.length < c ∧
      ∀ k, match blocks[k]? with
        | none => y.fs (fileName k tile) = none
        | some b => ∃ f, y.fs (fileName k tile) = some f ∧ Contains f b := by
  obtain ⟨fs, blocks, p, hi, h2⟩ := running_inv hc h hp hlate
  refine ⟨blocks, p, hi.split, hi.full, hi.short, ?_⟩
  intro k
  rw [h2 k]
  exact hi.files k

/-- **C58**: after the final clean-up of a tile, its files contain all the states stored, in order,
each exactly once: all files but the last hold a full chunk, none is empty, and there are no others;
whatever happens on other tiles, and however often clean-up was called at the end or on full chunks. -/
theorem C58_final {c : Nat} (hc : 0 < c) {ops rest : List (Op T C)} {y : Sys T C} {tile : Nat}
    (h : run c (ops ++ Op.cleanup tile :: rest) = .ok y) (hp : Proper (stored tile ops))
    (hlate : CleanupsLate c tile (ops ++ Op.cleanup tile :: rest))
    (hrest : stored tile rest = []) :
    ∃ blocks : List (List (St T C)), blocks.flatten = stored tile ops ∧
      (∀ b ∈ blocks, b ≠ [] ∧ b.length ≤ c) ∧ (∀ b ∈ blocks.dropLast, b.length = c) ∧
      ∀ k, match blocks[k]? with
        | none => y.fs (fileName k tile) = none
        | some b => ∃ f, y.fs (fileName k tile) = some f ∧ Contains f b := by
  unfold run at h
  rw [List.foldlM_append] at h
  cases h0 : ops.foldlM (step c) ⟨fun _ => (Monitor.new : Monitor T C), fun _ => none⟩ with
  | error x => rw [h0] at h; cases h
  | ok y0 =>
    rw [h0] at h
    obtain ⟨fs0, h1, h2⟩ := run_project (tile := tile) (fs := fun _ => none) ops h0 (fun _ => rfl)
    have hl0 : CleanupsLate c tile ops := by
      intro pre post e
      rcases hlate pre (post ++ Op.cleanup tile :: rest) (by rw [e]; simp) with hd | hd
      · exact .inl hd
      · right
        have : ∀ a b : List (Op T C), stored tile (a ++ b) = stored tile a ++ stored tile b := by
          intro a b
          induction a with
          | nil => rfl
          | cons op a ih =>
            cases op with
            | store t s =>
              simp only [List.cons_append, stored]
              split
              · rw [ih]; rfl
              · exact ih
            | cleanup t => simp only [List.cons_append, stored]; exact ih
        rw [this] at hd
        exact (List.append_eq_nil_iff.mp hd).1
    have hres := inv_run (project tile ops) (init_inv c tile hc) (late_project hl0)
      (by rw [lstored_project]; exact fun s hs => (hp s hs).1)
      (by rw [List.nil_append, lstored_project]; exact fun s hs => (hp s hs).2) h1
    rw [List.nil_append, lstored_project] at hres
    -- the clean-up
    obtain ⟨fs', i1, i2⟩ := run_project (tile := tile) (fs := fs0) (Op.cleanup tile :: rest) h h2
    simp only [project, if_true] at i1
    have hdone : ∃ blocks, Done c tile (cleanup c tile (y0.monitors tile) fs0).1
        (cleanup c tile (y0.monitors tile) fs0).2 (stored tile ops) blocks := by
      rcases hres with ⟨b, p, hi⟩ | ⟨b, hd⟩
      · exact hi.cleanup.2
      · exact ⟨b, hd.cleanup⟩
    obtain ⟨blocks, hd⟩ := hdone
    rw [List.foldlM_cons] at i1
    have hd' := done_run (project tile rest) (by rw [lstored_project]; exact hrest) hd i1
    refine ⟨blocks, hd'.split, hd'.sizes, hd'.full, ?_⟩
    intro k
    rw [i2 k]
    exact hd'.files k

theorem appendAll_ok {c : Nat} {fields : List (String × Field C)} (hn : (fields.map (·.1)).Nodup) :
    ∀ {ch : List (String × Chunk C)}, (∀ e ∈ fields, ∃ k, dictGet ch e.1 = some k ∧
      e.2.dims.Perm k.dims ∧ k.data.length < c) → ∃ ch', fields.foldlM (appendVar c) ch = .ok ch' := by
  induction fields with
  | nil => intro ch _; exact ⟨ch, rfl⟩
  | cons e fields ih =>
    intro ch h
    rw [List.map_cons, List.nodup_cons] at hn
    obtain ⟨k, hk, hperm, hlen⟩ := h e List.mem_cons_self
    have e1 : appendVar c ch e = .ok (dictSet ch e.1 ⟨k.dims, k.data ++ [e.2.content]⟩) := by
      unfold appendVar
      rw [hk]
      simp only
      rw [if_pos (List.isPerm_iff.mpr hperm), if_pos hlen]
    rw [List.foldlM_cons, e1]
    apply ih hn.2
    intro e' he'
    obtain ⟨k', hk', r⟩ := h e' (List.mem_cons_of_mem _ he')
    refine ⟨k', ?_, r⟩
    rw [dictGet_set, if_neg, hk']
    intro c
    exact hn.1 (c ▸ List.mem_map.mpr ⟨e', he', rfl⟩)

/-- **C58**: storing states with the same names and dimensions never fails. -/
theorem C58_store_ok {c : Nat} (hc : 0 < c) {ops : List (Op T C)} {y : Sys T C} (h : run c ops = .ok y)
    {tile : Nat} {s : St T C} (hp : Proper (stored tile ops ++ [s]))
    (hu : Uniform (stored tile ops ++ [s]))
    (hlate : ∀ pre post, ops = pre ++ Op.cleanup tile :: post → c ∣ (stored tile pre).length) :
    ∃ y', step c y (.store tile s) = .ok y' := by
  obtain ⟨fs, blocks, p, hi, h2⟩ := running_inv hc h
    (fun x hx => hp x (List.mem_append.mpr (.inl hx))) hlate
  have hsmem : s ∈ stored tile ops ++ [s] := by simp
  have hchunk : ∃ ch, nextChunk c (y.monitors tile).writer.chunked s.fields = .ok ch := by
    unfold nextChunk
    cases hpe : p with
    | nil =>
      rw [hi.empty hpe]
      simp only
      rw [if_neg (by omega)]
      exact ⟨_, rfl⟩
    | cons s0 p' =>
      obtain ⟨ch, h3, h4⟩ := hi.holds (by rw [hpe]; simp)
      rw [h3]
      simp only
      apply appendAll_ok (hp s hsmem).1
      intro e he
      have hse : dictGet s.fields e.1 = some e.2 := dictGet_mem (hp s hsmem).1 he
      have hs0 : s0 ∈ stored tile ops ++ [s] := by
        rw [hi.split, hpe]; simp
      obtain ⟨q', hq', hperm⟩ := (hu.2 s hsmem s0 hs0).2.2 e.1 e.2 hse
      obtain ⟨data, hd, hm⟩ := (h4 s0 p' hpe e.1).2 q' hq'
      refine ⟨_, hd, hperm, ?_⟩
      have := congrArg List.length hm
      rw [List.length_map, List.length_map] at this
      show data.length < c
      rw [this]
      exact hi.short
  have happ : ∃ r, append c tile (y.monitors tile).writer y.fs s = .ok r := by
    obtain ⟨ch, hch⟩ := hchunk
    unfold append
    rw [hch]
    by_cases hz : ((y.monitors tile).writer.iTime + 1) % c = 0
    · exact ⟨_, if_pos hz⟩
    · exact ⟨_, if_neg hz⟩
  obtain ⟨r, hr⟩ := happ
  have hst : ∃ r', store c tile (y.monitors tile) y.fs s = .ok r' := by
    unfold store
    cases hl : stored tile ops with
    | nil =>
      rw [hi.expected.1 hl, hr]
      exact ⟨_, rfl⟩
    | cons s0 rest =>
      rw [hi.expected.2 s0 rest hl]
      simp only
      have hs0 : s0 ∈ stored tile ops ++ [s] := by rw [hl]; simp
      have hset : sameSet s0.keys s.keys = true := by
        unfold sameSet
        rw [Bool.and_eq_true, List.all_eq_true, List.all_eq_true]
        have hk := (hu.2 s0 hs0 s hsmem).1
        exact ⟨fun x hx => List.contains_iff_mem.mpr ((hk x).mp hx),
          fun x hx => List.contains_iff_mem.mpr ((hk x).mpr hx)⟩
      rw [if_pos hset, hr]
      exact ⟨_, rfl⟩
  obtain ⟨r', hr'⟩ := hst
  simp only [step]
  rw [hr']
  exact ⟨_, rfl⟩

/-- **C58**: a state with other names is rejected. -/
theorem C58_rejects {c tile : Nat} {m : Monitor T C} {fs : FS T C} {s : St T C} {ks : List String}
    (he : m.expected = some ks) (h : ¬ ∀ k, k ∈ ks ↔ k ∈ s.keys) :
    store c tile m fs s = .error .valueError := by
  unfold store
  rw [he]
  simp only
  rw [if_neg]
  intro hset
  apply h
  unfold sameSet at hset
  rw [Bool.and_eq_true, List.all_eq_true, List.all_eq_true] at hset
  exact fun k => ⟨fun hk => List.contains_iff_mem.mp (hset.1 k hk),
    fun hk => List.contains_iff_mem.mp (hset.2 k hk)⟩

/-! ### Examples -/

/-- A state at a time, with a field whose dimensions may be turned. -/
def stEx (t : Nat) (turned : Bool) : St Nat Nat :=
  ⟨some t, [("u", ⟨if turned then ["y", "x"] else ["x", "y"], 10 * t⟩)]⟩

/-- Two tiles with chunks of two states, three states on the first tile and one on the second. -/
def opsEx : List (Op Nat Nat) :=
  [.store 0 (stEx 1 false), .store 1 (stEx 7 false), .store 0 (stEx 2 true), .cleanup 0,
    .store 0 (stEx 3 true), .cleanup 0, .cleanup 1]

example : (run 2 opsEx).toOption.map (fun y => [y.fs (fileName 0 0), y.fs (fileName 1 0),
      y.fs (fileName 2 0), y.fs (fileName 0 1), y.fs (fileName 1 1)]) = some
    [some ⟨[some 1, some 2], [("u", ⟨["x", "y"], [10, 20]⟩)]⟩,
      some ⟨[some 3], [("u", ⟨["y", "x"], [30]⟩)]⟩, none,
      some ⟨[some 7], [("u", ⟨["x", "y"], [70]⟩)]⟩, none] := by decide +kernel

example : Proper (stored 0 opsEx) := by
  intro s hs
  have : s ∈ [stEx 1 false, stEx 2 true, stEx 3 true] := hs
  simp only [List.mem_cons, List.not_mem_nil, or_false] at this
  rcases this with rfl | rfl | rfl <;> exact ⟨by decide, by decide⟩

/-- The clean-ups of the first tile: one of a full chunk, one at the end. -/
example : CleanupsLate 2 0 opsEx := by
  intro pre post h
  have h3 : opsEx[pre.length]? = some (.cleanup 0) := by rw [h]; simp
  have h1 : pre = opsEx.take pre.length := by rw [h]; simp
  have h2 : post = opsEx.drop (pre.length + 1) := by rw [h]; simp
  have hn : pre.length < 7 := by
    have : opsEx.length = 7 := rfl
    rw [h] at this
    simp at this
    omega
  generalize pre.length = n at *
  subst h1 h2
  have : n = 3 ∨ n = 5 := by
    rcases n with _ | _ | _ | _ | _ | _ | _ | n
    all_goals first | omega | simp [opsEx] at h3
  rcases this with rfl | rfl
  · exact .inl ⟨1, rfl⟩
  · exact .inr rfl

/-- **C58 fails** after a clean-up of a chunk that is not full: the next states of that chunk replace
the file, so that the first state is lost. -/
theorem C58_cleanup_violated :
    (run 2 [.store 0 (stEx 1 false), .cleanup 0, .store 0 (stEx 2 false), .cleanup 0]).toOption.map
      (fun y => [y.fs (fileName 0 0), y.fs (fileName 1 0)]) =
        some [some ⟨[some 2], [("u", ⟨["x", "y"], [20]⟩)]⟩, none] := by decide +kernel

/-- A file in the middle of a run: nothing of an unfinished chunk. -/
example : (run 2 (opsEx.take 2)).toOption.map (fun y => y.fs (fileName 0 0)) = some none := by
  decide +kernel

example : fileName 3 12 = chars! "state_0003_tile12.nc" := by decide +kernel

end NDSL.NetCDF
