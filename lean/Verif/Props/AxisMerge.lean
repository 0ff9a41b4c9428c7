import Verif.Lemmas.AxisMergeRename

/-! Properties C52 and C53: merging loops over an axis keeps the results, and the guards run each
body exactly on its original range. -/
namespace NDSL.AxisMerge

variable {V : Type} [Inhabited V]

/-! ### C53 -/

/-- **C53** (ranges): the iterations of a range are the values it stands for, each once. -/
theorem C53_iterations (r : Rng) (hs : 1 ≤ r.step) :
    (∀ i, i ∈ r.iters ↔ r.Has i) ∧ r.iters.Nodup :=
  ⟨mem_iters r hs, nodup_iters r hs⟩

/-- **C53** (no iteration is lost): the merged range contains both ranges. -/
theorem C53_covers (r1 r2 : Rng) (h1 : 1 ≤ r1.step) (h2 : 1 ≤ r2.step) (i : Int) :
    r1.Has i ∨ r2.Has i → (mergedRange r1 r2).Has i := by
  rintro (h | h)
  · exact (merged_has r1 r2 h1 i h).1
  · exact (merged_has r2 r1 h2 i h).2

open Classical in
/-- **C53**: in each iteration of the merged map, the children of a map with range `r` run exactly
if the iteration is one of `r`, and otherwise nothing happens. -/
theorem C53_guard (σ : Sched) (p : Nat) (r m : Rng) (hs : 1 ≤ r.step) (t : Tree V) (hb : t.NoBind p)
    (env : Env) (i : Int) (hi : m.Has i) (mem : Mem V) :
    (t.guardChildren ⟨p, r⟩ (m = r)).exec σ (env.set p i) mem =
      if r.Has i then t.exec σ (env.set p i) mem else mem := by
  have hg := guard_iff ⟨p, r⟩ (env.set p i) hs
  rw [show (env.set p i) (Guard.mk p r).p = i from set_self env p i] at hg
  rw [exec_guarded σ p r m hs t _ hb (fun e => by rw [set_self]; rw [← e]; exact hi)]
  by_cases h : r.Has i
  · rw [if_pos h, if_pos (hg.2 h)]
  · rw [if_neg h, if_neg (fun e => h (hg.1 e))]

theorem iters_sorted (r : Rng) (hs : 1 ≤ r.step) : r.iters.Pairwise (· < ·) := by
  unfold Rng.iters
  rw [List.pairwise_map]
  refine List.Pairwise.imp ?_ List.pairwise_lt_range
  intro a b hab
  have : (a : Int) * r.step < b * r.step := Int.mul_lt_mul_of_pos_right (by omega) (by omega)
  omega

/-- **C53**: a loop over the merged range with the guarded body does the same as the loop over the
original range, in the same order. -/
theorem C53_loop (σ : Sched) (p : Nat) (r m : Rng) (hs : 1 ≤ r.step) (hm : 1 ≤ m.step)
    (hin : ∀ i, r.Has i → m.Has i) (t : Tree V) (hb : t.NoBind p) (env : Env) (mem : Mem V) :
    runOrder ((t.guardChildren ⟨p, r⟩ (m = r)).exec σ) p env m.iters mem =
      runOrder (t.exec σ) p env r.iters mem := by
  have hf : (m.iters.filter fun i => Guard.holds (env.set p i) ⟨p, r⟩) = r.iters := by
    apply List.Perm.eq_of_pairwise (le := (· < ·)) _ ((iters_sorted m hm).filter _) (iters_sorted r hs)
      (filter_merged r m hs hm hin p env _ (List.Perm.refl _))
    intro a b _ _ h1 h2
    omega
  unfold runOrder
  rw [← hf, ← foldl_ite]
  apply List.foldl_ext
  intro mem' i hi
  have hi' := (mem_iters m hm i).1 hi
  exact exec_guarded σ p r m hs t _ hb (fun e => by rw [set_self]; rw [← e]; exact hi') mem'

/-! ### C52 -/

/-- **C52** (merge of two maps): two consecutive maps that the check allows to merge, over the same
or over different variables, do the same as the merged map, whatever the order of iterations — if
what is written is only accessed at the same index along the axis.

Missing from C52: the check of the code does not ensure the last condition (it looks only at reads
after writes, at first indices, and at data that have the axis), see the violations below. -/
theorem C52_merge_partial (σ : Sched) (hσ : σ.Fair) (isAxis : Nat → Bool) (axis p1 p2 : Nat)
    (r1 r2 : Rng) (h1 : 1 ≤ r1.step) (h2 : 1 ≤ r2.step) (b1 b2 rest t : Tree V)
    (hpw : Pointwise axis p1 (b1.append (b2.rename p2 p1)))
    (n1 : b1.NoBind p1) (n2 : b2.NoBind p2)
    (hv : p1 ≠ p2 → b1.Free p2 ∧ b2.Free p1 ∧ b2.NoGuard p2)
    (h : mergeMaps isAxis axis (.mapS p1 r1 b1 (.mapS p2 r2 b2 rest)) = some t) (env : Env)
    (mem : Mem V) :
    t.exec σ env mem = (Tree.mapS p1 r1 b1 (.mapS p2 r2 b2 rest)).exec σ env mem := by
  simp only [mergeMaps] at h
  split at h
  · rename_i hcond
    simp only [Option.some.injEq] at h
    subst h
    have hpw' : PW axis p1 (b1.outMemlets ++ (b2.rename p2 p1).outMemlets)
        (b1.inMemlets ++ (b2.rename p2 p1).inMemlets) := by
      simp only [Pointwise, out_append, in_append] at hpw
      exact hpw
    simp only [Tree.exec]
    by_cases e : p2 = p1
    · subst e
      have hr : b2.rename p2 p2 = b2 := by
        have hx : ∀ x : Ix, x.rename p2 p2 = x := by
          intro x
          cases x with
          | const c => rfl
          | var q o => simp only [Ix.rename]; split <;> simp_all
        have hm : ∀ m : Memlet, m.rename p2 p2 = m := by
          intro m
          cases m
          simp [Memlet.rename, hx]
        have hm' : (Memlet.rename p2 p2) = id := funext hm
        clear hpw hpw' hv hcond
        induction b2 with
        | done => rfl
        | tasklet t rest ih => simp only [Tree.rename, hm', List.map_id, ih n2]
        | ifS g b rest ihb ih => simp only [Tree.rename, ihb n2.1, ih n2.2]
        | mapS q r b rest ihb ih =>
          simp only [Tree.rename, ihb n2.2.1, ih n2.2.2, if_neg n2.1]
        | forS q r b rest ihb ih => simp only [Tree.rename, ihb n2.2.1, ih n2.2.2]
      rw [hr] at hpw'
      rw [exec_merge σ hσ axis p2 _ _ hpw' r1 r2 h1 h2 b1 b2
        ⟨fun m h => by simp [h], fun m h => by simp [h]⟩
        ⟨fun m h => by simp [h], fun m h => by simp [h]⟩ n1 n2]
    · obtain ⟨f1, f2, g2⟩ := hv (fun h => e h.symm)
      rw [exec_merge_rename σ hσ axis p1 p2 e r1 r2 h1 h2 b1 b2 hpw' n1 n2 f1 f2 g2]
  · cases h

/-- **C52** (dependent maps): two consecutive maps are never merged if the second reads what the first
writes, at another first index along the axis; in particular with an offset, where merging would change
what is read. -/
theorem C52_dependent_kept (isAxis : Nat → Bool) (axis p1 p2 : Nat) (r1 r2 : Rng) (b1 b2 rest : Tree V)
    (w r : Memlet) (hw : w ∈ b1.outMemlets) (hr : r ∈ b2.inMemlets) (hd : w.data = r.data)
    (x : Ix) (n : Nat) (hx : w.subset[axis]? = some (x, n)) (hne : ∀ n', r.subset[axis]? ≠ some (x, n')) :
    mergeMaps isAxis axis (.mapS p1 r1 b1 (.mapS p2 r2 b2 rest)) = none := by
  simp only [mergeMaps]
  rw [if_neg]
  intro h
  simp only [Bool.and_eq_true] at h
  have h2 := h.2
  unfold noDataDependencies at h2
  rw [List.all_eq_true] at h2
  have h3 := h2 w hw
  have hlen : ¬ w.subset.length ≤ axis := by
    intro hle
    rw [List.getElem?_eq_none hle] at hx
    cases hx
  rw [if_neg hlen, List.all_eq_true] at h3
  have h4 := h3 r hr
  rw [if_pos hd, decide_eq_true_eq] at h4
  unfold Memlet.axisIndex at h4
  rw [hx] at h4
  cases hs : r.subset[axis]? with
  | none => rw [hs] at h4; cases h4
  | some q =>
    rw [hs] at h4
    simp only [Option.map_some, Option.some.injEq] at h4
    exact hne q.2 (by rw [hs, h4])

/-- `b[i] = a[i]`, then `c[i] = b[i + 1]`. -/
example : mergeMaps (fun _ => true) 0 (.mapS 1 ⟨0, 3, 1⟩
    (.tasklet ⟨[⟨0, [(.var 1 0, 1)]⟩], [⟨1, [(.var 1 0, 1)]⟩], fun i _ _ => i 0 [0]⟩ .done)
    (.mapS 1 ⟨0, 3, 1⟩
      (.tasklet ⟨[⟨1, [(.var 1 1, 1)]⟩], [⟨2, [(.var 1 0, 1)]⟩], fun i _ _ => i 0 [0]⟩ .done)
      (.done : Tree Int))) = none :=
  C52_dependent_kept _ 0 _ _ _ _ _ _ _ ⟨1, [(.var 1 0, 1)]⟩ ⟨1, [(.var 1 1, 1)]⟩ (by simp [Tree.outMemlets])
    (by simp [Tree.inMemlets]) rfl (.var 1 0) 1 rfl (by simp)

/-- **C52** (merge of two maps, with the check): two consecutive maps over the same variable that the
check allows to merge do the same as the merged map, if each of them accesses what it writes at one index
along the axis, the second writes nothing that the first accesses, and what the second reads of the
first's results has the axis as a single index.  Here it is the check that rules out dependencies between
different iterations. -/
theorem C52_merge_checked_partial (σ : Sched) (hσ : σ.Fair) (isAxis : Nat → Bool) (axis p : Nat)
    (r1 r2 : Rng) (h1 : 1 ≤ r1.step) (h2 : 1 ≤ r2.step) (b1 b2 rest t : Tree V)
    (hp1 : Pointwise axis p b1) (hp2 : Pointwise axis p b2)
    (hw2 : ∀ w ∈ b2.outMemlets, ∀ m ∈ b1.outMemlets ++ b1.inMemlets, w.data ≠ m.data)
    (hsingle : ∀ w ∈ b1.outMemlets, ∀ m ∈ b2.inMemlets, w.data = m.data → ∃ x, m.subset[axis]? = some (x, 1))
    (n1 : b1.NoBind p) (n2 : b2.NoBind p)
    (h : mergeMaps isAxis axis (.mapS p r1 b1 (.mapS p r2 b2 rest)) = some t) (env : Env)
    (mem : Mem V) :
    t.exec σ env mem = (Tree.mapS p r1 b1 (.mapS p r2 b2 rest)).exec σ env mem := by
  have hr : b2.rename p p = b2 := by
    have hx : ∀ x : Ix, x.rename p p = x := by
      intro x
      cases x with
      | const c => rfl
      | var q o => simp only [Ix.rename]; split <;> simp_all
    have hm : ∀ m : Memlet, m.rename p p = m := by
      intro m
      cases m
      simp [Memlet.rename, hx]
    have hm' : (Memlet.rename p p) = id := funext hm
    clear hp2 hw2 hsingle h
    induction b2 with
    | done => rfl
    | tasklet t rest ih => simp only [Tree.rename, hm', List.map_id, ih n2]
    | ifS g b rest ihb ih => simp only [Tree.rename, ihb n2.1, ih n2.2]
    | mapS q r b rest ihb ih =>
      simp only [Tree.rename, ihb n2.2.1, ih n2.2.2, if_neg n2.1]
    | forS q r b rest ihb ih => simp only [Tree.rename, ihb n2.2.1, ih n2.2.2]
  refine C52_merge_partial σ hσ isAxis axis p p r1 r2 h1 h2 b1 b2 rest t ?_ n1 n2 (fun e => absurd rfl e) h env mem
  rw [hr]
  intro w hw m hm hd
  rw [out_append, List.mem_append] at hw
  rw [out_append, in_append] at hm
  simp only [List.mem_append] at hm
  rcases hw with hw | hw
  · rcases hm with (hm | hm) | (hm | hm)
    · exact hp1 w hw m (List.mem_append.2 (Or.inl hm)) hd
    · exact absurd hd.symm (hw2 m hm w (List.mem_append.2 (Or.inl hw)))
    · exact hp1 w hw m (List.mem_append.2 (Or.inr hm)) hd
    · obtain ⟨off, ho, _⟩ := hp1 w hw w (List.mem_append.2 (Or.inl hw)) rfl
      refine ⟨off, ho, ?_⟩
      by_contra hne
      obtain ⟨x, hx⟩ := hsingle w hw m hm hd
      have hk := C52_dependent_kept isAxis axis p p r1 r2 b1 b2 rest w m hw hm hd (.var p off) 1 ho (by
        intro n' hn'
        rw [hx] at hn'
        simp only [Option.some.injEq, Prod.mk.injEq] at hn'
        apply hne
        rw [hx, hn'.1])
      rw [hk] at h
      cases h
  · rcases hm with (hm | hm) | (hm | hm)
    · exact absurd hd (hw2 w hw m (List.mem_append.2 (Or.inl hm)))
    · exact hp2 w hw m (List.mem_append.2 (Or.inl hm)) hd
    · exact absurd hd (hw2 w hw m (List.mem_append.2 (Or.inr hm)))
    · exact hp2 w hw m (List.mem_append.2 (Or.inr hm)) hd

/-- `b[i] = a[i]`, then `c[i] = b[i]`. -/
example : let b1 : Tree Int := .tasklet ⟨[⟨0, [(.var 1 0, 1)]⟩], [⟨1, [(.var 1 0, 1)]⟩], fun i _ _ => i 0 [0]⟩ .done
    let b2 : Tree Int := .tasklet ⟨[⟨1, [(.var 1 0, 1)]⟩], [⟨2, [(.var 1 0, 1)]⟩], fun i _ _ => i 0 [0]⟩ .done
    Pointwise 0 1 b1 ∧ Pointwise 0 1 b2 ∧
    (∀ w ∈ b2.outMemlets, ∀ m ∈ b1.outMemlets ++ b1.inMemlets, w.data ≠ m.data) ∧
    (∀ w ∈ b1.outMemlets, ∀ m ∈ b2.inMemlets, w.data = m.data → ∃ x, m.subset[0]? = some (x, 1)) ∧
    (mergeMaps (fun _ => true) 0 (.mapS 1 ⟨0, 3, 1⟩ b1 (.mapS 1 ⟨0, 4, 1⟩ b2 .done))).isSome = true := by
  simp [Pointwise, SameIndex, Tree.outMemlets, Tree.inMemlets, mergeMaps, noDataDependencies, Memlet.axisIndex]

/-- **C52** (the whole optimisation): for every tree of the shape stencils give, in which what is
written is only accessed at the same index along the axis, the optimised tree computes the same as
the original one, for every input, whatever the orders in which the maps over the axis run before
and after.

Missing from C52: trees where a written datum is accessed at different indices along the axis or
does not have the axis, trees with tasklets beside maps, and axes with several variables. For these
the optimisation can change results, see the violations below. -/
theorem C52_pass_partial (σ σ' : Sched) (hσ : σ.Fair) (hσ' : σ'.Fair) (isAxis : Nat → Bool)
    (axis p n : Nat) (hax : ∀ q, isAxis q = true → q = p) (hne : ∀ q, q ≠ p → σ q = σ' q)
    (t : Tree V) (hl : t.Layered p n) (hpw : Pointwise axis p t) (fuel passes : Nat) (env : Env)
    (mem : Mem V) :
    (mergeRoot isAxis axis fuel passes t).exec σ' env mem = t.exec σ env mem := by
  have k := keeps_root σ hσ isAxis axis p n hax t.outMemlets t.inMemlets hpw fuel passes t hl
    ⟨fun m h => h, fun m h => h⟩
  rw [← k.same env mem]
  exact (exec_sched σ σ' hσ hσ' axis p hne t.outMemlets t.inMemlets hpw _ n env mem k.layered
    k.within).symm

/-! ### Pushing a tasklet into a map -/

theorem writeOuts_covered {V : Type} (env : Env) (val : Nat → List Int → V) (c : Cell) (ms : List Memlet) :
    ∀ (n : Nat) (mem mem' : Mem V), (∃ m ∈ ms, m.covers env c = true) →
      writeOuts env val ms n mem c = writeOuts env val ms n mem' c := by
  induction ms with
  | nil => rintro n mem mem' ⟨m, hm, _⟩; simp at hm
  | cons m ms ih =>
    intro n mem mem' h
    by_cases h' : ∃ m ∈ ms, m.covers env c = true
    · simp only [writeOuts]; exact ih _ _ _ h'
    · obtain ⟨m', hm', hc⟩ := h
      rw [List.mem_cons] at hm'
      rcases hm' with rfl | hm'
      · simp only [writeOuts]
        apply writeOuts_agree
        simp only [Memlet.covers, Bool.and_eq_true, decide_eq_true_eq] at hc
        rw [if_pos hc.1, if_pos hc.1]
        obtain ⟨r, hr⟩ := Option.isSome_iff_exists.1 hc.2
        rw [hr]
      · exact absurd ⟨m', hm', hc⟩ h'

theorem tasklet_idem (t : Tasklet V) (env : Env) (mem : Mem V)
    (h : ∀ m ∈ t.outs, ∀ m' ∈ t.ins, m.data ≠ m'.data) :
    t.exec env (t.exec env mem) = t.exec env mem := by
  have hin : input env (t.exec env mem) t.ins = input env mem t.ins := by
    funext n rel
    unfold input
    cases e : t.ins[n]? with
    | none => rfl
    | some m =>
      simp only
      split
      · apply tasklet_frame
        rintro ⟨w, hw, hc⟩
        have := (covers_at env 0 0 0 w _ hc).1
        exact h w hw m (List.mem_of_getElem? e) this.symm
      · rfl
  funext c
  by_cases hc : ∃ m ∈ t.outs, m.covers env c = true
  · have : t.exec env (t.exec env mem) = writeOuts env (t.f (input env (t.exec env mem) t.ins))
        t.outs 0 (t.exec env mem) := rfl
    rw [this, hin]
    exact writeOuts_covered env _ c t.outs 0 _ _ hc
  · rw [tasklet_frame _ _ _ _ hc]

/-- **C52** (tasklets): a tasklet moved into the map that follows it gives the same result if the
map has an iteration, the tasklet does not mention the map's variable nor read what it writes, and
the map writes nothing the tasklet reads or writes.

Missing: the code checks none of these, see the violations below. -/
theorem C52_push_partial (σ : Sched) (hσ : σ.Fair) (p : Nat) (r : Rng) (hr : r.iters ≠ [])
    (tk : Tasklet V) (body rest t : Tree V) (hf : (Tree.tasklet tk .done).Free p)
    (hi : ∀ m ∈ tk.outs, ∀ m' ∈ tk.ins, m.data ≠ m'.data)
    (hw : ∀ m ∈ body.outMemlets, ∀ m' ∈ tk.ins ++ tk.outs, m.data ≠ m'.data)
    (h : pushTasklet (.tasklet tk (.mapS p r body rest)) = some t) (env : Env) (mem : Mem V) :
    t.exec σ env mem = (Tree.tasklet tk (.mapS p r body rest)).exec σ env mem := by
  simp only [pushTasklet, Option.some.injEq] at h
  subst h
  have free : ∀ i m, tk.exec (env.set p i) m = tk.exec env m := fun i m =>
    exec_free σ p (.tasklet tk .done) hf env i m
  have hdata : ∀ (t : Tree V) (env : Env) (c : Cell), t.Writes env c →
      ∃ m ∈ t.outMemlets, c.1 = m.data := by
    intro t
    induction t with
    | done => intro env c h; exact h.elim
    | tasklet t rest ih =>
      rintro env c (⟨m, hm, hc⟩ | h)
      · exact ⟨m, by simp [Tree.outMemlets, hm], (covers_at env 0 0 0 m c hc).1⟩
      · obtain ⟨m, hm, hc⟩ := ih env c h; exact ⟨m, by simp [Tree.outMemlets, hm], hc⟩
    | ifS g body rest ihb ih =>
      rintro env c (h | h)
      · obtain ⟨m, hm, hc⟩ := ihb env c h; exact ⟨m, by simp [Tree.outMemlets, hm], hc⟩
      · obtain ⟨m, hm, hc⟩ := ih env c h; exact ⟨m, by simp [Tree.outMemlets, hm], hc⟩
    | mapS q r body rest ihb ih =>
      rintro env c (⟨i, h⟩ | h)
      · obtain ⟨m, hm, hc⟩ := ihb _ c h; exact ⟨m, by simp [Tree.outMemlets, hm], hc⟩
      · obtain ⟨m, hm, hc⟩ := ih env c h; exact ⟨m, by simp [Tree.outMemlets, hm], hc⟩
    | forS q r body rest ihb ih =>
      rintro env c (⟨i, h⟩ | h)
      · obtain ⟨m, hm, hc⟩ := ihb _ c h; exact ⟨m, by simp [Tree.outMemlets, hm], hc⟩
      · obtain ⟨m, hm, hc⟩ := ih env c h; exact ⟨m, by simp [Tree.outMemlets, hm], hc⟩
  -- the body keeps the tasklet's work
  have fix : ∀ i m, tk.exec env m = m →
      tk.exec env (body.exec σ (env.set p i) m) = body.exec σ (env.set p i) m := by
    intro i m hm
    funext c
    by_cases hc : body.Writes (env.set p i) c
    · apply tasklet_frame
      rintro ⟨m', hm', hcov⟩
      obtain ⟨w, hwm, hwd⟩ := hdata body _ c hc
      exact hw w hwm m' (by simp [hm']) (by rw [← hwd]; exact (covers_at env 0 0 0 m' c hcov).1)
    · have := tasklet_agree tk env (fun c => ¬ body.Writes (env.set p i) c) m
        (body.exec σ (env.set p i) m)
        (by
          rintro c ⟨m', hm', hcov⟩ hwc
          obtain ⟨w, hwm, hwd⟩ := hdata body _ c hwc
          exact hw w hwm m' (by simp [hm']) (by rw [← hwd]; exact (covers_at env 0 0 0 m' c hcov).1))
        (fun c hcw => (exec_frame σ body _ m c hcw).symm) c hc
      rw [← this, hm, exec_frame σ body _ m c hc]
  have hne : σ p r.iters ≠ [] := by
    intro e
    have := hσ p r.iters
    rw [e] at this
    exact hr this.symm.eq_nil
  simp only [Tree.exec]
  congr 1
  have step : ∀ (l : List Int) (m : Mem V), tk.exec env m = m →
      runOrder ((Tree.tasklet tk body).exec σ) p env l m = runOrder (body.exec σ) p env l m := by
    intro l
    induction l with
    | nil => intros; rfl
    | cons i l ih =>
      intro m hm
      have := ih _ (fix i m hm)
      simp only [runOrder, List.foldl_cons, Tree.exec, free] at this ⊢
      rw [hm, this]
  cases hs : σ p r.iters with
  | nil => exact absurd hs hne
  | cons i l =>
    have hid := tasklet_idem tk env mem hi
    have := step l _ (fix i _ hid)
    simp only [runOrder, List.foldl_cons, Tree.exec, free] at this ⊢
    rw [this]

/-! ### Cases -/

/-- Maps run in increasing order. -/
def ascending : Sched := fun _ l => l

/-- Maps over variable 1 run in decreasing order. -/
def descending1 : Sched := fun q l => if q = 1 then l.reverse else l

theorem ascending_fair : ascending.Fair := fun _ _ => List.Perm.refl _

theorem descending1_fair : descending1.Fair := by
  intro q l
  unfold descending1
  split
  · exact List.reverse_perm l
  · exact List.Perm.refl l

/-- A tasklet that copies its input. -/
def copyT (src dst : List (Ix × Nat)) (a b : Nat) : Tasklet Int :=
  ⟨[⟨a, src⟩], [⟨b, dst⟩], fun i _ r => i 0 r⟩

/-- The point `variable 1 + off`. -/
def pt (off : Int) : List (Ix × Nat) := [(.var 1 off, 1)]

def startMem : Mem Int := fun c => 100 * c.1 + c.2.foldl (fun a i => 10 * a + i) 0

def isVar1 (q : Nat) : Bool := q == 1

/-- Two maps over variable 1 with different ranges, the second with step 2, the first with an inner
map over variable 2, then a loop around another map. -/
def goodTree : Tree Int :=
  .mapS 1 ⟨0, 4, 1⟩ (.mapS 2 ⟨0, 1, 1⟩ (.tasklet (copyT [(.var 1 0, 1), (.var 2 3, 1)]
      [(.var 1 0, 1), (.var 2 0, 1)] 0 1) .done) .done)
    (.mapS 1 ⟨2, 6, 2⟩ (.mapS 2 ⟨0, 1, 1⟩ (.tasklet ⟨[⟨1, [(.var 1 0, 1), (.var 2 (-1), 2)]⟩],
        [⟨2, [(.var 1 0, 1), (.var 2 0, 1)]⟩], fun i _ _ => i 0 [0, 0] + i 0 [0, 1]⟩ .done) .done)
      (.forS 3 ⟨0, 2, 1⟩ (.mapS 1 ⟨0, 4, 1⟩ (.mapS 2 ⟨0, 1, 1⟩ (.tasklet
        (copyT [(.var 1 0, 1), (.var 3 0, 1)] [(.var 1 0, 1), (.var 3 1, 1)] 2 2) .done) .done) .done)
        .done))

/-- The hypotheses of `C52_pass_partial` hold of a non-trivial tree … -/
example : goodTree.Layered 1 2 ∧ Pointwise 0 1 goodTree := by
  constructor
  · simp [goodTree, Tree.Layered, Tree.NoBind]
  · have h : ∀ w ∈ goodTree.outMemlets, ∀ m ∈ goodTree.outMemlets ++ goodTree.inMemlets,
        w.subset[0]? = some (Ix.var 1 0, 1) ∧ m.subset[0]? = some (Ix.var 1 0, 1) := by decide
    exact fun w hw m hm _ => ⟨0, h w hw m hm⟩

/-- … which the optimisation does change: there is one map over variable 1 in the end. -/
example : (match mergeRoot isVar1 0 20 10 goodTree with
    | .mapS 1 r _ .done => decide (r = ⟨0, 6, 1⟩)
    | _ => false) = true := by decide +kernel

example : ((mergeRoot isVar1 0 20 10 goodTree).exec descending1 (fun _ => 0) startMem (2, [4, 2])) =
    goodTree.exec ascending (fun _ => 0) startMem (2, [4, 2]) := by decide +kernel

example : (Rng.mk 2 7 2).iters = [2, 4, 6] ∧ mergedRange ⟨2, 7, 2⟩ ⟨0, 3, 1⟩ = ⟨0, 7, 1⟩ := by decide

/-- The hypotheses of `C52_merge_partial` hold for maps over different variables. -/
example : ∃ (b1 b2 t : Tree Int), Pointwise 0 1 (b1.append (b2.rename 5 1)) ∧ b1.NoBind 1 ∧
    b2.NoBind 5 ∧ (b1.Free 5 ∧ b2.Free 1 ∧ b2.NoGuard 5) ∧
    mergeMaps (fun _ => true) 0 (.mapS 1 ⟨0, 4, 1⟩ b1 (.mapS 5 ⟨2, 6, 2⟩ b2 .done)) = some t := by
  refine ⟨.tasklet (copyT (pt 1) (pt 0) 0 1) .done,
    .tasklet (copyT [(.var 5 2, 1)] [(.var 5 0, 1)] 0 2) .done, _, ?_, trivial, trivial, ?_, rfl⟩
  · have h : ∀ w ∈ [Memlet.mk 1 (pt 0), ⟨2, pt 0⟩],
        ∀ m ∈ [Memlet.mk 1 (pt 0), ⟨2, pt 0⟩, ⟨0, pt 1⟩, ⟨0, pt 2⟩], w.data = m.data →
        w.subset[0]? = some (Ix.var 1 0, 1) ∧ m.subset[0]? = some (Ix.var 1 0, 1) := by decide
    exact fun w hw m hm hd => ⟨0, h w hw m hm hd⟩
  · refine ⟨⟨trivial, trivial, ?_⟩, ⟨trivial, trivial, ?_⟩, trivial⟩ <;>
      · intro m hm s hs off
        simp [copyT, pt, Tree.outMemlets, Tree.inMemlets] at hm
        rcases hm with rfl | rfl <;> simp at hs <;> subst hs <;> simp

/-- The hypotheses of `C52_push_partial` hold: `x = 7` before a map that uses `x`. -/
example : ∃ (tk : Tasklet Int) (body : Tree Int), (Tree.tasklet tk .done).Free 1 ∧
    (∀ m ∈ tk.outs, ∀ m' ∈ tk.ins, m.data ≠ m'.data) ∧
    (∀ m ∈ body.outMemlets, ∀ m' ∈ tk.ins ++ tk.outs, m.data ≠ m'.data) ∧
    (Rng.mk 0 3 1).iters ≠ [] ∧
    (Tree.tasklet tk (.mapS 1 ⟨0, 3, 1⟩ body .done)).exec ascending (fun _ => 0) startMem (2, [3]) = 10 :=
  ⟨⟨[], [⟨1, []⟩], fun _ _ _ => 7⟩,
    .tasklet ⟨[⟨1, []⟩, ⟨0, pt 0⟩], [⟨2, pt 0⟩], fun i _ _ => i 0 [] + i 1 [0]⟩ .done,
    ⟨trivial, trivial, by
      intro m hm s hs off
      simp [Tree.outMemlets, Tree.inMemlets] at hm
      subst hm
      simp at hs⟩,
    by simp, by simp [Tree.outMemlets], by decide, by decide +kernel⟩

/-! ### Violations -/

/-- **C52 fails** (write after read): the first map reads the neighbour, the second overwrites it.
Merged, the neighbour is overwritten before it is read. -/
def warTree : Tree Int :=
  .mapS 1 ⟨1, 3, 1⟩ (.tasklet (copyT (pt (-1)) (pt 0) 0 1) .done)
    (.mapS 1 ⟨1, 3, 1⟩ (.tasklet (copyT (pt 0) (pt 0) 2 0) .done) .done)

theorem C52_write_after_read_violated :
    (mergeRoot isVar1 0 10 5 warTree).exec ascending (fun _ => 0) startMem (1, [2]) ≠
      warTree.exec ascending (fun _ => 0) startMem (1, [2]) := by decide +kernel

/-- **C52 fails** (write after write). -/
def wawTree : Tree Int :=
  .mapS 1 ⟨0, 1, 1⟩ (.tasklet (copyT (pt 0) (pt 0) 1 0) .done)
    (.mapS 1 ⟨0, 1, 1⟩ (.tasklet (copyT (pt 0) (pt 1) 2 0) .done) .done)

theorem C52_write_after_write_violated :
    (mergeRoot isVar1 0 10 5 wawTree).exec ascending (fun _ => 0) startMem (0, [1]) ≠
      wawTree.exec ascending (fun _ => 0) startMem (0, [1]) := by decide +kernel

/-- **C52 fails** (read after write of a field without the axis): the second map reads the value
the first one leaves; merged, it reads the value of the current iteration. The axis is the second
dimension, the written field has only the first. -/
def lowDimTree : Tree Int :=
  .mapS 1 ⟨0, 2, 1⟩ (.tasklet ⟨[⟨0, [(.const 0, 1), (.var 1 0, 1)]⟩], [⟨1, [(.const 0, 1)]⟩],
      fun i _ _ => i 0 [0, 0]⟩ .done)
    (.mapS 1 ⟨0, 2, 1⟩ (.tasklet ⟨[⟨1, [(.const 0, 1)]⟩], [⟨2, [(.const 0, 1), (.var 1 0, 1)]⟩],
      fun i _ _ => i 0 [0]⟩ .done) .done)

theorem C52_lower_dimension_violated :
    (mergeRoot isVar1 1 10 5 lowDimTree).exec ascending (fun _ => 0) startMem (2, [0, 0]) ≠
      lowDimTree.exec ascending (fun _ => 0) startMem (2, [0, 0]) := by decide +kernel

/-- **C52 fails** (read after write of a wider region): only the first indices are compared. -/
def wideTree : Tree Int :=
  .mapS 1 ⟨0, 2, 1⟩ (.tasklet (copyT (pt 0) (pt 0) 0 1) .done)
    (.mapS 1 ⟨0, 2, 1⟩ (.tasklet ⟨[⟨1, [(.var 1 0, 2)]⟩], [⟨2, pt 0⟩],
      fun i _ _ => i 0 [0] + i 0 [1]⟩ .done) .done)

theorem C52_wide_read_violated :
    (mergeRoot isVar1 0 10 5 wideTree).exec ascending (fun _ => 0) startMem (2, [0]) ≠
      wideTree.exec ascending (fun _ => 0) startMem (2, [0]) := by decide +kernel

/-- **C52 fails** (read after write at a fixed index). -/
def fixedTree : Tree Int :=
  .mapS 1 ⟨0, 2, 1⟩ (.tasklet (copyT (pt 0) [(.const 0, 1)] 0 1) .done)
    (.mapS 1 ⟨0, 2, 1⟩ (.tasklet (copyT [(.const 0, 1)] (pt 0) 1 2) .done) .done)

theorem C52_fixed_index_violated :
    (mergeRoot isVar1 0 10 5 fixedTree).exec ascending (fun _ => 0) startMem (2, [0]) ≠
      fixedTree.exec ascending (fun _ => 0) startMem (2, [0]) := by decide +kernel

/-- **C52 fails** (tasklets): `s[i] = 0` before the sum `s[i] += a[i, j]` is moved into the map
over `j`, because the maps that follow could be merged; the sum restarts in every iteration. -/
def sumTree : Tree Int :=
  .mapS 2 ⟨0, 1, 1⟩ (.tasklet ⟨[], [⟨1, [(.var 2 0, 1)]⟩], fun _ _ _ => 0⟩
    (.mapS 1 ⟨0, 2, 1⟩ (.tasklet ⟨[⟨1, [(.var 2 0, 1)]⟩, ⟨0, [(.var 2 0, 1), (.var 1 0, 1)]⟩],
        [⟨1, [(.var 2 0, 1)]⟩], fun i _ _ => i 0 [0] + i 1 [0, 0]⟩ .done)
      (.mapS 1 ⟨0, 2, 1⟩ (.tasklet (copyT [(.var 2 0, 1), (.var 1 0, 1)]
        [(.var 2 0, 1), (.var 1 0, 1)] 0 2) .done) .done))) .done

theorem C52_sum_violated :
    (mergeRoot isVar1 1 10 5 sumTree).exec ascending (fun _ => 0) startMem (1, [0]) = 2 ∧
      sumTree.exec ascending (fun _ => 0) startMem (1, [0]) = 3 := by decide +kernel

/-- **C52 fails** (tasklets before empty maps): the tasklet does not run any more. -/
def emptyTree : Tree Int :=
  .tasklet ⟨[], [⟨1, []⟩], fun _ _ _ => 7⟩
    (.mapS 1 ⟨0, -1, 1⟩ (.tasklet (copyT (pt 0) (pt 0) 0 2) .done)
      (.mapS 1 ⟨0, -1, 1⟩ (.tasklet (copyT (pt 0) (pt 0) 0 3) .done) .done))

theorem C52_empty_map_violated :
    (mergeRoot isVar1 0 10 5 emptyTree).exec ascending (fun _ => 0) startMem (1, []) = 100 ∧
      emptyTree.exec ascending (fun _ => 0) startMem (1, []) = 7 := by decide +kernel

/-- **C52 fails** (loops): `a[i, d + 1] = a[i + 1, d]` in a loop over `d` around a map over `i`. The
iterations of the map are independent of each other, but not if the loop is moved inside. -/
def loopTree : Tree Int :=
  .forS 3 ⟨0, 1, 1⟩ (.mapS 1 ⟨0, 2, 1⟩ (.tasklet (copyT [(.var 1 1, 1), (.var 3 0, 1)]
    [(.var 1 0, 1), (.var 3 1, 1)] 0 0) .done) .done) .done

theorem C52_loop_violated :
    (mergeRoot isVar1 0 10 5 loopTree).exec ascending (fun _ => 0) startMem (0, [0, 2]) ≠
      loopTree.exec ascending (fun _ => 0) startMem (0, [0, 2]) := by decide +kernel

/-- **C53 fails** (four maps over variables of their own, as vertical maps are): the third and the
fourth are merged, with a condition on the third variable; then the result is merged with the
others, and the third variable is renamed everywhere except in the condition. The fourth body does
not run any more. -/
def fourTree : Tree Int :=
  .mapS 1 ⟨0, 3, 1⟩ (.tasklet (copyT [(.var 1 0, 1)] [(.var 1 0, 1)] 9 1) .done)
    (.mapS 2 ⟨0, 3, 1⟩ (.tasklet (copyT [(.var 2 0, 1)] [(.var 2 0, 1)] 9 2) .done)
      (.mapS 3 ⟨0, 3, 1⟩ (.tasklet (copyT [(.var 3 0, 1)] [(.var 3 0, 1)] 9 3) .done)
        (.mapS 4 ⟨1, 2, 1⟩ (.tasklet (copyT [(.var 4 0, 1)] [(.var 4 0, 1)] 9 4) .done) .done)))

theorem C53_unique_variables_violated :
    (mergeRoot (fun _ => true) 0 10 5 fourTree).exec ascending (fun _ => 0) startMem (4, [1]) = 401 ∧
      fourTree.exec ascending (fun _ => 0) startMem (4, [1]) = 901 := by decide +kernel

end NDSL.AxisMerge
