import Verif.Lemmas.AxisMerge
namespace NDSL.AxisMerge

variable {V : Type}

/-- Two loops over parts of a range, or one loop with conditions. -/
theorem fuse {M : Type} (f1 f2 : Int → M → M) (g1 g2 : Int → Bool)
    (c1 : ∀ x y, x ≠ y → ∀ m, f1 y (f1 x m) = f1 x (f1 y m))
    (c2 : ∀ x y, x ≠ y → ∀ m, f2 y (f2 x m) = f2 x (f2 y m))
    (c12 : ∀ x y, x ≠ y → ∀ m, f1 y (f2 x m) = f2 x (f1 y m))
    (l l1 l2 : List Int) (hl : l.Nodup) (h1 : (l.filter g1).Perm l1) (h2 : (l.filter g2).Perm l2)
    (m : M) :
    l.foldl (fun m i => if g2 i then f2 i (if g1 i then f1 i m else m) else
        (if g1 i then f1 i m else m)) m =
      l2.foldl (fun m i => f2 i m) (l1.foldl (fun m i => f1 i m) m) := by
  rw [← foldl_perm f1 h1 c1, ← foldl_perm f2 h2 c2, ← foldl_ite, ← foldl_ite]
  refine fission (fun i m => if g1 i then f1 i m else m) (fun i m => if g2 i then f2 i m else m) l ?_ m
  refine hl.imp ?_
  intro x y hxy m
  cases g1 y <;> cases g2 x <;> simp [c12 x y hxy]

variable [Inhabited V]

/-- The children of one of the merged maps, in an iteration of the merged map. -/
theorem exec_guarded (σ : Sched) (p : Nat) (r m : Rng) (hs : 1 ≤ r.step) (t : Tree V) (env : Env)
    (hb : t.NoBind p) (hin : m = r → r.Has (env p)) (mem : Mem V) :
    (t.guardChildren ⟨p, r⟩ (m = r)).exec σ env mem =
      if Guard.holds env ⟨p, r⟩ then t.exec σ env mem else mem := by
  by_cases h : m = r
  · have := (guard_iff ⟨p, r⟩ env hs).2 (hin h)
    rw [this]
    simp only [h, decide_true, guard_unchanged, if_true]
  · simp only [h, decide_false]
    exact exec_guard σ ⟨p, r⟩ t env mem hb

theorem set_self (env : Env) (p : Nat) (i : Int) : (env.set p i) p = i := by simp [Env.set]

theorem mergedRange_step (r1 r2 : Rng) : (mergedRange r1 r2).step = 1 := rfl

/-- Merging two maps over the same variable. -/
theorem exec_merge (σ : Sched) (hσ : σ.Fair) (axis p : Nat) (O A : List Memlet)
    (hpw : PW axis p O A) (r1 r2 : Rng) (h1 : 1 ≤ r1.step) (h2 : 1 ≤ r2.step) (b1 b2 : Tree V)
    (w1 : Within O A b1) (w2 : Within O A b2) (n1 : b1.NoBind p) (n2 : b2.NoBind p) (env : Env)
    (mem : Mem V) :
    runOrder ((mergedBody p p r1 r2 b1 b2).exec σ) p env (σ p (mergedRange r1 r2).iters) mem =
      runOrder (b2.exec σ) p env (σ p r2.iters) (runOrder (b1.exec σ) p env (σ p r1.iters) mem) := by
  have hm : 1 ≤ (mergedRange r1 r2).step := by simp [mergedRange]
  have hL := hσ p (mergedRange r1 r2).iters
  have hf := fuse (fun i => b1.exec σ (env.set p i)) (fun i => b2.exec σ (env.set p i))
    (fun i => Guard.holds (env.set p i) ⟨p, r1⟩) (fun i => Guard.holds (env.set p i) ⟨p, r2⟩)
    (fun x y hxy m => comm_at σ axis p O A hpw b1 b1 w1 w1 n1 n1 _ _
      (by simpa [set_self] using hxy) m)
    (fun x y hxy m => comm_at σ axis p O A hpw b2 b2 w2 w2 n2 n2 _ _
      (by simpa [set_self] using hxy) m)
    (fun x y hxy m => comm_at σ axis p O A hpw b2 b1 w2 w1 n2 n1 _ _
      (by simpa [set_self] using hxy) m)
    (σ p (mergedRange r1 r2).iters) (σ p r1.iters) (σ p r2.iters)
    (hL.symm.nodup (nodup_iters _ hm))
    ((filter_merged r1 _ h1 hm (fun i h => (merged_has r1 r2 h1 i h).1) p env _ hL).trans
      (hσ p _).symm)
    ((filter_merged r2 _ h2 hm (fun i h => (merged_has r2 r1 h2 i h).2) p env _ hL).trans
      (hσ p _).symm) mem
  unfold runOrder
  rw [← hf]
  apply List.foldl_ext
  intro m i hi
  have hi' : (mergedRange r1 r2).Has i := (mem_iters _ hm i).1 (hL.mem_iff.1 hi)
  simp only [mergedBody, if_true]
  rw [exec_append, exec_guarded σ p r1 _ h1 b1 _ n1 (fun e => by rw [set_self]; rw [e] at hi'; exact hi'),
    exec_guarded σ p r2 _ h2 b2 _ n2 (fun e => by rw [set_self]; rw [e] at hi'; exact hi')]

/-! ### Moving a loop inside a map -/

/-- Exchange of two loops. -/
theorem exchange {M : Type} (f : Int → Int → M → M)
    (h : ∀ x y i j, i ≠ j → ∀ m, f x i (f y j m) = f y j (f x i m)) (xs is : List Int)
    (hn : is.Nodup) (m : M) :
    xs.foldl (fun m x => is.foldl (fun m i => f x i m) m) m =
      is.foldl (fun m i => xs.foldl (fun m x => f x i m) m) m := by
  induction is generalizing m with
  | nil =>
    simp only [List.foldl_nil]
    induction xs generalizing m with
    | nil => rfl
    | cons x xs ih => rw [List.foldl_cons, ih]
  | cons i is ih =>
    rw [List.nodup_cons] at hn
    simp only [List.foldl_cons]
    rw [← ih hn.2]
    refine fission (fun x m => f x i m) (fun x m => is.foldl (fun m i => f x i m) m) xs ?_ m
    apply List.pairwise_of_forall
    intro x y m
    have hi := hn.1
    clear hn ih
    induction is generalizing m with
    | nil => rfl
    | cons j is ih2 =>
      simp only [List.foldl_cons]
      rw [ih2 _ (fun h => hi (by simp [h]))]
      rw [h y x i j (fun e => hi (by simp [e]))]

theorem set_comm (env : Env) {p q : Nat} (h : p ≠ q) (i j : Int) :
    (env.set p i).set q j = (env.set q j).set p i := by
  funext x
  simp only [Env.set]
  by_cases h1 : x = p <;> by_cases h2 : x = q <;> simp_all

theorem exec_swap (σ : Sched) (hσ : σ.Fair) (axis p q : Nat) (hq : q ≠ p) (O A : List Memlet)
    (hpw : PW axis p O A) (r s : Rng) (hs : 1 ≤ s.step) (b : Tree V) (w : Within O A b)
    (n : b.NoBind p) (env : Env) (mem : Mem V) :
    runOrder ((Tree.mapS p s b .done).exec σ) q env r.iters mem =
      runOrder ((Tree.forS q r b .done).exec σ) p env (σ p s.iters) mem := by
  unfold runOrder
  simp only [Tree.exec]
  unfold runOrder
  have := exchange (fun x i => b.exec σ ((env.set q x).set p i))
    (fun x y i j hij m => (comm_at σ axis p O A hpw b b w w n n _ _
      (by rw [set_self, set_self]; exact hij) m).symm)
    r.iters (σ p s.iters) ((hσ p _).symm.nodup (nodup_iters _ hs)) mem
  rw [this]
  apply List.foldl_ext
  intro m i _
  apply List.foldl_ext
  intro m x _
  rw [set_comm env hq]

/-! ### The order of the iterations does not matter -/

theorem exec_sched (σ σ' : Sched) (hσ : σ.Fair) (hσ' : σ'.Fair) (axis p : Nat)
    (hne : ∀ q, q ≠ p → σ q = σ' q) (O A : List Memlet) (hpw : PW axis p O A) (t : Tree V) :
    ∀ (n : Nat) (env : Env) (mem : Mem V), t.Layered p n → Within O A t →
      t.exec σ env mem = t.exec σ' env mem := by
  induction t with
  | done => intros; rfl
  | tasklet t rest ih =>
    intro n env mem hl hw
    simp only [Tree.exec]
    exact ih n env _ hl.2 ⟨fun m h => hw.1 m (by simp [Tree.outMemlets, h]),
      fun m h => hw.2 m (by simp [Tree.inMemlets, h])⟩
  | ifS g body rest ihb ih =>
    intro n env mem hl hw
    have wb : Within O A body := ⟨fun m h => hw.1 m (by simp [Tree.outMemlets, h]),
      fun m h => hw.2 m (by simp [Tree.inMemlets, h])⟩
    have wr : Within O A rest := ⟨fun m h => hw.1 m (by simp [Tree.outMemlets, h]),
      fun m h => hw.2 m (by simp [Tree.inMemlets, h])⟩
    simp only [Tree.exec]
    rw [ih n env _ hl.2 wr, ihb n env _ hl.1 wb]
  | forS q r body rest ihb ih =>
    intro n env mem hl hw
    have wb : Within O A body := ⟨fun m h => hw.1 m (by simp [Tree.outMemlets, h]),
      fun m h => hw.2 m (by simp [Tree.inMemlets, h])⟩
    have wr : Within O A rest := ⟨fun m h => hw.1 m (by simp [Tree.outMemlets, h]),
      fun m h => hw.2 m (by simp [Tree.inMemlets, h])⟩
    simp only [Tree.exec]
    rw [ih n env _ hl.2.2 wr]
    congr 1
    exact run_congr _ _ _ _ _ (fun i m => ihb n _ _ hl.2.1 wb) _
  | mapS q r body rest ihb ih =>
    intro n env mem hl hw
    have wb : Within O A body := ⟨fun m h => hw.1 m (by simp [Tree.outMemlets, h]),
      fun m h => hw.2 m (by simp [Tree.inMemlets, h])⟩
    have wr : Within O A rest := ⟨fun m h => hw.1 m (by simp [Tree.outMemlets, h]),
      fun m h => hw.2 m (by simp [Tree.inMemlets, h])⟩
    cases n with
    | zero => exact hl.elim
    | succ n =>
      obtain ⟨hs, hb, hlb, hlr⟩ := hl
      simp only [Tree.exec]
      rw [ih (n + 1) env _ hlr wr]
      congr 1
      rw [run_congr _ (body.exec σ') _ _ _ (fun i m => ihb n _ _ hlb wb)]
      by_cases hq : q = p
      · subst hq
        unfold runOrder
        exact foldl_perm (fun i => body.exec σ' (env.set q i)) ((hσ q _).trans (hσ' q _).symm)
          (fun x y hxy m => comm_at σ' axis q O A hpw body body wb wb (hb rfl) (hb rfl) _ _
            (by simpa [set_self] using hxy) m) mem
      · rw [hne q hq]

/-! ### The rewriting keeps the shape -/

omit [Inhabited V]

theorem layered_append (p n : Nat) (t u : Tree V) (ht : t.Layered p n) (hu : u.Layered p n) :
    (t.append u).Layered p n := by
  induction t with
  | done => exact hu
  | tasklet t rest ih => exact ⟨ht.1, ih ht.2⟩
  | ifS g body rest _ ih => exact ⟨ht.1, ih ht.2⟩
  | forS q r body rest _ ih => exact ⟨ht.1, ht.2.1, ih ht.2.2⟩
  | mapS q r body rest _ ih =>
    cases n with
    | zero => exact ht.elim
    | succ n => exact ⟨ht.1, ht.2.1, ht.2.2.1, ih ht.2.2.2⟩

theorem nobind_append (p : Nat) (t u : Tree V) (ht : t.NoBind p) (hu : u.NoBind p) :
    (t.append u).NoBind p := by
  induction t with
  | done => exact hu
  | tasklet t rest ih => exact ih ht
  | ifS g body rest _ ih => exact ⟨ht.1, ih ht.2⟩
  | forS q r body rest _ ih => exact ⟨ht.1, ht.2.1, ih ht.2.2⟩
  | mapS q r body rest _ ih => exact ⟨ht.1, ht.2.1, ih ht.2.2⟩

theorem out_append (t u : Tree V) : (t.append u).outMemlets = t.outMemlets ++ u.outMemlets := by
  induction t with
  | done => rfl
  | tasklet t rest ih => simp [Tree.append, Tree.outMemlets, ih]
  | ifS g body rest _ ih => simp [Tree.append, Tree.outMemlets, ih]
  | forS q r body rest _ ih => simp [Tree.append, Tree.outMemlets, ih]
  | mapS q r body rest _ ih => simp [Tree.append, Tree.outMemlets, ih]

theorem in_append (t u : Tree V) : (t.append u).inMemlets = t.inMemlets ++ u.inMemlets := by
  induction t with
  | done => rfl
  | tasklet t rest ih => simp [Tree.append, Tree.inMemlets, ih]
  | ifS g body rest _ ih => simp [Tree.append, Tree.inMemlets, ih]
  | forS q r body rest _ ih => simp [Tree.append, Tree.inMemlets, ih]
  | mapS q r body rest _ ih => simp [Tree.append, Tree.inMemlets, ih]

theorem guard_shape (p : Nat) (g : Guard) (u : Bool) (t : Tree V) :
    (∀ n, t.Layered p n → (t.guardChildren g u).Layered p n) ∧
    (t.NoBind p → (t.guardChildren g u).NoBind p) ∧
    (t.guardChildren g u).outMemlets = t.outMemlets ∧
    (t.guardChildren g u).inMemlets = t.inMemlets := by
  cases u with
  | true => simp [guard_unchanged]
  | false =>
    induction t with
    | done => simp [Tree.guardChildren]
    | tasklet t rest ih =>
      simp [Tree.guardChildren, Tree.outMemlets, Tree.inMemlets, Tree.Layered, Tree.NoBind]
    | ifS g body rest _ ih =>
      simp [Tree.guardChildren, Tree.outMemlets, Tree.inMemlets, Tree.Layered, Tree.NoBind]
    | forS q r body rest _ ih =>
      simp [Tree.guardChildren, Tree.outMemlets, Tree.inMemlets, Tree.Layered, Tree.NoBind]
    | mapS q r body rest ihb ih =>
      simp only [Tree.guardChildren, Bool.false_eq_true, if_false]
      split
      · refine ⟨?_, ?_, ?_, ?_⟩
        · intro n h
          cases n with
          | zero => exact h.elim
          | succ n =>
            exact ⟨h.1, fun e => ihb.2.1 (h.2.1 e), ihb.1 n h.2.2.1, ih.1 (n + 1) h.2.2.2⟩
        · intro h; exact ⟨h.1, ihb.2.1 h.2.1, ih.2.1 h.2.2⟩
        · simp [Tree.outMemlets, ihb.2.2.1, ih.2.2.1]
        · simp [Tree.inMemlets, ihb.2.2.2, ih.2.2.2]
      · refine ⟨?_, ?_, ?_, ?_⟩
        · intro n h
          exact ⟨h, trivial⟩
        · intro h; exact ⟨h, trivial⟩
        · simp [Tree.outMemlets]
        · simp [Tree.inMemlets]

/-! ### The driver -/

/-- What each rewriting keeps. -/
structure Keeps [Inhabited V] (σ : Sched) (p n : Nat) (O A : List Memlet) (t u : Tree V) : Prop where
  layered : u.Layered p n
  within : Within O A u
  nobind : t.NoBind p → u.NoBind p
  same : ∀ env mem, u.exec σ env mem = t.exec σ env mem

theorem within_rest {O A : List Memlet} {t : Tree V} (h : Within O A t) : Within O A t.rest := by
  cases t <;> first
    | exact h
    | exact ⟨fun m hm => h.1 m (by simp only [Tree.rest] at hm; simp [Tree.outMemlets, hm]),
        fun m hm => h.2 m (by simp only [Tree.rest] at hm; simp [Tree.inMemlets, hm])⟩

theorem within_tasklet {O A : List Memlet} {t : Tasklet V} {rest : Tree V} :
    Within O A (.tasklet t rest) ↔ ((∀ m ∈ t.outs, m ∈ O) ∧ (∀ m ∈ t.ins, m ∈ A)) ∧ Within O A rest := by
  simp only [Within, Tree.outMemlets, Tree.inMemlets, List.mem_append]
  grind

theorem within_if {O A : List Memlet} {g : Guard} {body rest : Tree V} :
    Within O A (.ifS g body rest) ↔ Within O A body ∧ Within O A rest := by
  simp only [Within, Tree.outMemlets, Tree.inMemlets, List.mem_append]
  grind

theorem within_map {O A : List Memlet} {q : Nat} {r : Rng} {body rest : Tree V} :
    Within O A (.mapS q r body rest) ↔ Within O A body ∧ Within O A rest := by
  simp only [Within, Tree.outMemlets, Tree.inMemlets, List.mem_append]
  grind

theorem within_for {O A : List Memlet} {q : Nat} {r : Rng} {body rest : Tree V} :
    Within O A (.forS q r body rest) ↔ Within O A body ∧ Within O A rest := by
  simp only [Within, Tree.outMemlets, Tree.inMemlets, List.mem_append]
  grind

theorem within_append {O A : List Memlet} {t u : Tree V} (ht : Within O A t) (hu : Within O A u) :
    Within O A (t.append u) := by
  simp only [Within, out_append, in_append, List.mem_append] at *
  grind

theorem within_guard {O A : List Memlet} (g : Guard) (u : Bool) {t : Tree V} (ht : Within O A t) :
    Within O A (t.guardChildren g u) := by
  have := guard_shape 0 g u t
  simp only [Within, this.2.2.1, this.2.2.2] at *
  exact ht

variable [Inhabited V]

theorem keeps_refl (σ : Sched) (p n : Nat) (O A : List Memlet) (t : Tree V) (hl : t.Layered p n)
    (hw : Within O A t) : Keeps σ p n O A t t :=
  ⟨hl, hw, id, fun _ _ => rfl⟩

theorem keeps_trans {σ : Sched} {p n : Nat} {O A : List Memlet} {t u v : Tree V}
    (h1 : Keeps σ p n O A t u) (h2 : Keeps σ p n O A u v) : Keeps σ p n O A t v :=
  ⟨h2.layered, h2.within, fun h => h2.nobind (h1.nobind h),
    fun env mem => (h2.same env mem).trans (h1.same env mem)⟩

theorem keeps_merge (σ : Sched) (hσ : σ.Fair) (isAxis : Nat → Bool) (axis p n : Nat)
    (hax : ∀ q, isAxis q = true → q = p) (O A : List Memlet) (hpw : PW axis p O A) (t u : Tree V)
    (hl : t.Layered p n) (hw : Within O A t) (h : mergeMaps isAxis axis t = some u) :
    Keeps σ p n O A t u := by
  unfold mergeMaps at h
  split at h
  · rename_i p1 r1 b1 p2 r2 b2 rest
    split at h
    · rename_i hc
      simp only [Bool.and_eq_true] at hc
      have e1 := hax p1 hc.1.1
      have e2 := hax p2 hc.1.2
      subst e1; subst e2
      simp only [Option.some.injEq] at h
      subst h
      cases n with
      | zero => exact hl.elim
      | succ n =>
        obtain ⟨hs1, hb1, hl1, hs2, hb2, hl2, hlr⟩ := hl
        rw [within_map, within_map] at hw
        obtain ⟨w1, w2, wr⟩ := hw
        have s1 := guard_shape p2 ⟨p2, r1⟩ (mergedRange r1 r2 = r1) b1
        have s2 := guard_shape p2 ⟨p2, r2⟩ (mergedRange r1 r2 = r2) b2
        refine ⟨⟨by simp [mergedRange], fun _ => ?_, ?_, hlr⟩, ?_, fun h => absurd rfl h.1, ?_⟩
        · simp only [mergedBody, if_true]
          exact nobind_append _ _ _ (s1.2.1 (hb1 rfl)) (s2.2.1 (hb2 rfl))
        · simp only [mergedBody, if_true]
          exact layered_append _ _ _ _ (s1.1 n hl1) (s2.1 n hl2)
        · rw [within_map]
          refine ⟨?_, wr⟩
          simp only [mergedBody, if_true]
          exact within_append (within_guard _ _ w1) (within_guard _ _ w2)
        · intro env mem
          simp only [Tree.exec]
          rw [exec_merge σ hσ axis p2 O A hpw r1 r2 hs1 hs2 b1 b2 w1 w2 (hb1 rfl) (hb2 rfl)]
    · cases h
  · cases h

theorem keeps_swap (σ : Sched) (hσ : σ.Fair) (isAxis : Nat → Bool) (axis p n : Nat)
    (hax : ∀ q, isAxis q = true → q = p) (O A : List Memlet) (hpw : PW axis p O A) (t u : Tree V)
    (hl : t.Layered p n) (hw : Within O A t) (h : swapFor isAxis t = some u) :
    Keeps σ p n O A t u := by
  unfold swapFor at h
  split at h
  · rename_i q r q' s b rest
    split at h
    · cases h
    · split at h
      · rename_i h1 h2
        have e := hax q' h2
        subst e
        simp only [Option.some.injEq] at h
        subst h
        rw [within_for, within_map] at hw
        obtain ⟨⟨w, -⟩, wr⟩ := hw
        cases n with
        | zero => exact hl.2.1.elim
        | succ n =>
          obtain ⟨hq, ⟨hs, hb, hlb, -⟩, hlr⟩ := hl
          refine ⟨⟨hs, fun e => ⟨hq, hb e, trivial⟩, ⟨hq, hlb, trivial⟩, hlr⟩, ?_,
            fun h => absurd rfl h.2.1.1, ?_⟩
          · rw [within_map, within_for]
            exact ⟨⟨w, by simp [Within, Tree.outMemlets, Tree.inMemlets]⟩, wr⟩
          · intro env mem
            have := exec_swap σ hσ axis q' q hq O A hpw r s hs b w (hb rfl) env mem
            show rest.exec σ env (runOrder ((Tree.forS q r b .done).exec σ) q' env _ mem) =
              rest.exec σ env (runOrder ((Tree.mapS q' s b .done).exec σ) q env _ mem)
            rw [this]
      · cases h
  · cases h

theorem keeps_map_body {σ : Sched} {p n : Nat} {O A : List Memlet} {q : Nat} {r : Rng}
    {b c rest : Tree V} (hl : (Tree.mapS q r b rest).Layered p (n + 1))
    (hw : Within O A (.mapS q r b rest)) (h : Keeps σ p n O A b c) :
    Keeps σ p (n + 1) O A (.mapS q r b rest) (.mapS q r c rest) := by
  obtain ⟨h1, h2, h3, h4⟩ := hl
  rw [within_map] at hw
  refine ⟨⟨h1, fun e => h.nobind (h2 e), h.layered, h4⟩, within_map.2 ⟨h.within, hw.2⟩,
    fun hb => ⟨hb.1, h.nobind hb.2.1, hb.2.2⟩, ?_⟩
  intro env mem
  simp only [Tree.exec]
  rw [run_congr _ _ _ _ _ (fun i m => h.same _ m)]

theorem keeps_for_body {σ : Sched} {p n : Nat} {O A : List Memlet} {q : Nat} {r : Rng}
    {b c rest : Tree V} (hl : (Tree.forS q r b rest).Layered p n)
    (hw : Within O A (.forS q r b rest)) (h : Keeps σ p n O A b c) :
    Keeps σ p n O A (.forS q r b rest) (.forS q r c rest) := by
  rw [within_for] at hw
  refine ⟨⟨hl.1, h.layered, hl.2.2⟩, within_for.2 ⟨h.within, hw.2⟩,
    fun hb => ⟨hb.1, h.nobind hb.2.1, hb.2.2⟩, ?_⟩
  intro env mem
  simp only [Tree.exec]
  rw [run_congr _ _ _ _ _ (fun i m => h.same _ m)]

theorem keeps_if_body {σ : Sched} {p n : Nat} {O A : List Memlet} {g : Guard}
    {b c rest : Tree V} (hl : (Tree.ifS g b rest).Layered p n)
    (hw : Within O A (.ifS g b rest)) (h : Keeps σ p n O A b c) :
    Keeps σ p n O A (.ifS g b rest) (.ifS g c rest) := by
  rw [within_if] at hw
  refine ⟨⟨h.layered, hl.2⟩, within_if.2 ⟨h.within, hw.2⟩,
    fun hb => ⟨h.nobind hb.1, hb.2⟩, ?_⟩
  intro env mem
  simp only [Tree.exec]
  rw [h.same]

theorem keeps_rest {σ : Sched} {p n : Nat} {O A : List Memlet} {t c : Tree V} (hd : t.isDone = false)
    (hl : t.Layered p n) (hw : Within O A t) (h : Keeps σ p n O A t.rest c) :
    Keeps σ p n O A t (t.setRest c) := by
  cases t with
  | done => simp [Tree.isDone] at hd
  | tasklet t rest =>
    rw [within_tasklet] at hw
    refine ⟨⟨hl.1, h.layered⟩, within_tasklet.2 ⟨hw.1, h.within⟩, fun hb => h.nobind hb, ?_⟩
    intro env mem
    simp only [Tree.setRest, Tree.exec]
    exact h.same _ _
  | ifS g b rest =>
    rw [within_if] at hw
    refine ⟨⟨hl.1, h.layered⟩, within_if.2 ⟨hw.1, h.within⟩, fun hb => ⟨hb.1, h.nobind hb.2⟩, ?_⟩
    intro env mem
    simp only [Tree.setRest, Tree.exec]
    exact h.same _ _
  | forS q r b rest =>
    rw [within_for] at hw
    refine ⟨⟨hl.1, hl.2.1, h.layered⟩, within_for.2 ⟨hw.1, h.within⟩,
      fun hb => ⟨hb.1, hb.2.1, h.nobind hb.2.2⟩, ?_⟩
    intro env mem
    simp only [Tree.setRest, Tree.exec]
    exact h.same _ _
  | mapS q r b rest =>
    cases n with
    | zero => exact hl.elim
    | succ n =>
      rw [within_map] at hw
      refine ⟨⟨hl.1, hl.2.1, hl.2.2.1, h.layered⟩, within_map.2 ⟨hw.1, h.within⟩,
        fun hb => ⟨hb.1, hb.2.1, h.nobind hb.2.2⟩, ?_⟩
      intro env mem
      simp only [Tree.setRest, Tree.exec]
      exact h.same _ _

/-- A loop moved inside a map, and what is below rewritten. -/
theorem keeps_inner {σ : Sched} {p n : Nat} {O A : List Memlet} {q q' : Nat} {r s : Rng}
    {b c rest : Tree V} (hl : (Tree.mapS q s (.forS q' r b .done) rest).Layered p n)
    (hw : Within O A (.mapS q s (.forS q' r b .done) rest))
    (h : ∀ n, b.Layered p n → Within O A b → Keeps σ p n O A b c) :
    Keeps σ p n O A (.mapS q s (.forS q' r b .done) rest) (.mapS q s (.forS q' r c .done) rest) := by
  cases n with
  | zero => exact hl.elim
  | succ n =>
    have hw1 := (within_map.1 hw).1
    exact keeps_map_body hl hw (keeps_for_body hl.2.2.1 hw1
      (h n hl.2.2.1.2.1 (within_for.1 hw1).1))

theorem keeps_pass (σ : Sched) (hσ : σ.Fair) (isAxis : Nat → Bool) (axis p : Nat)
    (hax : ∀ q, isAxis q = true → q = p) (O A : List Memlet) (hpw : PW axis p O A) (fuel : Nat) :
    (∀ (n : Nat) (t : Tree V), t.Layered p n → Within O A t →
      Keeps σ p n O A t (mergeNode isAxis axis fuel t).1 ∧
        (t.isDone = false → (mergeNode isAxis axis fuel t).1.isDone = false)) ∧
    (∀ (n : Nat) (t : Tree V), t.Layered p n → Within O A t →
      Keeps σ p n O A t (mergeList isAxis axis fuel t).1) := by
  induction fuel with
  | zero =>
    refine ⟨fun n t hl hw => ⟨?_, ?_⟩, fun n t hl hw => ?_⟩
    · simp only [mergeNode]; exact keeps_refl _ _ _ _ _ _ hl hw
    · simp only [mergeNode]; exact id
    · simp only [mergeList]; exact keeps_refl _ _ _ _ _ _ hl hw
  | succ fuel ih =>
    obtain ⟨ihn, ihl⟩ := ih
    refine ⟨fun n t hl hw => ?_, fun n t hl hw => ?_⟩
    · cases t with
      | done => simp only [mergeNode]; exact ⟨keeps_refl _ _ _ _ _ _ hl hw, id⟩
      | ifS g b rest =>
        simp only [mergeNode]
        exact ⟨keeps_if_body hl hw (ihl n b hl.1 (within_if.1 hw).1), fun _ => rfl⟩
      | mapS q r b rest =>
        simp only [mergeNode]
        split
        · cases n with
          | zero => exact hl.elim
          | succ n =>
            exact ⟨keeps_map_body hl hw (ihl n b hl.2.2.1 (within_map.1 hw).1), fun _ => rfl⟩
        · split
          · rename_i u hu
            refine ⟨keeps_merge σ hσ isAxis axis p n hax O A hpw _ u hl hw hu, fun _ => ?_⟩
            unfold mergeMaps at hu
            split at hu
            · split at hu
              · simp only [Option.some.injEq] at hu
                subst hu; rfl
              · cases hu
            · cases hu
          · exact ⟨keeps_refl _ _ _ _ _ _ hl hw, id⟩
      | forS q r b rest =>
        simp only [mergeNode]
        split
        · rename_i q' s p' r' inner rest' hs
          have k := keeps_swap σ hσ isAxis axis p n hax O A hpw _ _ hl hw hs
          exact ⟨keeps_trans k (keeps_inner k.layered k.within (fun n hl hw => ihl n inner hl hw)),
            fun _ => rfl⟩
        · exact ⟨keeps_for_body hl hw (ihl n b hl.2.1 (within_for.1 hw).1), fun _ => rfl⟩
      | tasklet t rest =>
        simp only [mergeNode]
        split
        · exact ⟨keeps_refl _ _ _ _ _ _ hl hw, id⟩
        · have h0 := hl.1
          subst h0
          have k := (ihn 0 rest hl.2 (within_tasklet.1 hw).2).1
          have kt := keeps_rest (t := .tasklet t rest) rfl hl hw k
          simp only [Tree.setRest] at kt
          split
          · rename_i u hu
            exfalso
            unfold pushTasklet at hu
            split at hu
            · rename_i heq
              simp only [Tree.tasklet.injEq] at heq
              have hlay := k.layered
              rw [heq.2] at hlay
              exact hlay
            · cases hu
          · exact ⟨kt, fun _ => rfl⟩
    · by_cases hd : t.isDone = true
      · cases t <;> simp [Tree.isDone] at hd
        simp only [mergeList]
        exact keeps_refl _ _ _ _ _ _ hl hw
      · have hd' : t.isDone = false := by simpa using hd
        have k := ihn n t hl hw
        have hlr : ∀ u : Tree V, u.Layered p n → u.rest.Layered p n := by
          intro u hu
          cases u with
          | done => exact hu
          | tasklet _ _ => exact hu.2
          | ifS _ _ _ => exact hu.2
          | forS _ _ _ _ => exact hu.2.2
          | mapS _ _ _ _ =>
            cases n with
            | zero => exact hu.elim
            | succ n => exact hu.2.2.2
        have k2 := ihl n _ (hlr _ k.1.layered) (within_rest k.1.within)
        have k3 := keeps_rest (k.2 hd') k.1.layered k.1.within k2
        have hm : mergeList isAxis axis (fuel + 1) t =
            ((mergeNode isAxis axis fuel t).1.setRest
              (mergeList isAxis axis fuel (mergeNode isAxis axis fuel t).1.rest).1,
              (mergeNode isAxis axis fuel t).2 +
              (mergeList isAxis axis fuel (mergeNode isAxis axis fuel t).1.rest).2) := by
          cases t with
          | done => simp [Tree.isDone] at hd'
          | _ => simp only [mergeList]
        rw [hm]
        exact keeps_trans k.1 k3

theorem keeps_root (σ : Sched) (hσ : σ.Fair) (isAxis : Nat → Bool) (axis p n : Nat)
    (hax : ∀ q, isAxis q = true → q = p) (O A : List Memlet) (hpw : PW axis p O A)
    (fuel passes : Nat) (t : Tree V) (hl : t.Layered p n) (hw : Within O A t) :
    Keeps σ p n O A t (mergeRoot isAxis axis fuel passes t) := by
  induction passes generalizing t with
  | zero => exact keeps_refl _ _ _ _ _ _ hl hw
  | succ k ih =>
    simp only [mergeRoot]
    split
    · exact keeps_refl _ _ _ _ _ _ hl hw
    · have h := (keeps_pass σ hσ isAxis axis p hax O A hpw fuel).2 n t hl hw
      exact keeps_trans h (ih _ h.layered h.within)

end NDSL.AxisMerge
