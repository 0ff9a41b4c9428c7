import Verif.Lemmas.AxisMergePass
namespace NDSL.AxisMerge

variable {V : Type}

theorem set_id (env : Env) (a : Nat) : env.set a (env a) = env := by
  funext q
  simp only [Env.set]
  split
  · rename_i h; rw [h]
  · rfl

theorem eval_rename (a b : Nat) (env : Env) (x : Ix) :
    (x.rename a b).eval env = x.eval (env.set a (env b)) := by
  cases x with
  | const c => rfl
  | var p o =>
    simp only [Ix.rename, Ix.eval, Env.set]
    split <;> simp

theorem relative_rename (a b : Nat) (env : Env) (ss : List (Ix × Nat)) (is : List Int) :
    relative env (ss.map fun s => (s.1.rename a b, s.2)) is = relative (env.set a (env b)) ss is := by
  induction ss generalizing is with
  | nil => cases is <;> rfl
  | cons s ss ih =>
    cases is with
    | nil => rfl
    | cons i is => simp only [List.map_cons, relative, eval_rename, ih]

theorem absolute_rename (a b : Nat) (env : Env) (ss : List (Ix × Nat)) (is : List Int) :
    absolute env (ss.map fun s => (s.1.rename a b, s.2)) is = absolute (env.set a (env b)) ss is := by
  induction ss generalizing is with
  | nil => cases is <;> rfl
  | cons s ss ih =>
    cases is with
    | nil => rfl
    | cons i is => simp only [List.map_cons, absolute, eval_rename, ih]

theorem writeOuts_rename (a b : Nat) (env : Env) (val : Nat → List Int → V) (ms : List Memlet) :
    ∀ n mem, writeOuts env val (ms.map (Memlet.rename a b)) n mem =
      writeOuts (env.set a (env b)) val ms n mem := by
  induction ms with
  | nil => intros; rfl
  | cons m ms ih =>
    intro n mem
    simp only [List.map_cons, writeOuts, ih, Memlet.rename, relative_rename]

variable [Inhabited V]

theorem input_rename (a b : Nat) (env : Env) (mem : Mem V) (ms : List Memlet) :
    input env mem (ms.map (Memlet.rename a b)) = input (env.set a (env b)) mem ms := by
  funext n rel
  simp only [input, List.getElem?_map]
  cases ms[n]? with
  | none => rfl
  | some m =>
    simp only [Option.map_some, Memlet.rename, Memlet.covers, relative_rename, absolute_rename]

/-- Renaming a variable: as if it had the value of the new one. -/
theorem exec_rename (σ : Sched) (a b : Nat) (t : Tree V) : ∀ (env : Env) (mem : Mem V),
    t.NoBind a → t.NoBind b → t.NoGuard a →
    (t.rename a b).exec σ env mem = t.exec σ (env.set a (env b)) mem := by
  induction t with
  | done => intros; rfl
  | tasklet t rest ih =>
    intro env mem h1 h2 h3
    simp only [Tree.rename, Tree.exec]
    rw [ih env _ h1 h2 h3]
    simp only [Tasklet.exec, input_rename, writeOuts_rename]
  | ifS g body rest ihb ih =>
    intro env mem h1 h2 h3
    simp only [Tree.rename, Tree.exec]
    rw [ih env _ h1.2 h2.2 h3.2.2, ihb env _ h1.1 h2.1 h3.2.1, holds_set g env (fun e => h3.1 e.symm)]
  | mapS q r body rest ihb ih =>
    intro env mem h1 h2 h3
    simp only [Tree.rename, if_neg h1.1, Tree.exec]
    rw [ih env _ h1.2.2 h2.2.2 h3.2]
    congr 1
    unfold runOrder
    congr 1
    funext m i
    rw [ihb _ _ h1.2.1 h2.2.1 h3.1, set_comm env h1.1, set_ne env h2.1]
  | forS q r body rest ihb ih =>
    intro env mem h1 h2 h3
    simp only [Tree.rename, Tree.exec]
    rw [ih env _ h1.2.2 h2.2.2 h3.2]
    congr 1
    unfold runOrder
    congr 1
    funext m i
    rw [ihb _ _ h1.2.1 h2.2.1 h3.1, set_comm env h1.1, set_ne env h2.1]

/-- The value of a variable that is not mentioned does not matter. -/
theorem exec_free (σ : Sched) (a : Nat) (t : Tree V) (h : t.Free a) (env : Env) (v : Int)
    (mem : Mem V) : t.exec σ (env.set a v) mem = t.exec σ env mem := by
  obtain ⟨h1, h2, h3⟩ := h
  induction t generalizing env mem with
  | done => rfl
  | tasklet t rest ih =>
    simp only [Tree.exec]
    have hr : Tree.NoIndex a rest := fun m hm => h3 m (by
      simp only [Tree.outMemlets, Tree.inMemlets, List.mem_append] at *; grind)
    rw [ih _ _ h1 h2 hr]
    congr 1
    have ev : ∀ x : Ix, (∀ off, x ≠ Ix.var a off) → x.eval (env.set a v) = x.eval env := by
      intro x hx
      cases x with
      | const c => rfl
      | var p o =>
        have hp : p ≠ a := by intro e; subst e; exact hx o rfl
        simp [Ix.eval, Env.set, hp]
    have rl : ∀ (ss : List (Ix × Nat)), (∀ s ∈ ss, ∀ off, s.1 ≠ Ix.var a off) →
        ∀ is, relative (env.set a v) ss is = relative env ss is := by
      intro ss
      induction ss with
      | nil => intro _ is; cases is <;> rfl
      | cons s ss ihs =>
        intro hs is
        cases is with
        | nil => rfl
        | cons i is =>
          simp only [relative, ev s.1 (hs s (by simp)), ihs (fun x hx => hs x (by simp [hx]))]
    have ab : ∀ (ss : List (Ix × Nat)), (∀ s ∈ ss, ∀ off, s.1 ≠ Ix.var a off) →
        ∀ is, absolute (env.set a v) ss is = absolute env ss is := by
      intro ss
      induction ss with
      | nil => intro _ is; cases is <;> rfl
      | cons s ss ihs =>
        intro hs is
        cases is with
        | nil => rfl
        | cons i is =>
          simp only [absolute, ev s.1 (hs s (by simp)), ihs (fun x hx => hs x (by simp [hx]))]
    have wo : ∀ (val : Nat → List Int → V) (ms : List Memlet),
        (∀ m ∈ ms, ∀ s ∈ m.subset, ∀ off, s.1 ≠ Ix.var a off) →
        ∀ n mem, writeOuts (env.set a v) val ms n mem = writeOuts env val ms n mem := by
      intro val ms
      induction ms with
      | nil => intros; rfl
      | cons m ms ihm =>
        intro hm n mem
        simp only [writeOuts, ihm (fun x hx => hm x (by simp [hx])), rl m.subset (hm m (by simp))]
    have inp : input (env.set a v) mem t.ins = input env mem t.ins := by
      funext n rel
      simp only [input]
      cases e : t.ins[n]? with
      | none => rfl
      | some m =>
        have hm := h3 m (by simp [Tree.inMemlets, List.mem_of_getElem? e])
        simp only [Memlet.covers, rl m.subset hm, ab m.subset hm]
    simp only [Tasklet.exec]
    rw [inp, wo _ t.outs (fun m hm => h3 m (by simp [Tree.outMemlets, hm]))]
  | ifS g body rest ihb ih =>
    have hb : Tree.NoIndex a body := fun m hm => h3 m (by
      simp only [Tree.outMemlets, Tree.inMemlets, List.mem_append] at *; grind)
    have hr : Tree.NoIndex a rest := fun m hm => h3 m (by
      simp only [Tree.outMemlets, Tree.inMemlets, List.mem_append] at *; grind)
    simp only [Tree.exec]
    rw [ih env _ h1.2 h2.2.2 hr, ihb env _ h1.1 h2.2.1 hb, holds_set g env (fun e => h2.1 e.symm)]
  | mapS q r body rest ihb ih =>
    have hb : Tree.NoIndex a body := fun m hm => h3 m (by
      simp only [Tree.outMemlets, Tree.inMemlets, List.mem_append] at *; grind)
    have hr : Tree.NoIndex a rest := fun m hm => h3 m (by
      simp only [Tree.outMemlets, Tree.inMemlets, List.mem_append] at *; grind)
    simp only [Tree.exec]
    rw [ih env _ h1.2.2 h2.2 hr]
    congr 1
    unfold runOrder
    congr 1
    funext m i
    rw [set_comm env (fun e => h1.1 e.symm), ihb _ _ h1.2.1 h2.1 hb]
  | forS q r body rest ihb ih =>
    have hb : Tree.NoIndex a body := fun m hm => h3 m (by
      simp only [Tree.outMemlets, Tree.inMemlets, List.mem_append] at *; grind)
    have hr : Tree.NoIndex a rest := fun m hm => h3 m (by
      simp only [Tree.outMemlets, Tree.inMemlets, List.mem_append] at *; grind)
    simp only [Tree.exec]
    rw [ih env _ h1.2.2 h2.2 hr]
    congr 1
    unfold runOrder
    congr 1
    funext m i
    rw [set_comm env (fun e => h1.1 e.symm), ihb _ _ h1.2.1 h2.1 hb]

omit [Inhabited V] in
theorem nobind_rename (a b : Nat) (t : Tree V) (ha : t.NoBind a) (hb : t.NoBind b) :
    (t.rename a b).NoBind b := by
  induction t with
  | done => trivial
  | tasklet t rest ih => exact ih ha hb
  | ifS g body rest ihb ih => exact ⟨ihb ha.1 hb.1, ih ha.2 hb.2⟩
  | mapS q r body rest ihb ih =>
    simp only [Tree.rename, if_neg ha.1]
    exact ⟨hb.1, ihb ha.2.1 hb.2.1, ih ha.2.2 hb.2.2⟩
  | forS q r body rest ihb ih =>
    exact ⟨hb.1, ihb ha.2.1 hb.2.1, ih ha.2.2 hb.2.2⟩

omit [Inhabited V] in
theorem noguard_append (a : Nat) (t u : Tree V) (ht : t.NoGuard a) (hu : u.NoGuard a) :
    (t.append u).NoGuard a := by
  induction t with
  | done => exact hu
  | tasklet t rest ih => exact ih ht
  | ifS g body rest _ ih => exact ⟨ht.1, ht.2.1, ih ht.2.2⟩
  | forS q r body rest _ ih => exact ⟨ht.1, ih ht.2⟩
  | mapS q r body rest _ ih => exact ⟨ht.1, ih ht.2⟩

omit [Inhabited V] in
theorem noguard_guard (a : Nat) (g : Guard) (u : Bool) (hg : g.p ≠ a) (t : Tree V)
    (ht : t.NoGuard a) : (t.guardChildren g u).NoGuard a := by
  cases u with
  | true => rw [guard_unchanged]; exact ht
  | false =>
    induction t with
    | done => trivial
    | tasklet t rest ih => simp only [Tree.guardChildren]; exact ⟨hg, ht, trivial⟩
    | ifS g body rest _ ih => simp only [Tree.guardChildren]; exact ⟨hg, ht, trivial⟩
    | forS q r body rest _ ih => simp only [Tree.guardChildren]; exact ⟨hg, ht, trivial⟩
    | mapS q r body rest ihb ih =>
      simp only [Tree.guardChildren]
      split
      · exact ⟨ihb ht.1, ih ht.2⟩
      · exact ⟨hg, ht, trivial⟩

/-- Merging two maps over different variables. -/
theorem exec_merge_rename (σ : Sched) (hσ : σ.Fair) (axis p1 p2 : Nat) (hp : p2 ≠ p1)
    (r1 r2 : Rng) (h1 : 1 ≤ r1.step) (h2 : 1 ≤ r2.step) (b1 b2 : Tree V)
    (hpw : PW axis p1 (b1.outMemlets ++ (b2.rename p2 p1).outMemlets)
      (b1.inMemlets ++ (b2.rename p2 p1).inMemlets))
    (n1 : b1.NoBind p1) (n2 : b2.NoBind p2) (f1 : b1.Free p2) (f2 : b2.Free p1)
    (hg : b2.NoGuard p2) (env : Env) (mem : Mem V) :
    runOrder ((mergedBody p1 p2 r1 r2 b1 b2).exec σ) p1 env (σ p1 (mergedRange r1 r2).iters) mem =
      runOrder (b2.exec σ) p2 env (σ p2 r2.iters) (runOrder (b1.exec σ) p1 env (σ p1 r1.iters) mem) := by
  have hm : 1 ≤ (mergedRange r1 r2).step := by simp [mergedRange]
  have hL := hσ p1 (mergedRange r1 r2).iters
  have hb : ∀ i m, b2.exec σ (env.set p2 i) m = (b2.rename p2 p1).exec σ (env.set p1 i) m := by
    intro i m
    rw [exec_rename σ p2 p1 b2 _ _ n2 f2.1 hg, set_self, set_comm env (fun e => hp e.symm),
      exec_free σ p1 b2 f2]
  have w1 : Within (b1.outMemlets ++ (b2.rename p2 p1).outMemlets)
      (b1.inMemlets ++ (b2.rename p2 p1).inMemlets) b1 :=
    ⟨fun m h => by simp [h], fun m h => by simp [h]⟩
  have w2 : Within (b1.outMemlets ++ (b2.rename p2 p1).outMemlets)
      (b1.inMemlets ++ (b2.rename p2 p1).inMemlets) (b2.rename p2 p1) :=
    ⟨fun m h => by simp [h], fun m h => by simp [h]⟩
  have nr := nobind_rename p2 p1 b2 n2 f2.1
  have hf := fuse (fun i => b1.exec σ (env.set p1 i)) (fun i => (b2.rename p2 p1).exec σ (env.set p1 i))
    (fun i => Guard.holds (env.set p1 i) ⟨p1, r1⟩) (fun i => Guard.holds (env.set p1 i) ⟨p1, r2⟩)
    (fun x y hxy m => comm_at σ axis p1 _ _ hpw b1 b1 w1 w1 n1 n1 _ _
      (by simpa [set_self] using hxy) m)
    (fun x y hxy m => comm_at σ axis p1 _ _ hpw _ _ w2 w2 nr nr _ _
      (by simpa [set_self] using hxy) m)
    (fun x y hxy m => comm_at σ axis p1 _ _ hpw _ b1 w2 w1 nr n1 _ _
      (by simpa [set_self] using hxy) m)
    (σ p1 (mergedRange r1 r2).iters) (σ p1 r1.iters) (σ p2 r2.iters)
    (hL.symm.nodup (nodup_iters _ hm))
    ((filter_merged r1 _ h1 hm (fun i h => (merged_has r1 r2 h1 i h).1) p1 env _ hL).trans
      (hσ p1 _).symm)
    ((filter_merged r2 _ h2 hm (fun i h => (merged_has r2 r1 h2 i h).2) p1 env _ hL).trans
      (hσ p2 _).symm) mem
  unfold runOrder
  simp only [hb]
  rw [← hf]
  apply List.foldl_ext
  intro m i hi
  have hi' : (mergedRange r1 r2).Has i := (mem_iters _ hm i).1 (hL.mem_iff.1 hi)
  simp only [mergedBody, if_neg hp]
  have s1 := guard_shape p1 ⟨p1, r1⟩ (mergedRange r1 r2 = r1) b1
  have s2 := guard_shape p1 ⟨p1, r2⟩ (mergedRange r1 r2 = r2) b2
  have t1 := guard_shape p2 ⟨p1, r1⟩ (mergedRange r1 r2 = r1) b1
  have t2 := guard_shape p2 ⟨p1, r2⟩ (mergedRange r1 r2 = r2) b2
  rw [exec_rename σ p2 p1 _ _ _ (nobind_append _ _ _ (t1.2.1 f1.1) (t2.2.1 n2))
    (nobind_append _ _ _ (s1.2.1 n1) (s2.2.1 f2.1))
    (noguard_append _ _ _ (noguard_guard _ _ _ (fun e => hp e.symm) _ f1.2.1)
      (noguard_guard _ _ _ (fun e => hp e.symm) _ hg)), set_self, exec_append]
  have he : ∀ i, ((env.set p1 i).set p2 i) p1 = i := by
    intro i; rw [set_ne _ hp, set_self]
  have hh : ∀ r, Guard.holds ((env.set p1 i).set p2 i) ⟨p1, r⟩ = Guard.holds (env.set p1 i) ⟨p1, r⟩ :=
    fun r => holds_set ⟨p1, r⟩ _ hp i
  rw [exec_guarded σ p1 r1 _ h1 b1 _ n1 (fun e => by rw [he]; rw [e] at hi'; exact hi'),
    exec_guarded σ p1 r2 _ h2 b2 _ f2.1 (fun e => by rw [he]; rw [e] at hi'; exact hi'), hh, hh]
  have e2 : ∀ m, b2.exec σ ((env.set p1 i).set p2 i) m = (b2.rename p2 p1).exec σ (env.set p1 i) m := by
    intro m
    rw [exec_rename σ p2 p1 b2 _ _ n2 f2.1 hg, set_self]
  rw [e2, exec_free σ p2 b1 f1]

end NDSL.AxisMerge
