import Verif.Spec.AxisMerge
import Mathlib.Data.List.Nodup
import Mathlib.Data.List.Perm.Basic
namespace NDSL.AxisMerge

variable {V : Type}

/-! ### Folds -/

/-- Splitting a loop in two. -/
theorem fission {α M : Type} (f g : α → M → M) (l : List α)
    (h : l.Pairwise fun x y => ∀ m, f y (g x m) = g x (f y m)) (m : M) :
    l.foldl (fun m x => g x (f x m)) m = l.foldl (fun m x => g x m) (l.foldl (fun m x => f x m) m) := by
  induction l generalizing m with
  | nil => rfl
  | cons x l ih =>
    rw [List.pairwise_cons] at h
    simp only [List.foldl_cons]
    rw [ih h.2]
    congr 1
    have hx := h.1
    clear ih h
    generalize f x m = m'
    induction l generalizing m' with
    | nil => rfl
    | cons y l ih2 =>
      simp only [List.foldl_cons]
      rw [hx y (by simp), ih2 (fun z hz => hx z (by simp [hz]))]

theorem foldl_ite {α M : Type} (f : α → M → M) (c : α → Bool) (l : List α) (m : M) :
    l.foldl (fun m x => if c x then f x m else m) m = (l.filter c).foldl (fun m x => f x m) m := by
  induction l generalizing m with
  | nil => rfl
  | cons x l ih =>
    simp only [List.foldl_cons, List.filter_cons]
    cases c x <;> simp [ih]

/-- The order does not matter if different iterations commute. -/
theorem foldl_perm {α M : Type} (f : α → M → M) {l l' : List α} (p : l.Perm l')
    (h : ∀ x y, x ≠ y → ∀ m, f y (f x m) = f x (f y m)) (m : M) :
    l.foldl (fun m x => f x m) m = l'.foldl (fun m x => f x m) m := by
  induction p generalizing m with
  | nil => rfl
  | cons x _ ih => simp only [List.foldl_cons]; exact ih _
  | swap x y l =>
    simp only [List.foldl_cons]
    by_cases e : x = y
    · subst e; rfl
    · rw [h y x (fun q => e q.symm)]
  | trans _ _ ih1 ih2 => rw [ih1, ih2]

/-! ### Ranges -/

theorem mem_iters (r : Rng) (hs : 1 ≤ r.step) (i : Int) : i ∈ r.iters ↔ r.Has i := by
  unfold Rng.iters Rng.Has
  simp only [List.mem_map, List.mem_range]
  constructor
  · rintro ⟨n, hn, rfl⟩
    refine ⟨n, rfl, ?_⟩
    have h1 : (n : Int) ≤ (r.stop - r.start) / r.step := by omega
    have h2 : (n : Int) * r.step ≤ r.stop - r.start :=
      (Int.le_ediv_iff_mul_le (by omega)).1 h1
    omega
  · rintro ⟨n, rfl, hn⟩
    refine ⟨n, ?_, rfl⟩
    have h1 : (n : Int) ≤ (r.stop - r.start) / r.step :=
      (Int.le_ediv_iff_mul_le (by omega)).2 (by omega)
    omega

theorem nodup_iters (r : Rng) (hs : 1 ≤ r.step) : r.iters.Nodup := by
  unfold Rng.iters
  apply List.Nodup.map _ List.nodup_range
  intro a b h
  simp only at h
  have : ((a : Int) - b) * r.step = 0 := by rw [Int.sub_mul]; omega
  rcases Int.mul_eq_zero.1 this with h | h <;> omega

/-- The guard selects the values of the range. -/
theorem guard_iff (g : Guard) (env : Env) (hs : 1 ≤ g.r.step) :
    g.holds env = true ↔ g.r.Has (env g.p) := by
  unfold Guard.holds Rng.Has
  simp only [Bool.and_eq_true, decide_eq_true_eq]
  constructor
  · rintro ⟨⟨h1, h2⟩, h3⟩
    obtain ⟨k, hk⟩ := Int.dvd_of_emod_eq_zero h3
    have hk0 : 0 ≤ k := by
      rcases Int.lt_or_le k 0 with h | h
      · have h5 : g.r.step * k < 0 := Int.mul_neg_of_pos_of_neg (by omega) h
        omega
      · exact h
    refine ⟨k.toNat, ?_, h2⟩
    rw [Int.toNat_of_nonneg hk0, Int.mul_comm]
    omega
  · rintro ⟨n, hn, h2⟩
    have h4 : (0:Int) ≤ n * g.r.step := Int.mul_nonneg (by omega) (by omega)
    refine ⟨⟨by omega, h2⟩, ?_⟩
    have : env g.p - g.r.start = n * g.r.step := by omega
    rw [this]; exact Int.mul_emod_left _ _

theorem merged_has (r1 r2 : Rng) (hs : 1 ≤ r1.step) (i : Int) (h : r1.Has i) :
    (mergedRange r1 r2).Has i ∧ (mergedRange r2 r1).Has i := by
  obtain ⟨n, h1, h2⟩ := h
  have h4 : (0:Int) ≤ n * r1.step := Int.mul_nonneg (by omega) (by omega)
  refine ⟨⟨(i - min r1.start r2.start).toNat, ?_⟩, ⟨(i - min r2.start r1.start).toNat, ?_⟩⟩ <;>
    · simp only [mergedRange]
      omega

/-- Filtering the merged range by the guard gives the range. -/
theorem filter_merged (r m : Rng) (hs : 1 ≤ r.step) (hm : 1 ≤ m.step)
    (hin : ∀ i, r.Has i → m.Has i) (p : Nat) (env : Env) (l : List Int) (hl : l.Perm m.iters) :
    (l.filter fun i => Guard.holds (env.set p i) ⟨p, r⟩).Perm r.iters := by
  have hp : (l.filter fun i => Guard.holds (env.set p i) ⟨p, r⟩).Perm
      (m.iters.filter fun i => Guard.holds (env.set p i) ⟨p, r⟩) := hl.filter _
  refine hp.trans ?_
  rw [List.perm_ext_iff_of_nodup ((nodup_iters m hm).filter _) (nodup_iters r hs)]
  intro i
  have hg := guard_iff ⟨p, r⟩ (env.set p i) hs
  simp only [Env.set, if_true] at hg
  rw [List.mem_filter, mem_iters m hm, mem_iters r hs]
  constructor
  · rintro ⟨_, h⟩; exact hg.1 h
  · intro h; exact ⟨hin i h, hg.2 h⟩

/-! ### Footprints -/

def Tree.Writes : Tree V → Env → Cell → Prop
  | .done, _, _ => False
  | .tasklet t rest, env, c => (∃ m ∈ t.outs, m.covers env c = true) ∨ rest.Writes env c
  | .ifS _ body rest, env, c => body.Writes env c ∨ rest.Writes env c
  | .mapS q _ body rest, env, c => (∃ i, body.Writes (env.set q i) c) ∨ rest.Writes env c
  | .forS q _ body rest, env, c => (∃ i, body.Writes (env.set q i) c) ∨ rest.Writes env c

def Tree.Reads : Tree V → Env → Cell → Prop
  | .done, _, _ => False
  | .tasklet t rest, env, c => (∃ m ∈ t.ins, m.covers env c = true) ∨ rest.Reads env c
  | .ifS _ body rest, env, c => body.Reads env c ∨ rest.Reads env c
  | .mapS q _ body rest, env, c => (∃ i, body.Reads (env.set q i) c) ∨ rest.Reads env c
  | .forS q _ body rest, env, c => (∃ i, body.Reads (env.set q i) c) ∨ rest.Reads env c

theorem writeOuts_frame (env : Env) (val : Nat → List Int → V) (c : Cell) :
    ∀ (ms : List Memlet) (n : Nat) (mem : Mem V), (∀ m ∈ ms, m.covers env c = false) →
      writeOuts env val ms n mem c = mem c := by
  intro ms
  induction ms with
  | nil => intros; rfl
  | cons m ms ih =>
    intro n mem h
    simp only [writeOuts]
    rw [ih _ _ (fun x hx => h x (by simp [hx]))]
    have h1 := h m (by simp)
    simp only [Memlet.covers] at h1
    by_cases hd : c.1 = m.data
    · rw [if_pos hd]
      cases hr : relative env m.subset c.2 with
      | none => rfl
      | some r => simp [hd, hr] at h1
    · rw [if_neg hd]

theorem writeOuts_agree (env : Env) (val : Nat → List Int → V) (c : Cell) :
    ∀ (ms : List Memlet) (n : Nat) (mem mem' : Mem V), mem c = mem' c →
      writeOuts env val ms n mem c = writeOuts env val ms n mem' c := by
  intro ms
  induction ms with
  | nil => intro n mem mem' h; exact h
  | cons m ms ih =>
    intro n mem mem' h
    simp only [writeOuts]
    apply ih
    by_cases hd : c.1 = m.data
    · rw [if_pos hd, if_pos hd]
      cases relative env m.subset c.2 with
      | none => exact h
      | some r => rfl
    · rw [if_neg hd, if_neg hd]; exact h

variable [Inhabited V]

theorem tasklet_frame (t : Tasklet V) (env : Env) (mem : Mem V) (c : Cell)
    (h : ¬ ∃ m ∈ t.outs, m.covers env c = true) : t.exec env mem c = mem c := by
  apply writeOuts_frame
  intro m hm
  cases e : m.covers env c with
  | false => rfl
  | true => exact absurd ⟨m, hm, e⟩ h

theorem tasklet_agree (t : Tasklet V) (env : Env) (S : Cell → Prop) (mem mem' : Mem V)
    (hS : ∀ c, (∃ m ∈ t.ins, m.covers env c = true) → S c)
    (h : ∀ c, S c → mem c = mem' c) (c : Cell) (hc : S c) :
    t.exec env mem c = t.exec env mem' c := by
  have hin : input env mem t.ins = input env mem' t.ins := by
    funext n rel
    unfold input
    cases e : t.ins[n]? with
    | none => rfl
    | some m =>
      simp only
      split
      · rename_i hcov
        exact h _ (hS _ ⟨m, List.mem_of_getElem? e, hcov⟩)
      · rfl
  unfold Tasklet.exec
  rw [hin]
  exact writeOuts_agree _ _ _ _ _ _ _ (h c hc)

theorem run_frame (b : Env → Mem V → Mem V) (p : Nat) (env : Env) (c : Cell)
    (h : ∀ i mem, b (env.set p i) mem c = mem c) (l : List Int) (mem : Mem V) :
    runOrder b p env l mem c = mem c := by
  unfold runOrder
  induction l generalizing mem with
  | nil => rfl
  | cons i l ih => rw [List.foldl_cons, ih, h]

theorem run_agree (b : Env → Mem V → Mem V) (p : Nat) (env : Env) (S : Cell → Prop)
    (h : ∀ i mem mem', (∀ c, S c → mem c = mem' c) →
      ∀ c, S c → b (env.set p i) mem c = b (env.set p i) mem' c) (l : List Int) :
    ∀ (mem mem' : Mem V), (∀ c, S c → mem c = mem' c) →
      ∀ c, S c → runOrder b p env l mem c = runOrder b p env l mem' c := by
  unfold runOrder
  induction l with
  | nil => intro mem mem' hm c hc; exact hm c hc
  | cons i l ih =>
    intro mem mem' hm c hc
    rw [List.foldl_cons, List.foldl_cons]
    exact ih _ _ (h i _ _ hm) c hc

/-- A tree changes only what it writes. -/
theorem exec_frame (σ : Sched) (t : Tree V) : ∀ (env : Env) (mem : Mem V) (c : Cell),
    ¬ t.Writes env c → t.exec σ env mem c = mem c := by
  induction t with
  | done => intros; rfl
  | tasklet t rest ih =>
    intro env mem c h
    simp only [Tree.Writes, not_or] at h
    simp only [Tree.exec]
    rw [ih _ _ _ h.2, tasklet_frame _ _ _ _ h.1]
  | ifS g body rest ihb ih =>
    intro env mem c h
    simp only [Tree.Writes, not_or] at h
    simp only [Tree.exec]
    rw [ih _ _ _ h.2]
    split
    · exact ihb _ _ _ h.1
    · rfl
  | mapS q r body rest ihb ih =>
    intro env mem c h
    simp only [Tree.Writes, not_or] at h
    simp only [Tree.exec]
    rw [ih _ _ _ h.2]
    exact run_frame _ _ _ _ (fun i m => ihb _ _ _ fun hw => h.1 ⟨i, hw⟩) _ _
  | forS q r body rest ihb ih =>
    intro env mem c h
    simp only [Tree.Writes, not_or] at h
    simp only [Tree.exec]
    rw [ih _ _ _ h.2]
    exact run_frame _ _ _ _ (fun i m => ihb _ _ _ fun hw => h.1 ⟨i, hw⟩) _ _

/-- What a tree does depends only on what it reads. -/
theorem exec_agree (σ : Sched) (S : Cell → Prop) (t : Tree V) : ∀ (env : Env) (mem mem' : Mem V),
    (∀ c, t.Reads env c → S c) → (∀ c, S c → mem c = mem' c) →
    ∀ c, S c → t.exec σ env mem c = t.exec σ env mem' c := by
  induction t with
  | done => intro env mem mem' _ h c hc; exact h c hc
  | tasklet t rest ih =>
    intro env mem mem' hR h c hc
    simp only [Tree.exec]
    exact ih env _ _ (fun c h => hR c (.inr h))
      (tasklet_agree t env S mem mem' (fun c h => hR c (.inl h)) h) c hc
  | ifS g body rest ihb ih =>
    intro env mem mem' hR h c hc
    simp only [Tree.exec]
    apply ih env _ _ (fun c h => hR c (.inr h)) _ c hc
    split
    · exact ihb env _ _ (fun c h => hR c (.inl h)) h
    · exact h
  | mapS q r body rest ihb ih =>
    intro env mem mem' hR h c hc
    simp only [Tree.exec]
    apply ih env _ _ (fun c h => hR c (.inr h)) _ c hc
    exact run_agree _ _ _ S (fun i m m' hm => ihb _ _ _ (fun c h => hR c (.inl ⟨i, h⟩)) hm) _ _ _ h
  | forS q r body rest ihb ih =>
    intro env mem mem' hR h c hc
    simp only [Tree.exec]
    apply ih env _ _ (fun c h => hR c (.inr h)) _ c hc
    exact run_agree _ _ _ S (fun i m m' hm => ihb _ _ _ (fun c h => hR c (.inl ⟨i, h⟩)) hm) _ _ _ h

/-- Two trees that do not touch what the other writes can be swapped. -/
theorem exec_comm (σ : Sched) (t u : Tree V) (et eu : Env)
    (h1 : ∀ c, t.Writes et c → ¬ u.Writes eu c ∧ ¬ u.Reads eu c)
    (h2 : ∀ c, u.Writes eu c → ¬ t.Reads et c) (mem : Mem V) :
    u.exec σ eu (t.exec σ et mem) = t.exec σ et (u.exec σ eu mem) := by
  funext c
  by_cases hc : t.Writes et c
  · rw [exec_frame σ u eu _ c (h1 c hc).1]
    exact exec_agree σ (fun c => ¬ u.Writes eu c) t et _ _ (fun c hr hw => h2 c hw hr)
      (fun c hw => (exec_frame σ u eu _ c hw).symm) c (h1 c hc).1
  · rw [exec_frame σ t et _ c hc]
    exact exec_agree σ (fun c => ¬ t.Writes et c) u eu _ _ (fun c hr hw => (h1 c hw).2 hr)
      (fun c hw => exec_frame σ t et _ c hw) c hc

omit [Inhabited V] in
theorem relative_at (env : Env) (axis : Nat) (p : Nat) (off : Int) :
    ∀ (ss : List (Ix × Nat)) (is rel : List Int), relative env ss is = some rel →
      ss[axis]? = some (Ix.var p off, 1) → is[axis]? = some (env p + off) := by
  intro ss
  induction ss generalizing axis with
  | nil => intro is rel _ h; simp at h
  | cons s ss ih =>
    intro is rel h ha
    cases is with
    | nil => simp [relative] at h
    | cons i is =>
      obtain ⟨s, n⟩ := s
      simp only [relative] at h
      split at h
      · rename_i hb
        cases axis with
        | zero =>
          simp only [List.getElem?_cons_zero, Option.some.injEq, Prod.mk.injEq] at ha ⊢
          obtain ⟨rfl, rfl⟩ := ha
          simp only [Ix.eval] at hb
          omega
        | succ a =>
          simp only [List.getElem?_cons_succ] at ha ⊢
          split at h
          · rename_i r hr
            exact ih a is r hr ha
          · cases h
      · cases h

theorem covers_at (env : Env) (axis p : Nat) (off : Int) (m : Memlet) (c : Cell)
    (h : m.covers env c = true) :
    c.1 = m.data ∧ (m.subset[axis]? = some (Ix.var p off, 1) → c.2[axis]? = some (env p + off)) := by
  simp only [Memlet.covers, Bool.and_eq_true, decide_eq_true_eq, Option.isSome_iff_exists] at h
  obtain ⟨hd, rel, hr⟩ := h
  exact ⟨hd, relative_at env axis p off _ _ rel hr⟩

theorem set_ne (env : Env) {p q : Nat} (h : q ≠ p) (i : Int) : (env.set q i) p = env p := by
  simp only [Env.set]
  rw [if_neg (fun e => h e.symm)]

omit [Inhabited V] in
theorem writes_at (axis p : Nat) (t : Tree V) : ∀ (env : Env) (c : Cell), t.NoBind p →
    t.Writes env c → ∃ m ∈ t.outMemlets, c.1 = m.data ∧
      ∀ off, m.subset[axis]? = some (Ix.var p off, 1) → c.2[axis]? = some (env p + off) := by
  induction t with
  | done => intro env c _ h; exact h.elim
  | tasklet t rest ih =>
    intro env c hb h
    simp only [Tree.outMemlets]
    rcases h with ⟨m, hm, hc⟩ | h
    · exact ⟨m, by simp [hm], (covers_at env axis p 0 m c hc).1,
        fun off => (covers_at env axis p off m c hc).2⟩
    · obtain ⟨m, hm, hc⟩ := ih env c hb h
      exact ⟨m, by simp [hm], hc⟩
  | ifS g body rest ihb ih =>
    intro env c hb h
    simp only [Tree.outMemlets]
    rcases h with h | h
    · obtain ⟨m, hm, hc⟩ := ihb env c hb.1 h
      exact ⟨m, by simp [hm], hc⟩
    · obtain ⟨m, hm, hc⟩ := ih env c hb.2 h
      exact ⟨m, by simp [hm], hc⟩
  | mapS q r body rest ihb ih =>
    intro env c hb h
    simp only [Tree.outMemlets]
    rcases h with ⟨i, h⟩ | h
    · obtain ⟨m, hm, hc⟩ := ihb _ c hb.2.1 h
      rw [set_ne env hb.1] at hc
      exact ⟨m, by simp [hm], hc⟩
    · obtain ⟨m, hm, hc⟩ := ih env c hb.2.2 h
      exact ⟨m, by simp [hm], hc⟩
  | forS q r body rest ihb ih =>
    intro env c hb h
    simp only [Tree.outMemlets]
    rcases h with ⟨i, h⟩ | h
    · obtain ⟨m, hm, hc⟩ := ihb _ c hb.2.1 h
      rw [set_ne env hb.1] at hc
      exact ⟨m, by simp [hm], hc⟩
    · obtain ⟨m, hm, hc⟩ := ih env c hb.2.2 h
      exact ⟨m, by simp [hm], hc⟩

omit [Inhabited V] in
theorem reads_at (axis p : Nat) (t : Tree V) : ∀ (env : Env) (c : Cell), t.NoBind p →
    t.Reads env c → ∃ m ∈ t.inMemlets, c.1 = m.data ∧
      ∀ off, m.subset[axis]? = some (Ix.var p off, 1) → c.2[axis]? = some (env p + off) := by
  induction t with
  | done => intro env c _ h; exact h.elim
  | tasklet t rest ih =>
    intro env c hb h
    simp only [Tree.inMemlets]
    rcases h with ⟨m, hm, hc⟩ | h
    · exact ⟨m, by simp [hm], (covers_at env axis p 0 m c hc).1,
        fun off => (covers_at env axis p off m c hc).2⟩
    · obtain ⟨m, hm, hc⟩ := ih env c hb h
      exact ⟨m, by simp [hm], hc⟩
  | ifS g body rest ihb ih =>
    intro env c hb h
    simp only [Tree.inMemlets]
    rcases h with h | h
    · obtain ⟨m, hm, hc⟩ := ihb env c hb.1 h
      exact ⟨m, by simp [hm], hc⟩
    · obtain ⟨m, hm, hc⟩ := ih env c hb.2 h
      exact ⟨m, by simp [hm], hc⟩
  | mapS q r body rest ihb ih =>
    intro env c hb h
    simp only [Tree.inMemlets]
    rcases h with ⟨i, h⟩ | h
    · obtain ⟨m, hm, hc⟩ := ihb _ c hb.2.1 h
      rw [set_ne env hb.1] at hc
      exact ⟨m, by simp [hm], hc⟩
    · obtain ⟨m, hm, hc⟩ := ih env c hb.2.2 h
      exact ⟨m, by simp [hm], hc⟩
  | forS q r body rest ihb ih =>
    intro env c hb h
    simp only [Tree.inMemlets]
    rcases h with ⟨i, h⟩ | h
    · obtain ⟨m, hm, hc⟩ := ihb _ c hb.2.1 h
      rw [set_ne env hb.1] at hc
      exact ⟨m, by simp [hm], hc⟩
    · obtain ⟨m, hm, hc⟩ := ih env c hb.2.2 h
      exact ⟨m, by simp [hm], hc⟩

/-- What memlets a tree may use: its writes are in `O`, its reads in `A`. -/
def Within (O A : List Memlet) (t : Tree V) : Prop :=
  (∀ m ∈ t.outMemlets, m ∈ O) ∧ (∀ m ∈ t.inMemlets, m ∈ A)

/-- `Pointwise` for lists of memlets. -/
def PW (axis p : Nat) (O A : List Memlet) : Prop :=
  ∀ w ∈ O, ∀ m ∈ O ++ A, w.data = m.data → SameIndex axis p w m

/-- Different iterations of the axis commute. -/
theorem comm_at (σ : Sched) (axis p : Nat) (O A : List Memlet) (hpw : PW axis p O A)
    (t u : Tree V) (ht : Within O A t) (hu : Within O A u) (bt : t.NoBind p) (bu : u.NoBind p)
    (et eu : Env) (hne : et p ≠ eu p) (mem : Mem V) :
    u.exec σ eu (t.exec σ et mem) = t.exec σ et (u.exec σ eu mem) := by
  apply exec_comm
  · intro c hw
    obtain ⟨w, hwm, hwd, hwi⟩ := writes_at axis p t et c bt hw
    constructor
    · intro hc
      obtain ⟨m, hm, hd, hi⟩ := writes_at axis p u eu c bu hc
      obtain ⟨off, h1, h2⟩ := hpw w (ht.1 w hwm) m (by simp [hu.1 m hm]) (by rw [← hwd, hd])
      have := (hwi off h1).symm.trans (hi off h2)
      simp only [Option.some.injEq] at this
      omega
    · intro hc
      obtain ⟨m, hm, hd, hi⟩ := reads_at axis p u eu c bu hc
      obtain ⟨off, h1, h2⟩ := hpw w (ht.1 w hwm) m (by simp [hu.2 m hm]) (by rw [← hwd, hd])
      have := (hwi off h1).symm.trans (hi off h2)
      simp only [Option.some.injEq] at this
      omega
  · intro c hw hc
    obtain ⟨w, hwm, hwd, hwi⟩ := writes_at axis p u eu c bu hw
    obtain ⟨m, hm, hd, hi⟩ := reads_at axis p t et c bt hc
    obtain ⟨off, h1, h2⟩ := hpw w (hu.1 w hwm) m (by simp [ht.2 m hm]) (by rw [← hwd, hd])
    have := (hwi off h1).symm.trans (hi off h2)
    simp only [Option.some.injEq] at this
    omega

/-! ### Lists of nodes -/

theorem exec_append (σ : Sched) (t u : Tree V) (env : Env) :
    ∀ mem, (t.append u).exec σ env mem = u.exec σ env (t.exec σ env mem) := by
  induction t with
  | done => intro; rfl
  | tasklet t rest ih => intro mem; simp only [Tree.append, Tree.exec]; rw [ih]
  | ifS g body rest _ ih => intro mem; simp only [Tree.append, Tree.exec]; rw [ih]
  | mapS q r body rest _ ih => intro mem; simp only [Tree.append, Tree.exec]; rw [ih]
  | forS q r body rest _ ih => intro mem; simp only [Tree.append, Tree.exec]; rw [ih]

theorem run_congr (b b' : Env → Mem V → Mem V) (p : Nat) (env : Env) (l : List Int)
    (h : ∀ i mem, b (env.set p i) mem = b' (env.set p i) mem) (mem : Mem V) :
    runOrder b p env l mem = runOrder b' p env l mem := by
  unfold runOrder
  congr 1
  funext m i
  exact h i m

theorem run_id (b : Env → Mem V → Mem V) (p : Nat) (env : Env) (l : List Int)
    (h : ∀ i mem, b (env.set p i) mem = mem) (mem : Mem V) : runOrder b p env l mem = mem := by
  unfold runOrder
  induction l generalizing mem with
  | nil => rfl
  | cons i l ih => rw [List.foldl_cons, h, ih]

theorem holds_set (g : Guard) (env : Env) {q : Nat} (h : q ≠ g.p) (i : Int) :
    g.holds (env.set q i) = g.holds env := by
  unfold Guard.holds; rw [set_ne env h]

/-- Guarded children run exactly when the guard holds. -/
theorem exec_guard (σ : Sched) (g : Guard) (t : Tree V) : ∀ (env : Env) (mem : Mem V), t.NoBind g.p →
    (t.guardChildren g false).exec σ env mem = if g.holds env then t.exec σ env mem else mem := by
  induction t with
  | done => intro env mem _; simp [Tree.guardChildren, Tree.exec]
  | tasklet t rest ih =>
    intro env mem _
    simp only [Tree.guardChildren, Bool.false_eq_true, if_false]
    simp only [Tree.exec]
  | ifS g' body rest ihb ih =>
    intro env mem _
    simp only [Tree.guardChildren, Bool.false_eq_true, if_false]
    simp only [Tree.exec]
  | forS q r body rest ihb ih =>
    intro env mem _
    simp only [Tree.guardChildren, Bool.false_eq_true, if_false]
    simp only [Tree.exec]
  | mapS q r body rest ihb ih =>
    intro env mem hb
    simp only [Tree.guardChildren, Bool.false_eq_true, if_false]
    split
    · simp only [Tree.exec]
      rw [ih env _ hb.2.2]
      cases hg : g.holds env with
      | false =>
        simp only [Bool.false_eq_true, if_false]
        apply run_id
        intro i m
        rw [ihb _ _ hb.2.1, holds_set g env hb.1, hg]
        simp
      | true =>
        simp only [if_true]
        congr 1
        apply run_congr
        intro i m
        rw [ihb _ _ hb.2.1, holds_set g env hb.1, hg]
        simp
    · simp only [Tree.exec]

omit [Inhabited V] in
theorem guard_unchanged (g : Guard) (t : Tree V) : t.guardChildren g true = t := by
  induction t with
  | done => rfl
  | tasklet t rest ih => simp [Tree.guardChildren]
  | ifS g' body rest ihb ih => simp [Tree.guardChildren]
  | forS q r body rest ihb ih => simp [Tree.guardChildren]
  | mapS q r body rest ihb ih => simp only [Tree.guardChildren, ihb, ih]; simp

end NDSL.AxisMerge
