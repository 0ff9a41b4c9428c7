import Verif.Spec.BufferPool
import Mathlib.Data.List.Nodup

/-
Property theorem C26: pooled buffers have a single owner.
-/
namespace NDSL

/-- everything owned -/
def Pool.owned (p : Pool) : List Buf := p.users.flatMap BufUser.owns

/-- the invariant -/
structure PoolOk (p : Pool) : Prop where
  nodup : p.owned.Nodup
  free : ∀ b ∈ p.owned, ∀ k, b ∉ p.free k
  freeOnce : ∀ k, (p.free k).Nodup
  key : ∀ k, ∀ b ∈ p.free k, b.key = k
  lo : ∀ b ∈ p.owned, b.id < p.next
  lf : ∀ k, ∀ b ∈ p.free k, b.id < p.next

theorem PoolOk.of {p p' : Pool} (h : PoolOk p) (hf : p'.free = p.free) (hn : p'.next = p.next)
    (ho : p'.owned.Sublist p.owned) : PoolOk p' :=
  ⟨h.nodup.sublist ho, fun b hb k => by rw [hf]; exact h.free b (ho.subset hb) k,
    fun k => by rw [hf]; exact h.freeOnce k, fun k => by rw [hf]; exact h.key k,
    fun b hb => by rw [hn]; exact h.lo b (ho.subset hb), fun k => by rw [hf, hn]; exact h.lf k⟩

theorem pop_users (p : Pool) (k : BufKey) : (p.pop k).2.users = p.users := by
  unfold Pool.pop; split <;> rfl

theorem pop_owned (p : Pool) (k : BufKey) : (p.pop k).2.owned = p.owned := by
  unfold Pool.owned; rw [pop_users]

/-- a popped buffer is nobody's and no longer free -/
theorem pop_ok {p : Pool} (h : PoolOk p) (k : BufKey) :
    PoolOk (p.pop k).2 ∧ (p.pop k).1 ∉ p.owned ∧ (∀ k', (p.pop k).1 ∉ (p.pop k).2.free k') ∧
    (p.pop k).1.id < (p.pop k).2.next ∧ (p.pop k).1.key = k ∧
    (∀ b, (∀ k', b ∉ p.free k') → ∀ k', b ∉ (p.pop k).2.free k') ∧ p.next ≤ (p.pop k).2.next ∧
    (∀ b, (∀ k', b ∉ p.free k') → b.id < p.next → b ≠ (p.pop k).1) := by
  cases hl : (p.free k).getLast? with
  | none =>
    have e : p.pop k = (⟨k, p.next⟩, { p with next := p.next + 1 }) := by
      unfold Pool.pop; rw [hl]
    rw [e]
    refine ⟨⟨h.nodup, h.free, h.freeOnce, h.key, fun b hb => ?_, fun k b hb => ?_⟩, ?_, ?_, ?_, rfl,
      fun b hb => hb, ?_, ?_⟩
    · have := h.lo b hb; simp only; omega
    · have := h.lf k b hb; simp only; omega
    · intro hm; have := h.lo _ hm; simp at this
    · intro k' hm; have := h.lf k' _ hm; simp at this
    · simp only; omega
    · simp only; omega
    · intro b _ hb e; rw [e] at hb; simp at hb
  | some b =>
    have e : p.pop k = (b, { p with free := fun k' => if k' = k then (p.free k).dropLast else p.free k' }) := by
      unfold Pool.pop; rw [hl]
    have hne : p.free k ≠ [] := by rintro h0; rw [h0] at hl; simp at hl
    have hb : b ∈ p.free k := List.mem_of_getLast? hl
    have hsplit : p.free k = (p.free k).dropLast ++ [b] := by
      rw [List.getLast?_eq_getLast_of_ne_nil hne] at hl
      injection hl with hl
      rw [← hl, List.dropLast_append_getLast]
    have hdl : b ∉ (p.free k).dropLast := by
      have hn := h.freeOnce k
      rw [hsplit] at hn
      intro hm
      exact (List.nodup_append.1 hn).2.2 b hm b (by simp) rfl
    have hsub : ∀ k', ∀ x ∈ (if k' = k then (p.free k).dropLast else p.free k'), x ∈ p.free k' := by
      intro k' x hx
      split at hx
      · subst_vars; exact List.dropLast_subset _ hx
      · exact hx
    rw [e]
    refine ⟨⟨h.nodup, fun x hx k' hm => h.free x hx k' (hsub k' x hm), fun k' => ?_,
      fun k' x hx => h.key k' x (hsub k' x hx), h.lo, fun k' x hx => h.lf k' x (hsub k' x hx)⟩,
      fun hm => h.free b hm k hb, ?_, h.lf k b hb, h.key k b hb, ?_, Nat.le_refl _, ?_⟩
    · simp only
      split
      · exact (h.freeOnce k).sublist (List.dropLast_sublist _)
      · exact h.freeOnce k'
    · intro k' hm
      simp only at hm
      split at hm
      · exact hdl hm
      · rename_i hk
        exact hk ((h.key k' b hm).symm.trans (h.key k b hb))
    · intro x hx k' hm
      exact hx k' (hsub k' x hm)
    · intro x hx _ e
      subst e
      exact hx k hb

theorem push_ok {p : Pool} (h : PoolOk p) {b : Buf} (ho : b ∉ p.owned) (hf : ∀ k, b ∉ p.free k)
    (hl : b.id < p.next) : PoolOk (p.push b) := by
  unfold Pool.push
  refine ⟨h.nodup, fun x hx k => ?_, fun k => ?_, fun k x hx => ?_, h.lo, fun k x hx => ?_⟩
  · simp only
    split
    · intro hm
      rcases List.mem_append.1 hm with hm | hm
      · exact h.free x hx k hm
      · rw [List.mem_singleton] at hm; subst hm; exact ho hx
    · exact h.free x hx k
  · simp only
    split
    · refine List.nodup_append.2 ⟨h.freeOnce k, by simp, ?_⟩
      intro a ha c hc e
      rw [List.mem_singleton] at hc
      subst e; subst hc
      exact hf k ha
    · exact h.freeOnce k
  · simp only at hx
    split at hx
    · rcases List.mem_append.1 hx with hx | hx
      · exact h.key k x hx
      · rw [List.mem_singleton] at hx; subst hx; rename_i e; exact e.symm
    · exact h.key k x hx
  · simp only at hx
    split at hx
    · rcases List.mem_append.1 hx with hx | hx
      · exact h.lf k x hx
      · rw [List.mem_singleton] at hx; subst hx; exact hl
    · exact h.lf k x hx

theorem push_free {p : Pool} {b x : Buf} (hne : x ≠ b) (hx : ∀ k, x ∉ p.free k) :
    ∀ k, x ∉ (p.push b).free k := by
  intro k hm
  unfold Pool.push at hm
  simp only at hm
  split at hm
  · rcases List.mem_append.1 hm with hm | hm
    · exact hx k hm
    · rw [List.mem_singleton] at hm; exact hne hm
  · exact hx k hm

theorem pushAll_ok : ∀ (bs : List Buf) {p : Pool}, PoolOk p → bs.Nodup → (∀ b ∈ bs, b ∉ p.owned) →
    (∀ b ∈ bs, ∀ k, b ∉ p.free k) → (∀ b ∈ bs, b.id < p.next) → PoolOk (p.pushAll bs)
  | [], _, h, _, _, _, _ => h
  | b :: bs, p, h, hn, ho, hf, hl => by
    unfold Pool.pushAll
    rw [List.foldl_cons]
    have hn' := List.nodup_cons.1 hn
    refine pushAll_ok bs (push_ok h (ho b List.mem_cons_self) (hf b List.mem_cons_self)
      (hl b List.mem_cons_self)) hn'.2 (fun x hx => ho x (List.mem_cons_of_mem _ hx)) (fun x hx => ?_)
      (fun x hx => hl x (List.mem_cons_of_mem _ hx))
    refine push_free ?_ (hf x (List.mem_cons_of_mem _ hx))
    rintro rfl
    exact hn'.1 hx

theorem popAll_ok : ∀ (ks : List BufKey) {p : Pool}, PoolOk p →
    PoolOk (p.popAll ks).2 ∧ (p.popAll ks).2.users = p.users ∧ (p.popAll ks).1.Nodup ∧
    (∀ b ∈ (p.popAll ks).1, b ∉ p.owned ∧ (∀ k, b ∉ (p.popAll ks).2.free k) ∧
      b.id < (p.popAll ks).2.next) ∧
    (∀ b, (∀ k', b ∉ p.free k') → b.id < p.next → b ∉ (p.popAll ks).1 ∧
      ∀ k', b ∉ (p.popAll ks).2.free k') ∧ p.next ≤ (p.popAll ks).2.next
  | [], p, h => ⟨h, rfl, by simp [Pool.popAll], by simp [Pool.popAll],
      fun b hb _ => ⟨by simp [Pool.popAll], hb⟩, Nat.le_refl _⟩
  | k :: ks, p, h => by
    obtain ⟨h1, h2, h3, h4, h5, h6, h7, h8⟩ := pop_ok h k
    obtain ⟨g1, g2, g3, g4, g5, g6⟩ := popAll_ok ks h1
    have hb := g5 (p.pop k).1 h3 h4
    unfold Pool.popAll
    simp only
    refine ⟨g1, by rw [g2, pop_users], List.nodup_cons.2 ⟨hb.1, g3⟩, ?_, ?_, Nat.le_trans h7 g6⟩
    · intro b hm
      rcases List.mem_cons.1 hm with rfl | hm
      · exact ⟨h2, hb.2, Nat.lt_of_lt_of_le h4 g6⟩
      · have := g4 b hm
        rw [pop_owned] at this
        exact this
    · intro b hbf hbl
      have := g5 b (h6 b hbf) (Nat.lt_of_lt_of_le hbl h7)
      refine ⟨fun hm => ?_, this.2⟩
      rcases List.mem_cons.1 hm with rfl | hm
      · exact h8 _ hbf hbl rfl
      · exact this.1 hm

theorem add_user {p : Pool} (h : PoolOk p) (u : BufUser) (hn : u.owns.Nodup)
    (ho : ∀ b ∈ u.owns, b ∉ p.owned ∧ (∀ k, b ∉ p.free k) ∧ b.id < p.next) :
    PoolOk { p with users := p.users ++ [u] } := by
  have e : Pool.owned { p with users := p.users ++ [u] } = p.owned ++ u.owns := by
    unfold Pool.owned; simp
  refine ⟨?_, ?_, h.freeOnce, h.key, ?_, h.lf⟩
  · rw [e]
    refine List.nodup_append.2 ⟨h.nodup, hn, ?_⟩
    intro a ha b hb e
    subst e
    exact (ho a hb).1 ha
  · rw [e]
    intro b hb
    rcases List.mem_append.1 hb with hb | hb
    · exact h.free b hb
    · exact (ho b hb).2.1
  · rw [e]
    intro b hb
    rcases List.mem_append.1 hb with hb | hb
    · exact h.lo b hb
    · exact (ho b hb).2.2

theorem owned_split : ∀ (l : List BufUser) (i : Nat) (u : BufUser), l[i]? = some u →
    ∃ a c, l = a ++ u :: c ∧ ∀ v, l.set i v = a ++ v :: c
  | x :: l, 0, u, h => by
    rw [List.getElem?_cons_zero] at h
    cases h
    exact ⟨[], l, rfl, fun _ => rfl⟩
  | x :: l, i + 1, u, h => by
    rw [List.getElem?_cons_succ] at h
    obtain ⟨a, c, e, hs⟩ := owned_split l i u h
    exact ⟨x :: a, c, by rw [e]; rfl, fun v => by rw [List.set_cons_succ, hs]; rfl⟩

/-- a user gives up its buffers -/
theorem drop_user {p : Pool} (h : PoolOk p) {i : Nat} {u v : BufUser} (hu : p.users[i]? = some u)
    (hv : v.owns = []) :
    PoolOk { p with users := p.users.set i v } ∧ u.owns.Nodup ∧
    ∀ b ∈ u.owns, b ∉ Pool.owned { p with users := p.users.set i v } ∧ (∀ k, b ∉ p.free k) ∧
      b.id < p.next := by
  obtain ⟨a, c, e, hs⟩ := owned_split _ _ _ hu
  have e1 : p.owned = a.flatMap BufUser.owns ++ (u.owns ++ c.flatMap BufUser.owns) := by
    unfold Pool.owned; rw [e]; simp
  have e2 : Pool.owned { p with users := p.users.set i v } =
      a.flatMap BufUser.owns ++ c.flatMap BufUser.owns := by
    unfold Pool.owned; simp only [hs]; simp [hv]
  have hn := h.nodup
  rw [e1] at hn
  have hn1 := List.nodup_append.1 hn
  have hn2 := List.nodup_append.1 hn1.2.1
  refine ⟨h.of rfl rfl ?_, hn2.1, ?_⟩
  · rw [e1, e2]
    exact List.Sublist.append_left (List.sublist_append_right _ _) _
  · intro b hb
    have hmem : b ∈ p.owned := by
      rw [e1]; exact List.mem_append_right _ (List.mem_append_left _ hb)
    refine ⟨?_, h.free b hmem, h.lo b hmem⟩
    rw [e2]
    intro hm
    rcases List.mem_append.1 hm with hm | hm
    · exact hn1.2.2 b hm b (List.mem_append_left _ hb) rfl
    · exact hn2.2.2 b hb b hm rfl

/-- requests already waited for are no longer owners and may not be waited for again -/
theorem step_ok {p : Pool} (h : PoolOk p) (op : BufOp)
    (hw : ∀ u bs, op = .waitRequest u → p.users[u]? ≠ some (.request bs true)) :
    PoolOk (p.step op) := by
  cases op with
  | newTransformer k =>
    obtain ⟨h1, h2, h3, h4, h5, h6, h7, h8⟩ := pop_ok h k
    obtain ⟨g1, g2, g3, g4, g5, g6, g7, g8⟩ := pop_ok h1 k
    unfold Pool.step
    simp only
    refine add_user g1 _ ?_ ?_
    · simp only [BufUser.owns]
      have := g8 _ h3 h4
      simpa using this
    · intro b hb
      simp only [BufUser.owns, List.mem_cons, List.not_mem_nil, or_false] at hb
      rw [pop_owned]
      rcases hb with rfl | rfl
      · refine ⟨by rw [pop_owned]; exact h2, g6 _ h3, by omega⟩
      · exact ⟨g2, g3, g4⟩
  | failTransformer k => exact (pop_ok h k).1
  | finalize u =>
    unfold Pool.step
    simp only
    split
    · rename_i a b hu
      obtain ⟨d1, d2, d3⟩ := drop_user h (v := .transformer none) hu rfl
      have e : ({ (p.push a).push b with users := ((p.push a).push b).users.set u (.transformer none) } : Pool)
          = (Pool.push (Pool.push { p with users := p.users.set u (.transformer none) } a) b) := rfl
      rw [e]
      have ha := d3 a (by simp [BufUser.owns])
      have hb := d3 b (by simp [BufUser.owns])
      have hab : a ≠ b := by simpa [BufUser.owns] using d2
      exact push_ok (push_ok d1 ha.1 ha.2.1 ha.2.2) hb.1 (push_free (Ne.symm hab) hb.2.1) hb.2.2
    · exact h
  | enter k =>
    obtain ⟨h1, h2, h3, h4, _⟩ := pop_ok h k
    unfold Pool.step
    simp only
    refine add_user h1 _ (by simp [BufUser.owns]) ?_
    intro b hb
    simp only [BufUser.owns, List.mem_singleton] at hb
    subst hb
    exact ⟨by rw [pop_owned]; exact h2, h3, h4⟩
  | leave u ex =>
    unfold Pool.step
    simp only
    split
    · rename_i b hu
      obtain ⟨d1, d2, d3⟩ := drop_user h (v := .block b false) hu rfl
      have hb := d3 b (by simp [BufUser.owns])
      cases ex
      · have e : ({ p.push b with users := (p.push b).users.set u (.block b false) } : Pool)
          = Pool.push { p with users := p.users.set u (.block b false) } b := rfl
        simp only [Bool.false_eq_true, if_false]
        rw [e]
        exact push_ok d1 hb.1 hb.2.1 hb.2.2
      · simp only [if_true]
        exact d1
    · exact h
  | newRequest ks =>
    obtain ⟨g1, g2, g3, g4, g5, g6⟩ := popAll_ok ks h
    unfold Pool.step
    simp only
    refine add_user g1 _ g3 ?_
    intro b hb
    have := g4 b hb
    unfold Pool.owned at this ⊢
    rw [g2]
    exact this
  | failRequest ks => exact (popAll_ok ks h).1
  | waitRequest u =>
    unfold Pool.step
    simp only
    split
    · rename_i bs w hu
      cases w
      · obtain ⟨d1, d2, d3⟩ := drop_user h (v := .request bs true) hu rfl
        have e : ∀ (l : List Buf) (q : Pool) (us : List BufUser),
            ({ q.pushAll l with users := us } : Pool) = Pool.pushAll { q with users := us } l := by
          intro l
          induction l with
          | nil => intro q us; rfl
          | cons x l ih => intro q us; exact ih (q.push x) us
        have eu : ∀ (l : List Buf) (q : Pool), (q.pushAll l).users = q.users := by
          intro l
          induction l with
          | nil => intro q; rfl
          | cons x l ih => intro q; exact ih (q.push x)
        rw [eu, e]
        exact pushAll_ok bs d1 d2 (fun b hb => (d3 b hb).1) (fun b hb => (d3 b hb).2.1)
          (fun b hb => (d3 b hb).2.2)
      · exact absurd hu (hw u bs rfl)
    · exact h

theorem init_ok : PoolOk Pool.init :=
  ⟨by simp [Pool.owned, Pool.init], by simp [Pool.owned, Pool.init], by simp [Pool.init],
    by simp [Pool.init], by simp [Pool.owned, Pool.init], by simp [Pool.init]⟩

/-- a waited request was waited for by an operation of the history -/
theorem waited_mem : ∀ (ops : List BufOp) (p : Pool) (u : Nat) (bs : List Buf),
    (ops.foldl Pool.step p).users[u]? = some (.request bs true) →
    (∃ bs', p.users[u]? = some (.request bs' true)) ∨ BufOp.waitRequest u ∈ ops
  | [], p, u, bs, h => .inl ⟨bs, h⟩
  | op :: ops, p, u, bs, h => by
    rw [List.foldl_cons] at h
    rcases waited_mem ops (p.step op) u bs h with ⟨bs', h'⟩ | h'
    · have app : ∀ (us : List BufUser) (v : BufUser), (∀ b, v ≠ .request b true) →
          (us ++ [v])[u]? = some (.request bs' true) → us[u]? = some (.request bs' true) := by
        intro us v hv he
        by_cases hu : u < us.length
        · rw [List.getElem?_append_left hu] at he; exact he
        · rw [List.getElem?_append_right (by omega)] at he
          have := List.mem_of_getElem? he
          rw [List.mem_singleton] at this
          exact absurd this.symm (hv bs')
      have st : ∀ (us : List BufUser) (i : Nat) (v : BufUser), (∀ b, v ≠ .request b true) →
          (us.set i v)[u]? = some (.request bs' true) → us[u]? = some (.request bs' true) := by
        intro us i v hv he
        by_cases hu : i = u
        · subst hu
          by_cases hlt : i < us.length
          · rw [List.getElem?_set_self hlt] at he
            injection he with he
            exact absurd he (hv bs')
          · rw [List.set_eq_of_length_le (by omega)] at he; exact he
        · rw [List.getElem?_set_ne hu] at he; exact he
      cases op with
      | newTransformer k =>
        refine .inl ⟨bs', ?_⟩
        have : ((p.pop k).2.pop k).2.users[u]? = some (.request bs' true) := app _ _ (by simp) h'
        rwa [pop_users, pop_users] at this
      | failTransformer k =>
        refine .inl ⟨bs', ?_⟩
        have h'' : (p.pop k).2.users[u]? = some (.request bs' true) := h'
        rwa [pop_users] at h''
      | finalize i =>
        unfold Pool.step at h'
        simp only at h'
        split at h'
        · exact .inl ⟨bs', st _ _ _ (by simp) h'⟩
        · exact .inl ⟨bs', h'⟩
      | enter k =>
        refine .inl ⟨bs', ?_⟩
        have : (p.pop k).2.users[u]? = some (.request bs' true) := app _ _ (by simp) h'
        rwa [pop_users] at this
      | leave i ex =>
        unfold Pool.step at h'
        simp only at h'
        split at h'
        · refine .inl ⟨bs', ?_⟩
          have := st _ _ _ (by simp) h'
          cases ex <;> exact this
        · exact .inl ⟨bs', h'⟩
      | newRequest ks =>
        refine .inl ⟨bs', ?_⟩
        have hpu : ∀ (ks : List BufKey) (q : Pool), (q.popAll ks).2.users = q.users := by
          intro ks
          induction ks with
          | nil => intro q; rfl
          | cons k ks ih => intro q; unfold Pool.popAll; simp only; rw [ih, pop_users]
        have := app _ _ (by simp) h'
        rwa [hpu] at this
      | failRequest ks =>
        refine .inl ⟨bs', ?_⟩
        have hpu : ∀ (ks : List BufKey) (q : Pool), (q.popAll ks).2.users = q.users := by
          intro ks
          induction ks with
          | nil => intro q; rfl
          | cons k ks ih => intro q; unfold Pool.popAll; simp only; rw [ih, pop_users]
        have h'' : (p.popAll ks).2.users[u]? = some (.request bs' true) := h'
        rwa [hpu] at h''
      | waitRequest i =>
        by_cases hiu : i = u
        · subst hiu; exact .inr List.mem_cons_self
        · unfold Pool.step at h'
          simp only at h'
          have eu : ∀ (l : List Buf) (q : Pool), (q.pushAll l).users = q.users := by
            intro l
            induction l with
            | nil => intro q; rfl
            | cons x l ih => intro q; exact ih (q.push x)
          split at h'
          · simp only [eu, List.getElem?_set_ne hiu] at h'
            exact .inl ⟨bs', h'⟩
          · exact .inl ⟨bs', h'⟩
    · exact .inr (List.mem_cons_of_mem _ h')

theorem run_ok : ∀ (ops : List BufOp) (p : Pool), PoolOk p → WaitsOnce ops →
    (∀ u bs, BufOp.waitRequest u ∈ ops → p.users[u]? ≠ some (.request bs true)) →
    PoolOk (ops.foldl Pool.step p)
  | [], p, h, _, _ => h
  | op :: ops, p, h, hw, hx => by
    rw [List.foldl_cons]
    refine run_ok ops _ (step_ok h op fun u bs e => hx u bs (e ▸ List.mem_cons_self)) ?_ ?_
    · unfold WaitsOnce at *
      rw [List.filterMap_cons] at hw
      split at hw
      · exact hw
      · exact (List.nodup_cons.1 hw).2
    · intro u bs hm he
      rcases waited_mem [op] p u bs he with ⟨bs', h'⟩ | h'
      · exact hx u bs' (List.mem_cons_of_mem _ hm) h'
      · rw [List.mem_singleton] at h'
        subst h'
        unfold WaitsOnce at hw
        rw [List.filterMap_cons] at hw
        simp only at hw
        exact (List.nodup_cons.1 hw).1 (List.mem_filterMap.2 ⟨_, hm, rfl⟩)

/-- C26: through every history of creating and finalizing transformers, entering and leaving buffer blocks
(normally or by an exception), and creating and waiting for update requests, in which no request is waited
for twice, no buffer is ever owned by two users, owned twice, or owned while it is free in the pool. -/
theorem C26_single_owner (ops : List BufOp) (h : WaitsOnce ops) : SingleOwner (Pool.run ops) := by
  have hok := run_ok ops Pool.init init_ok h (by intro u bs _ he; simp [Pool.init] at he)
  change PoolOk (Pool.run ops) at hok
  generalize Pool.run ops = p at hok
  refine ⟨?_, ?_, ?_, hok.freeOnce, hok.key⟩
  · intro i j u v hi hj hij b hb hb'
    have pw : p.users.Pairwise fun u v => ∀ b ∈ u.owns, b ∉ v.owns := by
      have := List.nodup_flatMap.1 hok.nodup
      refine this.2.imp ?_
      intro a c hac b h1 h2
      exact hac h1 h2
    obtain ⟨li, ei⟩ := List.getElem?_eq_some_iff.1 hi
    obtain ⟨lj, ej⟩ := List.getElem?_eq_some_iff.1 hj
    rcases Nat.lt_or_gt_of_ne hij with hlt | hlt
    · have := List.pairwise_iff_getElem.1 pw i j li lj hlt
      rw [ei, ej] at this
      exact this b hb hb'
    · have := List.pairwise_iff_getElem.1 pw j i lj li hlt
      rw [ei, ej] at this
      exact this b hb' hb
  · intro u hu
    exact (List.nodup_flatMap.1 hok.nodup).1 u hu
  · intro u hu b hb k
    exact hok.free b (List.mem_flatMap.2 ⟨u, hu, hb⟩) k

/-- Without the restriction the property is false: after a request has been waited for twice, two
transformers share a buffer. -/
theorem C26_double_wait_violated : ∃ ops : List BufOp,
    ¬ SingleOwner (Pool.run ops) ∧
    ∃ b u v, (Pool.run ops).users[1]? = some u ∧ (Pool.run ops).users[2]? = some v ∧
      b ∈ u.owns ∧ b ∈ v.owns := by
  refine ⟨[.newRequest [4], .waitRequest 0, .waitRequest 0, .enter 4, .enter 4], ?_,
    ⟨4, 0⟩, .block ⟨4, 0⟩ true, .block ⟨4, 0⟩ true, by decide, by decide, by decide, by decide⟩
  intro h
  exact h.users 1 2 (.block ⟨4, 0⟩ true) (.block ⟨4, 0⟩ true) (by decide) (by decide) (by decide)
    ⟨4, 0⟩ (by decide) (by decide)

/-- a history with reuse, an exception and several users -/
example : WaitsOnce [.newTransformer 4, .enter 4, .newRequest [4, 7], .finalize 0, .leave 1 true,
      .waitRequest 2, .newTransformer 4, .enter 4] ∧
    (Pool.run [.newTransformer 4, .enter 4, .newRequest [4, 7], .finalize 0, .leave 1 true,
      .waitRequest 2, .newTransformer 4, .enter 4]).users.map BufUser.owns =
      [[], [], [], [⟨4, 3⟩, ⟨4, 1⟩], [⟨4, 0⟩]] := by
  constructor
  · unfold WaitsOnce; decide
  · decide

end NDSL
