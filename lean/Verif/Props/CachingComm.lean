import Verif.Spec.CachingComm

/-! C34: recorded communication replays identically. -/
namespace NDSL.Caching
variable {V : Type}

theorem upd_apply {α : Type} (f : Nat → α) (c x : Nat) (g : α → α) :
    upd f c g x = if x = c then g (f x) else f x := rfl

/-- recordings only grow -/
structure Le (a b : Data V) : Prop where
  bcasts : a.bcasts <+: b.bcasts
  bufs : a.bufs <+: b.bufs
  objs : a.objs <+: b.objs
  splits : a.splits <+: b.splits

theorem Le.refl (a : Data V) : Le a a :=
  ⟨List.prefix_refl _, List.prefix_refl _, List.prefix_refl _, List.prefix_refl _⟩

theorem Le.trans {a b c : Data V} (h : Le a b) (k : Le b c) : Le a c :=
  ⟨h.bcasts.trans k.bcasts, h.bufs.trans k.bufs, h.objs.trans k.objs, h.splits.trans k.splits⟩

theorem addBuf_le (w : Writer V) (c : Nat) (v : Option V) (x : Nat) : Le (w.data x) ((addBuf w c v).data x) := by
  unfold addBuf
  simp only [upd_apply]
  split
  · exact ⟨List.prefix_refl _, List.prefix_append _ _, List.prefix_refl _, List.prefix_refl _⟩
  · exact Le.refl _

theorem step_le (w : Writer V) (v : V) (call : Call) (x : Nat) : Le (w.data x) ((w.step v call).1.data x) := by
  cases call with
  | bcast c =>
    simp only [Writer.step, upd_apply]
    split
    · exact ⟨List.prefix_append _ _, List.prefix_refl _, List.prefix_refl _, List.prefix_refl _⟩
    · exact Le.refl _
  | scatter c => exact addBuf_le _ _ _ _
  | gather c b => cases b <;> exact addBuf_le _ _ _ _
  | send c => exact Le.refl _
  | isend c => exact Le.refl _
  | recv c => exact addBuf_le _ _ _ _
  | irecv c => exact Le.refl _
  | wait i =>
    simp only [Writer.step]
    split
    · exact addBuf_le _ _ _ _
    · exact Le.refl _
    · exact Le.refl _
  | allreduce c =>
    simp only [Writer.step, upd_apply]
    split
    · exact ⟨List.prefix_refl _, List.prefix_refl _, List.prefix_append _ _, List.prefix_refl _⟩
    · exact Le.refl _
  | split c =>
    simp only [Writer.step, upd_apply]
    split
    · exact ⟨List.prefix_refl _, List.prefix_refl _, List.prefix_refl _, List.prefix_append _ _⟩
    · exact Le.refl _

theorem addBuf_len (w : Writer V) (c : Nat) (v : Option V) (x : Nat) :
    ((addBuf w c v).data x).bufs.length = (w.data x).bufs.length + if x = c then 1 else 0 := by
  unfold addBuf
  simp only [upd_apply]
  split <;> simp

/-- completed plus outstanding receives never decrease -/
theorem step_count (w : Writer V) (v : V) (call : Call) (f f' : Fifo) (hf : f.step call = some f')
    (hq : f.reqs = w.reqs) (x : Nat) :
    (w.data x).bufs.length + (f.pend x).length ≤ ((w.step v call).1.data x).bufs.length + (f'.pend x).length := by
  cases call with
  | bcast c =>
    simp only [Fifo.step, Option.some.injEq] at hf
    subst hf
    have := (step_le w v (.bcast c) x).bufs.length_le
    omega
  | scatter c =>
    simp only [Fifo.step] at hf
    split at hf
    · cases hf
      simp only [Writer.step, addBuf_len]; omega
    · cases hf
  | gather c b =>
    cases b with
    | false => simp [Fifo.step] at hf
    | true =>
      simp only [Fifo.step] at hf
      split at hf
      · cases hf
        simp only [Writer.step, addBuf_len]; omega
      · cases hf
  | send c => simp only [Fifo.step, Option.some.injEq] at hf; subst hf; exact Nat.le_refl _
  | isend c => simp only [Fifo.step, Option.some.injEq] at hf; subst hf; exact Nat.le_refl _
  | recv c =>
    simp only [Fifo.step] at hf
    split at hf
    · cases hf
      simp only [Writer.step, addBuf_len]; omega
    · cases hf
  | irecv c =>
    simp only [Fifo.step, Option.some.injEq] at hf
    subst hf
    simp only [Writer.step]
    split
    · simp
    · exact Nat.le_refl _
  | wait i =>
    simp only [Fifo.step] at hf
    simp only [Writer.step]
    rw [hq] at hf
    cases hr : w.reqs[i]? with
    | none => rw [hr] at hf; cases hf; exact Nat.le_refl _
    | some oc =>
      cases oc with
      | none => rw [hr] at hf; cases hf; exact Nat.le_refl _
      | some c =>
        rw [hr] at hf
        simp only at hf
        cases hp : f.pend c with
        | nil => rw [hp] at hf; cases hf
        | cons j rest =>
          rw [hp] at hf
          simp only at hf
          split at hf
          · cases hf
            simp only [addBuf_len]
            by_cases hx : x = c
            · subst hx
              rw [hp]; simp; omega
            · simp [hx]
          · cases hf
  | allreduce c =>
    simp only [Fifo.step, Option.some.injEq] at hf
    subst hf
    have := (step_le w v (.allreduce c) x).bufs.length_le
    omega
  | split c =>
    simp only [Fifo.step, Option.some.injEq] at hf
    subst hf
    have := (step_le w v (.split c) x).bufs.length_le
    omega

theorem step_reqs (w : Writer V) (v : V) (call : Call) (f f' : Fifo) (hf : f.step call = some f')
    (hq : f.reqs = w.reqs) : f'.reqs = (w.step v call).1.reqs := by
  cases call with
  | wait i =>
    simp only [Fifo.step] at hf
    simp only [Writer.step]
    rw [hq] at hf
    cases hr : w.reqs[i]? with
    | none => rw [hr] at hf; cases hf; exact hq
    | some oc =>
      cases oc with
      | none => rw [hr] at hf; cases hf; exact hq
      | some c =>
        rw [hr] at hf
        simp only at hf
        cases hp : f.pend c with
        | nil => rw [hp] at hf; cases hf
        | cons j rest =>
          rw [hp] at hf
          simp only at hf
          split at hf
          · cases hf; rfl
          · cases hf
  | gather c b =>
    cases b with
    | false => simp [Fifo.step] at hf
    | true =>
      simp only [Fifo.step] at hf
      split at hf
      · cases hf; exact hq
      · cases hf
  | scatter c =>
    simp only [Fifo.step] at hf
    split at hf
    · cases hf; exact hq
    · cases hf
  | recv c =>
    simp only [Fifo.step] at hf
    split at hf
    · cases hf; exact hq
    · cases hf
  | irecv c =>
    simp only [Fifo.step, Option.some.injEq] at hf
    subst hf
    simp only [Writer.step, hq]
  | isend c =>
    simp only [Fifo.step, Option.some.injEq] at hf
    subst hf
    simp only [Writer.step, hq]
  | bcast c => simp only [Fifo.step, Option.some.injEq] at hf; subst hf; exact hq
  | send c => simp only [Fifo.step, Option.some.injEq] at hf; subst hf; exact hq
  | allreduce c => simp only [Fifo.step, Option.some.injEq] at hf; subst hf; exact hq
  | split c => simp only [Fifo.step, Option.some.injEq] at hf; subst hf; exact hq

/-- the replaying communicator keeps pace with the recording one -/
structure Sim (D : Nat → Data V) (w : Writer V) (f : Fifo) (r : Reader V) : Prop where
  bcast : ∀ c, r.iBcast c = (w.data c).bcasts.length
  obj : ∀ c, r.iObj c = (w.data c).objs.length
  split : ∀ c, r.iSplit c = (w.data c).splits.length
  buf : ∀ c, r.iBuf c = (w.data c).bufs.length + (f.pend c).length
  fq : f.reqs = w.reqs
  len : r.reqs.length = w.reqs.length
  sends : ∀ i : Nat, w.reqs[i]? = some none → r.reqs[i]? = some none
  pend : ∀ c j i : Nat, (f.pend c)[j]? = some i →
    ∃ v, (D c).bufs[(w.data c).bufs.length + j]? = some v ∧ r.reqs[i]? = some (some v)

theorem prefix_get {α : Type} {l m : List α} {a : α} (h : l ++ [a] <+: m) : m[l.length]? = some a := by
  obtain ⟨t, rfl⟩ := h
  simp

theorem sim_recv {D : Nat → Data V} {w : Writer V} {f : Fifo} {r : Reader V} (h : Sim D w f r) {c : Nat} {v : V}
    (hp : f.pend c = []) (hle : ∀ x, Le ((addBuf w c (some v)).data x) (D x)) :
    (readBuf D r c).2 = .filled v ∧ Sim D (addBuf w c (some v)) f (readBuf D r c).1 := by
  have hb : (D c).bufs[r.iBuf c]? = some (some v) := by
    have := (hle c).bufs
    unfold addBuf at this
    simp only [upd_apply, if_true] at this
    rw [h.buf, hp]
    simpa using prefix_get this
  unfold readBuf
  rw [hb]
  refine ⟨rfl, ?_, ?_, ?_, ?_, h.fq, h.len, h.sends, ?_⟩
  · intro x; rw [h.bcast]; unfold addBuf; simp only [upd_apply]; split <;> rfl
  · intro x; rw [h.obj]; unfold addBuf; simp only [upd_apply]; split <;> rfl
  · intro x; rw [h.split]; unfold addBuf; simp only [upd_apply]; split <;> rfl
  · intro x
    rw [addBuf_len]
    simp only [inc, upd_apply]
    split
    · rw [h.buf]; omega
    · rw [h.buf]; omega
  · intro x j i hj
    rw [addBuf_len]
    by_cases hx : x = c
    · subst hx; rw [hp] at hj; simp at hj
    · rw [if_neg hx]; exact h.pend x j i hj

theorem sim_step {D : Nat → Data V} {w : Writer V} {f f' : Fifo} {r : Reader V} (h : Sim D w f r) (v : V)
    (call : Call) (hf : f.step call = some f') (hle : ∀ x, Le ((w.step v call).1.data x) (D x))
    (hcnt : ∀ x, ((w.step v call).1.data x).bufs.length + (f'.pend x).length ≤ (D x).bufs.length) :
    (r.step D call).2 = (w.step v call).2 ∧ Sim D (w.step v call).1 f' (r.step D call).1 := by
  cases call with
  | bcast c =>
    simp only [Fifo.step, Option.some.injEq] at hf
    subst hf
    have hb : (D c).bcasts[r.iBcast c]? = some v := by
      have := (hle c).bcasts
      simp only [Writer.step, upd_apply, if_true] at this
      rw [h.bcast]; exact prefix_get this
    simp only [Reader.step, hb, Writer.step]
    refine ⟨trivial, ?_, ?_, ?_, ?_, h.fq, h.len, h.sends, ?_⟩
    · intro x; simp only [inc, upd_apply]; split <;> simp [h.bcast]
    · intro x; simp only [upd_apply]; split <;> simp [h.obj]
    · intro x; simp only [upd_apply]; split <;> simp [h.split]
    · intro x; simp only [upd_apply]; split <;> simp [h.buf]
    · intro x j i hj
      have := h.pend x j i hj
      simp only [upd_apply]; split <;> exact this
  | allreduce c =>
    simp only [Fifo.step, Option.some.injEq] at hf
    subst hf
    have hb : (D c).objs[r.iObj c]? = some v := by
      have := (hle c).objs
      simp only [Writer.step, upd_apply, if_true] at this
      rw [h.obj]; exact prefix_get this
    simp only [Reader.step, hb, Writer.step]
    refine ⟨trivial, ?_, ?_, ?_, ?_, h.fq, h.len, h.sends, ?_⟩
    · intro x; simp only [upd_apply]; split <;> simp [h.bcast]
    · intro x; simp only [inc, upd_apply]; split <;> simp [h.obj]
    · intro x; simp only [upd_apply]; split <;> simp [h.split]
    · intro x; simp only [upd_apply]; split <;> simp [h.buf]
    · intro x j i hj
      have := h.pend x j i hj
      simp only [upd_apply]; split <;> exact this
  | split c =>
    simp only [Fifo.step, Option.some.injEq] at hf
    subst hf
    have hb : (D c).splits[r.iSplit c]? = some w.ncomm := by
      have := (hle c).splits
      simp only [Writer.step, upd_apply, if_true] at this
      rw [h.split]; exact prefix_get this
    simp only [Reader.step, hb, Writer.step]
    refine ⟨trivial, ?_, ?_, ?_, ?_, h.fq, h.len, h.sends, ?_⟩
    · intro x; simp only [upd_apply]; split <;> simp [h.bcast]
    · intro x; simp only [upd_apply]; split <;> simp [h.obj]
    · intro x; simp only [inc, upd_apply]; split <;> simp [h.split]
    · intro x; simp only [upd_apply]; split <;> simp [h.buf]
    · intro x j i hj
      have := h.pend x j i hj
      simp only [upd_apply]; split <;> exact this
  | scatter c =>
    simp only [Fifo.step] at hf
    split at hf
    · rename_i hp; cases hf; exact sim_recv h hp hle
    · cases hf
  | recv c =>
    simp only [Fifo.step] at hf
    split at hf
    · rename_i hp; cases hf; exact sim_recv h hp hle
    · cases hf
  | gather c b =>
    cases b with
    | false => simp [Fifo.step] at hf
    | true =>
      simp only [Fifo.step] at hf
      split at hf
      · rename_i hp; cases hf; exact sim_recv h hp hle
      · cases hf
  | send c =>
    simp only [Fifo.step, Option.some.injEq] at hf
    subst hf
    exact ⟨rfl, h⟩
  | isend c =>
    simp only [Fifo.step, Option.some.injEq] at hf
    subst hf
    simp only [Reader.step, Writer.step]
    refine ⟨by rw [h.len], h.bcast, h.obj, h.split, h.buf, by simp [h.fq], by simp [h.len], ?_, ?_⟩
    · intro i hi
      rw [List.getElem?_append] at hi ⊢
      rw [h.len]
      split
      · rename_i hl; rw [if_pos hl] at hi; exact h.sends i hi
      · rename_i hl; rw [if_neg hl] at hi
        cases hk : i - w.reqs.length with
        | zero => rfl
        | succ k => rw [hk] at hi; simp at hi
    · intro x j i hj
      obtain ⟨v', h1, h2⟩ := h.pend x j i hj
      refine ⟨v', h1, ?_⟩
      rw [List.getElem?_append, if_pos]
      · exact h2
      · exact (List.getElem?_eq_some_iff.1 h2).1
  | irecv c =>
    simp only [Fifo.step, Option.some.injEq] at hf
    subst hf
    simp only [Writer.step] at hle hcnt
    have hlt : r.iBuf c < (D c).bufs.length := by
      have := hcnt c
      simp only [if_true, List.length_append, List.length_singleton] at this
      rw [h.buf]; omega
    have hb : (D c).bufs[r.iBuf c]? = some ((D c).bufs[r.iBuf c]) := List.getElem?_eq_getElem hlt
    simp only [Reader.step, hb, Writer.step]
    refine ⟨by rw [h.len], h.bcast, h.obj, h.split, ?_, by simp [h.fq], by simp [h.len], ?_, ?_⟩
    · intro x
      simp only [inc, upd_apply]
      split
      · rw [h.buf]; simp; omega
      · rw [h.buf]
    · intro i hi
      rw [List.getElem?_append] at hi ⊢
      rw [h.len]
      split
      · rename_i hl; rw [if_pos hl] at hi; exact h.sends i hi
      · rename_i hl; rw [if_neg hl] at hi
        cases hk : i - w.reqs.length with
        | zero => rw [hk] at hi; simp at hi
        | succ k => rw [hk] at hi; simp at hi
    · intro x j i hj
      simp only at hj
      have old : ∀ {x j i : Nat}, (f.pend x)[j]? = some i → ∃ v', (D x).bufs[(w.data x).bufs.length + j]? = some v' ∧
          (r.reqs ++ [some ((D c).bufs[r.iBuf c])])[i]? = some (some v') := by
        intro x j i hj
        obtain ⟨v', h1, h2⟩ := h.pend x j i hj
        refine ⟨v', h1, ?_⟩
        rw [List.getElem?_append, if_pos]
        · exact h2
        · exact (List.getElem?_eq_some_iff.1 h2).1
      by_cases hx : x = c
      · subst hx
        rw [if_pos rfl, List.getElem?_append] at hj
        split at hj
        · exact old hj
        · rename_i hl
          cases hk : j - (f.pend x).length with
          | succ k => rw [hk] at hj; simp at hj
          | zero =>
            rw [hk] at hj
            simp only [List.getElem?_cons_zero, Option.some.injEq] at hj
            have hjl : j = (f.pend x).length := by omega
            refine ⟨(D x).bufs[r.iBuf x], ?_, ?_⟩
            · rw [hjl, ← h.buf]; exact hb
            · rw [← hj, h.fq, ← h.len]; simp
      · rw [if_neg hx] at hj; exact old hj
  | wait i =>
    simp only [Fifo.step] at hf
    rw [h.fq] at hf
    simp only [Writer.step] at hle hcnt ⊢
    cases hr : w.reqs[i]? with
    | none =>
      rw [hr] at hf; cases hf
      have hn : r.reqs[i]? = none := by
        rw [List.getElem?_eq_none_iff] at hr ⊢
        rw [h.len]; exact hr
      simp only [Reader.step, hn]
      exact ⟨trivial, h⟩
    | some oc =>
      cases oc with
      | none =>
        rw [hr] at hf; cases hf
        simp only [Reader.step, h.sends i hr]
        exact ⟨trivial, h⟩
      | some c =>
        rw [hr] at hf hle hcnt
        simp only at hf hle hcnt ⊢
        cases hp : f.pend c with
        | nil => rw [hp] at hf; cases hf
        | cons j rest =>
          rw [hp] at hf
          simp only at hf
          split at hf
          · rename_i hji
            subst hji
            cases hf
            obtain ⟨v', h1, h2⟩ := h.pend c 0 j (by rw [hp]; rfl)
            have hv : v' = some v := by
              have := (hle c).bufs
              unfold addBuf at this
              simp only [upd_apply, if_true] at this
              have := prefix_get this
              rw [Nat.add_zero] at h1
              rw [h1] at this
              exact Option.some.inj this
            subst hv
            simp only [Reader.step, h2]
            refine ⟨rfl, ?_, ?_, ?_, ?_, rfl, h.len, h.sends, ?_⟩
            · intro x; rw [h.bcast]; unfold addBuf; simp only [upd_apply]; split <;> rfl
            · intro x; rw [h.obj]; unfold addBuf; simp only [upd_apply]; split <;> rfl
            · intro x; rw [h.split]; unfold addBuf; simp only [upd_apply]; split <;> rfl
            · intro x
              rw [addBuf_len, h.buf]
              by_cases hx : x = c
              · subst hx; simp [hp]; omega
              · simp [hx]
            · intro x k i hk
              rw [addBuf_len]
              by_cases hx : x = c
              · subst hx
                simp only [if_true] at hk ⊢
                have := h.pend x (k + 1) i (by rw [hp]; simpa using hk)
                rw [show (w.data x).bufs.length + 1 + k = (w.data x).bufs.length + (k + 1) by omega]
                exact this
              · simp only [if_neg hx] at hk ⊢
                exact h.pend x k i hk
          · cases hf

theorem fifo_append (f : Fifo) (a b : List Call) :
    f.steps (a ++ b) = match f.steps a with
      | some g => g.steps b
      | none => none := by
  induction a generalizing f with
  | nil => rfl
  | cons c a ih =>
    simp only [List.cons_append, Fifo.steps]
    cases f.step c with
    | none => rfl
    | some f' => exact ih f'

theorem record_succ (prog : Trace V → Option Call) (under : Trace V → V) (n : Nat) :
    record prog under (n + 1) = record prog under n ∨
    ∃ call, prog (record prog under n).2 = some call ∧ record prog under (n + 1) =
      (((record prog under n).1.step (under (record prog under n).2) call).1,
        (record prog under n).2 ++ [(call, ((record prog under n).1.step (under (record prog under n).2) call).2)]) := by
  simp only [record]
  cases prog (record prog under n).2 with
  | none => left; rfl
  | some call => right; exact ⟨call, rfl, rfl⟩

theorem record_le (prog : Trace V → Option Call) (under : Trace V → V) {k n : Nat} (h : k ≤ n) (x : Nat) :
    Le ((record prog under k).1.data x) ((record prog under n).1.data x) := by
  induction n with
  | zero => have : k = 0 := by omega
            subst this; exact Le.refl _
  | succ n ih =>
    by_cases hk : k = n + 1
    · subst hk; exact Le.refl _
    · refine (ih (by omega)).trans ?_
      rcases record_succ prog under n with e | ⟨call, -, e⟩
      · rw [e]; exact Le.refl _
      · rw [e]; exact step_le _ _ _ _

theorem fifo_prefix (prog : Trace V → Option Call) (under : Trace V → V) {k n : Nat} (h : k ≤ n) {f : Fifo}
    (hf : Fifo.init.steps ((record prog under n).2.map (·.1)) = some f) :
    ∃ g, Fifo.init.steps ((record prog under k).2.map (·.1)) = some g ∧
      g.reqs = (record prog under k).1.reqs := by
  -- some bookkeeping exists
  have hex : ∀ {k n : Nat}, k ≤ n → (∃ f, Fifo.init.steps ((record prog under n).2.map (·.1)) = some f) →
      ∃ g, Fifo.init.steps ((record prog under k).2.map (·.1)) = some g := by
    intro k n h hf
    induction n with
    | zero => have : k = 0 := by omega
              subst this; exact hf
    | succ n ih =>
      by_cases hk : k = n + 1
      · subst hk; exact hf
      · apply ih (by omega)
        rcases record_succ prog under n with e | ⟨call, -, e⟩
        · rw [e] at hf; exact hf
        · rw [e] at hf
          simp only [List.map_append, List.map_cons, List.map_nil] at hf
          rw [fifo_append] at hf
          cases hg : Fifo.init.steps ((record prog under n).2.map (·.1)) with
          | none => rw [hg] at hf; obtain ⟨f, hf⟩ := hf; cases hf
          | some g => exact ⟨g, rfl⟩
  obtain ⟨g, hg⟩ := hex h ⟨f, hf⟩
  refine ⟨g, hg, ?_⟩
  clear hf h
  induction k generalizing g with
  | zero => cases hg; rfl
  | succ k ih =>
    rcases record_succ prog under k with e | ⟨call, -, e⟩
    · rw [e] at hg ⊢; exact ih g hg
    · obtain ⟨g0, hg0⟩ := hex (Nat.le_succ k) ⟨g, hg⟩
      rw [e] at hg ⊢
      simp only [List.map_append, List.map_cons, List.map_nil] at hg
      rw [fifo_append, hg0] at hg
      simp only [Fifo.steps] at hg
      cases hs : g0.step call with
      | none => rw [hs] at hg; cases hg
      | some g1 =>
        rw [hs] at hg
        cases hg
        exact step_reqs _ _ call _ _ hs (ih g0 hg0)

/-- completed plus outstanding receives never exceed those completed in the end -/
theorem count_le (prog : Trace V → Option Call) (under : Trace V → V) {k n : Nat} (h : k ≤ n) {f g : Fifo}
    (hf : Fifo.init.steps ((record prog under n).2.map (·.1)) = some f)
    (hg : Fifo.init.steps ((record prog under k).2.map (·.1)) = some g) (x : Nat) :
    ((record prog under k).1.data x).bufs.length + (g.pend x).length ≤
      ((record prog under n).1.data x).bufs.length + (f.pend x).length := by
  induction n generalizing f with
  | zero =>
    have : k = 0 := by omega
    subst this; rw [hf] at hg; cases hg; exact Nat.le_refl _
  | succ n ih =>
    by_cases hk : k = n + 1
    · subst hk; rw [hf] at hg; cases hg; exact Nat.le_refl _
    · obtain ⟨f0, hf0, hq⟩ := fifo_prefix prog under (Nat.le_succ n) hf
      refine Nat.le_trans (ih (by omega) hf0) ?_
      rcases record_succ prog under n with e | ⟨call, -, e⟩
      · rw [e] at hf ⊢; rw [hf0] at hf; cases hf; exact Nat.le_refl _
      · rw [e] at hf ⊢
        simp only [List.map_append, List.map_cons, List.map_nil] at hf
        rw [fifo_append, hf0] at hf
        simp only [Fifo.steps] at hf
        cases hs : f0.step call with
        | none => rw [hs] at hf; cases hf
        | some f1 =>
          rw [hs] at hf
          cases hf
          exact step_count _ _ call _ _ hs hq x

theorem replay_sim (prog : Trace V → Option Call) (under : Trace V → V) (n : Nat) (f : Fifo)
    (hf : Fifo.init.steps ((record prog under n).2.map (·.1)) = some f) (hend : ∀ c, f.pend c = []) :
    ∀ k, k ≤ n → ∃ g, Fifo.init.steps ((record prog under k).2.map (·.1)) = some g ∧
      (replay prog (record prog under n).1.data k).2 = (record prog under k).2 ∧
      Sim (record prog under n).1.data (record prog under k).1 g (replay prog (record prog under n).1.data k).1
  | 0, _ => ⟨Fifo.init, rfl, rfl, fun _ => rfl, fun _ => rfl, fun _ => rfl, fun _ => rfl, rfl, rfl,
      fun i h => by simp [record, Writer.init] at h, fun c j i h => by simp [Fifo.init] at h⟩
  | k + 1, hk => by
    obtain ⟨g, hg, htr, hsim⟩ := replay_sim prog under n f hf hend k (by omega)
    rcases hp : prog (record prog under k).2 with _ | call
    · have e1 : record prog under (k + 1) = record prog under k := by simp only [record, hp]
      have e2 : replay prog (record prog under n).1.data (k + 1) = replay prog (record prog under n).1.data k := by
        simp only [replay, htr, hp]
      rw [e1, e2]
      exact ⟨g, hg, htr, hsim⟩
    · have e1 : record prog under (k + 1) =
          (((record prog under k).1.step (under (record prog under k).2) call).1,
            (record prog under k).2 ++
              [(call, ((record prog under k).1.step (under (record prog under k).2) call).2)]) := by
        simp only [record, hp]
      have e2 : replay prog (record prog under n).1.data (k + 1) =
          (((replay prog (record prog under n).1.data k).1.step (record prog under n).1.data call).1,
            (record prog under k).2 ++
              [(call, ((replay prog (record prog under n).1.data k).1.step (record prog under n).1.data call).2)]) := by
        simp only [replay, htr, hp]
      obtain ⟨g', hg', -⟩ := fifo_prefix prog under hk hf
      have hstep : g.step call = some g' := by
        have := hg'
        rw [e1] at this
        simp only [List.map_append, List.map_cons, List.map_nil] at this
        rw [fifo_append, hg] at this
        simp only [Fifo.steps] at this
        cases hs : g.step call with
        | none => rw [hs] at this; cases this
        | some g1 => rw [hs] at this; cases this; rfl
      have hle : ∀ x, Le (((record prog under k).1.step (under (record prog under k).2) call).1.data x)
          ((record prog under n).1.data x) := by
        intro x
        have := record_le prog under hk x
        rw [e1] at this; exact this
      have hcnt : ∀ x, (((record prog under k).1.step (under (record prog under k).2) call).1.data x).bufs.length +
          (g'.pend x).length ≤ ((record prog under n).1.data x).bufs.length := by
        intro x
        have := count_le prog under hk hf hg' x
        rw [e1, hend x] at this
        simpa using this
      obtain ⟨h1, h2⟩ := sim_step hsim (under (record prog under k).2) call hstep hle hcnt
      refine ⟨g', hg', ?_, ?_⟩
      · rw [e1, e2, h1]
      · rw [e1, e2]; exact h2

/-- C34, for programs that complete receives in the order of posting. For every program (any deterministic
strategy), everything the wrapped communicator may deliver, and any number of calls: replaying the recording
gives the program the same result at every call, so it makes the same calls again. -/
theorem C34_replay_partial (prog : Trace V → Option Call) (under : Trace V → V) (n : Nat)
    (h : CompletesInOrder ((record prog under n).2.map (·.1))) :
    (replay prog (record prog under n).1.data n).2 = (record prog under n).2 := by
  obtain ⟨f, hf, hend⟩ := h
  obtain ⟨-, -, h, -⟩ := replay_sim prog under n f hf hend n (Nat.le_refl n)
  exact h

/-! ### Example and violations -/

/-- a program given by a list of calls -/
def listProg (l : List Call) : Trace V → Option Call := fun t => l[t.length]?

/-- two receives in flight, a split, a broadcast on the split communicator -/
def okCalls : List Call :=
  [.irecv 0, .isend 0, .irecv 0, .wait 0, .wait 1, .wait 2, .split 0, .bcast 1, .gather 0 true, .allreduce 0]

example : CompletesInOrder ((record (listProg okCalls) (fun t : Trace Nat => 100 + t.length) 10).2.map (·.1)) := by
  refine ⟨⟨[some 0, none, some 0], fun x => if x = 0 then [] else []⟩, ?_, fun c => by simp⟩
  have : (record (listProg okCalls) (fun t : Trace Nat => 100 + t.length) 10).2.map (·.1) = okCalls := by
    decide +kernel
  rw [this]
  simp only [okCalls, Fifo.steps, Fifo.step, Fifo.init]
  simp
  funext x
  split <;> rfl

example : (record (listProg okCalls) (fun t : Trace Nat => 100 + t.length) 10).2.map (·.2) =
    [.req 0, .req 1, .req 2, .filled 103, .none, .filled 105, .comm 1, .obj 107, .filled 108, .obj 109] := by
  decide +kernel

/-- C34 is false of the code for waits in another order: the two receives get each other's data. -/
theorem C34_wait_order_violated :
    let p : Trace Nat → Option Call := listProg [.irecv 0, .irecv 0, .wait 1, .wait 0]
    let u : Trace Nat → Nat := fun t => 100 + t.length
    (record p u 4).2.map (·.2) = [.req 0, .req 1, .filled 102, .filled 103] ∧
    (replay p (record p u 4).1.data 4).2.map (·.2) = [.req 0, .req 1, .filled 103, .filled 102] := by
  decide +kernel

/-- C34 is false of the code on ranks that are not the root of a gather: the recording of the missing receive
buffer is taken by the next receive, which fails. -/
theorem C34_gather_nonroot_violated :
    let p : Trace Nat → Option Call := listProg [.gather 0 false, .recv 0]
    let u : Trace Nat → Nat := fun t => 100 + t.length
    (record p u 2).2.map (·.2) = [.none, .filled 101] ∧
    (replay p (record p u 2).1.data 2).2.map (·.2) = [.none, .raised .typeError] := by
  decide +kernel

end NDSL.Caching
