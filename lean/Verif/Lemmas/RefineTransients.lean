import Verif.Spec.RefineTransients
import Verif.Lemmas.AxisMerge
/-
Lemmas for the refinement of temporaries: execution as a sequence of tasklets, and the relation
between the memories of the original and the refined program.
-/
namespace NDSL.Refine

open NDSL.AxisMerge

variable {V : Type}

/-! ### Execution is the execution of the sequence -/

def runStep [Inhabited V] (mem : Mem V) (s : Step V) : Mem V := s.2.exec s.1 mem

theorem run_steps [Inhabited V] (b : Env → Mem V → Mem V) (st : Env → List (Step V)) (p : Nat)
    (env : Env) (h : ∀ env mem, b env mem = (st env).foldl runStep mem) :
    ∀ (l : List Int) (mem : Mem V),
      runOrder b p env l mem = (l.flatMap fun i => st (env.set p i)).foldl runStep mem := by
  intro l
  induction l with
  | nil => intro mem; rfl
  | cons i l ih =>
    intro mem
    have := ih (b (env.set p i) mem)
    simp only [runOrder, List.foldl_cons, List.flatMap_cons, List.foldl_append] at this ⊢
    rw [this, h]

theorem exec_steps [Inhabited V] (σ : Sched) (t : Tree V) : ∀ (env : Env) (mem : Mem V),
    t.exec σ env mem = (steps σ t env).foldl runStep mem := by
  induction t with
  | done => intros; rfl
  | tasklet t rest ih => intro env mem; simp only [Tree.exec, steps, List.foldl_cons, ih]; rfl
  | ifS g body rest ihb ihr =>
    intro env mem
    simp only [Tree.exec, steps, List.foldl_append]
    rw [ihr]
    congr 1
    cases g.holds env with
    | true => simp only [if_true]; exact ihb env mem
    | false => rfl
  | mapS p r body rest ihb ihr =>
    intro env mem
    simp only [Tree.exec, steps, List.foldl_append]
    rw [ihr, run_steps (body.exec σ) (steps σ body) p env ihb]
  | forS p r body rest ihb ihr =>
    intro env mem
    simp only [Tree.exec, steps, List.foldl_append]
    rw [ihr, run_steps (body.exec σ) (steps σ body) p env ihb]

theorem steps_rebuild (σ : Sched) (cs : Containers) (t : Tree V) : ∀ (env : Env),
    steps σ (rebuild cs t) env = (steps σ t env).map fun s => (s.1, rebuildTasklet cs s.2) := by
  induction t with
  | done => intro env; rfl
  | tasklet t rest ih => intro env; simp only [rebuild, steps, List.map_cons, ih]
  | ifS g body rest ihb ihr =>
    intro env
    simp only [rebuild, steps, List.map_append, ihr, ihb]
    congr 1
    cases g.holds env <;> rfl
  | mapS p r body rest ihb ihr =>
    intro env
    simp only [rebuild, steps, List.map_append, ihr, ihb, List.map_flatMap]
  | forS p r body rest ihb ihr =>
    intro env
    simp only [rebuild, steps, List.map_append, ihr, ihb, List.map_flatMap]

/-- The tasklets that run are those of the tree. -/
theorem steps_mem (σ : Sched) (t : Tree V) : ∀ (env : Env), ∀ s ∈ steps σ t env, ∀ m ∈ s.2.ins ++ s.2.outs,
    m ∈ t.inMemlets ++ t.outMemlets := by
  induction t with
  | done => intro env s hs; simp [steps] at hs
  | tasklet t rest ih =>
    intro env s hs m hm
    simp only [steps, List.mem_cons] at hs
    simp only [Tree.inMemlets, Tree.outMemlets, List.mem_append]
    rcases hs with rfl | hs
    · rcases List.mem_append.mp hm with h | h
      · exact .inl (.inl h)
      · exact .inr (.inl h)
    · rcases List.mem_append.mp (ih env s hs m hm) with h | h
      · exact .inl (.inr h)
      · exact .inr (.inr h)
  | ifS g body rest ihb ihr =>
    intro env s hs m hm
    simp only [steps, List.mem_append] at hs
    simp only [Tree.inMemlets, Tree.outMemlets, List.mem_append]
    rcases hs with hs | hs
    · cases hg : g.holds env with
      | false => rw [hg] at hs; simp at hs
      | true =>
        rw [hg] at hs
        rcases List.mem_append.mp (ihb env s hs m hm) with h | h
        · exact .inl (.inl h)
        · exact .inr (.inl h)
    · rcases List.mem_append.mp (ihr env s hs m hm) with h | h
      · exact .inl (.inr h)
      · exact .inr (.inr h)
  | mapS p r body rest ihb ihr =>
    intro env s hs m hm
    simp only [steps, List.mem_append, List.mem_flatMap] at hs
    simp only [Tree.inMemlets, Tree.outMemlets, List.mem_append]
    rcases hs with ⟨i, -, hs⟩ | hs
    · rcases List.mem_append.mp (ihb _ s hs m hm) with h | h
      · exact .inl (.inl h)
      · exact .inr (.inl h)
    · rcases List.mem_append.mp (ihr env s hs m hm) with h | h
      · exact .inl (.inr h)
      · exact .inr (.inr h)
  | forS p r body rest ihb ihr =>
    intro env s hs m hm
    simp only [steps, List.mem_append, List.mem_flatMap] at hs
    simp only [Tree.inMemlets, Tree.outMemlets, List.mem_append]
    rcases hs with ⟨i, -, hs⟩ | hs
    · rcases List.mem_append.mp (ihb _ s hs m hm) with h | h
      · exact .inl (.inl h)
      · exact .inr (.inl h)
    · rcases List.mem_append.mp (ihr env s hs m hm) with h | h
      · exact .inl (.inr h)
      · exact .inr (.inr h)

theorem steps_env (σ : Sched) (p : Nat) (t : Tree V) : ∀ (env : Env), t.NoBind p →
    ∀ s ∈ steps σ t env, s.1 p = env p := by
  induction t with
  | done => intro env _ s hs; simp [steps] at hs
  | tasklet t rest ih =>
    intro env hb s hs
    simp only [steps, List.mem_cons] at hs
    rcases hs with rfl | hs
    · rfl
    · exact ih env hb s hs
  | ifS g body rest ihb ihr =>
    intro env hb s hs
    simp only [steps, List.mem_append] at hs
    rcases hs with hs | hs
    · cases hg : g.holds env with
      | false => rw [hg] at hs; simp at hs
      | true => rw [hg] at hs; exact ihb env hb.1 s hs
    · exact ihr env hb.2 s hs
  | mapS q r body rest ihb ihr =>
    intro env hb s hs
    simp only [steps, List.mem_append, List.mem_flatMap] at hs
    rcases hs with ⟨i, -, hs⟩ | hs
    · rw [ihb _ hb.2.1 s hs, set_ne env hb.1]
    · exact ihr env hb.2.2 s hs
  | forS q r body rest ihb ihr =>
    intro env hb s hs
    simp only [steps, List.mem_append, List.mem_flatMap] at hs
    rcases hs with ⟨i, -, hs⟩ | hs
    · rw [ihb _ hb.2.1 s hs, set_ne env hb.1]
    · exact ihr env hb.2.2 s hs

/-! ### Indices -/

theorem eval_zero (env : Env) : (Ix.const 0).eval env = 0 := rfl

/-- The element of the refined array that stands for an element of the original one. -/
def squeeze : List Nat → List Int → List Int
  | n :: shape, i :: is => (if n = 1 then 0 else i) :: squeeze shape is
  | _, is => is

/-- Along the dimensions of size one, the ranges are the one index given. -/
def Fixed (env : Env) : List Nat → List Int → List (Ix × Nat) → Prop
  | [], [], [] => True
  | n :: shape, x :: v, s :: ss => (n = 1 → s.1.eval env = x ∧ s.2 = 1) ∧ Fixed env shape v ss
  | _, _, _ => False

/-- Along the dimensions of size one, the index is the one given. -/
def OnLine : List Nat → List Int → List Int → Prop
  | [], [], [] => True
  | n :: shape, x :: v, i :: is => (n = 1 → i = x) ∧ OnLine shape v is
  | _, _, _ => False

theorem relative_rebuild (env : Env) : ∀ (shape : List Nat) (v : List Int) (s : List (Ix × Nat))
    (i : List Int), Fixed env shape v s → OnLine shape v i →
    relative env (rebuildSubset shape s) (squeeze shape i) = relative env s i := by
  intro shape
  induction shape with
  | nil =>
    intro v s i hf ho
    cases v <;> cases s <;> cases i <;> first | rfl | exact hf.elim | exact ho.elim
  | cons n shape ih =>
    intro v s i hf ho
    cases v with
    | nil => cases s <;> exact hf.elim
    | cons x v =>
      cases s with
      | nil => exact hf.elim
      | cons s ss =>
        cases i with
        | nil => exact ho.elim
        | cons i is =>
          obtain ⟨e, k⟩ := s
          simp only [rebuildSubset, squeeze]
          have := ih v ss is hf.2 ho.2
          by_cases hn : n = 1
          · obtain ⟨he, hk⟩ := hf.1 hn
            simp only at he hk
            subst hk
            have hi := ho.1 hn
            rw [if_pos hn, if_pos hn]
            simp only [relative, eval_zero, this, he, hi]
            rw [if_pos (by omega), if_pos (by omega)]
            cases relative env ss is with
            | none => rfl
            | some r => simp
          · rw [if_neg hn, if_neg hn]
            simp only [relative, this]

theorem onLine_of_relative (env : Env) : ∀ (shape : List Nat) (v : List Int) (s : List (Ix × Nat))
    (i : List Int), Fixed env shape v s → (relative env s i).isSome → OnLine shape v i := by
  intro shape
  induction shape with
  | nil =>
    intro v s i hf h
    cases v <;> cases s <;> cases i <;>
      first | trivial | exact hf.elim | (simp [relative] at h)
  | cons n shape ih =>
    intro v s i hf h
    cases v with
    | nil => cases s <;> exact hf.elim
    | cons x v =>
      cases s with
      | nil => exact hf.elim
      | cons s ss =>
        cases i with
        | nil => simp [relative] at h
        | cons i is =>
          obtain ⟨e, k⟩ := s
          simp only [relative] at h
          by_cases hc : e.eval env ≤ i ∧ i < e.eval env + k
          · rw [if_pos hc] at h
            refine ⟨fun hn => ?_, ih v ss is hf.2 ?_⟩
            · obtain ⟨he, hk⟩ := hf.1 hn
              simp only at he hk
              omega
            · cases hr : relative env ss is with
              | none => rw [hr] at h; simp at h
              | some r => rfl
          · rw [if_neg hc] at h; simp at h

theorem squeeze_inj : ∀ (shape : List Nat) (v i j : List Int), OnLine shape v i → OnLine shape v j →
    squeeze shape i = squeeze shape j → i = j := by
  intro shape
  induction shape with
  | nil =>
    intro v i j hi hj _
    cases v <;> cases i <;> cases j <;> first | rfl | exact hi.elim | exact hj.elim
  | cons n shape ih =>
    intro v i j hi hj h
    cases v with
    | nil => cases i <;> exact hi.elim
    | cons x v =>
      cases i with
      | nil => exact hi.elim
      | cons i is =>
        cases j with
        | nil => exact hj.elim
        | cons j js =>
          simp only [squeeze, List.cons.injEq] at h
          have := ih v is js hi.2 hj.2 h.2
          subst this
          by_cases hn : n = 1
          · rw [hi.1 hn, hj.1 hn]
          · rw [if_neg hn, if_neg hn] at h
            rw [h.1]

/-- An element of the refined array that is written stands for one that the original writes. -/
theorem relative_restore (env : Env) : ∀ (shape : List Nat) (v : List Int) (s : List (Ix × Nat))
    (j : List Int), Fixed env shape v s → (relative env (rebuildSubset shape s) j).isSome →
    ∃ i, OnLine shape v i ∧ squeeze shape i = j ∧ (relative env s i).isSome := by
  intro shape
  induction shape with
  | nil =>
    intro v s j hf h
    cases v <;> cases s <;> cases j <;>
      first | exact ⟨[], trivial, rfl, rfl⟩ | exact hf.elim | (simp [relative, rebuildSubset] at h)
  | cons n shape ih =>
    intro v s j hf h
    cases v with
    | nil => cases s <;> exact hf.elim
    | cons x v =>
      cases s with
      | nil => exact hf.elim
      | cons s ss =>
        cases j with
        | nil => simp [relative, rebuildSubset] at h
        | cons j js =>
          obtain ⟨e, k⟩ := s
          simp only [rebuildSubset] at h
          by_cases hn : n = 1
          · obtain ⟨he, hk⟩ := hf.1 hn
            simp only at he hk
            subst hk
            rw [if_pos hn] at h
            simp only [relative] at h
            by_cases hc : (Ix.const 0).eval env ≤ j ∧ j < (Ix.const 0).eval env + ((1 : Nat) : Int)
            · rw [if_pos hc] at h
              rw [eval_zero] at hc
              have h' : (relative env (rebuildSubset shape ss) js).isSome := by
                cases hr : relative env (rebuildSubset shape ss) js with
                | none => rw [hr] at h; simp at h
                | some r => rfl
              obtain ⟨is, h1, h2, h3⟩ := ih v ss js hf.2 h'
              refine ⟨x :: is, ⟨fun _ => rfl, h1⟩, ?_, ?_⟩
              · simp only [squeeze, if_pos hn, h2, List.cons.injEq, and_true]
                omega
              · simp only [relative, he]
                rw [if_pos (by omega)]
                cases hr : relative env ss is with
                | none => rw [hr] at h3; simp at h3
                | some r => rfl
            · rw [if_neg hc] at h; simp at h
          · rw [if_neg hn] at h
            simp only [relative] at h
            by_cases hc : e.eval env ≤ j ∧ j < e.eval env + k
            · rw [if_pos hc] at h
              have h' : (relative env (rebuildSubset shape ss) js).isSome := by
                cases hr : relative env (rebuildSubset shape ss) js with
                | none => rw [hr] at h; simp at h
                | some r => rfl
              obtain ⟨is, h1, h2, h3⟩ := ih v ss js hf.2 h'
              refine ⟨j :: is, ⟨fun h => absurd h hn, h1⟩, ?_, ?_⟩
              · simp only [squeeze, if_neg hn, h2]
              · simp only [relative]
                rw [if_pos hc]
                cases hr : relative env ss is with
                | none => rw [hr] at h3; simp at h3
                | some r => rfl
            · rw [if_neg hc] at h; simp at h

theorem absolute_rebuild (env : Env) : ∀ (shape : List Nat) (v : List Int) (s : List (Ix × Nat))
    (r : List Int), Fixed env shape v s →
    relative env (rebuildSubset shape s) (absolute env (rebuildSubset shape s) r)
      = relative env s (absolute env s r) ∧
    ((relative env s (absolute env s r)).isSome →
      absolute env (rebuildSubset shape s) r = squeeze shape (absolute env s r)) := by
  intro shape
  induction shape with
  | nil =>
    intro v s r hf
    cases v <;> cases s <;> first | exact ⟨rfl, fun _ => rfl⟩ | exact hf.elim
  | cons n shape ih =>
    intro v s r hf
    cases v with
    | nil => cases s <;> exact hf.elim
    | cons x v =>
      cases s with
      | nil => exact hf.elim
      | cons s ss =>
        obtain ⟨e, k⟩ := s
        cases r with
        | nil =>
          refine ⟨?_, fun _ => ?_⟩
          · by_cases hn : n = 1 <;> simp [rebuildSubset, absolute, relative, hn]
          · by_cases hn : n = 1 <;> simp [rebuildSubset, absolute, squeeze, hn]
        | cons r rs =>
          obtain ⟨h1, h2⟩ := ih v ss rs hf.2
          simp only [rebuildSubset]
          by_cases hn : n = 1
          · obtain ⟨he, hk⟩ := hf.1 hn
            simp only at he hk
            subst hk
            rw [if_pos hn]
            simp only [absolute, relative, eval_zero, h1, he]
            by_cases hr : r = 0
            · subst hr
              rw [if_pos (by omega), if_pos (by omega)]
              refine ⟨?_, fun h => ?_⟩
              · cases relative env ss (absolute env ss rs) with
                | none => rfl
                | some q => simp
              · simp only [squeeze, if_pos hn, Int.add_zero, List.cons.injEq, true_and]
                apply h2
                cases hr : relative env ss (absolute env ss rs) with
                | none => rw [hr] at h; simp at h
                | some r => rfl
            · rw [if_neg (by omega), if_neg (by omega)]
              exact ⟨rfl, fun h => by simp at h⟩
          · rw [if_neg hn]
            simp only [absolute, relative, h1]
            refine ⟨trivial, fun h => ?_⟩
            simp only [squeeze, if_neg hn, List.cons.injEq, true_and]
            apply h2
            by_cases hc : e.eval env ≤ e.eval env + r ∧ e.eval env + r < e.eval env + k
            · rw [if_pos hc] at h
              cases hr : relative env ss (absolute env ss rs) with
              | none => rw [hr] at h; simp at h
              | some r => rfl
            · rw [if_neg hc] at h; simp at h

/-! ### One tasklet -/

/-- All memlets of temporaries in a tasklet run use, along the dimensions of size one, the same
index. -/
def FixedStep (cs : Containers) (s : Step V) : Prop :=
  ∀ d c, cs d = some c → c.transient = true → ∃ v, ∀ m ∈ s.2.ins ++ s.2.outs, m.data = d →
    Fixed s.1 c.shape v m.subset

theorem rebuild_other (cs : Containers) (m : Memlet) (h : ¬ IsTransient cs m.data) :
    rebuildMemlet cs m = m := by
  unfold rebuildMemlet
  cases hc : cs m.data with
  | none => rfl
  | some c =>
    simp only
    cases ht : c.transient with
    | false => rfl
    | true => exact absurd ⟨c, hc, ht⟩ h

theorem rebuild_transient (cs : Containers) (m : Memlet) (c : Container) (hc : cs m.data = some c)
    (ht : c.transient = true) : rebuildMemlet cs m = ⟨m.data, rebuildSubset c.shape m.subset⟩ := by
  unfold rebuildMemlet
  rw [hc]
  simp only [ht, if_true]

theorem rebuild_data (cs : Containers) (m : Memlet) : (rebuildMemlet cs m).data = m.data := by
  unfold rebuildMemlet
  cases cs m.data with
  | none => rfl
  | some c => simp only; cases c.transient <;> rfl

/-- Both memories give the tasklet the same inputs. -/
theorem input_rebuild [Inhabited V] (cs : Containers) (s : Step V) (hf : FixedStep cs s)
    (mem mem' : Mem V) (hother : ∀ c, ¬ IsTransient cs c.1 → mem' c = mem c)
    (hread : ∀ d c, cs d = some c → c.transient = true → ∀ i, Reads d s i →
      mem' (d, squeeze c.shape i) = mem (d, i)) :
    input s.1 mem' (s.2.ins.map (rebuildMemlet cs)) = input s.1 mem s.2.ins := by
  funext n rel
  unfold input
  rw [List.getElem?_map]
  cases hm : s.2.ins[n]? with
  | none => rfl
  | some m =>
    simp only [Option.map_some]
    have hmem := List.mem_of_getElem? hm
    by_cases ht : IsTransient cs m.data
    · obtain ⟨c, hc, ht⟩ := ht
      obtain ⟨v, hv⟩ := hf m.data c hc ht
      have hfix := hv m (by simp [hmem]) rfl
      rw [rebuild_transient cs m c hc ht]
      obtain ⟨h1, h2⟩ := absolute_rebuild s.1 c.shape v m.subset rel hfix
      simp only [Memlet.covers, h1]
      cases hr : relative s.1 m.subset (absolute s.1 m.subset rel) with
      | none => simp
      | some r =>
        simp only [Option.isSome_some, Bool.and_true, decide_true, if_true]
        rw [h2 (by rw [hr]; rfl)]
        exact hread _ c hc ht _ ⟨m, hmem, rfl, by rw [hr]; rfl⟩
    · rw [rebuild_other cs m ht]
      split
      · exact hother _ ht
      · rfl

/-- Writing the outputs, at an element of a temporary that is written or was already right. -/
theorem writeOuts_rebuild (cs : Containers) (env : Env) (val : Nat → List Int → V) (d : Nat)
    (c : Container) (hc : cs d = some c) (ht : c.transient = true) (v : List Int) (i : List Int)
    (ho : OnLine c.shape v i) :
    ∀ (ms : List Memlet) (n : Nat) (mem mem' : Mem V),
      (∀ m ∈ ms, m.data = d → Fixed env c.shape v m.subset) →
      (mem' (d, squeeze c.shape i) = mem (d, i) ∨
        ∃ m ∈ ms, m.data = d ∧ (relative env m.subset i).isSome) →
      writeOuts env val (ms.map (rebuildMemlet cs)) n mem' (d, squeeze c.shape i)
        = writeOuts env val ms n mem (d, i) := by
  intro ms
  induction ms with
  | nil =>
    intro n mem mem' _ h
    rcases h with h | ⟨m, hm, -⟩
    · exact h
    · simp at hm
  | cons m ms ih =>
    intro n mem mem' hf h
    simp only [List.map_cons, writeOuts]
    apply ih _ _ _ (fun x hx => hf x (by simp [hx]))
    by_cases hd : d = m.data
    · have hm : cs m.data = some c := by rw [← hd]; exact hc
      rw [rebuild_transient cs m c hm ht]
      simp only [if_pos hd]
      rw [relative_rebuild env c.shape v m.subset i (hf m (by simp) hd.symm) ho]
      cases hr : relative env m.subset i with
      | some r => exact .inl rfl
      | none =>
        rcases h with h | ⟨x, hx, hxd, hxr⟩
        · exact .inl h
        · rcases List.mem_cons.mp hx with rfl | hx
          · rw [hr] at hxr; simp at hxr
          · exact .inr ⟨x, hx, hxd, hxr⟩
    · simp only [rebuild_data, if_neg hd]
      rcases h with h | ⟨x, hx, hxd, hxr⟩
      · exact .inl h
      · rcases List.mem_cons.mp hx with rfl | hx
        · exact absurd hxd.symm hd
        · exact .inr ⟨x, hx, hxd, hxr⟩

theorem writeOuts_other (cs : Containers) (env : Env) (val : Nat → List Int → V) (c : Cell)
    (hc : ¬ IsTransient cs c.1) : ∀ (ms : List Memlet) (n : Nat) (mem mem' : Mem V),
      mem' c = mem c →
      writeOuts env val (ms.map (rebuildMemlet cs)) n mem' c = writeOuts env val ms n mem c := by
  intro ms
  induction ms with
  | nil => intro n mem mem' h; exact h
  | cons m ms ih =>
    intro n mem mem' h
    simp only [List.map_cons, writeOuts]
    apply ih
    by_cases hd : c.1 = m.data
    · rw [rebuild_other cs m (by rw [← hd]; exact hc)]
      simp only [if_pos hd]
      cases relative env m.subset c.2 with
      | none => exact h
      | some r => rfl
    · simp only [rebuild_data, if_neg hd]
      exact h

/-! ### The sequence -/

/-- The element was written, and since then nothing that shares its place in the refined array. -/
def Kept (d : Nat) (shape : List Nat) (l : List (Step V)) (i : List Int) : Prop :=
  ∃ a w b, l = a ++ w :: b ∧ Writes d w i ∧
    ∀ s ∈ b, ∀ j, Writes d s j → squeeze shape j = squeeze shape i → j = i

theorem kept_snoc (d : Nat) (shape : List Nat) (l : List (Step V)) (s : Step V) (i : List Int)
    (h : Kept d shape (l ++ [s]) i) :
    Writes d s i ∨ (Kept d shape l i ∧
      ∀ j, Writes d s j → squeeze shape j = squeeze shape i → j = i) := by
  obtain ⟨a, w, b, hl, hw, hb⟩ := h
  rcases List.eq_nil_or_concat b with rfl | ⟨b', x, rfl⟩
  · left
    have := List.append_inj' (s₁ := l) (t₁ := [s]) hl rfl
    have e : s = w := by simpa using this.2
    rw [e]; exact hw
  · right
    have hl' : l ++ [s] = (a ++ w :: b') ++ [x] := by simpa using hl
    have h2 := List.append_inj' hl' rfl
    have e : s = x := by simpa using h2.2
    subst e
    exact ⟨⟨a, w, b', h2.1, hw, fun y hy => hb y (by simp [hy])⟩,
      hb s (by simp)⟩

/-- The memories agree on what is not temporary and on the elements that are kept. -/
def Related (cs : Containers) (l : List (Step V)) (mem mem' : Mem V) : Prop :=
  (∀ c, ¬ IsTransient cs c.1 → mem' c = mem c) ∧
  ∀ d c, cs d = some c → c.transient = true → ∀ i, Kept d c.shape l i →
    mem' (d, squeeze c.shape i) = mem (d, i)

theorem related_step [Inhabited V] (cs : Containers) (l : List (Step V)) (s : Step V)
    (mem mem' : Mem V) (hf : FixedStep cs s) (h : Related cs l mem mem')
    (hread : ∀ d c, cs d = some c → c.transient = true → ∀ i, Reads d s i → Kept d c.shape l i) :
    Related cs (l ++ [s]) (runStep mem s) (runStep mem' (s.1, rebuildTasklet cs s.2)) := by
  obtain ⟨h1, h2⟩ := h
  have hin := input_rebuild cs s hf mem mem' h1
    (fun d c hc ht i hr => h2 d c hc ht i (hread d c hc ht i hr))
  refine ⟨fun c hc => ?_, fun d c hc ht i hk => ?_⟩
  · simp only [runStep, Tasklet.exec, rebuildTasklet, hin]
    exact writeOuts_other cs _ _ c hc _ _ _ _ (h1 c hc)
  · obtain ⟨v, hv⟩ := hf d c hc ht
    simp only [runStep, Tasklet.exec, rebuildTasklet, hin]
    rcases kept_snoc d c.shape l s i hk with ⟨m, hm, hmd, hmr⟩ | ⟨hk', hno⟩
    · exact writeOuts_rebuild cs s.1 _ d c hc ht v i
        (onLine_of_relative s.1 _ v _ i (hv m (by simp [hm]) hmd) hmr) _ _ _ _
        (fun x hx => hv x (by simp [hx])) (.inr ⟨m, hm, hmd, hmr⟩)
    · by_cases hw : Writes d s i
      · obtain ⟨m, hm, hmd, hmr⟩ := hw
        exact writeOuts_rebuild cs s.1 _ d c hc ht v i
          (onLine_of_relative s.1 _ v _ i (hv m (by simp [hm]) hmd) hmr) _ _ _ _
          (fun x hx => hv x (by simp [hx])) (.inr ⟨m, hm, hmd, hmr⟩)
      · rw [writeOuts_frame, writeOuts_frame, h2 d c hc ht i hk']
        · intro m hm
          cases hcov : m.covers s.1 (d, i) with
          | false => rfl
          | true =>
            simp only [Memlet.covers, Bool.and_eq_true, decide_eq_true_eq] at hcov
            exact absurd ⟨m, hm, hcov.1.symm, hcov.2⟩ hw
        · intro m' hm'
          obtain ⟨m, hm, rfl⟩ := List.mem_map.mp hm'
          cases hcov : (rebuildMemlet cs m).covers s.1 (d, squeeze c.shape i) with
          | false => rfl
          | true =>
            simp only [Memlet.covers, Bool.and_eq_true, decide_eq_true_eq, rebuild_data] at hcov
            obtain ⟨hd, hcov⟩ := hcov
            rw [rebuild_transient cs m c (by rw [← hd]; exact hc) ht] at hcov
            obtain ⟨j, -, hj, hr⟩ := relative_restore s.1 c.shape v m.subset _
              (hv m (by simp [hm]) hd.symm) hcov
            have hwj : Writes d s j := ⟨m, hm, hd.symm, hr⟩
            rw [hno j hwj hj] at hwj
            exact absurd hwj hw

theorem related_run [Inhabited V] (cs : Containers) (after : List (Step V)) :
    ∀ (before : List (Step V)) (mem mem' : Mem V), Related cs before mem mem' →
    (∀ s ∈ after, FixedStep cs s) →
    (∀ a s b, after = a ++ s :: b → ∀ d c, cs d = some c → c.transient = true →
      ∀ i, Reads d s i → Kept d c.shape (before ++ a) i) →
    Related cs (before ++ after) (after.foldl runStep mem)
      ((after.map fun s => (s.1, rebuildTasklet cs s.2)).foldl runStep mem') := by
  induction after with
  | nil => intro before mem mem' h _ _; simpa using h
  | cons s after ih =>
    intro before mem mem' h hf hr
    have h1 := related_step cs before s mem mem' (hf s (by simp)) h
      (fun d c hc ht i hi => by simpa using hr [] s after rfl d c hc ht i hi)
    have h2 := ih (before ++ [s]) _ _ h1 (fun x hx => hf x (by simp [hx]))
      (fun a x b e d c hc ht i hi => by
        simpa using hr (s :: a) x b (by rw [e]; rfl) d c hc ht i hi)
    simpa using h2

/-! ### Local arrays -/

/-- Each element read was written before, and since then the variable had the same value at each
access. -/
def Fresh (d p : Nat) (l : List (Step V)) : Prop :=
  ∀ a s b, l = a ++ s :: b → ∀ i, Reads d s i → ∃ a1 w a2, a = a1 ++ w :: a2 ∧ Writes d w i ∧
    ∀ x ∈ a2, (∃ j, Writes d x j) → x.1 p = s.1 p

theorem fresh_nil (d p : Nat) : Fresh (V := V) d p [] := by
  intro a s b h; simp at h

theorem fresh_append (d p : Nat) (l l' : List (Step V)) (h : Fresh d p l) (h' : Fresh d p l') :
    Fresh d p (l ++ l') := by
  intro a s b e i hi
  rcases List.append_eq_append_iff.mp e with ⟨x, hx1, hx2⟩ | ⟨x, hx1, hx2⟩
  · obtain ⟨a1, w, a2, e', hw, hk⟩ := h' x s b hx2 i hi
    exact ⟨l ++ a1, w, a2, by rw [hx1, e']; simp, hw, hk⟩
  · cases x with
    | nil =>
      obtain ⟨a1, w, a2, e', hw, hk⟩ := h' [] s b (by simpa using hx2.symm) i hi
      simp at e'
    | cons y ys =>
      simp only [List.cons_append, List.cons.injEq] at hx2
      obtain ⟨rfl, -⟩ := hx2
      exact h a s ys hx1 i hi

theorem fresh_flatMap (d p : Nat) (f : Int → List (Step V)) : ∀ (l : List Int),
    (∀ i ∈ l, Fresh d p (f i)) → Fresh d p (l.flatMap f) := by
  intro l
  induction l with
  | nil => intro _; exact fresh_nil d p
  | cons i l ih =>
    intro h
    rw [List.flatMap_cons]
    exact fresh_append d p _ _ (h i (by simp)) (ih fun j hj => h j (by simp [hj]))

/-- Within one iteration. -/
theorem fresh_iteration (σ : Sched) (d p : Nat) (t : Tree V) (env : Env) (hb : t.NoBind p)
    (h : WrittenFirst d (steps σ t env)) : Fresh d p (steps σ t env) := by
  intro a s b e i hi
  obtain ⟨w, hw, hwi⟩ := h a s b e i hi
  obtain ⟨a1, a2, rfl⟩ := List.append_of_mem hw
  have henv := steps_env σ p t env hb
  refine ⟨a1, w, a2, rfl, hwi, fun x hx _ => ?_⟩
  rw [henv x (by rw [e]; simp [hx]), henv s (by rw [e]; simp)]

theorem fresh_local (σ : Sched) (hσ : σ.Fair) (d p : Nat) (t : Tree V) : ∀ (env : Env),
    LocalTo σ d p t → Fresh d p (steps σ t env) := by
  induction t with
  | done => intro env _; exact fresh_nil d p
  | tasklet t rest ih =>
    intro env h
    have : steps σ (Tree.tasklet t rest) env = [(env, t)] ++ steps σ rest env := rfl
    rw [this]
    refine fresh_append d p _ _ ?_ (ih env h.2)
    intro a s b e i hi
    have hs : s ∈ [(env, t)] := by rw [e]; simp
    have e' : s = (env, t) := by simpa using hs
    subst e'
    obtain ⟨m, hm, hmd, -⟩ := hi
    exact absurd hmd (h.1 m (List.mem_append.mpr (.inl hm)))
  | ifS g body rest ihb ihr =>
    intro env h
    simp only [steps]
    refine fresh_append d p _ _ ?_ (ihr env h.2)
    cases g.holds env with
    | true => exact ihb env h.1
    | false => exact fresh_nil d p
  | mapS q r body rest ihb ihr =>
    intro env h
    simp only [steps]
    refine fresh_append d p _ _ ?_ (ihr env h.2)
    apply fresh_flatMap
    intro i hi
    have hi' : i ∈ r.iters := (hσ q r.iters).mem_iff.mp hi
    by_cases hq : q = p
    · have h1 := h.1
      rw [if_pos hq] at h1
      subst hq
      exact fresh_iteration σ d q body _ h1.1 (h1.2 env i hi')
    · have h1 := h.1
      rw [if_neg hq] at h1
      exact ihb _ h1
  | forS q r body rest ihb ihr =>
    intro env h
    simp only [steps]
    refine fresh_append d p _ _ ?_ (ihr env h.2)
    apply fresh_flatMap
    intro i hi
    by_cases hq : q = p
    · have h1 := h.1
      rw [if_pos hq] at h1
      subst hq
      exact fresh_iteration σ d q body _ h1.1 (h1.2 env i hi)
    · have h1 := h.1
      rw [if_neg hq] at h1
      exact ihb _ h1

end NDSL.Refine
