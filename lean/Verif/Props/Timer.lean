import Verif.Spec.Timer
import Verif.Props.StateTransfer
import Mathlib.Data.List.Induction

/-! Property C55: what a timer reports. -/
namespace NDSL.Timing

variable {T : Type}

theorem dictGet_del {V : Type} (d : List (String × V)) (k k' : String) :
    dictGet (dictDel d k) k' = if k' = k then none else dictGet d k' := by
  unfold dictGet dictDel
  induction d with
  | nil => simp
  | cons e d ih =>
    rw [List.filter_cons]
    by_cases h1 : e.1 = k
    · rw [if_neg (by simpa using h1), ih]
      by_cases h2 : k' = k
      · simp [h2]
      · have : ¬ e.1 = k' := fun x => h2 (by rw [← x, h1])
        simp [h2, this]
    · rw [if_pos (by simpa using h1)]
      by_cases h2 : e.1 = k'
      · have : ¬ k' = k := fun x => h1 (by rw [h2, x])
        simp [h2, this]
      · have h4 : (e.1 == k') = false := by simpa using h2
        simp only [List.find?_cons, h4]
        exact ih

theorem dict_nonempty {V : Type} (d : List (String × V)) :
    d.length > 0 ↔ ∃ k v, dictGet d k = some v := by
  cases d with
  | nil => simp [dictGet]
  | cons e d =>
    constructor
    · intro _
      exact ⟨e.1, e.2, by simp [dictGet]⟩
    · intro _; simp

variable [Add T] [Sub T]

/-- The timer agrees with the log. -/
structure Agrees (τ : Timer T) (log : List (Ev T)) (b : Bool) : Prop where
  enabled : τ.enabled = b
  starts : ∀ n, dictGet τ.starts n = if running n log then lastBegan n log else none
  began : ∀ n, running n log = true → ∃ t, lastBegan n log = some t
  times : ∀ n, dictGet τ.times n = total (durations n log)
  hits : ∀ n, dictGet τ.hits n =
    if (durations n log).length = 0 then none else some (durations n log).length

theorem running_iff {τ : Timer T} {log : List (Ev T)} {b : Bool} (h : Agrees τ log b) (n : String) :
    running n log = true ↔ ∃ t, dictGet τ.starts n = some t := by
  rw [h.starts n]
  constructor
  · intro hr
    obtain ⟨t, ht⟩ := h.began n hr
    exact ⟨t, by rw [if_pos hr, ht]⟩
  · rintro ⟨t, ht⟩
    by_cases hr : running n log = true
    · exact hr
    · rw [if_neg hr] at ht; cases ht

theorem total_snoc (l : List T) (d : T) :
    total (l ++ [d]) = some (match total l with | none => d | some s => s + d) := by
  cases l with
  | nil => rfl
  | cons x l => simp [total]

/-- One operation: it raises exactly if it is a misuse, and then changes nothing; otherwise the
timer agrees with the new log. -/
theorem step_agrees (τ : Timer T) (log : List (Ev T)) (b : Bool) (h : Agrees τ log b) (o : Op T) :
    (∀ e, Misuse log b o e → τ.step o = (τ, some e)) ∧
    ((∀ e, ¬ Misuse log b o e) → (τ.step o).2 = none ∧
      Agrees (τ.step o).1 (effect log b o).1 (effect log b o).2) := by
  have he := h.enabled
  subst he
  constructor
  · intro e hm
    cases hb : τ.enabled with
    | false =>
      rw [hb] at hm
      cases hm with
      | disable b n hr =>
        obtain ⟨t, ht⟩ := (running_iff h n).1 hr
        have := (dict_nonempty τ.starts).2 ⟨n, t, ht⟩
        simp only [Timer.step, Timer.disable, if_pos this]
    | true =>
      rw [hb] at hm
      cases hm with
      | start n t hr =>
        obtain ⟨t', ht⟩ := (running_iff h n).1 hr
        simp [Timer.step, Timer.start, hb, ht]
      | stop n t hr =>
        have : dictGet τ.starts n = none := by rw [h.starts n, hr]; rfl
        simp [Timer.step, Timer.stop, hb, this]
      | disable b n hr =>
        obtain ⟨t, ht⟩ := (running_iff h n).1 hr
        have := (dict_nonempty τ.starts).2 ⟨n, t, ht⟩
        simp only [Timer.step, Timer.disable, if_pos this]
  · intro hno
    cases o with
    | reset =>
      refine ⟨rfl, ⟨rfl, ?_, ?_, ?_, ?_⟩⟩
      · intro n; exact h.starts n
      · intro n; exact h.began n
      · intro n; rfl
      · intro n; rfl
    | enable =>
      exact ⟨rfl, ⟨rfl, h.starts, h.began, h.times, h.hits⟩⟩
    | disable =>
      have hz : ¬ τ.starts.length > 0 := by
        rw [dict_nonempty]
        rintro ⟨n, t, ht⟩
        exact hno .runtimeError (.disable _ n ((running_iff h n).2 ⟨t, ht⟩))
      simp only [Timer.step, Timer.disable, if_neg hz]
      exact ⟨trivial, ⟨rfl, h.starts, h.began, h.times, h.hits⟩⟩
    | start n t =>
      cases hb : τ.enabled with
      | false =>
        simp only [Timer.step, Timer.start, hb, effect]
        exact ⟨rfl, ⟨hb, h.starts, h.began, h.times, h.hits⟩⟩
      | true =>
        have hr : running n log = false := by
          cases hr : running n log with
          | false => rfl
          | true => rw [hb] at hno; exact (hno .valueError (.start n t hr)).elim
        have hs : dictGet τ.starts n = none := by rw [h.starts n, hr]; rfl
        have hst : τ.step (.start n t) = ({ τ with starts := dictSet τ.starts n t }, none) := by
          simp [Timer.step, Timer.start, hb, hs]
        rw [hst]
        refine ⟨rfl, ⟨hb, ?_, ?_, ?_, ?_⟩⟩
        · intro m
          simp only [effect, if_true, running, lastBegan]
          rw [dictGet_set]
          by_cases hm : m = n
          · subst hm; simp
          · have hm' : ¬ n = m := fun x => hm x.symm
            simp only [hm, hm', if_false]
            exact h.starts m
        · intro m
          simp only [effect, if_true, running, lastBegan]
          by_cases hm : n = m
          · simp [hm]
          · simp only [hm, if_false]; exact h.began m
        · intro m; exact h.times m
        · intro m; exact h.hits m
    | stop n t =>
      cases hb : τ.enabled with
      | false =>
        simp only [Timer.step, Timer.stop, hb, effect]
        exact ⟨rfl, ⟨hb, h.starts, h.began, h.times, h.hits⟩⟩
      | true =>
        have hr : running n log = true := by
          cases hr : running n log with
          | true => rfl
          | false => rw [hb] at hno; exact (hno .keyError (.stop n t hr)).elim
        obtain ⟨t0, ht0⟩ := h.began n hr
        have hs : dictGet τ.starts n = some t0 := by rw [h.starts n, hr, ht0]; rfl
        simp only [Timer.step, Timer.stop, hb, hs, effect, if_true, Bool.true_eq_false, if_false]
        refine ⟨trivial, ⟨rfl, ?_, ?_, ?_, ?_⟩⟩
        · intro m
          show dictGet (dictDel τ.starts n) m = _
          rw [dictGet_del]
          simp only [running, lastBegan]
          by_cases hm : m = n
          · subst hm; simp
          · have hm' : ¬ n = m := fun x => hm x.symm
            simp only [hm, hm', if_false]
            exact h.starts m
        · intro m
          simp only [running, lastBegan]
          by_cases hm : n = m
          · simp [hm]
          · simp only [hm, if_false]; exact h.began m
        · intro m
          simp only [durations]
          by_cases hm : n = m
          · subst hm
            simp only [if_true, ht0]
            rw [total_snoc, ← h.times n]
            cases hd : dictGet τ.times n with
            | none => simp only; rw [dictGet_set, if_pos rfl]
            | some s => simp only; rw [dictGet_set, if_pos rfl]
          · simp only [hm, if_false]
            rw [← h.times m]
            have hm' : ¬ m = n := fun x => hm x.symm
            cases hd : dictGet τ.times n with
            | none => simp only; rw [dictGet_set, if_neg hm']
            | some s => simp only; rw [dictGet_set, if_neg hm']
        · intro m
          simp only [durations]
          by_cases hm : n = m
          · subst hm
            simp only [if_true, ht0]
            have hh := h.hits n
            rw [List.length_append, List.length_singleton, if_neg (Nat.succ_ne_zero _)]
            cases hd : dictGet τ.hits n with
            | none =>
              simp only
              rw [dictGet_set, if_pos rfl]
              rw [hd] at hh
              by_cases h0 : (durations n log).length = 0
              · rw [h0]
              · rw [if_neg h0] at hh; cases hh
            | some s =>
              simp only
              rw [dictGet_set, if_pos rfl]
              rw [hd] at hh
              by_cases h0 : (durations n log).length = 0
              · rw [if_pos h0] at hh; cases hh
              · rw [if_neg h0] at hh
                rw [Option.some.inj hh]
          · simp only [hm, if_false]
            rw [← h.hits m]
            have hm' : ¬ m = n := fun x => hm x.symm
            cases hd : dictGet τ.hits n with
            | none => simp only; rw [dictGet_set, if_neg hm']
            | some s => simp only; rw [dictGet_set, if_neg hm']

theorem new_agrees (e0 : Bool) : Agrees (Timer.new e0 : Timer T) [] e0 :=
  ⟨rfl, fun _ => rfl, fun _ h => by simp [running] at h, fun _ => rfl, fun _ => rfl⟩

theorem run_agrees (e0 : Bool) (ops : List (Op T)) (log : List (Ev T)) (b : Bool)
    (h : Logs e0 ops log b) : Agrees ((Timer.new e0).run ops) log b := by
  induction h with
  | nil => exact new_agrees e0
  | ok ops log b o _ hno ih =>
    unfold Timer.run at ih ⊢
    rw [List.foldl_append]
    exact ((step_agrees _ _ _ ih o).2 hno).2
  | misuse ops log b o e _ hm ih =>
    unfold Timer.run at ih ⊢
    rw [List.foldl_append]
    simp only [List.foldl_cons, List.foldl_nil]
    rw [(step_agrees _ _ _ ih o).1 e hm]
    exact ih

/-- Every history has a log. -/
theorem C55_log_exists (e0 : Bool) (ops : List (Op T)) : ∃ log b, Logs e0 ops log b := by
  induction ops using List.reverseRecOn with
  | nil => exact ⟨[], e0, .nil⟩
  | append_singleton ops o ih =>
    obtain ⟨log, b, h⟩ := ih
    by_cases hm : ∃ e, Misuse log b o e
    · obtain ⟨e, he⟩ := hm
      exact ⟨log, b, .misuse ops log b o e h he⟩
    · exact ⟨_, _, .ok ops log b o h (fun e he => hm ⟨e, he⟩)⟩

/-- **C55**: after any history of calls, the time reported for a name is the sum of the durations of
its intervals that were completed while enabled since the last reset, and the hits are their number;
names without such an interval are not reported. -/
theorem C55_totals (e0 : Bool) (ops : List (Op T)) (log : List (Ev T)) (b : Bool)
    (h : Logs e0 ops log b) (n : String) :
    dictGet ((Timer.new e0).run ops).times n = total (durations n log) ∧
    dictGet ((Timer.new e0).run ops).hits n =
      if durations n log = [] then none else some (durations n log).length := by
  have k := run_agrees e0 ops log b h
  refine ⟨k.times n, ?_⟩
  rw [k.hits n]
  cases durations n log <;> simp

/-- **C55** (misuse): a call raises exactly if it is a misuse — starting a running clock, stopping
one that is not running, disabling while a clock runs — and then the timer is unchanged. -/
theorem C55_misuse (e0 : Bool) (ops : List (Op T)) (log : List (Ev T)) (b : Bool)
    (h : Logs e0 ops log b) (o : Op T) (e : Err) :
    (Misuse log b o e ↔ (((Timer.new e0).run ops).step o).2 = some e) ∧
    (Misuse log b o e → (((Timer.new e0).run ops).step o).1 = (Timer.new e0).run ops) := by
  have k := step_agrees _ _ _ (run_agrees e0 ops log b h) o
  refine ⟨⟨fun hm => by rw [k.1 e hm], fun he => ?_⟩, fun hm => by rw [k.1 e hm]⟩
  by_cases hm : ∃ e', Misuse log b o e'
  · obtain ⟨e', he'⟩ := hm
    have := k.1 e' he'
    rw [this] at he
    simp only [Option.some.injEq] at he
    rw [← he]
    exact he'
  · have := (k.2 (fun e' he' => hm ⟨e', he'⟩)).1
    rw [this] at he
    cases he

/-- **C55** (context manager): `with timer.clock(name)` on an enabled timer whose clock of that name
is not running measures one more interval of the name, whether or not the body raises, if the body
uses the timer only for other names and does not reset it. -/
theorem C55_clock (e0 : Bool) (ops : List (Op T)) (log : List (Ev T)) (h : Logs e0 ops log true)
    (name : String) (t0 t1 : T) (hr : running name log = false) (inner : List (Op T)) (err : Option Err)
    (hin : ∀ o ∈ inner, (∃ m t, m ≠ name ∧ (o = .start m t ∨ o = .stop m t)) ∨ o = .enable ∨ o = .disable) :
    let r := ((Timer.new e0).run ops).clock name t0 t1 fun τ => (τ.run inner, err)
    r.2 = err ∧ dictGet r.1.times name = total (durations name log ++ [t1 - t0]) ∧
      dictGet r.1.hits name = some ((durations name log).length + 1) := by
  have k := run_agrees e0 ops log true h
  have s1 := (step_agrees _ _ _ k (.start name t0)).2 (by
    intro e hm
    cases hm with
    | start _ _ h => rw [hr] at h; cases h)
  simp only [Timer.step, effect, if_true] at s1
  -- the body keeps the clock running
  have hbody : ∀ (inner : List (Op T)) (τ : Timer T) (lg : List (Ev T)),
      (∀ o ∈ inner, (∃ m t, m ≠ name ∧ (o = .start m t ∨ o = .stop m t)) ∨ o = .enable ∨ o = .disable) →
      Agrees τ lg true → running name lg = true → lastBegan name lg = some t0 →
      durations name lg = durations name log →
      ∃ lg', Agrees (τ.run inner) lg' true ∧ running name lg' = true ∧ lastBegan name lg' = some t0 ∧
        durations name lg' = durations name log := by
    intro inner
    induction inner with
    | nil => intro τ lg _ h1 h2 h3 h4; exact ⟨lg, h1, h2, h3, h4⟩
    | cons o inner ih =>
      intro τ lg ho h1 h2 h3 h4
      have st := step_agrees τ lg true h1 o
      by_cases hm : ∃ e, Misuse lg true o e
      · obtain ⟨e, he⟩ := hm
        have := ih τ lg (fun o h => ho o (by simp [h])) h1 h2 h3 h4
        unfold Timer.run at this ⊢
        rw [List.foldl_cons, st.1 e he]
        exact this
      · have hno : ∀ e, ¬ Misuse lg true o e := fun e he => hm ⟨e, he⟩
        have ag := (st.2 hno).2
        have := fun lg' (a : Agrees (τ.step o).1 lg' true) b c d =>
          ih (τ.step o).1 lg' (fun o h => ho o (by simp [h])) a b c d
        unfold Timer.run at this ⊢
        rw [List.foldl_cons]
        rcases ho o (by simp) with ⟨m, t, hmn, rfl | rfl⟩ | rfl | rfl
        · exact this _ ag (by simp [effect, running, hmn, h2]) (by simp [effect, lastBegan, hmn, h3])
            (by simp [effect, durations, h4])
        · exact this _ ag (by simp [effect, running, hmn, h2]) (by simp [effect, lastBegan, h3])
            (by simp [effect, durations, hmn, h4])
        · exact this _ ag h2 h3 h4
        · exact (hno .runtimeError (.disable _ name h2)).elim
  obtain ⟨lg, a1, a2, a3, a4⟩ := hbody inner _ _ hin s1.2 (by simp [running]) (by simp [lastBegan])
    (by simp [durations])
  have s2 := (step_agrees _ _ _ a1 (.stop name t1)).2 (by
    intro e hm
    cases hm with
    | stop _ _ h => rw [a2] at h; cases h)
  simp only [Timer.step, effect, if_true] at s2
  generalize hst : ((Timer.new e0).run ops).start name t0 = st at s1 s2
  obtain ⟨τ1, e1⟩ := st
  obtain ⟨h1, -⟩ := s1
  simp only at h1
  subst h1
  simp only at s2
  simp only [Timer.clock, hst]
  generalize hsp : (τ1.run inner).stop name t1 = sp at s2
  obtain ⟨τ2, e2⟩ := sp
  obtain ⟨h2, s2⟩ := s2
  simp only at h2
  subst h2
  have hd : durations name (Ev.ended name t1 :: lg) = durations name log ++ [t1 - t0] := by
    simp [durations, a3, a4]
  refine ⟨rfl, ?_, ?_⟩
  · rw [← hd]; exact s2.times name
  · have := s2.hits name
    rw [hd] at this
    simpa using this

/-- **C55** (`NullTimer`): it never measures anything. -/
theorem C55_null (ops : List (Op T)) :
    ops.foldl (fun τ o => (nullStep τ o).1) (Timer.new false : Timer T) = Timer.new false := by
  induction ops with
  | nil => rfl
  | cons o ops ih =>
    rw [List.foldl_cons]
    have : (nullStep (Timer.new false : Timer T) o).1 = Timer.new false := by
      cases o <;> rfl
    rw [this, ih]

/-- A history with nested clocks, a reset and a misuse. -/
example : (Timer.new true : Timer Int).run
    [.start "a" 1, .start "b" 2, .start "a" 3, .stop "b" 5, .stop "a" 7, .start "a" 10, .reset,
      .stop "a" 12, .start "b" 20, .stop "b" 21, .start "b" 30, .stop "b" 33, .stop "c" 40, .disable,
      .start "a" 50] =
    ⟨[], [("a", 2), ("b", 4)], [("a", 1), ("b", 2)], false⟩ := by decide

example : durations "b" [.ended "b" 33, .began "b" 30, .ended "b" 21, .began "b" (20 : Int), .reset,
    .ended "b" 5, .began "b" 2] = [1, 3] := by decide

end NDSL.Timing
