import Mathlib.Tactic.Ring
import Mathlib.Tactic.Linarith
import Mathlib.Tactic.NormNum
import Mathlib.Algebra.Order.AbsoluteValue.Basic
import Verif.Spec.Comparison
/-
Property theorems C61: comparison of arrays.
-/
namespace NDSL.Compare

theorem legacyMetric_fin (c r : ℚ) :
    legacyMetric (.fin c) (.fin r) = .fin (if r = 0 then |c| else |(c - r) / r|) := by
  unfold legacyMetric
  by_cases h : r = 0
  · subst h
    rw [if_pos rfl, if_pos rfl]
    simp [Fl.sub, Fl.div, Fl.abs]
  · rw [if_neg (by simpa using h), if_neg h]
    simp [Fl.sub, Fl.div, Fl.abs, h]

/-- C61: two numbers pass the legacy metric exactly when they are close, or both below the near zero
threshold in force. -/
theorem C61_legacy_numbers (eps : ℚ) (near : Option ℚ) (c r : ℚ) :
    legacyNum eps near (.fin c) (.fin r) = true ↔
      CloseLegacy eps c r ∨ ∃ z, near = some z ∧ |c| < z ∧ |r| < z := by
  unfold legacyNum
  rw [legacyMetric_fin]
  have h1 : (decide ((if r = 0 then |c| else |(c - r) / r|) < eps)) = true ↔ CloseLegacy eps c r := by
    rw [decide_eq_true_iff]
    unfold CloseLegacy
    by_cases h : r = 0
    · simp [h]
    · rw [if_neg h, abs_div, div_lt_iff₀ (abs_pos.2 h)]
      simp [h]
  have h2 : bothNear near (.fin c) (.fin r) = true ↔ ∃ z, near = some z ∧ |c| < z ∧ |r| < z := by
    cases near with
    | none => simp [bothNear]
    | some z => simp [bothNear, Fl.abs, Fl.ltQ]
  simp only [Fl.isNan, Fl.ltQ, Bool.and_self, Bool.false_or, Bool.or_eq_true]
  rw [h1, h2]

/-- C61: a NaN passes against a NaN and fails against anything else, in either metric. -/
theorem C61_nan (eps : ℚ) (near : Option ℚ) (sp : ℚ → ℚ) (s : Shared) (x : Fl) :
    (legacyNum eps near .nan x = true ↔ x = .nan) ∧ (legacyNum eps near x .nan = true ↔ x = .nan) ∧
    (multiNum sp eps s .nan x = true ↔ x = .nan) ∧ (multiNum sp eps s x .nan = true ↔ x = .nan) := by
  cases x <;> cases near <;>
    simp [legacyNum, multiNum, legacyMetric, bothNear, Fl.isNan, Fl.sub, Fl.div, Fl.abs, Fl.ltQ,
      Fl.lt, Fl.leQ, Fl.maximum, Fl.scale, Fl.spacing]

theorem nearZero_ok_of_flag (b : Bool) (q : ℚ) : ∃ n, nearZero (.flag b) q = .ok n := by
  cases b <;> exact ⟨_, rfl⟩

/-- C61: an array of numbers without infinities, NaN included, or of booleans, compared with itself
passes the legacy metric, whatever the near zero options that are accepted. -/
theorem C61_legacy_self (eps : ℚ) (he : 0 < eps) (ignore : Ignore) (given : ℚ) (d : Data)
    (hs : d.Same) (hi : ∀ t pairs, d = .num t pairs → ∀ p ∈ pairs, p.1.NotInf)
    (n : Option ℚ) (hn : nearZero ignore given = .ok n) : legacy eps ignore given d = .ok true := by
  cases d with
  | other => exact hs.elim
  | bool pairs =>
    unfold legacy
    simp only
    rw [hn]
    show Except.ok _ = _
    congr 1
    rw [List.all_eq_true]
    rintro ⟨c, r⟩ hp
    have : c = r := hs _ hp
    subst this
    simp [legacyBool, ofBool, he]
  | num t pairs =>
    unfold legacy
    simp only
    rw [hn]
    show Except.ok _ = _
    congr 1
    rw [List.all_eq_true]
    rintro ⟨c, r⟩ hp
    have : c = r := hs _ hp
    subst this
    have hni := hi t pairs rfl _ hp
    cases c with
    | nan => exact (C61_nan eps n id Shared.start .nan).1.2 rfl
    | inf b => exact absurd rfl (hni b)
    | fin q =>
      refine (C61_legacy_numbers eps n q q).2 (Or.inl ?_)
      by_cases h : q = 0
      · exact Or.inr ⟨h, by rw [h]; simpa using he⟩
      · exact Or.inl ⟨h, by simpa using mul_pos he (abs_pos.2 h)⟩

/-- C61: boolean arrays pass the legacy metric exactly when they are equal, for thresholds up to one
and no near zero option. -/
theorem C61_legacy_bool (eps : ℚ) (h0 : 0 < eps) (h1 : eps ≤ 1) (given : ℚ)
    (pairs : List (Bool × Bool)) :
    legacy eps (.flag false) given (.bool pairs) = .ok true ↔ ∀ p ∈ pairs, p.1 = p.2 := by
  show Except.ok (pairs.all fun (c, r) => legacyBool eps none c r) = Except.ok true ↔ _
  rw [Except.ok.injEq, List.all_eq_true]
  refine forall_congr' fun p => imp_congr_right fun _ => ?_
  obtain ⟨c, r⟩ := p
  cases c <;> cases r <;> simp [legacyBool, ofBool, bothNear, h0, h1]

/-- C61: the check passes exactly when every pair does, and raises a `TypeError` for other types. -/
theorem C61_legacy_all (eps : ℚ) (given : ℚ) (t : NumType) (pairs : List (Fl × Fl)) (b : Bool)
    (n : Option ℚ) (hn : nearZero (.flag b) given = .ok n) :
    (legacy eps (.flag b) given (.num t pairs) = .ok true ↔
      ∀ p ∈ pairs, legacyNum eps n p.1 p.2 = true) ∧
    legacy eps (.flag b) given .other = .error .typeError := by
  refine ⟨?_, rfl⟩
  unfold legacy
  simp only
  rw [hn]
  show Except.ok (pairs.all fun (c, r) => legacyNum eps n c r) = Except.ok true ↔ _
  rw [Except.ok.injEq, List.all_eq_true]

/-- C61: two numbers pass the multi modal metric exactly when they are close in one of the three ways. -/
theorem C61_multi_numbers (sp : ℚ → ℚ) (hsp : ∀ x, 0 < sp x) (eps : ℚ) (s : Shared) (c r : ℚ) :
    multiNum sp eps s (.fin c) (.fin r) = true ↔ CloseMulti sp eps s.relative s.ulp c r := by
  unfold multiNum CloseMulti
  have h := hsp (max |c| |r|)
  simp only [Fl.abs, Fl.maximum, Fl.sub, Fl.scale, Fl.spacing, Fl.div, Fl.isNan, Bool.and_self,
    Bool.false_or, Bool.or_eq_true, Fl.lt, Fl.ltQ, decide_eq_true_eq]
  rw [if_neg (ne_of_gt h)]
  simp only [Fl.leQ, decide_eq_true_eq]
  rw [div_le_iff₀ h]
  constructor
  · rintro ((h | h) | h)
    · exact Or.inr (Or.inl h)
    · exact Or.inl h
    · exact Or.inr (Or.inr h)
  · rintro (h | h | h)
    · exact Or.inl (Or.inr h)
    · exact Or.inl (Or.inl h)
    · exact Or.inr h

theorem override_ge (s : Shared) (o : Overrides) :
    s.relative ≤ (s.override o).relative ∧ s.ulp ≤ (s.override o).ulp := by
  unfold Shared.override
  simp only
  constructor <;> (split <;> linarith)

theorem override_or (s : Shared) (o : Overrides) :
    ((s.override o).relative = s.relative ∨ (s.override o).relative = o.relative) ∧
      ((s.override o).ulp = s.ulp ∨ (s.override o).ulp = o.ulp) := by
  unfold Shared.override
  simp only
  constructor <;> (split <;> simp)

theorem history_ge (h : List Overrides) (s : Shared) :
    s.relative ≤ (history s h).relative ∧ s.ulp ≤ (history s h).ulp := by
  induction h generalizing s with
  | nil => exact ⟨le_refl _, le_refl _⟩
  | cons o h ih =>
    have h1 := override_ge s o
    have h2 := ih (s.override o)
    exact ⟨le_trans h1.1 h2.1, le_trans h1.2 h2.2⟩

theorem absoluteEps_pos (o : Overrides) (t : NumType) : 0 < absoluteEps o t := by
  unfold absoluteEps
  cases t <;> simp only <;> split <;> first | (norm_num; done) | (refine lt_trans ?_ ‹_›; norm_num)

/-- C61: an array of numbers without infinities, NaN included, compared with itself passes the multi
modal metric, whatever was compared before and whatever the overrides. -/
theorem C61_multi_self (sp : NumType → ℚ → ℚ) (hsp : ∀ t x, 0 < sp t x) (hist : List Overrides)
    (o : Overrides) (t : NumType) (pairs : List (Fl × Fl)) (hs : ∀ p ∈ pairs, p.1 = p.2)
    (hi : ∀ p ∈ pairs, p.1.NotInf) :
    (multi sp (history .start hist) o (.num t pairs)).2 = .ok true := by
  unfold multi multiCheck
  simp only
  congr 1
  rw [List.all_eq_true]
  rintro ⟨c, r⟩ hp
  have : c = r := hs _ hp
  subst this
  have hni := hi _ hp
  cases c with
  | nan => exact (C61_nan 1 none (sp t) _ .nan).2.2.1.2 rfl
  | inf b => exact absurd rfl (hni b)
  | fin q =>
    refine (C61_multi_numbers (sp t) (hsp t) _ _ q q).2 (Or.inl ?_)
    simpa using absoluteEps_pos o t

/-- C61: the absolute threshold of a comparison depends on its own override and type only. The two
others are the largest of the default and every override given so far: a comparison is not affected
by the ones before it as long as they gave no override above the default. -/
theorem C61_history (sp : NumType → ℚ → ℚ) (hist : List Overrides) (o : Overrides) (d : Data)
    (h : ∀ p ∈ hist, p.relative ≤ Shared.start.relative ∧ p.ulp ≤ Shared.start.ulp) :
    multi sp (history .start hist) o d = multi sp .start o d := by
  have : history .start hist = .start := by
    induction hist with
    | nil => rfl
    | cons p hist ih =>
      have hp := h p (List.mem_cons_self ..)
      have e : Shared.start.override p = Shared.start := by
        unfold Shared.override
        rw [if_neg (not_lt.2 hp.1), if_neg (not_lt.2 hp.2)]
      show history (Shared.start.override p) hist = _
      rw [e]
      exact ih fun q hq => h q (List.mem_cons_of_mem _ hq)
  rw [this]

/-- C61: what the shared thresholds are after a history. -/
theorem C61_thresholds (hist : List Overrides) (s : Shared) :
    (∀ p ∈ hist, p.relative ≤ (history s hist).relative ∧ p.ulp ≤ (history s hist).ulp) ∧
    ((history s hist).relative = s.relative ∨
      ∃ p ∈ hist, p.relative = (history s hist).relative) ∧
    ((history s hist).ulp = s.ulp ∨ ∃ p ∈ hist, p.ulp = (history s hist).ulp) := by
  induction hist generalizing s with
  | nil => exact ⟨fun p hp => absurd hp List.not_mem_nil, Or.inl rfl, Or.inl rfl⟩
  | cons o hist ih =>
    obtain ⟨h1, h2, h3⟩ := ih (s.override o)
    have hge := history_ge hist (s.override o)
    show (∀ p ∈ o :: hist, p.relative ≤ (history (s.override o) hist).relative ∧ _) ∧ _
    refine ⟨?_, ?_, ?_⟩
    · intro p hp
      rcases List.mem_cons.1 hp with rfl | hp
      · have : p.relative ≤ (s.override p).relative ∧ p.ulp ≤ (s.override p).ulp := by
          unfold Shared.override
          simp only
          constructor <;> (split <;> linarith)
        exact ⟨le_trans this.1 hge.1, le_trans this.2 hge.2⟩
      · exact h1 p hp
    · rcases h2 with h2 | ⟨p, hp, h2⟩
      · rcases (override_or s o).1 with he | he
        · exact Or.inl (h2.trans he)
        · exact Or.inr ⟨o, List.mem_cons_self .., (h2.trans he).symm⟩
      · exact Or.inr ⟨p, List.mem_cons_of_mem _ hp, h2⟩
    · rcases h3 with h3 | ⟨p, hp, h3⟩
      · rcases (override_or s o).2 with he | he
        · exact Or.inl (h3.trans he)
        · exact Or.inr ⟨o, List.mem_cons_self .., (h3.trans he).symm⟩
      · exact Or.inr ⟨p, List.mem_cons_of_mem _ hp, h3⟩

/-- C61: other types are rejected. -/
theorem C61_multi_rejects (sp : NumType → ℚ → ℚ) (s : Shared) (o : Overrides) :
    (multi sp s o .other).2 = .error .typeError := rfl

/-- Not so with infinities: an array with one fails against itself, in either metric. -/
theorem C61_infinity_violated (sp : NumType → ℚ → ℚ) (t : NumType) (neg : Bool)
    (s : Shared) (o : Overrides) (eps given : ℚ) (ignore : Bool) :
    legacy eps (.flag ignore) given (.num t [(.inf neg, .inf neg)]) = .ok false ∧
    (multi sp s o (.num t [(.inf neg, .inf neg)])).2 = .ok false := by
  constructor
  · cases neg <;> cases ignore <;> rfl
  · cases neg <;> rfl

/-- Not so for booleans in the multi modal metric: arrays pass exactly when they differ everywhere. -/
theorem C61_bool_violated (sp : NumType → ℚ → ℚ) (s : Shared) (o : Overrides)
    (pairs : List (Bool × Bool)) :
    (multi sp s o (.bool pairs)).2 = .ok true ↔ ∀ p ∈ pairs, p.1 ≠ p.2 := by
  show Except.ok (pairs.all fun (c, r) => c ^^ r) = Except.ok true ↔ _
  rw [Except.ok.injEq, List.all_eq_true]
  refine forall_congr' fun p => imp_congr_right fun _ => ?_
  obtain ⟨c, r⟩ := p
  cases c <;> cases r <;> simp

/-- Not so for the thresholds: one given for a comparison stays for the next ones. -/
theorem C61_sticky_violated :
    ∃ (sp : NumType → ℚ → ℚ) (o : Overrides) (d : Data), (∀ t x, 0 < sp t x) ∧
      (multi sp .start .none d).2 = .ok false ∧
      (multi sp (multi sp .start o d).1 .none d).2 = .ok true := by
  refine ⟨fun _ _ => 1 / 10 ^ 16, ⟨-1, 1 / 2, -1⟩, .num .f64 [(.fin 1, .fin (11 / 10))],
    fun _ _ => by norm_num, ?_, ?_⟩ <;> decide +kernel

example : legacy (1 / 10) (.flag false) 0
    (.num .f64 [(.nan, .nan), (.fin 100, .fin 101), (.fin 0, .fin 0)]) = .ok true := by decide +kernel
example : legacy (1 / 10) (.flag false) 0 (.num .f64 [(.fin 100, .fin 120)]) = .ok false := by
  decide +kernel
example : legacy (1 / 10) (.dict [("near_zero", 1)]) 0 (.num .f64 [(.fin (1 / 2), .fin 0)]) = .ok true := by
  decide +kernel
example : (multi (fun _ _ => 1 / 10 ^ 16) .start .none (.num .f32 [(.fin 3, .fin 3), (.nan, .nan)])).2 =
    .ok true := by decide +kernel

end NDSL.Compare
