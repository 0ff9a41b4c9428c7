import Verif.Spec.Settings
/-
C126: the environment variables decide precision, constants, messages, debugger, and orchestration as documented.
-/
namespace NDSL.Settings
open Spec

/-! ### constants -/

theorem constantVersion_ok {env : Env} {v : Version} :
    constantVersion env = .ok v ↔ NamesVersion ((env (chars! "NDSL_CONSTANTS")).getD (chars! "UFS")) v := by
  unfold constantVersion
  simp only
  generalize (env (chars! "NDSL_CONSTANTS")).getD (chars! "UFS") = t
  constructor
  · intro h
    split at h
    · next e => cases h; subst e; exact .gfdl
    split at h
    · next e => cases h; subst e; exact .ufs
    split at h
    · next e => cases h; subst e; exact .geos
    · cases h
  · intro h
    cases h <;> rfl

theorem constantVersion_error {env : Env} {e : Err} (h : constantVersion env = .error e) : e = .runtimeError := by
  unfold constantVersion at h
  simp only at h
  repeat (split at h; · cases h)
  cases h; rfl

theorem exported_other {env : Env} {k : Text} (h1 : k ≠ chars! "GT4PY_LITERAL_INT_PRECISION")
    (h2 : k ≠ chars! "GT4PY_LITERAL_FLOAT_PRECISION") : exported env k = env k := by
  simp [exported, setEnv, h1, h2]

theorem precision_cases (env : Env) : precision env = 32 ∨ precision env = 64 := by
  unfold precision
  simp only
  split
  · exact .inl rfl
  · split <;> exact .inr rfl

theorem precision_32 (env : Env) : precision env = 32 ↔ env (chars! "NDSL_LITERAL_PRECISION") = some (chars! "32") := by
  unfold precision
  simp only
  cases h : env (chars! "NDSL_LITERAL_PRECISION") with
  | none =>
    constructor
    · intro h; revert h; decide
    · intro h; cases h
  | some t =>
    by_cases e : t = chars! "32"
    · subst e
      exact ⟨fun _ => rfl, fun _ => rfl⟩
    · constructor
      · intro h
        simp only [Option.getD_some] at h
        rw [if_neg e] at h
        split at h <;> cases h
      · intro h; cases h; exact absurd rfl e

/-- The constants are those named by `NDSL_CONSTANTS`, exactly, or of UFS if it is not set; with any other text `import ndsl`
fails. -/
theorem C126_constants {env : Env} {files : Text → At} {rank : Nat} :
    (∀ s, start env files rank = .ok s →
      NamesVersion ((env (chars! "NDSL_CONSTANTS")).getD (chars! "UFS")) s.version ∧
      nq s.version = if env (chars! "NDSL_CONSTANTS") = some (chars! "GEOS") then 9 else 8) ∧
    ((∀ v, ¬ NamesVersion ((env (chars! "NDSL_CONSTANTS")).getD (chars! "UFS")) v) →
      start env files rank = .error (.err .runtimeError)) := by
  have hx : exported env (chars! "NDSL_CONSTANTS") = env (chars! "NDSL_CONSTANTS") :=
    exported_other (by decide) (by decide)
  constructor
  · intro s h
    unfold start at h
    split at h
    · cases h
    split at h
    · cases h
    · next v hv =>
      have hn := constantVersion_ok.1 hv
      rw [hx] at hn
      split at h
      · cases h
      · cases h
        refine ⟨hn, ?_⟩
        show nq v = _
        cases he : env (chars! "NDSL_CONSTANTS") with
        | none =>
          rw [he] at hn
          cases v with
          | ufs => rfl
          | gfdl => rfl
          | geos => simp only [Option.getD_none] at hn; generalize hg : (chars! "UFS") = g at hn; cases hn; cases hg
        | some t =>
          rw [he] at hn
          simp only [Option.getD_some] at hn
          cases hn <;> decide
  · intro h
    have hb : ∃ b, globalSetPrecision (precision env) = .ok b := by
      rcases precision_cases env with e | e <;> rw [e]
      · exact ⟨_, rfl⟩
      · exact ⟨_, rfl⟩
    obtain ⟨b, hb⟩ := hb
    unfold start
    rw [hb]
    simp only
    cases hv : constantVersion (exported env) with
    | error e => rw [constantVersion_error hv]
    | ok v =>
      have hn := constantVersion_ok.1 hv
      rw [hx] at hn
      exact absurd hn (h v)

example : ∃ s, start (fun k => if k = chars! "NDSL_CONSTANTS" then some (chars! "GEOS") else none) (fun _ => .nothing) 2 = .ok s ∧
    s.version = .geos := ⟨_, rfl, rfl⟩

example : start (fun k => if k = chars! "NDSL_CONSTANTS" then some (chars! "geos") else none) (fun _ => .nothing) 2 =
    .error (.err .runtimeError) := rfl

/-! ### precision -/

/-- Numbers of both kinds have 32 bits if `NDSL_LITERAL_PRECISION` is `32`, otherwise 64; literals in stencils have the same, even
if the variables of GT4Py say otherwise; other variables are left alone. -/
theorem C126_precision {env : Env} {files : Text → At} {rank : Nat} {s : Started} (h : start env files rank = .ok s) :
    ∃ bits, s.bits = (bits, bits) ∧
      bits = (if env (chars! "NDSL_LITERAL_PRECISION") = some (chars! "32") then 32 else 64) ∧
      s.env (chars! "GT4PY_LITERAL_INT_PRECISION") = some (Nat.toDigits 10 bits) ∧
      s.env (chars! "GT4PY_LITERAL_FLOAT_PRECISION") = some (Nat.toDigits 10 bits) ∧
      ∀ k, k ≠ chars! "GT4PY_LITERAL_INT_PRECISION" → k ≠ chars! "GT4PY_LITERAL_FLOAT_PRECISION" → s.env k = env k := by
  have hi : ∀ env : Env, exported env (chars! "GT4PY_LITERAL_INT_PRECISION") = some (Nat.toDigits 10 (precision env)) := by
    intro env
    unfold exported setEnv
    rw [if_neg (by decide), if_pos rfl]; rfl
  have hf : ∀ env : Env, exported env (chars! "GT4PY_LITERAL_FLOAT_PRECISION") = some (Nat.toDigits 10 (precision env)) := by
    intro env
    unfold exported setEnv
    rw [if_pos rfl]; rfl
  have hs : s.env = exported env ∧ globalSetPrecision (precision env) = .ok s.bits := by
    unfold start at h
    split at h
    · cases h
    · next b hb =>
      split at h
      · cases h
      · split at h
        · cases h
        · cases h; exact ⟨rfl, hb⟩
  obtain ⟨he, hb⟩ := hs
  refine ⟨precision env, ?_, ?_, ?_, ?_, ?_⟩
  · rcases precision_cases env with e | e <;> rw [e] at hb ⊢ <;> exact (Except.ok.inj hb).symm
  · by_cases e : env (chars! "NDSL_LITERAL_PRECISION") = some (chars! "32")
    · rw [if_pos e]; exact (precision_32 env).2 e
    · rw [if_neg e]
      rcases precision_cases env with e' | e'
      · exact absurd ((precision_32 env).1 e') e
      · exact e'
  · rw [he]; exact hi env
  · rw [he]; exact hf env
  · intro k h1 h2; rw [he]; exact exported_other h1 h2

example : ∃ s, start (fun k => if k = chars! "NDSL_LITERAL_PRECISION" then some (chars! "32") else some (chars! "UFS"))
    (fun _ => .file (some [])) 0 = .ok s ∧ s.bits = (32, 32) := ⟨_, rfl, rfl⟩

/-! ### messages -/

theorem toLower_iff {c n : Char} (hn : 97 ≤ n.toNat ∧ n.toNat ≤ 122) :
    c.toLower = n ↔ c = n ∨ c = n.toUpper := by
  have key : ∀ a b : Char, a = b ↔ a.toNat = b.toNat := fun a b => ⟨fun h => h ▸ rfl, fun h => Char.ext (UInt32.toNat_inj.1 h)⟩
  have l1 : ∀ c : Char, c.toLower.toNat = if 65 ≤ c.toNat ∧ c.toNat ≤ 90 then c.toNat + 32 else c.toNat := by
    intro c
    unfold Char.toLower
    split
    · next h =>
      have h1 : 65 ≤ c.toNat ∧ c.toNat ≤ 90 := h
      rw [if_pos h1]
      show (c.val + 32).toNat = _
      rw [UInt32.toNat_add]
      have : c.val.toNat = c.toNat := rfl
      have : (32 : UInt32).toNat = 32 := rfl
      omega
    · next h => exact (if_neg h).symm
  have l2 : ∀ c : Char, c.toUpper.toNat = if 97 ≤ c.toNat ∧ c.toNat ≤ 122 then c.toNat - 32 else c.toNat := by
    intro c
    unfold Char.toUpper
    split
    · next h =>
      have h1 : 97 ≤ c.toNat ∧ c.toNat ≤ 122 := h
      rw [if_pos h1]
      show (c.val + ('A'.val - 'a'.val)).toNat = _
      rw [UInt32.toNat_add]
      have : c.val.toNat = c.toNat := rfl
      have : ('A'.val - 'a'.val).toNat = 2 ^ 32 - 32 := rfl
      omega
    · next h => exact (if_neg h).symm
  rw [key, key c n, key c n.toUpper, l1, l2, if_pos hn]
  split <;> omega

/-- A name in small letters. -/
def Small (n : Text) : Prop := ∀ c ∈ n, 97 ≤ c.toNat ∧ c.toNat ≤ 122

theorem lower_iff {n : Text} (hn : Small n) : ∀ t, lower t = n ↔ SameLetters t n := by
  induction n with
  | nil =>
    intro t
    cases t with
    | nil => exact ⟨fun _ => .nil, fun _ => rfl⟩
    | cons c t => exact ⟨fun h => (nomatch h), fun h => (nomatch h)⟩
  | cons m n ih =>
    have hm := hn m (List.mem_cons_self ..)
    have ih := ih fun c hc => hn c (List.mem_cons_of_mem _ hc)
    intro t
    cases t with
    | nil => exact ⟨fun h => (nomatch h), fun h => (nomatch h)⟩
    | cons c t =>
      constructor
      · intro h
        have h1 : c.toLower = m := (List.cons.inj h).1
        have h2 : SameLetters t n := (ih t).1 (List.cons.inj h).2
        rcases (toLower_iff hm).1 h1 with e | e
        · subst e; exact .small _ h2
        · subst e; exact .capital _ h2
      · intro h
        cases h with
        | small _ h => show _ :: lower t = _; rw [(ih t).2 h, (toLower_iff hm).2 (.inl rfl)]
        | capital _ h => show _ :: lower t = _; rw [(ih t).2 h, (toLower_iff hm).2 (.inr rfl)]

theorem small_of_name {n : Text} {l : Level} (h : LevelName n l) : Small n := by
  cases h <;> intro c hc <;> revert c <;> decide

theorem levelOf_some {t : Text} {l : Level} : levelOf t = some l ↔ LevelName t l := by
  unfold levelOf
  constructor
  · intro h
    split at h
    · next e => cases h; subst e; exact .info
    split at h
    · next e => cases h; subst e; exact .debug
    split at h
    · next e => cases h; subst e; exact .warning
    split at h
    · next e => cases h; subst e; exact .error
    split at h
    · next e => cases h; subst e; exact .critical
    · cases h
  · intro h; cases h <;> rfl

theorem levelOf_lower {t : Text} {l : Level} : levelOf (lower t) = some l ↔ NamesLevel t l := by
  constructor
  · intro h
    have := levelOf_some.1 h
    exact ⟨_, this, (lower_iff (small_of_name this) t).1 rfl⟩
  · rintro ⟨n, hn, ht⟩
    rw [(lower_iff (small_of_name hn) t).2 ht]
    exact levelOf_some.2 hn

theorem logLevel_iff (env : Env) :
    (∀ l, NamesLevel ((env (chars! "NDSL_LOGLEVEL")).getD (chars! "info")) l → logLevel env = (l, false)) ∧
    ((∀ l, ¬ NamesLevel ((env (chars! "NDSL_LOGLEVEL")).getD (chars! "info")) l) → logLevel env = (.info, true)) := by
  unfold logLevel
  constructor
  · intro l h
    rw [levelOf_lower.2 h]
  · intro h
    cases e : levelOf (lower ((env (chars! "NDSL_LOGLEVEL")).getD (chars! "info"))) with
    | none => rfl
    | some l => exact absurd (levelOf_lower.1 e) (h l)

theorem atMost_iff (a b : Level) : AtMost a b ↔ a.value ≤ b.value := by
  constructor
  · rintro ⟨i, j, hij, hi, hj⟩
    have : ∀ k : Nat, ∀ c, order[k]? = some c → c.value = 10 * k + 10 := by
      intro k c h
      match k with
      | 0 => cases h; rfl
      | 1 => cases h; rfl
      | 2 => cases h; rfl
      | 3 => cases h; rfl
      | 4 => cases h; rfl
      | k + 5 => exact nomatch h
    rw [this i a hi, this j b hj]; omega
  · intro h
    have : ∀ c : Level, order[(c.value - 10) / 10]? = some c := by intro c; cases c <;> rfl
    exact ⟨_, _, by omega, this a, this b⟩

theorem started_logs {env : Env} {files : Text → At} {rank : Nat} {s : Started} (h : start env files rank = .ok s) :
    s.log = everyRank env ∧ s.log0 = onRank0 env rank ∧ s.warned = (logLevel env).2 := by
  unfold start at h
  split at h
  · cases h
  split at h
  · cases h
  split at h
  · cases h
  · cases h; exact ⟨rfl, rfl, rfl⟩

/-- With `NDSL_LOGLEVEL` unset, or naming a level in any mixture of small letters and capitals, a message is printed once, on
every rank, exactly if it is at least as serious as that level (`info` if unset), and by the other logger once on rank 0 and
never elsewhere. -/
theorem C126_messages {env : Env} {files : Text → At} {rank : Nat} {s : Started} {l : Level}
    (h : start env files rank = .ok s) (hl : NamesLevel ((env (chars! "NDSL_LOGLEVEL")).getD (chars! "info")) l) (m : Level) :
    (AtMost l m → s.log.prints s.warned m = 1 ∧ s.log0.prints s.warned m = if rank = 0 then 1 else 0) ∧
    (¬ AtMost l m → s.log.prints s.warned m = 0 ∧ s.log0.prints s.warned m = 0) := by
  obtain ⟨h1, h2, h3⟩ := started_logs h
  have hv := (logLevel_iff env).1 l hl
  rw [h1, h2, h3, atMost_iff]
  unfold everyRank onRank0 Logger.prints
  rw [hv]
  constructor
  · intro hm
    have hm' : ¬ m.value < l.value := by omega
    constructor
    · simp [hm, hm']
    · by_cases hr : rank = 0 <;> simp [hr, hm, hm']
  · intro hm
    have hm' : m.value < l.value := by omega
    constructor
    · simp [hm']
    · by_cases hr : rank = 0 <;> simp [hr, hm']

example : NamesLevel (chars! "Debug") .debug ∧ NamesLevel (chars! "WARNING") .warning := by
  constructor
  · exact ⟨_, .debug, .capital 'd' (.small _ (.small _ (.small _ (.small _ .nil))))⟩
  · exact ⟨_, .warning, .capital 'w' (.capital 'a' (.capital 'r' (.capital 'n' (.capital 'i' (.capital 'n'
      (.capital 'g' .nil))))))⟩

example : AtMost .info .error ∧ ¬ AtMost .info .debug := by
  simp only [atMost_iff]; decide

/-- Any other text counts as `info`: nothing less serious is printed, everything else is printed (how often: see
`C126_twice_violated`), but on ranks other than 0 never by the logger for rank 0. -/
theorem C126_unknown_level {env : Env} {files : Text → At} {rank : Nat} {s : Started} (h : start env files rank = .ok s)
    (hl : ∀ l, ¬ NamesLevel ((env (chars! "NDSL_LOGLEVEL")).getD (chars! "info")) l) (m : Level) :
    (0 < s.log.prints s.warned m ↔ AtMost .info m) ∧
    (0 < s.log0.prints s.warned m ↔ AtMost .info m ∧ rank = 0) := by
  obtain ⟨h1, h2, h3⟩ := started_logs h
  have hv := (logLevel_iff env).2 hl
  rw [h1, h2, h3, atMost_iff]
  unfold everyRank onRank0 Logger.prints
  rw [hv]
  constructor
  · by_cases hm : m.value < Level.info.value
    · simp [hm]
    · simp [hm]; omega
  · by_cases hr : rank = 0
    · by_cases hm : m.value < Level.info.value
      · simp [hr, hm]
      · simp [hr, hm]; omega
    · simp [hr]

/-- With an unknown level every message is printed twice: the warning about it is given with `logging.warning`, which adds a
handler to the root logger. -/
theorem C126_twice_violated :
    ∃ (env : Env) (s : Started), start env (fun _ => .nothing) 0 = .ok s ∧ s.log.prints s.warned .error = 2 :=
  ⟨fun k => if k = chars! "NDSL_LOGLEVEL" then some (chars! "verbose") else none, _, rfl, rfl⟩

/-! ### debugger -/

theorem set_known {d : Debugger} {k : Text} {v : Val} {f : Debugger → Val} {z : Val} (h : (k, f, z) ∈ options) :
    ∃ d', d.set k v = .ok d' ∧ f d' = v ∧ d'.rank = d.rank ∧
      ∀ o ∈ options, o.1 ≠ k → o.2.1 d' = o.2.1 d := by
  have aux : ∀ d' : Debugger, d.set k v = .ok d' → f d' = v → d'.rank = d.rank →
      (options.all fun o => o.1 = k ∨ o.2.1 d' = o.2.1 d) = true → ∃ d', d.set k v = .ok d' ∧ f d' = v ∧ d'.rank = d.rank ∧
      ∀ o ∈ options, o.1 ≠ k → o.2.1 d' = o.2.1 d := by
    intro d' h4 h1 h2 h3
    refine ⟨d', h4, h1, h2, fun o ho hk => ?_⟩
    have := List.all_eq_true.1 h3 o ho
    simp only [decide_eq_true_eq] at this
    rcases this with e | e
    · exact absurd e hk
    · exact e
  simp only [options, List.mem_cons, Prod.mk.injEq, List.not_mem_nil, or_false] at h
  rcases h with ⟨rfl, rfl, rfl⟩ | ⟨rfl, rfl, rfl⟩ | ⟨rfl, rfl, rfl⟩ | ⟨rfl, rfl, rfl⟩ | ⟨rfl, rfl, rfl⟩ | ⟨rfl, rfl, rfl⟩ |
    ⟨rfl, rfl, rfl⟩ | ⟨rfl, rfl, rfl⟩ <;>
  exact aux _ rfl rfl rfl (by simp [options])

theorem set_unknown {d : Debugger} {k : Text} {v : Val} (h : ∀ o ∈ options, o.1 ≠ k) : d.set k v = .error .typeError := by
  have h' : ∀ n f z, (n, f, z) ∈ options → k ≠ n := fun n f z ho e => h _ ho e.symm
  unfold Debugger.set
  rw [if_neg (h' _ Debugger.stencils (.texts []) (by simp [options])),
    if_neg (h' _ Debugger.track (.texts []) (by simp [options])),
    if_neg (h' _ Debugger.computeOnly (.flag false) (by simp [options])),
    if_neg (h' _ Debugger.dirName (.text (chars! "./")) (by simp [options])),
    if_neg (h' _ Debugger.saveAll (.flag false) (by simp [options])),
    if_neg (h' _ Debugger.step (.number 0) (by simp [options])),
    if_neg (h' _ Debugger.calls (.counts []) (by simp [options])),
    if_neg (h' _ Debugger.tracked (.counts []) (by simp [options]))]

theorem setAll_known : ∀ (l : List (Text × Val)) (d : Debugger), (l.map Prod.fst).Nodup →
    (∀ kv ∈ l, ∃ o ∈ options, o.1 = kv.1) →
    ∃ d', Debugger.setAll l d = .ok d' ∧ d'.rank = d.rank ∧
      (∀ o ∈ options, ∀ v, (o.1, v) ∈ l → o.2.1 d' = v) ∧
      (∀ o ∈ options, (∀ v, (o.1, v) ∉ l) → o.2.1 d' = o.2.1 d)
  | [], d, _, _ => ⟨d, rfl, rfl, (fun _ _ _ h => nomatch h), fun _ _ _ => rfl⟩
  | (k, v) :: l, d, hn, hk => by
    obtain ⟨⟨n, f, z⟩, ho, e⟩ := hk (k, v) (List.mem_cons_self ..)
    simp only at e
    subst e
    obtain ⟨d1, h1, h2, h3, h4⟩ := set_known (d := d) (v := v) ho
    rw [List.map_cons, List.nodup_cons] at hn
    obtain ⟨d', g1, g2, g3, g4⟩ := setAll_known l d1 hn.2 fun kv h => hk kv (List.mem_cons_of_mem _ h)
    refine ⟨d', ?_, g2.trans h3, ?_, ?_⟩
    · simp only [Debugger.setAll, h1]; exact g1
    · intro o hoo w hw
      rcases List.mem_cons.1 hw with e | e
      · obtain ⟨e1, e2⟩ := Prod.mk.inj e
        have hno : ∀ v, (o.1, v) ∉ l := by
          intro w hw
          have := List.mem_map_of_mem (f := Prod.fst) hw
          rw [e1] at this
          exact hn.1 this
        rw [g4 o hoo hno, e2]
        have : ∀ o ∈ options, ∀ o' ∈ options, o.1 = o'.1 → o.2.1 = o'.2.1 := by
          intro a ha b hb hab
          simp only [options, List.mem_cons, List.not_mem_nil, or_false] at ha hb
          rcases ha with rfl | rfl | rfl | rfl | rfl | rfl | rfl | rfl <;>
            rcases hb with rfl | rfl | rfl | rfl | rfl | rfl | rfl | rfl <;>
            first | rfl | exact absurd hab (by decide)
        rw [this o hoo _ ho e1]
        exact h2
      · exact g3 o hoo w e
    · intro o hoo hno
      rw [g4 o hoo fun v hv => hno v (List.mem_cons_of_mem _ hv)]
      exact h4 o hoo fun e => hno v (e ▸ List.mem_cons_self ..)

theorem setAll_unknown : ∀ (l : List (Text × Val)) (d : Debugger), (∃ kv ∈ l, ∀ o ∈ options, o.1 ≠ kv.1) →
    Debugger.setAll l d = .error .typeError
  | [], _, h => by obtain ⟨_, h, _⟩ := h; cases h
  | (k, v) :: l, d, h => by
    obtain ⟨kv, hkv, hno⟩ := h
    rcases List.mem_cons.1 hkv with e | e
    · subst e
      simp only [Debugger.setAll, set_unknown hno]
    · simp only [Debugger.setAll]
      cases hs : d.set k v with
      | ok d' => exact setAll_unknown l d' ⟨kv, e, hno⟩
      | error e =>
        have : e = .typeError := by
          by_cases hk : ∀ o ∈ options, o.1 ≠ k
          · rw [set_unknown hk] at hs; exact (Except.error.inj hs).symm
          · simp only [not_forall, Classical.not_not] at hk
            obtain ⟨⟨n, f, z⟩, ho, hn⟩ := hk
            simp only at hn
            subst hn
            obtain ⟨d', h1, _⟩ := set_known (d := d) (v := v) ho
            rw [hs] at h1; cases h1
        rw [this]

/-- What the import does with the debugger, once precision and constants are found. -/
theorem start_debugger {env : Env} {files : Text → At} {rank : Nat} {v : Version}
    (hv : NamesVersion ((env (chars! "NDSL_CONSTANTS")).getD (chars! "UFS")) v) :
    (∀ d, (setDebugger env files rank).2 = .ok d → ∃ s, start env files rank = .ok s ∧ s.debugger = d) ∧
    (∀ f, (setDebugger env files rank).2 = .error f → start env files rank = .error (.fail f)) := by
  have hx : ∀ k, k ≠ chars! "GT4PY_LITERAL_INT_PRECISION" → k ≠ chars! "GT4PY_LITERAL_FLOAT_PRECISION" →
    exported env k = env k := fun k => exported_other
  have hb : ∃ b, globalSetPrecision (precision env) = .ok b := by
    rcases precision_cases env with e | e <;> rw [e]
    · exact ⟨_, rfl⟩
    · exact ⟨_, rfl⟩
  obtain ⟨b, hb⟩ := hb
  have hc : constantVersion (exported env) = .ok v :=
    constantVersion_ok.2 (by rw [hx _ (by decide) (by decide)]; exact hv)
  have hd : setDebugger (exported env) files rank = setDebugger env files rank := by
    unfold setDebugger; rw [hx _ (by decide) (by decide)]
  constructor
  · intro d h
    refine ⟨⟨exported env, everyRank env, onRank0 env rank, (logLevel env).2, b, v, d⟩, ?_, rfl⟩
    unfold start
    rw [hb, hc, hd]
    simp only [h]
  · intro f h
    unfold start
    rw [hb, hc, hd]
    simp only [h]

/-- Without `NDSL_DEBUG_CONFIG`, or if it is empty, there is no debugger. -/
theorem C126_no_debugger {env : Env} {files : Text → At} {rank : Nat} {v : Version}
    (hv : NamesVersion ((env (chars! "NDSL_CONSTANTS")).getD (chars! "UFS")) v) (hf : files [] = .nothing)
    (he : env (chars! "NDSL_DEBUG_CONFIG") = none ∨ env (chars! "NDSL_DEBUG_CONFIG") = some []) :
    ∃ s, start env files rank = .ok s ∧ s.debugger = none := by
  refine (start_debugger hv).1 none ?_
  unfold setDebugger
  rcases he with e | e <;> simp [e, hf]

/-- If it names a file, there is a debugger with exactly the options of the file, the defaults for the others, and the rank of the
process. -/
theorem C126_debugger {env : Env} {files : Text → At} {rank : Nat} {v : Version} {path : Text} {l : List (Text × Val)}
    (hv : NamesVersion ((env (chars! "NDSL_CONSTANTS")).getD (chars! "UFS")) v)
    (he : env (chars! "NDSL_DEBUG_CONFIG") = some path) (hf : files path = .file (some l)) (hn : (l.map Prod.fst).Nodup)
    (hk : ∀ kv ∈ l, ∃ o ∈ options, o.1 = kv.1) :
    ∃ s d, start env files rank = .ok s ∧ s.debugger = some d ∧ d.rank = rank ∧
      ∀ o ∈ options, (∀ x, (o.1, x) ∈ l → o.2.1 d = x) ∧ ((∀ x, (o.1, x) ∉ l) → o.2.1 d = o.2.2) := by
  obtain ⟨d, h1, h2, h3, h4⟩ := setAll_known l { rank := rank } hn hk
  have : (setDebugger env files rank).2 = .ok (some d) := by
    unfold setDebugger; simp [he, hf, h1, Except.map]
  obtain ⟨s, hs, hd⟩ := (start_debugger hv).1 _ this
  refine ⟨s, d, hs, hd, h2, fun o ho => ⟨h3 o ho, fun hno => ?_⟩⟩
  rw [h4 o ho hno]
  simp only [options, List.mem_cons, List.not_mem_nil, or_false] at ho
  rcases ho with rfl | rfl | rfl | rfl | rfl | rfl | rfl | rfl <;> rfl

/-- If the file has an unknown option, or `rank`, the import fails. -/
theorem C126_debugger_refused {env : Env} {files : Text → At} {rank : Nat} {v : Version} {path : Text} {l : List (Text × Val)}
    (hv : NamesVersion ((env (chars! "NDSL_CONSTANTS")).getD (chars! "UFS")) v)
    (he : env (chars! "NDSL_DEBUG_CONFIG") = some path) (hf : files path = .file (some l))
    (hk : ∃ kv ∈ l, ∀ o ∈ options, o.1 ≠ kv.1) :
    start env files rank = .error (.fail .typeError) := by
  refine (start_debugger hv).2 _ ?_
  unfold setDebugger
  simp [he, hf, setAll_unknown l _ hk, Except.map]

example : ∃ s d, start (fun k => if k = chars! "NDSL_DEBUG_CONFIG" then some (chars! "a.yaml") else none)
    (fun p => if p = chars! "a.yaml" then .file (some [(chars! "dir_name", .text (chars! "out"))]) else .nothing) 3 = .ok s ∧
    s.debugger = some d ∧ d.dirName = .text (chars! "out") ∧ d.rank = 3 ∧ d.saveAll = .flag false := ⟨_, _, rfl, rfl, rfl, rfl, rfl⟩

example : ∀ o ∈ options, o.1 ≠ chars! "rank" := by decide

/-- A configuration that is not there is only warned about, but then opened all the same: the import fails. -/
theorem C126_missing_violated :
    ∃ env : Env, (setDebugger env (fun _ => .nothing) 0).1 = true ∧
      start env (fun _ => .nothing) 0 = .error (.fail .notFound) :=
  ⟨fun k => if k = chars! "NDSL_DEBUG_CONFIG" then some (chars! "a.yaml") else none, rfl, rfl⟩

/-! ### DaCe -/

/-- The mode of orchestration: the one given, otherwise the one named by `FV3_DACEMODE`, otherwise (not set, or empty) build and
run; any other text is refused. -/
theorem C126_mode {env : Env} :
    (∀ m, mode env (some m) = .ok m) ∧
    (∀ m, mode env none = .ok m ↔
      NamesMode ((env (chars! "FV3_DACEMODE")).getD []) m ∨
        ((env (chars! "FV3_DACEMODE")).getD [] = [] ∧ m = .buildAndRun)) ∧
    (∀ e, mode env none = .error e → e = .keyError) := by
  refine ⟨fun _ => rfl, ?_, ?_⟩
  · intro m
    unfold mode
    simp only
    cases he : env (chars! "FV3_DACEMODE") with
    | none =>
      constructor
      · intro h
        exact .inr ⟨rfl, (Except.ok.inj h).symm⟩
      · rintro (h | ⟨_, rfl⟩)
        · cases h
        · rfl
    | some t =>
      simp only [Option.getD_some]
      by_cases ht : t = []
      · subst ht
        constructor
        · intro h; exact .inr ⟨rfl, (Except.ok.inj h).symm⟩
        · rintro (h | ⟨_, rfl⟩)
          · cases h
          · rfl
      · rw [if_neg ht]
        constructor
        · intro h
          split at h
          · next e => cases h; subst e; exact .inl .buildAndRun
          split at h
          · next e => cases h; subst e; exact .inl .build
          split at h
          · next e => cases h; subst e; exact .inl .run
          · cases h
        · rintro (h | ⟨e, _⟩)
          · cases h <;> rfl
          · exact absurd e ht
  · intro e h
    unfold mode at h
    simp only at h
    generalize (if (env (chars! "FV3_DACEMODE")).getD (chars! "BuildAndRun") = [] then chars! "BuildAndRun"
      else (env (chars! "FV3_DACEMODE")).getD (chars! "BuildAndRun")) = t at h
    repeat (split at h; · cases h)
    cases h; rfl

example : mode (fun k => if k = chars! "FV3_DACEMODE" then some (chars! "Run") else none) none = .ok .run := rfl
example : mode (fun k => if k = chars! "FV3_DACEMODE" then some (chars! "run") else none) none = .error .keyError := rfl

theorem applySets_mem : ∀ (l : List (Key × Text)) (cur : Key → Text) (k : Key) (v : Text), (l.map Prod.fst).Nodup →
    (k, v) ∈ l → applySets l cur k = v
  | [], _, _, _, _, h => by cases h
  | (a, b) :: l, cur, k, v, hn, h => by
    rw [List.map_cons, List.nodup_cons] at hn
    rcases List.mem_cons.1 h with e | e
    · obtain ⟨rfl, rfl⟩ := Prod.mk.inj e
      have : ∀ (l : List (Key × Text)) (cur : Key → Text), k ∉ l.map Prod.fst → applySets l cur k = cur k := by
        intro l
        induction l with
        | nil => intro cur _; rfl
        | cons x l ih =>
          intro cur h
          rw [List.map_cons, List.mem_cons, not_or] at h
          show applySets l _ k = _
          rw [ih _ h.2]
          exact if_neg h.1
      show applySets l _ k = _
      rw [this l _ hn.1]
      exact if_pos rfl
    · exact applySets_mem l _ k v hn.2 e

theorem applySets_not_mem : ∀ (l : List (Key × Text)) (cur : Key → Text) (k : Key), k ∉ l.map Prod.fst →
    applySets l cur k = cur k
  | [], _, _, _ => rfl
  | x :: l, cur, k, h => by
    rw [List.map_cons, List.mem_cons, not_or] at h
    show applySets l _ k = _
    rw [applySets_not_mem l _ k h.2]
    exact if_neg h.1

theorem sets_keys (env : Env) (prec : Nat) (m : Machine) :
    ((sets env prec m).map Prod.fst).Nodup ∧ ∀ env', (sets env' prec m).map Prod.fst = (sets env prec m).map Prod.fst := by
  unfold sets
  by_cases h : prec = 32
  · subst h; exact ⟨(by decide : [Key.buildType, .cpuArgs, .openmpSections, .cudaArgs, .cudaArch, .blockSize, .streams,
      .viewArguments, .uniqueFunctions, .dontFuseCallbacks, .unrollThreshold, .verboseErrors, .storeHistory, .syncDebug,
      .dataTypes].Nodup), fun _ => rfl⟩
  · simp only [if_neg h]
    exact ⟨(by decide : [Key.buildType, .cpuArgs, .openmpSections, .cudaArgs, .cudaArch, .blockSize, .streams,
      .viewArguments, .uniqueFunctions, .dontFuseCallbacks, .unrollThreshold, .verboseErrors, .storeHistory, .syncDebug].Nodup),
      fun _ => rfl⟩

/-- Whatever configurations were made before, in whatever order, once an orchestrated one has been made the settings of DaCe are
those that it makes in a fresh process, and configurations for other backends change nothing. -/
theorem C126_dace (prec : Nat) (m : Machine) (cur : Key → Text) :
    (∀ before after env, (∀ x ∈ after, x.2 = false) →
      history prec m (before ++ (env, true) :: after) cur = history prec m [(env, true)] cur) ∧
    (∀ l, (∀ x ∈ l, x.2 = false) → history prec m l cur = cur) := by
  have hnone : ∀ l cur, (∀ x ∈ l, x.2 = false) → history prec m l cur = cur := by
    intro l
    induction l with
    | nil => intro cur _; rfl
    | cons x l ih =>
      intro cur h
      obtain ⟨e, o⟩ := x
      have : o = false := h _ (List.mem_cons_self ..)
      subst this
      exact ih cur fun x hx => h x (List.mem_cons_of_mem _ hx)
  refine ⟨?_, fun l h => hnone l cur h⟩
  intro before after env hafter
  have happ : ∀ (l l' : List (Env × Bool)) cur, history prec m (l ++ l') cur = history prec m l' (history prec m l cur) := by
    intro l
    induction l with
    | nil => intro l' cur; rfl
    | cons x l ih => intro l' cur; exact ih l' _
  rw [happ]
  show history prec m after (configured env prec m true _) = configured env prec m true cur
  rw [hnone after _ hafter]
  unfold configured
  simp only [if_true]
  have hkeep : ∀ (l : List (Env × Bool)) cur k, k ∉ (sets env prec m).map Prod.fst → history prec m l cur k = cur k := by
    intro l
    induction l with
    | nil => intro cur k _; rfl
    | cons x l ih =>
      intro cur k hk
      obtain ⟨e, o⟩ := x
      show history prec m l (configured e prec m o cur) k = _
      rw [ih _ k hk]
      unfold configured
      cases o with
      | false => rfl
      | true => exact applySets_not_mem _ _ _ (by rw [(sets_keys env prec m).2 e]; exact hk)
  funext k
  by_cases hk : k ∈ (sets env prec m).map Prod.fst
  · obtain ⟨⟨a, v⟩, hm, rfl⟩ := List.mem_map.1 hk
    rw [applySets_mem _ _ _ v (sets_keys env prec m).1 hm, applySets_mem _ _ _ v (sets_keys env prec m).1 hm]
  · rw [applySets_not_mem _ _ _ hk, applySets_not_mem _ _ _ hk, hkeep before cur k hk]

/-- The settings made: the kind of build and the optimisation follow GT4Py's level, 32-bit types are used exactly if asked for,
and kernels are waited for exactly if `NDSL_DACE_FORCE_SYNC_GPU` is `True`. -/
theorem C126_dace_settings (env : Env) (prec : Nat) (m : Machine) (cur : Key → Text) :
    configured env prec m true cur .buildType =
      (if m.opt = 0 then chars! "Debug" else if m.opt ≤ 2 then chars! "RelWithDebInfo" else chars! "Release") ∧
    configured env prec m true cur .dataTypes = (if prec = 32 then chars! "c" else cur .dataTypes) ∧
    configured env prec m true cur .syncDebug =
      (if env (chars! "NDSL_DACE_FORCE_SYNC_GPU") = some (chars! "True") then chars! "True" else chars! "False") ∧
    configured env prec m true cur .cpuArgs =
      chars! "-march=" ++ (if m.neoverse then chars! "armv8-a" else chars! "native") ++ chars! " -O" ++ Nat.toDigits 10 m.opt ∧
    configured env prec m true cur .cudaArgs =
      chars! "-O" ++ Nat.toDigits 10 m.opt ++ chars! " -Xcompiler " ++
        (if m.neoverse then chars! "-mcpu=native" else chars! "-march=native") := by
  have hmem : ∀ k v, (k, v) ∈ sets env prec m → configured env prec m true cur k = v := by
    intro k v h
    unfold configured
    exact applySets_mem _ _ _ v (sets_keys env prec m).1 h
  refine ⟨?_, ?_, ?_, ?_, ?_⟩
  · rw [hmem .buildType _ (by unfold sets; exact List.mem_cons_self ..)]
    by_cases h0 : m.opt = 0
    · simp [h0]
    · rw [if_neg h0, if_neg h0]
      by_cases h1 : m.opt ≤ 2
      · rw [if_pos h1, if_pos (by omega)]
      · rw [if_neg h1, if_neg (by omega)]
  · by_cases hp : prec = 32
    · rw [if_pos hp]
      exact hmem .dataTypes _ (by unfold sets; simp [hp])
    · rw [if_neg hp]
      unfold configured
      simp only [if_true]
      refine applySets_not_mem _ _ _ ?_
      unfold sets
      simp [hp]
  · rw [hmem .syncDebug (boolText (flag env (chars! "NDSL_DACE_FORCE_SYNC_GPU"))) (by unfold sets; simp)]
    unfold flag
    cases he : env (chars! "NDSL_DACE_FORCE_SYNC_GPU") with
    | none => rfl
    | some t =>
      by_cases ht : t = chars! "True"
      · subst ht; rfl
      · have : some t ≠ some (chars! "True") := fun e => ht (Option.some.inj e)
        rw [if_neg this]
        simp only [Option.getD_some, decide_eq_false ht]
        rfl
  · exact hmem .cpuArgs _ (by unfold sets; simp [str])
  · exact hmem .cudaArgs _ (by unfold sets; simp [str])

example : configured (fun _ => none) 32 ⟨3, false, none⟩ true (fun _ => []) .buildType = chars! "Release" := rfl

end NDSL.Settings
