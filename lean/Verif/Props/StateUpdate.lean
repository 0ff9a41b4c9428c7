import Verif.Spec.StateUpdate

/-! C40: updating states. -/
namespace NDSL.StateUpd
variable {F A : Type}

theorem value_nil (s : St F) : value s [] = none := by cases s <;> rfl
theorem given_nil (m : Mem A) : given m [] = none := by cases m <;> rfl

theorem given_not_key {m : Mem A} {n : String} (h : n ∉ keys m) (q : List String) : given m (n :: q) = none := by
  induction m with
  | nil => rfl
  | none x rest ih =>
    simp only [keys, List.mem_cons, not_or] at h
    simp [given, h.1, ih h.2]
  | arr x a rest ih =>
    simp only [keys, List.mem_cons, not_or] at h
    simp [given, h.1, ih h.2]
  | dict x sub rest _ ih =>
    simp only [keys, List.mem_cons, not_or] at h
    simp [given, h.1, ih h.2]

theorem isDict_not_key {m : Mem A} {n : String} (h : n ∉ keys m) (q : List String) : ¬ isDict m (n :: q) := by
  induction m with
  | nil => exact id
  | none x rest ih =>
    simp only [keys, List.mem_cons, not_or] at h
    simp only [isDict, if_neg h.1]; exact ih h.2
  | arr x a rest ih =>
    simp only [keys, List.mem_cons, not_or] at h
    simp only [isDict, if_neg h.1]; exact ih h.2
  | dict x sub rest _ ih =>
    simp only [keys, List.mem_cons, not_or] at h
    simp only [isDict, if_neg h.1]; exact ih h.2

/-! ### one assignment -/

theorem value_setNone_other (s : St F) (n x : String) (h : x ≠ n) (q : List String) :
    value (s.setNone n) (x :: q) = value s (x :: q) := by
  induction s with
  | nil => rfl
  | field m o v rest ih =>
    simp only [St.setNone]
    by_cases hm : m = n
    · subst hm; rw [if_pos rfl]; simp [value, h]
    · rw [if_neg hm]; simp only [value, ih]
  | nested m sub rest _ ih =>
    simp only [St.setNone]
    by_cases hm : m = n
    · subst hm; rw [if_pos rfl]; simp [value, h]
    · rw [if_neg hm]; simp only [value, ih]
  | gone m sub rest _ ih =>
    simp only [St.setNone]
    by_cases hm : m = n
    · subst hm; rw [if_pos rfl]
    · rw [if_neg hm]; simp only [value, ih]

theorem isState_setNone_other (s : St F) (n x : String) (h : x ≠ n) (q : List String) :
    isState (s.setNone n) (x :: q) ↔ isState s (x :: q) := by
  induction s with
  | nil => exact Iff.rfl
  | field m o v rest ih =>
    simp only [St.setNone]
    by_cases hm : m = n
    · subst hm; rw [if_pos rfl]; simp [isState, h]
    · rw [if_neg hm]; simp only [isState, ih]
  | nested m sub rest _ ih =>
    simp only [St.setNone]
    by_cases hm : m = n
    · subst hm; rw [if_pos rfl]; simp [isState, h]
    · rw [if_neg hm]; simp only [isState, ih]
  | gone m sub rest _ ih =>
    simp only [St.setNone]
    by_cases hm : m = n
    · subst hm; rw [if_pos rfl]
    · rw [if_neg hm]; simp only [isState, ih]

theorem value_setNone_self (s : St F) (n : String) (h : value s [n] ≠ none) :
    value (s.setNone n) [n] = some none := by
  induction s with
  | nil => exact absurd rfl h
  | field m o v rest ih =>
    simp only [St.setNone]
    by_cases hm : m = n
    · subst hm; rw [if_pos rfl]; simp [value]
    · rw [if_neg hm]
      have hm' : n ≠ m := fun e => hm e.symm
      simp only [value, if_neg hm'] at h ⊢
      exact ih h
  | nested m sub rest _ ih =>
    simp only [St.setNone]
    by_cases hm : m = n
    · subst hm; simp [value, value_nil] at h
    · rw [if_neg hm]
      have hm' : n ≠ m := fun e => hm e.symm
      simp only [value, if_neg hm'] at h ⊢
      exact ih h
  | gone m sub rest _ ih =>
    simp only [St.setNone]
    by_cases hm : m = n
    · subst hm; simp [value] at h
    · rw [if_neg hm]
      have hm' : n ≠ m := fun e => hm e.symm
      simp only [value, if_neg hm'] at h ⊢
      exact ih h

theorem attr_value {s : St F} {n : String} {v : Option F} (h : s.attr n = .value v) (q : List String) :
    value s (n :: q) = if q = [] then some v else none := by
  induction s with
  | nil => cases h
  | field m o w rest ih =>
    simp only [St.attr] at h
    by_cases hm : m = n
    · subst hm; rw [if_pos rfl] at h; cases h; simp [value]
    · rw [if_neg hm] at h
      have hm' : n ≠ m := fun e => hm e.symm
      simp only [value, if_neg hm']; exact ih h
  | nested m sub rest _ ih =>
    simp only [St.attr] at h
    by_cases hm : m = n
    · subst hm; rw [if_pos rfl] at h; cases h
    · rw [if_neg hm] at h
      have hm' : n ≠ m := fun e => hm e.symm
      simp only [value, if_neg hm']; exact ih h
  | gone m sub rest _ ih =>
    simp only [St.attr] at h
    by_cases hm : m = n
    · subst hm; rw [if_pos rfl] at h; cases h
    · rw [if_neg hm] at h
      have hm' : n ≠ m := fun e => hm e.symm
      simp only [value, if_neg hm']; exact ih h

theorem value_setVal {s : St F} {n : String} {v : Option F} (h : s.attr n = .value v) (f : F) (x : String)
    (q : List String) :
    value (s.setVal n f) (x :: q) = if x = n then (if q = [] then some (some f) else none) else value s (x :: q) := by
  induction s with
  | nil => cases h
  | field m o w rest ih =>
    simp only [St.attr] at h
    simp only [St.setVal]
    by_cases hm : m = n
    · subst hm; rw [if_pos rfl]
      simp only [value]
      by_cases hx : x = m
      · simp [hx]
      · simp [hx]
    · rw [if_neg hm] at h ⊢
      simp only [value]
      by_cases hx : x = m
      · subst hx; rw [if_pos rfl, if_pos rfl, if_neg hm]
      · rw [if_neg hx, if_neg hx, ih h]
  | nested m sub rest _ ih =>
    simp only [St.attr] at h
    simp only [St.setVal]
    by_cases hm : m = n
    · subst hm; rw [if_pos rfl] at h; cases h
    · rw [if_neg hm] at h ⊢
      simp only [value]
      by_cases hx : x = m
      · subst hx; rw [if_pos rfl, if_pos rfl, if_neg hm]
      · rw [if_neg hx, if_neg hx, ih h]
  | gone m sub rest _ ih =>
    simp only [St.attr] at h
    simp only [St.setVal]
    by_cases hm : m = n
    · subst hm; rw [if_pos rfl] at h; cases h
    · rw [if_neg hm] at h ⊢
      simp only [value]
      by_cases hx : x = m
      · subst hx; rw [if_pos rfl, if_pos rfl, if_neg hm]
      · rw [if_neg hx, if_neg hx, ih h]

theorem isState_setVal {s : St F} {n : String} {v : Option F} (h : s.attr n = .value v) (f : F) (p : List String) :
    isState (s.setVal n f) p ↔ isState s p := by
  cases p with
  | nil => cases s <;> simp [isState, St.setVal] <;> (split <;> simp [isState])
  | cons x q =>
    induction s with
    | nil => cases h
    | field m o w rest ih =>
      simp only [St.attr] at h
      simp only [St.setVal]
      by_cases hm : m = n
      · subst hm; rw [if_pos rfl]; exact Iff.rfl
      · rw [if_neg hm] at h ⊢
        simp only [isState, ih h]
    | nested m sub rest _ ih =>
      simp only [St.attr] at h
      simp only [St.setVal]
      by_cases hm : m = n
      · subst hm; rw [if_pos rfl] at h; cases h
      · rw [if_neg hm] at h ⊢
        simp only [isState, ih h]
    | gone m sub rest _ ih =>
      simp only [St.attr] at h
      simp only [St.setVal]
      by_cases hm : m = n
      · subst hm; rw [if_pos rfl] at h; cases h
      · rw [if_neg hm] at h ⊢
        simp only [isState, ih h]

theorem attr_nested {s inner : St F} {n : String} (h : s.attr n = .nested inner) (q : List String) :
    value s (n :: q) = value inner q ∧ (isState s (n :: q) ↔ q = [] ∨ isState inner q) := by
  induction s with
  | nil => cases h
  | field m o w rest ih =>
    simp only [St.attr] at h
    by_cases hm : m = n
    · subst hm; rw [if_pos rfl] at h; cases h
    · rw [if_neg hm] at h
      have hm' : n ≠ m := fun e => hm e.symm
      simp only [value, isState, if_neg hm']; exact ih h
  | nested m sub rest _ ih =>
    simp only [St.attr] at h
    by_cases hm : m = n
    · subst hm; rw [if_pos rfl] at h; cases h; simp [value, isState]
    · rw [if_neg hm] at h
      have hm' : n ≠ m := fun e => hm e.symm
      simp only [value, isState, if_neg hm']; exact ih h
  | gone m sub rest _ ih =>
    simp only [St.attr] at h
    by_cases hm : m = n
    · subst hm; rw [if_pos rfl] at h; cases h
    · rw [if_neg hm] at h
      have hm' : n ≠ m := fun e => hm e.symm
      simp only [value, isState, if_neg hm']; exact ih h

theorem setSub_spec {s inner : St F} {n : String} (h : s.attr n = .nested inner) (t : St F) (x : String)
    (q : List String) :
    value (s.setSub n t) (x :: q) = (if x = n then value t q else value s (x :: q)) ∧
    (x ≠ n → (isState (s.setSub n t) (x :: q) ↔ isState s (x :: q))) := by
  induction s with
  | nil => cases h
  | field m o w rest ih =>
    simp only [St.attr] at h
    simp only [St.setSub]
    by_cases hm : m = n
    · subst hm; rw [if_pos rfl] at h; cases h
    · rw [if_neg hm] at h ⊢
      obtain ⟨i1, i2⟩ := ih h
      refine ⟨?_, ?_⟩
      · simp only [value]
        by_cases hx : x = m
        · subst hx; rw [if_pos rfl, if_pos rfl, if_neg hm]
        · rw [if_neg hx, if_neg hx, i1]
      · intro hx
        simp only [isState, i2 hx]
  | nested m sub rest _ ih =>
    simp only [St.attr] at h
    simp only [St.setSub]
    by_cases hm : m = n
    · subst hm; rw [if_pos rfl]
      refine ⟨?_, ?_⟩
      · simp only [value]
        by_cases hx : x = m
        · simp [hx]
        · simp [hx]
      · intro hx; simp [isState, hx]
    · rw [if_neg hm] at h ⊢
      obtain ⟨i1, i2⟩ := ih h
      refine ⟨?_, ?_⟩
      · simp only [value]
        by_cases hx : x = m
        · subst hx; rw [if_pos rfl, if_pos rfl, if_neg hm]
        · rw [if_neg hx, if_neg hx, i1]
      · intro hx
        simp only [isState, i2 hx]
  | gone m sub rest _ ih =>
    simp only [St.attr] at h
    simp only [St.setSub]
    by_cases hm : m = n
    · subst hm; rw [if_pos rfl] at h; cases h
    · rw [if_neg hm] at h ⊢
      obtain ⟨i1, i2⟩ := ih h
      refine ⟨?_, ?_⟩
      · simp only [value]
        by_cases hx : x = m
        · subst hx; rw [if_pos rfl, if_pos rfl, if_neg hm]
        · rw [if_neg hx, if_neg hx, i1]
      · intro hx
        simp only [isState, i2 hx]

/-! ### the recursion -/

/-- no state on the way to the path is given as `None` -/
def NoneAbove (m : Mem A) (p : List String) : Prop :=
  ∀ q r : List String, p = q ++ r → r ≠ [] → given m q ≠ some none

theorem noneAbove_not_key {m : Mem A} {n : String} (h : n ∉ keys m) (q : List String) : NoneAbove m (n :: q) := by
  intro a r hr _
  cases a with
  | nil => simp [given_nil]
  | cons y a => cases hr; simp [given_not_key h]

theorem noneAbove_rest {m rest : Mem A} {x : String} {q : List String} (ha : NoneAbove m (x :: q))
    (h : ∀ a, given m (x :: a) = given rest (x :: a)) : NoneAbove rest (x :: q) := by
  intro a r hr hne
  have := ha a r hr hne
  cases a with
  | nil => simp [given_nil]
  | cons y a => cases hr; rwa [h] at this

/-- fields the map does not mention keep their value, whether the update succeeds or not -/
theorem update_other (okNone : String → Option SErr) (assign : F → A → Except SErr F) (m : Mem A)
    (hd : Distinct m) (p : List String) (hg : given m p = none) (ha : NoneAbove m p) :
    ∀ s, value (update okNone assign m s).1 p = value s p := by
  induction m generalizing p with
  | nil => intro s; rfl
  | none n rest ih =>
    intro s
    cases p with
    | nil => rw [value_nil, value_nil]
    | cons x q =>
      simp only [update]
      cases okNone n with
      | some e => rfl
      | none =>
        have hx : x ≠ n := by
          rintro rfl
          cases q with
          | nil => simp [given] at hg
          | cons y q => exact ha [x] (y :: q) rfl (by simp) (by simp [given])
        have hsame : ∀ a, given (.none n rest) (x :: a) = given rest (x :: a) := fun a => by simp [given, hx]
        rw [hsame] at hg
        simp only
        rw [ih hd.2 _ hg (noneAbove_rest ha hsame)]
        exact value_setNone_other s n x hx q
  | arr n a rest ih =>
    intro s
    cases p with
    | nil => rw [value_nil, value_nil]
    | cons x q =>
      simp only [update]
      cases hat : s.attr n with
      | missing => rfl
      | nested t => rfl
      | noneState => rfl
      | value v =>
        cases v with
        | none => rfl
        | some f =>
          simp only
          cases hf : assign f a with
          | error e => rfl
          | ok f' =>
            simp only
            by_cases hx : x = n
            · subst hx
              have hq : q ≠ [] := by rintro rfl; simp [given] at hg
              rw [ih hd.2 _ (given_not_key hd.1 q) (noneAbove_not_key hd.1 q), value_setVal hat, if_pos rfl,
                if_neg hq, attr_value hat, if_neg hq]
            · have hsame : ∀ b, given (.arr n a rest) (x :: b) = given rest (x :: b) := fun b => by simp [given, hx]
              rw [hsame] at hg
              rw [ih hd.2 _ hg (noneAbove_rest ha hsame), value_setVal hat, if_neg hx]
  | dict n sub rest ih1 ih2 =>
    intro s
    cases p with
    | nil => rw [value_nil, value_nil]
    | cons x q =>
      simp only [update]
      cases hat : s.attr n with
      | missing => rfl
      | value v => rfl
      | noneState => rfl
      | nested inner =>
        simp only
        have hval : value (s.setSub n (update okNone assign sub inner).1) (x :: q) = value s (x :: q) := by
          rw [(setSub_spec hat _ x q).1]
          by_cases hx : x = n
          · subst hx
            rw [if_pos rfl, (attr_nested hat q).1]
            have hg' : given sub q = none := by simpa [given] using hg
            apply ih1 hd.2.1 q hg'
            intro a r hr hne
            have := ha (x :: a) r (by rw [hr]; rfl) hne
            simpa [given] using this
          · rw [if_neg hx]
        have hrest : ∀ t, value (update okNone assign rest t).1 (x :: q) = value t (x :: q) := by
          by_cases hx : x = n
          · subst hx
            exact ih2 hd.2.2 _ (given_not_key hd.1 q) (noneAbove_not_key hd.1 q)
          · have hsame : ∀ b, given (.dict n sub rest) (x :: b) = given rest (x :: b) := fun b => by simp [given, hx]
            rw [hsame] at hg
            exact ih2 hd.2.2 _ hg (noneAbove_rest ha hsame)
        cases hu : update okNone assign sub inner with
        | mk inner' o =>
          rw [hu] at hval
          cases o with
          | some e => exact hval
          | none =>
            simp only
            rw [hrest]
            exact hval

/-- fields the map mentions, when the update succeeds -/
theorem update_given (okNone : String → Option SErr) (assign : F → A → Except SErr F) (m : Mem A)
    (hd : Distinct m) (p : List String) : ∀ s, (update okNone assign m s).2 = none →
    (∀ a, given m p = some (some a) → ∃ f f', value s p = some (some f) ∧ assign f a = .ok f' ∧
      value (update okNone assign m s).1 p = some (some f')) ∧
    (given m p = some none → (∀ n, p.getLast? = some n → okNone n = none) ∧
      (value s p ≠ none → value (update okNone assign m s).1 p = some none)) := by
  induction m generalizing p with
  | nil => intro s _; cases p <;> exact ⟨fun a h => (by cases h), fun h => (by cases h)⟩
  | none n rest ih =>
    intro s hs
    cases p with
    | nil => exact ⟨fun a h => (by rw [given_nil] at h; cases h), fun h => (by rw [given_nil] at h; cases h)⟩
    | cons x q =>
      simp only [update] at hs ⊢
      cases hok : okNone n with
      | some e => rw [hok] at hs; cases hs
      | none =>
        rw [hok] at hs
        simp only at hs ⊢
        by_cases hx : x = n
        · subst hx
          refine ⟨fun a h => ?_, fun h => ?_⟩
          · simp only [given, if_true] at h
            split at h <;> cases h
          · simp only [given, if_true] at h
            split at h
            · rename_i hq
              subst hq
              refine ⟨fun m hm => (by simp at hm; rw [← hm]; exact hok), fun hv => ?_⟩
              rw [update_other okNone assign rest hd.2 _ (given_not_key hd.1 _) (noneAbove_not_key hd.1 _)]
              exact value_setNone_self s x hv
            · cases h
        · have := ih hd.2 (x :: q) _ hs
          rw [value_setNone_other s n x hx q] at this
          simpa [given, hx] using this
  | arr n b rest ih =>
    intro s hs
    cases p with
    | nil => exact ⟨fun a h => (by rw [given_nil] at h; cases h), fun h => (by rw [given_nil] at h; cases h)⟩
    | cons x q =>
      simp only [update] at hs ⊢
      cases hat : s.attr n with
      | missing => rw [hat] at hs; cases hs
      | nested t => rw [hat] at hs; cases hs
      | noneState => rw [hat] at hs; cases hs
      | value v =>
        rw [hat] at hs
        cases v with
        | none => cases hs
        | some f =>
          simp only at hs ⊢
          cases hf : assign f b with
          | error e => rw [hf] at hs; cases hs
          | ok f' =>
            rw [hf] at hs
            simp only at hs ⊢
            by_cases hx : x = n
            · subst hx
              refine ⟨fun a h => ?_, fun h => ?_⟩
              · simp only [given, if_true] at h
                split at h
                · rename_i hq
                  subst hq
                  cases h
                  refine ⟨f, f', ?_, hf, ?_⟩
                  · rw [attr_value hat, if_pos rfl]
                  · rw [update_other okNone assign rest hd.2 _ (given_not_key hd.1 _) (noneAbove_not_key hd.1 _),
                      value_setVal hat, if_pos rfl, if_pos rfl]
                · cases h
              · simp only [given, if_true] at h
                split at h <;> cases h
            · have := ih hd.2 (x :: q) _ hs
              rw [value_setVal hat, if_neg hx] at this
              simpa [given, hx] using this
  | dict n sub rest ih1 ih2 =>
    intro s hs
    cases p with
    | nil => exact ⟨fun a h => (by rw [given_nil] at h; cases h), fun h => (by rw [given_nil] at h; cases h)⟩
    | cons x q =>
      simp only [update] at hs ⊢
      cases hat : s.attr n with
      | missing => rw [hat] at hs; cases hs
      | value v => rw [hat] at hs; cases hs
      | noneState => rw [hat] at hs; cases hs
      | nested inner =>
        rw [hat] at hs
        simp only at hs ⊢
        cases hu : update okNone assign sub inner with
        | mk inner' o =>
          rw [hu] at hs
          cases o with
          | some e => cases hs
          | none =>
            simp only at hs ⊢
            by_cases hx : x = n
            · subst hx
              have h1 := ih1 hd.2.1 q inner (by rw [hu])
              rw [hu] at h1
              simp only at h1
              have hval : value (update okNone assign rest (s.setSub x inner')).1 (x :: q) = value inner' q := by
                rw [update_other okNone assign rest hd.2.2 _ (given_not_key hd.1 _) (noneAbove_not_key hd.1 _),
                  (setSub_spec hat _ x q).1, if_pos rfl]
              rw [hval, (attr_nested hat q).1]
              simp only [given, if_true]
              refine ⟨h1.1, fun h => ⟨fun m hm => ?_, (h1.2 h).2⟩⟩
              apply (h1.2 h).1 m
              cases q with
              | nil => rw [given_nil] at h; cases h
              | cons y q => simpa using hm
            · have := ih2 hd.2.2 (x :: q) _ hs
              rw [(setSub_spec hat _ x q).1, if_neg hx] at this
              simpa [given, hx] using this

/-- an update succeeds if everything it asks for is possible -/
theorem update_succeeds (okNone : String → Option SErr) (assign : F → A → Except SErr F) (m : Mem A)
    (hd : Distinct m) : ∀ s,
    (∀ p a, given m p = some (some a) → ∃ f f', value s p = some (some f) ∧ assign f a = .ok f') →
    (∀ p n, given m (p ++ [n]) = some none → okNone n = none) →
    (∀ p, isDict m p → isState s p) →
    (update okNone assign m s).2 = none := by
  have attr_of_value : ∀ (s : St F) (n : String) (v : Option F), value s [n] = some v → s.attr n = .value v := by
    intro s n v h
    induction s with
    | nil => cases h
    | field m o w rest ih =>
      simp only [value] at h
      simp only [St.attr]
      by_cases hm : n = m
      · subst hm; simp at h; simp [h]
      · have hm' : m ≠ n := fun e => hm e.symm
        rw [if_neg hm] at h; rw [if_neg hm']; exact ih h
    | nested m sub rest _ ih =>
      simp only [value] at h
      simp only [St.attr]
      by_cases hm : n = m
      · subst hm; rw [if_pos rfl] at h; cases h
      · have hm' : m ≠ n := fun e => hm e.symm
        rw [if_neg hm] at h; rw [if_neg hm']; exact ih h
    | gone m sub rest _ ih =>
      simp only [value] at h
      simp only [St.attr]
      by_cases hm : n = m
      · subst hm; rw [if_pos rfl] at h; cases h
      · have hm' : m ≠ n := fun e => hm e.symm
        rw [if_neg hm] at h; rw [if_neg hm']; exact ih h
  have attr_of_state : ∀ (s : St F) (n : String), isState s [n] → ∃ t, s.attr n = .nested t := by
    intro s n h
    induction s with
    | nil => cases h
    | field m o w rest ih =>
      simp only [isState] at h
      simp only [St.attr]
      by_cases hm : n = m
      · rw [if_pos hm] at h; cases h
      · have hm' : m ≠ n := fun e => hm e.symm
        rw [if_neg hm] at h; rw [if_neg hm']; exact ih h
    | nested m sub rest _ ih =>
      simp only [isState] at h
      simp only [St.attr]
      by_cases hm : n = m
      · subst hm; rw [if_pos rfl]; exact ⟨_, rfl⟩
      · have hm' : m ≠ n := fun e => hm e.symm
        rw [if_neg hm] at h; rw [if_neg hm']; exact ih h
    | gone m sub rest _ ih =>
      simp only [isState] at h
      simp only [St.attr]
      by_cases hm : n = m
      · rw [if_pos hm] at h; cases h
      · have hm' : m ≠ n := fun e => hm e.symm
        rw [if_neg hm] at h; rw [if_neg hm']; exact ih h
  induction m with
  | nil => intro s _ _ _; rfl
  | none n rest ih =>
    intro s h1 h2 h3
    simp only [update]
    rw [h2 [] n (by simp [given])]
    simp only
    apply ih hd.2
    · intro p a hp
      cases p with
      | nil => rw [given_nil] at hp; cases hp
      | cons x q =>
        have hx : x ≠ n := by rintro rfl; rw [given_not_key hd.1] at hp; cases hp
        rw [value_setNone_other s n x hx q]
        exact h1 (x :: q) a (by simpa [given, hx] using hp)
    · intro p m hp
      cases p with
      | nil =>
        have hx : m ≠ n := by rintro rfl; rw [List.nil_append, given_not_key hd.1] at hp; cases hp
        exact h2 [] m (by simpa [given, hx] using hp)
      | cons x q =>
        have hx : x ≠ n := by rintro rfl; rw [List.cons_append, given_not_key hd.1] at hp; cases hp
        exact h2 (x :: q) m (by simpa [given, hx] using hp)
    · intro p hp
      cases p with
      | nil => cases rest <;> exact hp.elim
      | cons x q =>
        have hx : x ≠ n := by rintro rfl; exact isDict_not_key hd.1 _ hp
        rw [isState_setNone_other s n x hx q]
        exact h3 (x :: q) (by simpa [isDict, hx] using hp)
  | arr n b rest ih =>
    intro s h1 h2 h3
    obtain ⟨f, f', hv, hf⟩ := h1 [n] b (by simp [given])
    have hat := attr_of_value s n _ hv
    simp only [update, hat, hf]
    apply ih hd.2
    · intro p a hp
      cases p with
      | nil => rw [given_nil] at hp; cases hp
      | cons x q =>
        have hx : x ≠ n := by rintro rfl; rw [given_not_key hd.1] at hp; cases hp
        rw [value_setVal hat, if_neg hx]
        exact h1 (x :: q) a (by simpa [given, hx] using hp)
    · intro p m hp
      cases p with
      | nil =>
        have hx : m ≠ n := by rintro rfl; rw [List.nil_append, given_not_key hd.1] at hp; cases hp
        exact h2 [] m (by simpa [given, hx] using hp)
      | cons x q =>
        have hx : x ≠ n := by rintro rfl; rw [List.cons_append, given_not_key hd.1] at hp; cases hp
        exact h2 (x :: q) m (by simpa [given, hx] using hp)
    · intro p hp
      rw [isState_setVal hat]
      cases p with
      | nil => cases rest <;> exact hp.elim
      | cons x q =>
        have hx : x ≠ n := by rintro rfl; exact isDict_not_key hd.1 _ hp
        exact h3 (x :: q) (by simpa [isDict, hx] using hp)
  | dict n sub rest ih1 ih2 =>
    intro s h1 h2 h3
    obtain ⟨inner, hat⟩ := attr_of_state s n (h3 [n] (by simp [isDict]))
    simp only [update, hat]
    have hsub : (update okNone assign sub inner).2 = none := by
      apply ih1 hd.2.1
      · intro p a hp
        obtain ⟨f, f', hv, hf⟩ := h1 (n :: p) a (by simpa [given] using hp)
        rw [(attr_nested hat p).1] at hv
        exact ⟨f, f', hv, hf⟩
      · intro p m hp
        exact h2 (n :: p) m (by simpa [given] using hp)
      · intro p hp
        have := (attr_nested hat p).2.1 (h3 (n :: p) (by simp [isDict, hp]))
        rcases this with rfl | h
        · cases sub <;> exact hp.elim
        · exact h
    cases hu : update okNone assign sub inner with
    | mk inner' o =>
      rw [hu] at hsub
      simp only at hsub
      subst hsub
      simp only
      apply ih2 hd.2.2
      · intro p a hp
        cases p with
        | nil => rw [given_nil] at hp; cases hp
        | cons x q =>
          have hx : x ≠ n := by rintro rfl; rw [given_not_key hd.1] at hp; cases hp
          rw [(setSub_spec hat _ x q).1, if_neg hx]
          exact h1 (x :: q) a (by simpa [given, hx] using hp)
      · intro p m hp
        cases p with
        | nil =>
          have hx : m ≠ n := by rintro rfl; rw [List.nil_append, given_not_key hd.1] at hp; cases hp
          exact h2 [] m (by simpa [given, hx] using hp)
        | cons x q =>
          have hx : x ≠ n := by rintro rfl; rw [List.cons_append, given_not_key hd.1] at hp; cases hp
          exact h2 (x :: q) m (by simpa [given, hx] using hp)
      · intro p hp
        cases p with
        | nil => cases rest <;> exact hp.elim
        | cons x q =>
          have hx : x ≠ n := by rintro rfl; exact isDict_not_key hd.1 _ hp
          rw [(setSub_spec hat _ x q).2 hx]
          exact h3 (x :: q) (by simpa [isDict, hx] using hp)

/-! ### the property -/

/-- a map that names only fields and states of the state -/
def Names (m : Mem A) (s : St F) : Prop :=
  (∀ p v, given m p = some v → (value s p).isSome ∨ isState s p)

/-- every path of a field is declared -/
theorem declared_of_value (s : St F) : ∀ p v, value s p = some v → ∃ b, declared s p = some b := by
  induction s with
  | nil => intro p v h; cases p <;> cases h
  | field m o w rest ih =>
    intro p v h
    cases p with
    | nil => rw [value_nil] at h; cases h
    | cons x q =>
      simp only [value] at h
      simp only [declared]
      by_cases hx : x = m
      · rw [if_pos hx] at h ⊢
        split at h
        · rename_i hq; rw [if_pos hq]; exact ⟨_, rfl⟩
        · cases h
      · rw [if_neg hx] at h ⊢; exact ih _ _ h
  | nested m sub rest ih1 ih2 =>
    intro p v h
    cases p with
    | nil => rw [value_nil] at h; cases h
    | cons x q =>
      simp only [value] at h
      simp only [declared]
      by_cases hx : x = m
      · rw [if_pos hx] at h ⊢; exact ih1 _ _ h
      · rw [if_neg hx] at h ⊢; exact ih2 _ _ h
  | gone m sub rest ih1 ih2 =>
    intro p v h
    cases p with
    | nil => rw [value_nil] at h; cases h
    | cons x q =>
      simp only [value] at h
      simp only [declared]
      by_cases hx : x = m
      · rw [if_pos hx] at h; cases h
      · rw [if_neg hx] at h ⊢; exact ih2 _ _ h

theorem value_below (s : St F) : ∀ p v, value s p = some v → ∀ r, r ≠ [] → value s (p ++ r) = none := by
  induction s with
  | nil => intro p v h; cases p <;> cases h
  | field m o w rest ih =>
    intro p v h r hr
    cases p with
    | nil => rw [value_nil] at h; cases h
    | cons x q =>
      simp only [value, List.cons_append] at h ⊢
      by_cases hx : x = m
      · rw [if_pos hx] at h ⊢
        rw [if_neg (by simp [hr])]
      · rw [if_neg hx] at h ⊢; exact ih (x :: q) _ h r hr
  | nested m sub rest ih1 ih2 =>
    intro p v h r hr
    cases p with
    | nil => rw [value_nil] at h; cases h
    | cons x q =>
      simp only [value, List.cons_append] at h ⊢
      by_cases hx : x = m
      · rw [if_pos hx] at h ⊢; exact ih1 _ _ h r hr
      · rw [if_neg hx] at h ⊢; exact ih2 (x :: q) _ h r hr
  | gone m sub rest ih1 ih2 =>
    intro p v h r hr
    cases p with
    | nil => rw [value_nil] at h; cases h
    | cons x q =>
      simp only [value, List.cons_append] at h ⊢
      by_cases hx : x = m
      · rw [if_pos hx] at h; cases h
      · rw [if_neg hx] at h ⊢; exact ih2 (x :: q) _ h r hr

/-- C40. An update by copying that succeeds assigned every array given to the field at its path, set to `None` exactly
the fields given as `None`, all of which are declared optional, and changed no other field. (`NoClash`: see the
witness below. `Names`: the map names fields and nested states only.) -/
theorem C40_copy_exact_partial (assign : F → A → Except SErr F) (m : Mem A) (hd : Distinct m) (s s' : St F)
    (hc : NoClash s) (hnames : Names m s) (h : updateCopy assign m s = (s', none)) (p : List String) :
    (∀ a, given m p = some (some a) → ∃ f f', value s p = some (some f) ∧ assign f a = .ok f' ∧
      value s' p = some (some f')) ∧
    (given m p = some none → declared s p = some true ∧ value s' p = some none) ∧
    (given m p = none → value s' p = value s p) := by
  unfold updateCopy at h
  have h2 : (update (copyNone s.flags) assign m s).2 = none := by rw [h]
  have h1 : (update (copyNone s.flags) assign m s).1 = s' := by rw [h]
  have hnone : ∀ p, given m p = some none → declared s p = some true ∧ (value s p).isSome := by
    intro p hg
    obtain ⟨ga, gb⟩ := (update_given _ assign m hd p s h2).2 hg
    obtain ⟨init, n, rfl⟩ : ∃ init n, p = init ++ [n] := by
      rcases List.eq_nil_or_concat p with rfl | ⟨i, n, rfl⟩
      · rw [given_nil] at hg; cases hg
      · exact ⟨i, n, by simp⟩
    have hok := ga n (by simp)
    have hflag : flagOf s.flags n = some true := by
      unfold copyNone at hok
      split at hok
      · assumption
      · cases hok
      · cases hok
    rcases hnames _ _ hg with hv | hst
    · obtain ⟨v, hv'⟩ := Option.isSome_iff_exists.1 hv
      obtain ⟨b, hb⟩ := declared_of_value s _ v hv'
      have := hc.1 _ _ _ hb
      rw [hflag] at this
      cases this
      exact ⟨hb, hv⟩
    · have := hc.2 _ _ hst
      rw [hflag] at this
      cases this
  refine ⟨?_, ?_, ?_⟩
  · intro a hg
    have := (update_given _ assign m hd p s h2).1 a hg
    rw [h1] at this
    exact this
  · intro hg
    obtain ⟨k1, k2⟩ := hnone p hg
    refine ⟨k1, ?_⟩
    have := ((update_given _ assign m hd p s h2).2 hg).2 (by
      intro e; rw [e] at k2; cases k2)
    rw [h1] at this
    exact this
  · intro hg
    by_cases ha : NoneAbove m p
    · have := update_other (copyNone s.flags) assign m hd p hg ha s
      rw [h1] at this
      exact this
    · -- a `None` above the path: fields have no fields
      unfold NoneAbove at ha
      simp only [Classical.not_forall, Classical.not_not, ne_eq] at ha
      obtain ⟨q, r, hpr, hne, hq⟩ := ha
      subst hpr
      have hqs := (hnone q hq).2
      obtain ⟨v, hv⟩ := Option.isSome_iff_exists.1 hqs
      have hv' := ((update_given _ assign m hd q s h2).2 hq).2 (by rw [hv]; simp)
      rw [h1] at hv'
      rw [value_below s _ _ hv r hne, value_below s' _ _ hv' r hne]

/-- C40. An update by copying succeeds when every array given is for an existing quantity and fits, every `None` is
for a field declared optional, and every dictionary is for a nested state. -/
theorem C40_copy_succeeds_partial (assign : F → A → Except SErr F) (m : Mem A) (hd : Distinct m) (s : St F)
    (hc : NoClash s)
    (h1 : ∀ p a, given m p = some (some a) → ∃ f f', value s p = some (some f) ∧ assign f a = .ok f')
    (h2 : ∀ p, given m p = some none → declared s p = some true)
    (h3 : ∀ p, isDict m p → isState s p) :
    (updateCopy assign m s).2 = none := by
  apply update_succeeds _ _ m hd s h1 _ h3
  intro p n hg
  have := hc.1 p n true (h2 _ hg)
  unfold copyNone
  rw [this]

/-- C40. A `None` for a field that is not declared optional makes the update by copying raise. -/
theorem C40_none_refused_partial (assign : F → A → Except SErr F) (m : Mem A) (hd : Distinct m) (s : St F)
    (hc : NoClash s) (p : List String) (hp : declared s p = some false) (hg : given m p = some none) :
    (updateCopy assign m s).2 ≠ none := by
  intro h
  obtain ⟨ga, -⟩ := (update_given _ assign m hd p s h).2 hg
  obtain ⟨init, n, rfl⟩ : ∃ init n, p = init ++ [n] := by
    rcases List.eq_nil_or_concat p with rfl | ⟨i, n, rfl⟩
    · rw [given_nil] at hg; cases hg
    · exact ⟨i, n, by simp⟩
  have hok := ga n (by simp)
  have := hc.1 _ _ _ hp
  unfold copyNone at hok
  rw [this] at hok
  cases hok

/-- C40. Whatever the outcome of an update by copying or moving (also when it raises part-way), fields the map does
not mention, and that are not inside a nested state given as `None`, are unchanged. -/
theorem C40_others_unchanged (assign : F → A → Except SErr F) (m : Mem A) (hd : Distinct m) (s : St F)
    (p : List String) (hg : given m p = none)
    (ha : ∀ q r : List String, p = q ++ r → r ≠ [] → given m q ≠ some none) :
    value (updateCopy assign m s).1 p = value s p ∧ value (updateMove assign m s).1 p = value s p :=
  ⟨update_other _ _ m hd p hg ha s, update_other _ _ m hd p hg ha s⟩

/-- C40. An update by moving that succeeds swapped every array given into the field at its path, and made `None` the
fields given as `None` (optional or not: see the witness). -/
theorem C40_move_partial (assign : F → A → Except SErr F) (m : Mem A) (hd : Distinct m) (s s' : St F)
    (h : updateMove assign m s = (s', none)) (p : List String) :
    (∀ a, given m p = some (some a) → ∃ f f', value s p = some (some f) ∧ assign f a = .ok f' ∧
      value s' p = some (some f')) ∧
    (given m p = some none → value s p ≠ none → value s' p = some none) := by
  unfold updateMove at h
  have h2 : (update (fun _ => none) assign m s).2 = none := by rw [h]
  have h1 : (update (fun _ => none) assign m s).1 = s' := by rw [h]
  have := update_given _ assign m hd p s h2
  rw [h1] at this
  exact ⟨this.1, fun hg hv => (this.2 hg).2 hv⟩

/-! ### Examples and violations -/

/-- numbers as quantities; assigning a negative number fails -/
def exAssign (_ : Int) (a : Int) : Except SErr Int := if a < 0 then .error .valueError else .ok a

/-- `{ inner: { a, b (optional) }, c }` -/
def exSt : St Int :=
  .nested "inner" (.field "a" false (some 1) (.field "b" true (some 2) .nil)) (.field "c" false (some 3) .nil)

def exMem : Mem Int := .dict "inner" (.none "b" (.arr "a" 7 .nil)) .nil

example : Distinct exMem := by simp [exMem, Distinct, keys]

example : (updateCopy exAssign exMem exSt).2 = none ∧
    value (updateCopy exAssign exMem exSt).1 ["inner", "a"] = some (some 7) ∧
    value (updateCopy exAssign exMem exSt).1 ["inner", "b"] = some none ∧
    value (updateCopy exAssign exMem exSt).1 ["c"] = some (some 3) := by decide

example : NoClash exSt := by
  constructor
  · intro p n b h
    match p with
    | [] =>
      simp only [exSt, List.nil_append, declared] at h
      split at h
      · cases h
      · split at h
        · rename_i h2; subst h2; simp at h; subst h; decide
        · cases h
    | [x] =>
      simp only [exSt, List.cons_append, List.nil_append, declared] at h
      split at h
      · split at h
        · rename_i h2; subst h2; simp at h; subst h; decide
        · split at h
          · rename_i h2; subst h2; simp at h; subst h; decide
          · cases h
      · split at h
        · simp at h
        · cases h
    | x :: y :: p =>
      simp only [exSt, List.cons_append, declared] at h
      split at h
      · split at h
        · simp at h
        · split at h
          · simp at h
          · cases h
      · split at h
        · simp at h
        · cases h
  · intro p n h
    match p with
    | [] =>
      simp only [exSt, List.nil_append, isState] at h
      split at h
      · rename_i h2; subst h2; decide
      · split at h <;> cases h
    | x :: p =>
      simp only [exSt, List.cons_append, isState] at h
      split at h
      · rcases h with h | h
        · simp at h
        · cases p with
          | nil => simp [isState] at h
          | cons y p => simp [isState] at h
      · split at h <;> cases h

example : Names exMem exSt := by
  intro p v h
  match p with
  | [] => cases h
  | [x] =>
    simp only [exMem, given] at h
    split at h <;> cases h
  | x :: y :: p =>
    simp only [exMem, given] at h
    split at h
    · rename_i hx
      subst hx
      split at h
      · rename_i hy
        subst hy
        split at h
        · rename_i hp; subst hp; left; rfl
        · cases h
      · split at h
        · rename_i hy
          subst hy
          split at h
          · rename_i hp; subst hp; left; rfl
          · cases h
        · cases h
    · cases h

/-- C40, "`None` is accepted exactly for fields declared optional", is false of the code: flags are kept by the name
of the field, so an optional `a` at the top makes the mandatory `a` of a nested state accept `None` ... -/
theorem C40_clash_violated :
    (fun (s : St Int) (m : Mem Int) => declared s ["inner", "a"] = some false ∧ (updateCopy exAssign m s).2 = none ∧
      value (updateCopy exAssign m s).1 ["inner", "a"] = some none)
    (.nested "inner" (.field "a" false (some 1) .nil) (.field "a" true (some 2) .nil))
    (.dict "inner" (.none "a" .nil) .nil) := by decide

/-- ... and a mandatory one makes an optional one refuse it. -/
theorem C40_clash_refused_violated :
    (fun (s : St Int) (m : Mem Int) => declared s ["inner", "a"] = some true ∧
      (updateCopy exAssign m s).2 = some .typeError)
    (.nested "inner" (.field "a" true (some 1) .nil) (.field "a" false (some 2) .nil))
    (.dict "inner" (.none "a" .nil) .nil) := by decide

/-- Moving accepts `None` for every field. -/
theorem C40_move_none_violated : declared exSt ["c"] = some false ∧
    (updateMove exAssign (.none "c" .nil) exSt).2 = none ∧
    value (updateMove exAssign (.none "c" .nil) exSt).1 ["c"] = some none := by decide

/-- A failing update leaves the fields before the failing one changed. -/
theorem C40_not_atomic_violated :
    (updateCopy exAssign (.arr "c" 9 (.dict "inner" (.arr "a" (-1) .nil) .nil)) exSt).2 = some .valueError ∧
    value (updateCopy exAssign (.arr "c" 9 (.dict "inner" (.arr "a" (-1) .nil) .nil)) exSt).1 ["c"] =
      some (some 9) := by decide

end NDSL.StateUpd
