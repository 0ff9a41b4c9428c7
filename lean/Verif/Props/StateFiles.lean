import Verif.Spec.StateFiles
import Verif.Props.StateUpdate
import Mathlib.Tactic.SplitIfs
/-
C96: saving a state and reading it back.
-/
namespace NDSL.StateFiles
open NDSL.StateUpd
variable {F A : Type}

/-! ### what is written -/

/-- The arrays of the quantities at the top of a state. -/
def vals (xa : F → A) : St F → Dataset A
  | .nil => []
  | .field _ _ none rest => vals xa rest
  | .field n _ (some f) rest => (n, xa f) :: vals xa rest
  | .nested _ _ rest => vals xa rest
  | .gone _ _ rest => vals xa rest

/-- The nested states. -/
def subs : St F → List (String × St F)
  | .nil => []
  | .field _ _ _ rest => subs rest
  | .nested n sub rest => (n, sub) :: subs rest
  | .gone _ _ rest => subs rest

theorem vals_names (xa : F → A) (s : St F) : ∀ e ∈ vals xa s, e.1 ∈ fieldNames s := by
  induction s with
  | nil => intro e h; cases h
  | field n o v rest ih =>
    intro e h
    cases v with
    | none => exact List.mem_cons_of_mem _ (ih e h)
    | some f =>
      rcases List.mem_cons.mp h with rfl | h
      · exact List.mem_cons_self
      · exact List.mem_cons_of_mem _ (ih e h)
  | nested n sub rest ih1 ih2 => intro e h; exact List.mem_cons_of_mem _ (ih2 e h)
  | gone n sub rest ih1 ih2 => intro e h; exact List.mem_cons_of_mem _ (ih2 e h)

theorem subs_names (s : St F) : ∀ e ∈ subs s, e.1 ∈ fieldNames s := by
  induction s with
  | nil => intro e h; cases h
  | field n o v rest ih => intro e h; exact List.mem_cons_of_mem _ (ih e h)
  | nested n sub rest ih1 ih2 =>
    intro e h
    rcases List.mem_cons.mp h with rfl | h
    · exact List.mem_cons_self
    · exact List.mem_cons_of_mem _ (ih2 e h)
  | gone n sub rest ih1 ih2 => intro e h; exact List.mem_cons_of_mem _ (ih2 e h)

theorem value_not_name {s : St F} {n : String} (h : n ∉ fieldNames s) (q : List String) : value s (n :: q) = none := by
  induction s with
  | nil => rfl
  | field m o v rest ih =>
    obtain ⟨h1, h2⟩ := not_or.mp (mt List.mem_cons.mpr h)
    simp only [value, if_neg h1, ih h2]
  | nested m sub rest ih1 ih2 =>
    obtain ⟨h1, h2⟩ := not_or.mp (mt List.mem_cons.mpr h)
    simp only [value, if_neg h1, ih2 h2]
  | gone m sub rest ih1 ih2 =>
    obtain ⟨h1, h2⟩ := not_or.mp (mt List.mem_cons.mpr h)
    simp only [value, if_neg h1, ih2 h2]

theorem isState_not_name {s : St F} {n : String} (h : n ∉ fieldNames s) (q : List String) : ¬ isState s (n :: q) := by
  induction s with
  | nil => exact id
  | field m o v rest ih =>
    obtain ⟨h1, h2⟩ := not_or.mp (mt List.mem_cons.mpr h)
    simp only [isState, if_neg h1]; exact ih h2
  | nested m sub rest ih1 ih2 =>
    obtain ⟨h1, h2⟩ := not_or.mp (mt List.mem_cons.mpr h)
    simp only [isState, if_neg h1]; exact ih2 h2
  | gone m sub rest ih1 ih2 =>
    obtain ⟨h1, h2⟩ := not_or.mp (mt List.mem_cons.mpr h)
    simp only [isState, if_neg h1]; exact ih2 h2

theorem isState_nil (s : St F) : ¬ isState s [] := by cases s <;> exact id

/-- An array at the top is the value of a field. -/
theorem mem_vals (xa : F → A) (s : St F) (hd : DistinctFields s) :
    ∀ n a, (n, a) ∈ vals xa s ↔ ∃ f, value s [n] = some (some f) ∧ a = xa f := by
  induction s with
  | nil => intro n a; simp [vals, value]
  | field m o v rest ih =>
    intro n a
    have i := ih hd.2 n a
    by_cases hx : n = m
    · subst hx
      have hn : ∀ b, (n, b) ∉ vals xa rest := fun b hb => hd.1 (vals_names xa rest _ hb)
      cases v with
      | none => simp [vals, value, hn]
      | some f => simp [vals, value, hn]
    · cases v with
      | none => simpa [vals, value, hx] using i
      | some f => simpa [vals, value, hx] using i
  | nested m sub rest ih1 ih2 =>
    intro n a
    have i := ih2 hd.2.2 n a
    by_cases hx : n = m
    · subst hx
      have hn : ∀ b, (n, b) ∉ vals xa rest := fun b hb => hd.1 (vals_names xa rest _ hb)
      simp [vals, value, hn, value_nil]
    · simpa [vals, value, hx] using i
  | gone m sub rest ih1 ih2 =>
    intro n a
    have i := ih2 hd.2.2 n a
    by_cases hx : n = m
    · subst hx
      have hn : ∀ b, (n, b) ∉ vals xa rest := fun b hb => hd.1 (vals_names xa rest _ hb)
      simp [vals, value, hn]
    · simpa [vals, value, hx] using i

/-- The nested states have the values below them. -/
theorem mem_subs (s : St F) (hd : DistinctFields s) :
    ∀ n t, (n, t) ∈ subs s → DistinctFields t ∧ isState s [n] ∧ (∀ q, q ≠ [] → (isState s (n :: q) ↔ isState t q)) ∧
      ∀ q, value s (n :: q) = value t q := by
  induction s with
  | nil => intro n t h; cases h
  | field m o v rest ih =>
    intro n t h
    have hx : n ≠ m := fun e => hd.1 (e ▸ subs_names rest _ h)
    simpa [isState, value, hx] using ih hd.2 n t h
  | nested m sub rest ih1 ih2 =>
    intro n t h
    rcases List.mem_cons.mp h with e | h
    · cases e
      exact ⟨hd.2.1, by simp [isState], fun q hq => by simp [isState, hq], fun q => by simp [value]⟩
    · have hx : n ≠ m := fun e => hd.1 (e ▸ subs_names rest _ h)
      simpa [isState, value, hx] using ih2 hd.2.2 n t h
  | gone m sub rest ih1 ih2 =>
    intro n t h
    have hx : n ≠ m := fun e => hd.1 (e ▸ subs_names rest _ h)
    simpa [isState, value, hx] using ih2 hd.2.2 n t h

/-- A value is at the top or in a nested state. -/
theorem value_cases (s : St F) (x : String) (q : List String) (f : F) (h : value s (x :: q) = some (some f)) :
    q = [] ∨ ∃ t, (x, t) ∈ subs s := by
  induction s with
  | nil => cases h
  | field m o v rest ih =>
    simp only [value] at h
    split_ifs at h with h1 h2
    · exact Or.inl h2
    · exact ih h
  | nested m sub rest ih1 ih2 =>
    simp only [value] at h
    split_ifs at h with h1
    · subst h1; exact Or.inr ⟨sub, List.mem_cons_self⟩
    · rcases ih2 h with h | ⟨t, h⟩
      · exact Or.inl h
      · exact Or.inr ⟨t, List.mem_cons_of_mem _ h⟩
  | gone m sub rest ih1 ih2 =>
    simp only [value] at h
    split_ifs at h with h1
    exact ih2 h

theorem variables_arr (d : Dataset A) : variables (d.map fun e => (e.1, Entry.arr e.2)) = .ok d := by
  induction d with
  | nil => rfl
  | cons e d ih =>
    rw [List.map_cons, variables, ih]; rfl

theorem mkDataset_arr (dims : A → List (String × Nat)) (d : Dataset A) (h : sizesAgree (allDims dims d) = true) :
    mkDataset dims (d.map fun e => (e.1, Entry.arr e.2)) = .ok d := by
  unfold mkDataset
  rw [variables_arr]
  simp only [h, if_true]

theorem sizesAgree_iff (l : List (String × Nat)) : sizesAgree l = true ↔ ∀ d n m, (d, n) ∈ l → (d, m) ∈ l → n = m := by
  unfold sizesAgree
  simp only [List.all_eq_true, Bool.or_eq_true, bne_iff_ne, beq_iff_eq]
  constructor
  · intro h d n m hn hm
    rcases h _ hn _ hm with h | h
    · exact absurd rfl h
    · exact h
  · rintro h ⟨d, n⟩ hn ⟨e, m⟩ hm
    by_cases hde : d = e
    · subst hde; exact Or.inr (h d n m hn hm)
    · exact Or.inl hde

theorem mem_allDims (dims : A → List (String × Nat)) (d : Dataset A) (e : String × Nat) :
    e ∈ allDims dims d ↔ ∃ x a, (x, a) ∈ d ∧ e ∈ dims a := by
  simp [allDims, List.mem_flatMap]

/-- A state without nested ones. -/
theorem saveRec_flat (xa : F → A) (dims : A → List (String × Nat)) (s : St F) (hw : Whole s) (hd : DistinctFields s)
    (hf : ∀ p, ¬ isState s p) : saveRec xa dims s = .ok ((vals xa s).map fun e => (e.1, .arr e.2)) := by
  induction s with
  | nil => rfl
  | field m o v rest ih =>
    have i := ih hw hd.2 (by
      intro p hp
      cases p with
      | nil => exact isState_nil _ hp
      | cons x q =>
        by_cases hx : x = m
        · subst hx; exact isState_not_name hd.1 _ hp
        · exact hf (x :: q) (by simpa [isState, hx] using hp))
    cases v with
    | none => simpa [saveRec, vals] using i
    | some f => simp [saveRec, vals, i, Except.map]
  | nested m sub rest ih1 ih2 => exact absurd (by simp [isState]) (hf [m])
  | gone m sub rest ih1 ih2 => exact hw.elim

/-- A state nested at most once. -/
theorem saveRec_spec (xa : F → A) (dims : A → List (String × Nat)) (s : St F) (hw : Whole s) (hd : DistinctFields s)
    (hf : ∀ p, isState s p → p.length ≤ 1)
    (hc : ∀ n t, (n, t) ∈ subs s → sizesAgree (allDims dims (vals xa t)) = true) :
    ∃ l, saveRec xa dims s = .ok l ∧ topLevel l = vals xa s ∧ others l = (subs s).map fun e => (e.1, vals xa e.2) := by
  induction s with
  | nil => exact ⟨[], rfl, rfl, rfl⟩
  | field m o v rest ih =>
    obtain ⟨l, h1, h2, h3⟩ := ih hw hd.2 (by
      intro p hp
      cases p with
      | nil => simp
      | cons x q =>
        by_cases hx : x = m
        · subst hx; exact absurd hp (isState_not_name hd.1 _)
        · exact hf (x :: q) (by simpa [isState, hx] using hp)) hc
    cases v with
    | none => exact ⟨l, by simpa [saveRec] using h1, by simpa [vals] using h2, by simpa [subs] using h3⟩
    | some f =>
      exact ⟨(m, .arr (xa f)) :: l, by simp only [saveRec, h1, Except.map], by simp [topLevel, vals, h2], by simp [others, subs, h3]⟩
  | nested m sub rest ih1 ih2 =>
    obtain ⟨l, h1, h2, h3⟩ := ih2 hw.2 hd.2.2 (by
      intro p hp
      cases p with
      | nil => simp
      | cons x q =>
        by_cases hx : x = m
        · subst hx; exact absurd hp (isState_not_name hd.1 _)
        · exact hf (x :: q) (by simpa [isState, hx] using hp)) (fun n t h => hc n t (List.mem_cons_of_mem _ h))
    have hflat : ∀ p, ¬ isState sub p := by
      intro p hp
      cases p with
      | nil => exact isState_nil _ hp
      | cons x q =>
        have := hf (m :: x :: q) (by simp [isState, hp])
        simp at this
    have hs := saveRec_flat xa dims sub hw.1 hd.2.1 hflat
    have hm := mkDataset_arr dims (vals xa sub) (hc m sub List.mem_cons_self)
    refine ⟨(m, .ds (vals xa sub)) :: l, ?_, by simp [topLevel, vals, h2], by simp [others, subs, h3]⟩
    simp only [saveRec, hs, hm, h1, Except.map]
  | gone m sub rest ih1 ih2 => exact hw.elim

/-- The tree of a writable state. -/
theorem toXarray_spec (xa : F → A) (dims : A → List (String × Nat)) (s : St F) (h : Writable xa dims s) :
    toXarray xa dims s = .ok ⟨vals xa s, (subs s).map fun e => (e.1, vals xa e.2)⟩ := by
  obtain ⟨hd, hw, hf, hc⟩ := h
  have hv : ∀ n a, (n, a) ∈ vals xa s → ∃ p f, value s p = some (some f) ∧ a = xa f := fun n a h => by
    obtain ⟨f, h1, h2⟩ := (mem_vals xa s hd n a).mp h
    exact ⟨_, f, h1, h2⟩
  have hsv : ∀ x t, (x, t) ∈ subs s → ∀ n a, (n, a) ∈ vals xa t → ∃ p f, value s p = some (some f) ∧ a = xa f := by
    intro x t ht n a h
    obtain ⟨h1, -, -, h2⟩ := mem_subs s hd x t ht
    obtain ⟨f, h3, h4⟩ := (mem_vals xa t h1 n a).mp h
    exact ⟨x :: [n], f, by rw [h2, h3], h4⟩
  obtain ⟨l, h1, h2, h3⟩ := saveRec_spec xa dims s hw hd hf (by
    intro n t ht
    rw [sizesAgree_iff]
    intro d k m hk hm
    obtain ⟨x, a, ha, hka⟩ := (mem_allDims _ _ _).mp hk
    obtain ⟨y, b, hb, hmb⟩ := (mem_allDims _ _ _).mp hm
    obtain ⟨p, f, hp, rfl⟩ := hsv n t ht x a ha
    obtain ⟨q, g, hq, rfl⟩ := hsv n t ht y b hb
    exact hc p q f g hp hq d k m hka hmb)
  unfold toXarray
  simp only [h1, h2, h3]
  rw [mkDataset_arr]
  · unfold fromDict
    simp only
    rw [if_pos]
    rw [List.all_eq_true]
    intro c hcm
    obtain ⟨⟨n, t⟩, ht, rfl⟩ := List.mem_map.mp hcm
    rw [sizesAgree_iff]
    intro d k m hk hm
    have key : ∀ k, (d, k) ∈ allDims dims (vals xa s) ++ allDims dims (vals xa t) →
        ∃ p f, value s p = some (some f) ∧ (d, k) ∈ dims (xa f) := by
      intro k hk
      rcases List.mem_append.mp hk with h | h
      · obtain ⟨x, a, ha, hka⟩ := (mem_allDims _ _ _).mp h
        obtain ⟨p, f, hp, rfl⟩ := hv x a ha
        exact ⟨p, f, hp, hka⟩
      · obtain ⟨x, a, ha, hka⟩ := (mem_allDims _ _ _).mp h
        obtain ⟨p, f, hp, rfl⟩ := hsv n t ht x a ha
        exact ⟨p, f, hp, hka⟩
    obtain ⟨p, f, hp, h⟩ := key k hk
    obtain ⟨q, g, hq, h'⟩ := key m hm
    exact hc p q f g hp hq d k m h h'
  · rw [sizesAgree_iff]
    intro d k m hk hm
    obtain ⟨x, a, ha, hka⟩ := (mem_allDims _ _ _).mp hk
    obtain ⟨y, b, hb, hmb⟩ := (mem_allDims _ _ _).mp hm
    obtain ⟨p, f, hp, rfl⟩ := hv x a ha
    obtain ⟨q, g, hq, rfl⟩ := hv y b hb
    exact hc p q f g hp hq d k m hka hmb

/-! ### what is read -/

theorem given_arrays (d : Dataset A) (m : Mem A) (hn : ∀ n a, (n, a) ∈ d → n ∉ keys m) (hd : (d.map (·.1)).Nodup) (x : String)
    (q : List String) (b : Option A) :
    given (arrays d m) (x :: q) = some b ↔ (q = [] ∧ ∃ a, (x, a) ∈ d ∧ b = some a) ∨ given m (x :: q) = some b := by
  induction d with
  | nil => simp [arrays]
  | cons e d ih =>
    obtain ⟨n, a⟩ := e
    rw [List.map_cons, List.nodup_cons] at hd
    have i := ih (fun n a h => hn n a (List.mem_cons_of_mem _ h)) hd.2
    simp only [arrays, given]
    by_cases hx : x = n
    · subst hx
      rw [if_pos rfl]
      have h0 : given m (x :: q) = none := given_not_key (hn x a List.mem_cons_self) q
      rw [h0]
      have h1 : ∀ a', (x, a') ∉ d := fun a' h => hd.1 (List.mem_map.mpr ⟨_, h, rfl⟩)
      by_cases hq : q = []
      · subst hq
        simp [h1, eq_comm]
      · simp [hq]
    · rw [if_neg hx, i]
      simp [hx]

theorem keys_arrays (d : Dataset A) (m : Mem A) : keys (arrays d m) = d.map (·.1) ++ keys m := by
  induction d with
  | nil => rfl
  | cons e d ih => simp [arrays, keys, ih]

theorem distinct_arrays (d : Dataset A) (m : Mem A) (hn : ∀ n a, (n, a) ∈ d → n ∉ keys m) (hd : (d.map (·.1)).Nodup)
    (hm : Distinct m) : Distinct (arrays d m) := by
  induction d with
  | nil => exact hm
  | cons e d ih =>
    rw [List.map_cons, List.nodup_cons] at hd
    refine ⟨?_, ih (fun n a h => hn n a (List.mem_cons_of_mem _ h)) hd.2⟩
    rw [keys_arrays, List.mem_append, not_or]
    exact ⟨hd.1, hn e.1 e.2 List.mem_cons_self⟩

theorem isDict_arrays (d : Dataset A) (m : Mem A) (hn : ∀ n a, (n, a) ∈ d → n ∉ keys m) (p : List String) :
    isDict (arrays d m) p ↔ isDict m p := by
  induction d with
  | nil => rfl
  | cons e d ih =>
    have i := ih (fun n a h => hn n a (List.mem_cons_of_mem _ h))
    cases p with
    | nil => cases d <;> cases m <;> simp [arrays, isDict]
    | cons x q =>
      simp only [arrays, isDict]
      by_cases hx : x = e.1
      · subst hx
        rw [if_pos rfl]
        have := isDict_not_key (hn e.1 e.2 List.mem_cons_self) q
        simp [this]
      · rw [if_neg hx, i]

theorem keys_subtrees (dims : A → List (String × Nat)) (ch : List (String × Dataset A)) :
    keys (subtrees dims ch) = ch.map (·.1) := by
  induction ch with
  | nil => rfl
  | cons e ch ih => obtain ⟨n, d⟩ := e; simp [subtrees, keys, ih]

theorem isDict_nil_mem (m : Mem A) : ¬ isDict m [] := by cases m <;> exact id

theorem isDict_subtrees (dims : A → List (String × Nat)) (ch : List (String × Dataset A)) (p : List String)
    (h : isDict (subtrees dims ch) p) : ∃ n d, (n, d) ∈ ch ∧ p = [n] := by
  induction ch with
  | nil => cases p <;> exact h.elim
  | cons e ch ih =>
    obtain ⟨n, d⟩ := e
    cases p with
    | nil => exact h.elim
    | cons x q =>
      simp only [subtrees, isDict] at h
      by_cases hx : x = n
      · rw [if_pos hx] at h
        subst hx
        rcases h with h | h
        · subst h; exact ⟨x, d, List.mem_cons_self, rfl⟩
        · rw [isDict_arrays _ _ (fun _ _ _ => by simp [keys])] at h
          cases q <;> exact h.elim
      · rw [if_neg hx] at h
        obtain ⟨n', d', h1, h2⟩ := ih h
        exact ⟨n', d', List.mem_cons_of_mem _ h1, h2⟩

theorem given_subtrees (dims : A → List (String × Nat)) (ch : List (String × Dataset A)) (hd : (ch.map (·.1)).Nodup)
    (hi : ∀ n d, (n, d) ∈ ch → ((items dims d).map (·.1)).Nodup) (x : String) (q : List String) (b : Option A) :
    given (subtrees dims ch) (x :: q) = some b ↔ ∃ d y a, (x, d) ∈ ch ∧ q = [y] ∧ (y, a) ∈ items dims d ∧ b = some a := by
  induction ch with
  | nil => simp [subtrees, given]
  | cons e ch ih =>
    obtain ⟨n, d⟩ := e
    rw [List.map_cons, List.nodup_cons] at hd
    have i := ih hd.2 (fun n d h => hi n d (List.mem_cons_of_mem _ h))
    simp only [subtrees, given]
    by_cases hx : x = n
    · subst hx
      rw [if_pos rfl]
      have h1 : ∀ d', (x, d') ∉ ch := fun a' h => hd.1 (List.mem_map.mpr ⟨_, h, rfl⟩)
      cases q with
      | nil => simp [given_nil]
      | cons y r =>
        rw [given_arrays _ _ (fun _ _ _ => by simp [keys]) (hi x d List.mem_cons_self)]
        simp [given, h1]
        constructor
        · rintro ⟨rfl, a, h, rfl⟩; exact ⟨y, ⟨rfl, rfl⟩, a, h, rfl⟩
        · rintro ⟨_, ⟨rfl, rfl⟩, a, h, rfl⟩; exact ⟨rfl, a, h, rfl⟩
    · rw [if_neg hx, i]
      simp [hx]

theorem vals_nodup (xa : F → A) (s : St F) (hd : DistinctFields s) : ((vals xa s).map (·.1)).Nodup := by
  induction s with
  | nil => exact List.nodup_nil
  | field m o v rest ih =>
    cases v with
    | none => exact ih hd.2
    | some f =>
      rw [vals, List.map_cons, List.nodup_cons]
      refine ⟨fun h => ?_, ih hd.2⟩
      obtain ⟨e, he, h⟩ := List.mem_map.mp h
      have := vals_names xa rest e he
      rw [h] at this
      exact hd.1 this
  | nested m sub rest ih1 ih2 => exact ih2 hd.2.2
  | gone m sub rest ih1 ih2 => exact ih2 hd.2.2

theorem subs_nodup (s : St F) (hd : DistinctFields s) : ((subs s).map (·.1)).Nodup := by
  induction s with
  | nil => exact List.nodup_nil
  | field m o v rest ih => exact ih hd.2
  | nested m sub rest ih1 ih2 =>
    rw [subs, List.map_cons, List.nodup_cons]
    refine ⟨fun h => ?_, ih2 hd.2.2⟩
    obtain ⟨e, he, h⟩ := List.mem_map.mp h
    have := subs_names rest e he
    rw [h] at this
    exact hd.1 this
  | gone m sub rest ih1 ih2 => exact ih2 hd.2.2

theorem vals_not_subs (xa : F → A) (s : St F) (hd : DistinctFields s) (n : String) (a : A) (h : (n, a) ∈ vals xa s) (t : St F) :
    (n, t) ∉ subs s := by
  intro ht
  obtain ⟨f, h1, -⟩ := (mem_vals xa s hd n a).mp h
  obtain ⟨-, -, -, h2⟩ := mem_subs s hd n t ht
  rw [h2, value_nil] at h1
  cases h1

theorem items_vals (xa : F → A) (dims : A → List (String × Nat)) (s : St F) (hd : DistinctFields s)
    (hn : ∀ n f, value s [n] = some (some f) → (dims (xa f)).map (·.1) ≠ [n]) : items dims (vals xa s) = vals xa s := by
  unfold items
  rw [List.filter_eq_self]
  rintro ⟨n, a⟩ he
  obtain ⟨f, h1, rfl⟩ := (mem_vals xa s hd n a).mp he
  simpa using hn n f h1

/-- What is read of a written state: the map from its paths to the arrays of its quantities. -/
theorem load_spec (xa : F → A) (dims : A → List (String × Nat)) (s : St F) (h : Writable xa dims s)
    (hn : NoCoordinates xa dims s) :
    let m := load dims ⟨vals xa s, (subs s).map fun e => (e.1, vals xa e.2)⟩
    Distinct m ∧ (∀ p, isDict m p → isState s p) ∧
      ∀ p b, given m p = some b ↔ ∃ f, value s p = some (some f) ∧ b = some (xa f) := by
  obtain ⟨hd, hw, hf, hc⟩ := h
  have hi := items_vals xa dims s hd (fun n f h => hn [] n f h)
  have hi2 : ∀ n t, (n, t) ∈ subs s → items dims (vals xa t) = vals xa t := by
    intro n t ht
    obtain ⟨h1, -, -, h2⟩ := mem_subs s hd n t ht
    exact items_vals xa dims t h1 (fun m f h => hn [n] m f (by rw [List.singleton_append, h2, h]))
  have hnd2 : ∀ n d, (n, d) ∈ (subs s).map (fun e => (e.1, vals xa e.2)) → ((items dims d).map (·.1)).Nodup := by
    intro n d h
    obtain ⟨⟨n', t⟩, ht, e⟩ := List.mem_map.mp h
    cases e
    rw [hi2 _ t ht]
    exact vals_nodup xa t (mem_subs s hd _ t ht).1
  have hk : ∀ n a, (n, a) ∈ vals xa s → n ∉ keys (subtrees dims ((subs s).map fun e => (e.1, vals xa e.2))) := by
    intro n a h h2
    rw [keys_subtrees, List.map_map] at h2
    obtain ⟨⟨n', t⟩, ht, e⟩ := List.mem_map.mp h2
    cases e
    exact vals_not_subs xa s hd _ a h t ht
  have hns : (((subs s).map fun e => (e.1, vals xa e.2)).map (·.1)).Nodup := by
    rw [List.map_map]; exact subs_nodup s hd
  intro m
  have em : m = arrays (vals xa s) (subtrees dims ((subs s).map fun e => (e.1, vals xa e.2))) := by
    show load _ _ = _
    unfold load
    simp only [hi]
  rw [em]
  refine ⟨?_, ?_, ?_⟩
  · apply distinct_arrays _ _ hk (vals_nodup xa s hd)
    have : ∀ (ch : List (String × Dataset A)), (ch.map (·.1)).Nodup →
        (∀ n d, (n, d) ∈ ch → ((items dims d).map (·.1)).Nodup) → Distinct (subtrees dims ch) := by
      intro ch
      induction ch with
      | nil => intro _ _; trivial
      | cons e ch ih =>
        intro h1 h2
        obtain ⟨n, d⟩ := e
        rw [List.map_cons, List.nodup_cons] at h1
        refine ⟨by rw [keys_subtrees]; exact h1.1, ?_, ih h1.2 (fun n d h => h2 n d (List.mem_cons_of_mem _ h))⟩
        exact distinct_arrays _ _ (fun _ _ _ => by simp [keys]) (h2 n d List.mem_cons_self) trivial
    exact this _ hns hnd2
  · intro p hp
    rw [isDict_arrays _ _ hk] at hp
    obtain ⟨n, d, h1, rfl⟩ := isDict_subtrees dims _ p hp
    obtain ⟨⟨n', t⟩, ht, e⟩ := List.mem_map.mp h1
    cases e
    exact (mem_subs s hd _ t ht).2.1
  · intro p b
    cases p with
    | nil => simp [given_nil, value_nil]
    | cons x q =>
      rw [given_arrays _ _ hk (vals_nodup xa s hd), given_subtrees _ _ hns hnd2]
      constructor
      · rintro (⟨rfl, a, ha, rfl⟩ | ⟨d, y, a, h1, rfl, h2, rfl⟩)
        · obtain ⟨f, h1, rfl⟩ := (mem_vals xa s hd x a).mp ha
          exact ⟨f, h1, rfl⟩
        · obtain ⟨⟨n', t⟩, ht, e⟩ := List.mem_map.mp h1
          cases e
          rw [hi2 _ t ht] at h2
          obtain ⟨k1, -, -, k2⟩ := mem_subs s hd _ t ht
          obtain ⟨f, h3, rfl⟩ := (mem_vals xa t k1 y a).mp h2
          exact ⟨f, by rw [k2, h3], rfl⟩
      · rintro ⟨f, h1, rfl⟩
        rcases value_cases s x q f h1 with rfl | ⟨t, ht⟩
        · exact Or.inl ⟨rfl, xa f, (mem_vals xa s hd x _).mpr ⟨f, h1, rfl⟩, rfl⟩
        · obtain ⟨k1, -, k3, k2⟩ := mem_subs s hd x t ht
          rw [k2] at h1
          have hflat : ∀ z t', (z, t') ∉ subs t := by
            intro z t' hz
            have h5 := (mem_subs t k1 z t' hz).2.1
            have := hf (x :: [z]) ((k3 [z] (by simp)).mpr h5)
            simp at this
          cases q with
          | nil => rw [value_nil] at h1; cases h1
          | cons y r =>
            rcases value_cases t y r f h1 with rfl | ⟨t', ht'⟩
            · exact Or.inr ⟨vals xa t, y, xa f, List.mem_map.mpr ⟨_, ht, rfl⟩, rfl,
                by rw [hi2 _ t ht]; exact (mem_vals xa t k1 y _).mpr ⟨f, h1, rfl⟩, rfl⟩
            · exact absurd ht' (hflat _ _)

/-! ### the round trip -/

/-- **C96**, round trip: a state nested at most once, whose quantities agree about the sizes of dimensions, can be
written. A state of the same class whose quantities take the arrays can be updated from the file; afterwards it has, at
every path where the written state had a quantity, that quantity's array, and it is unchanged at every other path. -/
theorem C96_round_trip (xa : F → A) (dims : A → List (String × Nat)) (assign : F → A → Except SErr F) (s t : St F)
    (h : Writable xa dims s) (hn : NoCoordinates xa dims s) (hst : SameClass s t)
    (hfit : ∀ p f, value s p = some (some f) → ∃ g g', value t p = some (some g) ∧ assign g (xa f) = .ok g' ∧ xa g' = xa f)
    (p : Path) (fs : FS A) :
    (toNetcdf xa dims p s fs).2 = none ∧
    (fromNetcdf dims assign p t (toNetcdf xa dims p s fs).1).2 = none ∧
    ∀ q, (∀ f, value s q = some (some f) →
        ∃ g', value (fromNetcdf dims assign p t (toNetcdf xa dims p s fs).1).1 q = some (some g') ∧ xa g' = xa f) ∧
      ((∀ f, value s q ≠ some (some f)) → value (fromNetcdf dims assign p t (toNetcdf xa dims p s fs).1).1 q = value t q) := by
  have e := toXarray_spec xa dims s h
  obtain ⟨l1, l2, l3⟩ := load_spec xa dims s h hn
  have esave : toNetcdf xa dims p s fs = ((p, ⟨vals xa s, (subs s).map fun e => (e.1, vals xa e.2)⟩) :: fs, none) := by
    unfold toNetcdf; rw [e]
  rw [esave]
  have eload : fromNetcdf dims assign p t ((p, ⟨vals xa s, (subs s).map fun e => (e.1, vals xa e.2)⟩) :: fs) =
      ((updateCopy assign (load dims ⟨vals xa s, (subs s).map fun e => (e.1, vals xa e.2)⟩) t).1,
        (updateCopy assign (load dims ⟨vals xa s, (subs s).map fun e => (e.1, vals xa e.2)⟩) t).2.map .update) := by
    unfold fromNetcdf; simp
  simp only [eload]
  generalize load dims ⟨vals xa s, (subs s).map fun e => (e.1, vals xa e.2)⟩ = m at l1 l2 l3
  have hok : (updateCopy assign m t).2 = none := by
    refine update_succeeds _ assign m l1 t ?_ ?_ (fun q hq => ((hst q).2).mp (l2 q hq))
    · intro q a ha
      obtain ⟨f, h1, h2⟩ := (l3 q (some a)).mp ha
      cases h2
      obtain ⟨g, g', k1, k2, -⟩ := hfit q f h1
      exact ⟨g, g', k1, k2⟩
    · intro q n hq
      obtain ⟨f, -, h2⟩ := (l3 _ none).mp hq
      cases h2
  refine ⟨trivial, by rw [hok]; rfl, fun q => ⟨fun f hf => ?_, fun hnone => ?_⟩⟩
  · obtain ⟨g, g', k1, k2, k3⟩ := (update_given _ assign m l1 q t hok).1 (xa f) ((l3 q _).mpr ⟨f, hf, rfl⟩)
    obtain ⟨g0, g0', j1, j2, j3⟩ := hfit q f hf
    rw [k1] at j1
    cases j1
    rw [k2] at j2
    cases j2
    exact ⟨g', k3, j3⟩
  · have hg : given m q = none := by
      cases hgq : given m q with
      | none => rfl
      | some b =>
        obtain ⟨f, h1, -⟩ := (l3 q b).mp hgq
        exact absurd h1 (hnone f)
    refine update_other _ assign m l1 q hg ?_ t
    intro q' r _ _ hq'
    obtain ⟨f, -, h2⟩ := (l3 _ none).mp hq'
    cases h2

/-- **C96**: a state nested twice or deeper cannot be written. -/
theorem C96_depth_violated (xa : F → A) (dims : A → List (String × Nat)) (s : St F) (p : List String) (hp : isState s p)
    (hl : 2 ≤ p.length) (path : Path) (fs : FS A) :
    (toNetcdf xa dims path s fs).1 = fs ∧ (toNetcdf xa dims path s fs).2 ≠ none := by
  have h1 : ∀ (s : St F) (p : List String) (l : List (String × Entry A)), isState s p → saveRec xa dims s = .ok l →
      variables l = .error .typeError := by
    intro s
    induction s with
    | nil => intro p l h; cases p <;> exact h.elim
    | field m o v rest ih =>
      intro p l h hs
      cases p with
      | nil => exact h.elim
      | cons x q =>
        simp only [isState] at h
        split_ifs at h with hx
        cases v with
        | none => exact ih _ _ h hs
        | some f =>
          rw [saveRec] at hs
          cases hr : saveRec xa dims rest with
          | error e => rw [hr] at hs; cases hs
          | ok r =>
            rw [hr] at hs; cases hs
            rw [variables, ih _ _ h hr]; rfl
    | nested m sub rest ih1 ih2 =>
      intro p l h hs
      rw [saveRec] at hs
      cases hr : saveRec xa dims sub with
      | error e => rw [hr] at hs; cases hs
      | ok r =>
        simp only [hr] at hs
        cases hm : mkDataset dims r with
        | error e => rw [hm] at hs; cases hs
        | ok d =>
          rw [hm] at hs
          cases hr2 : saveRec xa dims rest with
          | error e => rw [hr2] at hs; cases hs
          | ok r => rw [hr2] at hs; cases hs; rfl
    | gone m sub rest ih1 ih2 => intro p l h hs; cases hs
  have h2 : ∀ (s : St F) (p : List String), isState s p → 2 ≤ p.length → ∃ e, saveRec xa dims s = .error e := by
    intro s
    induction s with
    | nil => intro p h; cases p <;> exact h.elim
    | field m o v rest ih =>
      intro p h hl
      cases p with
      | nil => exact h.elim
      | cons x q =>
        simp only [isState] at h
        split_ifs at h with hx
        obtain ⟨e, he⟩ := ih _ h hl
        cases v with
        | none => exact ⟨e, he⟩
        | some f => exact ⟨e, by rw [saveRec, he]; rfl⟩
    | nested m sub rest ih1 ih2 =>
      intro p h hl
      cases p with
      | nil => exact h.elim
      | cons x q =>
        rw [saveRec]
        simp only [isState] at h
        cases hr : saveRec xa dims sub with
        | error e => exact ⟨e, rfl⟩
        | ok r =>
          simp only
          by_cases hx : x = m
          · rw [if_pos hx] at h
            rcases h with h | h
            · subst h; simp at hl
            · unfold mkDataset
              rw [h1 sub q r h hr]
              exact ⟨_, rfl⟩
          · rw [if_neg hx] at h
            obtain ⟨e, he⟩ := ih2 _ h hl
            cases hm : mkDataset dims r with
            | error e => exact ⟨e, rfl⟩
            | ok d => exact ⟨e, by rw [he]; rfl⟩
    | gone m sub rest ih1 ih2 => intro p h hl; exact ⟨_, rfl⟩
  obtain ⟨e, he⟩ := h2 s p hp hl
  unfold toNetcdf toXarray
  simp [he]

/-! ### names of files -/

theorem digits_digit {n : Nat} {x : Char} (h : x ∈ Nat.toDigits 10 n) : x.isDigit = true :=
  Nat.isDigit_of_mem_toDigits (by decide) (by decide) h

theorem digits_inj {n m : Nat} (h : Nat.toDigits 10 n = Nat.toDigits 10 m) : n = m := by
  rw [← Nat.ofDigitChars_ten_toDigits (n := n), h, Nat.ofDigitChars_ten_toDigits]

/-- Digits at the end after something that is not one. -/
theorem split_end {a a' b b' : List Char} {x : Char} (hx : x.isDigit = false)
    (hb : ∀ c ∈ b, c.isDigit = true) (hb' : ∀ c ∈ b', c.isDigit = true)
    (h : a ++ x :: b = a' ++ x :: b') : a = a' ∧ b = b' := by
  induction a generalizing a' with
  | nil =>
    cases a' with
    | nil => exact ⟨rfl, (List.cons.inj h).2⟩
    | cons y a' =>
      rw [List.nil_append, List.cons_append, List.cons.injEq] at h
      have : x ∈ b := by rw [h.2]; simp
      rw [hb x this] at hx; cases hx
  | cons y a ih =>
    cases a' with
    | nil =>
      rw [List.nil_append, List.cons_append, List.cons.injEq] at h
      have : x ∈ b' := by rw [← h.2]; simp
      rw [hb' x this] at hx; cases hx
    | cons z a' =>
      rw [List.cons_append, List.cons_append, List.cons.injEq] at h
      obtain ⟨e1, e2⟩ := ih h.2
      exact ⟨by rw [h.1, e1], e2⟩

/-- Digits at the beginning before something that does not begin with one. -/
theorem split_begin {a a' b b' : List Char} (ha : ∀ c ∈ a, c.isDigit = true) (ha' : ∀ c ∈ a', c.isDigit = true)
    (hb : ∀ c, b.head? = some c → c.isDigit = false) (hb' : ∀ c, b'.head? = some c → c.isDigit = false)
    (h : a ++ b = a' ++ b') : a = a' ∧ b = b' := by
  induction a generalizing a' with
  | nil =>
    cases a' with
    | nil => exact ⟨rfl, h⟩
    | cons y a' =>
      have := hb y (by rw [List.nil_append] at h; rw [h]; rfl)
      rw [ha' y List.mem_cons_self] at this; cases this
  | cons y a ih =>
    cases a' with
    | nil =>
      have := hb' y (by rw [List.nil_append] at h; rw [← h]; rfl)
      rw [ha y List.mem_cons_self] at this; cases this
    | cons z a' =>
      rw [List.cons_append, List.cons_append, List.cons.injEq] at h
      obtain ⟨e1, e2⟩ := ih (fun c hc => ha c (List.mem_cons_of_mem _ hc)) (fun c hc => ha' c (List.mem_cons_of_mem _ hc)) h.2
      exact ⟨by rw [h.1, e1], e2⟩

/-- **C96**, names: with the same postfix, different ranks, classes or directories have different files. -/
theorem C96_names (size r r' : Nat) (hr : r < size) (hr' : r' < size) (dir dir' : String) (cls cls' post : List Char)
    (h : netcdfName size r dir cls post = netcdfName size r' dir' cls' post) : r = r' ∧ dir = dir' ∧ cls = cls' := by
  unfold netcdfName at h
  simp only [Prod.mk.injEq] at h
  obtain ⟨hd, h⟩ := h
  have h := List.append_cancel_right (List.append_cancel_right h)
  by_cases hs : size > 1
  · rw [if_pos hs, if_pos hs] at h
    have e : ∀ (c d : List Char), c ++ ("_rank".toList ++ d) = (c ++ "_ran".toList) ++ 'k' :: d := by
      intro c d
      rw [show "_rank".toList = "_ran".toList ++ ['k'] from rfl]
      simp only [List.append_assoc, List.singleton_append]
    rw [e, e] at h
    obtain ⟨h1, h2⟩ := split_end (by decide) (fun c hc => digits_digit hc) (fun c hc => digits_digit hc) h
    exact ⟨digits_inj h2, hd, List.append_cancel_right h1⟩
  · rw [if_neg hs, if_neg hs, List.append_nil, List.append_nil] at h
    exact ⟨by omega, hd, h⟩

/-- **C96**, names: for the same class, different ranks, directories or postfixes that do not begin with a digit have
different files. -/
theorem C96_names_postfix (size r r' : Nat) (hr : r < size) (hr' : r' < size) (dir dir' : String) (cls post post' : List Char)
    (hp : ∀ c, post.head? = some c → c.isDigit = false) (hp' : ∀ c, post'.head? = some c → c.isDigit = false)
    (h : netcdfName size r dir cls post = netcdfName size r' dir' cls post') : r = r' ∧ dir = dir' ∧ post = post' := by
  unfold netcdfName at h
  simp only [Prod.mk.injEq] at h
  obtain ⟨hd, h⟩ := h
  have h := List.append_cancel_right h
  rw [List.append_assoc, List.append_assoc] at h
  have h := List.append_cancel_left h
  by_cases hs : size > 1
  · rw [if_pos hs, if_pos hs, List.append_assoc, List.append_assoc] at h
    have h := List.append_cancel_left h
    obtain ⟨h1, h2⟩ := split_begin (fun c hc => digits_digit hc) (fun c hc => digits_digit hc) hp hp' h
    exact ⟨digits_inj h1, hd, h2⟩
  · rw [if_neg hs, if_neg hs] at h
    exact ⟨by omega, hd, h⟩

/-- **C96** fails for postfixes that begin with a digit: rank 1 with postfix `0` and rank 10 without one use the same
file. -/
theorem C96_names_violated : netcdfName 12 1 "." "S".toList "0".toList = netcdfName 12 10 "." "S".toList [] := by
  decide +kernel

/-- What the file system holds after a history. -/
theorem lookup_saves (xa : F → A) (dims : A → List (String × Nat)) (size : Nat) (p : Path) (l : List (Save F)) (fs : FS A)
    (hw : ∀ v ∈ l, Writable xa dims v.state) :
    (saves xa dims size l fs).lookup p =
      match l.reverse.find? (fun v => netcdfName size v.rank v.dir v.cls v.post == p) with
      | some v => some ⟨vals xa v.state, (subs v.state).map fun e => (e.1, vals xa e.2)⟩
      | none => fs.lookup p := by
  induction l generalizing fs with
  | nil => rfl
  | cons v l ih =>
    rw [saves, ih _ (fun w hw' => hw w (List.mem_cons_of_mem _ hw')), List.reverse_cons, List.find?_append]
    cases hf : l.reverse.find? (fun v => netcdfName size v.rank v.dir v.cls v.post == p) with
    | some w => rfl
    | none =>
      have e := toXarray_spec xa dims v.state (hw v List.mem_cons_self)
      simp only [toNetcdf, e, Option.none_or, List.find?_singleton]
      by_cases hp : netcdfName size v.rank v.dir v.cls v.post = p
      · subst hp; simp
      · have hp' : ¬ (p = netcdfName size v.rank v.dir v.cls v.post) := fun e => hp e.symm
        rw [if_neg (by simpa using hp)]
        have hb : (p == netcdfName size v.rank v.dir v.cls v.post) = false := by simpa using hp'
        simp only [List.lookup, hb]

/-- **C96**, histories: however many ranks save states of whichever classes, in whichever directories and in whichever
order, with one postfix (or of one class, with postfixes that do not begin with a digit), reading gets the state which
the same rank last saved for that class in that directory with that postfix. -/
theorem C96_history (xa : F → A) (dims : A → List (String × Nat)) (assign : F → A → Except SErr F) (size : Nat)
    (l : List (Save F)) (hw : ∀ v ∈ l, Writable xa dims v.state) (hr : ∀ v ∈ l, v.rank < size)
    (r : Nat) (hr' : r < size) (dir : String) (cls post : List Char)
    (hp : (∀ v ∈ l, v.post = post) ∨ ((∀ v ∈ l, v.cls = cls) ∧ (∀ c, post.head? = some c → c.isDigit = false) ∧
      ∀ v ∈ l, ∀ c, v.post.head? = some c → c.isDigit = false))
    (t : St F) :
    fromNetcdf dims assign (netcdfName size r dir cls post) t (saves xa dims size l []) =
      match lastSaved l r dir cls post with
      | none => (t, some .fileNotFound)
      | some s => fromNetcdf dims assign (netcdfName size r dir cls post) t
          (toNetcdf xa dims (netcdfName size r dir cls post) s []).1 := by
  have key : ∀ v ∈ l, (netcdfName size v.rank v.dir v.cls v.post == netcdfName size r dir cls post) =
      (v.rank == r && v.dir == dir && v.cls == cls && v.post == post) := by
    intro v hv
    rw [Bool.eq_iff_iff]
    simp only [beq_iff_eq, Bool.and_eq_true]
    constructor
    · intro h
      rcases hp with hp | ⟨hc, hpc, hpl⟩
      · rw [hp v hv] at h
        obtain ⟨h1, h2, h3⟩ := C96_names size _ _ (hr v hv) hr' _ _ _ _ _ h
        exact ⟨⟨⟨h1, h2⟩, h3⟩, hp v hv⟩
      · rw [hc v hv] at h
        obtain ⟨h1, h2, h3⟩ := C96_names_postfix size _ _ (hr v hv) hr' _ _ _ _ _ (hpl v hv) hpc h
        exact ⟨⟨⟨h1, h2⟩, hc v hv⟩, h3⟩
    · rintro ⟨⟨⟨h1, h2⟩, h3⟩, h4⟩
      rw [h1, h2, h3, h4]
  have hfind : l.reverse.find? (fun v => netcdfName size v.rank v.dir v.cls v.post == netcdfName size r dir cls post) =
      l.reverse.find? (fun v => v.rank == r && v.dir == dir && v.cls == cls && v.post == post) := by
    have : ∀ l' : List (Save F), (∀ v ∈ l', v ∈ l) →
        l'.find? (fun v => netcdfName size v.rank v.dir v.cls v.post == netcdfName size r dir cls post) =
        l'.find? (fun v => v.rank == r && v.dir == dir && v.cls == cls && v.post == post) := by
      intro l' hl'
      induction l' with
      | nil => rfl
      | cons v l' ih =>
        rw [List.find?_cons, List.find?_cons, key v (hl' v List.mem_cons_self), ih (fun w hw => hl' w (List.mem_cons_of_mem _ hw))]
    exact this _ (fun v hv => List.mem_reverse.mp hv)
  unfold fromNetcdf lastSaved
  rw [lookup_saves xa dims size _ l [] hw, hfind]
  cases hl : l.reverse.find? (fun v => v.rank == r && v.dir == dir && v.cls == cls && v.post == post) with
  | none => rfl
  | some v =>
    have hv : v ∈ l := List.mem_reverse.mp (List.mem_of_find?_eq_some hl)
    simp [toNetcdf, toXarray_spec xa dims v.state (hw v hv)]

/-! ### examples and witnesses -/

/-- A quantity here: its dimensions with sizes, and its array. -/
abbrev Qty := List (String × Nat) × List Int

/-- `field[:] = array` for arrays of the same shape. -/
def assignQ : Qty → Qty → Except SErr Qty := fun f a => if f.1 = a.1 then .ok (f.1, a.2) else .error .valueError

/-- A nested state with two quantities and one that is `None`. -/
def exState (v : Int) (o : Option Qty) : St Qty :=
  .field "a" false (some ([("x", 2)], [v, v + 1])) (.nested "sub" (.field "b" false (some ([("x", 2), ("z", 1)], [v, v])) .nil)
    (.field "c" true o .nil))

/-- Written and read into another state. -/
example : (fromNetcdf (fun a : Qty => a.1) assignQ (netcdfName 1 0 "." "S".toList []) (exState 7 none)
    (toNetcdf id (fun a : Qty => a.1) (netcdfName 1 0 "." "S".toList []) (exState 3 none) []).1) = (exState 3 none, none) := by
  simp [fromNetcdf, toNetcdf, exState, toXarray, saveRec, Except.map, mkDataset, variables, sizesAgree, allDims, topLevel,
    others, fromDict, load, items, arrays, subtrees, updateCopy, update, St.attr, St.setVal, St.setSub, assignQ]

/-- The hypotheses of the round trip hold for it. -/
example : Writable id (fun a : Qty => a.1) (exState 3 none) ∧ NoCoordinates id (fun a : Qty => a.1) (exState 3 none) ∧
    SameClass (exState 3 none) (exState 7 none) := by
  have hv : ∀ p f, value (exState 3 none) p = some (some f) → (p = ["a"] ∧ f = ([("x", 2)], [3, 4])) ∨
      (p = ["sub", "b"] ∧ f = ([("x", 2), ("z", 1)], [3, 3])) := by
    intro p f h
    rcases p with _ | ⟨x, _ | ⟨y, q⟩⟩
    · simp [exState, value] at h
    · simp only [exState, value] at h
      split_ifs at h <;> simp_all
    · simp only [exState, value] at h
      split_ifs at h <;> simp_all
  refine ⟨⟨by simp [exState, DistinctFields, fieldNames], by simp [exState, Whole], ?_, ?_⟩, ?_, ?_⟩
  · intro p h
    rcases p with _ | ⟨x, _ | ⟨y, q⟩⟩
    · simp
    · simp
    · simp only [exState, isState] at h
      split_ifs at h <;> simp_all
  · intro p q f g hp hq d n m hn hm
    rcases hv p f hp with ⟨rfl, rfl⟩ | ⟨rfl, rfl⟩ <;> rcases hv q g hq with ⟨rfl, rfl⟩ | ⟨rfl, rfl⟩ <;> simp at hn hm <;> grind
  · intro p n f h
    rcases hv _ f h with ⟨h1, rfl⟩ | ⟨h1, rfl⟩
    · have : n = "a" := by
        have := congrArg List.getLast? h1
        simpa using this
      subst this; simp
    · simp
  · intro p
    constructor
    · rcases p with _ | ⟨x, q⟩
      · rfl
      · cases q <;> simp only [exState, declared]
    · rcases p with _ | ⟨x, q⟩
      · rfl
      · cases q <;> simp only [exState, isState]

/-- **C96** fails for `None`: a field that was `None` when the state was written keeps the value of the state into which
the file is read. -/
theorem C96_none_violated :
    value (exState 3 none) ["c"] = some none ∧
    value (fromNetcdf (fun a : Qty => a.1) assignQ (netcdfName 1 0 "." "S".toList []) (exState 7 (some ([("x", 2)], [9, 9])))
      (toNetcdf id (fun a : Qty => a.1) (netcdfName 1 0 "." "S".toList []) (exState 3 none) []).1).1 ["c"] =
      some (some ([("x", 2)], [9, 9])) := by
  constructor
  · simp [exState, value]
  · simp [fromNetcdf, toNetcdf, exState, toXarray, saveRec, Except.map, mkDataset, variables, sizesAgree, allDims, topLevel,
      others, fromDict, load, items, arrays, subtrees, updateCopy, update, St.attr, St.setVal, St.setSub, assignQ, value]

/-- **C96** fails for a field that has the name of its dimension: it is written, and not read. -/
theorem C96_coordinate_violated :
    fromNetcdf (fun a : Qty => a.1) assignQ (netcdfName 1 0 "." "S".toList []) (.field "x" false (some ([("x", 2)], [0, 0])) .nil)
      (toNetcdf id (fun a : Qty => a.1) (netcdfName 1 0 "." "S".toList [])
        (.field "x" false (some ([("x", 2)], [5, 6])) .nil) []).1 =
    (.field "x" false (some ([("x", 2)], [0, 0])) .nil, none) := by
  simp [fromNetcdf, toNetcdf, toXarray, saveRec, Except.map, mkDataset, variables, sizesAgree, allDims, topLevel,
    others, fromDict, load, items, arrays, subtrees, updateCopy, update]

end NDSL.StateFiles
