import Mathlib.Tactic.NormNum
import Verif.Spec.Temporaries
/-! C122: snapshots of temporaries and their comparison. -/
namespace NDSL.Temporaries

open NDSL.Storage

/-! ### What is copied -/

theorem isPart_iff (a : List Char) : ∀ b, isPart a b = true ↔ a <:+: b
  | [] => by simp [isPart]
  | c :: b => by
    rw [isPart, Bool.or_eq_true, isPart_iff a b, List.isPrefixOf_iff_prefix, List.infix_cons_iff]

theorem package_spec (m : List Char) : ∃ rest, m = package m ++ rest ∧ '.' ∉ package m ∧ (rest = [] ∨ ∃ r, rest = '.' :: r) := by
  induction m with
  | nil => exact ⟨[], rfl, by simp [package], Or.inl rfl⟩
  | cons c m ih =>
    obtain ⟨rest, h1, h2, h3⟩ := ih
    by_cases hc : c = '.'
    · subst hc
      exact ⟨'.' :: m, by simp [package], by simp [package], Or.inr ⟨m, rfl⟩⟩
    · have hp : package (c :: m) = c :: package m := by
        unfold package
        rw [List.takeWhile_cons]
        simp [hc]
      rw [hp]
      exact ⟨rest, by rw [List.cons_append, ← h1], by simp [h2, Ne.symm hc], h3⟩

theorem package_unique (m pkg rest : List Char) (h1 : m = pkg ++ rest) (h2 : '.' ∉ pkg) (h3 : rest = [] ∨ ∃ r, rest = '.' :: r) :
    package m = pkg := by
  subst h1
  induction pkg with
  | nil =>
    rcases h3 with rfl | ⟨r, rfl⟩ <;> simp [package]
  | cons c pkg ih =>
    have hc : c ≠ '.' := fun h => h2 (by simp [h])
    unfold package
    rw [List.cons_append, List.takeWhile_cons]
    simp only [bne_iff_ne, ne_eq, hc, not_false_eq_true, if_true]
    exact congrArg _ (ih (fun h => h2 (List.mem_cons_of_mem _ h)))

theorem looksInto_iff (m : String) : looksInto m = true ↔ InPackage m := by
  unfold looksInto InPackage
  rw [isPart_iff]
  obtain ⟨rest, h1, h2, h3⟩ := package_spec m.toList
  constructor
  · intro h; exact ⟨_, rest, h1, h2, h3, h⟩
  · rintro ⟨pkg, rest', e1, e2, e3, e4⟩
    rw [package_unique _ _ _ e1 e2 e3]; exact e4

theorem isDunder_iff (n : String) : isDunder n.toList = true ↔ "__".toList <+: n.toList := by
  unfold isDunder
  rw [List.isPrefixOf_iff_prefix]; rfl

/-- What an attribute becomes. -/
def kept (w : World) (sub : Option (Nat → Dict)) : Attr → Option Snap
  | .quantity m => some (.arr (w.mem m))
  | .missing => none
  | .object id => if looksInto (w.node id).module then
      (match sub with
      | none => none
      | some f => match f id with
        | .nil => none
        | d => some (.sub d)) else none

theorem entry_eq (w : World) (sub : Option (Nat → Dict)) (name : String) (attr : Attr) (rest : Dict) :
    entry w sub name attr rest = match kept w sub attr with
      | none => rest
      | some v => .cons name v rest := by
  unfold entry kept
  cases attr with
  | quantity m => rfl
  | missing => rfl
  | object id =>
    simp only
    by_cases h : looksInto (w.node id).module = true
    · rw [if_pos h, if_pos h]
      cases sub with
      | none => rfl
      | some f =>
        simp only
        cases f id <;> rfl
    · rw [if_neg h, if_neg h]

theorem entries_names (w : World) (sub : Option (Nat → Dict)) (l : List (String × Attr)) (n : String) (h : n ∈ (entries w sub l).names) :
    n ∈ l.map (·.1) := by
  induction l with
  | nil => cases h
  | cons x l ih =>
    obtain ⟨name, attr⟩ := x
    unfold entries at h
    by_cases hd : isDunder name.toList = true
    · rw [if_pos hd] at h
      exact List.mem_cons_of_mem _ (ih h)
    · rw [if_neg hd, entry_eq] at h
      cases hk : kept w sub attr with
      | none => rw [hk] at h; exact List.mem_cons_of_mem _ (ih h)
      | some v =>
        rw [hk] at h
        rcases List.mem_cons.1 h with rfl | h
        · exact List.mem_cons_self
        · exact List.mem_cons_of_mem _ (ih h)

theorem get_none {d : Dict} {n : String} (h : n ∉ d.names) : d.get n = none :=
  match d, h with
  | .nil, _ => rfl
  | .cons m v rest, h => by
    unfold Dict.get
    rw [if_neg (fun e => h (by rw [e]; exact List.mem_cons_self))]
    exact get_none (fun hc => h (List.mem_cons_of_mem _ hc))

theorem get_mem {d : Dict} {n : String} {v : Snap} (h : d.get n = some v) : n ∈ d.names := by
  apply Classical.byContradiction
  intro hc
  rw [get_none hc] at h; cases h

theorem entries_get (w : World) (sub : Option (Nat → Dict)) (l : List (String × Attr)) (hl : (l.map (·.1)).Nodup) (n : String) (v : Snap) :
    (entries w sub l).get n = some v ↔ ∃ attr, (n, attr) ∈ l ∧ isDunder n.toList = false ∧ kept w sub attr = some v := by
  induction l with
  | nil => simp [entries, Dict.get]
  | cons x l ih =>
    obtain ⟨name, attr⟩ := x
    rw [List.map_cons, List.nodup_cons] at hl
    have ih := ih hl.2
    have hrest : (entries w sub l).get name = none :=
      get_none (fun hc => hl.1 (entries_names w sub l name hc))
    have hmem : ∀ a, (name, a) ∉ l := fun a ha => hl.1 (List.mem_map.2 ⟨_, ha, rfl⟩)
    unfold entries
    by_cases hd : isDunder name.toList = true
    · rw [if_pos hd, ih]
      constructor
      · rintro ⟨a, h1, h2⟩; exact ⟨a, List.mem_cons_of_mem _ h1, h2⟩
      · rintro ⟨a, h1, h2, h3⟩
        rcases List.mem_cons.1 h1 with h1 | h1
        · cases h1; rw [hd] at h2; cases h2
        · exact ⟨a, h1, h2, h3⟩
    · have hd' : isDunder name.toList = false := by simpa using hd
      rw [if_neg hd, entry_eq]
      by_cases hn : name = n
      · subst hn
        cases hk : kept w sub attr with
        | none =>
          simp only
          rw [hrest]
          constructor
          · intro h; cases h
          · rintro ⟨a, h1, -, h3⟩
            rcases List.mem_cons.1 h1 with h1 | h1
            · cases h1; rw [hk] at h3; cases h3
            · exact absurd h1 (hmem a)
        | some u =>
          simp only [Dict.get, if_true]
          constructor
          · intro h; exact ⟨attr, List.mem_cons_self, hd', hk.trans h⟩
          · rintro ⟨a, h1, -, h3⟩
            rcases List.mem_cons.1 h1 with h1 | h1
            · cases h1; rw [hk] at h3; exact h3
            · exact absurd h1 (hmem a)
      · have hg : (match kept w sub attr with | none => entries w sub l | some v => Dict.cons name v (entries w sub l)).get n =
            (entries w sub l).get n := by
          cases kept w sub attr with
          | none => rfl
          | some u => simp only [Dict.get, if_neg hn]
        rw [hg, ih]
        constructor
        · rintro ⟨a, h1, h2⟩; exact ⟨a, List.mem_cons_of_mem _ h1, h2⟩
        · rintro ⟨a, h1, h2, h3⟩
          rcases List.mem_cons.1 h1 with h1 | h1
          · cases h1; exact absurd rfl hn
          · exact ⟨a, h1, h2, h3⟩

/-- C122: a snapshot has exactly the quantities that paths of at most the given number of further objects lead to, with the values they have when it is taken. -/
theorem C122_copied (w : World) (hw : ∀ id, ((w.node id).attrs.map (·.1)).Nodup) (depth id : Nat) (path : List String) (a : Arr) :
    (Snap.sub (copyTemporaries w depth id)).at path = some a ↔ ∃ m, Reach w depth id path m ∧ a = w.mem m := by
  have key : ∀ (sub : Option (Nat → Dict)) (id : Nat) (name : String) (p : List String),
      (Snap.sub (entries w sub (w.node id).attrs)).at (name :: p) = some a ↔
        ∃ attr v, (name, attr) ∈ (w.node id).attrs ∧ ¬ "__".toList <+: name.toList ∧ kept w sub attr = some v ∧ v.at p = some a := by
    intro sub id name p
    rw [Snap.at]
    constructor
    · intro h
      cases hg : (entries w sub (w.node id).attrs).get name with
      | none => rw [hg] at h; cases h
      | some v =>
        rw [hg] at h
        obtain ⟨attr, h1, h2, h3⟩ := (entries_get w sub _ (hw id) name v).1 hg
        exact ⟨attr, v, h1, (fun hc => by rw [(isDunder_iff name).2 hc] at h2; cases h2), h3, h⟩
    · rintro ⟨attr, v, h1, h2, h3, h4⟩
      rw [(entries_get w sub _ (hw id) name v).2 ⟨attr, h1, by
        cases hd : isDunder name.toList with
        | false => rfl
        | true => exact absurd ((isDunder_iff name).1 hd) h2, h3⟩]
      exact h4
  induction depth generalizing id path with
  | zero =>
    cases path with
    | nil =>
      constructor
      · intro h; simp [Snap.at] at h
      · rintro ⟨m, hr, -⟩; cases hr
    | cons name p =>
      rw [copyTemporaries, key]
      constructor
      · rintro ⟨attr, v, h1, h2, h3, h4⟩
        cases attr with
        | quantity m =>
          cases h3
          cases p with
          | nil => cases h4; exact ⟨m, .here h1 h2, rfl⟩
          | cons _ _ => simp [Snap.at] at h4
        | missing => cases h3
        | object c => simp [kept] at h3
      · rintro ⟨m, hr, rfl⟩
        cases hr with
        | here h1 h2 => exact ⟨_, _, h1, h2, rfl, by simp [Snap.at]⟩
  | succ depth ih =>
    cases path with
    | nil =>
      constructor
      · intro h; simp [Snap.at] at h
      · rintro ⟨m, hr, -⟩; cases hr
    | cons name p =>
      rw [copyTemporaries, key]
      constructor
      · rintro ⟨attr, v, h1, h2, h3, h4⟩
        cases attr with
        | quantity m =>
          cases h3
          cases p with
          | nil => cases h4; exact ⟨m, .here h1 h2, rfl⟩
          | cons _ _ => simp [Snap.at] at h4
        | missing => cases h3
        | object c =>
          unfold kept at h3
          by_cases hl : looksInto (w.node c).module = true
          · simp only [hl, if_true] at h3
            have : v = .sub (copyTemporaries w depth c) := by
              split at h3
              · cases h3
              · cases h3; rfl
            subst this
            obtain ⟨m, hr, e⟩ := (ih c p).1 h4
            exact ⟨m, .step h1 h2 ((looksInto_iff _).1 hl) hr, e⟩
          · simp [hl] at h3
      · rintro ⟨m, hr, rfl⟩
        cases hr with
        | here h1 h2 => exact ⟨_, _, h1, h2, rfl, by simp [Snap.at]⟩
        | step h1 h2 h3 h4 =>
          rename_i c
          have hat := (ih c p).2 ⟨m, h4, rfl⟩
          refine ⟨_, .sub (copyTemporaries w depth c), h1, h2, ?_, hat⟩
          unfold kept
          simp only [(looksInto_iff _).2 h3, if_true]
          split
          · rename_i he
            rw [he] at hat
            cases p <;> simp [Snap.at, Dict.get] at hat
          · rfl

theorem entries_full (w : World) (sub : Option (Nat → Dict)) (hs : ∀ f, sub = some f → ∀ id, (f id).Full) (l : List (String × Attr))
    (hl : (l.map (·.1)).Nodup) : (entries w sub l).Full := by
  induction l with
  | nil => trivial
  | cons x l ih =>
    obtain ⟨name, attr⟩ := x
    rw [List.map_cons, List.nodup_cons] at hl
    unfold entries
    split
    · exact ih hl.2
    · rw [entry_eq]
      cases hk : kept w sub attr with
      | none => exact ih hl.2
      | some v =>
        refine ⟨fun hc => hl.1 (entries_names w sub l name hc), ?_, ih hl.2⟩
        cases attr with
        | quantity m => cases hk; trivial
        | missing => cases hk
        | object c =>
          unfold kept at hk
          simp only at hk
          split at hk
          · cases sub with
            | none => cases hk
            | some f =>
              simp only at hk
              have hf := hs f rfl c
              cases hfc : f c with
              | nil => rw [hfc] at hk; cases hk
              | cons n u r =>
                rw [hfc] at hk hf
                cases hk
                exact ⟨by simp [Dict.names], hf⟩
          · cases hk

/-- Snapshots have distinct names and no empty dictionaries inside. -/
theorem C122_full (w : World) (hw : ∀ id, ((w.node id).attrs.map (·.1)).Nodup) (depth id : Nat) : (copyTemporaries w depth id).Full := by
  induction depth generalizing id with
  | zero => exact entries_full w none (fun f h => by cases h) _ (hw id)
  | succ depth ih => exact entries_full w _ (fun f h id => by cases h; exact ih id) _ (hw id)

/-! ### Comparison -/

theorem item_get (d : Dict) (n : String) : d.item n = match d.get n with
    | some v => .ok v
    | none => .error .keyError :=
  match d with
  | .nil => rfl
  | .cons m v rest => by
    unfold Dict.item Dict.get
    split
    · rfl
    · exact item_get rest n

theorem at_cons (m : String) (v : Snap) (rest : Dict) (n : String) (p : List String) :
    (Snap.sub (.cons m v rest)).at (n :: p) = if m = n then v.at p else (Snap.sub rest).at (n :: p) := by
  rw [Snap.at, Dict.get]
  by_cases h : m = n
  · rw [if_pos h, if_pos h]
  · rw [if_neg h, if_neg h, Snap.at]

mutual
theorem full_path : ∀ (v : Snap), v.Full → ∃ p a, v.at p = some a
  | .arr a, _ => ⟨[], a, by simp [Snap.at]⟩
  | .sub d, h => by
    obtain ⟨n, p, a, hp⟩ := full_dict_path d h.2 h.1
    exact ⟨_, _, hp⟩
theorem full_dict_path : ∀ (d : Dict), d.Full → d.names ≠ [] → ∃ n p a, (Snap.sub d).at (n :: p) = some a
  | .nil, _, h => absurd rfl h
  | .cons n v rest, h, _ => by
    obtain ⟨p, a, hp⟩ := full_path v h.2.1
    exact ⟨n, p, a, by rw [at_cons, if_pos rfl]; exact hp⟩
end

/-- Paths of a dictionary with more entries. -/
theorem rest_at {n : String} {v : Snap} {rest : Dict} (h : n ∉ rest.names) {p : List String} {a : Arr}
    (hp : (Snap.sub rest).at p = some a) : (Snap.sub (.cons n v rest)).at p = some a := by
  cases p with
  | nil => simp [Snap.at] at hp
  | cons m p =>
    rw [at_cons, if_neg]
    · exact hp
    · intro e
      subst e
      rw [Snap.at, get_none h] at hp; cases hp

mutual
theorem compareSnap_spec (name : String) : ∀ (v x : Snap), v.Full →
    (∀ l, compareSnap name v x = .ok l → ∀ p, p ∈ l ↔ ∃ q a b, p = name :: q ∧ v.at q = some a ∧ x.at q = some b ∧ allClose a b = .ok false) ∧
    ((∃ l, compareSnap name v x = .ok l) ↔ ∀ q a, v.at q = some a → ∃ b r, x.at q = some b ∧ allClose a b = .ok r)
  | .arr a, .arr b, _ => by
    constructor
    · intro l h p
      unfold compareSnap at h
      cases hc : allClose a b with
      | error e => rw [hc] at h; cases h
      | ok r =>
        rw [hc] at h
        cases r with
        | true =>
          cases h
          constructor
          · intro hp; cases hp
          · rintro ⟨q, a', b', -, h2, h3, h4⟩
            cases q with
            | nil =>
              simp only [Snap.at, Option.some.injEq] at h2 h3
              subst h2; subst h3
              rw [hc] at h4; cases h4
            | cons _ _ => simp [Snap.at] at h2
        | false =>
          cases h
          constructor
          · intro hp
            have : p = [name] := by simpa using hp
            exact ⟨[], a, b, this, by simp [Snap.at], by simp [Snap.at], hc⟩
          · rintro ⟨q, a', b', rfl, h2, -, -⟩
            cases q with
            | nil => simp
            | cons _ _ => simp [Snap.at] at h2
    · constructor
      · rintro ⟨l, h⟩ q a' hq
        cases q with
        | nil =>
          simp only [Snap.at, Option.some.injEq] at hq
          subst hq
          unfold compareSnap at h
          cases hc : allClose a b with
          | error e => rw [hc] at h; cases h
          | ok r => exact ⟨b, r, by simp [Snap.at], hc⟩
        | cons _ _ => simp [Snap.at] at hq
      · intro h
        obtain ⟨b', r, h1, h2⟩ := h [] a (by simp [Snap.at])
        simp only [Snap.at, Option.some.injEq] at h1
        subst h1
        unfold compareSnap
        rw [h2]
        cases r
        · exact ⟨_, rfl⟩
        · exact ⟨_, rfl⟩
  | .arr a, .sub d, _ => by
    constructor
    · intro l h; unfold compareSnap at h; cases h
    · constructor
      · rintro ⟨l, h⟩; unfold compareSnap at h; cases h
      · intro h
        obtain ⟨b, r, h1, -⟩ := h [] a (by simp [Snap.at])
        simp [Snap.at] at h1
  | .sub d, x, hv => by
    obtain ⟨i1, i2⟩ := compare_spec d x hv.2 (Or.inl hv.1)
    constructor
    · intro l h p
      unfold compareSnap at h
      cases hc : compare d x with
      | error e => rw [hc] at h; cases h
      | ok l' =>
        rw [hc] at h
        cases h
        rw [List.mem_map]
        constructor
        · rintro ⟨q, hq, rfl⟩
          obtain ⟨a, b, h1, h2, h3⟩ := (i1 l' hc q).1 hq
          exact ⟨q, a, b, rfl, h1, h2, h3⟩
        · rintro ⟨q, a, b, rfl, h1, h2, h3⟩
          exact ⟨q, (i1 l' hc q).2 ⟨a, b, h1, h2, h3⟩, rfl⟩
    · rw [← i2]
      unfold compareSnap
      cases hc : compare d x with
      | error e =>
        constructor
        · rintro ⟨l, h⟩; cases h
        · rintro ⟨l, h⟩; cases h
      | ok l' => exact ⟨fun _ => ⟨_, rfl⟩, fun _ => ⟨_, rfl⟩⟩
theorem compare_spec : ∀ (d : Dict) (x : Snap), d.Full → (d.names ≠ [] ∨ ∃ e, x = .sub e) →
    (∀ l, compare d x = .ok l → ∀ p, p ∈ l ↔ ∃ a b, (Snap.sub d).at p = some a ∧ x.at p = some b ∧ allClose a b = .ok false) ∧
    ((∃ l, compare d x = .ok l) ↔ ∀ q a, (Snap.sub d).at q = some a → ∃ b r, x.at q = some b ∧ allClose a b = .ok r)
  | .nil, x, _, _ => by
    have hno : ∀ q a, (Snap.sub .nil).at q ≠ some a := by
      intro q a; cases q <;> simp [Snap.at, Dict.get]
    unfold compare
    constructor
    · intro l h p
      cases h
      constructor
      · intro hp; cases hp
      · rintro ⟨a, b, h1, -⟩; exact absurd h1 (hno p a)
    · exact ⟨fun _ q a h => absurd h (hno q a), fun _ => ⟨_, rfl⟩⟩
  | .cons n v rest, .arr b, hd, _ => by
    constructor
    · intro l h; unfold compare at h; cases h
    · constructor
      · rintro ⟨l, h⟩; unfold compare at h; cases h
      · intro h
        obtain ⟨m, p, a, hp⟩ := full_dict_path (.cons n v rest) hd (by simp [Dict.names])
        obtain ⟨b', r, h1, -⟩ := h _ _ hp
        simp [Snap.at] at h1
  | .cons n v rest, .sub e, hd, _ => by
    obtain ⟨j1, j2⟩ := compare_spec rest (.sub e) hd.2.2 (Or.inr ⟨e, rfl⟩)
    have hat : ∀ q, (Snap.sub (.cons n v rest)).at (n :: q) = v.at q := fun q => by rw [at_cons, if_pos rfl]
    cases hg : e.get n with
    | none =>
      have hi : e.item n = .error .keyError := by rw [item_get, hg]
      have hc : compare (.cons n v rest) (.sub e) = .error .keyError := by
        unfold compare; rw [hi]; rfl
      rw [hc]
      constructor
      · intro l h; cases h
      · constructor
        · rintro ⟨l, h⟩; cases h
        · intro h
          obtain ⟨p, a, hp⟩ := full_path v hd.2.1
          obtain ⟨b, r, h1, -⟩ := h (n :: p) a (by rw [hat]; exact hp)
          rw [Snap.at, hg] at h1; cases h1
    | some x =>
      have hi : e.item n = .ok x := by rw [item_get, hg]
      have hx : ∀ q, (Snap.sub e).at (n :: q) = x.at q := fun q => by rw [Snap.at, hg]
      obtain ⟨i1, i2⟩ := compareSnap_spec n v x hd.2.1
      have hc : compare (.cons n v rest) (.sub e) = (do
          let l ← compareSnap n v x
          let r ← compare rest (.sub e)
          return l ++ r) := by
        rw [compare, hi]; rfl
      rw [hc]
      constructor
      · intro l h p
        cases h1 : compareSnap n v x with
        | error err => rw [h1] at h; cases h
        | ok l1 =>
          rw [h1] at h
          cases h2 : compare rest (.sub e) with
          | error err => rw [h2] at h; cases h
          | ok l2 =>
            rw [h2] at h
            cases h
            rw [List.mem_append, i1 l1 h1 p, j1 l2 h2 p]
            constructor
            · rintro (⟨q, a, b, rfl, k1, k2, k3⟩ | ⟨a, b, k1, k2, k3⟩)
              · exact ⟨a, b, by rw [hat]; exact k1, by rw [hx]; exact k2, k3⟩
              · exact ⟨a, b, rest_at hd.1 k1, k2, k3⟩
            · rintro ⟨a, b, k1, k2, k3⟩
              cases p with
              | nil => simp [Snap.at] at k1
              | cons m q =>
                by_cases hm : n = m
                · subst hm
                  rw [hat] at k1
                  rw [hx] at k2
                  exact Or.inl ⟨q, a, b, rfl, k1, k2, k3⟩
                · rw [at_cons, if_neg hm] at k1
                  exact Or.inr ⟨a, b, k1, k2, k3⟩
      · constructor
        · rintro ⟨l, h⟩ q a hq
          cases h1 : compareSnap n v x with
          | error err => rw [h1] at h; cases h
          | ok l1 =>
            rw [h1] at h
            cases h2 : compare rest (.sub e) with
            | error err => rw [h2] at h; cases h
            | ok l2 =>
              cases q with
              | nil => simp [Snap.at] at hq
              | cons m q =>
                by_cases hm : n = m
                · subst hm
                  rw [hat] at hq
                  obtain ⟨b, r, k1, k2⟩ := i2.1 ⟨l1, h1⟩ q a hq
                  exact ⟨b, r, by rw [hx]; exact k1, k2⟩
                · rw [at_cons, if_neg hm] at hq
                  exact j2.1 ⟨l2, h2⟩ _ a hq
        · intro h
          obtain ⟨l1, h1⟩ := i2.2 (fun q a hq => by
            obtain ⟨b, r, k1, k2⟩ := h (n :: q) a (by rw [hat]; exact hq)
            exact ⟨b, r, by rw [hx] at k1; exact k1, k2⟩)
          obtain ⟨l2, h2⟩ := j2.2 (fun q a hq => h q a (rest_at hd.1 hq))
          rw [h1, h2]
          exact ⟨_, rfl⟩
end

/-- C122: comparing a snapshot with another one passes exactly when every array of the first is in the other at the same path, with values taken as equal. -/
theorem C122_same (d1 d2 : Dict) (h1 : d1.Full) :
    assertSame d1 d2 = .ok () ↔
      ∀ p a, (Snap.sub d1).at p = some a → ∃ b, (Snap.sub d2).at p = some b ∧ allClose a b = .ok true := by
  obtain ⟨c1, c2⟩ := compare_spec d1 (.sub d2) h1 (Or.inr ⟨d2, rfl⟩)
  unfold assertSame
  constructor
  · intro h p a hp
    cases hc : compare d1 (.sub d2) with
    | error e => rw [hc] at h; cases h
    | ok l =>
      rw [hc] at h
      obtain ⟨b, r, k1, k2⟩ := c2.1 ⟨l, hc⟩ p a hp
      cases r with
      | true => exact ⟨b, k1, k2⟩
      | false =>
        have hm := (c1 l hc p).2 ⟨a, b, hp, k1, k2⟩
        change (if l.length > 0 then _ else _) = _ at h
        rw [if_pos (List.length_pos_of_mem hm)] at h
        cases h
  · intro h
    obtain ⟨l, hl⟩ := c2.2 (fun q a hq => by
      obtain ⟨b, k1, k2⟩ := h q a hq
      exact ⟨b, true, k1, k2⟩)
    have : l = [] := by
      rw [List.eq_nil_iff_forall_not_mem]
      intro p hp
      obtain ⟨a, b, k1, k2, k3⟩ := (c1 l hl p).1 hp
      obtain ⟨b', k4, k5⟩ := h p a k1
      rw [k2] at k4
      cases k4
      rw [k3] at k5; cases k5
    rw [hl, this]; rfl

/-- C122: what is reported is exactly the paths whose arrays differ. -/
theorem C122_reported (d1 d2 : Dict) (h1 : d1.Full) (l : List (List String)) (hl : compare d1 (.sub d2) = .ok l) (p : List String) :
    p ∈ l ↔ ∃ a b, (Snap.sub d1).at p = some a ∧ (Snap.sub d2).at p = some b ∧ allClose a b = .ok false :=
  (compare_spec d1 (.sub d2) h1 (Or.inr ⟨d2, rfl⟩)).1 l hl p

theorem near_iff (x y : Num) : isClose x y = true ↔ Near x y := by
  unfold Near
  cases x with
  | fin a =>
    cases y with
    | fin b =>
      simp only [isClose, decide_eq_true_eq, reduceCtorEq, false_and, exists_const, false_or, Num.fin.injEq]
      constructor
      · intro h; exact ⟨a, b, rfl, rfl, by norm_num at h ⊢; exact h⟩
      · rintro ⟨a', b', rfl, rfl, h⟩; norm_num at h ⊢; exact h
    | inf s => simp [isClose]
    | nan => simp [isClose]
  | inf s =>
    cases y with
    | fin b => simp [isClose]
    | inf t =>
      simp only [isClose, beq_iff_eq]
      constructor
      · rintro rfl; exact Or.inr (Or.inl ⟨s, rfl, rfl⟩)
      · rintro (⟨h, _⟩ | ⟨u, h1, h2⟩ | ⟨_, _, h, _⟩)
        · cases h
        · cases h1; cases h2; rfl
        · cases h
    | nan => simp [isClose]
  | nan => cases y <;> simp [isClose]

theorem stretch_self : ∀ s, stretch s s = some s
  | [] => rfl
  | n :: s => by simp [stretch, stretch_self s]

theorem mem_indices : ∀ (s idx : List Nat), idx ∈ indices s ↔ isIndex s idx
  | [], [] => by simp [indices, isIndex]
  | [], _ :: _ => by simp [indices, isIndex]
  | n :: s, [] => by simp [indices, isIndex]
  | n :: s, i :: idx => by
    simp only [indices, List.mem_flatMap, List.mem_range, List.mem_map, List.cons.injEq, isIndex]
    constructor
    · rintro ⟨k, hk, x, hx, rfl, rfl⟩; exact ⟨hk, (mem_indices s x).1 hx⟩
    · rintro ⟨hi, h⟩; exact ⟨i, hi, idx, (mem_indices s idx).2 h, rfl, rfl⟩

theorem pick_self : ∀ (s idx : List Nat), isIndex s idx → pick s idx = idx
  | [], [], _ => rfl
  | n :: s, i :: idx, h => by
    have := h.1
    rw [pick, pick_self s idx h.2]
    congr 1
    split <;> omega
  | [], _ :: _, h => by cases h
  | _ :: _, [], h => by cases h

theorem isIndex_append : ∀ (s t i j : List Nat), s.length = i.length → (isIndex (s ++ t) (i ++ j) ↔ isIndex s i ∧ isIndex t j)
  | [], t, [], j, _ => by simp [isIndex]
  | n :: s, t, a :: i, j, h => by
    have := isIndex_append s t i j (by simpa using h)
    simp only [List.cons_append, isIndex, this, and_assoc]
  | [], _, _ :: _, _, h => by cases h
  | _ :: _, _, [], _, h => by cases h

theorem isIndex_len : ∀ (s i : List Nat), isIndex s i → s.length = i.length
  | [], [], _ => rfl
  | n :: s, a :: i, h => by simp [isIndex_len s i h.2]
  | [], _ :: _, h => by cases h
  | _ :: _, [], h => by cases h

theorem isIndex_reverse : ∀ (s i : List Nat), isIndex s i → isIndex s.reverse i.reverse
  | [], [], _ => trivial
  | n :: s, a :: i, h => by
    rw [List.reverse_cons, List.reverse_cons, isIndex_append]
    · exact ⟨isIndex_reverse s i h.2, h.1, trivial⟩
    · simp [isIndex_len s i h.2]
  | [], _ :: _, h => by cases h
  | _ :: _, [], h => by cases h

/-- C122: arrays of the same shape are taken as equal exactly when all their numbers are: both NaN, the same infinity, or within `1e-8` plus `1e-5` of the second. -/
theorem C122_close (a b : Arr) (h : a.shape = b.shape) :
    (allClose a b = .ok true ↔ ∀ idx, isIndex a.shape idx → Near (a.get idx) (b.get idx)) ∧ (∃ r, allClose a b = .ok r) := by
  unfold allClose
  rw [← h, stretch_self]
  refine ⟨?_, _, rfl⟩
  simp only [Except.ok.injEq, List.all_eq_true]
  constructor
  · intro hall idx hidx
    have := hall idx.reverse ((mem_indices _ _).2 (isIndex_reverse _ _ hidx))
    rw [pick_self _ _ (isIndex_reverse _ _ hidx), List.reverse_reverse] at this
    exact (near_iff _ _).1 this
  · intro hall idx hidx
    have hi := (mem_indices _ _).1 hidx
    rw [pick_self _ _ hi]
    have := isIndex_reverse _ _ hi
    rw [List.reverse_reverse] at this
    exact (near_iff _ _).2 (hall _ this)

theorem near_self (x : Num) : Near x x := by
  cases x with
  | fin a => exact Or.inr (Or.inr ⟨a, a, rfl, rfl, by rw [sub_self, abs_zero]; positivity⟩)
  | inf s => exact Or.inr (Or.inl ⟨s, rfl, rfl⟩)
  | nan => exact Or.inl ⟨rfl, rfl⟩

/-- C122: a snapshot is the same as itself, whatever NaN and infinities it has: two snapshots between which nothing was written agree. -/
theorem C122_unchanged (w w' : World) (hw : ∀ id, ((w.node id).attrs.map (·.1)).Nodup) (hn : w'.node = w.node) (depth id : Nat)
    (hm : ∀ path m, Reach w depth id path m → w'.mem m = w.mem m) :
    assertSame (copyTemporaries w depth id) (copyTemporaries w' depth id) = .ok () := by
  rw [C122_same _ _ (C122_full w hw depth id)]
  have hreach : ∀ depth id p m, Reach w depth id p m → Reach w' depth id p m := by
    clear hm
    intro depth id p m h
    induction h with
    | here h1 h2 => exact .here (by rw [hn]; exact h1) h2
    | step h1 h2 h3 _ ih => exact .step (by rw [hn]; exact h1) h2 (by rw [hn]; exact h3) ih
  intro p a hp
  obtain ⟨m, hr, rfl⟩ := (C122_copied w hw depth id p a).1 hp
  refine ⟨w.mem m, (C122_copied w' (by rw [hn]; exact hw) depth id p _).2 ⟨m, hreach _ _ _ _ hr, (hm p m hr).symm⟩, ?_⟩
  exact (C122_close _ _ rfl).1.2 fun idx _ => near_self _

/-! ### A program whose parts refer to each other -/

def flat (l : List Num) : Arr := ⟨[l.length], fun | [i] => l.getD i .nan | _ => .nan⟩

/-- Object 0 has a quantity and a part (1) that refers back to it; part 2 is of another package. -/
def ring (x : Num) : World where
  node
    | 0 => ⟨"pyFV3.stencils.dyn", [("__q", .quantity 0), ("_tmp", .quantity 0), ("gone", .missing), ("other", .object 2), ("part", .object 1)]⟩
    | 1 => ⟨"pyFV3.stencils.c_sw", [("owner", .object 0), ("work", .quantity 1)]⟩
    | _ => ⟨"ndsl.stencils.corners", [("hidden", .quantity 2)]⟩
  mem
    | 0 => flat [.fin 1, .nan]
    | _ => flat [x, .inf true]

theorem ring_names (x : Num) (id : Nat) : (((ring x).node id).attrs.map (·.1)).Nodup := by
  match id with
  | 0 => simp [ring]
  | 1 => simp [ring]
  | _ + 2 => simp [ring]

theorem ring_part : InPackage "pyFV3.stencils.c_sw" := ⟨"pyFV3".toList, ".stencils.c_sw".toList, by decide, by decide, Or.inr ⟨"stencils.c_sw".toList, by decide⟩, List.infix_refl _⟩

theorem ring_top : InPackage "pyFV3.stencils.dyn" := ⟨"pyFV3".toList, ".stencils.dyn".toList, by decide, by decide, Or.inr ⟨"stencils.dyn".toList, by decide⟩, List.infix_refl _⟩

-- Non-vacuity for `C122_copied`, `C122_full`, `C122_unchanged`: around the ring and back.
example (x : Num) : Reach (ring x) 1 0 ["part", "work"] 1 :=
  .step (c := 1) (by simp [ring]) (by decide) ring_part (.here (by simp [ring]) (by decide))

example (x : Num) : Reach (ring x) 2 0 ["part", "owner", "_tmp"] 0 :=
  .step (c := 1) (by simp [ring]) (by decide) ring_part (.step (c := 0) (by simp [ring]) (by decide) ring_top (.here (by simp [ring]) (by decide)))

example (x : Num) : (Snap.sub (copyTemporaries (ring x) 1 0)).at ["part", "work"] = some (flat [x, .inf true]) :=
  (C122_copied _ (ring_names x) _ _ _ _).2 ⟨1, .step (c := 1) (by simp [ring]) (by decide) ring_part (.here (by simp [ring]) (by decide)), rfl⟩

example (x : Num) : assertSame (copyTemporaries (ring x) 5 0) (copyTemporaries (ring x) 5 0) = .ok () :=
  C122_unchanged _ _ (ring_names x) rfl 5 0 fun _ _ _ => rfl

-- Non-vacuity for `C122_reported`: a changed value is named.
example : compare (copyTemporaries (ring (.fin 1)) 1 0) (.sub (copyTemporaries (ring (.fin 2)) 1 0)) = .ok [["part", "work"]] := by decide +kernel

/-- What only the second snapshot has goes unnoticed. -/
theorem C122_extra_violated : assertSame .nil (.cons "_tmp" (.arr (flat [.fin 1])) .nil) = .ok () := rfl

/-- Arrays of different shapes can be taken as equal, an empty one with any of one number. -/
theorem C122_shape_violated :
    allClose (flat [.fin 1, .fin 1, .fin 1]) (flat [.fin 1]) = .ok true ∧ allClose (flat []) (flat [.fin 1]) = .ok true ∧
      allClose (flat [.fin 1, .fin 1]) (flat [.fin 1, .fin 1, .fin 1]) = .error .valueError := by decide +kernel

/-- All numbers below `1e-8` are the same, whatever their ratio. -/
theorem C122_small_violated (x : ℚ) (h0 : 0 ≤ x) (h : x ≤ 1 / 10 ^ 8) : Near (.fin x) (.fin 0) :=
  Or.inr (Or.inr ⟨x, 0, rfl, rfl, by rw [sub_zero, abs_of_nonneg h0, abs_zero, mul_zero, add_zero]; exact h⟩)

/-- Being the same depends on the order of the snapshots. -/
theorem C122_order_violated :
    allClose (flat [.fin 1]) (flat [.fin (1 + 1001005 / 100000000000)]) = .ok true ∧ allClose (flat [.fin (1 + 1001005 / 100000000000)]) (flat [.fin 1]) = .ok false := by
  decide +kernel

/-- Parts whose class is in a package called "py" or "FV3" are looked into, those of this package are not. -/
theorem C122_package_violated :
    looksInto "py.path" = true ∧ looksInto "FV3" = true ∧ looksInto "pyFV3.stencils" = true ∧ looksInto "ndsl.stencils.corners" = false := by
  decide +kernel

/-- An array missing from the second snapshot, or a dictionary there, is another exception than that for differences. -/
theorem C122_missing_violated (a : Arr) :
    assertSame (.cons "_tmp" (.arr a) .nil) .nil = .error .keyError ∧
      assertSame (.cons "_tmp" (.arr a) .nil) (.cons "_tmp" (.sub .nil) .nil) = .error .typeError := ⟨rfl, rfl⟩

end NDSL.Temporaries
