import Mathlib.Data.List.Induction
import Mathlib.Data.List.Nodup
import Verif.Spec.Restart
import Verif.Model.RestartTable
import Verif.Props.StateTransfer
import Verif.Props.Snapshots
import Verif.Props.Namelist
import Verif.Lemmas.NetCDF
/-
Property theorems C62: restart files and names.
-/
namespace NDSL.Restart

variable {V : Type}

theorem dictGet_append (a b : List (String × V)) (k : String) :
    dictGet (a ++ b) k = (dictGet a k).or (dictGet b k) := by
  unfold dictGet
  rw [List.find?_append]
  cases List.find? (fun e => decide (e.1 = k)) a <;> simp

theorem update_get (e d : List (String × V)) (k : String) :
    dictGet (update d e) k = (dictGet e.reverse k).or (dictGet d k) := by
  induction e generalizing d with
  | nil => rfl
  | cons x e ih =>
    show dictGet (update (dictSet d x.1 x.2) e) k = _
    rw [ih, List.reverse_cons, dictGet_append, dictGet_set]
    have : dictGet [x] k = if k = x.1 then some x.2 else none := by
      unfold dictGet
      by_cases h : k = x.1
      · simp [h]
      · rw [if_neg h, List.find?_cons_of_neg]
        · rfl
        · simpa using fun h' => h h'.symm
    rw [this]
    cases dictGet e.reverse k with
    | some v => rfl
    | none => by_cases h : k = x.1 <;> simp [h]

theorem last_mem {e : List (String × V)} {k : String} {v : V} (h : dictGet e.reverse k = some v) :
    (k, v) ∈ e := List.mem_reverse.1 (Snap.dictGet_some_mem h)

theorem last_of_mem {e : List (String × V)} (hn : (e.map (·.1)).Nodup) {k : String} {v : V}
    (h : (k, v) ∈ e) : dictGet e.reverse k = some v :=
  dictGet_mem (by rw [List.map_reverse]; exact List.nodup_reverse.2 hn) (List.mem_reverse.2 h)

theorem last_none {e : List (String × V)} {k : String} (h : k ∉ e.map (·.1)) :
    dictGet e.reverse k = none := by
  rw [NetCDF.dictGet_none_iff, List.map_reverse, List.mem_reverse]; exact h

theorem update_nodup (e : List (String × V)) : ∀ {d : List (String × V)}, (d.map (·.1)).Nodup →
    ((update d e).map (·.1)).Nodup := by
  induction e with
  | nil => exact fun h => h
  | cons x e ih => exact fun h => ih (Snap.nodup_dictSet _ _ _ h)

/-- the list of renamed entries -/
def known (old : List (String × V)) (m : List (String × String)) : List (String × V) :=
  m.filterMap fun e => (dictGet old e.1).map fun v => (e.2, v)

theorem mapKnown_eq (old : List (String × V)) (m : List (String × String)) :
    mapKnown old m = update [] (known old m) := by
  unfold mapKnown
  generalize ([] : List (String × V)) = d
  induction m generalizing d with
  | nil => rfl
  | cons e m ih =>
    obtain ⟨a, b⟩ := e
    rw [List.foldl_cons, ih]
    unfold known
    simp only [List.filterMap_cons]
    cases h : dictGet old a with
    | none => rfl
    | some v => rfl

/-- the list of entries kept -/
def kept (old : List (String × V)) (m : List (String × String)) : List (String × V) :=
  old.filter fun e => !(dictGet m e.1).isSome

theorem mapKeys_eq (old : List (String × V)) (m : List (String × String)) :
    mapKeys old m = update (update [] (known old m)) (kept old m) := by
  rw [← mapKnown_eq]
  unfold mapKeys
  generalize mapKnown old m = d
  have key : ∀ (l : List (String × V)) (d : List (String × V)),
      l.foldl (fun new x => if (dictGet m x.1).isSome then new else dictSet new x.1 x.2) d =
        update d (l.filter fun e => !(dictGet m e.1).isSome) := by
    intro l
    induction l with
    | nil => intro d; rfl
    | cons e l ih =>
      intro d
      rw [List.foldl_cons, ih]
      by_cases h : (dictGet m e.1).isSome = true
      · rw [if_pos h, List.filter_cons_of_neg (by simp [h])]
      · rw [if_neg h, List.filter_cons_of_pos (by simpa using h)]
        rfl
  exact key old d

theorem known_mem {old : List (String × V)} {m : List (String × String)} {s : String} {v : V} :
    (s, v) ∈ known old m ↔ ∃ r, (r, s) ∈ m ∧ dictGet old r = some v := by
  unfold known
  rw [List.mem_filterMap]
  constructor
  · rintro ⟨⟨r, s'⟩, hm, he⟩
    cases h : dictGet old r with
    | none => simp [h] at he
    | some w =>
      simp only [h, Option.map_some, Option.some.injEq, Prod.mk.injEq] at he
      exact ⟨r, he.1 ▸ hm, by rw [h, he.2]⟩
  · rintro ⟨r, hm, hv⟩
    exact ⟨(r, s), hm, by simp [hv]⟩

theorem known_nodup {old : List (String × V)} : ∀ {m : List (String × String)},
    (m.map (·.2)).Nodup → ((known old m).map (·.1)).Nodup
  | [], _ => List.nodup_nil
  | (r, s) :: m, h => by
    rw [List.map_cons, List.nodup_cons] at h
    unfold known
    rw [List.filterMap_cons]
    cases hv : dictGet old r with
    | none => exact known_nodup h.2
    | some v =>
      simp only [Option.map_some, List.map_cons, List.nodup_cons]
      refine ⟨fun hs => h.1 ?_, known_nodup h.2⟩
      obtain ⟨⟨s', w⟩, hm, rfl⟩ := List.mem_map.1 hs
      obtain ⟨r', hr', _⟩ := known_mem.1 (show (s', w) ∈ known old m from hm)
      exact List.mem_map.2 ⟨_, hr', rfl⟩

theorem kept_mem {old : List (String × V)} {m : List (String × String)} {k : String} {v : V} :
    (k, v) ∈ kept old m ↔ (k, v) ∈ old ∧ dictGet m k = none := by
  unfold kept
  rw [List.mem_filter]
  simp

theorem kept_nodup {old : List (String × V)} {m : List (String × String)}
    (h : (old.map (·.1)).Nodup) : ((kept old m).map (·.1)).Nodup :=
  List.Nodup.sublist (List.Sublist.map _ List.filter_sublist) h

theorem standardNames_append (props : List (String × Props)) (x : String × Props) :
    standardNames (props ++ [x]) = dictSet (standardNames props) x.2.restartName x.1 := by
  unfold standardNames
  rw [List.foldl_append]; rfl

theorem stands_append (props : List (String × Props)) (x : String × Props) (r s : String) :
    Stands (props ++ [x]) r s ↔
      if x.2.restartName = r then s = x.1 else Stands props r s := by
  split
  · rename_i hx
    constructor
    · rintro ⟨before, p, after, he, hp, ha⟩
      rcases List.eq_nil_or_concat' after with rfl | ⟨after', y, rfl⟩
      · have := List.append_inj_right' he rfl
        simp only [List.cons.injEq, and_true] at this
        rw [this]
      · rw [show before ++ (s, p) :: (after' ++ [y]) = (before ++ (s, p) :: after') ++ [y] by simp] at he
        have := List.append_inj_right' he rfl
        simp only [List.cons.injEq, and_true] at this
        exact absurd (this ▸ hx) (ha y (by simp))
    · rintro rfl
      exact ⟨props, x.2, [], rfl, hx, by simp⟩
  · rename_i hx
    constructor
    · rintro ⟨before, p, after, he, hp, ha⟩
      rcases List.eq_nil_or_concat' after with rfl | ⟨after', y, rfl⟩
      · have := List.append_inj_right' he rfl
        simp only [List.cons.injEq, and_true] at this
        rw [this] at hx
        exact absurd hp hx
      · rw [show before ++ (s, p) :: (after' ++ [y]) = (before ++ (s, p) :: after') ++ [y] by simp] at he
        have := List.append_inj_left' he rfl
        exact ⟨before, p, after', this, hp, fun e h => ha e (by simp [h])⟩
    · rintro ⟨before, p, after, he, hp, ha⟩
      refine ⟨before, p, after ++ [x], by rw [he]; simp, hp, fun e h => ?_⟩
      rcases List.mem_append.1 h with h | h
      · exact ha e h
      · rw [List.mem_singleton.1 h]; exact hx

theorem standard_get (props : List (String × Props)) (r s : String) :
    dictGet (standardNames props) r = some s ↔ Stands props r s := by
  induction props using List.reverseRecOn generalizing s with
  | nil =>
    constructor
    · intro h; cases h
    · rintro ⟨b, p, a, he, _⟩
      simp at he
  | append_singleton props x ih =>
    rw [standardNames_append, dictGet_set, stands_append]
    by_cases h : x.2.restartName = r
    · rw [if_pos h.symm, if_pos h, Option.some.injEq, eq_comm]
    · rw [if_neg (fun h' => h h'.symm), if_neg h, ih]

theorem standard_none (props : List (String × Props)) (r : String) :
    dictGet (standardNames props) r = none ↔ ¬ Known props r := by
  induction props using List.reverseRecOn with
  | nil => simp [Known, standardNames, dictGet]
  | append_singleton props x ih =>
    rw [standardNames_append, dictGet_set]
    by_cases h : x.2.restartName = r
    · rw [if_pos h.symm]
      simp [Known, h]
    · rw [if_neg (fun h' => h h'.symm), ih]
      simp [Known, h]

theorem standard_keys (props : List (String × Props)) :
    ((standardNames props).map (·.1)).Nodup := by
  induction props using List.reverseRecOn with
  | nil => exact List.nodup_nil
  | append_singleton props x ih =>
    rw [standardNames_append]; exact Snap.nodup_dictSet _ _ _ ih

theorem stands_mem {props : List (String × Props)} {r s : String} (h : Stands props r s) :
    ∃ p, (s, p) ∈ props ∧ p.restartName = r := by
  obtain ⟨b, p, a, he, hp, _⟩ := h
  exact ⟨p, by rw [he]; simp, hp⟩

theorem mem_unique {l : List (String × V)} (hn : (l.map (·.1)).Nodup) {k : String} {v w : V}
    (h1 : (k, v) ∈ l) (h2 : (k, w) ∈ l) : v = w := by
  have e1 := dictGet_mem hn h1
  rw [dictGet_mem hn h2] at e1
  exact (Option.some.inj e1).symm

theorem standard_values {props : List (String × Props)} (hn : (props.map (·.1)).Nodup) :
    ((standardNames props).map (·.2)).Nodup := by
  have hk := standard_keys props
  have hnd : (standardNames props).Nodup := List.Nodup.of_map _ hk
  refine List.Nodup.map_on ?_ hnd
  rintro ⟨r, s⟩ h1 ⟨r', s'⟩ h2 (rfl : s = s')
  obtain ⟨p, hp, rfl⟩ := stands_mem ((standard_get props r s).1 (dictGet_mem hk h1))
  obtain ⟨p', hp', rfl⟩ := stands_mem ((standard_get props r' s).1 (dictGet_mem hk h2))
  rw [mem_unique hn hp hp']

/-- C62: whatever the variables of the file, each one that is in the table is found under its standard
name and each one that is not is found under its own name, with its data; the result has nothing
else and no name twice. -/
theorem C62_renames (props : List (String × Props)) (hp : (props.map (·.1)).Nodup)
    (file : List (String × V)) (hf : (names file).Nodup) (hc : NoClash props file) :
    (∀ r s v, Stands props r s → (r, v) ∈ file →
      dictGet (mapKeys file (standardNames props)) s = some v) ∧
    (∀ k v, ¬ Known props k → (k, v) ∈ file →
      dictGet (mapKeys file (standardNames props)) k = some v) ∧
    (∀ k v, (k, v) ∈ mapKeys file (standardNames props) →
      (∃ r, Stands props r k ∧ (r, v) ∈ file) ∨ (¬ Known props k ∧ (k, v) ∈ file)) ∧
    (names (mapKeys file (standardNames props))).Nodup := by
  have hk := standard_keys props
  have hnd : (names (mapKeys file (standardNames props))).Nodup := by
    rw [mapKeys_eq]
    exact update_nodup _ (update_nodup _ List.nodup_nil)
  refine ⟨fun r s v hs hv => ?_, fun k v hK hv => ?_, fun k v hm => ?_, hnd⟩
  · rw [mapKeys_eq, update_get, last_none, update_get, last_of_mem (known_nodup (standard_values hp))
      (known_mem.2 ⟨r, Snap.dictGet_some_mem ((standard_get props r s).2 hs), dictGet_mem hf hv⟩)]
    · rfl
    · intro hmem
      obtain ⟨⟨k, w⟩, hkw, hkk⟩ := List.mem_map.1 hmem
      simp only at hkk
      subst hkk
      rw [kept_mem, standard_none] at hkw
      exact hkw.2 (hc r k hs (List.mem_map.2 ⟨_, hv, rfl⟩) (List.mem_map.2 ⟨_, hkw.1, rfl⟩))
  · rw [mapKeys_eq, update_get, last_of_mem (kept_nodup hf)
      (kept_mem.2 ⟨hv, (standard_none props k).2 hK⟩)]
    rfl
  · have hg := dictGet_mem hnd hm
    rw [mapKeys_eq, update_get] at hg
    cases h1 : dictGet (kept file (standardNames props)).reverse k with
    | some w =>
      rw [h1] at hg
      have hg : w = v := by simpa using hg
      obtain ⟨h2, h3⟩ := kept_mem.1 (last_mem h1)
      exact Or.inr ⟨(standard_none props k).1 h3, hg ▸ h2⟩
    | none =>
      rw [h1, Option.none_or, update_get] at hg
      cases h2 : dictGet (known file (standardNames props)).reverse k with
      | none => rw [h2] at hg; cases hg
      | some w =>
        rw [h2] at hg
        have hg : w = v := by simpa using hg
        obtain ⟨r, h3, h4⟩ := known_mem.1 (last_mem h2)
        exact Or.inl ⟨r, (standard_get props r k).1 (dictGet_mem hk h3),
          hg ▸ Snap.dictGet_some_mem h4⟩

/-- C62: with distinct restart names every entry of the table stands for its own restart name. -/
theorem C62_distinct (props : List (String × Props)) (hr : (props.map (·.2.restartName)).Nodup)
    (s : String) (p : Props) (h : (s, p) ∈ props) : Stands props p.restartName s := by
  obtain ⟨b, a, rfl⟩ := List.append_of_mem h
  refine ⟨b, p, a, rfl, rfl, fun e he heq => ?_⟩
  rw [List.map_append, List.nodup_append, List.map_cons, List.nodup_cons] at hr
  exact hr.2.1.1 (List.mem_map.2 ⟨e, he, heq⟩)

/-- C62: the standard names of the table are distinct. -/
theorem C62_table_names : (restartTable.map (·.1)).Nodup := by decide +kernel

/-- C62: and so are the restart names, apart from four fluxes. -/
theorem C62_table_restart_names :
    ((restartTable.filter fun e => ["sfcflw", "sfcfsw", "topflw", "topfsw"].contains
      e.2.restartName = false).map (·.2.restartName)).Nodup := by decide +kernel

/-- Not so for these: nine entries of the table are never loaded, whatever the file, unless it has a
variable of that very name. -/
theorem C62_shared_violated :
    ∃ lost : List String, lost.length = 9 ∧ lost.Nodup ∧ (∀ s ∈ lost, s ∈ restartTable.map (·.1)) ∧
      ∀ s ∈ lost, ∀ file : List (String × V), s ∉ names file →
        dictGet (mapKeys file (standardNames restartTable)) s = none := by
  have hv : ∀ s, s ∉ (standardNames restartTable).map (·.2) →
      ∀ file : List (String × V), s ∉ names file →
        dictGet (mapKeys file (standardNames restartTable)) s = none := by
    intro s hs file hf
    rw [mapKeys_eq, update_get, last_none, update_get, last_none]
    · rfl
    · intro h
      obtain ⟨⟨s', w⟩, h1, rfl⟩ := List.mem_map.1 h
      obtain ⟨r, h2, _⟩ := known_mem.1 h1
      exact hs (List.mem_map.2 ⟨_, h2, rfl⟩)
    · intro h
      obtain ⟨⟨s', w⟩, h1, rfl⟩ := List.mem_map.1 h
      exact hf (List.mem_map.2 ⟨_, (kept_mem.1 h1).1, rfl⟩)
  refine ⟨(restartTable.map (·.1)).filter fun s => !((standardNames restartTable).map (·.2)).contains s,
    by decide +kernel, by decide +kernel, fun s hs => (List.mem_filter.1 hs).1, fun s hs => hv s ?_⟩
  have := (List.mem_filter.1 hs).2
  simpa using this

/-- Not so either for a variable that is called like the standard name of another one: it replaces it. -/
theorem C62_clash_violated :
    dictGet (mapKeys [("T", 1), ("air_temperature", 2)] (standardNames restartTable))
      "air_temperature" = some 2 := by decide +kernel

/-- C62: a variable with at least as many dimensions as the table lists, with distinct names, keeps
its leading dimensions and gets the names of the table for the others. -/
theorem C62_dims (dims new : List Dim) (hd : dims.Nodup) (hl : new.length ≤ dims.length) :
    applyDims dims new = dims.take (dims.length - new.length) ++ new := by
  unfold applyDims
  have hlen : (dims.drop (dims.length - new.length)).length = new.length := by
    rw [List.length_drop]; omega
  have hsplit := List.take_append_drop (dims.length - new.length) dims
  generalize dims.drop (dims.length - new.length) = last at *
  generalize dims.take (dims.length - new.length) = first at *
  rw [← hsplit] at hd ⊢
  rw [List.nodup_append] at hd
  rw [List.map_append]
  congr 1
  · have : ∀ d ∈ first, renameDim (last.zip new) d = id d := by
      intro d h
      unfold renameDim
      rw [List.find?_eq_none.2]
      · rfl
      rintro ⟨a, b⟩ hab
      have := (List.of_mem_zip hab).1
      simpa using fun h' => hd.2.2 d h a this h'.symm
    rw [List.map_congr_left this, List.map_id]
  · have hd' := hd.2.1
    clear hsplit hd hl
    induction last generalizing new with
    | nil =>
      cases new with
      | nil => rfl
      | cons _ _ => simp at hlen
    | cons a last ih =>
      cases new with
      | nil => simp at hlen
      | cons b new =>
        rw [List.nodup_cons] at hd'
        simp only [List.length_cons, Nat.add_right_cancel_iff] at hlen
        have ih := ih new hlen hd'.2
        rw [List.map_cons, List.zip_cons_cons]
        congr 1
        · simp [renameDim]
        · refine Eq.trans (List.map_congr_left fun d h => ?_) ih
          unfold renameDim
          rw [List.find?_cons_of_neg]
          simp only [decide_eq_true_eq]
          intro h'
          exact hd'.1 (h' ▸ h)

/-- Not so with fewer dimensions: a horizontal field is taken to be on levels and rows. -/
theorem C62_dims_violated :
    applyDims [.other "yaxis_1", .other "xaxis_1"] [.k, .j, .i] = [.k, .j] := by decide +kernel

/-- C62: the state loaded from a file has exactly the renamed variables that are asked for and either
are in the table, with the dims and units of the table, or had units already; data is unchanged. -/
theorem C62_load {D : Type} (props : List (String × Props)) (only : Option (List String))
    (file : List (String × Var D)) (k : String) (v : Var D) :
    (k, v) ∈ loadPartial props only file ↔
      (∀ l, only = some l → k ∈ l) ∧ (k = "time" ∨ v.units ≠ none) ∧
      ∃ w, (k, w) ∈ mapKeys file (standardNames props) ∧
        (∀ p, dictGet props k = some p →
          v = ⟨applyDims w.dims p.dims, some p.units, w.data⟩) ∧
        (dictGet props k = none → v = w) := by
  unfold loadPartial applyMetadata
  simp only [List.mem_filter, List.mem_map, Prod.mk.injEq, Prod.exists]
  have hw : ∀ w : Var D, withMetadata props k w = v ↔
      (∀ p, dictGet props k = some p → v = ⟨applyDims w.dims p.dims, some p.units, w.data⟩) ∧
        (dictGet props k = none → v = w) := by
    intro w
    unfold withMetadata
    cases h : dictGet props k with
    | none => simp [eq_comm]
    | some p => simp [eq_comm]
  have h1 : ((k == "time" || v.units.isSome) && asked only k) = true ↔
      (∀ l, only = some l → k ∈ l) ∧ (k = "time" ∨ v.units ≠ none) := by
    rw [Bool.and_eq_true, and_comm]
    refine and_congr ?_ ?_
    · cases only <;> simp [asked]
    · cases v.units <;> simp
  rw [h1]
  constructor
  · rintro ⟨⟨k', w, hm, rfl, he⟩, h2, h3⟩
    exact ⟨h2, h3, w, hm, (hw w).1 he⟩
  · rintro ⟨h2, h3, w, hm, he⟩
    exact ⟨⟨k, w, hm, rfl, (hw w).2 he⟩, h2, h3⟩

/-- C62: files that provide different names are all kept in the state. -/
theorem C62_files {D : Type} (props : List (String × Props)) (only : Option (List String))
    (files : List (List (String × Var D)))
    (hn : ((files.map fun f => names (loadPartial props only f)).flatten).Nodup)
    (k : String) (v : Var D) :
    dictGet (loadFiles props only files) k = some v ↔
      ∃ f ∈ files, (k, v) ∈ loadPartial props only f := by
  have key : ∀ (fs : List (List (String × Var D))) (d : List (String × Var D)),
      fs.foldl (fun state f => update state (loadPartial props only f)) d =
        update d (fs.map (loadPartial props only)).flatten := by
    intro fs
    induction fs with
    | nil => intro d; rfl
    | cons f fs ih =>
      intro d
      rw [List.foldl_cons, ih, List.map_cons, List.flatten_cons]
      unfold update
      rw [List.foldl_append]
  unfold loadFiles
  rw [key, update_get]
  have hn' : (((files.map (loadPartial props only)).flatten).map (·.1)).Nodup := by
    rw [List.map_flatten, List.map_map]; exact hn
  have he : dictGet ([] : List (String × Var D)) k = none := rfl
  rw [he, Option.or_none]
  have hm : (k, v) ∈ (files.map (loadPartial props only)).flatten ↔
      ∃ f ∈ files, (k, v) ∈ loadPartial props only f := by simp
  rw [← hm]
  exact ⟨last_mem, last_of_mem hn'⟩

theorem append_not_digit_inj {n m : Nat} {x : Char} {b b' : List Char} (hx : x.isDigit = false)
    (h : Nat.toDigits 10 n ++ x :: b = Nat.toDigits 10 m ++ x :: b') : n = m ∧ b = b' := by
  obtain ⟨h1, h2⟩ := NetCDF.split_digits hx (fun c => NetCDF.digits_isDigit)
    (fun c => NetCDF.digits_isDigit) h
  exact ⟨by rw [← NetCDF.digits_value n, h1, NetCDF.digits_value], h2⟩

/-- C62: different ranks have different suffixes, for any number of ranks divisible by six. -/
theorem C62_suffix (total r r' : Nat) (h6 : total % 6 = 0) (hr : r < total) (hr' : r' < total) :
    (∃ s, rankSuffix r total = .ok s) ∧
      (rankSuffix r total = rankSuffix r' total → r = r') := by
  have hsuf : ∀ r, rankSuffix r total = if total > 6 then
      .ok (chars! ".tile" ++ Nat.toDigits 10 (r / (total / 6) + 1) ++ chars! ".nc." ++
        NetCDF.pad4 (r % (total / 6)))
      else .ok (chars! ".tile" ++ Nat.toDigits 10 (r / (total / 6) + 1) ++ chars! ".nc") := by
    intro r
    unfold rankSuffix
    rw [if_neg (by omega)]
  rw [hsuf, hsuf]
  by_cases ht : total > 6
  · rw [if_pos ht, if_pos ht]
    refine ⟨⟨_, rfl⟩, fun h => ?_⟩
    have h := Except.ok.inj h
    simp only [List.append_assoc] at h
    obtain ⟨h1, h2⟩ := append_not_digit_inj (x := '.') (by decide) (List.append_cancel_left h)
    have h3 : NetCDF.pad4 (r % (total / 6)) = NetCDF.pad4 (r' % (total / 6)) :=
      List.append_cancel_left (as := chars! "nc.") h2
    have h4 : r % (total / 6) = r' % (total / 6) := by
      rw [← NetCDF.pad4_value (r % (total / 6)), h3, NetCDF.pad4_value]
    have h5 : r / (total / 6) = r' / (total / 6) := by omega
    rw [← Nat.div_add_mod r (total / 6), ← Nat.div_add_mod r' (total / 6), h4, h5]
  · rw [if_neg ht, if_neg ht]
    have h1 : total = 6 := by omega
    subst h1
    refine ⟨⟨_, rfl⟩, fun h => ?_⟩
    have h := Except.ok.inj h
    simp only [List.append_assoc] at h
    obtain ⟨h1, _⟩ := append_not_digit_inj (x := '.') (by decide) (List.append_cancel_left h)
    simp only [Nat.reduceDiv, Nat.div_one] at h1
    omega

/-- C62: other rank counts are rejected. -/
theorem C62_suffix_rejects (total r : Nat) (h6 : total % 6 ≠ 0) :
    rankSuffix r total = .error .valueError := by
  unfold rankSuffix; rw [if_pos h6]

/-- C62: the three files every run writes are always read and the two others when they are there;
nothing else is read, and different tiles read different files. -/
theorem C62_filenames (present : List Char → Bool) (dir label : List Char) (tile : Nat)
    (f : List Char) :
    f ∈ restartFilenames present dir label tile ↔
      (∃ n ∈ [chars! "fv_core.res", chars! "fv_srf_wnd.res", chars! "fv_tracer.res"],
        f = restartPath dir label tile n) ∨
      (∃ n ∈ [chars! "sfc_data", chars! "phy_data"],
        f = restartPath dir label tile n ∧ present f = true) := by
  unfold restartFilenames
  rw [List.mem_filterMap]
  constructor
  · rintro ⟨n, hn, he⟩
    rw [List.mem_append] at hn
    rcases hn with hn | hn
    · left
      refine ⟨n, hn, ?_⟩
      rw [if_pos (by simp [hn])] at he
      exact (Option.some.inj he).symm
    · right
      by_cases hc : (requiredNames.contains n || present (restartPath dir label tile n)) = true
      · rw [if_pos hc] at he
        have he := Option.some.inj he
        subst he
        refine ⟨n, hn, rfl, ?_⟩
        rw [Bool.or_eq_true] at hc
        rcases hc with hc | hc
        · exfalso
          unfold optionalNames at hn
          simp only [List.mem_cons, List.not_mem_nil, or_false] at hn
          rcases hn with rfl | rfl <;> exact absurd hc (by decide)
        · exact hc
      · rw [if_neg hc] at he; cases he
  · rintro (⟨n, hn, rfl⟩ | ⟨n, hn, rfl, hp⟩)
    · have hn : n ∈ requiredNames := hn
      exact ⟨n, List.mem_append_left _ hn, by rw [if_pos (by simp [hn])]⟩
    · exact ⟨n, List.mem_append_right _ hn, by rw [if_pos (by simp [hp])]⟩

/-- C62: a file name belongs to one tile and one kind of file. -/
theorem C62_filenames_inj (dir label n n' : List Char) (t t' : Nat)
    (hn : n ∈ requiredNames ++ optionalNames) (hn' : n' ∈ requiredNames ++ optionalNames)
    (h : restartPath dir label t n = restartPath dir label t' n') : n = n' ∧ t = t' := by
  unfold restartPath prependLabel at h
  have h1 := (List.cons.inj (List.append_cancel_left h)).2
  have h2 : n ++ (chars! ".tile" ++ (Nat.toDigits 10 (t + 1) ++ chars! ".nc")) =
      n' ++ (chars! ".tile" ++ (Nat.toDigits 10 (t' + 1) ++ chars! ".nc")) := by
    by_cases hl : label.length > 0
    · rw [if_pos hl, if_pos hl, List.append_assoc, List.append_assoc] at h1
      exact (List.cons.inj (List.append_cancel_left h1)).2
    · rwa [if_neg hl, if_neg hl] at h1
  have hnn : n = n' := by
    unfold requiredNames optionalNames at hn hn'
    simp only [List.cons_append, List.nil_append, List.mem_cons, List.not_mem_nil, or_false] at hn hn'
    rcases hn with rfl | rfl | rfl | rfl | rfl <;> rcases hn' with rfl | rfl | rfl | rfl | rfl <;>
      first | rfl | (exfalso; simp at h2)
  subst hnn
  refine ⟨rfl, ?_⟩
  obtain ⟨h3, _⟩ := append_not_digit_inj (x := '.') (by decide)
    (List.append_cancel_left (List.append_cancel_left h2))
  omega

/-- a file with a known and an unknown variable -/
example : mapKeys [("T", 1), ("foo", 2)] (standardNames restartTable) =
    [("air_temperature", 1), ("foo", 2)] := by decide +kernel
example : NoClash restartTable [("T", 1), ("foo", 2)] := by
  intro r s hs hr h
  exfalso
  rw [← standard_get] at hs
  simp only [names, List.map_cons, List.map_nil, List.mem_cons, List.not_mem_nil, or_false] at hr h
  have e1 : dictGet (standardNames restartTable) "T" = some "air_temperature" := by decide +kernel
  have e2 : dictGet (standardNames restartTable) "foo" = none := by decide +kernel
  rcases hr with rfl | rfl
  · rw [e1] at hs
    have hs := Option.some.inj hs
    subst hs
    rcases h with h | h <;> exact absurd h (by decide)
  · rw [e2] at hs; cases hs
example : loadPartial restartTable none
    [("T", (⟨[.other "z", .other "y", .other "x"], none, 7⟩ : Var Nat)), ("foo", ⟨[], none, 8⟩)] =
    [("air_temperature", ⟨[.k, .j, .i], some "degK", 7⟩)] := by decide +kernel
example : rankSuffix 30 54 = .ok (chars! ".tile4.nc.0003") := by decide +kernel
example : rankSuffix 5 6 = .ok (chars! ".tile6.nc") := by decide +kernel
example : restartFilenames (fun _ => false) (chars! "d") [] 0 =
    [chars! "d/fv_core.res.tile1.nc", chars! "d/fv_srf_wnd.res.tile1.nc",
     chars! "d/fv_tracer.res.tile1.nc"] := by decide +kernel

end NDSL.Restart
