import Verif.Spec.Namelist
import Verif.Props.StateTransfer
import Mathlib.Data.List.Nodup
/-
Property theorems C60: flattening of namelists.
-/
namespace NDSL.Nml

variable {V : Type}

theorem dictGet_isSome_iff (d : List (String × V)) (k : String) :
    (dictGet d k).isSome = true ↔ k ∈ d.map Prod.fst := by
  induction d with
  | nil => simp [dictGet]
  | cons x d ih =>
    obtain ⟨a, b⟩ := x
    unfold dictGet at ih ⊢
    by_cases h : a = k
    · subst h; simp
    · simp [h, ih, Ne.symm h]

theorem dictSet_new (d : List (String × V)) (k : String) (v : V) (h : k ∉ d.map Prod.fst) :
    dictSet d k v = d ++ [(k, v)] := by
  induction d with
  | nil => rfl
  | cons x d ih =>
    obtain ⟨a, b⟩ := x
    simp only [List.map_cons, List.mem_cons, not_or] at h
    simp only [dictSet, List.cons_append]
    rw [if_neg (fun h' => h.1 h'.symm), ih h.2]

theorem sub_loop (sub : List (String × V)) : ∀ acc : List (String × V),
    mergeEntry acc ("", .inr sub) =
      if ((acc ++ sub).map Prod.fst).Nodup ∨ (sub.map Prod.fst).Nodup ∧
          ∀ k ∈ sub.map Prod.fst, k ∉ acc.map Prod.fst then .ok (acc ++ sub)
      else .error .valueError := by
  induction sub with
  | nil => intro acc; simp [mergeEntry]; rfl
  | cons x sub ih =>
    intro acc
    obtain ⟨k, v⟩ := x
    simp only [mergeEntry] at ih ⊢
    rw [List.foldlM_cons]
    by_cases h : k ∈ acc.map Prod.fst
    · rw [if_pos ((dictGet_isSome_iff acc k).2 h), if_neg]
      · rfl
      · rintro (h' | ⟨_, h'⟩)
        · rw [List.map_append, List.nodup_append] at h'
          exact h'.2.2 k h k (by simp) rfl
        · exact h' k (by simp) h
    · rw [if_neg (fun h' => h ((dictGet_isSome_iff acc k).1 h')), dictSet_new acc k v h]
      simp only [bind, Except.bind]
      rw [ih (acc ++ [(k, v)])]
      have e1 : acc ++ [(k, v)] ++ sub = acc ++ (k, v) :: sub := by simp
      rw [e1]
      congr 1
      apply propext
      constructor
      · rintro (h' | ⟨h1, h2⟩)
        · exact Or.inl h'
        · refine Or.inr ⟨?_, ?_⟩
          · simp only [List.map_cons, List.nodup_cons]
            exact ⟨fun hk => h2 k hk (by simp), h1⟩
          · intro k' hk'
            simp only [List.map_cons, List.mem_cons] at hk'
            rcases hk' with rfl | hk'
            · exact h
            · intro hc
              exact h2 k' hk' (by rw [List.map_append]; exact List.mem_append_left _ hc)
      · rintro (h' | ⟨h1, h2⟩)
        · exact Or.inl h'
        · simp only [List.map_cons, List.nodup_cons] at h1
          refine Or.inr ⟨h1.2, ?_⟩
          intro k' hk' hc
          rw [List.map_append, List.mem_append] at hc
          rcases hc with hc | hc
          · exact h2 k' (by simp [hk']) hc
          · simp only [List.map_cons, List.map_nil, List.mem_singleton] at hc
            subst hc
            exact h1.1 hk'

theorem mergeEntry_name (acc : List (String × V)) (n : String) (x : V ⊕ List (String × V)) :
    (∃ sub, x = .inr sub) → mergeEntry acc (n, x) = mergeEntry acc ("", x) := by
  rintro ⟨sub, rfl⟩; rfl

/-- C60: when no name occurs twice, whatever the groups, flattening succeeds and gives every setting
under its name, and nothing else, in order. -/
theorem C60_lossless (nml : Namelist V) (h : ((settings nml).map Prod.fst).Nodup) :
    flatten nml = .ok (settings nml) := by
  have key : ∀ nml : Namelist V, ((settings nml).map Prod.fst).Nodup →
      ∃ l, level nml = .ok l ∧ ∀ acc : List (String × V),
        (∀ k ∈ (settings nml).map Prod.fst, k ∉ acc.map Prod.fst) →
        l.foldlM mergeEntry acc = .ok (acc ++ settings nml) := by
    intro nml
    induction nml with
    | nil => intro _; exact ⟨[], rfl, fun acc _ => by simp [settings]; rfl⟩
    | setting n v rest ih =>
      intro hn
      simp only [settings, List.map_cons, List.nodup_cons] at hn
      obtain ⟨l, h1, h2⟩ := ih hn.2
      refine ⟨(n, .inl v) :: l, by simp only [level, h1, bind, Except.bind]; rfl, ?_⟩
      intro acc hacc
      simp only [settings, List.map_cons, List.mem_cons] at hacc
      rw [List.foldlM_cons]
      simp only [mergeEntry, bind, Except.bind]
      rw [dictSet_new acc n v (hacc n (Or.inl rfl)), h2]
      · simp [settings]
      · intro k hk hc
        rw [List.map_append, List.mem_append] at hc
        rcases hc with hc | hc
        · exact hacc k (Or.inr hk) hc
        · simp only [List.map_cons, List.map_nil, List.mem_singleton] at hc
          subst hc
          exact hn.1 hk
    | group n sub rest ihs ih =>
      intro hn
      simp only [settings, List.map_append] at hn
      rw [List.nodup_append] at hn
      obtain ⟨ls, s1, s2⟩ := ihs hn.1
      obtain ⟨l, h1, h2⟩ := ih hn.2.1
      have hm : merge ls = .ok (settings sub) := by
        unfold merge
        rw [s2 [] (by simp)]; simp
      refine ⟨(n, .inr (settings sub)) :: l, by simp only [level, s1, hm, h1, bind, Except.bind]; rfl, ?_⟩
      intro acc hacc
      rw [List.foldlM_cons, mergeEntry_name _ _ _ ⟨_, rfl⟩, sub_loop, if_pos]
      · simp only [bind, Except.bind]
        rw [h2]
        · simp [settings]
        · intro k hk hc
          rw [List.map_append, List.mem_append] at hc
          rcases hc with hc | hc
          · exact hacc k (by simp only [settings, List.map_append, List.mem_append]; exact Or.inr hk) hc
          · exact hn.2.2 k hc k hk rfl
      · refine Or.inr ⟨hn.1, fun k hk => hacc k ?_⟩
        simp only [settings, List.map_append, List.mem_append]; exact Or.inl hk
  obtain ⟨l, h1, h2⟩ := key nml h
  unfold flatten merge
  simp only [h1, bind, Except.bind]
  rw [h2 [] (by simp)]; simp

/-- C60: what flattening gives is made of settings of the namelist, one for every name that occurs;
when it does not succeed it raises ValueError, and some name occurs twice. -/
theorem C60_sound (nml : Namelist V) :
    (∀ d, flatten nml = .ok d → (d.map Prod.fst).Nodup ∧ (∀ x ∈ d, x ∈ settings nml) ∧
      ∀ k, k ∈ (settings nml).map Prod.fst → k ∈ d.map Prod.fst) ∧
    (∀ e, flatten nml = .error e → e = .valueError ∧ ¬ ((settings nml).map Prod.fst).Nodup) := by
  have hset : ∀ (d : List (String × V)) (k : String) (v : V), (d.map Prod.fst).Nodup →
      ((dictSet d k v).map Prod.fst).Nodup ∧ (∀ x ∈ dictSet d k v, x ∈ d ∨ x = (k, v)) ∧
      (∀ k' ∈ d.map Prod.fst, k' ∈ (dictSet d k v).map Prod.fst) ∧
      k ∈ (dictSet d k v).map Prod.fst ∧
      (∀ k' ∈ (dictSet d k v).map Prod.fst, k' ∈ d.map Prod.fst ∨ k' = k) := by
    intro d k v
    induction d with
    | nil => intro _; simp [dictSet]
    | cons x d ih =>
      obtain ⟨a, b⟩ := x
      intro hn
      simp only [List.map_cons, List.nodup_cons] at hn
      obtain ⟨i1, i2, i3, i4, i5⟩ := ih hn.2
      simp only [dictSet]
      by_cases h : a = k
      · subst h
        rw [if_pos rfl]
        refine ⟨by simpa using hn, ?_, ?_, by simp, ?_⟩
        · intro x hx
          rcases List.mem_cons.1 hx with hx | hx
          · exact Or.inr hx
          · exact Or.inl (List.mem_cons_of_mem _ hx)
        · intro k' hk'; simpa using hk'
        · intro k' hk'
          left; simpa using hk'
      · rw [if_neg h]
        refine ⟨?_, ?_, ?_, ?_, ?_⟩
        · simp only [List.map_cons, List.nodup_cons]
          refine ⟨fun hc => ?_, i1⟩
          rcases i5 a hc with hc | hc
          · exact hn.1 hc
          · exact h hc
        · intro x hx
          rcases List.mem_cons.1 hx with hx | hx
          · left; rw [hx]; simp
          · rcases i2 x hx with hx | hx
            · exact Or.inl (List.mem_cons_of_mem _ hx)
            · exact Or.inr hx
        · intro k' hk'
          simp only [List.map_cons, List.mem_cons] at hk' ⊢
          rcases hk' with hk' | hk'
          · exact Or.inl hk'
          · exact Or.inr (i3 k' hk')
        · simp only [List.map_cons, List.mem_cons]; exact Or.inr i4
        · intro k' hk'
          simp only [List.map_cons, List.mem_cons] at hk' ⊢
          rcases hk' with hk' | hk'
          · exact Or.inl (Or.inl hk')
          · rcases i5 k' hk' with h' | h'
            · exact Or.inl (Or.inr h')
            · exact Or.inr h'
  have key : ∀ nml : Namelist V,
      (∀ e, level nml = .error e → e = .valueError) ∧
      ∀ l, level nml = .ok l → ∀ acc : List (String × V), (acc.map Prod.fst).Nodup →
        (∀ d, l.foldlM mergeEntry acc = .ok d → (d.map Prod.fst).Nodup ∧
          (∀ x ∈ d, x ∈ acc ∨ x ∈ settings nml) ∧
          (∀ k, k ∈ acc.map Prod.fst ∨ k ∈ (settings nml).map Prod.fst → k ∈ d.map Prod.fst)) ∧
        (∀ e, l.foldlM mergeEntry acc = .error e → e = .valueError) := by
    intro nml
    induction nml with
    | nil =>
      refine ⟨(fun e h => by cases h), ?_⟩
      intro l hl acc hn
      have hl' := Except.ok.inj hl
      subst hl'
      refine ⟨?_, (fun e h => by cases h)⟩
      intro d hd
      have hd' := Except.ok.inj hd
      subst hd'
      exact ⟨hn, fun x hx => Or.inl hx, fun k hk => by simpa [settings] using hk⟩
    | setting n v rest ih =>
      obtain ⟨ih1, ih2⟩ := ih
      cases hr : level rest with
      | error e =>
        have : level (Namelist.setting n v rest) = .error e := by
          simp only [level, hr, bind, Except.bind]
        rw [this]
        refine ⟨?_, (fun l h => by cases h)⟩
        intro e' h'
        have h2 : e = e' := by injection h'
        rw [← h2]; exact ih1 e hr
      | ok l0 =>
        have : level (Namelist.setting n v rest) = .ok ((n, .inl v) :: l0) := by
          simp only [level, hr, bind, Except.bind]; rfl
        rw [this]
        refine ⟨(fun e h => by cases h), ?_⟩
        intro l hl acc hn
        have hl' := Except.ok.inj hl
        subst hl'
        rw [List.foldlM_cons]
        simp only [mergeEntry, bind, Except.bind]
        obtain ⟨s1, s2, s3, s4, s5⟩ := hset acc n v hn
        obtain ⟨i1, i2⟩ := ih2 l0 hr (dictSet acc n v) s1
        refine ⟨?_, i2⟩
        intro d hd
        obtain ⟨j1, j2, j3⟩ := i1 d hd
        refine ⟨j1, ?_, ?_⟩
        · intro x hx
          simp only [settings, List.mem_cons]
          rcases j2 x hx with h | h
          · rcases s2 x h with h | h
            · exact Or.inl h
            · exact Or.inr (Or.inl h)
          · exact Or.inr (Or.inr h)
        · intro k hk
          simp only [settings, List.map_cons, List.mem_cons] at hk
          rcases hk with hk | rfl | hk
          · exact j3 k (Or.inl (s3 k hk))
          · exact j3 k (Or.inl s4)
          · exact j3 k (Or.inr hk)
    | group n sub rest ihs ih =>
      obtain ⟨ih1, ih2⟩ := ih
      obtain ⟨ihs1, ihs2⟩ := ihs
      cases hs : level sub with
      | error e =>
        have : level (Namelist.group n sub rest) = .error e := by
          simp only [level, hs, bind, Except.bind]
        rw [this]
        refine ⟨?_, (fun l h => by cases h)⟩
        intro e' h'
        have h2 : e = e' := by injection h'
        rw [← h2]; exact ihs1 e hs
      | ok ls =>
        obtain ⟨a1, a2⟩ := ihs2 ls hs [] (by simp)
        cases hm : merge ls with
        | error e =>
          have : level (Namelist.group n sub rest) = .error e := by
            simp only [level, hs, hm, bind, Except.bind]
          rw [this]
          refine ⟨?_, (fun l h => by cases h)⟩
          intro e' h'
          have h2 : e = e' := by injection h'
          rw [← h2]; exact a2 e hm
        | ok ds =>
          obtain ⟨b1, b2, b3⟩ := a1 ds hm
          cases hr : level rest with
          | error e =>
            have : level (Namelist.group n sub rest) = .error e := by
              simp only [level, hs, hm, hr, bind, Except.bind]
            rw [this]
            refine ⟨?_, (fun l h => by cases h)⟩
            intro e' h'
            have h2 : e = e' := by injection h'
            rw [← h2]; exact ih1 e hr
          | ok l0 =>
            have : level (Namelist.group n sub rest) = .ok ((n, .inr ds) :: l0) := by
              simp only [level, hs, hm, hr, bind, Except.bind]; rfl
            rw [this]
            refine ⟨(fun e h => by cases h), ?_⟩
            intro l hl acc hn
            have hl' := Except.ok.inj hl
            subst hl'
            rw [List.foldlM_cons, mergeEntry_name _ _ _ ⟨_, rfl⟩, sub_loop]
            split
            · rename_i hc
              have hnd : ((acc ++ ds).map Prod.fst).Nodup := by
                rcases hc with hc | ⟨hc1, hc2⟩
                · exact hc
                · rw [List.map_append, List.nodup_append]
                  refine ⟨hn, hc1, ?_⟩
                  intro a ha b hb hab
                  subst hab
                  exact hc2 a hb ha
              simp only [bind, Except.bind]
              obtain ⟨i1, i2⟩ := ih2 l0 hr (acc ++ ds) hnd
              refine ⟨?_, i2⟩
              intro d hd
              obtain ⟨j1, j2, j3⟩ := i1 d hd
              refine ⟨j1, ?_, ?_⟩
              · intro x hx
                simp only [settings, List.mem_append]
                rcases j2 x hx with h | h
                · rcases List.mem_append.1 h with h | h
                  · exact Or.inl h
                  · rcases b2 x h with h | h
                    · cases h
                    · exact Or.inr (Or.inl h)
                · exact Or.inr (Or.inr h)
              · intro k hk
                simp only [settings, List.map_append, List.mem_append] at hk
                rcases hk with hk | hk | hk
                · exact j3 k (Or.inl (by rw [List.map_append]; exact List.mem_append_left _ hk))
                · exact j3 k (Or.inl (by
                    rw [List.map_append]; exact List.mem_append_right _ (b3 k (Or.inr hk))))
                · exact j3 k (Or.inr hk)
            · refine ⟨(fun d h => by cases h), ?_⟩
              intro e he
              have : Err.valueError = e := by injection he
              exact this.symm
  obtain ⟨k1, k2⟩ := key nml
  constructor
  · intro d hd
    unfold flatten at hd
    cases hl : level nml with
    | error e => rw [hl] at hd; cases hd
    | ok l =>
      rw [hl] at hd
      obtain ⟨i1, i2, i3⟩ := (k2 l hl [] (by simp)).1 d hd
      exact ⟨i1, fun x hx => (i2 x hx).resolve_left (by simp), fun k hk => i3 k (Or.inr hk)⟩
  · intro e he
    refine ⟨?_, fun hn => by rw [C60_lossless nml hn] at he; cases he⟩
    unfold flatten at he
    cases hl : level nml with
    | error e' =>
      rw [hl] at he
      have : e' = e := by injection he
      rw [← this]; exact k1 e' hl
    | ok l =>
      rw [hl] at he
      exact (k2 l hl [] (by simp)).2 e he

theorem settings_plain (g : List (String × V)) :
    settings (g.foldr (fun (k, v) acc => .setting k v acc) .nil) = g := by
  induction g with
  | nil => rfl
  | cons x g ih => obtain ⟨k, v⟩ := x; simp only [List.foldr_cons, settings, ih]

theorem level_groups : ∀ (gs : List (String × List (String × V))),
    (∀ g ∈ gs, (g.2.map Prod.fst).Nodup) →
    level (ofGroups gs) = .ok (gs.map fun (n, g) => (n, .inr g))
  | [], _ => rfl
  | (n, g) :: gs, h => by
    have ih := level_groups gs (fun g hg => h g (List.mem_cons_of_mem _ hg))
    have hf := C60_lossless (g.foldr (fun (k, v) acc => .setting k v acc) .nil)
      (by rw [settings_plain]; exact h (n, g) (List.mem_cons_self ..))
    rw [settings_plain] at hf
    unfold flatten at hf
    cases hl : level (g.foldr (fun (k, v) acc => Namelist.setting k v acc) .nil) with
    | error e => rw [hl] at hf; cases hf
    | ok l =>
      rw [hl] at hf
      have hm : merge l = .ok g := hf
      simp only [ofGroups, level, hl, hm, ih, bind, Except.bind]
      rfl

/-- C60, namelists made of groups of settings: flattening gives all settings if no name is used in
two groups, and raises ValueError otherwise, so that no setting is silently replaced. -/
theorem C60_groups (gs : List (String × List (String × V)))
    (hg : ∀ g ∈ gs, (g.2.map Prod.fst).Nodup) :
    flatten (ofGroups gs) =
      if ((gs.flatMap Prod.snd).map Prod.fst).Nodup then .ok (gs.flatMap Prod.snd)
      else .error .valueError := by
  unfold flatten merge
  rw [level_groups gs hg]
  simp only [bind, Except.bind]
  have key : ∀ (gs : List (String × List (String × V))), (∀ g ∈ gs, (g.2.map Prod.fst).Nodup) →
      ∀ acc : List (String × V), (acc.map Prod.fst).Nodup →
      (gs.map fun (n, g) => (n, (Sum.inr g : V ⊕ List (String × V)))).foldlM mergeEntry acc =
        if ((acc ++ gs.flatMap Prod.snd).map Prod.fst).Nodup then .ok (acc ++ gs.flatMap Prod.snd)
        else .error .valueError := by
    intro gs
    induction gs with
    | nil => intro _ acc hn; simp only [List.map_nil, List.foldlM_nil, List.flatMap_nil,
        List.append_nil]; rw [if_pos hn]; rfl
    | cons x gs ih =>
      obtain ⟨n, g⟩ := x
      intro hg acc hn
      simp only [List.map_cons, List.foldlM_cons]
      rw [mergeEntry_name _ _ _ ⟨_, rfl⟩, sub_loop]
      have e1 : acc ++ ((n, g) :: gs).flatMap Prod.snd = (acc ++ g) ++ gs.flatMap Prod.snd := by simp
      rw [e1]
      by_cases hc : ((acc ++ g).map Prod.fst).Nodup
      · rw [if_pos (Or.inl hc)]
        simp only [bind, Except.bind]
        exact ih (fun g hg' => hg g (List.mem_cons_of_mem _ hg')) _ hc
      · rw [if_neg, if_neg]
        · rfl
        · intro h; rw [List.map_append, List.nodup_append] at h; exact hc h.1
        · rintro (h | ⟨h1, h2⟩)
          · exact hc h
          · apply hc
            rw [List.map_append, List.nodup_append]
            refine ⟨hn, h1, ?_⟩
            intro a ha b hb hab
            subst hab
            exact h2 a hb ha
  have := key gs hg [] (by simp)
  simpa using this

theorem find_groups (k : String) : ∀ gs : List (String × List (String × V)),
    (ofGroups gs).find k = (gs.find? fun g => g.1 = k).map fun g =>
      .inr (g.2.foldr (fun (k, v) acc => .setting k v acc) .nil)
  | [] => rfl
  | (n, g) :: gs => by
    simp only [ofGroups, Namelist.find, List.find?_cons]
    by_cases h : n = k
    · simp [h]
    · simp only [h, if_false, decide_false]
      exact find_groups k gs

theorem put_groups (n : String) (g : List (String × V)) :
    ∀ gs : List (String × List (String × V)), n ∉ gs.map Prod.fst →
      (ofGroups gs).put n (.inr (g.foldr (fun (k, v) acc => .setting k v acc) .nil)) =
        ofGroups (gs ++ [(n, g)])
  | [], _ => rfl
  | (m, g') :: gs, h => by
    simp only [List.map_cons, List.mem_cons, not_or] at h
    simp only [ofGroups, Namelist.put, List.cons_append]
    rw [if_neg (fun h' => h.1 h'.symm), put_groups n g gs h.2]

/-- C60, target groups: only the groups asked for are used, in the order asked for; groups that are
not in the namelist are passed over. -/
theorem C60_targets (gs : List (String × List (String × V))) (targets : List String)
    (ht : targets.Nodup) :
    asDict (ofGroups gs) (some targets) =
      flatten (ofGroups (targets.filterMap fun t => gs.find? fun g => g.1 = t)) := by
  unfold asDict
  congr 1
  have key : ∀ (targets : List String), targets.Nodup →
      ∀ acc : List (String × List (String × V)), (∀ t ∈ targets, t ∉ acc.map Prod.fst) →
      targets.foldl (selectStep (ofGroups gs)) (ofGroups acc) =
      ofGroups (acc ++ targets.filterMap fun t => gs.find? fun g => g.1 = t) := by
    intro targets
    induction targets with
    | nil => intro _ acc _; simp
    | cons t ts ih =>
      intro hn acc hacc
      rw [List.nodup_cons] at hn
      rw [List.foldl_cons, show selectStep (ofGroups gs) (ofGroups acc) t =
        (match (ofGroups gs).find t with
          | some x => (ofGroups acc).put t x
          | none => ofGroups acc) from rfl, find_groups]
      cases hf : gs.find? fun g => g.1 = t with
      | none =>
        simp only [Option.map_none, List.filterMap_cons, hf]
        exact ih hn.2 acc (fun t' h => hacc t' (List.mem_cons_of_mem _ h))
      | some g =>
        have hgt : g.1 = t := by simpa using List.find?_some hf
        obtain ⟨n, g⟩ := g
        simp only at hgt
        subst hgt
        simp only [Option.map_some, List.filterMap_cons, hf]
        rw [put_groups n g acc (hacc n (List.mem_cons_self ..)), ih hn.2 (acc ++ [(n, g)])]
        · simp
        · intro t' h' hc
          rw [List.map_append, List.mem_append] at hc
          rcases hc with hc | hc
          · exact hacc t' (List.mem_cons_of_mem _ h') hc
          · simp only [List.map_cons, List.map_nil, List.mem_singleton] at hc
            subst hc
            exact hn.1 h'
  have := key targets ht [] (by simp)
  simpa [select, ofGroups] using this

/-- Not so for settings beside a group, such as a derived type: a setting given after a group with a
setting of that name silently replaces it; given before the group it raises. -/
theorem C60_nested_violated :
    flatten (Namelist.group "g" (.group "t" (.setting "x" 1 .nil) (.setting "x" 2 .nil)) .nil) =
      .ok [("x", 2)] ∧
    flatten (Namelist.group "g" (.setting "x" 2 (.group "t" (.setting "x" 1 .nil) .nil)) .nil) =
      .error .valueError := by decide

example : flatten (ofGroups [("a", [("x", 1), ("y", 2)]), ("b", [("z", 3)])]) =
    .ok [("x", 1), ("y", 2), ("z", 3)] := by decide
example : flatten (ofGroups [("a", [("x", 1), ("y", 2)]), ("b", [("z", 3), ("x", 1)])]) =
    .error .valueError := by decide
example : asDict (ofGroups [("a", [("x", 1), ("y", 2)]), ("b", [("z", 3)])]) (some ["c", "b"]) =
    .ok [("z", 3)] := by decide
/-- a derived type, names all different: `C60_lossless` applies -/
example : ((settings (Namelist.group "g" (.group "t" (.setting "x" 1 .nil) (.setting "y" 2 .nil))
    .nil)).map Prod.fst).Nodup := by decide

end NDSL.Nml
