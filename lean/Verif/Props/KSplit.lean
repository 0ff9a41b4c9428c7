import Verif.Spec.KSplit
import Verif.Props.StateTransfer

/-! Property C54: splitting columns where parameters change. -/
namespace NDSL.KSplit

variable {V : Type}

theorem columnVals_eq_iff (info : List (String × List V)) (hn : (info.map (·.1)).Nodup) (k j : Nat) :
    columnVals info k = columnVals info j ↔ ∀ e ∈ info, e.2[k]? = e.2[j]? := by
  constructor
  · intro h
    induction info with
    | nil => simp
    | cons e info ih =>
      obtain ⟨q, v⟩ := e
      rw [List.map_cons, List.nodup_cons] at hn
      have hq : ∀ (i : Nat) (l : List (String × V)) (x : V),
          columnVals info i = (q, x) :: l → False := by
        intro i l x hx
        apply hn.1
        have : (q, x) ∈ columnVals info i := by rw [hx]; simp
        simp only [columnVals, List.mem_filterMap, Option.map_eq_some_iff, Prod.mk.injEq] at this
        obtain ⟨e, he, _, _, h1, _⟩ := this
        exact List.mem_map.2 ⟨e, he, h1⟩
      simp only [columnVals, List.filterMap_cons] at h ih
      cases hk : v[k]? with
      | none =>
        cases hj : v[j]? with
        | none =>
          simp only [hk, hj, Option.map_none] at h
          intro e he
          rcases List.mem_cons.1 he with rfl | he
          · exact hk.trans hj.symm
          · exact ih hn.2 h e he
        | some y =>
          simp only [hk, hj, Option.map_none, Option.map_some] at h
          exact (hq k _ y h).elim
      | some x =>
        cases hj : v[j]? with
        | none =>
          simp only [hk, hj, Option.map_none, Option.map_some] at h
          exact (hq j _ x h.symm).elim
        | some y =>
          simp only [hk, hj, Option.map_some, List.cons.injEq, Prod.mk.injEq, true_and] at h
          intro e he
          rcases List.mem_cons.1 he with rfl | he
          · simp only [hk, hj, h.1]
          · exact ih hn.2 h.2 e he
  · intro h
    unfold columnVals
    induction info with
    | nil => rfl
    | cons e info ih =>
      rw [List.map_cons, List.nodup_cons] at hn
      simp only [List.filterMap_cons, h e (by simp), ih hn.2 (fun e he => h e (by simp [he]))]

variable [DecidableEq V]

theorem pairs_spec (info : List (String × List V)) (hn : (info.map (·.1)).Nodup) (npz : Nat) :
    ∀ (n a k : Nat), a < k → k + n = npz →
      (∀ j, a ≤ j → j < k → columnVals info j = columnVals info a) →
      ∃ m ps, toPairs npz (a :: startsFrom info k n (some (columnVals info a))) = .ok ((a, m) :: ps) ∧
        TilesFrom npz a ((a, m) :: ps) ∧ Constant info ((a, m) :: ps) ∧ Changes info ((a, m) :: ps) := by
  intro n
  induction n with
  | zero =>
    intro a k hak hk hc
    refine ⟨npz - a, [], ?_, ?_, ?_, trivial⟩
    · simp only [startsFrom, toPairs]
    · exact ⟨rfl, by omega, by simp only [TilesFrom]; omega⟩
    · intro i hi j h1 h2
      simp only [List.mem_singleton] at hi
      subst hi
      exact (columnVals_eq_iff info hn j a).1 (hc j h1 (by simp only at h2; omega))
  | succ n ih =>
    intro a k hak hk hc
    by_cases h : columnVals info k = columnVals info a
    · have : startsFrom info k (n + 1) (some (columnVals info a)) =
          startsFrom info (k + 1) n (some (columnVals info a)) := by
        simp only [startsFrom, h]
        rw [if_neg (by simp)]
      rw [this]
      refine ih a (k + 1) (by omega) (by omega) ?_
      intro j h1 h2
      by_cases hj : j = k
      · rw [hj, h]
      · exact hc j h1 (by omega)
    · have : startsFrom info k (n + 1) (some (columnVals info a)) =
          k :: startsFrom info (k + 1) n (some (columnVals info k)) := by
        simp only [startsFrom]
        rw [if_pos (by simpa using h)]
      rw [this]
      obtain ⟨m, ps, h1, h2, h3, h4⟩ := ih k (k + 1) (by omega) (by omega)
        (fun j h1 h2 => by rw [show j = k by omega])
      refine ⟨k - a, (k, m) :: ps, ?_, ?_, ?_, ?_, h4⟩
      · simp only [toPairs, h1]
      · refine ⟨rfl, by omega, ?_⟩
        rw [show a + (k - a) = k by omega]
        exact h2
      · intro i hi j hj1 hj2
        rcases List.mem_cons.1 hi with rfl | hi
        · exact (columnVals_eq_iff info hn j a).1 (hc j hj1 (by simp only at hj2; omega))
        · exact h3 i hi j hj1 hj2
      · apply Classical.byContradiction
        intro hne
        apply h
        rw [columnVals_eq_iff info hn]
        intro e he
        apply Classical.byContradiction
        intro hx
        exact hne ⟨e, he, fun q => hx q.symm⟩

/-- **C54**: splitting a column of at least one level gives consecutive intervals from level 0 to
the last one; the parameters are constant on each interval and change from each to the next. -/
theorem C54_intervals (info : List (String × List V)) (hn : (info.map (·.1)).Nodup) (npz : Nat)
    (hz : 0 < npz) :
    ∃ ks, getKstarts info npz = .ok ks ∧ TilesFrom npz 0 ks ∧ Constant info ks ∧
      Changes info ks := by
  obtain ⟨n, rfl⟩ : ∃ n, npz = n + 1 := ⟨npz - 1, by omega⟩
  obtain ⟨m, ps, h1, h2⟩ := pairs_spec info hn (n + 1) n 0 1 (by omega) (by omega)
    (fun j _ h => by rw [show j = 0 by omega])
  exact ⟨(0, m) :: ps, by simpa [getKstarts, startsFrom] using h1, h2⟩

/-- **C54 fails** without levels: the split raises. -/
theorem C54_no_level_violated (info : List (String × List V)) :
    getKstarts info 0 = .error .indexError := rfl

omit [DecidableEq V] in
/-- **C54** (what consecutive intervals are good for): each level is in exactly one of them. -/
theorem C54_each_level_once (npz a : Nat) (ks : List (Nat × Nat)) (h : TilesFrom npz a ks) (k : Nat) :
    (a ≤ k → k < npz → (containing k ks).length = 1) ∧
    (k < a ∨ npz ≤ k → (containing k ks).length = 0) := by
  induction ks generalizing a with
  | nil =>
    simp only [TilesFrom] at h
    subst h
    exact ⟨fun h1 h2 => by omega, fun _ => rfl⟩
  | cons i ks ih =>
    obtain ⟨s, n⟩ := i
    obtain ⟨rfl, hpos, hr⟩ := h
    have hle : s + n ≤ npz := by
      clear ih hpos
      generalize s + n = b at hr
      induction ks generalizing b with
      | nil => simp only [TilesFrom] at hr; omega
      | cons i ks ih2 =>
        obtain ⟨s', n'⟩ := i
        obtain ⟨rfl, _, hr⟩ := hr
        have := ih2 _ hr
        omega
    have := ih (s + n) hr
    unfold containing at this ⊢
    rw [List.filter_cons]
    by_cases hk : s ≤ k ∧ k < s + n
    · rw [if_pos (by simpa using hk), List.length_cons]
      refine ⟨fun _ _ => ?_, fun h => by omega⟩
      rw [this.2 (.inl hk.2)]
    · rw [if_neg (by simpa using hk)]
      refine ⟨fun h1 h2 => this.1 (by omega) h2, fun h => this.2 (by omega)⟩

omit [DecidableEq V] in
theorem splitvars_spec (vals : List (String × List V)) (ki : Nat) (h : ∀ e ∈ vals, ki < e.2.length) :
    ∃ sv, splitvars vals ki = some sv ∧ sv.map (·.1) = vals.map (·.1) ∧
      ∀ e ∈ vals, ∃ v, e.2[ki]? = some v ∧ (e.1, v) ∈ sv := by
  unfold splitvars
  induction vals with
  | nil => exact ⟨[], by simp, rfl, by simp⟩
  | cons e vals ih =>
    obtain ⟨sv, h1, h2, h3⟩ := ih (fun e he => h e (by simp [he]))
    have hk := h e (by simp)
    refine ⟨(e.1, e.2[ki]) :: sv, ?_, by simp [h2], ?_⟩
    · simp [List.mapM_cons, h1, List.getElem?_eq_getElem hk]
    · intro e' he'
      rcases List.mem_cons.1 he' with rfl | he'
      · exact ⟨_, List.getElem?_eq_getElem hk, by simp⟩
      · obtain ⟨v, hv, hm⟩ := h3 e' he'
        exact ⟨v, hv, by simp [hm]⟩

omit [DecidableEq V] in
theorem update_get (sv : List (String × V)) (hn : (sv.map (·.1)).Nodup) (data : List (String × Arg V)) :
    (∀ e ∈ sv, dictGet (sv.foldl (fun d e => dictSet d e.1 (.param e.2)) data) e.1 = some (.param e.2)) ∧
    (∀ q, q ∉ sv.map (·.1) →
      dictGet (sv.foldl (fun d e => dictSet d e.1 (.param e.2)) data) q = dictGet data q) := by
  induction sv generalizing data with
  | nil => exact ⟨by simp, fun _ _ => rfl⟩
  | cons e sv ih =>
    rw [List.map_cons, List.nodup_cons] at hn
    obtain ⟨h1, h2⟩ := ih hn.2 (dictSet data e.1 (.param e.2))
    simp only [List.foldl_cons]
    constructor
    · intro e' he'
      rcases List.mem_cons.1 he' with rfl | he'
      · rw [h2 _ hn.1, dictGet_set, if_pos rfl]
      · exact h1 e' he'
    · intro q hq
      simp only [List.map_cons, List.mem_cons, not_or] at hq
      rw [h2 q hq.2, dictGet_set, if_neg hq.1]

/-- What one call of the function sees. -/
structure CallOk (vals : List (String × List V)) (data : List (String × Arg V)) (i : Nat × Nat)
    (args : List (String × Arg V)) : Prop where
  start : dictGet args "kstart" = some (.num i.1)
  size : dictGet args "nk" = some (.num i.2)
  params : ∀ e ∈ vals, ∀ k, i.1 ≤ k → k < i.1 + i.2 →
    ∃ v, e.2[k]? = some v ∧ dictGet args e.1 = some (.param v)
  others : ∀ q, q ∉ vals.map (·.1) → q ≠ "kstart" → q ≠ "nk" → dictGet args q = dictGet data q

/-- **C54** (running the split): the function is called once per interval, in order, without error;
each call gets the start and the length of its interval, the value that each parameter has on all
levels of the interval, and the other arguments unchanged. -/
theorem C54_run (vals : List (String × List V)) (hn : (vals.map (·.1)).Nodup)
    (hk : "kstart" ∉ vals.map (·.1)) (hnk : "nk" ∉ vals.map (·.1)) (npz : Nat)
    (hlen : ∀ e ∈ vals, npz ≤ e.2.length) (data : List (String × Arg V)) (ks : List (Nat × Nat))
    (h : getKstarts vals npz = .ok ks) :
    ∃ calls, kSplitRun vals data ks = (calls, none) ∧ List.Forall₂ (CallOk vals data) ks calls := by
  have hz : 0 < npz := by
    rcases Nat.eq_zero_or_pos npz with e | e
    · subst e; cases h
    · exact e
  obtain ⟨ks', h', ht, hc, -⟩ := C54_intervals vals hn npz hz
  rw [h] at h'
  have := Except.ok.inj h'
  subst this
  have hb' : ∀ a, TilesFrom npz a ks → ∀ i ∈ ks, 0 < i.2 ∧ i.1 < npz := by
    clear hc h h' ht
    intro a ht
    induction ks generalizing a with
    | nil => simp
    | cons i ks ih =>
      obtain ⟨s, n⟩ := i
      have hh := ht
      obtain ⟨rfl, h1, h2⟩ := ht
      intro i hi
      rcases List.mem_cons.1 hi with rfl | hi
      · refine ⟨h1, ?_⟩
        have := (C54_each_level_once npz s _ hh s)
        apply Classical.byContradiction
        intro hge
        have h0 := this.2 (.inr (by omega))
        simp only [containing] at h0
        rw [List.filter_cons, if_pos (by simpa using h1)] at h0
        simp at h0
      · exact ih _ h2 i hi
  have hb := hb' 0 ht
  clear h h' ht
  have main : ∀ (ks : List (Nat × Nat)) (d : List (String × Arg V)), Constant vals ks →
      (∀ i ∈ ks, 0 < i.2 ∧ i.1 < npz) →
      (∀ q, q ∉ vals.map (·.1) → q ≠ "kstart" → q ≠ "nk" → dictGet d q = dictGet data q) →
      ∃ calls, kSplitRun vals d ks = (calls, none) ∧ List.Forall₂ (CallOk vals data) ks calls := by
    intro ks
    induction ks with
    | nil => intro d _ _ _; exact ⟨[], rfl, .nil⟩
    | cons i ks ih =>
      intro d hc hb hd
      obtain ⟨ki, nk⟩ := i
      have hi := hb (ki, nk) (by simp)
      obtain ⟨sv, h1, h2, h3⟩ := splitvars_spec vals ki (fun e he => by
        have := hlen e he; simp only at hi; omega)
      have hu := update_get sv (by rw [h2]; exact hn) d
      have hoth : ∀ q, q ∉ vals.map (·.1) → q ≠ "kstart" → q ≠ "nk" →
          dictGet (updateData d sv ki nk) q = dictGet data q := by
        intro q q1 q2 q3
        unfold updateData
        rw [dictGet_set, if_neg q3, dictGet_set, if_neg q2, hu.2 q (by rw [h2]; exact q1), hd q q1 q2 q3]
      obtain ⟨calls, hr, hf⟩ := ih (updateData d sv ki nk) (fun i hi => hc i (by simp [hi]))
        (fun i hi => hb i (by simp [hi])) hoth
      refine ⟨updateData d sv ki nk :: calls, ?_, .cons ⟨?_, ?_, ?_, hoth⟩ hf⟩
      · simp only [kSplitRun, h1, hr]
      · unfold updateData
        rw [dictGet_set, if_neg (by decide), dictGet_set, if_pos rfl]
      · unfold updateData
        rw [dictGet_set, if_pos rfl]
      · intro e he k hk1 hk2
        obtain ⟨v, hv, hm⟩ := h3 e he
        refine ⟨v, ?_, ?_⟩
        · rw [hc (ki, nk) (by simp) k hk1 hk2 e he, hv]
        · have hmem : e.1 ∈ vals.map (·.1) := List.mem_map.2 ⟨e, he, rfl⟩
          unfold updateData
          rw [dictGet_set, if_neg (fun x => hnk (by rw [← x]; exact hmem)), dictGet_set,
            if_neg (fun x => hk (by rw [← x]; exact hmem)), hu.1 _ hm]
  exact main ks data hc hb (fun _ _ _ _ => rfl)

/-- Two parameters, five levels. -/
example : getKstarts [("nord", [2, 2, 1, 1, 1]), ("damp", [5, 5, 5, 7, 7])] 5 =
    .ok [(0, 2), (2, 1), (3, 2)] := by decide

example : (kSplitRun [("nord", [2, 2, 1])] [("u", Arg.other 4)] [(0, 2), (2, 1)]).1 =
    [[("u", .other 4), ("nord", .param 2), ("kstart", .num 0), ("nk", .num 2)],
     [("u", .other 4), ("nord", .param 1), ("kstart", .num 2), ("nk", .num 1)]] := by decide

/-- An array shorter than the column: the split is made, the run raises after some calls. -/
theorem C54_short_array_violated :
    getKstarts [("nord", [2])] 3 = .ok [(0, 1), (1, 2)] ∧
      (kSplitRun [("nord", [2])] [] [(0, 1), (1, 2)]).2 = some .indexError ∧
      (kSplitRun [("nord", [2])] [] [(0, 1), (1, 2)]).1.length = 1 := by decide

end NDSL.KSplit
