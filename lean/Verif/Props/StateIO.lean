import Verif.Spec.StateIO
import Verif.Props.StateTransfer
import Verif.Lemmas.NetCDF
/-
C99: writing states to files and reading them back; the date of a restart.
-/
namespace NDSL.StateIO
variable {C T : Type}

theorem dictGet_cons {V : Type} (k : String) (v : V) (d : List (String × V)) (n : String) :
    dictGet ((k, v) :: d) n = if k = n then some v else dictGet d n := by
  by_cases h : k = n
  · simp [dictGet, h]
  · have : (k == n) = false := by simpa using h
    simp [dictGet, h]

theorem dictGet_of_mem {V : Type} {d : List (String × V)} (hd : (d.map (·.1)).Nodup) {n : String} {v : V}
    (h : (n, v) ∈ d) : dictGet d n = some v := by
  induction d with
  | nil => cases h
  | cons e d ih =>
    obtain ⟨k, w⟩ := e
    rw [List.map_cons, List.nodup_cons] at hd
    rw [dictGet_cons]
    rcases List.mem_cons.mp h with h | h
    · cases h; rw [if_pos rfl]
    · have : k ≠ n := by
        rintro rfl
        exact hd.1 (List.mem_map.mpr ⟨_, h, rfl⟩)
      rw [if_neg this]
      exact ih hd.2 h

theorem mem_of_dictGet {V : Type} {d : List (String × V)} {n : String} {v : V} (h : dictGet d n = some v) :
    (n, v) ∈ d := by
  induction d with
  | nil => cases h
  | cons e d ih =>
    obtain ⟨k, w⟩ := e
    rw [dictGet_cons] at h
    by_cases hk : k = n
    · rw [if_pos hk] at h; cases h; rw [hk]; exact List.mem_cons_self
    · rw [if_neg hk] at h; exact List.mem_cons_of_mem _ (ih h)

/-! ### variables of a state -/

theorem dataVars_ok {s : State C T} (h : ∀ n v, (n, v) ∈ s → n ≠ "time" → ∃ q, v = .qty q) :
    ∃ d, dataVars s = .ok d := by
  induction s with
  | nil => exact ⟨_, rfl⟩
  | cons e s ih =>
    obtain ⟨n, v⟩ := e
    obtain ⟨d, hd⟩ := ih fun n v hm hn => h n v (List.mem_cons_of_mem _ hm) hn
    by_cases hn : n = "time"
    · exact ⟨d, by rw [dataVars, if_pos hn, hd]⟩
    · obtain ⟨q, rfl⟩ := h n v List.mem_cons_self hn
      exact ⟨(n, q.asXarray) :: d, by rw [dataVars, if_neg hn, hd]; rfl⟩

theorem dataVars_spec {s : State C T} {d : List (String × Var C)} (h : dataVars s = .ok d) :
    (∀ n v, (n, v) ∈ s → n ≠ "time" → ∃ q, v = .qty q) ∧
    (∀ n v, (n, v) ∈ d ↔ n ≠ "time" ∧ ∃ q, (n, Val.qty q) ∈ s ∧ v = q.asXarray) := by
  induction s generalizing d with
  | nil =>
    cases h
    exact ⟨fun _ _ h => (by cases h), fun n v => ⟨fun h => (by cases h), fun h => (by obtain ⟨_, _, h, _⟩ := h; cases h)⟩⟩
  | cons e s ih =>
    obtain ⟨k, w⟩ := e
    by_cases hk : k = "time"
    · rw [dataVars, if_pos hk] at h
      obtain ⟨h1, h2⟩ := ih h
      refine ⟨fun n v hm hn => ?_, fun n v => ?_⟩
      · rcases List.mem_cons.mp hm with hm | hm
        · cases hm; exact absurd hk hn
        · exact h1 n v hm hn
      · rw [h2]
        refine and_congr_right fun hn => exists_congr fun q => and_congr_left fun _ => ?_
        rw [List.mem_cons]
        refine ⟨Or.inr, fun h => h.resolve_left fun h => ?_⟩
        cases h; exact hn hk
    · rw [dataVars, if_neg hk] at h
      cases w with
      | time t => cases h
      | qty q =>
        simp only [addVar] at h
        cases hs : dataVars s with
        | error e => rw [hs] at h; cases h
        | ok d' =>
          rw [hs] at h; cases h
          obtain ⟨h1, h2⟩ := ih hs
          refine ⟨fun n v hm hn => ?_, fun n v => ?_⟩
          · rcases List.mem_cons.mp hm with hm | hm
            · cases hm; exact ⟨q, rfl⟩
            · exact h1 n v hm hn
          · rw [List.mem_cons, h2]
            constructor
            · rintro (h | ⟨hn, r, hr, hv⟩)
              · cases h; exact ⟨hk, q, List.mem_cons_self, rfl⟩
              · exact ⟨hn, r, List.mem_cons_of_mem _ hr, hv⟩
            · rintro ⟨hn, r, hr, hv⟩
              rcases List.mem_cons.mp hr with hr | hr
              · cases hr; exact Or.inl (by rw [hv])
              · exact Or.inr ⟨hn, r, hr, hv⟩

theorem dataVars_keys {s : State C T} {d : List (String × Var C)} (h : dataVars s = .ok d)
    (hs : (s.map (·.1)).Nodup) : (d.map (·.1)).Nodup := by
  induction s generalizing d with
  | nil => cases h; exact List.nodup_nil
  | cons e s ih =>
    obtain ⟨k, w⟩ := e
    rw [List.map_cons, List.nodup_cons] at hs
    by_cases hk : k = "time"
    · rw [dataVars, if_pos hk] at h; exact ih h hs.2
    · rw [dataVars, if_neg hk] at h
      cases w with
      | time t => cases h
      | qty q =>
        simp only [addVar] at h
        cases hd : dataVars s with
        | error e => rw [hd] at h; cases h
        | ok d' =>
          rw [hd] at h; cases h
          rw [List.map_cons, List.nodup_cons]
          refine ⟨fun hm => ?_, ih hd hs.2⟩
          obtain ⟨⟨n, v⟩, hm, hn⟩ := List.mem_map.mp hm
          obtain ⟨_, r, hr, _⟩ := ((dataVars_spec hd).2 n v).mp hm
          exact hs.1 (List.mem_map.mpr ⟨_, hr, hn⟩)

theorem dictSet_append {V : Type} {d : List (String × V)} {k : String} (h : k ∉ d.map (·.1)) (v : V) :
    dictSet d k v = d ++ [(k, v)] := by
  induction d with
  | nil => rfl
  | cons e d ih =>
    rw [List.map_cons, List.mem_cons, not_or] at h
    rw [dictSet, if_neg (fun e => h.1 e.symm), ih h.2]; rfl

/-- What a successful write puts into the file. -/
theorem write_ok {X : Coder C T} {s : State C T} {name : String} {fs : Files C}
    (h : (writeState X s name fs).2 = none) :
    ∃ d t, dataVars s = .ok d ∧ dictGet s "time" = some (.time t) ∧
      consistent (d ++ [("time", timeVar X t)]) = true ∧
      (writeState X s name fs).1 = (name, d ++ [("time", timeVar X t)]) :: fs := by
  unfold writeState at h ⊢
  cases ht : dictGet s "time" with
  | none => rw [ht] at h; cases h
  | some v =>
    rw [ht] at h
    simp only [toDataset] at h ⊢
    cases hd : dataVars s with
    | error e => rw [hd] at h; cases h
    | ok d =>
      rw [hd, ht] at h
      cases v with
      | qty q => cases h
      | time t =>
        have hn : "time" ∉ d.map (·.1) := fun hm => by
          obtain ⟨⟨n, v⟩, hm, hn⟩ := List.mem_map.mp hm
          exact (((dataVars_spec hd).2 n v).mp hm).1 hn
        simp only [dictSet_append hn] at h ⊢
        by_cases hc : consistent (d ++ [("time", timeVar X t)]) = true
        · exact ⟨d, t, rfl, by rfl, hc, by simp only [ht, hc, if_true]⟩
        · rw [if_neg hc] at h; cases h

/-! ### reading -/

theorem readVars_ok {X : Coder C T} {S : Session} {d : List (String × Var C)} (g : String → Var C → Val C T)
    (hd : (d.map (·.1)).Nodup)
    (hg : ∀ n v, (n, v) ∈ d → isDataVar (n, v) = true ∧ readVar X S n (decode X v) = .ok (g n v))
    (out : State C T) :
    ∃ s, readVars X S d out = .ok s ∧
      ∀ n, dictGet s n = match dictGet d n with
        | some v => some (g n v)
        | none => dictGet out n := by
  induction d generalizing out with
  | nil => exact ⟨out, rfl, fun n => rfl⟩
  | cons e d ih =>
    obtain ⟨k, w⟩ := e
    rw [List.map_cons, List.nodup_cons] at hd
    obtain ⟨h1, h2⟩ := hg k w List.mem_cons_self
    obtain ⟨s, hs, hn⟩ := ih hd.2 (fun n v h => hg n v (List.mem_cons_of_mem _ h)) (dictSet out k (g k w))
    refine ⟨s, ?_, fun n => ?_⟩
    · rw [readVars, if_pos h1, h2]; exact hs
    · rw [hn, dictGet_cons, dictGet_set]
      by_cases hk : k = n
      · subst hk
        have : dictGet d k = none := by
          cases hc : dictGet d k with
          | none => rfl
          | some v => exact absurd (List.mem_map.mpr ⟨_, mem_of_dictGet hc, rfl⟩) hd.1
        simp [this]
      · simp only [if_neg hk]
        have hk' : n ≠ k := fun e => hk e.symm
        cases dictGet d n <;> simp [hk, hk']

theorem readVar_qty {X : Coder C T} {S : Session} {n : String} {q : Qty C} (hn : n ≠ "time")
    (R : Readable X S n q) : readVar X S n (decode X q.asXarray) = .ok (whole (.qty q)) := by
  have e1 : decode X q.asXarray = q.asXarray := by simp only [decode, Qty.asXarray, R.units]
  obtain ⟨dims, u, b, o, e, ty, c⟩ := q
  rw [e1, readVar, if_neg hn]
  have hb : b ∈ S.known := R.backend
  simp only [fromDataArray, resolveBackend, Qty.asXarray, if_pos hb, whole, Option.getD_some]
  cases ty with
  | other _ => rfl
  | float k => rw [R.bits k rfl]; simp [Except.map]

/-- The file of a written state, as any session that can make its quantities reads it. -/
theorem read_written {X : Coder C T} (hX : X.Lawful) {S : Session} {s : State C T} (hs : (s.map (·.1)).Nodup)
    {d : List (String × Var C)} {t : T} (hd : dataVars s = .ok d) (ht : dictGet s "time" = some (.time t))
    (hr : ∀ n q, (n, Val.qty q) ∈ s → n ≠ "time" → Readable X S n q) :
    ∃ s', readVars X S (d ++ [("time", timeVar X t)]) [] = .ok s' ∧
      ∀ n, dictGet s' n = (dictGet s n).map whole := by
  have hspec := dataVars_spec hd
  have hnt : "time" ∉ d.map (·.1) := fun hm => by
    obtain ⟨⟨n, v⟩, hm, hn⟩ := List.mem_map.mp hm
    exact ((hspec.2 n v).mp hm).1 hn
  have hnd : ((d ++ [("time", timeVar X t)]).map (·.1)).Nodup := by
    rw [List.map_append, List.nodup_append]
    refine ⟨dataVars_keys hd hs, by simp, fun a ha b hb => ?_⟩
    simp only [List.map_cons, List.map_nil, List.mem_singleton] at hb
    subst hb
    rintro rfl
    exact hnt ha
  let g : String → Var C → Val C T := fun n v =>
    match dictGet s n with
    | some x => whole x
    | none => .time t
  have hg : ∀ n v, (n, v) ∈ d ++ [("time", timeVar X t)] →
      isDataVar (n, v) = true ∧ readVar X S n (decode X v) = .ok (g n v) := ?_
  · obtain ⟨s', h1, h2⟩ := readVars_ok (X := X) (S := S) g hnd hg []
    refine ⟨s', h1, fun n => ?_⟩
    rw [h2]
    cases hdn : dictGet (d ++ [("time", timeVar X t)]) n with
    | some v =>
      rcases List.mem_append.mp (mem_of_dictGet hdn) with hm | hm
      · obtain ⟨hn, q, hq, _⟩ := (hspec.2 n v).mp hm
        simp only [g, dictGet_of_mem hs hq, Option.map_some]
      · rw [List.mem_singleton] at hm
        cases hm
        simp only [g, ht, Option.map_some]
    | none =>
      cases hsn : dictGet s n with
      | none => rfl
      | some x =>
        exfalso
        by_cases hn : n = "time"
        · subst hn
          rw [dictGet_of_mem hnd (List.mem_append.mpr (Or.inr (List.mem_singleton.mpr rfl)))] at hdn
          cases hdn
        · obtain ⟨q, rfl⟩ := hspec.1 n x (mem_of_dictGet hsn) hn
          rw [dictGet_of_mem hnd (List.mem_append.mpr (Or.inl ((hspec.2 n _).mpr ⟨hn, q, mem_of_dictGet hsn, rfl⟩)))]
            at hdn
          cases hdn
  · intro n v hm
    rcases List.mem_append.mp hm with hm | hm
    · obtain ⟨hn, q, hq, rfl⟩ := (hspec.2 n v).mp hm
      have R := hr n q hq hn
      refine ⟨decide_eq_true R.no_coord, ?_⟩
      have eg : g n q.asXarray = whole (.qty q) := by simp only [g, dictGet_of_mem hs hq]
      rw [eg]
      exact readVar_qty hn R
    · rw [List.mem_singleton] at hm
      cases hm
      obtain ⟨f, hf, ha⟩ := hX t
      refine ⟨by simp [isDataVar, timeVar], ?_⟩
      have e1 : decode X (timeVar X t) =
          { timeVar X t with units := none, dtype := .other "object", data := f (X.enc t).1 } := by
        simp only [decode, timeVar, hf]
      rw [e1]
      simp [readVar, extractTime, timeVar, ha, g, ht, whole, Except.map]

/-- C99: what a successful `write_state` wrote, `read_state` returns: the same names, for each the same dimensions,
units, backend, type and array (halo included), and the same date; the domain of each quantity is its whole array. -/
theorem C99_round_trip {X : Coder C T} (hX : X.Lawful) {S : Session} {s : State C T} (hs : (s.map (·.1)).Nodup)
    (hr : ∀ n q, (n, Val.qty q) ∈ s → n ≠ "time" → Readable X S n q) {name : String} {fs : Files C}
    (hw : (writeState X s name fs).2 = none) :
    ∃ s', readState X S name (writeState X s name fs).1 = .ok s' ∧
      ∀ n, dictGet s' n = (dictGet s n).map whole := by
  obtain ⟨d, t, hd, ht, _, e⟩ := write_ok hw
  obtain ⟨s', h1, h2⟩ := read_written hX hs hd ht hr
  exact ⟨s', by rw [e, readState, dictGet_cons, if_pos rfl]; exact h1, h2⟩

/-- C99: which states can be written. -/
theorem C99_written (X : Coder C T) (s : State C T) (hs : (s.map (·.1)).Nodup) (name : String) (fs : Files C) :
    (writeState X s name fs).2 = none ↔ Writable s := by
  have agree : ∀ l : List (String × Nat), StateFiles.sizesAgree l = true ↔
      ∀ k a b, (k, a) ∈ l → (k, b) ∈ l → a = b := by
    intro l
    simp only [StateFiles.sizesAgree, List.all_eq_true, Bool.or_eq_true, bne_iff_ne, ne_eq, beq_iff_eq]
    constructor
    · intro h k a b ha hb
      exact (h _ ha _ hb).resolve_left (fun h => h rfl)
    · rintro h ⟨k, a⟩ ha ⟨k', b⟩ hb
      by_cases e : k = k'
      · subst e; exact Or.inr (h k a b ha hb)
      · exact Or.inl e
  have key : ∀ d t, dataVars s = .ok d →
      (consistent (d ++ [("time", timeVar X t)]) = true ↔
        (∀ n q m r k a b, (n, Val.qty q) ∈ s → (m, Val.qty r) ∈ s → n ≠ "time" → m ≠ "time" →
          (k, a) ∈ q.dims → (k, b) ∈ r.dims → a = b) ∧
        (∀ n q k a, (n, Val.qty q) ∈ s → n ≠ "time" → (k, a) ∈ q.dims →
          k ≠ "time" ∧ ∀ m r, (m, Val.qty r) ∈ s → m ≠ "time" → r.dims = [] → k ≠ m)) := by
    intro d t hd
    have hspec := (dataVars_spec hd).2
    rw [consistent, Bool.and_eq_true, agree]
    refine and_congr ?_ ?_
    · simp only [List.mem_flatMap, List.mem_append, List.mem_singleton]
      constructor
      · intro h n q m r k a b hq hr' hn hm ha hb
        exact h k a b ⟨(n, q.asXarray), Or.inl ((hspec _ _).mpr ⟨hn, q, hq, rfl⟩), ha⟩
          ⟨(m, r.asXarray), Or.inl ((hspec _ _).mpr ⟨hm, r, hr', rfl⟩), hb⟩
      · rintro h k a b ⟨⟨n, v⟩, h1, ha⟩ ⟨⟨m, w⟩, h2, hb⟩
        rcases h1 with h1 | h1
        · rcases h2 with h2 | h2
          · obtain ⟨hn, q, hq, rfl⟩ := (hspec _ _).mp h1
            obtain ⟨hm, r, hr', rfl⟩ := (hspec _ _).mp h2
            exact h n q m r k a b hq hr' hn hm ha hb
          · cases h2; cases hb
        · cases h1; cases ha
    · simp only [List.all_eq_true, Bool.or_eq_true, Bool.not_eq_true', bne_iff_ne, ne_eq, List.mem_append,
        List.mem_singleton]
      constructor
      · intro h n q k a hq hn ha
        refine ⟨fun e => ?_, fun m r hr' hm hd e => ?_⟩
        · rcases h ("time", timeVar X t) (Or.inr rfl) with h | h
          · cases h
          · exact h (n, q.asXarray) (Or.inl ((hspec _ _).mpr ⟨hn, q, hq, rfl⟩)) _ ha e
        · rcases h (m, r.asXarray) (Or.inl ((hspec _ _).mpr ⟨hm, r, hr', rfl⟩)) with h | h
          · simp [Qty.asXarray, hd] at h
          · exact h (n, q.asXarray) (Or.inl ((hspec _ _).mpr ⟨hn, q, hq, rfl⟩)) _ ha e
      · rintro h ⟨m, v⟩ hm
        rcases hm with hm | hm
        · obtain ⟨hmt, r, hr', rfl⟩ := (hspec _ _).mp hm
          cases hd : r.dims with
          | cons a l => left; simp [Qty.asXarray, hd]
          | nil =>
            right
            rintro ⟨n, w⟩ hn ⟨k, a⟩ ha
            rcases hn with hn | hn
            · obtain ⟨hnt, q, hq, rfl⟩ := (hspec _ _).mp hn
              exact (h n q k a hq hnt ha).2 m r hr' hmt hd
            · cases hn; cases ha
        · cases hm
          right
          rintro ⟨n, w⟩ hn ⟨k, a⟩ ha
          rcases hn with hn | hn
          · obtain ⟨hnt, q, hq, rfl⟩ := (hspec _ _).mp hn
            exact (h n q k a hq hnt ha).1
          · cases hn; cases ha
  constructor
  · intro h
    obtain ⟨d, t, hd, ht, hc, _⟩ := write_ok h
    obtain ⟨h1, h2⟩ := (key d t hd).mp hc
    exact ⟨⟨t, ht⟩, (dataVars_spec hd).1, h1, h2⟩
  · rintro ⟨⟨t, ht⟩, hrest, hz, hsc⟩
    obtain ⟨d, hd⟩ := dataVars_ok hrest
    have hn : "time" ∉ d.map (·.1) := fun hm => by
      obtain ⟨⟨n, v⟩, hm, hn⟩ := List.mem_map.mp hm
      exact (((dataVars_spec hd).2 n v).mp hm).1 hn
    have hc := (key d t hd).mpr ⟨hz, hsc⟩
    simp only [writeState, toDataset, ht, hd, dictSet_append hn, hc, if_true]

/-- C99: a state without `time` is refused, and a write that fails changes no file. -/
theorem C99_refused (X : Coder C T) (s : State C T) (name : String) (fs : Files C) :
    (dictGet s "time" = none → writeState X s name fs = (fs, some .valueError)) ∧
    ((writeState X s name fs).2 ≠ none → (writeState X s name fs).1 = fs) := by
  refine ⟨fun h => by simp only [writeState, h], fun h => ?_⟩
  unfold writeState at h ⊢
  split
  · rfl
  · split
    · rfl
    · rename_i _ h1 _ _ h2
      simp only [h1, h2] at h
      exact absurd rfl h

theorem write_indep (X : Coder C T) (s : State C T) (name name' : String) (fs fs' : Files C) :
    (writeState X s name fs).2 = (writeState X s name' fs').2 := by
  unfold writeState
  split
  · rfl
  · split <;> rfl

theorem write_other (X : Coder C T) (s : State C T) {name name' : String} (fs : Files C)
    (h : (writeState X s name' fs).2 = none → name' ≠ name) :
    dictGet (writeState X s name' fs).1 name = dictGet fs name := by
  by_cases h' : (writeState X s name' fs).2 = none
  · obtain ⟨d, t, _, _, _, e⟩ := write_ok h'
    rw [e, dictGet_cons, if_neg (h h')]
  · rw [(C99_refused X s name' fs).2 h']

theorem writes_other (X : Coder C T) (l : List (State C T × String)) {name : String} (fs : Files C)
    (h : ∀ s n, (s, n) ∈ l → Writable s → n ≠ name) (hl : ∀ s n, (s, n) ∈ l → (s.map (·.1)).Nodup) :
    dictGet (writes X l fs) name = dictGet fs name := by
  induction l generalizing fs with
  | nil => rfl
  | cons e l ih =>
    obtain ⟨s, n⟩ := e
    rw [writes, ih _ (fun s n hm => h s n (List.mem_cons_of_mem _ hm))
      (fun s n hm => hl s n (List.mem_cons_of_mem _ hm))]
    refine write_other X s fs fun h' => h s n List.mem_cons_self ?_
    exact (C99_written X s (hl s n List.mem_cons_self) n fs).mp h'

theorem writes_append (X : Coder C T) (l l' : List (State C T × String)) (fs : Files C) :
    writes X (l ++ l') fs = writes X l' (writes X l fs) := by
  induction l generalizing fs with
  | nil => rfl
  | cons e l ih => obtain ⟨s, n⟩ := e; exact ih _

/-- C99: after any history of writes, to this and other files, some of which fail, reading a file gives the last state
that could be written to it. -/
theorem C99_history {X : Coder C T} (hX : X.Lawful) {S : Session} (before after : List (State C T × String))
    {s : State C T} {name : String} (fs : Files C) (hs : (s.map (·.1)).Nodup) (hw : Writable s)
    (hr : ∀ n q, (n, Val.qty q) ∈ s → n ≠ "time" → Readable X S n q)
    (ha : ∀ s' n, (s', n) ∈ after → (s'.map (·.1)).Nodup)
    (hl : ∀ s' n, (s', n) ∈ after → Writable s' → n ≠ name) :
    ∃ s', readState X S name (writes X (before ++ (s, name) :: after) fs) = .ok s' ∧
      ∀ n, dictGet s' n = (dictGet s n).map whole := by
  have hw' := (C99_written X s hs name (writes X before fs)).mpr hw
  obtain ⟨s', h1, h2⟩ := C99_round_trip hX hs hr hw'
  refine ⟨s', ?_, h2⟩
  rw [writes_append, writes]
  unfold readState at h1 ⊢
  rw [writes_other X after _ hl ha]
  exact h1

/-- C99: a dataset made of a state, with or without a date, is one in which every dimension has one size. -/
theorem C99_dataset (X : Coder C T) (s : State C T) (d : List (String × Var C)) (h : toDataset X s = .ok d)
    {n m k : String} {v w : Var C} {a b : Nat} (hv : (n, v) ∈ d) (hw : (m, w) ∈ d) (ha : (k, a) ∈ v.dims)
    (hb : (k, b) ∈ w.dims) : a = b := by
  have hc : consistent d = true := by
    unfold toDataset at h
    split at h
    · cases h
    · split at h
      · split at h
        · cases h; assumption
        · cases h
      · cases h
      · simp only at h
        split at h
        · cases h; assumption
        · cases h
  simp only [consistent, Bool.and_eq_true] at hc
  have h1 := hc.1
  simp only [StateFiles.sizesAgree, List.all_eq_true, Bool.or_eq_true, bne_iff_ne, ne_eq, beq_iff_eq] at h1
  have e := h1 (k, a) (List.mem_flatMap.mpr ⟨_, hv, ha⟩) (k, b) (List.mem_flatMap.mpr ⟨_, hw, hb⟩)
  exact e.resolve_left (fun h => h rfl)

/-- Two quantities which differ about the size of `x`: refused without a date too. -/
example : toDataset (C := List Int) (T := Int) ⟨fun t => ([t], "hours"), fun _ => none, fun _ => none⟩ [("a", .qty ⟨[("x", 2)], "m", "numpy", [0], [2], .float 64, [1, 2]⟩),
    ("b", .qty ⟨[("x", 3)], "m", "numpy", [0], [3], .float 64, [1, 2, 3]⟩)] = .error .valueError := by decide +kernel

/-- C99: a file with more than one date (and not with dates for a coordinate `time`) is refused. -/
theorem C99_series (X : Coder C T) (S : Session) (name : String) (fs : Files C) (d : List (String × Var C))
    (hd : dictGet fs name = some d) (v : Var C) (hv : ("time", v) ∈ d) (hdim : v.dims ≠ [])
    (hc : v.dims.map (·.1) ≠ ["time"]) : ∀ s, readState X S name fs ≠ .ok s := by
  have key : ∀ (d : List (String × Var C)) (out s : State C T), ("time", v) ∈ d → readVars X S d out ≠ .ok s := by
    intro d
    induction d with
    | nil => intro out s h; cases h
    | cons e d ih =>
      obtain ⟨n, w⟩ := e
      intro out s h hr
      rw [readVars] at hr
      rcases List.mem_cons.mp h with he | he
      · cases he
        have h1 : isDataVar ("time", v) = true := by simpa [isDataVar] using hc
        have e2 : (decode X v).dims = v.dims := by
          unfold decode
          split
          · rfl
          · split <;> rfl
        have e3 : 0 < (decode X v).dims.length := by rw [e2]; exact List.length_pos_iff.mpr hdim
        rw [if_pos h1, readVar, if_pos rfl, extractTime, if_pos e3] at hr
        cases hr
      · split at hr
        · split at hr
          · cases hr
          · exact ih _ _ he hr
        · exact ih _ _ he hr
  intro s h
  rw [readState, hd] at h
  exact key d [] s hv h

/-- C99: a file without units or backend is read with units `unknown` and the default backend. -/
theorem C99_attributes (X : Coder C T) (S : Session) (v : Var C) (hu : v.units = none) (hb : v.backend = none)
    (hf : ∀ b, v.dtype = .float b → b = S.bits) (n : String) (hn : n ≠ "time") (hc : v.dims.map (·.1) ≠ [n])
    (fs : Files C) :
    readState X S "f" (("f", [(n, v)]) :: fs) = .ok [(n, .qty ⟨v.dims, "unknown", S.default, v.dims.map fun _ => 0,
      v.dims.map fun d => (d.2 : Int), v.dtype, v.data⟩)] := by
  have h1 : isDataVar (n, v) = true := by simpa [isDataVar] using hc
  have e1 : decode X v = v := by simp only [decode, hu]
  rw [readState, dictGet_cons, if_pos rfl]
  simp only [readVars, if_pos h1, e1, readVar, if_neg hn, fromDataArray, resolveBackend, hb, hu, Option.getD_none]
  cases hd : v.dtype with
  | other _ => rfl
  | float b => simp [hf b hd, Except.map, dictSet]

/-! ### examples -/

/-- Dates are numbers of hours; contents are lists of numbers; units of spans of time are decoded. -/
def exCoder : Coder (List Int) Int :=
  ⟨fun t => ([t], "hours since 2000-01-01"),
    fun u => if u = "hours since 2000-01-01" then some (·.map (· + 1000000))
      else if u = "seconds" then some (·.map (· * 1000000000)) else none,
    fun c => match c with
      | [x] => if x ≥ 1000000 then some (x - 1000000) else none
      | _ => none⟩

theorem exCoder_date (t : Int) (h : 0 ≤ t) :
    ∃ f, exCoder.dec (exCoder.enc t).2 = some f ∧ exCoder.asTime (f (exCoder.enc t).1) = some t := by
  refine ⟨(·.map (· + 1000000)), rfl, ?_⟩
  simp only [exCoder, List.map_cons, List.map_nil]
  rw [if_pos (by omega)]
  congr 1; omega

/-- A coder with natural numbers as dates, which is lawful. -/
def natCoder : Coder (List Int) Nat :=
  ⟨fun t => ([(t : Int)], "hours since 2000-01-01"), exCoder.dec, fun c => (exCoder.asTime c).map Int.toNat⟩

theorem natCoder_lawful : natCoder.Lawful := by
  intro t
  obtain ⟨f, h1, h2⟩ := exCoder_date t (Int.natCast_nonneg t)
  exact ⟨f, h1, by simp only [natCoder]; rw [show exCoder.asTime (f [(t : Int)]) = some (t : Int) from h2]; simp⟩

def exSession : Session := ⟨64, ["numpy", "python"], "python"⟩

/-- A field with halo. -/
def exQ : Qty (List Int) := ⟨[("x", 3), ("y", 1)], "m", "numpy", [1, 0], [1, 1], .float 64, [7, 8, 9]⟩

def exState : State (List Int) Nat := [("h", .qty exQ), ("time", .time 17)]

example : ∃ s', readState natCoder exSession "a.nc" (writeState natCoder exState "a.nc" []).1 = .ok s' ∧
    ∀ n, dictGet s' n = (dictGet exState n).map whole := by
  refine C99_round_trip natCoder_lawful (by decide) (fun n q h hn => ?_) (by decide +kernel)
  simp only [exState, List.mem_cons, Prod.mk.injEq, Val.qty.injEq, List.not_mem_nil, or_false, reduceCtorEq,
    and_false] at h
  obtain ⟨rfl, rfl⟩ := h
  exact ⟨by decide, by decide +kernel, by decide, fun b hb => by cases hb; rfl⟩

example : Writable exState := (C99_written natCoder exState (by decide) "a" []).mp (by decide +kernel)

/-- C99 (not so in general): the halo of a quantity is part of its domain after reading. -/
theorem C99_halo_violated : ∃ s', readState natCoder exSession "a" (writeState natCoder exState "a" []).1 = .ok s' ∧
    dictGet s' "h" = some (.qty ⟨[("x", 3), ("y", 1)], "m", "numpy", [0, 0], [3, 1], .float 64, [7, 8, 9]⟩) ∧
    dictGet s' "h" ≠ dictGet exState "h" := by
  refine ⟨[("h", .qty ⟨[("x", 3), ("y", 1)], "m", "numpy", [0, 0], [3, 1], .float 64, [7, 8, 9]⟩), ("time", .time 17)],
    rfl, rfl, by decide +kernel⟩

/-- C99 (not so): a quantity with the name of its only dimension is written and not read. -/
theorem C99_coordinate_violated :
    let s : State (List Int) Nat := [("x", .qty ⟨[("x", 3)], "m", "numpy", [0], [3], .float 64, [7, 8, 9]⟩), ("time", .time 17)]
    (writeState natCoder s "a" []).2 = none ∧
    readState natCoder exSession "a" (writeState natCoder s "a" []).1 = .ok [("time", .time 17)] := by
  exact ⟨by decide +kernel, rfl⟩

/-- C99 (not so): a state with a quantity of the other precision is written, and reading it fails as a whole. -/
theorem C99_precision_violated :
    let s : State (List Int) Nat := [("h", .qty { exQ with dtype := .float 32 }), ("time", .time 17)]
    (writeState natCoder s "a" []).2 = none ∧
    readState natCoder exSession "a" (writeState natCoder s "a" []).1 = .error .valueError := by
  exact ⟨by decide +kernel, rfl⟩

/-- C99 (not so): a quantity in units of a time span comes back with other values and unknown units. -/
theorem C99_units_violated :
    let s : State (List Int) Nat := [("h", .qty { exQ with units := "seconds" }), ("time", .time 17)]
    ∃ s', readState natCoder exSession "a" (writeState natCoder s "a" []).1 = .ok s' ∧
      dictGet s' "h" = some (.qty ⟨[("x", 3), ("y", 1)], "unknown", "numpy", [0, 0], [3, 1], .other "object",
        [7000000000, 8000000000, 9000000000]⟩) := by
  exact ⟨_, rfl, rfl⟩

/-- C99 (not so): a file with a date for each of several times along `time` is read without an error, and without
`time`. -/
theorem C99_series_violated :
    readState natCoder exSession "a" [("a", [("time", ⟨[("time", 2)], some "hours since 2000-01-01", none,
      .other "int64", [1, 2]⟩)])] = .ok [] := rfl

/-! ### coupler.res -/

theorem space_blank : isSpace ' ' = true := rfl

theorem digit_not_space {c : Char} (h : c.isDigit = true) : isSpace c = false := by
  cases hs : isSpace c with
  | false => rfl
  | true =>
    exfalso
    simp only [isSpace, Bool.or_eq_true, decide_eq_true_eq] at hs
    rcases hs with ((((rfl | rfl) | rfl) | rfl) | rfl) | rfl <;> revert h <;> decide

theorem digits_cons (n : Nat) : ∃ c l, digits n = c :: l := by
  have : digits n ≠ [] := Nat.toDigits_ne_nil
  cases h : digits n with
  | nil => exact absurd h this
  | cons c l => exact ⟨c, l, rfl⟩

theorem natOf_digits (n : Nat) : natOf (digits n) = some n := by
  have h1 : digits n ≠ [] := Nat.toDigits_ne_nil
  have h2 : (digits n).all Char.isDigit = true := by
    rw [List.all_eq_true]; intro c hc; exact NetCDF.digits_isDigit hc
  rw [natOf, if_pos ⟨h1, h2⟩]
  exact congrArg some (NetCDF.digits_value n)

theorem intOf_digits (n : Nat) : intOf (digits n) = some (n : Int) := by
  obtain ⟨c, l, e⟩ := digits_cons n
  have hc : c.isDigit = true := NetCDF.digits_isDigit (n := n) (by
    have : c ∈ digits n := by rw [e]; exact List.mem_cons_self
    exact this)
  have e1 : intOf (digits n) = (natOf (digits n)).map fun n => (n : Int) := by
    rw [e]
    unfold intOf
    split
    · rename_i h; cases h; exact absurd hc (by decide)
    · rename_i h; cases h; exact absurd hc (by decide)
    · rfl
  rw [e1, natOf_digits]; rfl

theorem intOf_text (n : Int) : intOf (intText n) = some n := by
  unfold intText
  split
  · rename_i h
    rw [intOf, natOf_digits]
    exact congrArg some (show -(n.natAbs : Int) = n by omega)
  · rw [intOf_digits]
    exact congrArg some (by omega)

theorem intText_chars {n : Int} {c : Char} (h : c ∈ intText n) : isSpace c = false := by
  unfold intText at h
  split at h
  · rcases List.mem_cons.mp h with rfl | h
    · rfl
    · exact digit_not_space (NetCDF.digits_isDigit h)
  · exact digit_not_space (NetCDF.digits_isDigit h)

theorem intText_cons (n : Int) : ∃ c l, intText n = c :: l := by
  unfold intText
  split
  · exact ⟨_, _, rfl⟩
  · exact digits_cons _

theorem gapChar_space (b : Bool) : isSpace (gapChar b) = true := by cases b <;> rfl

theorem splitGo_gap (g : List Bool) (l : List Char) : splitGo [] (g.map gapChar ++ l) = splitGo [] l := by
  induction g with
  | nil => rfl
  | cons b g ih => rw [List.map_cons, List.cons_append, splitGo, if_pos (gapChar_space b), ih]

theorem splitGo_token (cur w l : List Char) (h : ∀ c ∈ w, isSpace c = false) (hn : cur ≠ []) (x : Char)
    (hx : isSpace x = true) :
    splitGo cur (w ++ x :: l) = (cur.reverse ++ w) :: splitGo [] l := by
  induction w generalizing cur with
  | nil =>
    cases cur with
    | nil => exact absurd rfl hn
    | cons c cur => rw [List.nil_append, splitGo, if_pos hx, List.append_nil]
  | cons a w ih =>
    cases cur with
    | nil => exact absurd rfl hn
    | cons c cur =>
      rw [List.cons_append, splitGo, if_neg (by rw [h a List.mem_cons_self]; decide)]
      rw [ih (a :: c :: cur) (fun c hc => h c (List.mem_cons_of_mem _ hc)) (by simp)]
      simp

theorem split_number (g : List Bool) (n : Int) (l : List Char) (x : Char) (hx : isSpace x = true) :
    splitGo [] (g.map gapChar ++ (intText n ++ x :: l)) = intText n :: splitGo [] l := by
  obtain ⟨c, w, e⟩ := intText_cons n
  have hd : ∀ a ∈ c :: w, isSpace a = false := by
    intro a ha; rw [← e] at ha; exact intText_chars ha
  rw [splitGo_gap, e, List.cons_append, splitGo, if_neg (by rw [hd c List.mem_cons_self]; decide)]
  rw [splitGo_token [c] w l (fun a ha => hd a (List.mem_cons_of_mem _ ha)) (by simp) x hx]
  rfl

theorem numberLine_head (l : List (Gap × Int)) (c : List Char) :
    ∃ x r, isSpace x = true ∧ numberLine l (' ' :: c) = x :: r := by
  cases l with
  | nil => exact ⟨_, _, space_blank, rfl⟩
  | cons e l => obtain ⟨b, n⟩ := e; exact ⟨_, _, gapChar_space b.1, rfl⟩

theorem splitGo_space {x : Char} (h : isSpace x = true) (l : List Char) : splitGo [] (x :: l) = splitGo [] l := by
  rw [splitGo, if_pos h]

theorem split_numberLine (l : List (Gap × Int)) (c : List Char) :
    split (numberLine l (' ' :: c)) = l.map (fun e => intText e.2) ++ split (c ++ ['\n']) := by
  induction l with
  | nil => exact splitGo_space space_blank _
  | cons e l ih =>
    obtain ⟨⟨b, g⟩, n⟩ := e
    obtain ⟨x, r, hx, hr⟩ := numberLine_head l c
    have : numberLine (((b, g), n) :: l) (' ' :: c) = gapChar b :: (g.map gapChar ++ (intText n ++ x :: r)) := by
      rw [numberLine, hr]; rfl
    rw [split, this, splitGo_space (gapChar_space b), split_number _ _ _ _ hx, List.map_cons, List.cons_append]
    congr 1
    rw [← ih, split, hr, splitGo_space hx]

theorem readline_line {l : List Char} (h : '\n' ∉ l) (r : List Char) :
    readline (l ++ '\n' :: r) = (l ++ ['\n'], r) := by
  induction l with
  | nil => rfl
  | cons c l ih =>
    rw [List.mem_cons, not_or] at h
    rw [List.cons_append, readline, if_neg (fun e => h.1 e.symm), ih h.2]; rfl

/-- A line of numbers without its end. -/
def numberText : List (Gap × Int) → List Char → List Char
  | [], comment => comment
  | (g, n) :: l, comment => g.text ++ (intText n ++ numberText l comment)

theorem numberLine_text (l : List (Gap × Int)) (c : List Char) : numberLine l c = numberText l c ++ ['\n'] := by
  induction l with
  | nil => rfl
  | cons e l ih => obtain ⟨b, n⟩ := e; simp only [numberLine, numberText, ih, List.append_assoc]

theorem numberText_newline {l : List (Gap × Int)} {c : List Char} (hc : '\n' ∉ c) : '\n' ∉ numberText l c := by
  induction l with
  | nil => exact hc
  | cons e l ih =>
    obtain ⟨⟨b, g⟩, n⟩ := e
    have hg : ∀ b, gapChar b ≠ '\n' := by intro b; cases b <;> decide
    simp only [numberText, List.mem_append, not_or]
    refine ⟨fun h => ?_, fun h => ?_, ih⟩
    · simp only [Gap.text, List.mem_cons, List.mem_map] at h
      rcases h with h | ⟨b', -, h⟩
      · exact hg b h.symm
      · exact hg b' h
    · have := intText_chars h
      revert this; decide

theorem readline_numbers {l : List (Gap × Int)} {c : List Char} (hc : '\n' ∉ c) (r : List Char) :
    readline (numberLine l c ++ r) = (numberLine l c, r) := by
  rw [numberLine_text, List.append_assoc]
  exact readline_line (numberText_newline hc) r

theorem allInts_text (l : List (Gap × Int)) :
    allInts (l.map fun e => intText e.2) = .ok (l.map fun e => e.2) := by
  induction l with
  | nil => rfl
  | cons e l ih => rw [List.map_cons, allInts, intOf_text]; simp only [ih]; rfl

theorem integerTokens_line (l : List (Gap × Int)) (c : List Char) :
    integerTokens (numberLine l (' ' :: c)) l.length = .ok (l.map fun e => e.2) := by
  rw [integerTokens, split_numberLine, List.take_append_of_le_length (by simp), List.take_of_length_le (by simp)]
  exact allInts_text l

theorem currentDate_text (valid : Date → Bool) (cal : Gap × Int) (start now : List (Gap × Int))
    (hn : now.length = 6) {c1 c2 c3 : List Char} (h1 : '\n' ∉ c1) (h2 : '\n' ∉ c2) (h3 : '\n' ∉ c3)
    (rest : List Char) :
    currentDate valid (couplerRes cal start now c1 c2 c3 rest) =
      dateOf valid cal.2 (now.map fun e => e.2) := by
  have hb : ∀ {c : List Char}, '\n' ∉ c → '\n' ∉ ' ' :: c := by
    intro c h; simp [h]
  unfold currentDate couplerRes
  simp only [readline_numbers (hb h1), readline_numbers (hb h2), readline_numbers (hb h3)]
  have e1 := integerTokens_line [cal] c1
  have e3 := integerTokens_line now c3
  rw [hn] at e3
  rw [show integerTokens (numberLine [cal] (' ' :: c1)) 1 = _ from e1, e3]
  rfl

/-- C99: from a `coupler.res` file with any gaps of blanks and tabs, any comments and anything after its third line, the
date of the third line in the calendar of the first is read; the start on the second line does not matter. -/
theorem C99_date (valid : Date → Bool) (b0 b1 b2 b3 b4 b5 b6 : Gap) (cal : Calendar) (code y mo d h mi s : Int)
    (hcal : (code, cal) ∈ [(1, Calendar.day360), (2, .julian), (3, .gregorian), (4, .noleap)])
    (start : List (Gap × Int)) {c1 c2 c3 : List Char} (h1 : '\n' ∉ c1) (h2 : '\n' ∉ c2) (h3 : '\n' ∉ c3)
    (rest : List Char) (hv : valid ⟨cal, y, mo, d, h, mi, s⟩ = true) :
    currentDate valid (couplerRes (b0, code) start
      [(b1, y), (b2, mo), (b3, d), (b4, h), (b5, mi), (b6, s)] c1 c2 c3 rest) = .ok ⟨cal, y, mo, d, h, mi, s⟩ := by
  rw [currentDate_text valid _ _ _ rfl h1 h2 h3]
  have : fmsCalendar code = .ok cal := by
    simp only [List.mem_cons, Prod.mk.injEq, List.not_mem_nil, or_false] at hcal
    rcases hcal with ⟨rfl, rfl⟩ | ⟨rfl, rfl⟩ | ⟨rfl, rfl⟩ | ⟨rfl, rfl⟩ <;> rfl
  simp only [List.map_cons, List.map_nil, dateOf, this, mkDate, hv, if_true]

/-- C99: another number for the calendar (0 is FMS's for none) is refused. -/
theorem C99_calendar (valid : Date → Bool) (cal : Gap × Int) (hcal : cal.2 < 1 ∨ 4 < cal.2)
    (start now : List (Gap × Int)) (hn : now.length = 6)
    {c1 c2 c3 : List Char} (h1 : '\n' ∉ c1) (h2 : '\n' ∉ c2) (h3 : '\n' ∉ c3) (rest : List Char) :
    currentDate valid (couplerRes cal start now c1 c2 c3 rest) = .error .keyError := by
  rw [currentDate_text valid _ _ _ hn h1 h2 h3]
  have : fmsCalendar cal.2 = .error .keyError := by
    unfold fmsCalendar
    rw [if_neg (by omega), if_neg (by omega), if_neg (by omega), if_neg (by omega)]
  match now, hn with
  | [_, _, _, _, _, _], _ => simp only [List.map_cons, List.map_nil, dateOf, this]

example : currentDate (fun _ => true) (chars! "     2        (Calendar: no_calendar=0, ...)\n  2016     8     1     0     0     0        Model start time\n  2016     8     3     0     0     0        Current model time\n")
    = .ok ⟨.julian, 2016, 8, 3, 0, 0, 0⟩ := by decide +kernel

example : currentDate (fun _ => true) (chars! "\t4\t\n 1 1 1 0 0 0\n -20 \t8     3     0     0     0        year before our era\n")
    = .ok ⟨.noleap, -20, 8, 3, 0, 0, 0⟩ := by decide +kernel

end NDSL.StateIO
