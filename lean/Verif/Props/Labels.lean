import Verif.Spec.Labels
/-
Property theorems C119: labels around programs.
-/
namespace NDSL.Labels

variable {E Mem : Type}

/-- Everything is below `next`. -/
structure Graph.Ok (g : Graph E) : Prop where
  edges : ∀ e ∈ g.edges, e.1 < g.next ∧ e.2.1 < g.next
  labels : ∀ l ∈ g.labels, l.1 < g.next

theorem outs_fresh {g : Graph E} (h : g.Ok) : g.outs g.next = [] := by
  unfold Graph.outs
  rw [List.filter_eq_nil_iff]
  intro e he
  have := (h.edges e he).1
  simp; omega

theorem ins_fresh {g : Graph E} (h : g.Ok) : g.ins g.next = [] := by
  unfold Graph.ins
  rw [List.filter_eq_nil_iff]
  intro e he
  have := (h.edges e he).2
  simp; omega

theorem outs_after {g : Graph E} (h : g.Ok) (s : Nat) (hs : s < g.next) (k : Kind) (x : Nat) :
    (g.after s k).1.outs x = if x = s then [(s, g.next, none)] else
      if x = g.next then (g.outs s).map (fun e => (g.next, e.2)) else g.outs x := by
  have h0 := outs_fresh h
  unfold Graph.outs at h0
  simp only [Graph.after, Graph.outs, List.filter_append, List.filter_filter]
  by_cases hx : x = s
  · subst hx
    rw [if_pos rfl]
    have e1 : g.edges.filter (fun a => a.1 == x && a.1 != x) = [] := by
      rw [List.filter_eq_nil_iff]; intro a _; by_cases ha : a.1 = x <;> simp [ha]
    have e2 : ((g.edges.filter (·.1 == x)).map (fun e => (g.next, e.2))).filter (·.1 == x) = [] := by
      rw [List.filter_eq_nil_iff]
      intro a ha
      obtain ⟨e, _, rfl⟩ := List.mem_map.1 ha
      simp; omega
    rw [e1]
    show [] ++ ((g.edges.filter (·.1 == x)).map (fun e => (g.next, e.2))).filter (·.1 == x) ++ _ = _
    rw [e2]; simp
  · rw [if_neg hx]
    have e3 : ([(s, g.next, none)] : List (Nat × Nat × Option E)).filter (·.1 == x) = [] := by
      rw [List.filter_eq_nil_iff]; intro a ha; rw [List.mem_singleton.1 ha]; simpa using Ne.symm hx
    rw [e3, List.append_nil]
    by_cases hn : x = g.next
    · rw [if_pos hn]
      have e1 : g.edges.filter (fun a => a.1 == x && a.1 != s) = [] := by
        rw [List.filter_eq_nil_iff]
        intro a ha
        have := (h.edges a ha).1
        simp; omega
      rw [e1, List.nil_append, List.filter_eq_self]
      intro a ha
      obtain ⟨e, _, rfl⟩ := List.mem_map.1 ha
      simp [hn]
    · rw [if_neg hn]
      have e2 : ((g.edges.filter (·.1 == s)).map (fun e => (g.next, e.2))).filter (·.1 == x) = [] := by
        rw [List.filter_eq_nil_iff]
        intro a ha
        obtain ⟨e, _, rfl⟩ := List.mem_map.1 ha
        simpa using Ne.symm hn
      rw [show (List.map (fun e => (g.next, e.2)) (List.filter (fun x => x.1 == s) g.edges)).filter (fun e => e.1 == x) = [] from e2,
        List.append_nil]
      apply List.filter_congr
      intro a _
      by_cases ha : a.1 = x
      · simp [ha, hx]
      · simp [ha]

theorem ins_after {g : Graph E} (h : g.Ok) (s : Nat) (k : Kind) (x : Nat) (hx : x < g.next) :
    (g.after s k).1.ins x = [] ↔ g.ins x = [] := by
  unfold Graph.ins Graph.after Graph.outs
  simp only [List.filter_append, List.append_eq_nil_iff, List.filter_eq_nil_iff, List.mem_filter, List.mem_map,
    List.mem_singleton]
  constructor
  · rintro ⟨⟨h1, h2⟩, _⟩ e he hex
    by_cases hs : e.1 = s
    · exact h2 (g.next, e.2) ⟨e, ⟨he, by simpa using hs⟩, rfl⟩ hex
    · exact h1 e ⟨he, by simpa using hs⟩ hex
  · intro h1
    refine ⟨⟨fun e he => h1 e he.1, ?_⟩, ?_⟩
    · rintro _ ⟨e, ⟨he, _⟩, rfl⟩
      exact h1 e he
    · rintro _ rfl
      simp; omega

theorem ok_after {g : Graph E} (h : g.Ok) (s : Nat) (hs : s < g.next) (k : Kind) : (g.after s k).1.Ok := by
  constructor
  · intro e he
    show e.1 < g.next + 1 ∧ e.2.1 < g.next + 1
    simp only [Graph.after, Graph.outs, List.mem_append, List.mem_filter, List.mem_map, List.mem_singleton] at he
    rcases he with (⟨he, _⟩ | ⟨e', ⟨he, _⟩, rfl⟩) | rfl
    · have := h.edges e he; omega
    · have := h.edges e' he
      exact ⟨by simp, by show e'.2.1 < _; omega⟩
    · exact ⟨by show s < _; omega, by simp⟩
  · intro l hl
    show l.1 < g.next + 1
    rcases List.mem_append.1 hl with hl | hl
    · have := h.labels l hl; omega
    · rw [List.mem_singleton.1 hl]; simp

theorem outs_before {g : Graph E} (h : g.Ok) (s : Nat) (hi : g.ins s = []) (k : Kind) (x : Nat) :
    (g.before s k).1.outs x = if x = g.next then [(g.next, s, none)] else g.outs x := by
  have hkeep : g.edges.filter (·.2.1 != s) = g.edges := by
    rw [List.filter_eq_self]
    intro e he
    have := List.filter_eq_nil_iff.1 hi e he
    simpa using this
  have h0 := outs_fresh h
  unfold Graph.outs at h0
  unfold Graph.outs Graph.before
  simp only [hi, List.map_nil, List.append_nil, hkeep, List.filter_append]
  by_cases hx : x = g.next
  · rw [if_pos hx, hx, h0]; simp
  · rw [if_neg hx]
    have : ([(g.next, s, none)] : List (Nat × Nat × Option E)).filter (·.1 == x) = [] := by
      rw [List.filter_eq_nil_iff]; intro a ha; rw [List.mem_singleton.1 ha]; simpa using Ne.symm hx
    rw [this, List.append_nil]

theorem ins_before {g : Graph E} (s : Nat) (hi : g.ins s = []) (k : Kind) (x : Nat) (hx : x ≠ s) :
    (g.before s k).1.ins x = [] ↔ g.ins x = [] := by
  have hkeep : g.edges.filter (·.2.1 != s) = g.edges := by
    rw [List.filter_eq_self]
    intro e he
    have := List.filter_eq_nil_iff.1 hi e he
    simpa using this
  unfold Graph.before
  simp only [hi, List.map_nil, List.append_nil, hkeep]
  unfold Graph.ins
  simp only [List.filter_append, List.append_eq_nil_iff]
  constructor
  · exact fun h => h.1
  · intro h
    refine ⟨h, ?_⟩
    rw [List.filter_eq_nil_iff]; intro a ha; rw [List.mem_singleton.1 ha]; simpa using Ne.symm hx

theorem ok_before {g : Graph E} (h : g.Ok) (s : Nat) (hs : s < g.next) (k : Kind) : (g.before s k).1.Ok := by
  constructor
  · intro e he
    show e.1 < g.next + 1 ∧ e.2.1 < g.next + 1
    simp only [Graph.before, Graph.ins, List.mem_append, List.mem_filter, List.mem_map, List.mem_singleton] at he
    rcases he with (⟨he, _⟩ | ⟨e', ⟨he, _⟩, rfl⟩) | rfl
    · have := h.edges e he; omega
    · have := h.edges e' he
      exact ⟨by show e'.1 < _; omega, by simp⟩
    · exact ⟨by simp, by show s < _; omega⟩
  · intro l hl
    show l.1 < g.next + 1
    rcases List.mem_append.1 hl with hl | hl
    · have := h.labels l hl; omega
    · rw [List.mem_singleton.1 hl]; simp

/-- Where the edges out of a state lead. -/
def Graph.dsts (g : Graph E) (s : Nat) : List (Nat × Option E) := (g.outs s).map (·.2)

theorem dsts_nil {g : Graph E} {s : Nat} : g.dsts s = [] ↔ g.outs s = [] := by
  unfold Graph.dsts; rw [List.map_eq_nil_iff]

theorem dsts_after {g : Graph E} (h : g.Ok) (s : Nat) (hs : s < g.next) (k : Kind) (x : Nat) :
    (g.after s k).1.dsts x = if x = s then [(g.next, none)] else if x = g.next then g.dsts s else g.dsts x := by
  unfold Graph.dsts
  rw [outs_after h s hs]
  by_cases hx : x = s
  · rw [if_pos hx, if_pos hx]; rfl
  · rw [if_neg hx, if_neg hx]
    by_cases hn : x = g.next
    · rw [if_pos hn, if_pos hn, List.map_map]; rfl
    · rw [if_neg hn, if_neg hn]

theorem dsts_before {g : Graph E} (h : g.Ok) (s : Nat) (hi : g.ins s = []) (k : Kind) (x : Nat) :
    (g.before s k).1.dsts x = if x = g.next then [(s, none)] else g.dsts x := by
  unfold Graph.dsts
  rw [outs_before h s hi]
  by_cases hn : x = g.next
  · rw [if_pos hn, if_pos hn]; rfl
  · rw [if_neg hn, if_neg hn]

theorem labelsOf_after {g : Graph E} (h : g.Ok) (s : Nat) (k : Kind) (x : Nat) :
    (g.after s k).1.labelsOf x = if x = g.next then [k] else g.labelsOf x := by
  show ((g.labels ++ [(g.next, k)]).filter (·.1 == x)).map (·.2) = _
  rw [List.filter_append, List.map_append]
  by_cases hx : x = g.next
  · rw [if_pos hx]
    have : g.labels.filter (·.1 == x) = [] := by
      rw [List.filter_eq_nil_iff]
      intro l hl
      have := h.labels l hl
      simp; omega
    rw [this]; simp [hx]
  · rw [if_neg hx]
    have : ([(g.next, k)] : List (Nat × Kind)).filter (·.1 == x) = [] := by
      rw [List.filter_eq_nil_iff]; intro a ha; rw [List.mem_singleton.1 ha]; simpa using Ne.symm hx
    rw [this]; simp [Graph.labelsOf]

theorem labelsOf_before {g : Graph E} (h : g.Ok) (s : Nat) (k : Kind) (x : Nat) :
    (g.before s k).1.labelsOf x = if x = g.next then [k] else g.labelsOf x := labelsOf_after h s k x

/-- The state goes where it went, or to a new last state with the second label. -/
def Ends (base : Nat) (g : Graph E) (l : List (Nat × Option E)) (s : Nat) : Prop :=
  (l ≠ [] ∧ g.dsts s = l) ∨
  (l = [] ∧ ∃ x, base ≤ x ∧ x < g.next ∧ g.dsts s = [(x, none)] ∧ g.dsts x = [] ∧ g.labelsOf x = [.exit])

/-- What is known between two rounds of the loop. -/
structure Inv (top : Bool) (g0 : Graph E) (s0 : Nat) (done : List Nat) (g : Graph E) : Prop where
  ok : g.Ok
  ge : g0.next ≤ g.next
  todoOuts : ∀ s, s < g0.next → s ∉ done → g.dsts s = g0.dsts s
  todoIns : ∀ s, s < g0.next → s ∉ done → (g.ins s = [] ↔ g0.ins s = [])
  plain : ∀ s, s < g0.next → g.labelsOf s = []
  other : ∀ s ∈ done, s ≠ s0 → Ends g0.next g (g0.dsts s) s
  startTop : top = true → s0 ∈ done → ∃ e, g0.next ≤ e ∧ e < g.next ∧ g.dsts s0 = [(e, none)] ∧ g.labelsOf e = [.enter] ∧
    Ends g0.next g (g0.dsts s0) e
  startNested : top = false → s0 ∈ done → ∃ e, g0.next ≤ e ∧ e < g.next ∧ g.dsts e = [(s0, none)] ∧ g.labelsOf e = [.enter] ∧
    g.ins e = [] ∧ g.dsts s0 = g0.dsts s0

/-- A change that keeps everything about the old states but one keeps where they end. -/
theorem ends_keep {base : Nat} {g g' : Graph E} {l : List (Nat × Option E)} {s : Nat} (h : Ends base g l s)
    (hn : g.next ≤ g'.next) (hs : g'.dsts s = g.dsts s) (hx : ∀ x, base ≤ x → x < g.next → x ≠ s → g.labelsOf x = [.exit] →
      g'.dsts x = g.dsts x ∧ g'.labelsOf x = g.labelsOf x) (hne : g.labelsOf s ≠ [.exit]) : Ends base g' l s := by
  rcases h with ⟨h1, h2⟩ | ⟨h1, x, a1, a2, a3, a4, a5⟩
  · exact Or.inl ⟨h1, hs.trans h2⟩
  · have hxs : x ≠ s := by rintro rfl; exact hne a5
    obtain ⟨b1, b2⟩ := hx x a1 a2 hxs a5
    exact Or.inr ⟨h1, x, a1, by omega, hs.trans a3, b1.trans a4, b2.trans a5⟩

/-- The second half of the loop body for a state that has just been looked at. -/
theorem exit_ends {base : Nat} {g : Graph E} (h : g.Ok) (hb : base ≤ g.next) (s : Nat) (hs : s < g.next) :
    Ends base (if (g.outs s).isEmpty then (g.after s .exit).1 else g) (g.dsts s) s := by
  by_cases ho : (g.outs s).isEmpty = true
  · rw [if_pos ho]
    have hd : g.dsts s = [] := dsts_nil.2 (List.isEmpty_iff.1 ho)
    refine Or.inr ⟨hd, g.next, hb, Nat.lt_succ_self _, ?_, ?_, ?_⟩
    · rw [dsts_after h s hs, if_pos rfl]
    · rw [dsts_after h s hs, if_neg (by omega), if_pos rfl, hd]
    · rw [labelsOf_after h, if_pos rfl]
  · rw [if_neg ho]
    refine Or.inl ⟨?_, rfl⟩
    intro hd
    exact ho (List.isEmpty_iff.2 (dsts_nil.1 hd))

/-- What the second half keeps. -/
theorem exit_keeps {g : Graph E} (h : g.Ok) (s : Nat) (hs : s < g.next) :
    let g' := if (g.outs s).isEmpty then (g.after s .exit).1 else g
    g'.Ok ∧ g.next ≤ g'.next ∧ (∀ x, x < g.next → g'.labelsOf x = g.labelsOf x) ∧
    (∀ x, x < g.next → x ≠ s → g'.dsts x = g.dsts x) ∧ ∀ x, x < g.next → (g'.ins x = [] ↔ g.ins x = []) := by
  intro g'
  by_cases ho : (g.outs s).isEmpty = true
  · have e : g' = (g.after s .exit).1 := if_pos ho
    rw [e]
    refine ⟨ok_after h s hs _, Nat.le_succ _, ?_, ?_, fun x hx => ins_after h s _ x hx⟩
    · intro x hx
      rw [labelsOf_after h, if_neg (by omega)]
    · intro x hx hxs
      rw [dsts_after h s hs, if_neg hxs, if_neg (by omega)]
  · have e : g' = g := if_neg ho
    rw [e]
    exact ⟨h, Nat.le_refl _, fun _ _ => rfl, fun _ _ _ => rfl, fun _ _ => Iff.rfl⟩

theorem inv_step {top : Bool} {g0 : Graph E} {s0 : Nat} (hp : g0.Plain) (hs0 : g0.Start s0)
    (hne : top = false → g0.dsts s0 ≠ []) {done : List Nat} {g : Graph E} (h : Inv top g0 s0 done g)
    (hdone : ∀ s ∈ done, s ∈ g0.nodes) (s : Nat) (hs : s ∈ g0.nodes) (hn : s ∉ done) :
    Inv top g0 s0 (done ++ [s]) (labelStep top g s) := by
  have hlt : s < g0.next := hp.below s hs
  have hltg : s < g.next := Nat.lt_of_lt_of_le hlt h.ge
  have hins : g.ins s = [] ↔ s = s0 := (h.todoIns s hlt hn).trans (hs0.2 s hs)
  have hnotexit : ∀ x, x < g0.next → g.labelsOf x ≠ [.exit] := by
    intro x hx; rw [h.plain x hx]; simp
  by_cases hss : s = s0
  · subst hss
    have hi : g.ins s = [] := hins.2 rfl
    have hie : (g.ins s).isEmpty = true := by rw [hi]; rfl
    cases top with
    | true =>
      have e : labelStep true g s = (let g1 := (g.after s .enter).1
          if (g1.outs g.next).isEmpty then (g1.after g.next .exit).1 else g1) := by
        unfold labelStep enterStep
        rw [if_pos hie]; rfl
      have ok1 := ok_after h.ok s hltg .enter
      have hlt1 : g.next < (g.after s .enter).1.next := Nat.lt_succ_self _
      have d1 := dsts_after h.ok s hltg .enter
      have l1 := labelsOf_after h.ok s .enter
      obtain ⟨k1, k2, k3, k4, k5⟩ := exit_keeps ok1 g.next hlt1
      have k6 := exit_ends (base := g0.next) ok1 (Nat.le_succ_of_le h.ge) g.next hlt1
      rw [e]
      simp only at k1 k2 k3 k4 k5 ⊢
      generalize hg' : (if (((g.after s .enter).1).outs g.next).isEmpty then (((g.after s .enter).1).after g.next .exit).1
        else (g.after s .enter).1) = g' at *
      have hnn : (g.after s .enter).1.next = g.next + 1 := rfl
      have keepd : ∀ x, x < g.next → x ≠ s → g'.dsts x = g.dsts x := by
        intro x hx hxs
        rw [k4 x (by omega) (by omega), d1, if_neg hxs, if_neg (by omega)]
      have keepl : ∀ x, x < g.next → g'.labelsOf x = g.labelsOf x := by
        intro x hx
        rw [k3 x (by omega), l1, if_neg (by omega)]
      refine ⟨k1, by have := h.ge; omega, ?_, ?_, ?_, ?_, ?_, fun h => by cases h⟩
      · intro x hx hxd
        rw [List.mem_append, not_or] at hxd
        have hge := h.ge
        rw [keepd x (by omega) (by simpa using hxd.2)]
        exact h.todoOuts x hx hxd.1
      · intro x hx hxd
        rw [List.mem_append, not_or] at hxd
        have hge := h.ge
        rw [k5 x (by omega), ins_after h.ok s _ x (by omega)]
        exact h.todoIns x hx hxd.1
      · intro x hx
        have hge := h.ge
        rw [keepl x (by omega)]
        exact h.plain x hx
      · intro x hx hxs
        have hxd : x ∈ done := by
          rcases List.mem_append.1 hx with hx | hx
          · exact hx
          · exact absurd (List.mem_singleton.1 hx) hxs
        have hxl := hp.below x (hdone x hxd)
        have hge := h.ge
        refine ends_keep (h.other x hxd hxs) (by omega) (keepd x (by omega) hxs) ?_ (hnotexit x hxl)
        intro y hy hy2 _ _
        exact ⟨keepd y hy2 (by omega), keepl y hy2⟩
      · intro _ _
        have hge := h.ge
        refine ⟨g.next, hge, by omega, ?_, ?_, ?_⟩
        · rw [k4 s (by omega) (by omega), d1, if_pos rfl]
        · rw [k3 g.next hlt1, l1, if_pos rfl]
        · rw [d1, if_neg (by omega), if_pos rfl, h.todoOuts s hlt hn] at k6
          exact k6
    | false =>
      have ok1 := ok_before h.ok s hltg .enter
      have d1 := dsts_before h.ok s hi .enter
      have l1 := labelsOf_before h.ok s .enter
      have hnon : ((g.before s .enter).1.outs g.next).isEmpty = false := by
        have : (g.before s .enter).1.dsts g.next ≠ [] := by rw [d1, if_pos rfl]; simp
        cases hc : ((g.before s .enter).1.outs g.next).isEmpty with
        | false => rfl
        | true => exact absurd (dsts_nil.2 (List.isEmpty_iff.1 hc)) this
      have e : labelStep false g s = (g.before s .enter).1 := by
        unfold labelStep enterStep
        rw [if_pos hie]
        show (if ((g.before s .enter).1.outs g.next).isEmpty then _ else _) = _
        rw [hnon]; rfl
      rw [e]
      have hge := h.ge
      have hnn : (g.before s .enter).1.next = g.next + 1 := rfl
      have keepd : ∀ x, x < g.next → (g.before s .enter).1.dsts x = g.dsts x := by
        intro x hx; rw [d1, if_neg (by omega)]
      have keepl : ∀ x, x < g.next → (g.before s .enter).1.labelsOf x = g.labelsOf x := by
        intro x hx; rw [l1, if_neg (by omega)]
      refine ⟨ok1, by omega, ?_, ?_, ?_, ?_, (fun h => by cases h), ?_⟩
      · intro x hx hxd
        rw [List.mem_append, not_or] at hxd
        rw [keepd x (by omega)]
        exact h.todoOuts x hx hxd.1
      · intro x hx hxd
        rw [List.mem_append, not_or] at hxd
        rw [ins_before s hi _ x (by simpa using hxd.2)]
        exact h.todoIns x hx hxd.1
      · intro x hx
        rw [keepl x (by omega)]
        exact h.plain x hx
      · intro x hx hxs
        have hxd : x ∈ done := by
          rcases List.mem_append.1 hx with hx | hx
          · exact hx
          · exact absurd (List.mem_singleton.1 hx) hxs
        have hxl := hp.below x (hdone x hxd)
        refine ends_keep (h.other x hxd hxs) (by omega) (keepd x (by omega)) ?_ (hnotexit x hxl)
        intro y hy hy2 _ _
        exact ⟨keepd y hy2, keepl y hy2⟩
      · intro _ _
        refine ⟨g.next, hge, by omega, ?_, ?_, ?_, ?_⟩
        · rw [d1, if_pos rfl]
        · rw [l1, if_pos rfl]
        · rw [ins_before s hi _ g.next (by omega)]
          exact ins_fresh h.ok
        · rw [keepd s hltg, h.todoOuts s hlt hn]
  · have hie : (g.ins s).isEmpty = false := by
      cases hc : (g.ins s).isEmpty with
      | false => rfl
      | true => exact absurd (hins.1 (List.isEmpty_iff.1 hc)) hss
    have e : labelStep top g s = if (g.outs s).isEmpty then (g.after s .exit).1 else g := by
      unfold labelStep enterStep
      rw [hie]; rfl
    obtain ⟨k1, k2, k3, k4, k5⟩ := exit_keeps h.ok s hltg
    have k6 := exit_ends (base := g0.next) h.ok h.ge s hltg
    rw [e]
    generalize (if (g.outs s).isEmpty then (g.after s .exit).1 else g) = g' at *
    have hge := h.ge
    refine ⟨k1, by omega, ?_, ?_, ?_, ?_, ?_, ?_⟩
    · intro x hx hxd
      rw [List.mem_append, not_or] at hxd
      rw [k4 x (by omega) (by simpa using hxd.2)]
      exact h.todoOuts x hx hxd.1
    · intro x hx hxd
      rw [List.mem_append, not_or] at hxd
      rw [k5 x (by omega)]
      exact h.todoIns x hx hxd.1
    · intro x hx
      rw [k3 x (by omega)]
      exact h.plain x hx
    · intro x hx hxs
      rcases List.mem_append.1 hx with hx | hx
      · have hxl := hp.below x (hdone x hx)
        have hxne : x ≠ s := fun hc => hn (hc ▸ hx)
        refine ends_keep (h.other x hx hxs) k2 (k4 x (by omega) hxne) ?_ (hnotexit x hxl)
        intro y hy hy2 _ _
        exact ⟨k4 y hy2 (by omega), k3 y hy2⟩
      · rw [List.mem_singleton.1 hx, ← h.todoOuts s hlt hn]
        exact k6
    · intro ht hx
      have hx : s0 ∈ done := by
        rcases List.mem_append.1 hx with hx | hx
        · exact hx
        · exact absurd (List.mem_singleton.1 hx).symm hss
      obtain ⟨e, a1, a2, a3, a4, a5⟩ := h.startTop ht hx
      have hl0 := hp.below s0 hs0.1
      refine ⟨e, a1, by omega, ?_, ?_, ?_⟩
      · rw [k4 s0 (by omega) (fun h => hss h.symm)]; exact a3
      · rw [k3 e a2]; exact a4
      · refine ends_keep a5 k2 (k4 e a2 (by omega)) ?_ (by rw [a4]; simp)
        intro y hy hy2 _ _
        exact ⟨k4 y hy2 (by omega), k3 y hy2⟩
    · intro ht hx
      have hx : s0 ∈ done := by
        rcases List.mem_append.1 hx with hx | hx
        · exact hx
        · exact absurd (List.mem_singleton.1 hx).symm hss
      obtain ⟨e, a1, a2, a3, a4, a5, a6⟩ := h.startNested ht hx
      have hl0 := hp.below s0 hs0.1
      refine ⟨e, a1, by omega, ?_, ?_, ?_, ?_⟩
      · rw [k4 e a2 (by omega)]; exact a3
      · rw [k3 e a2]; exact a4
      · rw [k5 e a2]; exact a5
      · rw [k4 s0 (by omega) (fun h => hss h.symm)]; exact a6

theorem plain_ok {g : Graph E} (h : g.Plain) : g.Ok := by
  constructor
  · intro e he
    obtain ⟨h1, h2⟩ := h.edges e he
    exact ⟨h.below _ h1, h.below _ h2⟩
  · intro l hl
    rw [h.labels] at hl; cases hl

theorem inv_all {top : Bool} {g : Graph E} {s0 : Nat} (hp : g.Plain) (hs0 : g.Start s0) (hne : top = false → g.dsts s0 ≠ []) :
    Inv top g s0 g.nodes (setLabel top g) := by
  have key : ∀ (rest done : List Nat) (g' : Graph E), Inv top g s0 done g' → (∀ s ∈ rest, s ∈ g.nodes) → (∀ s ∈ done, s ∈ g.nodes) →
      (done ++ rest).Nodup → Inv top g s0 (done ++ rest) (rest.foldl (labelStep top) g') := by
    intro rest
    induction rest with
    | nil => intro done g' h _ _ _; rw [List.append_nil]; exact h
    | cons s rest ih =>
      intro done g' h hr hd hnd
      have hn : s ∉ done := by
        intro hx
        have := List.nodup_append.1 hnd
        exact this.2.2 s hx s List.mem_cons_self rfl
      have := ih (done ++ [s]) (labelStep top g' s) (inv_step hp hs0 hne h hd s (hr s List.mem_cons_self) hn)
        (fun x hx => hr x (List.mem_cons_of_mem _ hx))
        (fun x hx => (List.mem_append.1 hx).elim (hd x) fun hx => by rw [List.mem_singleton.1 hx]; exact hr s List.mem_cons_self)
        (by rw [List.append_assoc]; exact hnd)
      rw [List.append_assoc] at this
      exact this
  have h0 : Inv top g s0 [] g := by
    refine ⟨plain_ok hp, Nat.le_refl _, fun _ _ _ => rfl, fun _ _ _ => Iff.rfl, ?_, ?_, ?_, ?_⟩
    · intro s _; unfold Graph.labelsOf; rw [hp.labels]; rfl
    · intro s hs; cases hs
    · intro _ hs; cases hs
    · intro _ hs; cases hs
  have := key g.nodes [] g h0 (fun _ h => h) (fun _ h => by cases h) (by simpa using hp.nodup)
  rw [List.nil_append] at this
  exact this

/-! Where the program starts. -/

theorem start_after {g : Graph E} (h : g.Ok) (hb : ∀ x ∈ g.nodes, x < g.next) {c : Nat} (hc : g.Start c) (s : Nat) (k : Kind) :
    (g.after s k).1.Start c := by
  refine ⟨List.mem_append_left _ hc.1, ?_⟩
  intro x hx
  rcases List.mem_append.1 hx with hx | hx
  · rw [ins_after h s k x (hb x hx)]
    exact hc.2 x hx
  · rw [List.mem_singleton.1 hx]
    have h1 : (s, g.next, none) ∈ (g.after s k).1.ins g.next := by
      unfold Graph.ins
      exact List.mem_filter.2 ⟨List.mem_append_right _ (List.mem_singleton.2 rfl), by simp⟩
    constructor
    · intro h0; rw [h0] at h1; cases h1
    · intro h0; have := hb c hc.1; omega

theorem start_before {g : Graph E} (h : g.Ok) (hb : ∀ x ∈ g.nodes, x < g.next) {s : Nat} (hc : g.Start s) (k : Kind) :
    (g.before s k).1.Start g.next := by
  have hi : g.ins s = [] := (hc.2 s hc.1).2 rfl
  refine ⟨List.mem_append_right _ (List.mem_singleton.2 rfl), ?_⟩
  intro x hx
  rcases List.mem_append.1 hx with hx | hx
  · by_cases hxs : x = s
    · subst hxs
      have h1 : (g.next, x, none) ∈ (g.before x k).1.ins x := by
        unfold Graph.ins
        exact List.mem_filter.2 ⟨List.mem_append_right _ (List.mem_singleton.2 rfl), by simp⟩
      constructor
      · intro h0; rw [h0] at h1; cases h1
      · intro h0; have := hb x hc.1; omega
    · rw [ins_before s hi k x hxs, hc.2 x hx]
      have := hb x hx
      constructor
      · intro h; exact absurd h hxs
      · intro h; omega
  · rw [List.mem_singleton.1 hx, ins_before s hi k g.next (by have := hb s hc.1; omega)]
    exact ⟨fun _ => rfl, fun _ => ins_fresh h⟩

/-- The state at which the program starts, the same one for the topmost program; and new states are states. -/
structure Starts (top : Bool) (base s0 : Nat) (g : Graph E) : Prop where
  ok : g.Ok
  below : ∀ x ∈ g.nodes, x < g.next
  new : ∀ x, base ≤ x → x < g.next → x ∈ g.nodes
  start : ∃ c, g.Start c ∧ (top = true → c = s0)

theorem starts_after {top : Bool} {base s0 : Nat} {g : Graph E} (h : Starts top base s0 g) (s : Nat) (hs : s < g.next) (k : Kind) :
    Starts top base s0 (g.after s k).1 := by
  refine ⟨ok_after h.ok s hs k, ?_, ?_, ?_⟩
  · intro x hx
    show x < g.next + 1
    rcases List.mem_append.1 hx with hx | hx
    · have := h.below x hx; omega
    · rw [List.mem_singleton.1 hx]; omega
  · intro x hx hx2
    have hx2 : x < g.next + 1 := hx2
    by_cases hn : x = g.next
    · exact List.mem_append_right _ (List.mem_singleton.2 hn)
    · exact List.mem_append_left _ (h.new x hx (by omega))
  · obtain ⟨c, h1, h2⟩ := h.start
    exact ⟨c, start_after h.ok h.below h1 s k, h2⟩

theorem starts_step {top : Bool} {base s0 : Nat} {g : Graph E} (h : Starts top base s0 g) (s : Nat) (hs : s ∈ g.nodes) :
    Starts top base s0 (labelStep top g s) := by
  have hlt := h.below s hs
  have h1 : Starts top base s0 (enterStep top g s).1 ∧ (enterStep top g s).2 < (enterStep top g s).1.next := by
    unfold enterStep
    by_cases hi : (g.ins s).isEmpty = true
    · rw [if_pos hi]
      cases top with
      | true => exact ⟨starts_after h s hlt _, Nat.lt_succ_self _⟩
      | false =>
        refine ⟨⟨ok_before h.ok s hlt _, ?_, ?_, ?_⟩, Nat.lt_succ_self _⟩
        · exact (starts_after h s hlt .enter).below
        · exact (starts_after h s hlt .enter).new
        · obtain ⟨c, h1, -⟩ := h.start
          have hcs : s = c := (h1.2 s hs).1 (List.isEmpty_iff.1 hi)
          subst hcs
          exact ⟨g.next, start_before h.ok h.below h1 _, fun h => by cases h⟩
    · rw [if_neg hi]
      exact ⟨h, hlt⟩
  show Starts top base s0 (if ((enterStep top g s).1.outs (enterStep top g s).2).isEmpty then _ else _)
  by_cases ho : ((enterStep top g s).1.outs (enterStep top g s).2).isEmpty = true
  · rw [if_pos ho]; exact starts_after h1.1 _ h1.2 _
  · rw [if_neg ho]; exact h1.1

theorem nodes_step (top : Bool) (g : Graph E) (s : Nat) : ∀ x ∈ g.nodes, x ∈ (labelStep top g s).nodes := by
  intro x hx
  have h1 : x ∈ (enterStep top g s).1.nodes := by
    unfold enterStep
    by_cases hi : (g.ins s).isEmpty = true
    · rw [if_pos hi]; cases top <;> exact List.mem_append_left _ hx
    · rw [if_neg hi]; exact hx
  show x ∈ (if ((enterStep top g s).1.outs (enterStep top g s).2).isEmpty then ((enterStep top g s).1.after (enterStep top g s).2 .exit).1
    else (enterStep top g s).1).nodes
  by_cases ho : ((enterStep top g s).1.outs (enterStep top g s).2).isEmpty = true
  · rw [if_pos ho]; exact List.mem_append_left _ h1
  · rw [if_neg ho]; exact h1

theorem starts_all {top : Bool} {g : Graph E} {s0 : Nat} (hp : g.Plain) (hs0 : g.Start s0) :
    Starts top g.next s0 (setLabel top g) := by
  have key : ∀ (rest : List Nat) (g' : Graph E), Starts top g.next s0 g' → (∀ s ∈ rest, s ∈ g'.nodes) →
      Starts top g.next s0 (rest.foldl (labelStep top) g') := by
    intro rest
    induction rest with
    | nil => intro g' h _; exact h
    | cons s rest ih =>
      intro g' h hr
      exact ih _ (starts_step h s (hr s List.mem_cons_self))
        (fun x hx => nodes_step top g' s x (hr x (List.mem_cons_of_mem _ hx)))
  exact key g.nodes g ⟨plain_ok hp, hp.below, fun x h1 h2 => by omega, s0, hs0, fun _ => rfl⟩ (fun _ h => h)

/-! Executions. -/

variable {Mem : Type}

/-- What a list of destinations leads to. -/
def follow (w : Meaning E Mem) (m : Mem) (l : List (Nat × Option E)) : Option (Mem × Nat) :=
  l.findSome? fun d =>
    match d.2 with
    | none => some (m, d.1)
    | some k => (w.take k m).map fun m' => (m', d.1)

theorem goes_eq (g : Graph E) (w : Meaning E Mem) (m : Mem) (s : Nat) : g.goes w m s = follow w m (g.dsts s) := by
  unfold Graph.goes follow Graph.dsts
  rw [List.findSome?_map]; rfl

theorem goes_dst {g : Graph E} {w : Meaning E Mem} {m m' : Mem} {s s' : Nat} (h : g.goes w m s = some (m', s')) :
    ∃ e ∈ g.edges, e.2.1 = s' := by
  unfold Graph.goes at h
  obtain ⟨e, he, h⟩ := List.exists_of_findSome?_eq_some h
  refine ⟨e, (List.mem_filter.1 he).1, ?_⟩
  rcases hc : e.2.2 with _ | l
  · rw [hc] at h
    exact (Prod.ext_iff.1 (Option.some.inj h)).2
  · rw [hc] at h
    obtain ⟨q, -, hq⟩ := Option.map_eq_some_iff.1 h
    exact (Prod.ext_iff.1 hq).2

/-- After the start an execution stays among the other states. -/
theorem goes_in {g : Graph E} {s0 : Nat} (hp : g.Plain) (hs0 : g.Start s0) {w : Meaning E Mem} {m m' : Mem} {s s' : Nat}
    (h : g.goes w m s = some (m', s')) : s' ∈ g.nodes ∧ s' ≠ s0 := by
  obtain ⟨e, he, rfl⟩ := goes_dst h
  have hn := (hp.edges e he).2
  refine ⟨hn, ?_⟩
  intro h0
  have h1 := (hs0.2 _ hn).2 h0
  have : e ∈ g.ins e.2.1 := List.mem_filter.2 ⟨he, by simp⟩
  rw [h1] at this; cases this

/-- The rest of an execution, from a state that goes where it went. -/
theorem runs_rest {top : Bool} {g G : Graph E} {s0 : Nat} (hp : g.Plain) (hs0 : g.Start s0) (hI : Inv top g s0 g.nodes G)
    {w : Meaning E Mem} (hw : g.Total w) {m m' : Mem} {s : Nat} {t : List Nat} (h : Runs g w g.next m s t m')
    (hs : s ∈ g.nodes) :
    (∀ y ∈ t, y ∈ g.nodes) ∧ ∀ (r : Nat) (_ : Ends g.next G (g.dsts s) r) (m0 : Mem)
      (_ : (if r < g.next then w.work r m0 else m0) = if s < g.next then w.work s m else m),
      ∃ x, g.next ≤ x ∧ x < G.next ∧ G.labelsOf x = [.exit] ∧ Runs G w g.next m0 r (r :: t.tail ++ [x]) m' := by
  induction h with
  | @stop m m' s h1 h2 =>
    refine ⟨by intro y hy; rw [List.mem_singleton.1 hy]; exact hs, ?_⟩
    intro r hr m0 hm
    have hnil : g.dsts s = [] := by
      refine Classical.byContradiction fun hc => ?_
      exact hw s m' (fun h0 => hc (dsts_nil.2 h0)) h2
    rcases hr with ⟨h0, -⟩ | ⟨-, x, a1, a2, a3, a4, a5⟩
    · exact absurd hnil h0
    · refine ⟨x, a1, a2, a5, ?_⟩
      refine Runs.step (m1 := m') (m2 := m') (s' := x) (by rw [hm, h1]) ?_ ?_
      · rw [goes_eq, a3]; rfl
      · refine Runs.stop (by rw [if_neg (by omega)]) ?_
        rw [goes_eq, a4]; rfl
  | @step m m1 m2 m' s s' t h1 h2 h3 ih =>
    obtain ⟨hn, hne⟩ := goes_in hp hs0 h2
    obtain ⟨ih1, ih2⟩ := ih hn
    refine ⟨?_, ?_⟩
    · intro y hy
      rcases List.mem_cons.1 hy with rfl | hy
      · exact hs
      · exact ih1 y hy
    · intro r hr m0 hm
      have hne2 : g.dsts s ≠ [] := by
        intro hc
        rw [goes_eq, hc] at h2; cases h2
      have hd : G.dsts r = g.dsts s := by
        rcases hr with ⟨-, h⟩ | ⟨h, -⟩
        · exact h
        · exact absurd h hne2
      obtain ⟨x, a1, a2, a3, a4⟩ := ih2 s' (hI.other s' hn hne) m2 rfl
      have ht : s' :: t.tail = t := by cases h3 <;> rfl
      refine ⟨x, a1, a2, a3, ?_⟩
      rw [ht] at a4
      refine Runs.step (m1 := m1) (m2 := m2) (s' := s') (by rw [hm, h1]) ?_ a4
      rw [goes_eq, hd, ← goes_eq, h2]

/-- And back: an execution of the labelled program is one of the program. -/
theorem runs_back {top : Bool} {g G : Graph E} {s0 : Nat} (hp : g.Plain) (hs0 : g.Start s0) (hI : Inv top g s0 g.nodes G)
    {w : Meaning E Mem} (hw : g.Total w) {m0 m' : Mem} {r : Nat} {T : List Nat} (h : Runs G w g.next m0 r T m') :
    ∀ (s : Nat) (_ : s ∈ g.nodes) (_ : Ends g.next G (g.dsts s) r) (m : Mem)
      (_ : (if r < g.next then w.work r m0 else m0) = if s < g.next then w.work s m else m),
      ∃ t, Runs g w g.next m s t m' := by
  induction h with
  | @stop m0 m' r h1 h2 =>
    intro s hs hr m hm
    rcases hr with ⟨h0, hd⟩ | ⟨-, x, -, -, a3, -, -⟩
    · exfalso
      rw [goes_eq, hd, ← goes_eq] at h2
      exact hw s m' (fun hc => h0 (dsts_nil.2 hc)) h2
    · rw [goes_eq, a3] at h2; cases h2
  | @step m0 m1 m2 m' r r' t h1 h2 h3 ih =>
    intro s hs hr m hm
    rcases hr with ⟨h0, hd⟩ | ⟨hnil, x, a1, a2, a3, a4, a5⟩
    · rw [goes_eq, hd, ← goes_eq] at h2
      obtain ⟨hn, hne⟩ := goes_in hp hs0 h2
      obtain ⟨t', ht⟩ := ih r' hn (hI.other r' hn hne) m2 rfl
      exact ⟨_, Runs.step (by rw [← hm, h1]) h2 ht⟩
    · rw [goes_eq, a3] at h2
      have he : (m1, x) = (m2, r') := Option.some.inj h2
      obtain ⟨rfl, rfl⟩ := Prod.ext_iff.1 he
      simp only at *
      have hm' : m' = m1 := by
        cases h3 with
        | stop b1 b2 => rw [b1, if_neg (by omega)]
        | step b1 b2 b3 => rw [goes_eq, a4] at b2; cases b2
      refine ⟨[s], Runs.stop (by rw [hm', h1, hm]) ?_⟩
      rw [goes_eq, hnil]; rfl

/-- C119: the labels change nothing for the topmost program. It still starts in its first state, which has one edge, to a new state with
the label `Enter`; it runs through the same states in the same order, over no other label, and ends with the same memory after one more
new state, with the label `Exit`; and it ends only if the program ends. -/
theorem C119_top (g : Graph E) (hp : g.Plain) (s0 : Nat) (hs0 : g.Start s0) :
    let G := setLabel true g
    G.Start s0 ∧ ∃ enter, G.labelsOf enter = [.enter] ∧ enter ∉ g.nodes ∧ (∀ s ∈ g.nodes, G.labelsOf s = []) ∧
      ∀ (w : Meaning E Mem), g.Total w →
        (∀ m t m', Runs g w g.next m s0 t m' → (∀ s ∈ t, s ∈ g.nodes) ∧
          ∃ exit ∉ g.nodes, G.labelsOf exit = [.exit] ∧ Runs G w g.next m s0 (s0 :: enter :: t.tail ++ [exit]) m') ∧
        ∀ m T m', Runs G w g.next m s0 T m' → ∃ t, Runs g w g.next m s0 t m' := by
  intro G
  have hI : Inv true g s0 g.nodes G := inv_all hp hs0 (fun h => by cases h)
  have hS : Starts true g.next s0 G := starts_all hp hs0
  obtain ⟨e, a1, a2, a3, a4, a5⟩ := hI.startTop rfl hs0.1
  have hl0 := hp.below s0 hs0.1
  refine ⟨?_, e, a4, fun hc => by have := hp.below e hc; omega, fun s hs => hI.plain s (hp.below s hs), ?_⟩
  · obtain ⟨c, h1, h2⟩ := hS.start
    rw [h2 rfl] at h1; exact h1
  intro w hw
  constructor
  · intro m t m' h
    obtain ⟨h1, h2⟩ := runs_rest hp hs0 hI hw h hs0.1
    refine ⟨h1, ?_⟩
    obtain ⟨x, b1, b2, b3, b4⟩ := h2 e a5 (w.work s0 m) (by rw [if_neg (by omega), if_pos hl0])
    refine ⟨x, fun hc => by have := hp.below x hc; omega, b3, ?_⟩
    refine Runs.step (m1 := w.work s0 m) (m2 := w.work s0 m) (s' := e) (by rw [if_pos hl0]) ?_ b4
    rw [goes_eq, a3]; rfl
  · intro m T m' h
    cases h with
    | stop b1 b2 => rw [goes_eq, a3] at b2; cases b2
    | step b1 b2 b3 =>
      rw [goes_eq, a3] at b2
      obtain ⟨rfl, rfl⟩ := Prod.ext_iff.1 (Option.some.inj b2)
      refine runs_back hp hs0 hI hw b3 s0 hs0.1 a5 m ?_
      simp only
      rw [if_neg (by omega), b1]

/-- C119: nor for a program nested in another, if its first state is not its only one: the new state with the label `Enter` comes first. -/
theorem C119_nested (g : Graph E) (hp : g.Plain) (s0 : Nat) (hs0 : g.Start s0) (hout : g.outs s0 ≠ []) :
    let G := setLabel false g
    ∃ enter, G.Start enter ∧ G.labelsOf enter = [.enter] ∧ enter ∉ g.nodes ∧ (∀ s ∈ g.nodes, G.labelsOf s = []) ∧
      ∀ (w : Meaning E Mem), g.Total w →
        (∀ m t m', Runs g w g.next m s0 t m' → (∀ s ∈ t, s ∈ g.nodes) ∧
          ∃ exit ∉ g.nodes, G.labelsOf exit = [.exit] ∧ Runs G w g.next m enter (enter :: t ++ [exit]) m') ∧
        ∀ m T m', Runs G w g.next m enter T m' → ∃ t, Runs g w g.next m s0 t m' := by
  intro G
  have hI : Inv false g s0 g.nodes G := inv_all hp hs0 (fun _ hc => hout (dsts_nil.1 hc))
  have hS : Starts false g.next s0 G := starts_all hp hs0
  obtain ⟨e, a1, a2, a3, a4, a5, a6⟩ := hI.startNested rfl hs0.1
  have hl0 := hp.below s0 hs0.1
  have hE : Ends g.next G (g.dsts s0) s0 := Or.inl ⟨fun hc => hout (dsts_nil.1 hc), a6⟩
  refine ⟨e, ?_, a4, fun hc => by have := hp.below e hc; omega, fun s hs => hI.plain s (hp.below s hs), ?_⟩
  · obtain ⟨c, h1, -⟩ := hS.start
    have := (h1.2 e (hS.new e a1 a2)).1 a5
    rw [this]; exact h1
  intro w hw
  constructor
  · intro m t m' h
    obtain ⟨h1, h2⟩ := runs_rest hp hs0 hI hw h hs0.1
    refine ⟨h1, ?_⟩
    obtain ⟨x, b1, b2, b3, b4⟩ := h2 s0 hE m rfl
    refine ⟨x, fun hc => by have := hp.below x hc; omega, b3, ?_⟩
    have ht : s0 :: t.tail = t := by cases h <;> rfl
    rw [ht] at b4
    refine Runs.step (m1 := m) (m2 := m) (s' := s0) (by rw [if_neg (by omega)]) ?_ b4
    rw [goes_eq, a3]; rfl
  · intro m T m' h
    cases h with
    | stop b1 b2 => rw [goes_eq, a3] at b2; cases b2
    | step b1 b2 b3 =>
      rw [goes_eq, a3] at b2
      obtain ⟨rfl, rfl⟩ := Prod.ext_iff.1 (Option.some.inj b2)
      refine runs_back hp hs0 hI hw b3 s0 hs0.1 hE m ?_
      simp only
      rw [b1, if_neg (show ¬ e < g.next by omega)]

/-- An execution has one course and one end. -/
theorem runs_det {g : Graph E} {w : Meaning E Mem} {base : Nat} {m m' : Mem} {s : Nat} {t : List Nat} (h : Runs g w base m s t m') :
    ∀ t2 m2, Runs g w base m s t2 m2 → t2 = t ∧ m2 = m' := by
  induction h with
  | stop h1 h2 =>
    intro t2 m2 h
    cases h with
    | stop b1 b2 => exact ⟨rfl, b1.trans h1.symm⟩
    | step b1 b2 b3 => rw [b1, ← h1, h2] at b2; cases b2
  | step h1 h2 h3 ih =>
    intro t2 m2 h
    cases h with
    | stop b1 b2 => rw [b1, ← h1, h2] at b2; cases b2
    | step b1 b2 b3 =>
      rw [b1, ← h1, h2] at b2
      obtain ⟨rfl, rfl⟩ := Prod.ext_iff.1 (Option.some.inj b2)
      obtain ⟨c1, c2⟩ := ih _ _ b3
      exact ⟨by rw [c1], c2⟩

/-- C119: the course and the end of an execution are determined, so the executions above are all there are. -/
theorem C119_deterministic (g : Graph E) (w : Meaning E Mem) (base : Nat) (m : Mem) (s : Nat) (t t2 : List Nat) (m1 m2 : Mem)
    (h : Runs g w base m s t m1) (h2 : Runs g w base m s t2 m2) : t2 = t ∧ m2 = m1 := runs_det h t2 m2 h2

/-- C119 (not so): every program gets both labels. A nested program of one state gets no `Exit`: the new first state is asked for its
edges out instead. -/
theorem C119_single_violated : (setLabel false (⟨[0], [], [], 1⟩ : Graph Nat)).labels = [(1, .enter)] ∧
    (setLabel true (⟨[0], [], [], 1⟩ : Graph Nat)).labels = [(1, .enter), (2, .exit)] := by
  decide +kernel

/-- C119 (not so): a program with a loop back to its first state gets no `Enter`, nested or not. -/
theorem C119_loop_violated (top : Bool) :
    (setLabel top (⟨[0, 1, 2], [(0, 1, none), (1, 0, some 7), (1, 2, some 8)], [], 3⟩ : Graph Nat)).labels = [(3, .exit)] := by
  cases top <;> decide +kernel

/-- C119 (not so): a program that ends passes `Exit`. One whose last state has an edge that is not taken does not. -/
theorem C119_untaken_violated :
    let g : Graph Nat := ⟨[0, 1], [(0, 1, some 7)], [], 2⟩
    let w : Meaning Nat Nat := ⟨fun _ m => m + 1, fun _ _ => none⟩
    Runs g w 2 0 0 [0] 1 ∧ Runs (setLabel false g) w 2 0 2 [2, 0] 1 ∧ (setLabel false g).labels = [(2, .enter), (3, .exit)] := by
  refine ⟨Runs.stop rfl rfl, ?_, by decide +kernel⟩
  exact Runs.step (m1 := 0) (m2 := 0) (s' := 0) rfl rfl (Runs.stop rfl rfl)

/-- A loop after the first state, and two last states: count to three, then left or right by what was counted. -/
def sample : Graph Nat := ⟨[0, 1, 2, 3], [(0, 1, none), (1, 1, some 0), (1, 2, some 1), (1, 3, some 2)], [], 4⟩

def counting : Meaning Nat Nat :=
  ⟨fun s m => if s = 1 then m + 1 else m, fun k m => if k = 0 then (if m < 3 then some m else none) else
    if k = 1 then (if m = 3 then some (m * 10) else none) else (if m > 3 then some (m * 100) else none)⟩

theorem sample_plain : sample.Plain := ⟨rfl, by decide, by decide, by decide⟩
theorem sample_start : sample.Start 0 := ⟨by decide, by decide⟩

theorem sample_total : sample.Total counting := by
  intro s m hs
  by_cases h0 : s = 0
  · subst h0; simp [Graph.goes, Graph.outs, sample]
  · by_cases h1 : s = 1
    · subst h1
      rw [goes_eq]
      show follow counting m [(1, some 0), (2, some 1), (3, some 2)] ≠ none
      rcases Nat.lt_trichotomy m 3 with h | h | h
      · simp [follow, counting, h]
      · simp [follow, counting, h]
      · have h' : ¬ m < 3 := by omega
        have h'' : m ≠ 3 := by omega
        simp [follow, counting, h', h'', h]
    · exfalso
      apply hs
      unfold Graph.outs
      rw [List.filter_eq_nil_iff]
      intro e he
      simp only [sample, List.mem_cons, List.not_mem_nil, or_false] at he
      rcases he with rfl | rfl | rfl | rfl <;> simp <;> omega

example : Runs sample counting 4 0 0 [0, 1, 1, 1, 2] 30 :=
  Runs.step (m1 := 0) (m2 := 0) (s' := 1) rfl rfl <| Runs.step (m1 := 1) (m2 := 1) (s' := 1) rfl rfl <|
  Runs.step (m1 := 2) (m2 := 2) (s' := 1) rfl rfl <| Runs.step (m1 := 3) (m2 := 30) (s' := 2) rfl rfl <| Runs.stop rfl rfl

example : (setLabel false sample).labels = [(4, .enter), (5, .exit), (6, .exit)] ∧
    (setLabel true sample).outs 0 = [(0, 4, none)] ∧ (setLabel true sample).outs 4 = [(4, 1, none)] := by
  decide +kernel

example : ∃ enter exit, Runs (setLabel false sample) counting 4 0 enter (enter :: [0, 1, 1, 1, 2] ++ [exit]) 30 := by
  obtain ⟨e, -, -, -, -, h⟩ := C119_nested (Mem := Nat) sample sample_plain 0 sample_start (by decide)
  obtain ⟨-, x, -, -, hx⟩ := (h counting sample_total).1 0 [0, 1, 1, 1, 2] 30
    (Runs.step (m1 := 0) (m2 := 0) (s' := 1) rfl rfl <| Runs.step (m1 := 1) (m2 := 1) (s' := 1) rfl rfl <|
      Runs.step (m1 := 2) (m2 := 2) (s' := 1) rfl rfl <| Runs.step (m1 := 3) (m2 := 30) (s' := 2) rfl rfl <| Runs.stop rfl rfl)
  exact ⟨e, x, hx⟩

end NDSL.Labels
