import Mathlib.Tactic.Linarith
import Mathlib.Tactic.NormNum
import Mathlib.Tactic.Tauto
import Mathlib.Data.List.Perm.Subperm
import Mathlib.Data.List.Sort
import Verif.Spec.CompareReport
import Verif.Props.Comparison
/-
Property theorems C118: reports of comparisons.
-/
namespace NDSL.CompareReport

open NDSL.Compare

/-! ### Indices -/

theorem indices_length : ∀ s : List Nat, (indices s).length = s.prod
  | [] => rfl
  | n :: s => by
    unfold indices
    rw [List.length_flatMap, List.prod_cons]
    have : (List.range n).map (fun i => ((indices s).map (i :: ·)).length) = List.replicate n s.prod := by
      rw [List.eq_replicate_iff]
      refine ⟨by simp, ?_⟩
      intro b hb
      obtain ⟨i, _, rfl⟩ := List.mem_map.1 hb
      rw [List.length_map, indices_length s]
    rw [this, List.sum_replicate_nat]

theorem flatMap_get {α : Type} (f : Nat → List α) (q : Nat) (hf : ∀ i, (f i).length = q) :
    ∀ n k, k < n * q → ((List.range n).flatMap f)[k]? = (f (k / q))[k % q]? := by
  intro n
  induction n with
  | zero => intro k hk; omega
  | succ n ih =>
    intro k hk
    have hq : 0 < q := by
      rcases Nat.eq_zero_or_pos q with h | h
      · subst h; simp at hk
      · exact h
    have hlen : ((List.range n).flatMap f).length = n * q := by
      rw [List.length_flatMap]
      have : (List.range n).map (fun i => (f i).length) = List.replicate n q := by
        rw [List.eq_replicate_iff]
        refine ⟨by simp, ?_⟩
        intro b hb
        obtain ⟨i, _, rfl⟩ := List.mem_map.1 hb
        exact hf i
      rw [this, List.sum_replicate_nat]
    rw [List.range_succ, List.flatMap_append]
    simp only [List.flatMap_cons, List.flatMap_nil, List.append_nil]
    by_cases h : k < n * q
    · rw [List.getElem?_append_left (by omega), ih k h]
    · have h' : n * q ≤ k := by omega
      rw [List.getElem?_append_right (by omega), hlen]
      have hk2 : k < n * q + q := by rw [Nat.succ_mul] at hk; exact hk
      have e : k / q = n := Nat.div_eq_of_lt_le h' (by rw [Nat.succ_mul]; exact hk2)
      have e2 : k % q = k - n * q := by
        have := Nat.div_add_mod k q
        rw [e, Nat.mul_comm] at this
        omega
      rw [e, e2]

theorem indices_get : ∀ (s : List Nat) (k : Nat), k < s.prod → (indices s)[k]? = some (unravel s k)
  | [], k, h => by
    have : k = 0 := by simpa using h
    subst this; rfl
  | n :: s, k, h => by
    rw [List.prod_cons] at h
    have hs : 0 < s.prod := by
      rcases Nat.eq_zero_or_pos s.prod with h0 | h0
      · rw [h0] at h; simp at h
      · exact h0
    unfold indices
    rw [flatMap_get _ s.prod (fun i => by rw [List.length_map, indices_length]) n k h, List.getElem?_map,
      indices_get s _ (Nat.mod_lt _ hs)]
    rfl

theorem place_unravel : ∀ (s : List Nat) (k : Nat), k < s.prod → place s (unravel s k) = some k
  | [], k, h => by
    have : k = 0 := by simpa using h
    subst this; rfl
  | n :: s, k, h => by
    rw [List.prod_cons] at h
    have hs : 0 < s.prod := by
      rcases Nat.eq_zero_or_pos s.prod with h0 | h0
      · rw [h0] at h; simp at h
      · exact h0
    show (if k / s.prod < n then _ else none) = _
    rw [if_pos ((Nat.div_lt_iff_lt_mul hs).2 h), place_unravel s _ (Nat.mod_lt _ hs)]
    show some (k / s.prod * s.prod + k % s.prod) = some k
    rw [Nat.mul_comm, Nat.div_add_mod]

theorem unravel_place : ∀ (s ix : List Nat) (k : Nat), place s ix = some k → k < s.prod ∧ unravel s k = ix
  | [], [], k, h => by
    have : k = 0 := by simpa [place] using h.symm
    subst this; exact ⟨by simp, rfl⟩
  | [], _ :: _, k, h => by simp [place] at h
  | n :: s, [], k, h => by simp [place] at h
  | n :: s, i :: ix, k, h => by
    unfold place at h
    by_cases hi : i < n
    · rw [if_pos hi] at h
      cases hp : place s ix with
      | none => rw [hp] at h; simp at h
      | some j =>
        rw [hp] at h
        have hk : i * s.prod + j = k := by simpa using h
        obtain ⟨h1, h2⟩ := unravel_place s ix j hp
        have hs : 0 < s.prod := by omega
        have ed : k / s.prod = i := by
          rw [← hk, Nat.mul_comm, Nat.mul_add_div hs, Nat.div_eq_of_lt h1]; omega
        have em : k % s.prod = j := by
          rw [← hk, Nat.mul_comm, Nat.mul_add_mod, Nat.mod_eq_of_lt h1]
        refine ⟨?_, ?_⟩
        · rw [List.prod_cons, ← hk]
          calc i * s.prod + j < i * s.prod + s.prod := by omega
            _ = (i + 1) * s.prod := by rw [Nat.succ_mul]
            _ ≤ n * s.prod := Nat.mul_le_mul_right _ hi
        · show k / s.prod :: unravel s (k % s.prod) = i :: ix
          rw [ed, em, h2]
    · rw [if_neg hi] at h; cases h

theorem value_iff {α : Type} (s : List Nat) (l : List α) (hl : l.length = s.prod) (ix : List Nat) (v : α) :
    value s l ix = some v ↔ ∃ k : Nat, l[k]? = some v ∧ unravel s k = ix := by
  unfold value
  constructor
  · intro h
    obtain ⟨k, hk, hv⟩ := Option.bind_eq_some_iff.1 h
    exact ⟨k, hv, (unravel_place s ix k hk).2⟩
  · rintro ⟨k, hv, rfl⟩
    have hk : k < s.prod := hl ▸ (List.getElem?_eq_some_iff.1 hv).1
    rw [place_unravel s k hk]
    exact hv

theorem prod_squeeze (s : List Nat) : (squeeze s).prod = s.prod := by
  induction s with
  | nil => rfl
  | cons n s ih =>
    unfold squeeze at *
    by_cases h : n = 1
    · subst h; simpa using ih
    · rw [List.filter_cons_of_pos (by simpa using h), List.prod_cons, List.prod_cons, ih]

theorem mem_zip_indices {α : Type} (s : List Nat) (l : List α) (hl : l.length = s.prod) (e : List Nat × α) :
    e ∈ (indices s).zip l ↔ ∃ k : Nat, l[k]? = some e.2 ∧ unravel s k = e.1 := by
  rw [List.mem_iff_getElem?]
  constructor
  · rintro ⟨k, hk⟩
    obtain ⟨h1, h2⟩ := List.getElem?_zip_eq_some.1 hk
    have : k < s.prod := hl ▸ (List.getElem?_eq_some_iff.1 h2).1
    rw [indices_get s k this] at h1
    exact ⟨k, h2, by simpa using h1⟩
  · rintro ⟨k, h2, h1⟩
    refine ⟨k, List.getElem?_zip_eq_some.2 ⟨?_, h2⟩⟩
    have : k < s.prod := hl ▸ (List.getElem?_eq_some_iff.1 h2).1
    rw [indices_get s k this, h1]

theorem indices_eq (s : List Nat) : indices s = (List.range s.prod).map (unravel s) := by
  apply List.ext_getElem?
  intro k
  by_cases h : k < s.prod
  · rw [indices_get s k h, List.getElem?_map, List.getElem?_range h]; rfl
  · rw [List.getElem?_eq_none (by rw [indices_length]; omega), List.getElem?_eq_none (by simp; omega)]

theorem indices_increasing (s : List Nat) : Increasing s (indices s) := by
  unfold Increasing
  rw [indices_eq, List.pairwise_map]
  refine List.Pairwise.imp_of_mem ?_ List.pairwise_lt_range
  intro a b ha hb hab
  exact ⟨a, b, place_unravel s a (List.mem_range.1 ha), place_unravel s b (List.mem_range.1 hb), hab⟩

/-! ### The worst result -/

/-- A distance. -/
def Fl.Dist (x : Fl) : Prop := x = .nan ∨ x = .inf false ∨ ∃ q : ℚ, 0 ≤ q ∧ x = .fin q

theorem dist_abs (x : Fl) : Fl.Dist x.abs := by
  cases x with
  | nan => exact Or.inl rfl
  | inf b => exact Or.inr (Or.inl rfl)
  | fin q => exact Or.inr (Or.inr ⟨|q|, abs_nonneg q, rfl⟩)

theorem abs_dist {x : Fl} (h : Fl.Dist x) : x.abs = x := by
  rcases h with rfl | rfl | ⟨q, hq, rfl⟩
  · rfl
  · rfl
  · show Fl.fin |q| = _
    rw [abs_of_nonneg hq]

theorem notBefore_refl {x : Fl} : Fl.NotBefore x x := by
  cases x with
  | nan => exact Or.inl rfl
  | inf b => exact Or.inr ⟨by simp, by simp [Fl.lt]⟩
  | fin q => exact Or.inr ⟨by simp, by simp [Fl.lt]⟩

theorem notBefore_trans {a b c : Fl} (h : Fl.NotBefore a b) (h' : Fl.NotBefore b c) : Fl.NotBefore a c := by
  rcases h with rfl | ⟨hb, hab⟩
  · exact Or.inl rfl
  · rcases h' with rfl | ⟨hc, hbc⟩
    · exact absurd rfl hb
    · cases a with
      | nan => exact Or.inl rfl
      | inf x =>
        refine Or.inr ⟨hc, ?_⟩
        cases b with
        | nan => exact absurd rfl hb
        | inf y => cases c with
          | nan => exact absurd rfl hc
          | inf z => cases x <;> cases y <;> cases z <;> simp_all [Fl.lt]
          | fin z => cases x <;> cases y <;> simp_all [Fl.lt]
        | fin y => cases c with
          | nan => exact absurd rfl hc
          | inf z => cases x <;> cases z <;> simp_all [Fl.lt]
          | fin z => cases x <;> simp_all [Fl.lt]
      | fin x =>
        refine Or.inr ⟨hc, ?_⟩
        cases b with
        | nan => exact absurd rfl hb
        | inf y => cases c with
          | nan => exact absurd rfl hc
          | inf z => cases y <;> cases z <;> simp_all [Fl.lt]
          | fin z => cases y <;> simp_all [Fl.lt]
        | fin y => cases c with
          | nan => exact absurd rfl hc
          | inf z => cases z <;> simp_all [Fl.lt]
          | fin z =>
            simp only [Fl.lt, decide_eq_false_iff_not, not_lt] at *
            exact le_trans hbc hab

theorem notBefore_of_lt {a b : Fl} (h : a.lt b = true) : Fl.NotBefore b a := by
  cases a with
  | nan => simp [Fl.lt] at h
  | inf x =>
    refine Or.inr ⟨by simp, ?_⟩
    cases b with
    | nan => simp [Fl.lt] at h
    | inf y => cases x <;> cases y <;> simp_all [Fl.lt]
    | fin y => cases x <;> simp_all [Fl.lt]
  | fin x =>
    refine Or.inr ⟨by simp, ?_⟩
    cases b with
    | nan => simp [Fl.lt] at h
    | inf y => cases y <;> simp_all [Fl.lt]
    | fin y =>
      simp only [Fl.lt, decide_eq_false_iff_not, decide_eq_true_eq, not_lt] at *
      exact h.le

theorem worst_from (ls : List Line) : ∀ (w : Line), Fl.Dist w.metric → (∀ l ∈ ls, Fl.Dist l.metric) →
    ∃ w', ls.foldl worstStep (some w) = some w' ∧ w' ∈ w :: ls ∧ ∀ l ∈ w :: ls, Fl.NotBefore w'.metric l.metric := by
  induction ls with
  | nil =>
    intro w _ _
    refine ⟨w, rfl, List.mem_cons_self, ?_⟩
    intro l hl
    rw [List.mem_singleton.1 hl]
    exact notBefore_refl
  | cons l ls ih =>
    intro w hw hls
    have hl := hls l List.mem_cons_self
    have hrest : ∀ x ∈ ls, Fl.Dist x.metric := fun x hx => hls x (List.mem_cons_of_mem _ hx)
    rw [List.foldl_cons]
    by_cases hc : (l.metric.isNan || w.metric.abs.lt l.metric.abs) = true
    · have e : worstStep (some w) l = some l := by
        unfold worstStep; exact if_pos hc
      rw [e]
      obtain ⟨w', h1, h2, h3⟩ := ih l hl hrest
      refine ⟨w', h1, List.mem_cons_of_mem _ h2, ?_⟩
      have hlw : Fl.NotBefore l.metric w.metric := by
        rw [Bool.or_eq_true] at hc
        rcases hc with hc | hc
        · left
          cases hm : l.metric with
          | nan => rfl
          | inf b => rw [hm] at hc; cases hc
          | fin q => rw [hm] at hc; cases hc
        · rw [abs_dist hw, abs_dist hl] at hc
          exact notBefore_of_lt hc
      intro x hx
      rcases List.mem_cons.1 hx with rfl | hx
      · exact notBefore_trans (h3 l List.mem_cons_self) hlw
      · exact h3 x hx
    · have e : worstStep (some w) l = some w := by
        unfold worstStep; exact if_neg hc
      rw [e]
      obtain ⟨w', h1, h2, h3⟩ := ih w hw hrest
      have hwl : Fl.NotBefore w.metric l.metric := by
        rw [Bool.or_eq_true, not_or] at hc
        obtain ⟨hn, hlt⟩ := hc
        refine Or.inr ⟨?_, ?_⟩
        · intro h; rw [h] at hn; exact hn rfl
        · rw [abs_dist hw, abs_dist hl] at hlt
          simpa using hlt
      refine ⟨w', h1, ?_, ?_⟩
      · rcases List.mem_cons.1 h2 with rfl | h2
        · exact List.mem_cons_self
        · exact List.mem_cons_of_mem _ (List.mem_cons_of_mem _ h2)
      · intro x hx
        rcases List.mem_cons.1 hx with rfl | hx
        · exact h3 x List.mem_cons_self
        · rcases List.mem_cons.1 hx with rfl | hx
          · exact notBefore_trans (h3 w List.mem_cons_self) hwl
          · exact h3 x (List.mem_cons_of_mem _ hx)

theorem worst_first (l : Line) (h : l.metric = .nan ∨ (Fl.fin 0).lt l.metric = true) (hd : Fl.Dist l.metric) :
    worstStep none l = some l := by
  have hc : (l.metric.isNan || (Fl.fin 0).abs.lt l.metric.abs) = true := by
    rw [abs_dist hd]
    rcases h with h | h
    · rw [h]; rfl
    · rw [Bool.or_eq_true]
      right
      have : (Fl.fin 0).abs = Fl.fin 0 := by show Fl.fin |0| = _; rw [abs_zero]
      rw [this]; exact h
  unfold worstStep
  exact if_pos hc

/-- A failing point has a metric that is NaN or positive. -/
theorem failing_metric {eps : ℚ} (he : 0 < eps) {near : Option ℚ} {c r : Fl} (h : legacyNum eps near c r = false) :
    legacyMetric c r = .nan ∨ (Fl.fin 0).lt (legacyMetric c r) = true := by
  unfold legacyNum at h
  simp only [Bool.or_eq_false_iff] at h
  obtain ⟨⟨_, h⟩, _⟩ := h
  have hd : Fl.Dist (legacyMetric c r) := dist_abs _
  rcases hd with hd | hd | ⟨q, hq, hd⟩
  · exact Or.inl hd
  · right; rw [hd]; rfl
  · right
    rw [hd] at h ⊢
    simp only [Fl.ltQ, Fl.lt, decide_eq_false_iff_not, decide_eq_true_eq, not_lt] at *
    linarith

/-! ### The legacy report -/

/-- C118: the report of the legacy metric says that there are no differences exactly when every point passes. -/
theorem C118_legacy_passed (eps : ℚ) (near : Option ℚ) (shape : List Nat) (pairs : List (Fl × Fl)) :
    legacyReport eps near shape pairs = .ok .passed ↔ ∀ p ∈ pairs, legacyNum eps near p.1 p.2 = true := by
  unfold legacyReport
  by_cases h : (pairs.all fun (c, r) => legacyNum eps near c r) = true
  · rw [if_pos h]
    refine ⟨fun _ p hp => List.all_eq_true.1 h p hp, fun _ => rfl⟩
  · rw [if_neg h]
    constructor
    · intro h'
      by_cases hs : squeeze shape = []
      · rw [if_pos hs] at h'; cases h'
      · rw [if_neg hs] at h'
        simp only at h'
        split at h' <;> cases h'
    · intro h'
      exact absurd (List.all_eq_true.2 fun p hp => h' p hp) h

/-- C118: where a point fails, in an array of at least two values and with a positive threshold, the report has one line for every
failing point, in the order of the array, with the two values, their distance and their metric; it counts the failing points, all
points and the different distances; and the result called the worst is one of the lines, with the largest metric, or NaN if there
is a NaN. -/
theorem C118_legacy_failed (eps : ℚ) (he : 0 < eps) (near : Option ℚ) (shape : List Nat) (pairs : List (Fl × Fl))
    (hl : pairs.length = shape.prod) (h1 : shape.prod ≠ 1)
    (hf : ∃ p ∈ pairs, legacyNum eps near p.1 p.2 = false) :
    ∃ worst lines distances, legacyReport eps near shape pairs =
        .ok (.failed lines.length shape.prod worst (List.length distances) lines) ∧
      Increasing (squeeze shape) (lines.map (·.index)) ∧
      (∀ l, l ∈ lines ↔ value (squeeze shape) pairs l.index = some (l.computed, l.reference) ∧
        legacyNum eps near l.computed l.reference = false ∧ l.absolute = (l.computed.sub l.reference).abs ∧
        l.metric = legacyMetric l.computed l.reference) ∧
      worst ∈ lines ∧ (∀ l ∈ lines, Fl.NotBefore worst.metric l.metric) ∧
      distances.Nodup ∧ ∀ d, d ∈ distances ↔ ∃ l ∈ lines, l.absolute = d := by
  have hl' : pairs.length = (squeeze shape).prod := by rw [prod_squeeze, hl]
  have hs : squeeze shape ≠ [] := by
    intro h
    apply h1
    rw [← prod_squeeze, h]; rfl
  have hall : (pairs.all fun (c, r) => legacyNum eps near c r) ≠ true := by
    intro h
    obtain ⟨p, hp, hpf⟩ := hf
    have : legacyNum eps near p.1 p.2 = true := List.all_eq_true.1 h p hp
    rw [hpf] at this; cases this
  have hmem : ∀ l, l ∈ (failures eps near (squeeze shape) pairs).map line ↔
      value (squeeze shape) pairs l.index = some (l.computed, l.reference) ∧
        legacyNum eps near l.computed l.reference = false ∧ l.absolute = (l.computed.sub l.reference).abs ∧
        l.metric = legacyMetric l.computed l.reference := by
    intro l
    rw [List.mem_map]
    unfold failures
    constructor
    · rintro ⟨e, he, rfl⟩
      obtain ⟨h2, h3⟩ := List.mem_filter.1 he
      have h4 : legacyNum eps near e.2.1 e.2.2 = false := by simpa using h3
      exact ⟨(value_iff _ _ hl' _ _).2 ((mem_zip_indices _ _ hl' e).1 h2), h4, rfl, rfl⟩
    · rintro ⟨h2, h3, h4, h5⟩
      refine ⟨(l.index, l.computed, l.reference), List.mem_filter.2 ⟨?_, by simpa using h3⟩, ?_⟩
      · exact (mem_zip_indices _ _ hl' _).2 ((value_iff _ _ hl' _ _).1 h2)
      · cases l
        simp only at h4 h5
        rw [h4, h5]; rfl
  have hdist : ∀ l ∈ (failures eps near (squeeze shape) pairs).map line, Fl.Dist l.metric := by
    intro l hl
    rw [((hmem l).1 hl).2.2.2]
    exact dist_abs _
  have hex : ∃ w, ((failures eps near (squeeze shape) pairs).map line).foldl worstStep none = some w ∧
      w ∈ (failures eps near (squeeze shape) pairs).map line ∧
      ∀ l ∈ (failures eps near (squeeze shape) pairs).map line, Fl.NotBefore w.metric l.metric := by
    cases hls : (failures eps near (squeeze shape) pairs).map line with
    | nil =>
      exfalso
      obtain ⟨p, hp, hpf⟩ := hf
      obtain ⟨k, hk⟩ := List.mem_iff_getElem?.1 hp
      have := (hmem (line (unravel (squeeze shape) k, p))).2 ⟨(value_iff _ _ hl' _ _).2 ⟨k, hk, rfl⟩, hpf, rfl, rfl⟩
      rw [hls] at this
      cases this
    | cons l ls =>
      rw [hls] at hdist hmem
      rw [List.foldl_cons, worst_first l ?_ (hdist l List.mem_cons_self)]
      · exact worst_from ls l (hdist l List.mem_cons_self) fun x hx => hdist x (List.mem_cons_of_mem _ hx)
      · obtain ⟨_, h2, _, h3⟩ := (hmem l).1 List.mem_cons_self
        rw [h3]
        exact failing_metric he h2
  obtain ⟨w, hw, hwm, hwb⟩ := hex
  refine ⟨w, (failures eps near (squeeze shape) pairs).map line,
    (((failures eps near (squeeze shape) pairs).map line).map (·.absolute)).dedup, ?_, ?_, hmem, hwm, hwb,
    List.nodup_dedup _, ?_⟩
  · unfold legacyReport
    rw [if_neg hall, if_neg hs]
    simp only [hw, hl]
  · unfold Increasing failures
    rw [List.map_map]
    have hsub : ((((indices (squeeze shape)).zip pairs).filter fun e => !legacyNum eps near e.2.1 e.2.2).map
        ((·.index) ∘ line)).Sublist (((indices (squeeze shape)).zip pairs).map Prod.fst) := by
      have : ((·.index) ∘ line : List Nat × Fl × Fl → List Nat) = Prod.fst := rfl
      rw [this]
      exact List.filter_sublist.map _
    refine List.Pairwise.sublist hsub ?_
    rw [List.map_fst_zip (by rw [indices_length, hl'])]
    exact indices_increasing _
  · intro d
    rw [List.mem_dedup, List.mem_map]

/-! ### The multi modal report -/

/-- The line of a point, if there is one. -/
def pointAt (m : Metric) (k : Nat) : Option Point :=
  match m.pairs[k]?, m.marks[k]? with
  | some (c, r), some d =>
    if c.isNan && r.isNan then none
    else match units d.ulp with
      | .ok u => some ⟨unravel m.shape k, c, r, d, u⟩
      | .error _ => none
  | _, _ => none

theorem addPoint_eq (m : Metric) (hu : ∀ d ∈ m.marks, ∃ u, units d.ulp = .ok u) (acc : List Point) (k : Nat) :
    addPoint m acc k = .ok (acc ++ (pointAt m k).toList) := by
  unfold addPoint pointAt
  cases hp : m.pairs[k]? with
  | none => simp
  | some p =>
    obtain ⟨c, r⟩ := p
    cases hm : m.marks[k]? with
    | none => simp
    | some d =>
      obtain ⟨u, hu'⟩ := hu d (List.mem_of_getElem? hm)
      simp only [hu']
      by_cases hc : (c.isNan && r.isNan) = true
      · rw [if_pos hc, if_pos hc]; simp
      · rw [if_neg hc, if_neg hc]; rfl

theorem addPoints_eq (m : Metric) (hu : ∀ d ∈ m.marks, ∃ u, units d.ulp = .ok u) :
    ∀ (ks : List Nat) (acc : List Point), ks.foldlM (addPoint m) acc = .ok (acc ++ ks.filterMap (pointAt m)) := by
  intro ks
  induction ks with
  | nil => intro acc; simp only [List.foldlM_nil, List.filterMap_nil, List.append_nil]; rfl
  | cons k ks ih =>
    intro acc
    rw [List.foldlM_cons, addPoint_eq m hu acc k]
    refine (ih _).trans ?_
    rw [List.filterMap_cons]
    cases pointAt m k <;> simp

theorem marks_units (sp : ℚ → ℚ) (hsp : ∀ x, 0 < sp x) (eps : ℚ) (s : Shared) (c r : Fl) :
    ∃ u, units (marks sp eps s c r).ulp = .ok u ∧ Shows (marks sp eps s c r).ulp u := by
  have nan : ∀ x : Fl, x = .nan → ∃ u, units x = .ok u ∧ Shows x u := by
    rintro x rfl
    exact ⟨none, rfl, Or.inl ⟨rfl, rfl⟩⟩
  cases c with
  | nan => exact nan _ (by cases r <;> rfl)
  | inf x =>
    cases r with
    | nan => exact nan _ rfl
    | inf y => exact nan _ (by cases x <;> cases y <;> rfl)
    | fin b => exact nan _ (by cases x <;> rfl)
  | fin a =>
    cases r with
    | nan => exact nan _ rfl
    | inf y => exact nan _ (by cases y <;> rfl)
    | fin b =>
      have h0 : 0 < sp (max |a| |b|) := hsp _
      have e : (marks sp eps s (.fin a) (.fin b)).ulp = .fin (|a - b| / sp (max |a| |b|)) := by
        show (Fl.fin |a - b|).div (.fin (sp (max |a| |b|))) = _
        show (if sp (max |a| |b|) = 0 then _ else _) = _
        rw [if_neg h0.ne']
      have hq : 0 ≤ |a - b| / sp (max |a| |b|) := div_nonneg (abs_nonneg _) h0.le
      rw [e]
      refine ⟨some (|a - b| / sp (max |a| |b|)).floor, ?_, Or.inr ⟨_, _, rfl, rfl, ?_, ?_⟩⟩
      · show Except.ok (some _) = _
        rw [if_pos hq]
      · exact Rat.floor_le _
      · have := Rat.lt_floor_add_one (|a - b| / sp (max |a| |b|))
        push_cast at this
        exact this

/-- C118: the marks of a line. For two numbers the three distances are the absolute one, its ratio to the larger number and its ratio
to the spacing there, and each is marked by its own threshold. -/
theorem C118_marks (sp : ℚ → ℚ) (hsp : ∀ x, 0 < sp x) (eps : ℚ) (s : Shared) (c r : ℚ) :
    (marks sp eps s (.fin c) (.fin r)).absolute = .fin |c - r| ∧
    (max |c| |r| ≠ 0 → (marks sp eps s (.fin c) (.fin r)).relative = .fin (|c - r| / max |c| |r|)) ∧
    (marks sp eps s (.fin c) (.fin r)).ulp = .fin (|c - r| / sp (max |c| |r|)) ∧
    ((marks sp eps s (.fin c) (.fin r)).absoluteOk = true ↔ |c - r| < eps) ∧
    ((marks sp eps s (.fin c) (.fin r)).relativeOk = true ↔ |c - r| < s.relative * max |c| |r|) ∧
    ((marks sp eps s (.fin c) (.fin r)).ulpOk = true ↔ |c - r| ≤ s.ulp * sp (max |c| |r|)) := by
  have h0 : 0 < sp (max |c| |r|) := hsp _
  have eu : (marks sp eps s (.fin c) (.fin r)).ulp = .fin (|c - r| / sp (max |c| |r|)) := by
    show (if sp (max |c| |r|) = 0 then _ else _) = _
    rw [if_neg h0.ne']
  refine ⟨rfl, ?_, eu, ?_, ?_, ?_⟩
  · intro h
    show (if max |c| |r| = 0 then _ else _) = _
    rw [if_neg h]
  · exact decide_eq_true_iff
  · exact decide_eq_true_iff
  · have : (marks sp eps s (.fin c) (.fin r)).ulpOk = (marks sp eps s (.fin c) (.fin r)).ulp.leQ s.ulp := rfl
    rw [this, eu]
    refine decide_eq_true_iff.trans ?_
    rw [div_le_iff₀ h0]

/-- C118: a point passes exactly when both values are NaN or one of its three marks is good: a line with three bad marks is a failing
point, and the other lines are passing points. -/
theorem C118_verdict (sp : ℚ → ℚ) (eps : ℚ) (s : Shared) (c r : Fl) :
    multiNum sp eps s c r = true ↔ (c = .nan ∧ r = .nan) ∨ (marks sp eps s c r).absoluteOk = true ∨
      (marks sp eps s c r).relativeOk = true ∨ (marks sp eps s c r).ulpOk = true := by
  have h : multiNum sp eps s c r = ((c.isNan && r.isNan) ||
    (((marks sp eps s c r).relativeOk || (marks sp eps s c r).absoluteOk) || (marks sp eps s c r).ulpOk)) := rfl
  have hn : ∀ x : Fl, x.isNan = true ↔ x = .nan := by
    intro x; cases x <;> simp [Fl.isNan]
  rw [h]
  simp only [Bool.or_eq_true, Bool.and_eq_true, hn]
  tauto

theorem nodup_filterMap {α β : Type} {f : α → Option β} {l : List α} (hl : l.Nodup)
    (hf : ∀ a ∈ l, ∀ a' ∈ l, ∀ b, f a = some b → f a' = some b → a = a') : (l.filterMap f).Nodup := by
  unfold List.Nodup
  rw [List.pairwise_filterMap]
  refine List.Pairwise.imp_of_mem ?_ hl
  intro a a' ha ha' hne b hb b' hb' he
  subst he
  exact hne (hf a ha a' ha' b hb hb')

/-- The order of the report of a metric made from arrays. -/
theorem order_spec (argsort : List Fl → List Nat) (ha : Argsort argsort) (m : Metric) (hm : m.marks.length = m.pairs.length)
    (hk : m.sort ≠ .other) :
    ∃ ks, order argsort m = .ok ks ∧ ks.Perm (List.range m.pairs.length) ∧
      (m.sort = .index → ks = List.range m.pairs.length) ∧
      (m.sort ≠ .index → ks.Pairwise fun i j => ∀ d d', m.marks[i]? = some d → m.marks[j]? = some d' →
        Fl.NotBefore (m.sort.of d) (m.sort.of d')) := by
  have sorted : ∀ f : Marks → Fl, (argsort (m.marks.map f)).reverse.Perm (List.range m.pairs.length) ∧
      (argsort (m.marks.map f)).reverse.Pairwise fun i j => ∀ d d', m.marks[i]? = some d → m.marks[j]? = some d' →
        Fl.NotBefore (f d) (f d') := by
    intro f
    obtain ⟨h1, h2⟩ := ha (m.marks.map f)
    rw [List.length_map, hm] at h1
    refine ⟨(List.reverse_perm _).trans h1, ?_⟩
    rw [List.pairwise_reverse]
    refine h2.imp ?_
    intro i j hij d d' hd hd'
    exact hij (f d') (f d) (by rw [List.getElem?_map, hd']; rfl) (by rw [List.getElem?_map, hd]; rfl)
  unfold order
  cases hs : m.sort with
  | other => exact absurd hs hk
  | index =>
    exact ⟨_, rfl, by rw [List.reverse_reverse], fun _ => List.reverse_reverse _, fun h => absurd rfl h⟩
  | ulp => exact ⟨_, rfl, (sorted _).1, fun h => (by cases h), fun _ => (sorted (·.ulp)).2⟩
  | absolute => exact ⟨_, rfl, (sorted _).1, fun h => (by cases h), fun _ => (sorted (·.absolute)).2⟩
  | relative => exact ⟨_, rfl, (sorted _).1, fun h => (by cases h), fun _ => (sorted (·.relative)).2⟩

theorem make_marks (sp : NumType → ℚ → ℚ) (p : Process) (o : Overrides) (t : NumType) (shape : List Nat)
    (pairs : List (Fl × Fl)) (input : Option (List Fl)) (sort : Key) :
    (make sp p o t shape pairs input sort).2.marks =
      pairs.map fun e => marks (sp t) (absoluteEps o t) (p.override o).shared e.1 e.2 := rfl

theorem make_success (sp : NumType → ℚ → ℚ) (p : Process) (o : Overrides) (t : NumType) (shape : List Nat)
    (pairs : List (Fl × Fl)) (input : Option (List Fl)) (sort : Key) :
    (make sp p o t shape pairs input sort).2.success =
      pairs.map fun e => multiNum (sp t) (absoluteEps o t) (p.override o).shared e.1 e.2 := rfl

/-- C118: the report of the multi modal metric, for arrays of at least two values: it has one line for every point but those where
both values are NaN, with the two values, their distances and marks and the whole number of units; the lines are in the order of the
array, or from the largest distance of the chosen kind to the smallest, NaN first, whatever the order of equal distances. Its head
counts the failing points and all points. It does not matter what was compared between the comparison and the report. -/
theorem C118_multi_report (sp : NumType → ℚ → ℚ) (hsp : ∀ t x, 0 < sp t x) (argsort : List Fl → List Nat) (ha : Argsort argsort)
    (p q : Process) (o : Overrides) (t : NumType) (shape : List Nat) (pairs : List (Fl × Fl)) (input : Option (List Fl)) (sort : Key)
    (hl : pairs.length = shape.prod) (h0 : shape.prod ≠ 0) (h1 : shape.prod ≠ 1) (hk : sort ≠ .other) :
    ∃ head points, report argsort q (make sp p o t shape pairs input sort).2 = .ok ⟨head, points⟩ ∧
      (points.map (·.index)).Nodup ∧
      (∀ x, x ∈ points ↔ value (squeeze shape) pairs x.index = some (x.computed, x.reference) ∧
        ¬ (x.computed = .nan ∧ x.reference = .nan) ∧
        x.marks = marks (sp t) (absoluteEps o t) (p.override o).shared x.computed x.reference ∧ Shows x.marks.ulp x.units) ∧
      (sort = .index → Increasing (squeeze shape) (points.map (·.index))) ∧
      (sort ≠ .index → points.Pairwise fun a b => Fl.NotBefore (sort.of a.marks) (sort.of b.marks)) ∧
      head.failures = (pairs.filter fun e => !multiNum (sp t) (absoluteEps o t) (p.override o).shared e.1 e.2).length ∧
      head.total = shape.prod := by
  have hl' : pairs.length = (squeeze shape).prod := by rw [prod_squeeze, hl]
  have hs : squeeze shape ≠ [] := by
    intro h
    apply h1
    rw [← prod_squeeze, h]; rfl
  generalize hm : (make sp p o t shape pairs input sort).2 = m
  have ep : m.pairs = pairs := by rw [← hm]; rfl
  have es : m.shape = squeeze shape := by rw [← hm]; rfl
  have ek : m.sort = sort := by rw [← hm]; rfl
  have em : m.marks = pairs.map fun e => marks (sp t) (absoluteEps o t) (p.override o).shared e.1 e.2 := by rw [← hm]; rfl
  have ec : m.success = pairs.map fun e => multiNum (sp t) (absoluteEps o t) (p.override o).shared e.1 e.2 := by
    rw [← hm]; rfl
  have hu : ∀ d ∈ m.marks, ∃ u, units d.ulp = .ok u := by
    intro d hd
    rw [em] at hd
    obtain ⟨e, _, rfl⟩ := List.mem_map.1 hd
    obtain ⟨u, hu, _⟩ := marks_units (sp t) (hsp t) (absoluteEps o t) (p.override o).shared e.1 e.2
    exact ⟨u, hu⟩
  obtain ⟨ks, hks, hperm, hindex, hsorted⟩ := order_spec argsort ha m (by rw [em, List.length_map, ep]) (by rw [ek]; exact hk)
  have hn : ∀ x : Fl, x.isNan = true ↔ x = .nan := by
    intro x; cases x <;> simp [Fl.isNan]
  -- what the line of a point is
  have hpt : ∀ k x, pointAt m k = some x ↔ pairs[k]? = some (x.computed, x.reference) ∧ unravel (squeeze shape) k = x.index ∧
      ¬ (x.computed = .nan ∧ x.reference = .nan) ∧
      x.marks = marks (sp t) (absoluteEps o t) (p.override o).shared x.computed x.reference ∧ Shows x.marks.ulp x.units := by
    intro k x
    unfold pointAt
    rw [ep, em, es, List.getElem?_map]
    cases hk : pairs[k]? with
    | none => simp
    | some e =>
      obtain ⟨c, r⟩ := e
      obtain ⟨u, hu1, hu2⟩ := marks_units (sp t) (hsp t) (absoluteEps o t) (p.override o).shared c r
      simp only [Option.map_some, hu1]
      by_cases hc : (c.isNan && r.isNan) = true
      · rw [if_pos hc]
        constructor
        · intro h; cases h
        · rintro ⟨h1, _, h2, _⟩
          exfalso
          apply h2
          rw [Option.some.injEq, Prod.mk.injEq] at h1
          rw [Bool.and_eq_true, hn, hn] at hc
          exact ⟨h1.1 ▸ hc.1, h1.2 ▸ hc.2⟩
      · rw [if_neg hc]
        rw [Bool.and_eq_true, hn, hn] at hc
        rw [Option.some.injEq, Option.some.injEq]
        constructor
        · rintro rfl
          exact ⟨rfl, rfl, hc, rfl, hu2⟩
        · rintro ⟨h1, h2, h3, h4, h5⟩
          obtain ⟨ix, c', r', d, u'⟩ := x
          simp only [Prod.mk.injEq] at h1 h2 h4 h5
          obtain ⟨rfl, rfl⟩ := h1
          subst h2 h4
          have : u = u' := by
            rcases hu2 with ⟨a1, a2⟩ | ⟨a, n, a1, a2, a3, a4⟩
            · rcases h5 with ⟨b1, b2⟩ | ⟨b, n', b1, b2, b3, b4⟩
              · rw [a2, b2]
              · rw [a1] at b1; cases b1
            · rcases h5 with ⟨b1, b2⟩ | ⟨b, n', b1, b2, b3, b4⟩
              · rw [a1] at b1; cases b1
              · rw [a1] at b1
                cases b1
                rw [a2, b2]
                have x1 : (n : ℚ) < n' + 1 := by linarith
                have x2 : (n' : ℚ) < n + 1 := by linarith
                have y1 : n < n' + 1 := by exact_mod_cast x1
                have y2 : n' < n + 1 := by exact_mod_cast x2
                congr 1; omega
          rw [this]
  refine ⟨headOf q m, ks.filterMap (pointAt m), ?_, ?_, ?_, ?_, ?_, ?_, ?_⟩
  · unfold report
    rw [if_neg (by rw [es]; exact hs), if_neg (by rw [ep, hl]; exact h0), hks]
    have := addPoints_eq m hu ks []
    show (do let points ← ks.foldlM (addPoint m) []; pure (Report.mk _ points) : Except Fault Report) = _
    rw [this, List.nil_append]
    rfl
  · -- every index once
    rw [List.map_filterMap]
    refine nodup_filterMap (hperm.nodup_iff.2 List.nodup_range) ?_
    intro k hk k' hk' b hb hb'
    obtain ⟨x, hx, rfl⟩ := Option.map_eq_some_iff.1 hb
    obtain ⟨x', hx', he⟩ := Option.map_eq_some_iff.1 hb'
    have h1 := ((hpt k x).1 hx).2.1
    have h2 := ((hpt k' x').1 hx').2.1
    have l1 : k < (squeeze shape).prod := by rw [← hl', ← ep]; exact List.mem_range.1 (hperm.mem_iff.1 hk)
    have l2 : k' < (squeeze shape).prod := by rw [← hl', ← ep]; exact List.mem_range.1 (hperm.mem_iff.1 hk')
    have e1 := place_unravel _ k l1
    have e2 := place_unravel _ k' l2
    rw [h1] at e1
    rw [h2, he, e1] at e2
    simpa using e2
  · intro x
    rw [List.mem_filterMap]
    constructor
    · rintro ⟨k, hk, hx⟩
      obtain ⟨a1, a2, a3⟩ := (hpt k x).1 hx
      exact ⟨(value_iff _ _ hl' _ _).2 ⟨k, a1, a2⟩, a3⟩
    · rintro ⟨a1, a3⟩
      obtain ⟨k, a1, a2⟩ := (value_iff _ _ hl' _ _).1 a1
      refine ⟨k, hperm.mem_iff.2 (List.mem_range.2 ?_), (hpt k x).2 ⟨a1, a2, a3⟩⟩
      rw [ep]
      exact (List.getElem?_eq_some_iff.1 a1).1
  · intro hi
    rw [hindex (by rw [ek, hi])]
    unfold Increasing
    rw [List.pairwise_map, List.pairwise_filterMap]
    refine List.Pairwise.imp_of_mem ?_ List.pairwise_lt_range
    intro a b hma hmb hab x hx y hy
    rw [← ((hpt a x).1 hx).2.1, ← ((hpt b y).1 hy).2.1]
    rw [ep, hl'] at hma hmb
    exact ⟨a, b, place_unravel _ a (List.mem_range.1 hma), place_unravel _ b (List.mem_range.1 hmb), hab⟩
  · intro hi
    rw [List.pairwise_filterMap]
    refine (hsorted (by rw [ek]; exact hi)).imp ?_
    intro a b hab x hx y hy
    obtain ⟨a1, _, _, a2, _⟩ := (hpt a x).1 hx
    obtain ⟨b1, _, _, b2, _⟩ := (hpt b y).1 hy
    rw [ek] at hab
    refine hab _ _ ?_ ?_
    · rw [em, List.getElem?_map, a1, a2]; rfl
    · rw [em, List.getElem?_map, b1, b2]; rfl
  · show m.success.count false = _
    rw [ec, List.count_eq_length_filter, List.filter_map, List.length_map]
    congr 2
    funext e
    show (multiNum _ _ _ _ _ == false) = !multiNum _ _ _ _ _
    cases multiNum (sp t) (absoluteEps o t) (p.override o).shared e.1 e.2 <;> rfl
  · show m.pairs.length = _
    rw [ep, hl]

/-! ### Columns -/

theorem place_snoc (n k : Nat) : ∀ s ix : List Nat,
    place (s ++ [n]) (ix ++ [k]) = (place s ix).bind fun p => if k < n then some (p * n + k) else none
  | [], [] => by simp [place]
  | [], i :: ix => by
    have : place [] (ix ++ [k]) = none := by cases ix <;> rfl
    simp [place, this]
  | m :: s, [] => by
    have : place (s ++ [n]) [] = none := by cases s <;> rfl
    simp [place, this]
  | m :: s, i :: ix => by
    show (if i < m then (place (s ++ [n]) (ix ++ [k])).map _ else none) = (if i < m then (place s ix).map _ else none).bind _
    by_cases h : i < m
    · rw [if_pos h, if_pos h, place_snoc n k s ix]
      cases place s ix with
      | none => rfl
      | some p =>
        by_cases hk : k < n
        · simp only [Option.bind_some, Option.map_some, if_pos hk, List.prod_append, List.prod_cons, List.prod_nil,
            Nat.mul_one, Option.some.injEq]
          have hp : (s.append [n]).prod = s.prod * n := by
            rw [show s.append [n] = s ++ [n] from rfl, List.prod_append]; simp
          rw [Nat.add_mul, Nat.mul_assoc, Nat.add_assoc, hp]
        · simp [hk]
    · rw [if_neg h, if_neg h]; rfl

theorem column_any {α : Type} (n : Nat) (l : List α) (f : α → Bool) (q : Nat) :
    (column n l q).any f = true ↔ ∃ k v, k < n ∧ l[q * n + k]? = some v ∧ f v = true := by
  unfold column
  rw [List.any_eq_true]
  constructor
  · rintro ⟨v, hv, hf⟩
    obtain ⟨k, hk⟩ := List.mem_iff_getElem?.1 hv
    rw [List.getElem?_take] at hk
    by_cases h : k < n
    · rw [if_pos h, List.getElem?_drop] at hk
      exact ⟨k, v, h, hk, hf⟩
    · rw [if_neg h] at hk; cases hk
  · rintro ⟨k, v, h, hk, hf⟩
    refine ⟨v, List.mem_iff_getElem?.2 ⟨k, ?_⟩, hf⟩
    rw [List.getElem?_take, if_pos h, List.getElem?_drop]
    exact hk

/-- The positions of an array where a test holds, as indices. -/
theorem where_spec (s : List Nat) (f : Nat → Bool) :
    (((List.range s.prod).filter f).map (unravel s)).Nodup ∧
    ∀ ix, ix ∈ ((List.range s.prod).filter f).map (unravel s) ↔ ∃ q, place s ix = some q ∧ f q = true := by
  constructor
  · refine List.Nodup.map_on ?_ (List.Nodup.filter _ List.nodup_range)
    intro x hx y hy hxy
    have h1 := place_unravel s x (List.mem_range.1 (List.mem_filter.1 hx).1)
    have h2 := place_unravel s y (List.mem_range.1 (List.mem_filter.1 hy).1)
    rw [hxy, h2] at h1
    simpa using h1.symm
  · intro ix
    rw [List.mem_map]
    constructor
    · rintro ⟨q, hq, rfl⟩
      obtain ⟨h1, h2⟩ := List.mem_filter.1 hq
      exact ⟨q, place_unravel s q (List.mem_range.1 h1), h2⟩
    · rintro ⟨q, hq, hf⟩
      obtain ⟨h1, h2⟩ := unravel_place s ix q hq
      exact ⟨q, List.mem_filter.2 ⟨List.mem_range.2 h1, hf⟩, h2⟩

/-- `!=` of numpy: NaN is not even equal to itself. -/
theorem ne_iff (x r : Fl) : ne x r = true ↔ x = .nan ∨ r = .nan ∨ x ≠ r := by
  have hn : ∀ x : Fl, x.isNan = true ↔ x = .nan := by
    intro x; cases x <;> simp [Fl.isNan]
  unfold ne
  rw [Bool.or_eq_true, Bool.or_eq_true, hn, hn, decide_eq_true_iff, or_assoc]

/-- C118: where the input of the code under test is known and all arrays have three axes, none of length one, the head of the report
also counts the columns in which the code changes a value, the ones among them in which a point fails, and the values changed. -/
theorem C118_columns (sp : NumType → ℚ → ℚ) (p q : Process) (o : Overrides) (t : NumType) (a b n : Nat) (ha : a ≠ 1) (hb : b ≠ 1)
    (hn : n ≠ 1) (pairs : List (Fl × Fl)) (input : List Fl) (sort : Key) (hl : pairs.length = [a, b, n].prod)
    (hi : input.length = [a, b, n].prod) :
    ∃ bad all changed : List (List Nat),
      (headOf q (make sp p o t [a, b, n] pairs (some input) sort).2).local_ = some (bad.length, all.length, changed.length) ∧
      bad.Nodup ∧ all.Nodup ∧ changed.Nodup ∧ (∀ ix ∈ bad, ix ∈ all) ∧ bad.length ≤ all.length ∧ all.length ≤ a * b ∧
      (∀ ix, ix ∈ changed ↔ ∃ x c r, value [a, b, n] input ix = some x ∧ value [a, b, n] pairs ix = some (c, r) ∧
        (x = .nan ∨ r = .nan ∨ x ≠ r)) ∧
      (∀ ix, ix ∈ all ↔ ∃ k, ix ++ [k] ∈ changed) ∧
      (∀ ix, ix ∈ bad ↔ ix ∈ all ∧ ∃ k c r, value [a, b, n] pairs (ix ++ [k]) = some (c, r) ∧
        multiNum (sp t) (absoluteEps o t) (p.override o).shared c r = false) := by
  simp only [← ne_iff]
  have hsq : squeeze [a, b, n] = [a, b, n] := by
    unfold squeeze
    rw [List.filter_eq_self]
    intro x hx
    simp only [List.mem_cons, List.not_mem_nil, or_false] at hx
    rcases hx with rfl | rfl | rfl <;> simpa
  let changes : List Bool := (input.zip pairs).map fun e => ne e.1 e.2.2
  let success : List Bool := pairs.map fun e => multiNum (sp t) (absoluteEps o t) (p.override o).shared e.1 e.2
  let isAll : Nat → Bool := fun k => (column n changes k).any id
  let isBad : Nat → Bool := fun k => (column n success k).any (!·) && isAll k
  let isChanged : Nat → Bool := fun k => changes[k]?.getD false
  have hprod : [a, b, n].prod = a * b * n := by simp [Nat.mul_assoc]
  have hab : [a, b].prod = a * b := by simp
  have hcl : changes.length = [a, b, n].prod := by
    show ((input.zip pairs).map _).length = _
    rw [List.length_map, List.length_zip, hl, hi, Nat.min_self]
  have hmap : (make sp p o t [a, b, n] pairs (some input) sort).2.columnMap = some ((List.range (a * b)).map isAll) := rfl
  have hshape : (make sp p o t [a, b, n] pairs (some input) sort).2.shape = [a, b, n] := hsq
  have hsucc : (make sp p o t [a, b, n] pairs (some input) sort).2.success = success := rfl
  have hchg : (make sp p o t [a, b, n] pairs (some input) sort).2.changing = some (changes.count true) := rfl
  have hcc : columnCounts (make sp p o t [a, b, n] pairs (some input) sort).2 =
      some (((List.range (a * b)).filter isBad).length, ((List.range (a * b)).filter isAll).length) := by
    unfold columnCounts
    rw [hmap, hshape, hsucc]
    simp only [List.length_map, List.length_range, Option.some.injEq, Prod.mk.injEq]
    constructor
    · rw [List.countP_eq_length_filter]
      congr 1
      apply List.filter_congr
      intro k hk
      rw [List.getElem?_map, List.getElem?_range (List.mem_range.1 hk)]
      rfl
    · rw [List.count_eq_length_filter, List.filter_map, List.length_map]
      congr 2
      funext k
      show (isAll k == true) = isAll k
      cases isAll k <;> rfl
  have hct : changes.count true = ((List.range [a, b, n].prod).filter isChanged).length := by
    rw [← hcl, List.count_eq_length_filter]
    have gen : ∀ l : List Bool, l = (List.range l.length).map fun k => l[k]?.getD false := by
      intro l
      apply List.ext_getElem?
      intro k
      rw [List.getElem?_map]
      by_cases hk : k < l.length
      · rw [List.getElem?_range hk]
        show _ = some (l[k]?.getD false)
        rw [List.getElem?_eq_getElem hk]; rfl
      · rw [List.getElem?_eq_none (by omega), List.getElem?_eq_none (by simpa using hk)]; rfl
    have e : changes = (List.range changes.length).map isChanged := gen changes
    conv_lhs => rw [e]
    rw [List.filter_map, List.length_map]
    congr 2
    funext k
    show (isChanged k == true) = isChanged k
    cases isChanged k <;> rfl
  obtain ⟨nb, mb⟩ := where_spec [a, b] isBad
  obtain ⟨na, ma⟩ := where_spec [a, b] isAll
  obtain ⟨nc, mc⟩ := where_spec [a, b, n] isChanged
  have hca : ∀ k, isChanged k = true ↔ ∃ x c r, input[k]? = some x ∧ pairs[k]? = some (c, r) ∧ ne x r = true := by
    intro k
    show (((input.zip pairs).map fun e => ne e.1 e.2.2)[k]?).getD false = true ↔ _
    rw [List.getElem?_map]
    cases h1 : (input.zip pairs)[k]? with
    | none =>
      simp only [Option.map_none, Option.getD_none, Bool.false_eq_true, false_iff]
      rintro ⟨x, c, r, hx, hp, _⟩
      have := List.getElem?_zip_eq_some.2 (⟨hx, hp⟩ : input[k]? = some (x, c, r).1 ∧ pairs[k]? = some (x, c, r).2)
      rw [h1] at this; cases this
    | some e =>
      obtain ⟨x, c, r⟩ := e
      obtain ⟨hx, hp⟩ := List.getElem?_zip_eq_some.1 h1
      simp only [Option.map_some, Option.getD_some]
      constructor
      · intro h; exact ⟨x, c, r, hx, hp, h⟩
      · rintro ⟨x', c', r', hx', hp', h⟩
        rw [hx] at hx'; rw [hp] at hp'
        cases hx'; cases hp'
        exact h
  have hall : ∀ k, isAll k = true ↔ ∃ j, j < n ∧ isChanged (k * n + j) = true := by
    intro k
    rw [show isAll k = (column n changes k).any id from rfl, column_any]
    constructor
    · rintro ⟨j, v, hj, hv, hf⟩
      refine ⟨j, hj, ?_⟩
      show (changes[k * n + j]?).getD false = true
      rw [hv]; exact hf
    · rintro ⟨j, hj, h⟩
      have h' : (changes[k * n + j]?).getD false = true := h
      cases hv : changes[k * n + j]? with
      | none => rw [hv] at h'; cases h'
      | some v => rw [hv] at h'; exact ⟨j, v, hj, hv, h'⟩
  have hsub : ∀ ix ∈ ((List.range [a, b].prod).filter isBad).map (unravel [a, b]),
      ix ∈ ((List.range [a, b].prod).filter isAll).map (unravel [a, b]) := by
    intro ix hix
    obtain ⟨q, hq, hf⟩ := (mb ix).1 hix
    exact (ma ix).2 ⟨q, hq, (Bool.and_eq_true _ _ ▸ hf : _ ∧ _).2⟩
  have hvalue : ∀ {α : Type} (l : List α) (ix : List Nat) (k : Nat) (v : α), value [a, b, n] l (ix ++ [k]) = some v ↔
      ∃ q, place [a, b] ix = some q ∧ k < n ∧ l[q * n + k]? = some v := by
    intro α l ix k v
    unfold value
    rw [show [a, b, n] = [a, b] ++ [n] from rfl, place_snoc]
    cases place [a, b] ix with
    | none => simp
    | some q =>
      by_cases hk : k < n
      · simp [hk]
      · simp [hk]
  refine ⟨((List.range [a, b].prod).filter isBad).map (unravel [a, b]), ((List.range [a, b].prod).filter isAll).map (unravel [a, b]),
    ((List.range [a, b, n].prod).filter isChanged).map (unravel [a, b, n]), ?_, nb, na, nc, hsub, ?_, ?_, ?_, ?_, ?_⟩
  · show (match (make sp p o t [a, b, n] pairs (some input) sort).2.changing,
      columnCounts (make sp p o t [a, b, n] pairs (some input) sort).2 with
      | some n, some (bad, all) => some (bad, all, n)
      | _, _ => none) = _
    rw [hchg, hcc, hct, List.length_map, List.length_map, List.length_map, hab]
  · exact (List.Nodup.subperm nb hsub).length_le
  · rw [List.length_map, hab]
    calc _ ≤ (List.range (a * b)).length := List.length_filter_le _ _
      _ = _ := List.length_range
  · intro ix
    rw [mc]
    constructor
    · rintro ⟨k, hk, hf⟩
      obtain ⟨x, c, r, h1, h2, h3⟩ := (hca k).1 hf
      exact ⟨x, c, r, by unfold value; rw [hk]; exact h1, by unfold value; rw [hk]; exact h2, h3⟩
    · rintro ⟨x, c, r, h1, h2, h3⟩
      obtain ⟨k, hk, h1⟩ := Option.bind_eq_some_iff.1 h1
      refine ⟨k, hk, (hca k).2 ⟨x, c, r, h1, ?_, h3⟩⟩
      unfold value at h2
      rw [hk] at h2
      exact h2
  · intro ix
    rw [ma]
    constructor
    · rintro ⟨q, hq, hf⟩
      obtain ⟨j, hj, h⟩ := (hall q).1 hf
      refine ⟨j, (mc _).2 ⟨q * n + j, ?_, h⟩⟩
      rw [show [a, b, n] = [a, b] ++ [n] from rfl, place_snoc, hq]
      simp [hj]
    · rintro ⟨k, hk⟩
      obtain ⟨m, hm, hf⟩ := (mc _).1 hk
      rw [show [a, b, n] = [a, b] ++ [n] from rfl, place_snoc] at hm
      obtain ⟨q, hq, h2⟩ := Option.bind_eq_some_iff.1 hm
      by_cases hkn : k < n
      · rw [if_pos hkn] at h2
        cases h2
        exact ⟨q, hq, (hall q).2 ⟨k, hkn, hf⟩⟩
      · rw [if_neg hkn] at h2; cases h2
  · intro ix
    rw [mb, ma]
    constructor
    · rintro ⟨q, hq, hf⟩
      obtain ⟨f1, f2⟩ := (Bool.and_eq_true _ _ ▸ hf : _ ∧ _)
      refine ⟨⟨q, hq, f2⟩, ?_⟩
      obtain ⟨k, v, hk, hv, hf⟩ := (column_any n success (!·) q).1 f1
      rw [show success = pairs.map _ from rfl, List.getElem?_map] at hv
      obtain ⟨⟨c, r⟩, he, rfl⟩ := Option.map_eq_some_iff.1 hv
      exact ⟨k, c, r, (hvalue _ _ _ _).2 ⟨q, hq, hk, he⟩, by simpa using hf⟩
    · rintro ⟨⟨q, hq, f2⟩, k, c, r, hv, hf⟩
      refine ⟨q, hq, ?_⟩
      show (_ && _) = true
      rw [Bool.and_eq_true]
      refine ⟨(column_any n success (!·) q).2 ?_, f2⟩
      obtain ⟨q', hq', hk, he⟩ := (hvalue _ _ _ _).1 hv
      rw [hq] at hq'
      cases hq'
      refine ⟨k, false, hk, ?_, rfl⟩
      rw [show success = pairs.map _ from rfl, List.getElem?_map, he]
      exact congrArg some hf

/-! ### Thresholds named in reports -/

theorem after_spec (hist : List Overrides) (p : Process)
    (hp : Shared.start.relative ≤ p.shared.relative ∧ Shared.start.ulp ≤ p.shared.ulp)
    (hd : (p.relativeDefault = true ↔ p.shared.relative = Shared.start.relative) ∧
      (p.ulpDefault = true ↔ p.shared.ulp = Shared.start.ulp)) :
    ((hist.foldl Process.override p).shared = history p.shared hist) ∧
    ((hist.foldl Process.override p).relativeDefault = true ↔
      (hist.foldl Process.override p).shared.relative = Shared.start.relative) ∧
    ((hist.foldl Process.override p).ulpDefault = true ↔ (hist.foldl Process.override p).shared.ulp = Shared.start.ulp) := by
  induction hist generalizing p with
  | nil => exact ⟨rfl, hd⟩
  | cons o hist ih =>
    refine ih (p.override o) ⟨?_, ?_⟩ ⟨?_, ?_⟩
    · show _ ≤ (if o.relative > p.shared.relative then o.relative else p.shared.relative)
      split <;> linarith [hp.1]
    · show _ ≤ (if o.ulp > p.shared.ulp then o.ulp else p.shared.ulp)
      split <;> linarith [hp.2]
    · show (if o.relative > p.shared.relative then false else p.relativeDefault) = true ↔
        (if o.relative > p.shared.relative then o.relative else p.shared.relative) = _
      by_cases h : o.relative > p.shared.relative
      · rw [if_pos h, if_pos h]
        have : o.relative ≠ Shared.start.relative := by
          intro h'; linarith [hp.1]
        simp [this]
      · rw [if_neg h, if_neg h]; exact hd.1
    · show (if o.ulp > p.shared.ulp then false else p.ulpDefault) = true ↔
        (if o.ulp > p.shared.ulp then o.ulp else p.shared.ulp) = _
      by_cases h : o.ulp > p.shared.ulp
      · rw [if_pos h, if_pos h]
        have : o.ulp ≠ Shared.start.ulp := by
          intro h'; linarith [hp.2]
        simp [this]
      · rw [if_neg h, if_neg h]; exact hd.2

/-- C118: after any history of comparisons, a report made right after a comparison names the thresholds that were used, and flags
exactly those that are not the defaults. -/
theorem C118_thresholds (sp : NumType → ℚ → ℚ) (hist : List Overrides) (o : Overrides) (t : NumType) (shape : List Nat)
    (pairs : List (Fl × Fl)) (input : Option (List Fl)) (sort : Key) :
    let p := (make sp (.after hist) o t shape pairs input sort).1
    let m := (make sp (.after hist) o t shape pairs input sort).2
    let used := history .start (hist ++ [o])
    (thresholds p m).absolute = absoluteEps o t ∧ (thresholds p m).relative = used.relative ∧ (thresholds p m).ulp = used.ulp ∧
    ((thresholds p m).absoluteFlag = true ↔ absoluteEps o t ≠ absoluteEps .none t) ∧
    ((thresholds p m).relativeFlag = true ↔ used.relative ≠ Shared.start.relative) ∧
    ((thresholds p m).ulpFlag = true ↔ used.ulp ≠ Shared.start.ulp) ∧
    m.success = pairs.map fun e => multiNum (sp t) (absoluteEps o t) used e.1 e.2 := by
  intro p m used
  have hp : (Process.after hist).override o = Process.after (hist ++ [o]) := by
    unfold Process.after
    rw [List.foldl_append]; rfl
  obtain ⟨h1, h2, h3⟩ := after_spec (hist ++ [o]) .start ⟨le_refl _, le_refl _⟩ ⟨by decide +kernel, by decide +kernel⟩
  have hu : (Process.after (hist ++ [o])).shared = used := h1
  have hflag : ∀ (b : Bool) (P : Prop), (b = true ↔ P) → ((!b) = true ↔ ¬ P) := by
    intro b P h
    rw [← h]; cases b <;> simp
  refine ⟨rfl, ?_, ?_, ?_, ?_, ?_, ?_⟩
  · show ((Process.after hist).override o).shared.relative = _
    rw [hp, hu]
  · show ((Process.after hist).override o).shared.ulp = _
    rw [hp, hu]
  · show (!decide (¬ o.absolute > absoluteEps .none t)) = true ↔ _
    have hd : ∃ e : ℚ, 0 < e ∧ absoluteEps .none t = e ∧ absoluteEps o t = if o.absolute > e then o.absolute else e := by
      have hn : ∀ e : ℚ, 0 < e → (if (Overrides.none).absolute > e then (Overrides.none).absolute else e) = e := by
        intro e he
        rw [if_neg]
        show ¬ (-1 : ℚ) > e
        linarith
      cases t
      · exact ⟨1 / 10 ^ 10, by norm_num, hn _ (by norm_num), rfl⟩
      · exact ⟨1 / 10 ^ 13, by norm_num, hn _ (by norm_num), rfl⟩
      · exact ⟨1 / 10 ^ 10, by norm_num, hn _ (by norm_num), rfl⟩
      · exact ⟨1 / 10 ^ 13, by norm_num, hn _ (by norm_num), rfl⟩
    obtain ⟨e, _, h1, h2⟩ := hd
    rw [h1, h2]
    by_cases h : o.absolute > e
    · rw [if_pos h]
      have : o.absolute ≠ e := ne_of_gt h
      simp [h, this]
    · rw [if_neg h]
      simp only [not_true_eq_false, h, not_false_eq_true, decide_true, Bool.not_true, ne_eq]
      simp
  · rw [← hu, ← hp]
    refine hflag _ _ ?_
    show ((Process.after hist).override o).relativeDefault = true ↔ _
    rw [hp]; exact h2
  · rw [← hu, ← hp]
    refine hflag _ _ ?_
    show ((Process.after hist).override o).ulpDefault = true ↔ _
    rw [hp]; exact h3
  · rw [← hu, ← hp]; rfl

/-- C118: the one line report says whether every point passes; it is flagged exactly when a threshold it names is, and otherwise
counts the failing points. -/
theorem C118_one_line (p : Process) (m : Metric) :
    ((∃ t, oneLine p m = .ok (.clean t) ∨ oneLine p m = .ok (.override t)) ↔ ∀ b ∈ m.success, b = true) ∧
    ((∃ t, oneLine p m = .ok (.override t)) ↔ (∀ b ∈ m.success, b = true) ∧
      ((thresholds p m).absoluteFlag = true ∨ (thresholds p m).relativeFlag = true ∨ (thresholds p m).ulpFlag = true)) ∧
    (m.shape ≠ [] → false ∈ m.success → oneLine p m = .ok (.failed (m.success.count false) m.pairs.length (thresholds p m))) := by
  have hc : m.check = true ↔ ∀ b ∈ m.success, b = true := by
    unfold Metric.check
    rw [List.all_eq_true]; rfl
  by_cases h : m.check = true
  · have hne : false ∉ m.success := fun hf => by simpa using hc.1 h false hf
    unfold oneLine
    by_cases hf : ((thresholds p m).relativeFlag || (thresholds p m).absoluteFlag || (thresholds p m).ulpFlag) = true
    · simp only [h, hf, Bool.and_self, if_true]
      refine ⟨⟨fun _ => hc.1 h, fun _ => ⟨_, Or.inr rfl⟩⟩, ⟨fun _ => ⟨hc.1 h, ?_⟩, fun _ => ⟨_, rfl⟩⟩, fun _ hx => absurd hx hne⟩
      simp only [Bool.or_eq_true] at hf
      tauto
    · simp only [h, hf, Bool.and_false, Bool.false_eq_true, if_false, if_true]
      refine ⟨⟨fun _ => hc.1 h, fun _ => ⟨_, Or.inl rfl⟩⟩, ⟨?_, ?_⟩, fun _ hx => absurd hx hne⟩
      · rintro ⟨t, ht⟩; cases ht
      · rintro ⟨_, hx⟩
        exfalso
        apply hf
        simp only [Bool.or_eq_true]
        tauto
  · have hne : ¬ ∀ b ∈ m.success, b = true := fun hx => h (hc.2 hx)
    unfold oneLine
    simp only [h, Bool.false_and, Bool.false_eq_true, if_false]
    refine ⟨⟨?_, fun hx => absurd hx hne⟩, ⟨?_, fun hx => absurd hx.1 hne⟩, ?_⟩
    · rintro ⟨t, ht | ht⟩
      · split at ht <;> cases ht
      · split at ht <;> cases ht
    · rintro ⟨t, ht⟩
      split at ht <;> cases ht
    · intro hs _
      rw [if_neg hs]

/-! ### What is shown on the terminal -/

/-- C118: the text shown for a failing legacy comparison has every failing point, or the first 26. -/
theorem C118_legacy_shown (count total unique : Nat) (worst : Line) (lines : List Line) :
    (lines.length ≤ 26 → (LegacyReport.failed count total worst unique lines).repr =
      [.one false, .summary count total worst unique, .title, .columns] ++ lines.map .point) ∧
    (26 < lines.length → (LegacyReport.failed count total worst unique lines).repr =
      [.one false, .summary count total worst unique, .title, .columns] ++ (lines.take 26).map .point ++ [.dots]) := by
  have hlen : (LegacyReport.failed count total worst unique lines).text.length = lines.length + 4 := by
    simp [LegacyReport.text]
  unfold LegacyReport.repr
  constructor
  · intro h
    rw [if_neg (by omega)]; rfl
  · intro h
    rw [if_pos (by omega)]
    simp [LegacyReport.text, List.map_take]

/-- C118: the text shown for a multi modal comparison sorted by a distance: no point that is left out has a larger distance than one
that is shown, and as many as eleven are shown. -/
theorem C118_multi_shown (r : Report) (key : Key) (h : r.points.Pairwise fun a b => Fl.NotBefore (key.of a.marks) (key.of b.marks)) :
    r.shown.length = min 11 r.points.length ∧
    ∃ rest, r.points = r.shown ++ rest ∧ ∀ a ∈ r.shown, ∀ b ∈ rest, Fl.NotBefore (key.of a.marks) (key.of b.marks) := by
  refine ⟨by simp [Report.shown], r.points.drop 11, (List.take_append_drop _ _).symm, ?_⟩
  have := h
  rw [← List.take_append_drop 11 r.points, List.pairwise_append] at this
  exact this.2.2

/-! ### A sorting algorithm -/

instance (a b : Fl) : Decidable (Fl.NotBefore a b) := by
  unfold Fl.NotBefore; infer_instance

theorem notBefore_total (a b : Fl) : Fl.NotBefore a b ∨ Fl.NotBefore b a := by
  by_cases ha : a = .nan
  · exact Or.inl (Or.inl ha)
  · by_cases hb : b = .nan
    · exact Or.inr (Or.inl hb)
    · cases h : a.lt b with
      | false => exact Or.inl (Or.inr ⟨hb, h⟩)
      | true => exact Or.inr (notBefore_of_lt h)

/-- The order of positions of a list by their values. -/
def below (l : List Fl) (i j : Nat) : Prop := Fl.NotBefore (l[j]?.getD .nan) (l[i]?.getD .nan)

instance (l : List Fl) : DecidableRel (below l) := fun i j => by unfold below; infer_instance
instance (l : List Fl) : Std.Total (below l) := ⟨fun _ _ => (notBefore_total _ _)⟩
instance (l : List Fl) : IsTrans Nat (below l) := ⟨fun _ _ _ h h' => notBefore_trans h' h⟩

/-- Sorting positions by insertion. -/
def insertion (l : List Fl) : List Nat := (List.range l.length).insertionSort (below l)

/-- There is such an `argsort`. -/
theorem insertion_argsort : Argsort insertion := by
  intro l
  refine ⟨List.perm_insertionSort _ _, ?_⟩
  refine (List.pairwise_insertionSort (below l) _).imp ?_
  intro i j h a b ha hb
  unfold below at h
  rw [ha, hb] at h
  exact h

/-! ### What does not hold -/

/-- The spacing of numbers with 52 bits after the first, up to a factor of two. -/
def spacing52 (_ : NumType) (x : ℚ) : ℚ := if x = 0 then 1 / 2 ^ 1074 else |x| / 2 ^ 52

/-- Twelve pairs of tiny numbers, which pass by their absolute distance, and one that fails. -/
def tiny : List (Fl × Fl) :=
  List.replicate 12 (.fin (2 / 10 ^ 20), .fin (1 / 10 ^ 20)) ++ [(.fin 1, .fin (1 + 1 / 10 ^ 5))]

/-- C118 (not so): what is shown of a failing comparison has a failing point. Sorted by units in the last place, as by default, tiny
numbers that pass come first; here all eleven points shown pass. -/
theorem C118_hidden_violated : ∃ r,
    report insertion .start (make spacing52 .start .none .f64 [13] tiny none .ulp).2 = .ok r ∧
    r.head.failures = 1 ∧ r.shown.length = 11 ∧ ∀ x ∈ r.shown, x.marks.absoluteOk = true := by
  have h : ((report insertion .start (make spacing52 .start .none .f64 [13] tiny none .ulp).2).toOption.map fun r =>
      (r.head.failures, r.shown.length, r.shown.all (·.marks.absoluteOk))) = some (1, 11, true) := by decide +kernel
  obtain ⟨r, hr, e⟩ := Option.map_eq_some_iff.1 h
  simp only [Prod.mk.injEq] at e
  refine ⟨r, ?_, e.1, e.2.1, List.all_eq_true.1 e.2.2⟩
  cases hx : report insertion .start (make spacing52 .start .none .f64 [13] tiny none .ulp).2 with
  | error e => rw [hx] at hr; cases hr
  | ok r' => rw [hx] at hr; cases hr; rfl

/-- Eight points: the code under test should change the first only; it does, and changes three others. -/
def wrongPlaces : List (Fl × Fl) :=
  [(.fin 5, .fin 5), (.fin 1, .fin 1), (.fin 9, .fin 1), (.fin 1, .fin 1), (.fin 9, .fin 1), (.fin 1, .fin 1), (.fin 9, .fin 1),
    (.fin 1, .fin 1)]

/-- C118 (not so): the failures counted against the values that change, and the failing columns, are consistent. Failures where the
reference does not change are counted with the values and not with the columns: here none of one column fails, with three failures
among one value. -/
theorem C118_changing_violated :
    let head := headOf .start (make spacing52 .start .none .f64 [2, 2, 2] wrongPlaces (some (List.replicate 8 (.fin 1))) .ulp).2
    head.local_ = some (0, 1, 1) ∧ head.failures = 3 := by
  decide +kernel

/-- C118 (not so): the thresholds named in a report are the ones that were used. The report of a comparison made with the default
thresholds names, and flags, an override given to another comparison in between: a distance of an eleventh is marked as bad below
a threshold of a half. -/
theorem C118_stale_violated :
    let first := make spacing52 .start .none .f64 [2] [(.fin 10, .fin 11), (.fin 1, .fin 1)] none .ulp
    let second := make spacing52 first.1 ⟨-1, 1 / 2, -1⟩ .f64 [2] [(.fin 1, .fin 1), (.fin 1, .fin 1)] none .ulp
    ((thresholds second.1 first.2).relative = 1 / 2 ∧ (thresholds second.1 first.2).relativeFlag = true) ∧
    (thresholds first.1 first.2).relativeFlag = false ∧ first.2.check = false ∧
    ∃ d ∈ first.2.marks, d.relative = .fin (1 / 11) ∧ d.relativeOk = false := by
  refine ⟨by decide +kernel, by decide +kernel, by decide +kernel, ?_⟩
  exact ⟨_, List.mem_cons_self, by decide +kernel, by decide +kernel⟩

/-- C118 (not so): every failure is reported. For an array of one value the reports raise: the legacy one when it fails, the multi
modal one always. -/
theorem C118_scalar_violated (shape : List Nat) (h : ∀ n ∈ shape, n = 1) :
    (∀ eps near pair, legacyNum eps near pair.1 pair.2 = false → legacyReport eps near shape [pair] = .error .scalar) ∧
    (∀ sp argsort p q o t pair input sort, report argsort q (make sp p o t shape [pair] input sort).2 = .error .scalar) ∧
    ∀ sp p q o t pair input sort, multiNum (sp t) (absoluteEps o t) (p.override o).shared pair.1 pair.2 = false →
      oneLine q (make sp p o t shape [pair] input sort).2 = .error .scalar := by
  have hs : squeeze shape = [] := by
    unfold squeeze
    rw [List.filter_eq_nil_iff]
    intro n hn
    simp [h n hn]
  refine ⟨?_, ?_, ?_⟩
  · intro eps near pair hf
    unfold legacyReport
    have : ([pair].all fun (c, r) => legacyNum eps near c r) = false := by
      show (legacyNum eps near pair.1 pair.2 && true) = false
      rw [hf]; rfl
    rw [if_neg (by rw [this]; simp), if_pos hs]
  · intro sp argsort p q o t pair input sort
    unfold report
    exact if_pos hs
  · intro sp p q o t pair input sort hf
    have hc : (make sp p o t shape [pair] input sort).2.check = false := by
      show (multiNum (sp t) (absoluteEps o t) (p.override o).shared pair.1 pair.2 && true) = false
      rw [hf]; rfl
    unfold oneLine
    simp only [hc, Bool.false_and, Bool.false_eq_true, if_false]
    exact if_pos hs

/-- C118 (not so): a comparison that passes can be reported. Without values it passes and the multi modal report divides by zero. -/
theorem C118_empty_violated (sp : NumType → ℚ → ℚ) (argsort : List Fl → List Nat) (p q : Process) (o : Overrides) (t : NumType)
    (shape : List Nat) (h : shape.prod = 0) (input : Option (List Fl)) (sort : Key) :
    (make sp p o t shape [] input sort).2.check = true ∧
    report argsort q (make sp p o t shape [] input sort).2 = .error .zeroDivision := by
  have hs : squeeze shape ≠ [] := by
    intro h'
    rw [← prod_squeeze, h'] at h
    simp at h
  refine ⟨rfl, ?_⟩
  unfold report
  exact (if_neg hs).trans (if_pos rfl)

/-- C118 (not so): a threshold of zero is reported like any other. Equal arrays fail it, and as no failing point has a positive
metric the report raises. -/
theorem C118_zero_threshold_violated :
    legacyReport 0 none [2] [(.fin 1, .fin 1), (.fin 3, .fin 3)] = .error .unbound := by
  decide +kernel

/-- C118 (not so): an unknown order is refused with a message. It is noticed after the comparison, as a name without a value. -/
theorem C118_order_violated (sp : NumType → ℚ → ℚ) (argsort : List Fl → List Nat) (p q : Process) (o : Overrides) (t : NumType)
    (shape : List Nat) (pairs : List (Fl × Fl)) (input : Option (List Fl)) (hl : pairs.length = shape.prod) (h0 : shape.prod ≠ 0)
    (h1 : shape.prod ≠ 1) : report argsort q (make sp p o t shape pairs input .other).2 = .error .unbound := by
  have hs : squeeze shape ≠ [] := by
    intro h
    apply h1
    rw [← prod_squeeze, h]; rfl
  unfold report
  exact (if_neg hs).trans ((if_neg (by show pairs.length ≠ 0; omega)).trans rfl)

/-- C118 (not so): failing booleans are reported. The legacy report raises at the first failing point. -/
theorem C118_legacy_bool_violated (eps : ℚ) (near : Option ℚ) (shape : List Nat) (pairs : List (Bool × Bool)) (h1 : squeeze shape ≠ [])
    (hf : ∃ p ∈ pairs, legacyBool eps near p.1 p.2 = false) : legacyBoolReport eps near shape pairs = .error .typeError := by
  unfold legacyBoolReport
  rw [if_neg, if_neg h1]
  intro h
  obtain ⟨p, hp, hpf⟩ := hf
  have : legacyBool eps near p.1 p.2 = true := List.all_eq_true.1 h p hp
  rw [hpf] at this; cases this

/-- C118 (not so): the multi modal report of booleans shows their distances. It shows whatever was in memory: any marks at all. -/
theorem C118_multi_bool_violated (d d' : Marks) (u u' : Option Int) (h : units d.ulp = .ok u) (h' : units d'.ulp = .ok u')
    (argsort : List Fl → List Nat) :
    ∃ r, report argsort .start (makeBool [d, d'] .start .none [2] [(true, false), (true, true)] .index).2 = .ok r ∧
      r.points.map (·.marks) = [d, d'] := by
  refine ⟨⟨headOf .start (makeBool [d, d'] .start .none [2] [(true, false), (true, true)] .index).2,
    [⟨[0], .fin 1, .fin 0, d, u⟩, ⟨[1], .fin 1, .fin 1, d', u'⟩]⟩, ?_, rfl⟩
  have e1 : addPoint (makeBool [d, d'] .start .none [2] [(true, false), (true, true)] .index).2 [] 0 =
      .ok [⟨[0], .fin 1, .fin 0, d, u⟩] := by
    show (do let u ← units d.ulp; pure ([] ++ [(⟨[0], .fin 1, .fin 0, d, u⟩ : Point)]) : Except Fault (List Point)) = _
    rw [h]; rfl
  have e2 : addPoint (makeBool [d, d'] .start .none [2] [(true, false), (true, true)] .index).2
      [⟨[0], .fin 1, .fin 0, d, u⟩] 1 = .ok [⟨[0], .fin 1, .fin 0, d, u⟩, ⟨[1], .fin 1, .fin 1, d', u'⟩] := by
    show (do let u' ← units d'.ulp; pure ([(⟨[0], .fin 1, .fin 0, d, u⟩ : Point)] ++ [(⟨[1], .fin 1, .fin 1, d', u'⟩ : Point)]) :
      Except Fault (List Point)) = _
    rw [h']; rfl
  show (do
    let points ← [0, 1].foldlM (addPoint (makeBool [d, d'] .start .none [2] [(true, false), (true, true)] .index).2) []
    pure (Report.mk _ points) : Except Fault Report) = _
  rw [List.foldlM_cons, e1]
  show (do
    let points ← [1].foldlM (addPoint (makeBool [d, d'] .start .none [2] [(true, false), (true, true)] .index).2) _
    pure (Report.mk _ points) : Except Fault Report) = _
  rw [List.foldlM_cons, e2]
  rfl

/-! ### Cases that meet the hypotheses -/

/-- Six points in two rows, the second of which is cut off by a unit axis; two fail, one with a NaN. -/
def sample : List (Fl × Fl) :=
  [(.fin 1, .fin 1), (.fin 3, .fin 2), (.nan, .fin 4), (.nan, .nan), (.fin 5, .fin 5), (.fin 6, .fin 6)]

example : sample.length = [2, 1, 3].prod ∧ [2, 1, 3].prod ≠ 1 ∧ (∃ p ∈ sample, legacyNum (1 / 10) none p.1 p.2 = false) := by
  refine ⟨rfl, by decide, ⟨(.fin 3, .fin 2), by simp [sample], by decide +kernel⟩⟩

example : legacyReport (1 / 10) none [2, 1, 3] sample =
    .ok (.failed 2 6 ⟨[0, 2], .nan, .fin 4, .nan, .nan⟩ 2
      [⟨[0, 1], .fin 3, .fin 2, .fin 1, .fin (1 / 2)⟩, ⟨[0, 2], .nan, .fin 4, .nan, .nan⟩]) := by
  decide +kernel

example : ((report insertion .start (make spacing52 .start .none .f64 [2, 1, 3] sample none .ulp).2).toOption.map fun r =>
    (r.points.map (·.index), r.head.failures, r.head.total)) = some ([[0, 2], [0, 1], [1, 2], [1, 1], [0, 0]], 2, 6) := by
  decide +kernel

end NDSL.CompareReport
