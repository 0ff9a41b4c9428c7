import Verif.Spec.ScatterGather
import Verif.Lemmas.NDArray
import Verif.Lemmas.Exchange

/-! Scatter and gather for any partitioner whose slices cover the global index space. -/
namespace NDSL
variable {α : Type}
open NArr

theorem mapM_get {β γ : Type} {f : β → Except Err γ} : ∀ {l : List β} {out : List γ},
    l.mapM f = .ok out → out.length = l.length ∧ ∀ (k : Nat) (x : β), l[k]? = some x →
      ∃ y, out[k]? = some y ∧ f x = .ok y
  | [], out, h => by cases h; exact ⟨rfl, fun k x hk => by simp at hk⟩
  | a :: l, out, h => by
    rw [List.mapM_cons] at h
    cases ha : f a with
    | error e => rw [ha] at h; cases h
    | ok y =>
      rw [ha] at h
      cases hl : l.mapM f with
      | error e => rw [hl] at h; cases h
      | ok ys =>
        rw [hl] at h
        cases h
        have ih := mapM_get hl
        refine ⟨by simp [ih.1], fun k x hk => ?_⟩
        cases k with
        | zero => simp at hk; subst hk; exact ⟨y, rfl, ha⟩
        | succ k => simp at hk; simpa using ih.2 k x hk

theorem zipWith_length_eq {β γ δ : Type} {f : β → γ → δ} {a : List β} {b : List γ} (h : a.length = b.length) :
    (List.zipWith f a b).length = b.length := by simp [h]

/-- slices shifted by the origin select shifted indices -/
theorem shift_in : ∀ (o : List Int) (w : List Slice) (g : List Int), o.length = w.length →
    o.length = g.length →
    inSlices (shiftSlices o w) (List.zipWith (· + ·) o g) = inSlices w g ∧
    List.zipWith (fun (s : Slice) k => k - s.start) (shiftSlices o w) (List.zipWith (· + ·) o g) =
      List.zipWith (fun (s : Slice) k => k - s.start) w g
  | [], [], [], _, _ => ⟨rfl, rfl⟩
  | o :: os, s :: w, k :: g, h1, h2 => by
    have ih := shift_in os w g (by simpa using h1) (by simpa using h2)
    simp only [shiftSlices, List.zipWith_cons_cons, inSlices] at ih ⊢
    rw [ih.1, ih.2]
    refine ⟨?_, ?_⟩
    · congr 1
      apply decide_eq_decide.2
      omega
    · congr 1; omega
  | [], [], _ :: _, _, h => by simp at h
  | [], _ :: _, _, h, _ => by simp at h
  | _ :: _, [], _, h, _ => by simp at h
  | _ :: _, _ :: _, [], _, h => by simp at h

/-- indices in slices are places of local indices -/
theorem inSlices_place : ∀ (lead : List Int) (sl : List Slice) (g : List Int),
    inSlices (fullSlices lead sl) g = true ↔ ∃ i, InShape (widths sl) i ∧ g = place lead sl i ∧
      (List.zipWith (fun (s : Slice) k => k - s.start) (fullSlices lead sl) g).drop lead.length = i
  | [], [], [] => by
    simp only [fullSlices, List.map_nil, List.append_nil, inSlices, true_iff]
    exact ⟨[], .nil, rfl, rfl⟩
  | [], [], _ :: _ => by
    simp only [fullSlices, List.map_nil, List.append_nil, inSlices, place]
    simp
  | [], s :: sl, [] => by
    simp only [fullSlices, List.map_nil, List.nil_append, inSlices, Bool.false_eq_true, false_iff]
    rintro ⟨i, h1, h2, _⟩
    cases h1 with
    | cons a b => simp [place] at h2
  | [], s :: sl, k :: g => by
    have ih := inSlices_place [] sl g
    simp only [fullSlices, List.map_nil, List.nil_append, inSlices, Bool.and_eq_true, decide_eq_true_eq,
      List.zipWith_cons_cons, List.length_nil, List.drop_zero] at ih ⊢
    constructor
    · rintro ⟨h1, h2⟩
      obtain ⟨i, a, b, c⟩ := ih.1 h2
      refine ⟨(k - s.start) :: i, ?_, ?_, by rw [c]⟩
      · exact .cons (by show 0 ≤ k - s.start ∧ k - s.start < s.stop - s.start; omega) a
      · simp only [place, List.nil_append, List.zipWith_cons_cons] at b ⊢
        rw [← b]; congr 1; omega
    · rintro ⟨i, a, b, c⟩
      cases a with
      | @cons n x l l' h1 h2 =>
        simp only [place, List.nil_append, List.zipWith_cons_cons, List.cons.injEq] at b
        have h1' : 0 ≤ x ∧ x < s.stop - s.start := h1
        refine ⟨by omega, ih.2 ⟨l', h2, by simpa [place] using b.2, ?_⟩⟩
        simp only [List.cons.injEq] at c
        exact c.2
  | t :: lead, sl, [] => by
    simp only [fullSlices, List.map_cons, List.cons_append, inSlices, Bool.false_eq_true, false_iff]
    rintro ⟨i, _, h, _⟩
    simp [place] at h
  | t :: lead, sl, k :: g => by
    have ih := inSlices_place lead sl g
    simp only [fullSlices, List.map_cons, List.cons_append, inSlices, Bool.and_eq_true, decide_eq_true_eq,
      List.zipWith_cons_cons, List.length_cons, List.drop_succ_cons, place, List.cons.injEq] at ih ⊢
    rw [ih]
    constructor
    · rintro ⟨h1, i, a, b, c⟩
      exact ⟨i, a, ⟨by omega, b⟩, c⟩
    · rintro ⟨i, a, ⟨b1, b⟩, c⟩
      exact ⟨by omega, i, a, b, c⟩

theorem sub_place (lead : List Int) (sl : List Slice) (i : List Int) (h : InShape (widths sl) i) :
    (List.zipWith (fun (s : Slice) k => k - s.start) (fullSlices lead sl) (place lead sl i)).drop
      lead.length = i := by
  induction lead with
  | nil =>
    simp only [fullSlices, List.map_nil, List.nil_append, place, List.length_nil, List.drop_zero]
    generalize hw : widths sl = w at h
    induction h generalizing sl with
    | nil =>
      cases sl with
      | nil => rfl
      | cons s sl => simp [widths] at hw
    | @cons n k ns ks hk _ ih =>
      cases sl with
      | nil => simp [widths] at hw
      | cons s sl =>
        simp only [widths, List.map_cons, List.cons.injEq] at hw
        simp only [List.zipWith_cons_cons]
        rw [ih sl (by simpa [widths] using hw.2)]
        congr 1; omega
  | cons t lead ih => simpa [fullSlices, place] using ih

theorem place_in (lead : List Int) (sl : List Slice) (i : List Int) (h : InShape (widths sl) i) :
    inSlices (fullSlices lead sl) (place lead sl i) = true :=
  (inSlices_place lead sl _).2 ⟨i, h, rfl, sub_place lead sl i h⟩

theorem inShape_length {s i : List Int} (h : InShape s i) : i.length = s.length :=
  (List.Forall₂.length_eq h).symm

theorem place_length {lead : List Int} {sl : List Slice} {i : List Int} (h : InShape (widths sl) i) :
    (place lead sl i).length = lead.length + sl.length := by
  have := inShape_length h
  simp only [widths, List.length_map] at this
  simp [place, this]

/-- reading after writing a region -/
theorem setAt_val (q : WQty α) (lead : List Int) (sl : List Slice) (v : NArr α) (g : List Int)
    (h1 : q.origin.length = lead.length + sl.length) (h2 : g.length = q.origin.length) :
    (∀ i, InShape (widths sl) i → g = place lead sl i → (q.setAt lead sl v).val g = v.get i) ∧
    ((∀ i, InShape (widths sl) i → g ≠ place lead sl i) → (q.setAt lead sl v).val g = q.val g) := by
  have hs := shift_in q.origin (fullSlices lead sl) g (by simp [fullSlices, h1]) h2.symm
  constructor
  · intro i hi hg
    subst hg
    unfold WQty.val WQty.setAt
    simp only
    rw [hs.1, hs.2, if_pos (place_in lead sl i hi), sub_place lead sl i hi]
  · intro hn
    unfold WQty.val WQty.setAt
    simp only
    rw [hs.1, if_neg]
    intro hin
    obtain ⟨i, a, b, _⟩ := (inSlices_place lead sl g).1 hin
    exact hn i a b

theorem setAt_fields (q : WQty α) (lead : List Int) (sl : List Slice) (v : NArr α) :
    (q.setAt lead sl v).dims = q.dims ∧ (q.setAt lead sl v).origin = q.origin ∧
    (q.setAt lead sl v).extent = q.extent := ⟨rfl, rfl, rfl⟩

theorem widths_whole (ext : List Int) : widths (ext.map fun n => ⟨0, n⟩) = ext := by
  induction ext with
  | nil => rfl
  | cons n e ih => simp only [widths, List.map_cons, Int.sub_zero] at ih ⊢; rw [ih]

theorem place_whole : ∀ (ext i : List Int), i.length = ext.length →
    place [] (ext.map fun n => ⟨0, n⟩) i = i
  | [], [], _ => rfl
  | n :: e, k :: i, h => by
    have := place_whole e i (by simpa using h)
    simp only [place, List.nil_append, List.map_cons, List.zipWith_cons_cons, Int.zero_add] at this ⊢
    rw [this]
  | [], _ :: _, h => by simp at h
  | _ :: _, [], h => by simp at h

/-- broadcasting to the same shape does nothing -/
theorem bcast_same {src v : NArr α} (h : bcastTo src.shape src = .ok v) : v.Same src := by
  unfold bcastTo at h
  split at h
  · cases h
    refine ⟨rfl, fun i hi => ?_⟩
    simp only
    congr 1
    generalize src.shape = s at hi
    induction hi with
    | nil => rfl
    | @cons n k ns ks hk _ ih =>
      simp only [List.zipWith_cons_cons]
      rw [ih]
      congr 1
      split <;> omega
  · cases h

theorem bcast_ok_same (src : NArr α) : ∃ v, bcastTo src.shape src = .ok v := by
  unfold bcastTo
  rw [if_pos]
  · exact ⟨_, rfl⟩
  · refine ⟨rfl, ?_⟩
    rw [List.all_eq_true]
    intro p hp
    have : p.1 = p.2 := by
      generalize src.shape = s at hp
      induction s with
      | nil => simp at hp
      | cons n s ih =>
        simp only [List.zip_cons_cons, List.mem_cons] at hp
        rcases hp with rfl | hp
        · rfl
        · exact ih hp
    simp [this]

/-- positive and broadcastable with equal size: equal -/
theorem eq_of_size : ∀ (a b : List Int), b.length = a.length →
    (b.zip a).all (fun p => decide (p.1 = p.2 ∨ p.1 = 1)) = true → (∀ n ∈ b, 1 ≤ n) → NonNeg a →
    size a = size b → b = a
  | [], [], _, _, _, _, _ => rfl
  | n :: a, m :: b, hl, hb, hp, hn, hs => by
    simp only [List.zip_cons_cons, List.all_cons, Bool.and_eq_true, decide_eq_true_eq] at hb
    have hm := hp m List.mem_cons_self
    have hp' : ∀ n ∈ b, 1 ≤ n := fun x hx => hp x (List.mem_cons_of_mem _ hx)
    have hn0 := hn n List.mem_cons_self
    have hn' : NonNeg a := fun x hx => hn x (List.mem_cons_of_mem _ hx)
    have hsb : 1 ≤ size b := size_pos hp'
    have hle := size_le a b (by simpa using hl) hb.2 hp' hn'
    unfold size at hs
    have hsa := size_nonneg hn'
    rcases hb.1 with h | h
    · subst h
      have : size a = size b := Int.eq_of_mul_eq_mul_left (by omega) hs
      rw [eq_of_size a b (by simpa using hl) hb.2 hp' hn' this]
    · subst h
      have hn1 : 1 ≤ n := by
        rcases Int.lt_or_le n 1 with h | h
        · have : n = 0 := by omega
          subst this
          omega
        · exact h
      have hsa1 : 1 ≤ size a := by
        rcases Int.lt_or_le (size a) 1 with h | h
        · have : size a = 0 := by omega
          rw [this] at hs; omega
        · exact h
      have hsab : size b ≤ size a := by
        rcases hle with h | h
        · omega
        · exact h
      have hn2 : n = 1 := by
        rcases Int.lt_or_le n 2 with h | h
        · omega
        · have := Int.mul_le_mul_of_nonneg_right h hsa
          omega
      subst hn2
      have : size a = size b := by omega
      rw [eq_of_size a b (by simpa using hl) hb.2 hp' hn' this]
  | [], _ :: _, h, _, _, _, _ => by simp at h
  | _ :: _, [], h, _, _, _, _ => by simp at h
where
  size_pos : ∀ {b : List Int}, (∀ n ∈ b, 1 ≤ n) → 1 ≤ size b
    | [], _ => by simp [size]
    | n :: b, h => by
      have h1 := h n List.mem_cons_self
      have h2 := size_pos (b := b) fun x hx => h x (List.mem_cons_of_mem _ hx)
      unfold size
      have := Int.mul_le_mul h1 h2 (by omega) (by omega)
      omega
  size_le : ∀ (a b : List Int), b.length = a.length →
      (b.zip a).all (fun p => decide (p.1 = p.2 ∨ p.1 = 1)) = true → (∀ n ∈ b, 1 ≤ n) → NonNeg a →
      size a = 0 ∨ size b ≤ size a
    | [], [], _, _, _, _ => Or.inr (by simp [size])
    | n :: a, m :: b, hl, hb, hp, hn => by
      simp only [List.zip_cons_cons, List.all_cons, Bool.and_eq_true, decide_eq_true_eq] at hb
      have hm := hp m List.mem_cons_self
      have hp' : ∀ n ∈ b, 1 ≤ n := fun x hx => hp x (List.mem_cons_of_mem _ hx)
      have hn0 := hn n List.mem_cons_self
      have hn' : NonNeg a := fun x hx => hn x (List.mem_cons_of_mem _ hx)
      have hsb : 1 ≤ size b := size_pos hp'
      have hsa := size_nonneg hn'
      unfold size
      rcases size_le a b (by simpa using hl) hb.2 hp' hn' with h | h
      · left; rw [h]; simp
      · rcases hb.1 with e | e
        · subst e; right; exact Int.mul_le_mul_of_nonneg_left h (by omega)
        · subst e
          rcases Int.lt_or_le n 1 with h1 | h1
          · left; have : n = 0 := by omega
            rw [this]; simp
          · right
            have := Int.mul_le_mul h1 h (by omega) (by omega)
            omega
    | [], _ :: _, h, _, _, _ => by simp at h
    | _ :: _, [], h, _, _, _ => by simp at h

/-- the partitioner accepts `dims`, `ext`; its slices lie in and cover the global index space -/
structure GoodPart (P : Part) (dims : List Dim) (ext : List Int) (L : Nat → List Int)
    (S : Nat → List Slice) : Prop where
  slice : ∀ r, r < P.total → P.slice r dims ext = .ok (L r, S r)
  sub : ∀ r, r < P.total → P.subExtent r dims ext = .ok (widths (S r))
  nonneg : ∀ r, r < P.total → NonNeg (widths (S r))
  len : ∀ r, r < P.total → (L r).length + (S r).length = dims.length
  cover : ∀ g, InShape ext g → ∃ r, r < P.total ∧ ∃ i, InShape (widths (S r)) i ∧ g = place (L r) (S r) i
  total : 0 < P.total
  elen : ext.length = dims.length

theorem pos_of_inShape {w i : List Int} (h : InShape w i) : ∀ n ∈ w, 1 ≤ n := by
  intro n hn
  induction h with
  | nil => cases hn
  | cons h _ ih =>
    rcases List.mem_cons.1 hn with rfl | hn
    · omega
    · exact ih hn

/-- a fresh or fitting receive quantity -/
theorem scatterOne_ok [Inhabited α] {P : Part} {q out : WQty α} {L : Nat → List Int} {S : Nat → List Slice}
    (hP : GoodPart P q.dims q.extent L S) {recv : Option (WQty α)} {r : Nat} (hr : r < P.total)
    (hrecv : ∀ o, recv = some o → o.extent = widths (S r) ∧ o.origin.length = o.extent.length)
    (h : scatterOne P q recv r = .ok out) :
    out.extent = widths (S r) ∧ out.origin.length = out.extent.length ∧
    out.dims = (recv.map (·.dims)).getD (P.down q.dims) ∧
    ((∀ n ∈ widths (S r), 1 ≤ n) → widths (S r) = widths (S 0)) ∧
    (∀ i, InShape out.extent i → out.val i = q.val (place (L r) (S r) i)) ∧
    (∀ o, recv = some o → ∀ g, g.length = o.extent.length → ¬ InShape o.extent g →
      out.val g = o.val g) := by
  unfold scatterOne at h
  rw [hP.sub r hr] at h
  simp only [bind, Except.bind, scatterRow, hP.sub 0 hP.total, hP.slice r hr] at h
  have hout : ∀ o, recv.getD (freshQty (P.down q.dims) (widths (S r))) = o →
      o.extent = widths (S r) ∧ o.origin.length = o.extent.length := by
    intro o ho
    cases hc : recv with
    | none => rw [hc] at ho; subst ho; exact ⟨rfl, by simp [freshQty]⟩
    | some o' => rw [hc] at ho; cases ho; exact hrecv _ hc
  have hdims : (recv.getD (freshQty (P.down q.dims) (widths (S r)))).dims =
      (recv.map (·.dims)).getD (P.down q.dims) := by
    cases recv <;> rfl
  have hsome : ∀ o, recv = some o → recv.getD (freshQty (P.down q.dims) (widths (S r))) = o := by
    intro o ho; rw [ho]; rfl
  generalize recv.getD (freshQty (P.down q.dims) (widths (S r))) = o at h hout hdims hsome
  obtain ⟨he, ho⟩ := hout o rfl
  cases hb : bcastTo (widths (S 0)) (q.viewAt (L r) (S r)) with
  | error e => rw [hb] at h; cases h
  | ok row =>
    rw [hb] at h
    simp only at h
    cases hv : reshape row.flatten o.extent with
    | error e => rw [hv] at h; cases h
    | ok v =>
      rw [hv] at h
      simp only [pure, Except.pure] at h
      cases h
      have hwl : o.origin.length = ([] : List Int).length + (o.extent.map fun n => (⟨0, n⟩ : Slice)).length := by
        simp [ho]
      have hshape : row.shape = widths (S 0) := by
        unfold bcastTo at hb
        split at hb
        · cases hb; rfl
        · cases hb
      have heq : (∀ n ∈ widths (S r), 1 ≤ n) → widths (S r) = widths (S 0) := by
        intro hpos
        have hb' := hb
        unfold bcastTo at hb'
        split at hb'
        · rename_i hc
          unfold reshape at hv
          split at hv
          · rename_i hlen
            rw [flatten_length (by rw [hshape]; exact hP.nonneg 0 hP.total), hshape, he] at hlen
            have := size_nonneg (hP.nonneg 0 hP.total)
            exact eq_of_size (widths (S 0)) (widths (S r)) hc.1 hc.2 hpos (hP.nonneg 0 hP.total)
              (by omega)
          · cases hv
        · cases hb'
      refine ⟨he, ho, hdims, heq, ?_, ?_⟩
      · intro i hi
        have hi' : InShape o.extent i := hi
        rw [(setAt_val o [] _ v i hwl (by rw [ho]; exact inShape_length hi')).1 i
          (by rw [widths_whole]; exact hi') (place_whole o.extent i (inShape_length hi')).symm]
        have hpos : ∀ n ∈ widths (S r), 1 ≤ n := by
          rw [he] at hi'
          exact pos_of_inShape hi'
        have hw := heq hpos
        -- the row is the view
        have hsame : row.Same (q.viewAt (L r) (S r)) := by
          apply bcast_same
          show bcastTo (widths (S r)) (q.viewAt (L r) (S r)) = _
          rw [hw]; exact hb
        obtain ⟨v', hv1, hv2⟩ := reshape_flatten (m := row) (by rw [hshape]; exact hP.nonneg 0 hP.total)
        have hvv : v = v' := by
          have : reshape row.flatten o.extent = .ok v' := by rw [← hv1, hshape, he, hw]
          rw [hv] at this; exact Except.ok.inj this
        subst hvv
        have hir : InShape row.shape i := by rw [hshape, ← hw, ← he]; exact hi'
        rw [hv2.2 i (by rw [hv2.1]; exact hir), hsame.2 i hir]
        rfl
      · intro o' ho' g hgl hg
        have := hsome o' ho'
        subst this
        refine (setAt_val o [] _ v g hwl (by rw [ho]; exact hgl)).2 ?_
        intro i hi e
        rw [widths_whole] at hi
        rw [place_whole o.extent i (inShape_length hi)] at e
        exact hg (by rw [e]; exact hi)

/-- scatter to the ranks succeeds when they all have the shape of the root -/
theorem scatterOne_succeeds [Inhabited α] {P : Part} {q : WQty α} {L : Nat → List Int}
    {S : Nat → List Slice} (hP : GoodPart P q.dims q.extent L S) {r : Nat} (hr : r < P.total)
    (hw : widths (S r) = widths (S 0)) : ∃ out, scatterOne P q none r = .ok out := by
  unfold scatterOne
  rw [hP.sub r hr]
  simp only [bind, Except.bind, scatterRow, hP.sub 0 hP.total, hP.slice r hr, Option.getD_none]
  obtain ⟨row, hrow⟩ := bcast_ok_same (q.viewAt (L r) (S r))
  have hrow' : bcastTo (widths (S 0)) (q.viewAt (L r) (S r)) = .ok row := by rw [← hw]; exact hrow
  rw [hrow']
  simp only
  have hs : row.shape = widths (S r) := (bcast_same hrow).1
  obtain ⟨v, hv, _⟩ := reshape_flatten (m := row) (by rw [hs]; exact hP.nonneg r hr)
  have hv' : reshape row.flatten (freshQty (α := α) (P.down q.dims) (widths (S r))).extent = .ok v := by
    rw [← hv, hs]; rfl
  rw [hv']
  exact ⟨_, rfl⟩

theorem inShape_of_pos : ∀ {w : List Int}, (∀ n ∈ w, 1 ≤ n) → InShape w (w.map fun _ => 0)
  | [], _ => .nil
  | n :: w, h => .cons (by have := h n List.mem_cons_self; show 0 ≤ (0 : Int) ∧ 0 < n; omega)
      (inShape_of_pos fun x hx => h x (List.mem_cons_of_mem _ hx))

/-- the loop of gather -/
theorem gather_loop {P : Part} {dims : List Dim} {ext : List Int} {L : Nat → List Int}
    {S : Nat → List Slice} (hP : GoodPart P dims ext L S) (F : List Int → α) (rows : List (NArr α))
    (hrows : ∀ r, r < P.total → ∃ row, rows[r]? = some row ∧ row.shape = widths (S r) ∧
      ∀ i, InShape (widths (S r)) i → row.get i = F (place (L r) (S r) i)) :
    ∀ (n : Nat), n ≤ P.total → ∀ (o : WQty α), o.dims = dims → o.extent = ext →
      o.origin.length = dims.length →
      ∃ out, (List.range n).foldlM (gatherStep P rows) o = .ok out ∧
        out.dims = dims ∧ out.extent = ext ∧ out.origin = o.origin ∧
        (∀ r, r < n → ∀ i, InShape (widths (S r)) i →
          out.val (place (L r) (S r) i) = F (place (L r) (S r) i)) ∧
        (∀ g, g.length = dims.length →
          (∀ r, r < n → ∀ i, InShape (widths (S r)) i → g ≠ place (L r) (S r) i) → out.val g = o.val g)
  | 0, _, o, h1, h2, h3 => ⟨o, rfl, h1, h2, rfl, fun r hr => by omega, fun _ _ _ => rfl⟩
  | n + 1, hn, o, h1, h2, h3 => by
    obtain ⟨out, e, d1, d2, d3, d4, d5⟩ := gather_loop hP F rows hrows n (by omega) o h1 h2 h3
    have hnt : n < P.total := by omega
    obtain ⟨row, r1, r2, r3⟩ := hrows n hnt
    rw [List.range_succ, List.foldlM_append, e]
    simp only [bind, Except.bind, List.foldlM_cons, List.foldlM_nil]
    unfold gatherStep
    rw [d1, d2, hP.slice n hnt]
    simp only [bind, Except.bind, r1]
    obtain ⟨v, hv⟩ := bcast_ok_same row
    have hvs := bcast_same hv
    rw [show ((S n).map fun s : Slice => s.stop - s.start) = row.shape from r2.symm, hv]
    have hlen : out.origin.length = (L n).length + (S n).length := by rw [d3, h3]; exact (hP.len n hnt).symm
    refine ⟨_, rfl, d1, d2, d3, ?_, ?_⟩
    · intro r hr i hi
      have hgl : (place (L r) (S r) i).length = out.origin.length := by
        rw [place_length hi, d3, h3]; exact hP.len r (by omega)
      have hset := setAt_val out (L n) (S n) v (place (L r) (S r) i) hlen hgl
      by_cases hc : ∃ k, InShape (widths (S n)) k ∧ place (L r) (S r) i = place (L n) (S n) k
      · obtain ⟨k, hk, hkp⟩ := hc
        rw [hset.1 k hk hkp, hkp, hvs.2 k (by rw [hvs.1, r2]; exact hk), r3 k hk]
      · have hrn : r < n := by
          rcases Nat.lt_or_ge r n with h | h
          · exact h
          · have : r = n := by omega
            subst this
            exact absurd ⟨i, hi, rfl⟩ hc
        rw [hset.2 fun k hk hkp => hc ⟨k, hk, hkp⟩]
        exact d4 r hrn i hi
    · intro g hg hcov
      have hset := setAt_val out (L n) (S n) v g hlen (by rw [d3, h3]; exact hg)
      rw [hset.2 (hcov n (by omega))]
      exact d5 g hg fun r hr => hcov r (by omega)

/-- gather of quantities that hold a global field -/
theorem gather_field [Inhabited α] {P : Part} {L : Nat → List Int} {S : Nat → List Slice}
    (dims : List Dim) (ext : List Int)
    (hP : GoodPart P (P.up dims) (P.globalExtent dims ext) L S) (hS : ∀ r, r < P.total → widths (S r) = ext)
    (F : List Int → α) (sends : List (WQty α)) (hl : sends.length = P.total)
    (hs : ∀ (r : Nat) (q : WQty α), sends[r]? = some q → q.dims = dims ∧ q.extent = ext ∧
      ∀ i, InShape ext i → q.val i = F (place (L r) (S r) i)) (recv : Option (WQty α))
    (hrecv : ∀ o, recv = some o → o.dims = P.up dims ∧ o.extent = P.globalExtent dims ext ∧
      o.origin.length = o.dims.length) :
    ∃ out, gather P sends recv = .ok out ∧ out.dims = P.up dims ∧
      out.extent = P.globalExtent dims ext ∧
      (∀ g, InShape out.extent g → out.val g = F g) ∧
      (∀ r, r < P.total → ∀ i, InShape (widths (S r)) i →
        out.val (place (L r) (S r) i) = F (place (L r) (S r) i)) := by
  cases sends with
  | nil => have := hP.total; simp at hl; omega
  | cons root rest =>
    unfold gather
    simp only
    have hroot := hs 0 root rfl
    have hnn : NonNeg ext := by rw [← hS 0 hP.total]; exact hP.nonneg 0 hP.total
    have hrow : ∀ (r : Nat) (q : WQty α), (root :: rest)[r]? = some q →
        ∃ row, gatherRow root q = .ok row ∧ row.shape = ext ∧
        ∀ i, InShape ext i → row.get i = F (place (L r) (S r) i) := by
      intro r q hq
      obtain ⟨_, a2, a3⟩ := hs r q hq
      obtain ⟨v, hv, hv2⟩ := reshape_flatten (m := q.viewAll) (by show NonNeg q.extent; rw [a2]; exact hnn)
      refine ⟨v, ?_, ?_, ?_⟩
      · unfold gatherRow
        rw [← hv, hroot.2.1, ← a2]; rfl
      · rw [hv2.1]; exact a2
      · intro i hi
        rw [hv2.2 i (by rw [hv2.1]; show InShape q.extent i; rw [a2]; exact hi)]
        exact a3 i hi
    have hmap : ∃ rows, (root :: rest).mapM (gatherRow root) = .ok rows := by
      have : ∀ q ∈ (root :: rest), ∃ row, gatherRow root q = .ok row := by
        intro q hq
        obtain ⟨r, hr⟩ := List.getElem?_of_mem hq
        obtain ⟨row, h, _⟩ := hrow r q hr
        exact ⟨row, h⟩
      generalize (root :: rest) = l at this
      induction l with
      | nil => exact ⟨[], rfl⟩
      | cons q l ih =>
        obtain ⟨row, h⟩ := this q List.mem_cons_self
        obtain ⟨rows, h2⟩ := ih fun x hx => this x (List.mem_cons_of_mem _ hx)
        exact ⟨row :: rows, by rw [List.mapM_cons, h, h2]; rfl⟩
    obtain ⟨rows, hrows⟩ := hmap
    have hget := mapM_get hrows
    rw [hrows]
    simp only [bind, Except.bind, hroot.1, hroot.2.1]
    have hout : ∀ o, recv.getD (freshQty (P.up dims) (P.globalExtent dims ext)) = o →
        o.dims = P.up dims ∧ o.extent = P.globalExtent dims ext ∧ o.origin.length = o.dims.length := by
      intro o ho
      cases hc : recv with
      | none =>
        rw [hc] at ho; subst ho
        exact ⟨rfl, rfl, by simp only [Option.getD_none, freshQty, List.length_map]; exact hP.elen⟩
      | some o' => rw [hc] at ho; cases ho; exact hrecv _ hc
    generalize recv.getD (freshQty (P.up dims) (P.globalExtent dims ext)) = o at hout
    obtain ⟨o1, o2, o3⟩ := hout o rfl
    obtain ⟨out, e, d1, d2, d3, d4, _⟩ := gather_loop hP F rows (by
      intro r hr
      obtain ⟨q, hq⟩ : ∃ q, (root :: rest)[r]? = some q :=
        ⟨_, List.getElem?_eq_getElem (by rw [hl]; exact hr)⟩
      obtain ⟨row, r1, r2⟩ := hget.2 r q hq
      obtain ⟨row', r3, r4, r5⟩ := hrow r q hq
      have : row = row' := by rw [r2] at r3; exact Except.ok.inj r3
      subst this
      exact ⟨row, r1, by rw [r4, hS r hr], by rw [hS r hr]; exact r5⟩) P.total (Nat.le_refl _) o o1 o2
      (by rw [o3, o1])
    refine ⟨out, e, d1, d2, fun g hg => ?_, d4⟩
    rw [d2] at hg
    obtain ⟨r, hr, i, hi, rfl⟩ := hP.cover g hg
    exact d4 r hr i hi

theorem scatter_get [Inhabited α] {P : Part} {q : WQty α} {recv : Nat → Option (WQty α)}
    {rs : List (WQty α)} (h : scatter P q recv = .ok rs) : rs.length = P.total ∧
    ∀ (r : Nat) (out : WQty α), rs[r]? = some out → r < P.total ∧ scatterOne P q (recv r) r = .ok out := by
  have hm := mapM_get h
  rw [List.length_range] at hm
  refine ⟨hm.1, fun r out hr => ?_⟩
  have hlt : r < P.total := by rw [← hm.1]; exact (List.getElem?_eq_some_iff.1 hr).1
  obtain ⟨y, h1, h2⟩ := hm.2 r r (List.getElem?_range hlt)
  rw [hr] at h1
  cases h1
  exact ⟨hlt, h2⟩

/-- gather after scatter -/
theorem gather_scatter [Inhabited α] {P : Part} {q : WQty α} {L : Nat → List Int} {S : Nat → List Slice}
    (hP : GoodPart P q.dims q.extent L S) (hpos : ∀ r, r < P.total → ∀ n ∈ widths (S r), 1 ≤ n)
    (hud : P.up (P.down q.dims) = q.dims)
    (hglob : (∀ r, r < P.total → widths (S r) = widths (S 0)) →
      P.globalExtent (P.down q.dims) (widths (S 0)) = q.extent)
    {rs : List (WQty α)} (h : scatter P q (fun _ => none) = .ok rs) :
    ∃ g, gather P rs none = .ok g ∧ g.dims = q.dims ∧ g.extent = q.extent ∧
      ∀ i, InShape q.extent i → g.val i = q.val i := by
  have hg := scatter_get h
  have hone : ∀ (r : Nat) (out : WQty α), rs[r]? = some out → r < P.total ∧ out.dims = P.down q.dims ∧
      out.extent = widths (S r) ∧ widths (S r) = widths (S 0) ∧
      ∀ i, InShape out.extent i → out.val i = q.val (place (L r) (S r) i) := by
    intro r out hr
    obtain ⟨h1, h2⟩ := hg.2 r out hr
    have := scatterOne_ok hP h1 (by intro o ho; cases ho) h2
    exact ⟨h1, this.2.2.1, this.1, this.2.2.2.1 (hpos r h1), this.2.2.2.2.1⟩
  have heq : ∀ r, r < P.total → widths (S r) = widths (S 0) := by
    intro r hr
    exact (hone r _ (List.getElem?_eq_getElem (by rw [hg.1]; exact hr))).2.2.2.1
  have hge := hglob heq
  obtain ⟨out, o1, o2, o3, o4, _⟩ := gather_field (P := P) (L := L) (S := S) (P.down q.dims) (widths (S 0))
    (by rw [hud, hge]; exact hP) heq q.val rs hg.1 (by
      intro r out hr
      obtain ⟨a1, a2, a3, a4, a5⟩ := hone r out hr
      exact ⟨a2, by rw [a3, a4], fun i hi => a5 i (by rw [a3, a4]; exact hi)⟩) none (by intro o ho; cases ho)
  exact ⟨out, o1, by rw [o2, hud], by rw [o3, hge], fun i hi => o4 i (by rw [o3, hge]; exact hi)⟩

/-- scatter after gather -/
theorem scatter_gather [Inhabited α] {P : Part} {L : Nat → List Int} {S : Nat → List Slice}
    (dims : List Dim) (ext : List Int)
    (hP : GoodPart P (P.up dims) (P.globalExtent dims ext) L S) (hS : ∀ r, r < P.total → widths (S r) = ext)
    (hdu : P.down (P.up dims) = dims)
    (F : List Int → α) (sends : List (WQty α)) (hl : sends.length = P.total)
    (hs : ∀ (r : Nat) (q : WQty α), sends[r]? = some q → q.dims = dims ∧ q.extent = ext ∧
      ∀ i, InShape ext i → q.val i = F (place (L r) (S r) i)) :
    ∃ g rs, gather P sends none = .ok g ∧ g.dims = P.up dims ∧ g.extent = P.globalExtent dims ext ∧
      (∀ k, InShape g.extent k → g.val k = F k) ∧
      scatter P g (fun _ => none) = .ok rs ∧ rs.length = P.total ∧
      ∀ (r : Nat) (q out : WQty α), sends[r]? = some q → rs[r]? = some out →
        out.dims = q.dims ∧ out.extent = q.extent ∧ ∀ i, InShape q.extent i → out.val i = q.val i := by
  obtain ⟨g, g1, g2, g3, g4, g5⟩ := gather_field dims ext hP hS F sends hl hs none (by intro o ho; cases ho)
  have hP' : GoodPart P g.dims g.extent L S := by rw [g2, g3]; exact hP
  have hsc : ∀ r ∈ List.range P.total, ∃ out, scatterOne P g none r = .ok out := by
    intro r hr
    have hr := List.mem_range.1 hr
    exact scatterOne_succeeds hP' hr (by rw [hS r hr, hS 0 hP.total])
  have hrs : ∃ rs, scatter P g (fun _ => none) = .ok rs := by
    unfold scatter
    generalize List.range P.total = l at hsc
    induction l with
    | nil => exact ⟨[], rfl⟩
    | cons r l ih =>
      obtain ⟨o, ho⟩ := hsc r List.mem_cons_self
      obtain ⟨os, hos⟩ := ih fun x hx => hsc x (List.mem_cons_of_mem _ hx)
      exact ⟨o :: os, by rw [List.mapM_cons, ho, hos]; rfl⟩
  obtain ⟨rs, hrs⟩ := hrs
  have hg := scatter_get hrs
  refine ⟨g, rs, g1, g2, g3, g4, hrs, hg.1, ?_⟩
  intro r q out hq hout
  obtain ⟨h1, h2⟩ := hg.2 r out hout
  have hone := scatterOne_ok hP' h1 (by intro o ho; cases ho) h2
  obtain ⟨q1, q2, q3⟩ := hs r q hq
  refine ⟨?_, by rw [hone.1, hS r h1, q2], ?_⟩
  · rw [hone.2.2.1, q1, g2]; exact hdu
  · intro i hi
    rw [q2] at hi
    rw [hone.2.2.2.2.1 i (by rw [hone.1, hS r h1]; exact hi), g5 r h1 i (by rw [hS r h1]; exact hi), q3 i hi]

end NDSL
