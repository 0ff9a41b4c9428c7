import Verif.Spec.Xumpy
import Verif.Props.Temporaries
import Mathlib.Data.List.Nodup
/-
C123: reductions over arrays and quantities.
-/
namespace NDSL.Xumpy

open NDSL.Storage NDSL.Temporaries

/-! ### Greatest and least -/

theorem Le.refl : ∀ x : Num, x ≠ .nan → Le x x
  | .nan, h => absurd rfl h
  | .inf true, _ => trivial
  | .inf false, _ => trivial
  | .fin _, _ => le_refl _

theorem Le.trans : ∀ {x y z : Num}, Le x y → Le y z → Le x z := by
  intro x y z
  rcases x with a | s | _ <;> rcases y with b | t | _ <;> rcases z with c | u | _ <;>
    (try cases s) <;> (try cases t) <;> (try cases u) <;> simp only [Le] <;> intros <;> first | trivial | contradiction | skip
  exact le_trans ‹_› ‹_›

/-- What a fold needs: NaN wins, otherwise one of the two that is beyond both. -/
structure Picks (f : Num → Num → Num) (R : Num → Num → Prop) : Prop where
  nan : ∀ a b, f a b = .nan ↔ a = .nan ∨ b = .nan
  one : ∀ a b, f a b = a ∨ f a b = b
  left : ∀ a b, a ≠ .nan → b ≠ .nan → R a (f a b)
  right : ∀ a b, a ≠ .nan → b ≠ .nan → R b (f a b)
  refl : ∀ a, a ≠ .nan → R a a
  trans : ∀ {a b c}, R a b → R b c → R a c

theorem picks_max : Picks maxNum Le := by
  constructor
  · intro a b
    rcases a with a | s | _ <;> rcases b with b | t | _ <;> (try cases s) <;> (try cases t) <;> simp [maxNum]
  · intro a b
    rcases a with a | s | _ <;> rcases b with b | t | _ <;> (try cases s) <;> (try cases t) <;> simp only [maxNum] <;> first | simp; done | skip
    split
    · exact Or.inr rfl
    · exact Or.inl rfl
  · intro a b
    rcases a with a | s | _ <;> rcases b with b | t | _ <;> (try cases s) <;> (try cases t) <;> simp [maxNum, Le]
    all_goals (split <;> first | assumption | exact le_refl _ | exact le_of_lt (not_le.1 ‹_›))
  · intro a b
    rcases a with a | s | _ <;> rcases b with b | t | _ <;> (try cases s) <;> (try cases t) <;> simp [maxNum, Le]
    all_goals (split <;> first | assumption | exact le_refl _ | exact le_of_lt (not_le.1 ‹_›))
  · exact Le.refl
  · exact Le.trans

theorem picks_min : Picks minNum (fun a b => Le b a) := by
  constructor
  · intro a b
    rcases a with a | s | _ <;> rcases b with b | t | _ <;> (try cases s) <;> (try cases t) <;> simp [minNum]
  · intro a b
    rcases a with a | s | _ <;> rcases b with b | t | _ <;> (try cases s) <;> (try cases t) <;> simp only [minNum] <;> first | simp; done | skip
    split
    · exact Or.inl rfl
    · exact Or.inr rfl
  · intro a b
    rcases a with a | s | _ <;> rcases b with b | t | _ <;> (try cases s) <;> (try cases t) <;> simp [minNum, Le]
    all_goals (split <;> first | assumption | exact le_refl _ | exact le_of_lt (not_le.1 ‹_›))
  · intro a b
    rcases a with a | s | _ <;> rcases b with b | t | _ <;> (try cases s) <;> (try cases t) <;> simp [minNum, Le]
    all_goals (split <;> first | assumption | exact le_refl _ | exact le_of_lt (not_le.1 ‹_›))
  · exact Le.refl
  · exact fun h1 h2 => Le.trans h2 h1

theorem fold_picks {f : Num → Num → Num} {R : Num → Num → Prop} (P : Picks f R) (l : List Num) (x : Num) :
    if Num.nan ∈ x :: l then l.foldl f x = .nan else l.foldl f x ∈ x :: l ∧ ∀ y ∈ x :: l, R y (l.foldl f x) := by
  induction l generalizing x with
  | nil =>
    by_cases hx : x = .nan
    · subst hx; simp
    · rw [if_neg (by simp; exact fun h => hx h.symm)]
      simp only [List.foldl_nil, List.mem_singleton, forall_eq, true_and]
      exact P.refl x hx
  | cons y l ih =>
    have h := ih (f x y)
    rw [List.foldl_cons]
    by_cases hn : Num.nan ∈ x :: y :: l
    · rw [if_pos hn]
      have : Num.nan ∈ f x y :: l := by
        simp only [List.mem_cons] at hn ⊢
        rcases hn with h | h | h
        · exact Or.inl ((P.nan x y).2 (Or.inl h.symm)).symm
        · exact Or.inl ((P.nan x y).2 (Or.inr h.symm)).symm
        · exact Or.inr h
      rwa [if_pos this] at h
    · rw [if_neg hn]
      simp only [List.mem_cons, not_or] at hn
      have hx : x ≠ .nan := fun h => hn.1 h.symm
      have hy : y ≠ .nan := fun h => hn.2.1 h.symm
      have : Num.nan ∉ f x y :: l := by
        simp only [List.mem_cons, not_or]
        refine ⟨fun h => ?_, hn.2.2⟩
        rcases (P.nan x y).1 h.symm with h | h
        · exact hx h
        · exact hy h
      rw [if_neg this] at h
      refine ⟨?_, ?_⟩
      · rcases List.mem_cons.1 h.1 with h1 | h1
        · rcases P.one x y with h2 | h2
          · rw [h1, h2]; simp
          · rw [h1, h2]; simp
        · simp [h1]
      · intro z hz
        have hf := h.2 (f x y) (by simp)
        rcases List.mem_cons.1 hz with rfl | hz
        · exact P.trans (P.left _ _ hx hy) hf
        · rcases List.mem_cons.1 hz with rfl | hz
          · exact P.trans (P.right _ _ hx hy) hf
          · exact h.2 z (by simp [hz])

/-! ### Indices -/

theorem isIndex_length : ∀ {s idx : List Nat}, isIndex s idx → idx.length = s.length
  | [], [], _ => rfl
  | [], _ :: _, h => by cases h
  | _ :: _, [], h => by cases h
  | _ :: s, _ :: idx, h => by rw [List.length_cons, List.length_cons, isIndex_length h.2]

theorem merge_index : ∀ (ms : List Bool) (s ks rs : List Nat), ms.length = s.length → isIndex (only false ms s) ks →
    isIndex (only true ms s) rs → isIndex s (merge ms ks rs) ∧ only false ms (merge ms ks rs) = ks ∧ only true ms (merge ms ks rs) = rs
  | [], [], [], [], _, _, _ => ⟨trivial, rfl, rfl⟩
  | [], [], _ :: _, _, _, h, _ => by cases h
  | [], [], [], _ :: _, _, _, h => by cases h
  | [], _ :: _, _, _, h, _, _ => by cases h
  | _ :: _, [], _, _, h, _, _ => by cases h
  | true :: ms, n :: s, ks, rs, hl, hk, hr => by
    simp only [only] at hk hr
    match rs, hr with
    | r :: rs, hr =>
      obtain ⟨h1, h2, h3⟩ := merge_index ms s ks rs (Nat.succ.inj hl) hk hr.2
      refine ⟨⟨hr.1, h1⟩, ?_, ?_⟩
      · simp [merge, only, h2]
      · simp [merge, only, h3]
  | false :: ms, n :: s, ks, rs, hl, hk, hr => by
    simp only [only] at hk hr
    match ks, hk with
    | k :: ks, hk =>
      obtain ⟨h1, h2, h3⟩ := merge_index ms s ks rs (Nat.succ.inj hl) hk.2 hr
      refine ⟨⟨hk.1, h1⟩, ?_, ?_⟩
      · simp [merge, only, h2]
      · simp [merge, only, h3]

theorem only_index (b : Bool) : ∀ (ms : List Bool) (s idx : List Nat), ms.length = s.length → isIndex s idx →
    isIndex (only b ms s) (only b ms idx)
  | [], [], [], _, _ => trivial
  | _, [], _ :: _, _, h => by cases h
  | [], _ :: _, _, h, _ => by cases h
  | _ :: _, [], _, h, _ => by cases h
  | _, _ :: _, [], _, h => by cases h
  | m :: ms, n :: s, i :: idx, hl, hi => by
    simp only [only]
    split
    · exact ⟨hi.1, only_index b ms s idx (Nat.succ.inj hl) hi.2⟩
    · exact only_index b ms s idx (Nat.succ.inj hl) hi.2

theorem merge_only : ∀ (ms : List Bool) (idx : List Nat), ms.length = idx.length → merge ms (only false ms idx) (only true ms idx) = idx
  | [], [], _ => rfl
  | [], _ :: _, h => by cases h
  | _ :: _, [], h => by cases h
  | true :: ms, i :: idx, h => by simp [only, merge, merge_only ms idx (Nat.succ.inj h)]
  | false :: ms, i :: idx, h => by simp [only, merge, merge_only ms idx (Nat.succ.inj h)]

theorem mem_along (ms : List Bool) (a : Arr) (ks : List Nat) (hl : ms.length = a.shape.length) (hk : isIndex (only false ms a.shape) ks) (x : Num) :
    x ∈ along ms a ks ↔ ∃ idx, isIndex a.shape idx ∧ only false ms idx = ks ∧ x = a.get idx := by
  unfold along
  rw [List.mem_map]
  constructor
  · rintro ⟨rs, hr, rfl⟩
    obtain ⟨h1, h2, _⟩ := merge_index ms a.shape ks rs hl hk ((mem_indices _ _).1 hr)
    exact ⟨_, h1, h2, rfl⟩
  · rintro ⟨idx, h1, rfl, rfl⟩
    refine ⟨only true ms idx, (mem_indices _ _).2 (only_index true ms _ _ hl h1), ?_⟩
    rw [merge_only ms idx (by rw [hl, isIndex_length h1])]

theorem only_kept (b : Bool) (p : Nat → Bool) (l : List Nat) (start : Nat) :
    only b ((List.range' start l.length).map p) l = ((List.range' start l.length).filter fun k => p k == b).map fun k => l.getD (k - start) 0 := by
  induction l generalizing start with
  | nil => rfl
  | cons i l ih =>
    rw [List.length_cons, List.range'_succ, List.map_cons, only, ih (start + 1)]
    have e : ((List.range' (start + 1) l.length).filter fun k => p k == b).map (fun k => l.getD (k - (start + 1)) 0) =
        ((List.range' (start + 1) l.length).filter fun k => p k == b).map fun k => (i :: l).getD (k - start) 0 := by
      apply List.map_congr_left
      intro k hk
      have := List.mem_range'_1.1 (List.mem_filter.1 hk).1
      rw [show k - start = (k - (start + 1)) + 1 by omega, List.getD_cons_succ]
    rw [e, List.filter_cons]
    by_cases h : p start = b
    · simp [h]
    · simp [h]

/-! ### Axes -/

theorem place_some (n : Nat) (ax : Int) (h : -(n : Int) ≤ ax ∧ ax < n) : place n ax = some (ax % n).toNat := by
  unfold place
  by_cases h0 : 0 ≤ ax
  · rw [if_pos ⟨h0, h.2⟩, Int.emod_eq_of_lt h0 h.2]
  · rw [if_neg (by omega), if_pos (by omega), ← Int.add_emod_right, Int.emod_eq_of_lt (by omega) (by omega)]

theorem places (n : Nat) : ∀ l : List Int, (∀ ax ∈ l, -(n : Int) ≤ ax ∧ ax < n) → l.mapM (place n) = some (l.map fun ax : Int => (ax % (n : Int)).toNat)
  | [], _ => rfl
  | ax :: l, h => by
    rw [List.mapM_cons, place_some n ax (h ax (by simp)), places n l fun x hx => h x (by simp [hx])]
    rfl

theorem reduced_valid (n : Nat) (axis : Option (List Int)) (hv : Valid n axis) : reduced n axis = .ok ((List.range n).map (drops n axis)) := by
  cases axis with
  | none =>
    show Except.ok (List.replicate n true) = _
    congr 1
    apply List.ext_getElem
    · simp
    · intro k h1 h2; simp [drops]
  | some l =>
    obtain ⟨h1, h2⟩ := hv l rfl
    show (match l.mapM (place n) with
      | none => Except.error Err.indexError
      | some ps => if ps.Nodup then .ok ((List.range n).map fun k => ps.contains k) else .error Err.valueError) = _
    rw [places n l h1]
    have hnd : (l.map fun ax => (ax % (n : Int)).toNat).Nodup := by
      have e : (l.map fun ax => (ax % (n : Int)).toNat) = (l.map (· % (n : Int))).map Int.toNat := by rw [List.map_map]; rfl
      rw [e]
      refine List.Nodup.map_on ?_ h2
      intro x hx y hy hxy
      obtain ⟨u, hu, rfl⟩ := List.mem_map.1 hx
      obtain ⟨v, hw, rfl⟩ := List.mem_map.1 hy
      have hn : (n : Int) ≠ 0 := by have := h1 u hu; omega
      have := Int.emod_nonneg u hn
      have := Int.emod_nonneg v hn
      omega
    simp only [if_pos hnd]
    congr 1
    apply List.map_congr_left
    intro k hk
    have hk := List.mem_range.1 hk
    unfold drops
    rw [Bool.eq_iff_iff, Bool.or_eq_true, List.contains_iff_mem, List.contains_iff_mem, List.contains_iff_mem, List.mem_map]
    constructor
    · rintro ⟨ax, ha, e⟩
      have hb := h1 ax ha
      by_cases h0 : 0 ≤ ax
      · rw [Int.emod_eq_of_lt h0 hb.2] at e
        left; rw [← e, Int.toNat_of_nonneg h0]; exact ha
      · rw [← Int.add_emod_right, Int.emod_eq_of_lt (by omega) (by omega)] at e
        right
        have : (k : Int) - n = ax := by omega
        rw [this]; exact ha
    · rintro (h | h)
      · exact ⟨_, h, by rw [Int.emod_eq_of_lt (by omega) (by omega)]; omega⟩
      · refine ⟨_, h, ?_⟩
        rw [Int.sub_emod_right, Int.emod_eq_of_lt (by omega) (by omega)]; omega

theorem only_false_kept (axis : Option (List Int)) (l : List Nat) : only false ((List.range l.length).map (drops l.length axis)) l = kept axis l := by
  rw [List.range_eq_range', only_kept]
  unfold kept
  rw [List.range_eq_range']
  simp only [Nat.sub_zero]
  congr 1
  apply List.filter_congr
  intro k _
  cases drops l.length axis k <;> rfl

theorem indices_ne : ∀ s : List Nat, (∀ n ∈ s, 0 < n) → (indices s).isEmpty = false
  | s, h => by
    have : List.replicate s.length 0 ∈ indices s := by
      rw [mem_indices]
      induction s with
      | nil => trivial
      | cons n s ih => exact ⟨h n (by simp), ih fun x hx => h x (by simp [hx])⟩
    cases hi : indices s with
    | nil => rw [hi] at this; cases this
    | cons => rfl

theorem only_sub (b : Bool) : ∀ (ms : List Bool) (s : List Nat), ∀ x ∈ only b ms s, x ∈ s
  | [], _, _, h => by simp [only] at h
  | _ :: _, [], _, h => by simp [only] at h
  | m :: ms, n :: s, x, h => by
    simp only [only] at h
    split at h
    · rcases List.mem_cons.1 h with rfl | h
      · simp
      · exact List.mem_cons_of_mem _ (only_sub b ms s x h)
    · exact List.mem_cons_of_mem _ (only_sub b ms s x h)

theorem reduce_spec {f : Num → Num → Num} {R : Num → Num → Prop} (P : Picks f R) (a : Arr) (axis : Option (List Int))
    (hv : Valid a.shape.length axis) (hpos : ∀ n ∈ a.shape, 0 < n) :
    ∃ r, reduce f a axis = .ok r ∧ r.shape = kept axis a.shape ∧ ∀ ks, isIndex r.shape ks →
      let S := fun x => ∃ idx, isIndex a.shape idx ∧ kept axis idx = ks ∧ x = a.get idx
      (S .nan → r.get ks = .nan) ∧ (¬ S .nan → S (r.get ks) ∧ ∀ x, S x → R x (r.get ks)) := by
  have hm := reduced_valid a.shape.length axis hv
  have e1 := only_false_kept axis a.shape
  refine ⟨⟨kept axis a.shape, fun ks => match along ((List.range a.shape.length).map (drops a.shape.length axis)) a ks with
    | [] => .nan
    | x :: l => l.foldl f x⟩, ?_, rfl, ?_⟩
  · unfold reduce
    rw [hm]
    simp only [bind, Except.bind]
    rw [indices_ne _ (fun n hn => hpos n (only_sub _ _ _ n hn)), indices_ne _ (fun n hn => hpos n (only_sub _ _ _ n hn)), e1]
    rfl
  · intro ks hk
    simp only at hk ⊢
    have hS : ∀ x, (∃ idx, isIndex a.shape idx ∧ kept axis idx = ks ∧ x = a.get idx) ↔
        x ∈ along ((List.range a.shape.length).map (drops a.shape.length axis)) a ks := by
      intro x
      rw [mem_along _ a ks (by simp) (by rw [e1]; exact hk)]
      constructor
      · rintro ⟨idx, h1, h2, h3⟩
        refine ⟨idx, h1, ?_, h3⟩
        rw [← isIndex_length h1, only_false_kept]; exact h2
      · rintro ⟨idx, h1, h2, h3⟩
        refine ⟨idx, h1, ?_, h3⟩
        rw [← isIndex_length h1, only_false_kept] at h2; exact h2
    simp only [hS]
    cases hl : along ((List.range a.shape.length).map (drops a.shape.length axis)) a ks with
    | nil =>
      have := indices_ne (only true ((List.range a.shape.length).map (drops a.shape.length axis)) a.shape)
        (fun n hn => hpos n (only_sub _ _ _ n hn))
      unfold along at hl
      rw [List.map_eq_nil_iff] at hl
      rw [hl] at this; cases this
    | cons x l =>
      have h := fold_picks P l x
      refine ⟨fun hn => ?_, fun hn => ?_⟩
      · rwa [if_pos hn] at h
      · rwa [if_neg hn] at h

/-! ### The claims -/

/-- C123: the maximum along any axes (counted from either end) of an array or of the compute domain of a quantity: the array of what is
left has at each index the greatest of the numbers reduced to it, NaN if one of them is NaN. -/
theorem C123_max (b : Buffer) (hb : b ≠ .other) (axis : Option (List Int)) (hv : Valid b.size.length axis) (hpos : ∀ n ∈ b.size, 0 < n) :
    ∃ r, max b axis = .ok r ∧ r.shape = kept axis b.size ∧ ∀ ks, isIndex r.shape ks → Greatest (Reduced b axis ks) (r.get ks) := by
  cases b with
  | other => exact absurd rfl hb
  | array a => exact reduce_spec picks_max a axis hv hpos
  | quantity q => exact reduce_spec picks_max q.field axis hv hpos

/-- C123: the minimum, likewise. -/
theorem C123_min (b : Buffer) (hb : b ≠ .other) (axis : Option (List Int)) (hv : Valid b.size.length axis) (hpos : ∀ n ∈ b.size, 0 < n) :
    ∃ r, min b axis = .ok r ∧ r.shape = kept axis b.size ∧ ∀ ks, isIndex r.shape ks → Least (Reduced b axis ks) (r.get ks) := by
  cases b with
  | other => exact absurd rfl hb
  | array a => exact reduce_spec picks_min a axis hv hpos
  | quantity q => exact reduce_spec picks_min q.field axis hv hpos

theorem indices_nodup : ∀ s : List Nat, (indices s).Nodup
  | [] => by simp [indices]
  | n :: s => by
    unfold indices
    rw [List.nodup_flatMap]
    refine ⟨fun i _ => (indices_nodup s).map fun a b h => (List.cons.inj h).2, ?_⟩
    refine List.Pairwise.imp ?_ (List.nodup_range (n := n))
    intro i j hij l h1 h2
    obtain ⟨u, _, rfl⟩ := List.mem_map.1 h1
    obtain ⟨v, _, e⟩ := List.mem_map.1 h2
    exact hij (List.cons.inj e).1.symm

theorem merge_inj (ms : List Bool) (s ks rs rs' : List Nat) (hl : ms.length = s.length) (hk : isIndex (only false ms s) ks)
    (hr : isIndex (only true ms s) rs) (hr' : isIndex (only true ms s) rs') (h : merge ms ks rs = merge ms ks rs') : rs = rs' := by
  rw [← (merge_index ms s ks rs hl hk hr).2.2, ← (merge_index ms s ks rs' hl hk hr').2.2, h]

theorem count_spec (a : Arr) (axis : Option (List Int)) (hv : Valid a.shape.length axis) :
    ∃ r, countArr a axis = .ok r ∧ r.shape = kept axis a.shape ∧ ∀ ks, isIndex r.shape ks →
      ∃ l : List (List Nat), l.Nodup ∧ (∀ idx, idx ∈ l ↔ isIndex a.shape idx ∧ kept axis idx = ks ∧ a.get idx ≠ .fin 0) ∧ r.get ks = l.length := by
  have hm := reduced_valid a.shape.length axis hv
  have e1 := only_false_kept axis a.shape
  generalize hms : (List.range a.shape.length).map (drops a.shape.length axis) = ms at hm e1
  have hl : ms.length = a.shape.length := by rw [← hms]; simp
  have e2 : ∀ idx, isIndex a.shape idx → only false ms idx = kept axis idx := by
    intro idx h1
    rw [← hms, ← isIndex_length h1, only_false_kept]
  refine ⟨⟨kept axis a.shape, fun ks => ((along ms a ks).filter fun x => x != .fin 0).length⟩, ?_, rfl, ?_⟩
  · unfold countArr
    rw [hm, ← e1]
    rfl
  · intro ks hk
    simp only at hk ⊢
    rw [← e1] at hk
    refine ⟨((indices (only true ms a.shape)).map (merge ms ks)).filter fun idx => a.get idx != .fin 0, ?_, ?_, ?_⟩
    · apply List.Nodup.filter
      refine List.Nodup.map_on ?_ (indices_nodup _)
      intro x hx y hy h
      exact merge_inj ms a.shape ks x y hl hk ((mem_indices _ _).1 hx) ((mem_indices _ _).1 hy) h
    · intro idx
      rw [List.mem_filter, List.mem_map]
      constructor
      · rintro ⟨⟨rs, hr, rfl⟩, h⟩
        obtain ⟨h1, h2, _⟩ := merge_index ms a.shape ks rs hl hk ((mem_indices _ _).1 hr)
        exact ⟨h1, by rw [← e2 _ h1]; exact h2, by simpa using h⟩
      · rintro ⟨h1, h2, h3⟩
        rw [← e2 _ h1] at h2
        refine ⟨⟨only true ms idx, (mem_indices _ _).2 (only_index true ms _ _ hl h1), ?_⟩, by simpa using h3⟩
        rw [← h2, merge_only ms idx (by rw [hl, isIndex_length h1])]
    · unfold along
      rw [List.filter_map, List.length_map, List.filter_map, List.length_map]
      rfl

/-- C123: counting what is not zero (NaN is not): at each index left, the number of the indices reduced to it that have a number other than
zero. Nothing to count is no error. -/
theorem C123_count (b : Buffer) (hb : b ≠ .other) (axis : Option (List Int)) (hv : Valid b.size.length axis) :
    ∃ r, countNonzero b axis = .ok r ∧ r.shape = kept axis b.size ∧ ∀ ks, isIndex r.shape ks →
      ∃ l : List (List Nat), l.Nodup ∧ (∀ idx, idx ∈ l ↔ isIndex b.size idx ∧ kept axis idx = ks ∧ b.val idx ≠ .fin 0) ∧ r.get ks = l.length := by
  cases b with
  | other => exact absurd rfl hb
  | array a => exact count_spec a axis hv
  | quantity q => exact count_spec q.field axis hv

theorem mapM_none {f : Int → Option Nat} : ∀ {l : List Int} {x : Int}, x ∈ l → f x = none → l.mapM f = none
  | y :: l, x, h, hx => by
    rw [List.mapM_cons]
    rcases List.mem_cons.1 h with rfl | h
    · rw [hx]; rfl
    · cases f y with
      | none => rfl
      | some _ => rw [mapM_none h hx]; rfl

theorem reduced_out (n : Nat) (l : List Int) (ax : Int) (h : ax ∈ l) (ho : ax < -(n : Int) ∨ (n : Int) ≤ ax) : reduced n (some l) = .error .indexError := by
  have : place n ax = none := by
    unfold place
    rw [if_neg (by omega), if_neg (by omega)]
  unfold reduced
  simp only [mapM_none h this]

theorem reduced_twice (n : Nat) (l : List Int) (h : ∀ ax ∈ l, -(n : Int) ≤ ax ∧ ax < n) (ht : ¬ (l.map (· % (n : Int))).Nodup) :
    reduced n (some l) = .error .valueError := by
  unfold reduced
  simp only [places n l h]
  rw [if_neg]
  intro hn
  apply ht
  have e : (l.map fun ax => (ax % (n : Int)).toNat) = (l.map (· % (n : Int))).map Int.toNat := by rw [List.map_map]; rfl
  rw [e] at hn
  exact List.Nodup.of_map _ hn

/-- C123: an axis that does not exist is refused by all three. -/
theorem C123_axis_refused (b : Buffer) (hb : b ≠ .other) (l : List Int) (ax : Int) (h : ax ∈ l) (ho : ax < -(b.size.length : Int) ∨ (b.size.length : Int) ≤ ax) :
    max b (some l) = .error .indexError ∧ min b (some l) = .error .indexError ∧ countNonzero b (some l) = .error .indexError := by
  have e := reduced_out b.size.length l ax h ho
  cases b with
  | other => exact absurd rfl hb
  | array a =>
    simp only [Buffer.size] at e
    refine ⟨?_, ?_, ?_⟩ <;> simp [max, min, countNonzero, reduce, countArr, e, bind, Except.bind]
  | quantity q =>
    simp only [Buffer.size] at e
    refine ⟨?_, ?_, ?_⟩ <;> simp [max, min, countNonzero, reduce, countArr, Qty.field, e, bind, Except.bind]

/-- C123: an axis given twice (also once from each end) is refused by all three. -/
theorem C123_axis_twice (b : Buffer) (hb : b ≠ .other) (l : List Int) (h : ∀ ax ∈ l, -(b.size.length : Int) ≤ ax ∧ ax < b.size.length)
    (ht : ¬ (l.map (· % (b.size.length : Int))).Nodup) :
    max b (some l) = .error .valueError ∧ min b (some l) = .error .valueError ∧ countNonzero b (some l) = .error .valueError := by
  have e := reduced_twice b.size.length l h ht
  cases b with
  | other => exact absurd rfl hb
  | array a =>
    simp only [Buffer.size] at e
    refine ⟨?_, ?_, ?_⟩ <;> simp [max, min, countNonzero, reduce, countArr, e, bind, Except.bind]
  | quantity q =>
    simp only [Buffer.size] at e
    refine ⟨?_, ?_, ?_⟩ <;> simp [max, min, countNonzero, reduce, countArr, Qty.field, e, bind, Except.bind]

/-- C123: things that are neither arrays nor quantities are refused. -/
theorem C123_other (axis : Option (List Int)) (out : Buffer) : max .other axis = .error .notImplemented ∧ min .other axis = .error .notImplemented ∧
    countNonzero .other axis = .error .notImplemented ∧ maxOnPlane .other out = .error .notImplemented ∧ minOnPlane .other out = .error .notImplemented :=
  ⟨rfl, rfl, rfl, rfl, rfl⟩

theorem indices_empty {s : List Nat} (h : 0 ∈ s) : (indices s).isEmpty = true := by
  cases hi : indices s with
  | nil => rfl
  | cons x _ =>
    have : isIndex s x := (mem_indices _ _).1 (by rw [hi]; simp)
    exfalso
    clear hi
    induction s generalizing x with
    | nil => cases h
    | cons n s ih =>
      match x, this with
      | i :: x, ⟨h1, h2⟩ =>
        rcases List.mem_cons.1 h with rfl | h
        · exact absurd h1 (by omega)
        · exact ih h x h2

/-- C123: there is no greatest and no least of no numbers: with an empty compute domain the reduction over everything is refused. -/
theorem C123_empty (b : Buffer) (hb : b ≠ .other) (h0 : 0 ∈ b.size) : max b none = .error .valueError ∧ min b none = .error .valueError := by
  have ht : ∀ s : List Nat, only true (List.replicate s.length true) s = s := by
    intro s; induction s with
    | nil => rfl
    | cons n s ih => simp [List.replicate_succ, only, ih]
  have hf : ∀ s : List Nat, only false (List.replicate s.length true) s = [] := by
    intro s; induction s with
    | nil => rfl
    | cons n s ih => simp [List.replicate_succ, only, ih]
  have he := indices_empty h0
  cases b with
  | other => exact absurd rfl hb
  | array a =>
    simp only [Buffer.size] at he
    refine ⟨?_, ?_⟩ <;> simp [max, min, reduce, reduced, bind, Except.bind, ht, hf, indices] <;> exact fun hn => absurd (by simpa using he) hn
  | quantity q =>
    simp only [Buffer.size] at he
    refine ⟨?_, ?_⟩ <;> simp [max, min, reduce, reduced, Qty.field, bind, Except.bind, ht, hf, indices] <;> exact fun hn => absurd (by simpa using he) hn

theorem kept01 (i j k : Nat) : kept (some [0, 1]) [i, j, k] = [k] := rfl

theorem valid01 (i j k : Nat) : Valid [i, j, k].length (some [0, 1]) := by
  intro l h
  cases h
  refine ⟨?_, by show (([0, 1] : List Int).map (· % ((3 : Nat) : Int))).Nodup; decide⟩
  intro ax h
  simp at h ⊢
  omega

theorem plane_set (o : Arr) (nk : Nat) (ho : o.shape = [nk]) (d : Arr) (hd : d.shape = [nk]) :
    ∃ r, setAll o d = .ok r ∧ r.shape = [nk] ∧ ∀ k, k < nk → r.get [k] = d.get [k] := by
  obtain ⟨os, og⟩ := o
  obtain ⟨ds, dg⟩ := d
  simp only at ho hd
  subst ho; subst hd
  refine ⟨_, by simp [setAll, assign, regions, fits]; rfl, rfl, ?_⟩
  intro k hk
  by_cases h1 : nk = 1
  · have : k = 0 := by omega
    subst this; subst h1; simp [within]
  · simp [within, hk, h1]

theorem plane_spec {f : Num → Num → Num} {R : Num → Num → Prop} (P : Picks f R) (a : Arr) (ni nj nk : Nat) (ha : a.shape = [ni, nj, nk])
    (h1 : 0 < ni) (h2 : 0 < nj) (h3 : 0 < nk) : ∃ r, reduce f a (some [0, 1]) = .ok r ∧ r.shape = [nk] ∧ ∀ k, k < nk →
      let S := fun x => ∃ i j, i < ni ∧ j < nj ∧ x = a.get [i, j, k]
      (S .nan → r.get [k] = .nan) ∧ (¬ S .nan → S (r.get [k]) ∧ ∀ x, S x → R x (r.get [k])) := by
  obtain ⟨r, e, hs, hr⟩ := reduce_spec P a (some [0, 1]) (by rw [ha]; exact valid01 ni nj nk) (by rw [ha]; simp; omega)
  rw [ha, kept01] at hs
  refine ⟨r, e, hs, ?_⟩
  intro k hk
  have h := hr [k] (by rw [hs]; exact ⟨hk, trivial⟩)
  have hS : ∀ x, (∃ idx, isIndex a.shape idx ∧ kept (some [0, 1]) idx = [k] ∧ x = a.get idx) ↔ ∃ i j, i < ni ∧ j < nj ∧ x = a.get [i, j, k] := by
    intro x
    rw [ha]
    constructor
    · rintro ⟨idx, h1, h2, h3⟩
      match idx, h1 with
      | [i, j, k'], h1 =>
        rw [kept01] at h2
        cases h2
        exact ⟨i, j, h1.1, h1.2.1, h3⟩
    · rintro ⟨i, j, hi, hj, h3⟩
      exact ⟨[i, j, k], ⟨hi, hj, hk, trivial⟩, kept01 i j k, h3⟩
  simp only [hS] at h
  exact h

theorem onPlane_quantity {f : Num → Num → Num} {R : Num → Num → Prop} (P : Picks f R) (q out : Qty) (ni nj nk o : Nat) (hq : q.extent = [ni, nj, nk])
    (he : out.extent = [nk]) (ho : out.origin = [o]) (h1 : 0 < ni) (h2 : 0 < nj) (h3 : 0 < nk) :
    ∃ r, onPlane f (.quantity q) (.quantity out) = .ok (.quantity r) ∧ r.origin = out.origin ∧ r.extent = out.extent ∧ r.data.shape = out.data.shape ∧
      (∀ k, k < nk →
        let S := fun x => ∃ i j, i < ni ∧ j < nj ∧ x = (Buffer.quantity q).val [i, j, k]
        (S .nan → (Buffer.quantity r).val [k] = .nan) ∧
          (¬ S .nan → S ((Buffer.quantity r).val [k]) ∧ ∀ x, S x → R x ((Buffer.quantity r).val [k]))) ∧
      ∀ k, k < o ∨ o + nk ≤ k → r.data.get [k] = out.data.get [k] := by
  obtain ⟨d, ed, hd, hdk⟩ := plane_spec P q.field ni nj nk hq h1 h2 h3
  obtain ⟨v, ev, hv, hvk⟩ := plane_set out.field nk he d hd
  refine ⟨{ out with data := ⟨out.data.shape, fun idx =>
    if within (List.zip out.origin out.extent) idx then v.get (List.zipWith (· - ·) idx out.origin) else out.data.get idx⟩ },
    by simp only [onPlane, ed, bind, Except.bind, setField, ev]; rfl, rfl, rfl, rfl, ?_, ?_⟩
  · intro k hk
    have e : ∀ g : List Nat → Num, (if within (List.zip out.origin out.extent) [o + k] = true then v.get (List.zipWith (· - ·) [o + k] out.origin) else g [o + k]) = d.get [k] := by
      intro g
      rw [ho, he]
      simp [within, hk, hvk k hk]
    have e' := e out.data.get
    simp only [Buffer.val, ho, List.zipWith_cons_cons, List.zipWith_nil_right, List.zipWith_nil_left] at e' ⊢
    rw [e']
    exact hdk k hk
  · intro k hk
    simp only [ho, he]
    rw [if_neg]
    simp [within]
    omega

theorem onPlane_array {f : Num → Num → Num} {R : Num → Num → Prop} (P : Picks f R) (a out : Arr) (ni nj nk : Nat) (ha : a.shape = [ni, nj, nk])
    (ho : out.shape = [nk]) (h1 : 0 < ni) (h2 : 0 < nj) (h3 : 0 < nk) :
    ∃ r, onPlane f (.array a) (.array out) = .ok (.array r) ∧ r.shape = [nk] ∧ ∀ k, k < nk →
        let S := fun x => ∃ i j, i < ni ∧ j < nj ∧ x = a.get [i, j, k]
        (S .nan → r.get [k] = .nan) ∧ (¬ S .nan → S (r.get [k]) ∧ ∀ x, S x → R x (r.get [k])) := by
  obtain ⟨d, ed, hd, hdk⟩ := plane_spec P a ni nj nk ha h1 h2 h3
  obtain ⟨v, ev, hv, hvk⟩ := plane_set out nk ho d hd
  refine ⟨v, by simp only [onPlane, ed, bind, Except.bind, ev]; rfl, hv, ?_⟩
  intro k hk
  simp only [hvk k hk]
  exact hdk k hk

/-- C123: the maximum on horizontal planes, for quantities: each level of the output's compute domain is the greatest number of the input's
compute domain at that level; the rest of the output is as before. -/
theorem C123_max_plane (q out : Qty) (ni nj nk o : Nat) (hq : q.extent = [ni, nj, nk]) (he : out.extent = [nk]) (ho : out.origin = [o])
    (h1 : 0 < ni) (h2 : 0 < nj) (h3 : 0 < nk) :
    ∃ r, maxOnPlane (.quantity q) (.quantity out) = .ok (.quantity r) ∧ r.origin = out.origin ∧ r.extent = out.extent ∧ r.data.shape = out.data.shape ∧
      (∀ k, k < nk → Greatest (fun x => ∃ i j, i < ni ∧ j < nj ∧ x = (Buffer.quantity q).val [i, j, k]) ((Buffer.quantity r).val [k])) ∧
      ∀ k, k < o ∨ o + nk ≤ k → r.data.get [k] = out.data.get [k] := onPlane_quantity picks_max q out ni nj nk o hq he ho h1 h2 h3

/-- C123: the minimum on horizontal planes, for quantities. -/
theorem C123_min_plane (q out : Qty) (ni nj nk o : Nat) (hq : q.extent = [ni, nj, nk]) (he : out.extent = [nk]) (ho : out.origin = [o])
    (h1 : 0 < ni) (h2 : 0 < nj) (h3 : 0 < nk) :
    ∃ r, minOnPlane (.quantity q) (.quantity out) = .ok (.quantity r) ∧ r.origin = out.origin ∧ r.extent = out.extent ∧ r.data.shape = out.data.shape ∧
      (∀ k, k < nk → Least (fun x => ∃ i j, i < ni ∧ j < nj ∧ x = (Buffer.quantity q).val [i, j, k]) ((Buffer.quantity r).val [k])) ∧
      ∀ k, k < o ∨ o + nk ≤ k → r.data.get [k] = out.data.get [k] := onPlane_quantity picks_min q out ni nj nk o hq he ho h1 h2 h3

/-- C123: both, for arrays. -/
theorem C123_plane_arrays (a out : Arr) (ni nj nk : Nat) (ha : a.shape = [ni, nj, nk]) (ho : out.shape = [nk]) (h1 : 0 < ni) (h2 : 0 < nj) (h3 : 0 < nk) :
    (∃ r, maxOnPlane (.array a) (.array out) = .ok (.array r) ∧ r.shape = [nk] ∧
      ∀ k, k < nk → Greatest (fun x => ∃ i j, i < ni ∧ j < nj ∧ x = a.get [i, j, k]) (r.get [k])) ∧
    ∃ r, minOnPlane (.array a) (.array out) = .ok (.array r) ∧ r.shape = [nk] ∧
      ∀ k, k < nk → Least (fun x => ∃ i j, i < ni ∧ j < nj ∧ x = a.get [i, j, k]) (r.get [k]) :=
  ⟨onPlane_array picks_max a out ni nj nk ha ho h1 h2 h3, onPlane_array picks_min a out ni nj nk ha ho h1 h2 h3⟩

/-! ### Where it is not so -/

/-- A quantity with sizes `extent` in an array with one more point on each side, `f` of the index from the first point of the compute domain,
100 in the halo. -/
def haloed (extent : List Nat) (f : List Nat → Num) : Qty :=
  ⟨⟨extent.map (· + 2), fun idx => if within (extent.map fun n => (1, n)) idx then f (idx.map (· - 1)) else .fin 100⟩, extent.map fun _ => 1, extent⟩

/-- What is found in a quantity of one dimension, halo included. -/
def found : Except Err Buffer → List Num
  | .ok (.quantity q) => (List.range 5).map fun k => q.data.get [k]
  | .ok (.array a) => (List.range 5).map fun k => a.get [k]
  | _ => []

/-- C123: dimensions are not looked at: the plane is spanned by the first two axes. With the levels as first axis (numbers are `10 k + i`, at
levels `k` = 0, 1 the greatest are 1 and 11) the result is something else. -/
theorem C123_order_violated :
    found (maxOnPlane (.quantity (haloed [2, 1, 2] fun idx => .fin (10 * (idx.getD 0 0 : Nat) + (idx.getD 2 0 : Nat)))) (.quantity (haloed [2] fun _ => .fin 0))) =
      [.fin 100, .fin 10, .fin 11, .fin 100, .fin 100] := by decide +kernel

/-- C123: an input with a single level fills all levels of an output with three. -/
theorem C123_levels_violated :
    found (maxOnPlane (.quantity (haloed [2, 2, 1] fun _ => .fin 7)) (.quantity (haloed [3] fun _ => .fin 0))) =
      [.fin 100, .fin 7, .fin 7, .fin 7, .fin 100] := by decide +kernel

/-- C123: with an array as input a quantity as output is written with its halo: an array of as many levels as the compute domain is refused, one
as long as the whole array overwrites the halo. -/
theorem C123_mixed_violated :
    maxOnPlane (.array ⟨[2, 2, 3], fun _ => .fin 7⟩) (.quantity (haloed [3] fun _ => .fin 0)) = .error .valueError ∧
    found (maxOnPlane (.array ⟨[2, 2, 5], fun _ => .fin 7⟩) (.quantity (haloed [3] fun _ => .fin 0))) = [.fin 7, .fin 7, .fin 7, .fin 7, .fin 7] := by
  refine ⟨rfl, by decide +kernel⟩

/-- C123: a quantity as input with an array as output is refused. -/
theorem C123_kinds (q : Qty) (out : Arr) (ni nj nk : Nat) (hq : q.extent = [ni, nj, nk]) (h1 : 0 < ni) (h2 : 0 < nj) (h3 : 0 < nk) :
    maxOnPlane (.quantity q) (.array out) = .error .typeError ∧ minOnPlane (.quantity q) (.array out) = .error .typeError := by
  obtain ⟨d, ed, _⟩ := plane_spec picks_max q.field ni nj nk hq h1 h2 h3
  obtain ⟨d', ed', _⟩ := plane_spec picks_min q.field ni nj nk hq h1 h2 h3
  constructor
  · simp only [maxOnPlane, onPlane, ed, bind, Except.bind]
  · simp only [minOnPlane, onPlane, ed', bind, Except.bind]

/-! ### Cases that meet the hypotheses -/

/-- A quantity of 2 x 2 x 3 points with 10 i - 3 j + k. -/
def wave : Qty := haloed [2, 2, 3] fun idx => .fin (10 * (idx.getD 0 0 : Nat) - 3 * (idx.getD 1 0 : Nat) + (idx.getD 2 0 : Nat))

example : Valid (Buffer.quantity wave).size.length (some [0, -2]) := by
  intro l h
  cases h
  exact ⟨by decide, by decide⟩

example : ∀ n ∈ (Buffer.quantity wave).size, 0 < n := by decide

example : (max (.quantity wave) none).toOption.map (fun r => (r.shape, r.get [])) = some ([], .fin 12) := by decide +kernel

example : (min (.quantity wave) (some [0, -2])).toOption.map (fun r => (r.shape, r.get [0], r.get [2])) = some ([3], .fin (-3), .fin (-1)) := by decide +kernel

example : (countNonzero (.quantity wave) (some [-1])).toOption.map (fun r => (r.shape, r.get [0, 0], r.get [1, 1])) = some ([2, 2], 2, 3) := by decide +kernel

example : found (maxOnPlane (.quantity wave) (.quantity (haloed [3] fun _ => .fin 0))) = [.fin 100, .fin 10, .fin 11, .fin 12, .fin 100] := by decide +kernel

example : ¬ (([0, -3] : List Int).map (· % (wave.extent.length : Int))).Nodup := by decide

end NDSL.Xumpy
