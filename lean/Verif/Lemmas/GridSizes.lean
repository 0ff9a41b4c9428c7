import Verif.Lemmas.DerivedTerms
import Verif.Spec.GridSizes
/-
Lemmas for C97: the steps of the computation of lengths and areas.
-/
namespace NDSL.Sizes
open NDSL.Deriv

variable {α β P R : Type}

theorem flipI_n0 (a : Arr α) : (flipI a).n0 = a.n0 := rfl
theorem flipI_n1 (a : Arr α) : (flipI a).n1 = a.n1 := rfl
theorem flipJ_n0 (a : Arr α) : (flipJ a).n0 = a.n0 := rfl
theorem flipJ_n1 (a : Arr α) : (flipJ a).n1 = a.n1 := rfl
theorem transp_n0 (a : Arr α) : (transp a).n0 = a.n1 := rfl
theorem transp_n1 (a : Arr α) : (transp a).n1 = a.n0 := rfl

theorem post_map (x : Except Err α) (f : α → β) (Q : α → Prop) (Q' : β → Prop) (h : Post x Q) (hq : ∀ a, Q a → Q' (f a)) :
    Post (x.map f) Q' := by
  obtain ⟨a, rfl, ha⟩ := h
  exact ⟨f a, rfl, hq a ha⟩

theorem post_seq {δ : Type} (x : Except Err α) (k : α → Except Err δ) (Q : α → Prop) (Q' : δ → Prop) (h : Post x Q)
    (hk : ∀ a, Q a → Post (k a) Q') : Post (x >>= k) Q' := by
  obtain ⟨a, rfl, ha⟩ := h
  exact hk a ha

theorem post_zip' (m0 m1 : Int) (f : α → β → R) (a : Arr α) (b : Arr β) (Q : Arr R → Prop)
    (ha : a.n0 = m0 ∧ a.n1 = m1) (hb : b.n0 = m0 ∧ b.n1 = m1)
    (h : ∀ c : Arr R, c.n0 = m0 → c.n1 = m1 → (∀ i j, c.get i j = f (a.get i j) (b.get i j)) → Q c) :
    Post (zip f a b) Q :=
  ⟨_, zip_ok f a b ⟨ha.1.trans hb.1.symm, ha.2.trans hb.2.symm⟩, h _ ha.1 ha.2 fun _ _ => rfl⟩

theorem post_put' (a : Arr α) (s t : Sl) (b : Arr α) (Q : Arr α → Prop)
    (hs : s.len a.n0 = b.n0 ∧ t.len a.n1 = b.n1)
    (h : ∀ c : Arr α, c.n0 = a.n0 → c.n1 = a.n1 → (∀ i j, c.get i j = if s.has a.n0 i && t.has a.n1 j then
      b.get (i - s.start a.n0) (j - t.start a.n1) else a.get i j) → Q c) :
    Post (a.put s t b) Q :=
  ⟨_, put_ok a s t b hs, h _ rfl rfl fun _ _ => rfl⟩

theorem zip4_ok (f : α → α → α → α → β) (a b c d : Arr α) (hb : a.n0 = b.n0 ∧ a.n1 = b.n1)
    (hc : a.n0 = c.n0 ∧ a.n1 = c.n1) (hd : a.n0 = d.n0 ∧ a.n1 = d.n1) :
    zip4 f a b c d = .ok ⟨a.n0, a.n1, fun i j => f (a.get i j) (b.get i j) (c.get i j) (d.get i j)⟩ := by
  unfold zip4
  rw [zip_ok _ a b hb, zip_ok _ c d ⟨hc.1.symm.trans hd.1, hc.2.symm.trans hd.2⟩]
  exact zip_ok (fun (p q : α × α) => f p.1 p.2 q.1 q.2) ⟨a.n0, a.n1, fun i j => (a.get i j, b.get i j)⟩
    ⟨c.n0, c.n1, fun i j => (c.get i j, d.get i j)⟩ hc

theorem post_zip4 {δ : Type} (m0 m1 : Int) (f : α → α → α → α → β) (a b c d : Arr α) (k : Arr β → Except Err δ) (Q : δ → Prop)
    (ha : a.n0 = m0 ∧ a.n1 = m1) (hb : b.n0 = m0 ∧ b.n1 = m1) (hc : c.n0 = m0 ∧ c.n1 = m1) (hd : d.n0 = m0 ∧ d.n1 = m1)
    (h : ∀ r : Arr β, r.n0 = m0 → r.n1 = m1 →
      (∀ i j, r.get i j = f (a.get i j) (b.get i j) (c.get i j) (d.get i j)) → Post (k r) Q) :
    Post (zip4 f a b c d >>= k) Q :=
  post_bind _ _ _ _ (zip4_ok f a b c d ⟨ha.1.trans hb.1.symm, ha.2.trans hb.2.symm⟩
    ⟨ha.1.trans hc.1.symm, ha.2.trans hc.2.symm⟩ ⟨ha.1.trans hd.1.symm, ha.2.trans hd.2.symm⟩)
    (h _ ha.1 ha.2 fun _ _ => rfl)

theorem post_zip4' (m0 m1 : Int) (f : α → α → α → α → β) (a b c d : Arr α) (Q : Arr β → Prop)
    (ha : a.n0 = m0 ∧ a.n1 = m1) (hb : b.n0 = m0 ∧ b.n1 = m1) (hc : c.n0 = m0 ∧ c.n1 = m1) (hd : d.n0 = m0 ∧ d.n1 = m1)
    (h : ∀ r : Arr β, r.n0 = m0 → r.n1 = m1 →
      (∀ i j, r.get i j = f (a.get i j) (b.get i j) (c.get i j) (d.get i j)) → Q r) :
    Post (zip4 f a b c d) Q :=
  ⟨_, zip4_ok f a b c d ⟨ha.1.trans hb.1.symm, ha.2.trans hb.2.symm⟩
    ⟨ha.1.trans hc.1.symm, ha.2.trans hc.2.symm⟩ ⟨ha.1.trans hd.1.symm, ha.2.trans hd.2.symm⟩,
    h _ ha.1 ha.2 fun _ _ => rfl⟩

/-- Shapes: unfold and compare. -/
scoped macro "shp" : tactic =>
  `(tactic| (constructor <;> ((try simp (disch := omega) only [cut_n0, cut_n1, map_n0, map_n1, full_n0, full_n1,
      window_n0, window_n1, flipI_n0, flipI_n1, flipJ_n0, flipJ_n1, transp_n0, transp_n1,
      len_all, len_from, len_span, one_len]) <;> omega)))

/-- An array differs from another of the same shape in one row. -/
def RowSet (v w : Arr R) (k : Int) (g : Int → R) : Prop :=
  w.n0 = v.n0 ∧ w.n1 = v.n1 ∧ ∀ i j, 0 ≤ j → j < v.n1 → w.get i j = if i = k then g j else v.get i j
def ColSet (v w : Arr R) (k : Int) (g : Int → R) : Prop :=
  w.n0 = v.n0 ∧ w.n1 = v.n1 ∧ ∀ i j, 0 ≤ i → i < v.n0 → w.get i j = if j = k then g i else v.get i j

theorem put_row (v : Arr R) (r : Arr R) (hr : r.n0 = 1 ∧ r.n1 = v.n1) (hv : 0 ≤ v.n1) :
    Post (v.put (Sl.one 0) Sl.all r) fun w => RowSet v w 0 (fun j => r.get 0 j) := by
  refine post_put' _ _ _ _ _ ?_ ?_
  · exact ⟨(one_len _ _).trans hr.1.symm, (len_all _ hv).trans hr.2.symm⟩
  · intro c c0 c1 cg
    refine ⟨c0, c1, fun i j hj hj' => ?_⟩
    rw [cg]
    simp only [Bool.and_eq_true, has_one, has_all]
    by_cases hi : i = 0
    · subst hi
      rw [if_pos (by simp; omega), if_pos rfl]
      simp [Sl.one, Sl.all]
    · rw [if_neg (by simp; omega), if_neg hi]

theorem rowSet_flip {v w : Arr R} {g : Int → R} (h : RowSet (flipI v) w 0 g) (hv : 0 ≤ v.n0) :
    RowSet v (flipI w) (v.n0 - 1) g := by
  obtain ⟨h0, h1, hg⟩ := h
  simp only [flipI_n0, flipI_n1] at h0 h1 hg
  refine ⟨h0, h1, fun i j hj hj' => ?_⟩
  show w.get (w.n0 - 1 - i) j = _
  rw [hg _ _ hj hj', h0]
  by_cases hi : i = v.n0 - 1
  · rw [if_pos hi, if_pos (by omega)]
  · rw [if_neg hi, if_neg (by omega)]
    show v.get (v.n0 - 1 - (v.n0 - 1 - i)) j = _
    congr 1; omega

theorem colSet_transp {v w : Arr R} {k : Int} {g : Int → R} (h : RowSet (transp v) w k g) : ColSet v (transp w) k g := by
  obtain ⟨h0, h1, hg⟩ := h
  refine ⟨h1, h0, fun i j hi hi' => ?_⟩
  show w.get j i = _
  exact hg j i hi hi'

theorem colSet_flip {v w : Arr R} {g : Int → R} (h : ColSet (flipJ v) w 0 g) :
    ColSet v (flipJ w) (v.n1 - 1) g := by
  obtain ⟨h0, h1, hg⟩ := h
  simp only [flipJ_n0, flipJ_n1] at h0 h1 hg
  refine ⟨h0, h1, fun i j hi hi' => ?_⟩
  show w.get i (w.n1 - 1 - j) = _
  rw [hg _ _ hi hi', h1]
  by_cases hj : j = v.n1 - 1
  · rw [if_pos hj, if_pos (by omega)]
  · rw [if_neg hj, if_neg (by omega)]
    show v.get i (v.n1 - 1 - (v.n1 - 1 - j)) = _
    congr 1; omega

theorem rowSet_congr {v w : Arr R} {k k' : Int} {g g' : Int → R} (h : RowSet v w k g) (hk : k = k')
    (hg : ∀ j, 0 ≤ j → j < v.n1 → g j = g' j) : RowSet v w k' g' := by
  subst hk
  refine ⟨h.1, h.2.1, fun i j hj hj' => ?_⟩
  rw [h.2.2 i j hj hj', hg j hj hj']
theorem colSet_congr {v w : Arr R} {k k' : Int} {g g' : Int → R} (h : ColSet v w k g) (hk : k = k')
    (hg : ∀ i, 0 ≤ i → i < v.n0 → g i = g' i) : ColSet v w k' g' := by
  subst hk
  refine ⟨h.1, h.2.1, fun i j hi hi' => ?_⟩
  rw [h.2.2 i j hi hi', hg i hi hi']

/-! ### Areas on the edges -/

theorem westArea_post (S : Ops P R) (d a : Arr P) (v : Arr R) (hd : d.n1 = v.n1 + 2) (ha : a.n1 = v.n1 + 1) (hv : 0 ≤ v.n1) :
    Post (westArea S d a v) fun w => RowSet v w 0 fun j => S.twice
      (S.rect (S.half (d.get 1 j) (d.get 1 (j + 1))) (a.get 1 j) (a.get 1 (j + 1))
        (S.half (d.get 1 (j + 1)) (d.get 1 (j + 2)))) := by
  unfold westArea
  refine post_zip 1 (v.n1 + 1) _ _ _ _ _ ?_ ?_ ?_
  · shp
  · shp
  intro yc y0 y1 yg
  refine post_zip4 1 v.n1 _ _ _ _ _ _ _ ?_ ?_ ?_ ?_ ?_
  · shp
  · shp
  · shp
  · shp
  intro r r0 r1 rg
  obtain ⟨w, hw, hr⟩ := put_row v (r.map S.twice) ⟨r0, r1⟩ hv
  refine ⟨w, hw, rowSet_congr hr rfl fun j hj hj' => ?_⟩
  show S.twice (r.get 0 j) = _
  rw [rg]
  simp only [Arr.cut, yg]
  simp only [Sl.one, Sl.span, Sl.all, Sl.from]
  simp [Int.add_comm, Int.add_left_comm]

theorem eastArea_post (S : Ops P R) (d a : Arr P) (v : Arr R) (hd : d.n1 = v.n1 + 2) (ha : a.n1 = v.n1 + 1) (hv : 0 ≤ v.n1)
    (hv0 : 0 ≤ v.n0) :
    Post (eastArea S d a v) fun w => RowSet v w (v.n0 - 1) fun j => S.twice
      (S.rect (S.half (d.get (d.n0 - 2) j) (d.get (d.n0 - 2) (j + 1))) (a.get (a.n0 - 2) j) (a.get (a.n0 - 2) (j + 1))
        (S.half (d.get (d.n0 - 2) (j + 1)) (d.get (d.n0 - 2) (j + 2)))) := by
  refine post_map _ _ _ _ (westArea_post S (flipI d) (flipI a) (flipI v) hd ha hv) fun w hw => ?_
  refine rowSet_congr (rowSet_flip hw hv0) rfl fun j _ _ => ?_
  simp only [flipI, show d.n0 - 1 - 1 = d.n0 - 2 by omega, show a.n0 - 1 - 1 = a.n0 - 2 by omega]

theorem southArea_post (S : Ops P R) (d a : Arr P) (v : Arr R) (hd : d.n0 = v.n0 + 2) (ha : a.n0 = v.n0 + 1)
    (hv : 0 ≤ v.n0) :
    Post (southArea S d a v) fun w => ColSet v w 0 fun i => S.twice
      (S.rect (S.half (d.get i 1) (d.get (i + 1) 1)) (a.get i 1) (a.get (i + 1) 1)
        (S.half (d.get (i + 1) 1) (d.get (i + 2) 1))) := by
  refine post_map _ _ _ _ (westArea_post S (transp d) (transp a) (transp v) hd ha hv) fun w hw => ?_
  exact colSet_transp hw

theorem northArea_post (S : Ops P R) (d a : Arr P) (v : Arr R) (hd : d.n0 = v.n0 + 2) (ha : a.n0 = v.n0 + 1)
    (hv : 0 ≤ v.n0) :
    Post (northArea S d a v) fun w => ColSet v w (v.n1 - 1) fun i => S.twice
      (S.rect (S.half (d.get i (d.n1 - 2)) (d.get (i + 1) (d.n1 - 2))) (a.get i (a.n1 - 2)) (a.get (i + 1) (a.n1 - 2))
        (S.half (d.get (i + 1) (d.n1 - 2)) (d.get (i + 2) (d.n1 - 2)))) := by
  refine post_map _ _ _ _ (southArea_post S (flipJ d) (flipJ a) (flipJ v) hd ha hv) fun w hw => ?_
  refine colSet_congr (colSet_flip hw) rfl fun j _ _ => ?_
  simp only [flipJ, show d.n1 - 1 - 1 = d.n1 - 2 by omega, show a.n1 - 1 - 1 = a.n1 - 2 by omega]

theorem post_doIf (b : Bool) (f : α → Except Err α) (x : α) (Q : α → Prop) (h : b = true → Post (f x) Q)
    (h' : b = false → Q x) : Post (doIf b f x) Q := by
  cases b with
  | true => exact h rfl
  | false => exact ⟨x, rfl, h' rfl⟩

theorem doIf_row (b : Bool) (f : Arr R → Except Err (Arr R)) (v : Arr R) (k : Int) (g : Int → R)
    (h : Post (f v) fun w => RowSet v w k g) : Post (doIf b f v) fun w => w.n0 = v.n0 ∧ w.n1 = v.n1 ∧
      ∀ i j, 0 ≤ j → j < v.n1 → w.get i j = if b = true ∧ i = k then g j else v.get i j := by
  refine post_doIf _ _ _ _ (fun hb => ?_) (fun hb => ?_)
  · obtain ⟨w, hw, h0, h1, hg⟩ := h
    exact ⟨w, hw, h0, h1, fun i j hj hj' => by rw [hg i j hj hj', hb]; simp⟩
  · exact ⟨rfl, rfl, fun i j _ _ => by rw [hb]; simp⟩
theorem doIf_col (b : Bool) (f : Arr R → Except Err (Arr R)) (v : Arr R) (k : Int) (g : Int → R)
    (h : Post (f v) fun w => ColSet v w k g) : Post (doIf b f v) fun w => w.n0 = v.n0 ∧ w.n1 = v.n1 ∧
      ∀ i j, 0 ≤ i → i < v.n0 → w.get i j = if b = true ∧ j = k then g i else v.get i j := by
  refine post_doIf _ _ _ _ (fun hb => ?_) (fun hb => ?_)
  · obtain ⟨w, hw, h0, h1, hg⟩ := h
    exact ⟨w, hw, h0, h1, fun i j hi hi' => by rw [hg i j hi hi', hb]; simp⟩
  · exact ⟨rfl, rfl, fun i j _ _ => by rw [hb]; simp⟩

theorem borderArea_post (S : Ops P R) (on : OnTile) (d a : Arr P) (v : Arr R) (m0 m1 : Int) (hv : v.n0 = m0 ∧ v.n1 = m1)
    (hd : d.n0 = m0 + 2 ∧ d.n1 = m1 + 2) (ha : a.n0 = m0 + 1 ∧ a.n1 = m1 + 1) (h0 : 0 ≤ m0) (h1 : 0 ≤ m1) :
    Post (borderArea S on d a v) fun w => w.n0 = m0 ∧ w.n1 = m1 ∧ ∀ i j, 0 ≤ i → i < m0 → 0 ≤ j → j < m1 →
      w.get i j =
        if on.bottom = true ∧ j = 0 then S.twice
          (S.rect (S.half (d.get i 1) (d.get (i + 1) 1)) (a.get i 1) (a.get (i + 1) 1)
            (S.half (d.get (i + 1) 1) (d.get (i + 2) 1)))
        else if on.right = true ∧ i = m0 - 1 then S.twice
          (S.rect (S.half (d.get m0 j) (d.get m0 (j + 1))) (a.get (m0 - 1) j) (a.get (m0 - 1) (j + 1))
            (S.half (d.get m0 (j + 1)) (d.get m0 (j + 2))))
        else if on.top = true ∧ j = m1 - 1 then S.twice
          (S.rect (S.half (d.get i m1) (d.get (i + 1) m1)) (a.get i (m1 - 1)) (a.get (i + 1) (m1 - 1))
            (S.half (d.get (i + 1) m1) (d.get (i + 2) m1)))
        else if on.left = true ∧ i = 0 then S.twice
          (S.rect (S.half (d.get 1 j) (d.get 1 (j + 1))) (a.get 1 j) (a.get 1 (j + 1))
            (S.half (d.get 1 (j + 1)) (d.get 1 (j + 2))))
        else v.get i j := by
  unfold borderArea
  refine post_seq _ _ _ _ (doIf_row on.left _ v _ _ (westArea_post S d a v (by omega) (by omega) (by omega))) ?_
  rintro v1 ⟨a0, a1, ag⟩
  refine post_seq _ _ _ _ (doIf_col on.top _ v1 _ _ (northArea_post S d a v1 (by omega) (by omega) (by omega))) ?_
  rintro v2 ⟨b0, b1, bg⟩
  refine post_seq _ _ _ _ (doIf_row on.right _ v2 _ _ (eastArea_post S d a v2 (by omega) (by omega) (by omega) (by omega))) ?_
  rintro v3 ⟨c0, c1, cg⟩
  obtain ⟨w, hw, d0, d1, dg⟩ := doIf_col on.bottom _ v3 _ _ (southArea_post S d a v3 (by omega) (by omega) (by omega))
  refine ⟨w, hw, by omega, by omega, fun i j hi hi' hj hj' => ?_⟩
  rw [dg i j hi (by omega), cg i j hj (by omega), bg i j hi (by omega), ag i j hj (by omega)]
  rw [show v2.n0 - 1 = m0 - 1 by omega, show v1.n1 - 1 = m1 - 1 by omega, show d.n0 - 2 = m0 by omega,
    show d.n1 - 2 = m1 by omega, show a.n0 - 2 = m0 - 1 by omega, show a.n1 - 2 = m1 - 1 by omega]

/-! ### Distances across the edges -/

theorem westDxc_post (S : Ops P R) (d a : Arr P) (v : Arr R) (hd : d.n1 = v.n1 + 1) (ha : a.n1 = v.n1) (hv : 0 ≤ v.n1) :
    Post (westDxc S d a v) fun w => RowSet v w 0 fun j => S.twice
      (S.dist (S.half (d.get 0 (j + 1)) (d.get 0 j)) (a.get 0 j)) := by
  unfold westDxc
  refine post_zip 1 v.n1 _ _ _ _ _ ?_ ?_ ?_
  · shp
  · shp
  intro yc y0 y1 yg
  refine post_zip 1 v.n1 _ _ _ _ _ ?_ ?_ ?_
  · shp
  · shp
  intro r r0 r1 rg
  obtain ⟨w, hw, hr⟩ := put_row v (r.map S.twice) ⟨r0, r1⟩ hv
  refine ⟨w, hw, rowSet_congr hr rfl fun j hj hj' => ?_⟩
  show S.twice (r.get 0 j) = _
  rw [rg, yg]
  simp only [Arr.cut]
  simp only [Sl.one, Sl.span, Sl.all, Sl.from]
  simp [Int.add_comm]

theorem eastDxc_post (S : Ops P R) (d a : Arr P) (v : Arr R) (hd : d.n1 = v.n1 + 1) (ha : a.n1 = v.n1) (hv : 0 ≤ v.n1)
    (hv0 : 0 ≤ v.n0) :
    Post (eastDxc S d a v) fun w => RowSet v w (v.n0 - 1) fun j => S.twice
      (S.dist (S.half (d.get (d.n0 - 1) (j + 1)) (d.get (d.n0 - 1) j)) (a.get (a.n0 - 1) j)) := by
  refine post_map _ _ _ _ (westDxc_post S (flipI d) (flipI a) (flipI v) hd ha hv) fun w hw => ?_
  refine rowSet_congr (rowSet_flip hw hv0) rfl fun j _ _ => ?_
  simp only [flipI, Int.sub_zero]

theorem southDyc_post (S : Ops P R) (d a : Arr P) (v : Arr R) (hd : d.n0 = v.n0 + 1) (ha : a.n0 = v.n0) (hv : 0 ≤ v.n0) :
    Post (southDyc S d a v) fun w => ColSet v w 0 fun i => S.twice
      (S.dist (S.half (d.get (i + 1) 0) (d.get i 0)) (a.get i 0)) := by
  refine post_map _ _ _ _ (westDxc_post S (transp d) (transp a) (transp v) hd ha hv) fun w hw => ?_
  exact colSet_transp hw

theorem northDyc_post (S : Ops P R) (d a : Arr P) (v : Arr R) (hd : d.n0 = v.n0 + 1) (ha : a.n0 = v.n0) (hv : 0 ≤ v.n0)
    (hv1 : 0 ≤ v.n1) :
    Post (northDyc S d a v) fun w => ColSet v w (v.n1 - 1) fun i => S.twice
      (S.dist (S.half (d.get (i + 1) (d.n1 - 1)) (d.get i (d.n1 - 1))) (a.get i (a.n1 - 1))) := by
  refine post_map _ _ _ _ (eastDxc_post S (transp d) (transp a) (transp v) hd ha hv hv1) fun w hw => ?_
  exact colSet_transp hw

theorem borderDxc_post (S : Ops P R) (on : OnTile) (d a : Arr P) (v : Arr R) (m0 m1 : Int) (hv : v.n0 = m0 ∧ v.n1 = m1)
    (hd : d.n0 = m0 ∧ d.n1 = m1 + 1) (ha : a.n0 = m0 - 1 ∧ a.n1 = m1) (h0 : 0 ≤ m0) (h1 : 0 ≤ m1) :
    Post (borderDxc S on d a v) fun w => w.n0 = m0 ∧ w.n1 = m1 ∧ ∀ i j, 0 ≤ i → i < m0 → 0 ≤ j → j < m1 →
      w.get i j =
        if on.right = true ∧ i = m0 - 1 then
          S.twice (S.dist (S.half (d.get (m0 - 1) (j + 1)) (d.get (m0 - 1) j)) (a.get (m0 - 2) j))
        else if on.left = true ∧ i = 0 then S.twice (S.dist (S.half (d.get 0 (j + 1)) (d.get 0 j)) (a.get 0 j))
        else v.get i j := by
  unfold borderDxc
  refine post_seq _ _ _ _ (doIf_row on.left _ v _ _ (westDxc_post S d a v (by omega) (by omega) (by omega))) ?_
  rintro v1 ⟨a0, a1, ag⟩
  obtain ⟨w, hw, d0, d1, dg⟩ := doIf_row on.right _ v1 _ _
    (eastDxc_post S d a v1 (by omega) (by omega) (by omega) (by omega))
  refine ⟨w, hw, by omega, by omega, fun i j hi hi' hj hj' => ?_⟩
  rw [dg i j hj (by omega), ag i j hj (by omega)]
  rw [show v1.n0 - 1 = m0 - 1 by omega, show d.n0 - 1 = m0 - 1 by omega, show a.n0 - 1 = m0 - 2 by omega]

theorem borderDyc_post (S : Ops P R) (on : OnTile) (d a : Arr P) (v : Arr R) (m0 m1 : Int) (hv : v.n0 = m0 ∧ v.n1 = m1)
    (hd : d.n0 = m0 + 1 ∧ d.n1 = m1) (ha : a.n0 = m0 ∧ a.n1 = m1 - 1) (h0 : 0 ≤ m0) (h1 : 0 ≤ m1) :
    Post (borderDyc S on d a v) fun w => w.n0 = m0 ∧ w.n1 = m1 ∧ ∀ i j, 0 ≤ i → i < m0 → 0 ≤ j → j < m1 →
      w.get i j =
        if on.bottom = true ∧ j = 0 then S.twice (S.dist (S.half (d.get (i + 1) 0) (d.get i 0)) (a.get i 0))
        else if on.top = true ∧ j = m1 - 1 then
          S.twice (S.dist (S.half (d.get (i + 1) (m1 - 1)) (d.get i (m1 - 1))) (a.get i (m1 - 2)))
        else v.get i j := by
  unfold borderDyc
  refine post_seq _ _ _ _ (doIf_col on.top _ v _ _ (northDyc_post S d a v (by omega) (by omega) (by omega) (by omega))) ?_
  rintro v1 ⟨a0, a1, ag⟩
  obtain ⟨w, hw, d0, d1, dg⟩ := doIf_col on.bottom _ v1 _ _
    (southDyc_post S d a v1 (by omega) (by omega) (by omega))
  refine ⟨w, hw, by omega, by omega, fun i j hi hi' hj hj' => ?_⟩
  rw [dg i j hi (by omega), ag i j hi (by omega)]
  rw [show v.n1 - 1 = m1 - 1 by omega, show d.n1 - 1 = m1 - 1 by omega, show a.n1 - 1 = m1 - 2 by omega]

/-! ### Along axes, and areas of cells -/

theorem distI_post (S : Ops P R) (x : Arr P) (m0 m1 : Int) (hx : x.n0 = m0 + 1 ∧ x.n1 = m1) (h0 : 0 ≤ m0) (h1 : 0 ≤ m1) :
    Post (distI S x) fun c => c.n0 = m0 ∧ c.n1 = m1 ∧ ∀ i j, c.get i j = S.dist (x.get i j) (x.get (i + 1) j) := by
  unfold distI
  refine post_zip' m0 m1 _ _ _ _ ?_ ?_ ?_
  · shp
  · shp
  · intro c c0 c1 cg
    refine ⟨c0, c1, fun i j => ?_⟩
    rw [cg]; simp only [Arr.cut]; simp only [Sl.span, Sl.from, Sl.all]; simp [Int.add_comm]

theorem distJ_post (S : Ops P R) (x : Arr P) (m0 m1 : Int) (hx : x.n0 = m0 ∧ x.n1 = m1 + 1) (h0 : 0 ≤ m0) (h1 : 0 ≤ m1) :
    Post (distJ S x) fun c => c.n0 = m0 ∧ c.n1 = m1 ∧ ∀ i j, c.get i j = S.dist (x.get i j) (x.get i (j + 1)) := by
  refine post_map _ _ _ _ (distI_post S (transp x) m1 m0 ⟨hx.2, hx.1⟩ h1 h0) fun c hc => ?_
  exact ⟨hc.2.1, hc.1, fun i j => hc.2.2 j i⟩

theorem getArea_post (S : Ops P R) (x : Arr P) (m0 m1 : Int) (hx : x.n0 = m0 + 1 ∧ x.n1 = m1 + 1) (h0 : 0 ≤ m0)
    (h1 : 0 ≤ m1) :
    Post (getArea S x) fun c => c.n0 = m0 ∧ c.n1 = m1 ∧ ∀ i j, c.get i j =
      S.rect (x.get i j) (x.get i (j + 1)) (x.get (i + 1) (j + 1)) (x.get (i + 1) j) := by
  unfold getArea
  refine post_zip4' m0 m1 _ _ _ _ _ _ ?_ ?_ ?_ ?_ ?_
  · shp
  · shp
  · shp
  · shp
  · intro c c0 c1 cg
    refine ⟨c0, c1, fun i j => ?_⟩
    rw [cg]; simp only [Arr.cut]; simp only [Sl.span, Sl.from]; simp [Int.add_comm]

end NDSL.Sizes
