import Verif.Props.DerivedTerms
import Mathlib.Algebra.Order.Field.Basic
import Mathlib.Algebra.Order.Ring.Rat
import Mathlib.Tactic.Linarith
/-
C94, continued: sines, cosines and damping coefficients.
-/
namespace NDSL.Deriv

variable {α P R : Type}

theorem post_put_in {δ : Type} (m0 m1 p q : Int) (a b : Arr α) (k : Arr α → Except Err δ) (Q : δ → Prop) (hq : q ≠ 0)
    (ha : a.n0 = m0 ∧ a.n1 = m1) (hm : p + q ≤ m0 ∧ p + q ≤ m1) (hb : b.n0 = m0 - q - p ∧ b.n1 = m1 - q - p)
    (h : ∀ c : Arr α, c.n0 = m0 → c.n1 = m1 → (∀ i j, c.get i j = if (p ≤ i ∧ i < m0 - q) ∧ (p ≤ j ∧ j < m1 - q) then
      b.get (i - p) (j - p) else a.get i j) → Post (k c) Q) :
    Post (a.put (Sl.span p q) (Sl.span p q) b >>= k) Q := by
  refine post_put _ _ _ _ _ _ ?_ ?_
  · rw [ha.1, ha.2, len_span _ _ _ hq hm.1, len_span _ _ _ hq hm.2, hb.1, hb.2]; exact ⟨rfl, rfl⟩
  · intro c c0 c1 cg
    refine h c (c0.trans ha.1) (c1.trans ha.2) fun i j => ?_
    rw [cg i j, ha.1, ha.2]
    simp only [Bool.and_eq_true, has_span _ _ _ _ hq]
    rfl

theorem post_put_rows {δ : Type} (m0 m1 p q : Int) (a b : Arr α) (k : Arr α → Except Err δ) (Q : δ → Prop) (hq : q ≠ 0)
    (ha : a.n0 = m0 ∧ a.n1 = m1) (hm : p + q ≤ m0 ∧ 0 ≤ m1) (hb : b.n0 = m0 - q - p ∧ b.n1 = m1)
    (h : ∀ c : Arr α, c.n0 = m0 → c.n1 = m1 → (∀ i j, 0 ≤ j → j < m1 → c.get i j = if p ≤ i ∧ i < m0 - q then
      b.get (i - p) j else a.get i j) → Post (k c) Q) :
    Post (a.put (Sl.span p q) Sl.all b >>= k) Q := by
  refine post_put _ _ _ _ _ _ ?_ ?_
  · rw [ha.1, ha.2, len_span _ _ _ hq hm.1, len_all _ hm.2, hb.1, hb.2]; exact ⟨rfl, rfl⟩
  · intro c c0 c1 cg
    refine h c (c0.trans ha.1) (c1.trans ha.2) fun i j hj hj' => ?_
    rw [cg i j, ha.1, ha.2]
    simp only [Bool.and_eq_true, has_span _ _ _ _ hq, has_all, hj, hj', and_true]
    simp only [Sl.span, Sl.all, Int.sub_zero]

theorem post_put_cols {δ : Type} (m0 m1 p q : Int) (a b : Arr α) (k : Arr α → Except Err δ) (Q : δ → Prop) (hq : q ≠ 0)
    (ha : a.n0 = m0 ∧ a.n1 = m1) (hm : 0 ≤ m0 ∧ p + q ≤ m1) (hb : b.n0 = m0 ∧ b.n1 = m1 - q - p)
    (h : ∀ c : Arr α, c.n0 = m0 → c.n1 = m1 → (∀ i j, 0 ≤ i → i < m0 → c.get i j = if p ≤ j ∧ j < m1 - q then
      b.get i (j - p) else a.get i j) → Post (k c) Q) :
    Post (a.put Sl.all (Sl.span p q) b >>= k) Q := by
  refine post_put _ _ _ _ _ _ ?_ ?_
  · rw [ha.1, ha.2, len_span _ _ _ hq hm.2, len_all _ hm.1, hb.1, hb.2]; exact ⟨rfl, rfl⟩
  · intro c c0 c1 cg
    refine h c (c0.trans ha.1) (c1.trans ha.2) fun i j hj hj' => ?_
    rw [cg i j, ha.1, ha.2]
    simp only [Bool.and_eq_true, has_span _ _ _ _ hq, has_all, hj, hj', and_true, true_and]
    simp only [Sl.span, Sl.all, Int.sub_zero]

variable [Add R] [Mul R] [Div R] [Neg R] [Zero R] [One R] [LT R] [DecidableLT R]

theorem one_has (k n i : Int) : (Sl.one k).has n i = true ↔ i = ix n k := has_one k n i

theorem post_limit_row {δ : Type} (K : Consts R) (m0 m1 k : Int) (bo : Bool) (a b : Arr R)
    (f : Arr R × Arr R → Except Err δ) (Q : δ → Prop) (ha : a.n0 = m0 ∧ a.n1 = m1) (hb : b.n0 = m0 ∧ b.n1 = m1) (hm : 0 ≤ m1)
    (h : ∀ c d : Arr R, c.n0 = m0 → c.n1 = m1 → d.n0 = m0 → d.n1 = m1 →
      (∀ i j, 0 ≤ j → j < m1 → c.get i j = if bo = true ∧ i = ix m0 k then limit K (a.get i j) else a.get i j) →
      (∀ i j, 0 ≤ j → j < m1 → d.get i j = if bo = true ∧ i = ix m0 k then 1 / limit K (a.get i j) else b.get i j) →
      Post (f (c, d)) Q) :
    Post (limitLine K bo (Sl.one k) Sl.all a b >>= f) Q := by
  cases bo with
  | false => exact h a b ha.1 ha.2 hb.1 hb.2 (fun i j _ _ => by simp) (fun i j _ _ => by simp)
  | true =>
    have e : limitLine K true (Sl.one k) Sl.all a b = .ok
        (a.over (Sl.one k) Sl.all ((a.cut (Sl.one k) Sl.all).map (limit K)),
         b.over (Sl.one k) Sl.all (((a.cut (Sl.one k) Sl.all).map (limit K)).map (1 / ·))) := by
      unfold limitLine
      rw [if_pos rfl]
      simp only
      rw [put_ok _ _ _ _ ⟨rfl, rfl⟩]
      show (b.put _ _ _ >>= _) = _
      rw [put_ok _ _ _ _ (by simp only [map_n0, map_n1, cut_n0, cut_n1, ha.1, ha.2, hb.1, hb.2]; trivial)]
      rfl
    refine post_bind _ _ _ _ e (h _ _ ha.1 ha.2 hb.1 hb.2 ?_ ?_)
    · intro i j hj hj'
      simp only [Arr.over, Bool.and_eq_true, one_has, has_all, ha.1, ha.2, hj, hj', and_true, true_and]
      by_cases hi : i = ix m0 k
      · rw [if_pos hi, if_pos hi]
        simp [Arr.map, Arr.cut, Sl.all, ha.1]
      · rw [if_neg hi, if_neg hi]
    · intro i j hj hj'
      simp only [Arr.over, Bool.and_eq_true, one_has, has_all, hb.1, hb.2, hj, hj', and_true, true_and]
      by_cases hi : i = ix m0 k
      · rw [if_pos hi, if_pos hi]
        simp [Arr.map, Arr.cut, Sl.all, ha.1]
      · rw [if_neg hi, if_neg hi]

theorem post_limit_col {δ : Type} (K : Consts R) (m0 m1 k : Int) (bo : Bool) (a b : Arr R)
    (f : Arr R × Arr R → Except Err δ) (Q : δ → Prop) (ha : a.n0 = m0 ∧ a.n1 = m1) (hb : b.n0 = m0 ∧ b.n1 = m1) (hm : 0 ≤ m0)
    (h : ∀ c d : Arr R, c.n0 = m0 → c.n1 = m1 → d.n0 = m0 → d.n1 = m1 →
      (∀ i j, 0 ≤ i → i < m0 → c.get i j = if bo = true ∧ j = ix m1 k then limit K (a.get i j) else a.get i j) →
      (∀ i j, 0 ≤ i → i < m0 → d.get i j = if bo = true ∧ j = ix m1 k then 1 / limit K (a.get i j) else b.get i j) →
      Post (f (c, d)) Q) :
    Post (limitLine K bo Sl.all (Sl.one k) a b >>= f) Q := by
  cases bo with
  | false => exact h a b ha.1 ha.2 hb.1 hb.2 (fun i j _ _ => by simp) (fun i j _ _ => by simp)
  | true =>
    have e : limitLine K true Sl.all (Sl.one k) a b = .ok
        (a.over Sl.all (Sl.one k) ((a.cut Sl.all (Sl.one k)).map (limit K)),
         b.over Sl.all (Sl.one k) (((a.cut Sl.all (Sl.one k)).map (limit K)).map (1 / ·))) := by
      unfold limitLine
      rw [if_pos rfl]
      simp only
      rw [put_ok _ _ _ _ ⟨rfl, rfl⟩]
      show (b.put _ _ _ >>= _) = _
      rw [put_ok _ _ _ _ (by simp only [map_n0, map_n1, cut_n0, cut_n1, ha.1, ha.2, hb.1, hb.2]; trivial)]
      rfl
    refine post_bind _ _ _ _ e (h _ _ ha.1 ha.2 hb.1 hb.2 ?_ ?_)
    · intro i j hj hj'
      simp only [Arr.over, Bool.and_eq_true, one_has, has_all, ha.1, ha.2, hj, hj', and_true, true_and]
      by_cases hi : j = ix m1 k
      · rw [if_pos hi, if_pos hi]
        simp [Arr.map, Arr.cut, Sl.all, ha.2]
      · rw [if_neg hi, if_neg hi]
    · intro i j hj hj'
      simp only [Arr.over, Bool.and_eq_true, one_has, has_all, hb.1, hb.2, hj, hj', and_true, true_and]
      by_cases hi : j = ix m1 k
      · rw [if_pos hi, if_pos hi]
        simp [Arr.map, Arr.cut, Sl.all, ha.2]
      · rw [if_neg hi, if_neg hi]

theorem fillIf_n0 (b : Bool) (a : Arr α) (s t : Sl) (v : α) : (fillIf b a s t v).n0 = a.n0 := by
  cases b <;> rfl
theorem fillIf_n1 (b : Bool) (a : Arr α) (s t : Sl) (v : α) : (fillIf b a s t v).n1 = a.n1 := by
  cases b <;> rfl

theorem fillIf_row (bo : Bool) (a : Arr α) (k : Int) (v : α) (i j : Int) (hj : 0 ≤ j) (hj' : j < a.n1) :
    (fillIf bo a (Sl.one k) Sl.all v).get i j = if bo = true ∧ i = ix a.n0 k then v else a.get i j := by
  cases bo
  · simp [fillIf]
  · simp only [fillIf, if_true, Arr.fill, Bool.and_eq_true, one_has, has_all, hj, hj', and_true, true_and]

theorem fillIf_col (bo : Bool) (a : Arr α) (k : Int) (v : α) (i j : Int) (hi : 0 ≤ i) (hi' : i < a.n0) :
    (fillIf bo a Sl.all (Sl.one k) v).get i j = if bo = true ∧ j = ix a.n1 k then v else a.get i j := by
  cases bo
  · simp [fillIf]
  · simp only [fillIf, if_true, Arr.fill, Bool.and_eq_true, one_has, has_all, hi, hi', and_true, true_and]

theorem point_n0 (k : Nat) (a : Arr (Nat → R)) : (point k a).n0 = a.n0 := rfl
theorem point_n1 (k : Nat) (a : Arr (Nat → R)) : (point k a).n1 = a.n1 := rfl

scoped macro "shapes2" : tactic =>
  `(tactic| ((try simp (disch := omega) only [point_n0, point_n1, cut_n0, cut_n1, map_n0, map_n1, full_n0, full_n1,
      window_n0, window_n1, len_all, len_from, len_span, one_len]) <;> omega))
scoped macro "zstep2" m:term:max n:term:max : tactic =>
  `(tactic| (refine post_zip $m $n _ _ _ _ _ ?_ ?_ ?_; (· shapes2); (· shapes2)))

theorem trigCorner_ok (K : Consts R) (h x0 y0 n0 n1 : Int) (c : Int → Int → Nat → R) (hh : 2 ≤ h) (h0 : 1 ≤ n0) (h1 : 1 ≤ n1) :
    Post (trigCorner K h (n0 + 2 * h + 1) (n1 + 2 * h + 1) (window c h x0 y0 n0 n1 0 0)) fun a =>
      a.n0 = n0 + 2 * h + 1 ∧ a.n1 = n1 + 2 * h + 1 ∧ ∀ i j, a.get i j =
        if (h ≤ i ∧ i ≤ n0 + h) ∧ (h ≤ j ∧ j ≤ n1 + h) then meanCorner K c (x0 + i - h) (y0 + j - h) else K.big := by
  unfold trigCorner
  zstep2 (n0 + 1) (n1 + 1)
  intro mc mc0 mc1 mcg
  rw [← bind_pure ((full _ _ _).put _ _ _)]
  refine post_put_in (n0 + 2 * h + 1) (n1 + 2 * h + 1) h h _ _ _ _ (by omega) ⟨rfl, rfl⟩ (by omega) (by omega) ?_
  intro a a0 a1 ag
  refine post_pure _ _ ⟨a0, a1, fun i j => ?_⟩
  rw [ag]
  refine if_congr (by omega) ?_ rfl
  rw [mcg]
  unfold meanCorner
  simp only [Arr.cut, point, Arr.map, window, Sl.span]
  ring_nf

theorem trigMeanU_ok (K : Consts R) (h x0 y0 n0 n1 : Int) (c : Int → Int → Nat → R) (hh : 2 ≤ h) (h0 : 1 ≤ n0) (h1 : 1 ≤ n1) :
    Post (trigMeanU K (n0 + 2 * h + 1) (n1 + 2 * h + 1) (window c h x0 y0 n0 n1 0 0)) fun a =>
      a.n0 = n0 + 2 * h + 1 ∧ a.n1 = n1 + 2 * h ∧ ∀ i j, 0 ≤ j → j < n1 + 2 * h → a.get i j =
        if 1 ≤ i ∧ i ≤ n0 + 2 * h - 1 then meanWest K c (x0 + i - h) (y0 + j - h) else K.big := by
  unfold trigMeanU
  zstep2 (n0 + 2 * h - 1) (n1 + 2 * h)
  intro mc mc0 mc1 mcg
  rw [← bind_pure ((full _ _ _).put _ _ _)]
  refine post_put_rows (n0 + 2 * h + 1) (n1 + 2 * h) 1 1 _ _ _ _ (by omega) ⟨rfl, by rw [full_n1]; omega⟩ (by omega) (by omega) ?_
  intro a a0 a1 ag
  refine post_pure _ _ ⟨a0, a1, fun i j hj hj' => ?_⟩
  rw [ag i j hj hj']
  refine if_congr (by omega) ?_ rfl
  rw [mcg]
  unfold meanWest
  simp only [Arr.cut, point, Arr.map, window, Sl.span, Sl.from, Sl.all]
  ring_nf

theorem trigMeanV_ok (K : Consts R) (h x0 y0 n0 n1 : Int) (c : Int → Int → Nat → R) (hh : 2 ≤ h) (h0 : 1 ≤ n0) (h1 : 1 ≤ n1) :
    Post (trigMeanV K (n0 + 2 * h + 1) (n1 + 2 * h + 1) (window c h x0 y0 n0 n1 0 0)) fun a =>
      a.n0 = n0 + 2 * h ∧ a.n1 = n1 + 2 * h + 1 ∧ ∀ i j, 0 ≤ i → i < n0 + 2 * h → a.get i j =
        if 1 ≤ j ∧ j ≤ n1 + 2 * h - 1 then meanSouth K c (x0 + i - h) (y0 + j - h) else K.big := by
  unfold trigMeanV
  zstep2 (n0 + 2 * h) (n1 + 2 * h - 1)
  intro mc mc0 mc1 mcg
  rw [← bind_pure ((full _ _ _).put _ _ _)]
  refine post_put_cols (n0 + 2 * h) (n1 + 2 * h + 1) 1 1 _ _ _ _ (by omega) ⟨by rw [full_n0]; omega, rfl⟩ (by omega) (by omega) ?_
  intro a a0 a1 ag
  refine post_pure _ _ ⟨a0, a1, fun i j hj hj' => ?_⟩
  rw [ag i j hj hj']
  refine if_congr (by omega) ?_ rfl
  rw [mcg]
  unfold meanSouth
  simp only [Arr.cut, point, Arr.map, window, Sl.span, Sl.from, Sl.all]
  ring_nf

theorem post_of {δ : Type} (x : Except Err α) (k : α → Except Err δ) (P : α → Prop) (Q : δ → Prop) (h : Post x P)
    (hk : ∀ a, P a → Post (k a) Q) : Post (x >>= k) Q := by
  obtain ⟨a, e, pa⟩ := h
  exact post_bind a x k Q e (hk a pa)

set_option maxHeartbeats 1000000 in
theorem trigSinU_ok (K : Consts R) (h x0 y0 n0 n1 N0 : Int) (on : OnTile) (s : Int → Int → Nat → R)
    (hx : Part h x0 n0 N0 on.left on.right) (h1 : 1 ≤ n1) :
    Post (trigSinU K h on (n0 + 2 * h + 1) (n1 + 2 * h + 1) (window s h x0 y0 n0 n1 0 0)) fun r =>
      ∀ i j, 1 ≤ i → i ≤ n0 + 2 * h - 1 → 0 ≤ j → j < n1 + 2 * h →
        r.1.get i j = sinSide K (OnEdge N0 (x0 + i - h)) (meanWest K s (x0 + i - h) (y0 + j - h)) ∧
        r.2.get i j = rsinSide K (OnEdge N0 (x0 + i - h)) (meanWest K s (x0 + i - h) (y0 + j - h)) := by
  have hh := hx.halo; have h0 := hx.pos
  unfold trigSinU
  refine post_of _ _ _ _ (trigMeanU_ok K h x0 y0 n0 n1 s hh h0 h1) ?_
  rintro a ⟨a0, a1, ag⟩
  refine post_put_rows (n0 + 2 * h + 1) (n1 + 2 * h) 1 1 _ _ _ _ (by omega) ⟨rfl, by rw [full_n1]; omega⟩ (by omega) (by shapes2) ?_
  intro b b0 b1 bg
  refine post_limit_row K (n0 + 2 * h + 1) (n1 + 2 * h) _ _ _ _ _ _ ⟨a0, a1⟩ ⟨b0, b1⟩ (by omega) ?_
  intro c d c0 c1 d0 d1 cg dg
  simp only
  rw [← bind_pure (limitLine _ _ _ _ _ _)]
  refine post_limit_row K (n0 + 2 * h + 1) (n1 + 2 * h) _ _ _ _ _ _ ⟨c0, c1⟩ ⟨d0, d1⟩ (by omega) ?_
  intro e f e0 e1 f0 f1 eg fg
  apply post_pure
  intro i j hi hi' hj hj'
  have x1 : ix (n0 + 2 * h + 1) h = h := ix_nonneg _ _ (by omega)
  have x2 : ix (n0 + 2 * h + 1) (-h - 1) = n0 + h := by rw [ix_neg _ _ (by omega)]; omega
  have k1 := edge_first hx hi
  have k2 := edge_last hx hi'
  have hN : x0 + i - h = 0 → ¬ (x0 + i - h = N0) := by
    have := hx.inside; have := hx.start; omega
  have bg' := bg i j hj hj'
  have ag' := ag i j hj hj'
  rw [if_pos (by omega)] at bg' ag'
  have bg'' : b.get i j = recipSquare K (a.get i j) := by
    rw [bg']; simp only [Arr.map, Arr.cut, Sl.span, Sl.all]; ring_nf
  simp only
  rw [eg i j hj hj', fg i j hj hj', cg i j hj hj', dg i j hj hj', bg'', ag', x1, x2]
  clear eg fg cg dg bg ag bg' ag' bg''
  simp only [k1, k2]
  unfold sinSide rsinSide OnEdge
  by_cases g1 : x0 + i - h = 0
  · simp only [if_pos g1, if_neg (hN g1), if_pos (Or.inl g1), and_self]
  · by_cases g2 : x0 + i - h = N0
    · simp only [if_neg g1, if_pos g2, if_pos (Or.inr g2), and_self]
    · simp only [if_neg g1, if_neg g2, if_neg (not_or.mpr ⟨g1, g2⟩), and_self]

set_option maxHeartbeats 1000000 in
theorem trigSinV_ok (K : Consts R) (h x0 y0 n0 n1 N1 : Int) (on : OnTile) (s : Int → Int → Nat → R)
    (hy : Part h y0 n1 N1 on.bottom on.top) (h1 : 1 ≤ n0) :
    Post (trigSinV K h on (n0 + 2 * h + 1) (n1 + 2 * h + 1) (window s h x0 y0 n0 n1 0 0)) fun r =>
      ∀ i j, 0 ≤ i → i < n0 + 2 * h → 1 ≤ j → j ≤ n1 + 2 * h - 1 →
        r.1.get i j = sinSide K (OnEdge N1 (y0 + j - h)) (meanSouth K s (x0 + i - h) (y0 + j - h)) ∧
        r.2.get i j = rsinSide K (OnEdge N1 (y0 + j - h)) (meanSouth K s (x0 + i - h) (y0 + j - h)) := by
  have hh := hy.halo; have h0 := hy.pos
  unfold trigSinV
  refine post_of _ _ _ _ (trigMeanV_ok K h x0 y0 n0 n1 s hh h1 h0) ?_
  rintro a ⟨a0, a1, ag⟩
  refine post_put_cols (n0 + 2 * h) (n1 + 2 * h + 1) 1 1 _ _ _ _ (by omega) ⟨by rw [full_n0]; omega, rfl⟩ (by omega) (by shapes2) ?_
  intro b b0 b1 bg
  refine post_limit_col K (n0 + 2 * h) (n1 + 2 * h + 1) _ _ _ _ _ _ ⟨a0, a1⟩ ⟨b0, b1⟩ (by omega) ?_
  intro c d c0 c1 d0 d1 cg dg
  simp only
  rw [← bind_pure (limitLine _ _ _ _ _ _)]
  refine post_limit_col K (n0 + 2 * h) (n1 + 2 * h + 1) _ _ _ _ _ _ ⟨c0, c1⟩ ⟨d0, d1⟩ (by omega) ?_
  intro e f e0 e1 f0 f1 eg fg
  apply post_pure
  intro i j hj hj' hi hi'
  have x1 : ix (n1 + 2 * h + 1) h = h := ix_nonneg _ _ (by omega)
  have x2 : ix (n1 + 2 * h + 1) (-h - 1) = n1 + h := by rw [ix_neg _ _ (by omega)]; omega
  have k1 := edge_first hy hi
  have k2 := edge_last hy hi'
  have hN : y0 + j - h = 0 → ¬ (y0 + j - h = N1) := by
    have := hy.inside; have := hy.start; omega
  have bg' := bg i j hj hj'
  have ag' := ag i j hj hj'
  rw [if_pos (by omega)] at bg' ag'
  have bg'' : b.get i j = recipSquare K (a.get i j) := by
    rw [bg']; simp only [Arr.map, Arr.cut, Sl.span, Sl.all]; ring_nf
  simp only
  rw [eg i j hj hj', fg i j hj hj', cg i j hj hj', dg i j hj hj', bg'', ag', x1, x2]
  clear eg fg cg dg bg ag bg' ag' bg''
  simp only [k1, k2]
  unfold sinSide rsinSide OnEdge
  by_cases g1 : y0 + j - h = 0
  · simp only [if_pos g1, if_neg (hN g1), if_pos (Or.inl g1), and_self]
  · by_cases g2 : y0 + j - h = N1
    · simp only [if_neg g1, if_pos g2, if_pos (Or.inr g2), and_self]
    · simp only [if_neg g1, if_neg g2, if_neg (not_or.mpr ⟨g1, g2⟩), and_self]

theorem trigRsina_ok (K : Consts R) (h x0 y0 n0 n1 N0 N1 : Int) (on : OnTile) (a : Arr R)
    (hx : Part h x0 n0 N0 on.left on.right) (hy : Part h y0 n1 N1 on.bottom on.top)
    (a0 : a.n0 = n0 + 2 * h + 1) (a1 : a.n1 = n1 + 2 * h + 1) (i j : Int)
    (hi : h ≤ i) (hi' : i ≤ n0 + h) (hj : h ≤ j) (hj' : j ≤ n1 + h) :
    (trigRsina K h on a).get (i - h) (j - h) =
      if OnEdge N0 (x0 + i - h) ∨ OnEdge N1 (y0 + j - h) then K.big else recipSquare K (a.get i j) := by
  have hh := hx.halo; have h0 := hx.pos; have h1 := hy.pos
  have m0 : ((a.cut (Sl.span h h) (Sl.span h h)).map (recipSquare K)).n0 = n0 + 1 := by shapes2
  have m1 : ((a.cut (Sl.span h h) (Sl.span h h)).map (recipSquare K)).n1 = n1 + 1 := by shapes2
  have x1 : ix (n0 + 1) 0 = 0 := ix_nonneg _ _ (by omega)
  have x2 : ix (n0 + 1) (-1) = n0 := by rw [ix_neg _ _ (by omega)]; omega
  have x3 : ix (n1 + 1) 0 = 0 := ix_nonneg _ _ (by omega)
  have x4 : ix (n1 + 1) (-1) = n1 := by rw [ix_neg _ _ (by omega)]; omega
  have t1 : i - h = 0 ↔ i = h := by omega
  have t2 : i - h = n0 ↔ i = n0 + h := by omega
  have t3 : j - h = 0 ↔ j = h := by omega
  have t4 : j - h = n1 ↔ j = n1 + h := by omega
  have g : ((a.cut (Sl.span h h) (Sl.span h h)).map (recipSquare K)).get (i - h) (j - h) = recipSquare K (a.get i j) := by
    simp only [Arr.map, Arr.cut, Sl.span]; ring_nf
  have k1 := edge_first hx (i := i) (by omega)
  have k2 := edge_last hx (i := i) (by omega)
  have k3 := edge_first hy (i := j) (by omega)
  have k4 := edge_last hy (i := j) (by omega)
  unfold trigRsina
  simp only
  rw [fillIf_col _ _ _ _ _ _ (by omega) (by simp only [fillIf_n0]; omega),
    fillIf_col _ _ _ _ _ _ (by omega) (by simp only [fillIf_n0]; omega),
    fillIf_row _ _ _ _ _ _ (by omega) (by simp only [fillIf_n1]; omega),
    fillIf_row _ _ _ _ _ _ (by omega) (by omega), g]
  simp only [fillIf_n0, fillIf_n1, m0, m1, x1, x2, x3, x4, t1, t2, t3, t4, k1, k2, k3, k4]
  unfold OnEdge
  by_cases g1 : x0 + i - h = 0 <;> by_cases g2 : x0 + i - h = N0 <;> by_cases g3 : y0 + j - h = 0 <;>
    by_cases g4 : y0 + j - h = N1 <;>
    simp only [if_pos, if_neg, g1, g2, g3, g4, not_false_iff, or_self, or_true, true_or, or_false, false_or, if_true, if_false, ite_self]

/-- **C94**, sines and cosines: every rank finds, at its corners, at all sides of cells in its array except for the
outermost lines, and in its cells, the values which the same formulas give on the whole tile. -/
theorem C94_trig (K : Consts R) (h x0 y0 n0 n1 N0 N1 : Int) (on : OnTile) (c s : Int → Int → Nat → R)
    (hx : Part h x0 n0 N0 on.left on.right) (hy : Part h y0 n1 N1 on.bottom on.top) :
    ∃ t, trigUV K h on (n0 + 2 * h + 1) (n1 + 2 * h + 1) (window c h x0 y0 n0 n1 0 0) (window s h x0 y0 n0 n1 0 0) = .ok t ∧
      (∀ i j, h ≤ i → i ≤ n0 + h → h ≤ j → j ≤ n1 + h →
        t.cosa.get i j = meanCorner K c (x0 + i - h) (y0 + j - h) ∧
        t.sina.get i j = meanCorner K s (x0 + i - h) (y0 + j - h) ∧
        t.rsina.get (i - h) (j - h) = (if OnEdge N0 (x0 + i - h) ∨ OnEdge N1 (y0 + j - h) then K.big
          else recipSquare K (meanCorner K s (x0 + i - h) (y0 + j - h)))) ∧
      (∀ i j, 1 ≤ i → i ≤ n0 + 2 * h - 1 → 0 ≤ j → j < n1 + 2 * h →
        t.cosaU.get i j = meanWest K c (x0 + i - h) (y0 + j - h) ∧
        t.sinaU.get i j = sinSide K (OnEdge N0 (x0 + i - h)) (meanWest K s (x0 + i - h) (y0 + j - h)) ∧
        t.rsinU.get i j = rsinSide K (OnEdge N0 (x0 + i - h)) (meanWest K s (x0 + i - h) (y0 + j - h))) ∧
      (∀ i j, 0 ≤ i → i < n0 + 2 * h → 1 ≤ j → j ≤ n1 + 2 * h - 1 →
        t.cosaV.get i j = meanSouth K c (x0 + i - h) (y0 + j - h) ∧
        t.sinaV.get i j = sinSide K (OnEdge N1 (y0 + j - h)) (meanSouth K s (x0 + i - h) (y0 + j - h)) ∧
        t.rsinV.get i j = rsinSide K (OnEdge N1 (y0 + j - h)) (meanSouth K s (x0 + i - h) (y0 + j - h))) ∧
      (∀ i j, 0 ≤ i → i < n0 + 2 * h → 0 ≤ j → j < n1 + 2 * h →
        t.cosaS.get i j = (if BeyondCorner N0 N1 (x0 + i - h) (y0 + j - h) then K.big
          else c (x0 + i - h) (y0 + j - h) 4) ∧
        t.rsin2.get i j = recipSquare K (s (x0 + i - h) (y0 + j - h) 4)) := by
  have hh := hx.halo; have h0 := hx.pos; have h1 := hy.pos
  unfold trigUV
  show Post _ _
  refine post_of _ _ _ _ (trigCorner_ok K h x0 y0 n0 n1 c hh h0 h1) ?_
  rintro cosa ⟨_, _, cosag⟩
  refine post_of _ _ _ _ (trigCorner_ok K h x0 y0 n0 n1 s hh h0 h1) ?_
  rintro sina ⟨sina0, sina1, sinag⟩
  refine post_of _ _ _ _ (trigMeanU_ok K h x0 y0 n0 n1 c hh h0 h1) ?_
  rintro cosaU ⟨_, _, cosaUg⟩
  refine post_of _ _ _ _ (trigSinU_ok K h x0 y0 n0 n1 N0 on s hx h1) ?_
  rintro sinU sinUg
  refine post_of _ _ _ _ (trigMeanV_ok K h x0 y0 n0 n1 c hh h0 h1) ?_
  rintro cosaV ⟨_, _, cosaVg⟩
  refine post_of _ _ _ _ (trigSinV_ok K h x0 y0 n0 n1 N1 on s hy h0) ?_
  rintro sinV sinVg
  simp only
  refine post_zip (n0 + 2 * h) (n1 + 2 * h) _ _ _ _ _ (by rw [window_n0, window_n1]; omega)
    (by rw [fillHaloCorners_n0, fillHaloCorners_n1, point_n0, point_n1, window_n0, window_n1]; omega) ?_
  intro cosSg _ _ _
  apply post_pure
  simp only
  refine ⟨fun i j hi hi' hj hj' => ⟨?_, ?_, ?_⟩, fun i j hi hi' hj hj' => ⟨?_, sinUg i j hi hi' hj hj'⟩,
    fun i j hi hi' hj hj' => ⟨?_, sinVg i j hi hi' hj hj'⟩, fun i j hi hi' hj hj' => ⟨?_, ?_⟩⟩
  · rw [cosag, if_pos ⟨⟨hi, hi'⟩, hj, hj'⟩]
  · rw [sinag, if_pos ⟨⟨hi, hi'⟩, hj, hj'⟩]
  · rw [trigRsina_ok K h x0 y0 n0 n1 N0 N1 on sina hx hy sina0 sina1 i j hi hi' hj hj']
    have e := sinag i j
    rw [if_pos ⟨⟨hi, hi'⟩, hj, hj'⟩] at e
    rw [e]
  · rw [cosaUg i j hj hj', if_pos ⟨hi, hi'⟩]
  · rw [cosaVg i j hi hi', if_pos ⟨hj, hj'⟩]
  · have z0 := corner_cells hx 0 (by omega) hi (by omega) (by omega)
    have z1 := corner_cells hy 0 (by omega) hj (by omega) (by omega)
    rw [fillHaloCorners_get _ _ _ _ _ _ hi (by rw [point_n0, window_n0]; omega) hj (by rw [point_n1, window_n1]; omega),
      point_n0, point_n1, window_n0, window_n1]
    simp only [z0, z1]
    simp only [Int.add_zero]
    rfl
  · rfl

theorem ratio_ok {δ : Type} (m0 m1 : Int) (x a b : Arr R) (k : Arr R → Except Err δ) (Q : δ → Prop)
    (hx : x.n0 = m0 ∧ x.n1 = m1) (ha : a.n0 = m0 ∧ a.n1 = m1) (hb : b.n0 = m0 ∧ b.n1 = m1)
    (h : ∀ c : Arr R, c.n0 = m0 → c.n1 = m1 → (∀ i j, c.get i j = x.get i j * a.get i j / b.get i j) → Post (k c) Q) :
    Post (ratio x a b >>= k) Q := by
  refine post_bind ⟨x.n0, x.n1, fun i j => x.get i j * a.get i j / b.get i j⟩ _ _ _ ?_ (h _ hx.1 hx.2 fun _ _ => rfl)
  unfold ratio
  rw [zip_ok _ _ _ ⟨hx.1.trans ha.1.symm, hx.2.trans ha.2.symm⟩]
  exact zip_ok _ _ _ ⟨hx.1.trans hb.1.symm, hx.2.trans hb.2.symm⟩

theorem meanRatio_eq (K : Consts R) (m0 m1 : Int) (x y a b : Arr R) (hx : x.n0 = m0 ∧ x.n1 = m1) (hy : y.n0 = m0 ∧ y.n1 = m1)
    (ha : a.n0 = m0 ∧ a.n1 = m1) (hb : b.n0 = m0 ∧ b.n1 = m1) :
    meanRatio K x y a b = .ok ⟨m0, m1, fun i j => mean K (x.get i j) (y.get i j) * a.get i j / b.get i j⟩ := by
  obtain ⟨rfl, rfl⟩ := hx
  unfold meanRatio
  rw [zip_ok _ _ _ ⟨hy.1.symm, hy.2.symm⟩]
  show ratio _ _ _ = _
  unfold ratio
  rw [zip_ok _ (Arr.mk x.n0 x.n1 fun i j => mean K (x.get i j) (y.get i j)) a ⟨ha.1.symm, ha.2.symm⟩]
  exact zip_ok _ _ _ ⟨hb.1.symm, hb.2.symm⟩

theorem post_putIf_ok {δ : Type} (bo : Bool) (a : Arr α) (s t : Sl) (x : Except Err (Arr α)) (v : Arr α)
    (k : Arr α → Except Err δ) (Q : δ → Prop) (hx : x = .ok v) (hv : s.len a.n0 = v.n0 ∧ t.len a.n1 = v.n1)
    (h : ∀ c : Arr α, c.n0 = a.n0 → c.n1 = a.n1 → (∀ i j, c.get i j = if bo = true ∧ (s.has a.n0 i && t.has a.n1 j) = true then
      v.get (i - s.start a.n0) (j - t.start a.n1) else a.get i j) → Post (k c) Q) :
    Post (putIf bo a s t x >>= k) Q := by
  cases bo with
  | false => exact post_bind _ _ _ _ rfl (h a rfl rfl fun i j => by simp)
  | true =>
    refine post_bind (a.over s t v) _ _ _ ?_ (h _ rfl rfl fun i j => by simp [Arr.over])
    unfold putIf
    rw [if_pos rfl, hx]
    exact put_ok _ _ _ _ hv

/-- A column set to a mean times a ratio. -/
theorem post_meanCol {δ : Type} (K : Consts R) (m0 m1 k k1 k2 k3 : Int) (bo : Bool) (o x y a b : Arr R)
    (f : Arr R → Except Err δ) (Q : δ → Prop) (ho : o.n0 = m0 ∧ o.n1 = m1) (hm : 0 ≤ m0) (hx : x.n0 = m0) (hy : y.n0 = m0)
    (ha : a.n0 = m0) (hb : b.n0 = m0)
    (h : ∀ c : Arr R, c.n0 = m0 → c.n1 = m1 → (∀ i j, 0 ≤ i → i < m0 → c.get i j = if bo = true ∧ j = ix m1 k then
      mean K (x.get i (ix x.n1 k1)) (y.get i (ix y.n1 k2)) * a.get i (ix a.n1 k3) / b.get i (ix b.n1 k3)
      else o.get i j) → Post (f c) Q) :
    Post (putIf bo o Sl.all (Sl.one k) (meanRatio K (x.cut Sl.all (Sl.one k1)) (y.cut Sl.all (Sl.one k2))
      (a.cut Sl.all (Sl.one k3)) (b.cut Sl.all (Sl.one k3))) >>= f) Q := by
  have l (z : Arr R) (q : Int) (hz : z.n0 = m0) : (z.cut Sl.all (Sl.one q)).n0 = m0 ∧ (z.cut Sl.all (Sl.one q)).n1 = 1 :=
    ⟨by rw [cut_n0, hz, len_all _ hm], one_len _ _⟩
  refine post_putIf_ok _ _ _ _ _ _ _ _ (meanRatio_eq K m0 1 _ _ _ _ (l x k1 hx) (l y k2 hy) (l a k3 ha) (l b k3 hb)) ?_ ?_
  · rw [ho.1, len_all _ hm, one_len]; exact ⟨rfl, rfl⟩
  · intro c c0 c1 cg
    refine h c (c0.trans ho.1) (c1.trans ho.2) fun i j hi hi' => ?_
    rw [cg i j, ho.1, ho.2]
    simp only [Bool.and_eq_true, has_all, one_has, hi, hi', and_true, true_and]
    by_cases hj : bo = true ∧ j = ix m1 k
    · rw [if_pos hj, if_pos hj]
      have e : j - (Sl.one k).start m1 = 0 := by rw [hj.2]; simp [ix, Sl.one]
      rw [e]
      simp only [Arr.cut, Sl.all, Sl.one, Int.zero_add, Int.sub_zero, Int.add_zero, ix]
    · rw [if_neg hj, if_neg hj]

theorem post_meanRow {δ : Type} (K : Consts R) (m0 m1 k k1 k2 k3 : Int) (bo : Bool) (o x y a b : Arr R)
    (f : Arr R → Except Err δ) (Q : δ → Prop) (ho : o.n0 = m0 ∧ o.n1 = m1) (hm : 0 ≤ m1) (hx : x.n1 = m1) (hy : y.n1 = m1)
    (ha : a.n1 = m1) (hb : b.n1 = m1)
    (h : ∀ c : Arr R, c.n0 = m0 → c.n1 = m1 → (∀ i j, 0 ≤ j → j < m1 → c.get i j = if bo = true ∧ i = ix m0 k then
      mean K (x.get (ix x.n0 k1) j) (y.get (ix y.n0 k2) j) * a.get (ix a.n0 k3) j / b.get (ix b.n0 k3) j
      else o.get i j) → Post (f c) Q) :
    Post (putIf bo o (Sl.one k) Sl.all (meanRatio K (x.cut (Sl.one k1) Sl.all) (y.cut (Sl.one k2) Sl.all)
      (a.cut (Sl.one k3) Sl.all) (b.cut (Sl.one k3) Sl.all)) >>= f) Q := by
  have l (z : Arr R) (q : Int) (hz : z.n1 = m1) : (z.cut (Sl.one q) Sl.all).n0 = 1 ∧ (z.cut (Sl.one q) Sl.all).n1 = m1 :=
    ⟨one_len _ _, by rw [cut_n1, hz, len_all _ hm]⟩
  refine post_putIf_ok _ _ _ _ _ _ _ _ (meanRatio_eq K 1 m1 _ _ _ _ (l x k1 hx) (l y k2 hy) (l a k3 ha) (l b k3 hb)) ?_ ?_
  · rw [ho.2, len_all _ hm, one_len]; exact ⟨rfl, rfl⟩
  · intro c c0 c1 cg
    refine h c (c0.trans ho.1) (c1.trans ho.2) fun i j hi hi' => ?_
    rw [cg i j, ho.1, ho.2]
    simp only [Bool.and_eq_true, has_all, one_has, hi, hi', and_true]
    by_cases hj : bo = true ∧ i = ix m0 k
    · rw [if_pos hj, if_pos hj]
      have e : i - (Sl.one k).start m0 = 0 := by rw [hj.2]; simp [ix, Sl.one]
      rw [e]
      simp only [Arr.cut, Sl.all, Sl.one, Int.zero_add, Int.sub_zero, Int.add_zero, ix]
    · rw [if_neg hj, if_neg hj]

set_option maxHeartbeats 1000000 in
/-- **C94**, damping coefficients: the same for `divg_u`, `del6_u` (on sides between cells along the second axis),
`divg_v` and `del6_v`. -/
theorem C94_divg (K : Consts R) (h x0 y0 n0 n1 N0 N1 : Int) (on : OnTile) (s : Int → Int → Nat → R)
    (sU sV dx dy dxc dyc : Int → Int → R)
    (hx : Part h x0 n0 N0 on.left on.right) (hy : Part h y0 n1 N1 on.bottom on.top) :
    ∃ r, divgDel6 K h on (window s h x0 y0 n0 n1 0 0) (window sU h x0 y0 n0 n1 1 0) (window sV h x0 y0 n0 n1 0 1)
        (window dx h x0 y0 n0 n1 0 1) (window dy h x0 y0 n0 n1 1 0) (window dxc h x0 y0 n0 n1 1 0)
        (window dyc h x0 y0 n0 n1 0 1) = .ok r ∧
      (∀ i j, 0 ≤ i → i < n0 + 2 * h → 1 ≤ j → j ≤ n1 + 2 * h - 1 →
        r.1.get i j = sideSine (OnEdge N1 (y0 + j - h)) (mean K (s (x0 + i - h) (y0 + j - h) 1) (s (x0 + i - h) (y0 + j - h - 1) 3))
          (sV (x0 + i - h) (y0 + j - h)) * dyc (x0 + i - h) (y0 + j - h) / dx (x0 + i - h) (y0 + j - h) ∧
        r.2.2.1.get i j = sideSine (OnEdge N1 (y0 + j - h)) (mean K (s (x0 + i - h) (y0 + j - h) 1) (s (x0 + i - h) (y0 + j - h - 1) 3))
          (sV (x0 + i - h) (y0 + j - h)) * dx (x0 + i - h) (y0 + j - h) / dyc (x0 + i - h) (y0 + j - h)) ∧
      (∀ i j, 1 ≤ i → i ≤ n0 + 2 * h - 1 → 0 ≤ j → j < n1 + 2 * h →
        r.2.1.get i j = sideSine (OnEdge N0 (x0 + i - h)) (mean K (s (x0 + i - h) (y0 + j - h) 0) (s (x0 + i - h - 1) (y0 + j - h) 2))
          (sU (x0 + i - h) (y0 + j - h)) * dxc (x0 + i - h) (y0 + j - h) / dy (x0 + i - h) (y0 + j - h) ∧
        r.2.2.2.get i j = sideSine (OnEdge N0 (x0 + i - h)) (mean K (s (x0 + i - h) (y0 + j - h) 0) (s (x0 + i - h - 1) (y0 + j - h) 2))
          (sU (x0 + i - h) (y0 + j - h)) * dy (x0 + i - h) (y0 + j - h) / dxc (x0 + i - h) (y0 + j - h)) := by
  have hh := hx.halo; have h0 := hx.pos; have h1 := hy.pos
  unfold divgDel6
  simp only
  show Post _ _
  refine ratio_ok (n0 + 2 * h) (n1 + 2 * h + 1) _ _ _ _ _ ?_ ?_ ?_ ?_; (· constructor <;> shapes2); (· constructor <;> shapes2); (· constructor <;> shapes2)
  intro a a0 a1 ag
  refine ratio_ok (n0 + 2 * h) (n1 + 2 * h + 1) _ _ _ _ _ ?_ ?_ ?_ ?_; (· constructor <;> shapes2); (· constructor <;> shapes2); (· constructor <;> shapes2)
  intro b b0 b1 bg
  refine ratio_ok (n0 + 2 * h + 1) (n1 + 2 * h) _ _ _ _ _ ?_ ?_ ?_ ?_; (· constructor <;> shapes2); (· constructor <;> shapes2); (· constructor <;> shapes2)
  intro c c0 c1 cg
  refine ratio_ok (n0 + 2 * h + 1) (n1 + 2 * h) _ _ _ _ _ ?_ ?_ ?_ ?_; (· constructor <;> shapes2); (· constructor <;> shapes2); (· constructor <;> shapes2)
  intro d d0 d1 dg
  refine post_meanCol K (n0 + 2 * h) (n1 + 2 * h + 1) _ _ _ _ _ _ _ _ _ _ _ _ ⟨a0, a1⟩ (by omega) ?_ ?_ ?_ ?_ ?_; (· shapes2); (· shapes2); (· shapes2); (· shapes2)
  intro a' a0' a1' ag'
  refine post_meanCol K (n0 + 2 * h) (n1 + 2 * h + 1) _ _ _ _ _ _ _ _ _ _ _ _ ⟨b0, b1⟩ (by omega) ?_ ?_ ?_ ?_ ?_; (· shapes2); (· shapes2); (· shapes2); (· shapes2)
  intro b' b0' b1' bg'
  refine post_meanCol K (n0 + 2 * h) (n1 + 2 * h + 1) _ _ _ _ _ _ _ _ _ _ _ _ ⟨a0', a1'⟩ (by omega) ?_ ?_ ?_ ?_ ?_; (· shapes2); (· shapes2); (· shapes2); (· shapes2)
  intro a'' a0'' a1'' ag''
  refine post_meanCol K (n0 + 2 * h) (n1 + 2 * h + 1) _ _ _ _ _ _ _ _ _ _ _ _ ⟨b0', b1'⟩ (by omega) ?_ ?_ ?_ ?_ ?_; (· shapes2); (· shapes2); (· shapes2); (· shapes2)
  intro b'' b0'' b1'' bg''
  refine post_meanRow K (n0 + 2 * h + 1) (n1 + 2 * h) _ _ _ _ _ _ _ _ _ _ _ _ ⟨c0, c1⟩ (by omega) ?_ ?_ ?_ ?_ ?_; (· shapes2); (· shapes2); (· shapes2); (· shapes2)
  intro c' c0' c1' cg'
  refine post_meanRow K (n0 + 2 * h + 1) (n1 + 2 * h) _ _ _ _ _ _ _ _ _ _ _ _ ⟨d0, d1⟩ (by omega) ?_ ?_ ?_ ?_ ?_; (· shapes2); (· shapes2); (· shapes2); (· shapes2)
  intro d' d0' d1' dg'
  refine post_meanRow K (n0 + 2 * h + 1) (n1 + 2 * h) _ _ _ _ _ _ _ _ _ _ _ _ ⟨c0', c1'⟩ (by omega) ?_ ?_ ?_ ?_ ?_; (· shapes2); (· shapes2); (· shapes2); (· shapes2)
  intro c'' c0'' c1'' cg''
  refine post_meanRow K (n0 + 2 * h + 1) (n1 + 2 * h) _ _ _ _ _ _ _ _ _ _ _ _ ⟨d0', d1'⟩ (by omega) ?_ ?_ ?_ ?_ ?_; (· shapes2); (· shapes2); (· shapes2); (· shapes2)
  intro d'' d0'' d1'' dg''
  apply post_pure
  clear a0 a1 b0 b1 c0 c1 d0 d1 a0' a1' b0' b1' c0' c1' d0' d1' a0'' a1'' b0'' b1'' c0'' c1'' d0'' d1''
  have p1 (m : Int) : ix m h = h := ix_nonneg _ _ (by omega)
  have p2 (m : Int) : ix m (h - 1) = h - 1 := ix_nonneg _ _ (by omega)
  have p3 (m : Int) : ix m (-h) = m - h := by rw [ix_neg _ _ (by omega)]; omega
  have p4 (m : Int) : ix m (-h - 1) = m - h - 1 := by rw [ix_neg _ _ (by omega)]; omega
  simp only
  refine ⟨fun i j hi hi' hj hj' => ?_, fun i j hj hj' hi hi' => ?_⟩
  · have k1 := edge_first hy hj
    have k2 := edge_last hy hj'
    have hN : y0 + j - h = 0 → ¬ (y0 + j - h = N1) := by
      have := hy.inside; have := hy.start; omega
    have q : n1 + 2 * h + 1 - h - 1 = n1 + h := by omega
    rw [ag'' i j hi hi', bg'' i j hi hi', ag' i j hi hi', bg' i j hi hi', ag, bg, p1, p4, q]
    clear ag'' bg'' ag' bg' ag bg cg'' dg'' cg' dg' cg dg
    simp only [p1, p2, p3, p4, point_n1, window_n1]
    simp only [k1, k2]
    unfold OnEdge sideSine
    by_cases g1 : y0 + j - h = 0
    · simp only [if_pos g1, if_neg (hN g1), if_pos (Or.inl g1)]
      obtain rfl : j = h := (k1.mpr g1).2
      simp only [point, Arr.map, window]
      ring_nf
      trivial
    · by_cases g2 : y0 + j - h = N1
      · simp only [if_pos g2, if_pos (Or.inr g2)]
        obtain rfl : j = n1 + h := (k2.mpr g2).2
        simp only [point, Arr.map, window]
        ring_nf
        trivial
      · simp only [if_neg g1, if_neg g2, if_neg (not_or.mpr ⟨g1, g2⟩)]
        exact ⟨rfl, rfl⟩
  · have k1 := edge_first hx hj
    have k2 := edge_last hx hj'
    have hN : x0 + i - h = 0 → ¬ (x0 + i - h = N0) := by
      have := hx.inside; have := hx.start; omega
    have q : n0 + 2 * h + 1 - h - 1 = n0 + h := by omega
    rw [cg'' i j hi hi', dg'' i j hi hi', cg' i j hi hi', dg' i j hi hi', cg, dg, p1, p4, q]
    clear ag'' bg'' ag' bg' ag bg cg'' dg'' cg' dg' cg dg
    simp only [p1, p2, p3, p4, point_n0, window_n0]
    simp only [k1, k2]
    unfold OnEdge sideSine
    by_cases g1 : x0 + i - h = 0
    · simp only [if_pos g1, if_neg (hN g1), if_pos (Or.inl g1)]
      obtain rfl : i = h := (k1.mpr g1).2
      simp only [point, Arr.map, window]
      ring_nf
      trivial
    · by_cases g2 : x0 + i - h = N0
      · simp only [if_pos g2, if_pos (Or.inr g2)]
        obtain rfl : i = n0 + h := (k2.mpr g2).2
        simp only [point, Arr.map, window]
        ring_nf
        trivial
      · simp only [if_neg g1, if_neg g2, if_neg (not_or.mpr ⟨g1, g2⟩)]
        exact ⟨rfl, rfl⟩

/-- Equal parts of at least the halo's width are parts in the sense of the theorems. -/
theorem part_even (h n l r : Int) (hh : 2 ≤ h) (hn : h ≤ n) (hr : 0 ≤ r) (hl : r < l) :
    Part h (r * n) n (l * n) (decide (r = 0)) (decide (r = l - 1)) := by
  have e : (l - 1) * n = l * n - n := by ring
  refine ⟨hh, by omega, ?_, ?_, ?_, ?_, ?_, ?_⟩
  · exact Int.mul_nonneg hr (by omega)
  · have := Int.mul_le_mul_of_nonneg_right (show r ≤ l - 1 by omega) (show 0 ≤ n by omega); omega
  · rw [decide_eq_true_iff]
    constructor
    · rintro rfl; exact Int.zero_mul n
    · intro h'
      rcases Int.mul_eq_zero.mp h' with h' | h' <;> omega
  · rw [decide_eq_true_iff]
    constructor
    · rintro rfl; omega
    · intro h'
      have : (r - (l - 1)) * n = 0 := by rw [Int.sub_mul, e]; omega
      rcases Int.mul_eq_zero.mp this with h' | h' <;> omega
  · intro h'
    have h' : r ≠ 0 := of_decide_eq_false h'
    have := Int.mul_le_mul_of_nonneg_right (show 1 ≤ r by omega) (show 0 ≤ n by omega); omega
  · intro h'
    have h' : r ≠ l - 1 := of_decide_eq_false h'
    have := Int.mul_le_mul_of_nonneg_right (show r + 1 ≤ l - 1 by omega) (show 0 ≤ n by omega)
    rw [Int.add_mul] at this
    omega

/-- One rank of a tile in a layout of `l` by `m` ranks with `n0` by `n1` cells each: the one in column `r` and row `q`. -/
def onTile (l m r q : Int) : OnTile := ⟨decide (r = 0), decide (r = l - 1), decide (q = 0), decide (q = m - 1)⟩

/-- **C94**, shared points: in any layout, two ranks of a tile whose arrays contain the same side get the same
vectors for it. -/
theorem C94_shared_vectors (G : Geo P) (gridType h n0 n1 l m r q r' q' : Int) (X A : Int → Int → P)
    (hh : 2 ≤ h) (hn0 : h ≤ n0) (hn1 : h ≤ n1) (hr : 0 ≤ r ∧ r < l) (hq : 0 ≤ q ∧ q < m) (hr' : 0 ≤ r' ∧ r' < l)
    (hq' : 0 ≤ q' ∧ q' < m) (hg : gridType < 3) (i j i' j' : Int)
    (hi : 0 ≤ i ∧ i < n0 + 2 * h - 1) (hj : 0 ≤ j ∧ j < n1 + 2 * h) (hi' : 0 ≤ i' ∧ i' < n0 + 2 * h - 1)
    (hj' : 0 ≤ j' ∧ j' < n1 + 2 * h) (e0 : r * n0 + i = r' * n0 + i') (e1 : q * n1 + j = q' * n1 + j') :
    ∃ v v', westVector G gridType h (onTile l m r q) (window X h (r * n0) (q * n1) n0 n1 1 1)
        (window A h (r * n0) (q * n1) n0 n1 0 0) = .ok v ∧
      westVector G gridType h (onTile l m r' q') (window X h (r' * n0) (q' * n1) n0 n1 1 1)
        (window A h (r' * n0) (q' * n1) n0 n1 0 0) = .ok v' ∧
      v.1.get i j = v'.1.get i' j' ∧ v.2.get i j = v'.2.get i' j' := by
  obtain ⟨v, ev, _, gv⟩ := C94_west G gridType h (r * n0) (q * n1) n0 n1 (l * n0) (m * n1) (onTile l m r q) X A
    (part_even h n0 l r hh hn0 hr.1 hr.2) (part_even h n1 m q hh hn1 hq.1 hq.2) hg
  obtain ⟨v', ev', _, gv'⟩ := C94_west G gridType h (r' * n0) (q' * n1) n0 n1 (l * n0) (m * n1) (onTile l m r' q') X A
    (part_even h n0 l r' hh hn0 hr'.1 hr'.2) (part_even h n1 m q' hh hn1 hq'.1 hq'.2) hg
  refine ⟨v, v', ev, ev', ?_⟩
  have a := gv i j hi.1 hi.2 hj.1 hj.2
  have b := gv' i' j' hi'.1 hi'.2 hj'.1 hj'.2
  have f0 : r * n0 + (i + 1) - h = r' * n0 + (i' + 1) - h := by omega
  have f1 : q * n1 + j - h = q' * n1 + j' - h := by omega
  rw [a.1, a.2, b.1, b.2, f0, f1]
  exact ⟨rfl, rfl⟩

/-- **C94**, shared points: and the same cosine, sine and reciprocal. -/
theorem C94_shared_trig (K : Consts R) (h n0 n1 l m r q r' q' : Int) (c s : Int → Int → Nat → R)
    (hh : 2 ≤ h) (hn0 : h ≤ n0) (hn1 : h ≤ n1) (hr : 0 ≤ r ∧ r < l) (hq : 0 ≤ q ∧ q < m) (hr' : 0 ≤ r' ∧ r' < l)
    (hq' : 0 ≤ q' ∧ q' < m) (i j i' j' : Int)
    (hi : 1 ≤ i ∧ i ≤ n0 + 2 * h - 1) (hj : 0 ≤ j ∧ j < n1 + 2 * h) (hi' : 1 ≤ i' ∧ i' ≤ n0 + 2 * h - 1)
    (hj' : 0 ≤ j' ∧ j' < n1 + 2 * h) (e0 : r * n0 + i = r' * n0 + i') (e1 : q * n1 + j = q' * n1 + j') :
    ∃ t t', trigUV K h (onTile l m r q) (n0 + 2 * h + 1) (n1 + 2 * h + 1) (window c h (r * n0) (q * n1) n0 n1 0 0)
        (window s h (r * n0) (q * n1) n0 n1 0 0) = .ok t ∧
      trigUV K h (onTile l m r' q') (n0 + 2 * h + 1) (n1 + 2 * h + 1) (window c h (r' * n0) (q' * n1) n0 n1 0 0)
        (window s h (r' * n0) (q' * n1) n0 n1 0 0) = .ok t' ∧
      t.cosaU.get i j = t'.cosaU.get i' j' ∧ t.sinaU.get i j = t'.sinaU.get i' j' ∧
      t.rsinU.get i j = t'.rsinU.get i' j' := by
  obtain ⟨v, ev, _, gv, _⟩ := C94_trig K h (r * n0) (q * n1) n0 n1 (l * n0) (m * n1) (onTile l m r q) c s
    (part_even h n0 l r hh hn0 hr.1 hr.2) (part_even h n1 m q hh hn1 hq.1 hq.2)
  obtain ⟨v', ev', _, gv', _⟩ := C94_trig K h (r' * n0) (q' * n1) n0 n1 (l * n0) (m * n1) (onTile l m r' q') c s
    (part_even h n0 l r' hh hn0 hr'.1 hr'.2) (part_even h n1 m q' hh hn1 hq'.1 hq'.2)
  refine ⟨v, v', ev, ev', ?_⟩
  have a := gv i j hi.1 hi.2 hj.1 hj.2
  have b := gv' i' j' hi'.1 hi'.2 hj'.1 hj'.2
  have f0 : r * n0 + i - h = r' * n0 + i' - h := by omega
  have f1 : q * n1 + j - h = q' * n1 + j' - h := by omega
  rw [a.1, a.2.1, a.2.2, b.1, b.2.1, b.2.2, f0, f1]
  exact ⟨rfl, rfl, rfl⟩

/-- The hypotheses are met: a tile of 2 by 3 ranks with 4 by 5 cells each and a halo of 3; its second rank's arrays
overlap the first one's, for instance in the side which is the first's number 6 and the second's number 2. -/
example : Part 3 4 4 8 false true ∧ Part 3 0 5 15 true false := ⟨part_even 3 4 2 1 (by omega) (by omega) (by omega) (by omega),
  part_even 3 5 3 0 (by omega) (by omega) (by omega) (by omega)⟩
example : (0 : Int) * 4 + 6 = 1 * 4 + 2 := rfl

/-- A quotient is limited: the reciprocal of a square is at most `1 / tiny`; the reciprocal of a sine on an edge is as
well, unless the sine is zero. -/
theorem C94_limit {F : Type} [Field F] [LinearOrder F] [IsStrictOrderedRing F] (K : Consts F) (ht : 0 < K.tiny) (x : F) :
    (0 < recipSquare K x ∧ recipSquare K x ≤ 1 / K.tiny) ∧ (x ≠ 0 → K.tiny ≤ |limit K x|) := by
  refine ⟨?_, fun hx => ?_⟩
  · unfold recipSquare
    split_ifs with hc
    · exact ⟨by positivity, le_rfl⟩
    · have hc := not_lt.mp hc
      exact ⟨one_div_pos.mpr (lt_of_lt_of_le ht hc), one_div_le_one_div_of_le ht hc⟩
  · unfold limit abs' sign
    rcases lt_trichotomy x 0 with hn | hz | hp
    · rw [if_pos hn, if_pos hn]
      split_ifs with hc
      · rw [mul_neg, mul_one, abs_neg, abs_of_pos ht]
      · rw [abs_of_neg hn]; exact not_lt.mp hc
    · exact absurd hz hx
    · rw [if_neg (not_lt.mpr hp.le), if_neg (not_lt.mpr hp.le), if_pos hp]
      split_ifs with hc
      · rw [mul_one, abs_of_pos ht]
      · rw [abs_of_pos hp]; exact not_lt.mp hc

/-- Not so for a sine which is zero: the limit leaves it as it is, and the program divides by zero. -/
theorem C94_limit_violated : limit (⟨1/2, 100000000, 1/100000000⟩ : Consts ℚ) 0 = 0 := by decide +kernel

/-- The vectors for flat grids differ: the first one in the centre of a cell is along the first axis, the first one on
its west side along the second axis. -/
theorem C94_flat_violated : ∃ (G : Geo Nat) (x a : Arr Nat) (v w : Arr Nat × Arr Nat),
    centerVector G 4 3 ⟨true, true, true, true⟩ x = .ok v ∧ westVector G 4 3 ⟨true, true, true, true⟩ x a = .ok w ∧
      v.1.get 3 3 = G.axis 0 ∧ w.1.get 3 3 = G.axis 1 ∧ G.axis 0 ≠ G.axis 1 :=
  ⟨⟨fun _ _ => 0, fun _ _ _ _ => 0, fun _ _ => 0, fun _ => 0, 0, 9, id⟩, full 11 11 0, full 10 10 0, _, _, rfl, rfl, rfl, rfl,
    by decide⟩

end NDSL.Deriv
