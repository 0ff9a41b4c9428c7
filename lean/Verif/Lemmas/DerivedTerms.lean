import Verif.Spec.DerivedTerms
import Mathlib.Tactic.SplitIfs
import Mathlib.Tactic.Ring
/-
Lemmas for C94: computations on arrays step by step.
-/
namespace NDSL.Deriv

variable {α β γ P R : Type}

/-- A computation succeeds with a result that satisfies `Q`. -/
def Post (x : Except Err α) (Q : α → Prop) : Prop := ∃ a, x = .ok a ∧ Q a

theorem post_pure (a : α) (Q : α → Prop) (h : Q a) : Post (pure a) Q := ⟨a, rfl, h⟩

theorem post_bind (a : α) (x : Except Err α) (k : α → Except Err β) (Q : β → Prop) (hx : x = .ok a) (h : Post (k a) Q) :
    Post (x >>= k) Q := by rw [hx]; exact h

theorem zip_ok (f : α → β → γ) (a : Arr α) (b : Arr β) (h : a.n0 = b.n0 ∧ a.n1 = b.n1) :
    zip f a b = .ok ⟨a.n0, a.n1, fun i j => f (a.get i j) (b.get i j)⟩ := if_pos h

theorem put_ok (a : Arr α) (s t : Sl) (b : Arr α) (h : s.len a.n0 = b.n0 ∧ t.len a.n1 = b.n1) :
    a.put s t b = .ok (a.over s t b) := if_pos h

theorem post_zip {δ : Type} (m0 m1 : Int) (f : α → β → γ) (a : Arr α) (b : Arr β) (k : Arr γ → Except Err δ) (Q : δ → Prop)
    (ha : a.n0 = m0 ∧ a.n1 = m1) (hb : b.n0 = m0 ∧ b.n1 = m1)
    (h : ∀ c : Arr γ, c.n0 = m0 → c.n1 = m1 → (∀ i j, c.get i j = f (a.get i j) (b.get i j)) → Post (k c) Q) :
    Post (zip f a b >>= k) Q :=
  post_bind _ _ _ _ (zip_ok f a b ⟨ha.1.trans hb.1.symm, ha.2.trans hb.2.symm⟩) (h _ ha.1 ha.2 fun _ _ => rfl)

theorem post_put {δ : Type} (a : Arr α) (s t : Sl) (b : Arr α) (k : Arr α → Except Err δ) (Q : δ → Prop)
    (hs : s.len a.n0 = b.n0 ∧ t.len a.n1 = b.n1)
    (h : ∀ c : Arr α, c.n0 = a.n0 → c.n1 = a.n1 → (∀ i j, c.get i j = if s.has a.n0 i && t.has a.n1 j then
      b.get (i - s.start a.n0) (j - t.start a.n1) else a.get i j) → Post (k c) Q) :
    Post (a.put s t b >>= k) Q :=
  post_bind _ _ _ _ (put_ok a s t b hs) (h _ rfl rfl fun _ _ => rfl)

theorem post_putIf {δ : Type} (bo : Bool) (a : Arr α) (s t : Sl) (f : β → γ → α) (x : Arr β) (y : Arr γ)
    (k : Arr α → Except Err δ) (Q : δ → Prop)
    (hx : x.n0 = s.len a.n0 ∧ x.n1 = t.len a.n1) (hy : y.n0 = s.len a.n0 ∧ y.n1 = t.len a.n1)
    (h : ∀ c : Arr α, c.n0 = a.n0 → c.n1 = a.n1 → (∀ i j, c.get i j = if bo = true ∧ (s.has a.n0 i && t.has a.n1 j) = true then
      f (x.get (i - s.start a.n0) (j - t.start a.n1)) (y.get (i - s.start a.n0) (j - t.start a.n1))
      else a.get i j) → Post (k c) Q) :
    Post (putIf bo a s t (zip f x y) >>= k) Q := by
  cases bo with
  | false => exact post_bind _ _ _ _ rfl (h a rfl rfl fun i j => by simp)
  | true =>
    refine post_bind (a.over s t ⟨x.n0, x.n1, fun i j => f (x.get i j) (y.get i j)⟩) _ _ _ ?_
      (h _ rfl rfl fun i j => by simp [Arr.over])
    unfold putIf
    rw [if_pos rfl, zip_ok f x y ⟨hx.1.trans hy.1.symm, hx.2.trans hy.2.symm⟩]
    exact put_ok _ _ _ _ ⟨hx.1.symm, hx.2.symm⟩

theorem cut_n0 (a : Arr α) (s t : Sl) : (a.cut s t).n0 = s.len a.n0 := rfl
theorem cut_n1 (a : Arr α) (s t : Sl) : (a.cut s t).n1 = t.len a.n1 := rfl
theorem map_n0 (f : α → β) (a : Arr α) : (a.map f).n0 = a.n0 := rfl
theorem map_n1 (f : α → β) (a : Arr α) : (a.map f).n1 = a.n1 := rfl
theorem full_n0 (n0 n1 : Int) (v : α) : (full n0 n1 v).n0 = n0 := rfl
theorem full_n1 (n0 n1 : Int) (v : α) : (full n0 n1 v).n1 = n1 := rfl
theorem window_n0 (F : Int → Int → α) (h x0 y0 n0 n1 e0 e1 : Int) :
    (window F h x0 y0 n0 n1 e0 e1).n0 = n0 + 2 * h + e0 := rfl
theorem window_n1 (F : Int → Int → α) (h x0 y0 n0 n1 e0 e1 : Int) :
    (window F h x0 y0 n0 n1 e0 e1).n1 = n1 + 2 * h + e1 := rfl
theorem len_all (n : Int) (h : 0 ≤ n) : Sl.all.len n = n := by simp [Sl.len, Sl.all]; omega
theorem len_from (a n : Int) (h : a ≤ n) : (Sl.from a).len n = n - a := by simp [Sl.len, Sl.from]; omega
theorem len_span (a b n : Int) (hb : b ≠ 0) (h : a + b ≤ n) : (Sl.span a b).len n = n - b - a := by
  simp [Sl.len, Sl.span, hb]; omega
theorem one_len (k n : Int) : (Sl.one k).len n = 1 := by simp only [Sl.len, Sl.one]; omega

/-- Shapes: unfold and compare. -/
scoped macro "shapes" : tactic =>
  `(tactic| ((try simp (disch := omega) only [cut_n0, cut_n1, map_n0, map_n1, full_n0, full_n1, window_n0, window_n1,
      len_all, len_from, len_span, one_len]) <;> omega))

/-- Filled corners, on a rank's array. -/
theorem fillHaloCorners_get (h : Int) (on : OnTile) (v : α) (a : Arr α) (i j : Int)
    (hi : 0 ≤ i) (hi' : i < a.n0) (hj : 0 ≤ j) (hj' : j < a.n1) :
    (fillHaloCorners on h v a).get i j =
      if ((on.left = true ∧ i < h) ∨ (on.right = true ∧ a.n0 - h ≤ i)) ∧
        ((on.bottom = true ∧ j < h) ∨ (on.top = true ∧ a.n1 - h ≤ j)) then v else a.get i j := by
  obtain ⟨l, r, b, t⟩ := on
  by_cases p1 : i < h <;> by_cases p2 : a.n0 ≤ i + h <;> by_cases p3 : j < h <;> by_cases p4 : a.n1 ≤ j + h <;>
    cases l <;> cases r <;> cases b <;> cases t <;>
    simp [fillHaloCorners, Arr.fill, Sl.has, Sl.to, Sl.last, hi, hi', hj, hj', p1, p2, p3, p4]

theorem fillHaloCorners_n0 (h : Int) (on : OnTile) (v : α) (a : Arr α) : (fillHaloCorners on h v a).n0 = a.n0 := by
  unfold fillHaloCorners
  simp only
  split_ifs <;> rfl

theorem fillHaloCorners_n1 (h : Int) (on : OnTile) (v : α) (a : Arr α) : (fillHaloCorners on h v a).n1 = a.n1 := by
  unfold fillHaloCorners
  simp only
  split_ifs <;> rfl

/-- Where the corners of a rank's array are on the tile. -/
theorem corner_cells {h x0 n N i : Int} {first last : Bool} (hp : Part h x0 n N first last) (e : Int) (he : 0 ≤ e)
    (hi : 0 ≤ i) (hi' : i < n + 2 * h + e) (he' : e ≤ 1) :
    ((first = true ∧ i < h) ∨ (last = true ∧ n + 2 * h + e - h ≤ i)) ↔ (x0 + i - h < 0 ∨ N + e ≤ x0 + i - h) := by
  obtain ⟨a, b, c, d, f1, f2, f3, f4⟩ := hp
  cases first <;> cases last <;> simp at f1 f2 f3 f4 ⊢ <;> omega

/-- One step of a computation on arrays of the given shape. -/
scoped macro "zstep" m:term:max n:term:max : tactic =>
  `(tactic| (refine post_zip $m $n _ _ _ _ _ ?_ ?_ ?_; (· shapes); (· shapes)))

theorem has_one (k n i : Int) : (Sl.one k).has n i = true ↔ i = (if k < 0 then n + k else k) := by
  simp only [Sl.has, Bool.and_eq_true, decide_eq_true_eq]
  simp only [Sl.one]
  split_ifs <;> omega

theorem has_all (n i : Int) : Sl.all.has n i = true ↔ 0 ≤ i ∧ i < n := by
  simp only [Sl.has, Bool.and_eq_true, decide_eq_true_eq]
  simp only [Sl.all]

theorem has_span (a b n i : Int) (hb : b ≠ 0) : (Sl.span a b).has n i = true ↔ a ≤ i ∧ i < n - b := by
  simp only [Sl.has, Bool.and_eq_true, decide_eq_true_eq]
  simp only [Sl.span, if_neg hb]

/-- A row or column, counted from the end if negative. -/
def ix (n k : Int) : Int := if k < 0 then n + k else k

theorem ix_neg (n k : Int) (h : k < 0) : ix n k = n + k := if_pos h
theorem ix_nonneg (n k : Int) (h : 0 ≤ k) : ix n k = k := if_neg (by omega)

/-- A conditional change of a row. -/
theorem post_row {δ : Type} (bo : Bool) (a : Arr α) (k k1 k2 : Int) (s1 s2 : Sl) (f : β → γ → α) (x : Arr β) (y : Arr γ)
    (K : Arr α → Except Err δ) (Q : δ → Prop) (hx : s1.len x.n1 = a.n1) (hy : s2.len y.n1 = a.n1) (ha : 0 ≤ a.n1)
    (h : ∀ c : Arr α, c.n0 = a.n0 → c.n1 = a.n1 → (∀ i j, 0 ≤ j → j < a.n1 → c.get i j =
      if bo = true ∧ i = ix a.n0 k then f (x.get (ix x.n0 k1) (s1.start x.n1 + j)) (y.get (ix y.n0 k2) (s2.start y.n1 + j))
      else a.get i j) → Post (K c) Q) :
    Post (putIf bo a (Sl.one k) Sl.all (zip f (x.cut (Sl.one k1) s1) (y.cut (Sl.one k2) s2)) >>= K) Q := by
  have hl : Sl.all.len a.n1 = a.n1 := by unfold Sl.len Sl.all; simp only; omega
  refine post_putIf _ _ _ _ _ _ _ _ _ ?_ ?_ ?_
  · exact ⟨(one_len _ _).trans (one_len _ _).symm, hx.trans hl.symm⟩
  · exact ⟨(one_len _ _).trans (one_len _ _).symm, hy.trans hl.symm⟩
  · intro c c0 c1 cg
    refine h c c0 c1 fun i j hj hj' => ?_
    rw [cg i j]; simp only [Bool.and_eq_true, has_one, has_all]
    by_cases hi : bo = true ∧ i = ix a.n0 k
    · rw [if_pos ⟨hi.1, hi.2, hj, hj'⟩, if_pos hi]
      have h0 : i - (Sl.one k).start a.n0 = 0 := by rw [hi.2]; simp [ix, Sl.one]
      have h1 : j - Sl.all.start a.n1 = j := by simp [Sl.all]
      rw [h0, h1]
      simp [Arr.cut, Sl.one, ix]
    · rw [if_neg (fun h => hi ⟨h.1, h.2.1⟩), if_neg hi]

/-- A conditional change of a column. -/
theorem post_col {δ : Type} (bo : Bool) (a : Arr α) (k k1 k2 : Int) (s1 s2 : Sl) (f : β → γ → α) (x : Arr β) (y : Arr γ)
    (K : Arr α → Except Err δ) (Q : δ → Prop) (hx : s1.len x.n0 = a.n0) (hy : s2.len y.n0 = a.n0) (ha : 0 ≤ a.n0)
    (h : ∀ c : Arr α, c.n0 = a.n0 → c.n1 = a.n1 → (∀ i j, 0 ≤ i → i < a.n0 → c.get i j =
      if bo = true ∧ j = ix a.n1 k then f (x.get (s1.start x.n0 + i) (ix x.n1 k1)) (y.get (s2.start y.n0 + i) (ix y.n1 k2))
      else a.get i j) → Post (K c) Q) :
    Post (putIf bo a Sl.all (Sl.one k) (zip f (x.cut s1 (Sl.one k1)) (y.cut s2 (Sl.one k2))) >>= K) Q := by
  have hl : Sl.all.len a.n0 = a.n0 := by unfold Sl.len Sl.all; simp only; omega
  refine post_putIf _ _ _ _ _ _ _ _ _ ?_ ?_ ?_
  · exact ⟨hx.trans hl.symm, (one_len _ _).trans (one_len _ _).symm⟩
  · exact ⟨hy.trans hl.symm, (one_len _ _).trans (one_len _ _).symm⟩
  · intro c c0 c1 cg
    refine h c c0 c1 fun i j hj hj' => ?_
    rw [cg i j]; simp only [Bool.and_eq_true, has_one, has_all]
    by_cases hi : bo = true ∧ j = ix a.n1 k
    · rw [if_pos ⟨hi.1, ⟨hj, hj'⟩, hi.2⟩, if_pos hi]
      have h0 : j - (Sl.one k).start a.n1 = 0 := by rw [hi.2]; simp [ix, Sl.one]
      have h1 : i - Sl.all.start a.n0 = i := by simp [Sl.all]
      rw [h0, h1]
      simp [Arr.cut, Sl.one, ix]
    · rw [if_neg (fun h => hi ⟨h.1, h.2.2⟩), if_neg hi]

scoped macro "rowstep" : tactic =>
  `(tactic| (refine post_row _ _ _ _ _ _ _ _ _ _ _ _ ?_ ?_ ?_ ?_; (· shapes); (· shapes); (· shapes)))
scoped macro "colstep" : tactic =>
  `(tactic| (refine post_col _ _ _ _ _ _ _ _ _ _ _ _ ?_ ?_ ?_ ?_; (· shapes); (· shapes); (· shapes)))
scoped macro "ostep" : tactic =>
  `(tactic| (refine post_put _ _ _ _ _ _ ?_ ?_; (· shapes)))

/-- The edges of the tile in a rank's array: sides and corners. -/
theorem edge_first {h x0 n N i : Int} {first last : Bool} (hp : Part h x0 n N first last) (hi : 1 ≤ i) :
    (first = true ∧ i = h) ↔ x0 + i - h = 0 := by
  obtain ⟨a, b, c, d, f1, f2, f3, f4⟩ := hp
  cases first <;> simp at f1 f3 ⊢ <;> omega

theorem edge_last {h x0 n N i : Int} {first last : Bool} (hp : Part h x0 n N first last) (hi : i ≤ n + 2 * h - 1) :
    (last = true ∧ i = n + h) ↔ x0 + i - h = N := by
  obtain ⟨a, b, c, d, f1, f2, f3, f4⟩ := hp
  cases last <;> simp at f2 f4 ⊢ <;> omega

end NDSL.Deriv
