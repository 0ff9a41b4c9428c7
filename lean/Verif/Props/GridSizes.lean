import Verif.Lemmas.GridSizes
import Mathlib.Order.Defs.LinearOrder
import Mathlib.Order.Lattice
import Mathlib.Tactic.FinCases
/-
C97: lengths and areas of the grid do not depend on how a tile is decomposed.
-/
namespace NDSL.Sizes
open NDSL.Deriv

variable {P R : Type}

/-- The centres of all cells of a rank's arrays, ghost cells included. -/
theorem C97_centres (S : Ops P R) (x0 y0 n0 n1 N0 N1 : Int) (on : OnTile) (X A : Int → Int → P)
    (hx : Part 3 x0 n0 N0 on.left on.right) (hy : Part 3 y0 n1 N1 on.bottom on.top) :
    ∃ r, agrid S (window X 3 x0 y0 n0 n1 1 1) (window A 3 x0 y0 n0 n1 1 1) = .ok r ∧ r.n0 = n0 + 7 ∧ r.n1 = n1 + 7 ∧
      ∀ i j, 0 ≤ i → i < n0 + 6 → 0 ≤ j → j < n1 + 6 → r.get i j = centreOf S X (x0 + i - 3) (y0 + j - 3) := by
  have := hx.pos; have := hy.pos
  unfold agrid
  refine post_zip4 (n0 + 6) (n1 + 6) _ _ _ _ _ _ _ ?_ ?_ ?_ ?_ ?_
  · shp
  · shp
  · shp
  · shp
  intro c c0 c1 cg
  refine post_put' _ _ _ _ _ ?_ ?_
  · shp
  intro r r0 r1 rg
  refine ⟨r0.trans (by rw [window_n0]; omega), r1.trans (by rw [window_n1]; omega), fun i j hi hi' hj hj' => ?_⟩
  rw [rg]
  simp only [Bool.and_eq_true, window_n0, window_n1]
  rw [if_pos ⟨(has_span _ _ _ _ (by omega)).mpr (by omega), (has_span _ _ _ _ (by omega)).mpr (by omega)⟩, cg]
  simp only [Arr.cut, window, centreOf]
  simp only [Sl.span, Sl.from]
  congr 2 <;> omega

/-- The sides of a rank's own cells. -/
theorem C97_sides (S : Ops P R) (x0 y0 n0 n1 N0 N1 : Int) (on : OnTile) (X : Int → Int → P)
    (hx : Part 3 x0 n0 N0 on.left on.right) (hy : Part 3 y0 n1 N1 on.bottom on.top) :
    ∃ r, dxdy S 3 (window X 3 x0 y0 n0 n1 1 1) = .ok r ∧
      (∀ i j, 3 ≤ i → i < n0 + 3 → 3 ≤ j → j ≤ n1 + 3 → r.1.get i j = southSide S X (x0 + i - 3) (y0 + j - 3)) ∧
      (∀ i j, 3 ≤ i → i ≤ n0 + 3 → 3 ≤ j → j < n1 + 3 → r.2.get i j = westSide S X (x0 + i - 3) (y0 + j - 3)) := by
  have := hx.pos; have := hy.pos
  unfold dxdy
  simp only [dom]
  have hv : ((window X 3 x0 y0 n0 n1 1 1).cut (Sl.span 3 (3 + 1 - 1)) (Sl.span 3 (3 + 1 - 1))).n0 = n0 + 1 ∧
      ((window X 3 x0 y0 n0 n1 1 1).cut (Sl.span 3 (3 + 1 - 1)) (Sl.span 3 (3 + 1 - 1))).n1 = n1 + 1 := by shp
  refine post_seq _ _ _ _ (distI_post S _ n0 (n1 + 1) hv (by omega) (by omega)) ?_
  rintro c ⟨c0, c1, cg⟩
  refine post_put _ _ _ _ _ _ ?_ ?_
  · shp
  intro dx dx0 dx1 dxg
  refine post_seq _ _ _ _ (distJ_post S _ (n0 + 1) n1 hv (by omega) (by omega)) ?_
  rintro d ⟨d0, d1, dg⟩
  refine post_put _ _ _ _ _ _ ?_ ?_
  · shp
  intro dy dy0 dy1 dyg
  refine post_pure _ _ ⟨fun i j hi hi' hj hj' => ?_, fun i j hi hi' hj hj' => ?_⟩
  · show dx.get i j = _
    rw [dxg]
    simp only [Bool.and_eq_true, full_n0, full_n1, window_n0, window_n1]
    rw [if_pos ⟨(has_span _ _ _ _ (by omega)).mpr (by omega), (has_span _ _ _ _ (by omega)).mpr (by omega)⟩, cg]
    simp only [Arr.cut, window, southSide]
    simp only [Sl.span]
    congr 2 <;> omega
  · show dy.get i j = _
    rw [dyg]
    simp only [Bool.and_eq_true, full_n0, full_n1, window_n0, window_n1]
    rw [if_pos ⟨(has_span _ _ _ _ (by omega)).mpr (by omega), (has_span _ _ _ _ (by omega)).mpr (by omega)⟩, dg]
    simp only [Arr.cut, window, westSide]
    simp only [Sl.span]
    congr 2 <;> omega

/-- The widths and heights of all cells, before corners are filled. -/
theorem C97_widths (S : Ops P R) (x0 y0 n0 n1 N0 N1 : Int) (on : OnTile) (X : Int → Int → P)
    (hx : Part 3 x0 n0 N0 on.left on.right) (hy : Part 3 y0 n1 N1 on.bottom on.top) :
    ∃ r, dxdyA S (window X 3 x0 y0 n0 n1 1 1) = .ok r ∧
      ∀ i j, 0 ≤ i → i < n0 + 6 → 0 ≤ j → j < n1 + 6 →
        r.1.get i j = cellWidth S X (x0 + i - 3) (y0 + j - 3) ∧ r.2.get i j = cellHeight S X (x0 + i - 3) (y0 + j - 3) := by
  have := hx.pos; have := hy.pos
  unfold dxdyA
  refine post_zip (n0 + 7) (n1 + 6) _ _ _ _ _ ?_ ?_ ?_
  · shp
  · shp
  intro yc y0' y1' yg
  refine post_seq _ _ _ _ (distI_post S yc (n0 + 6) (n1 + 6) ⟨by omega, y1'⟩ (by omega) (by omega)) ?_
  rintro c ⟨c0, c1, cg⟩
  refine post_zip (n0 + 6) (n1 + 7) _ _ _ _ _ ?_ ?_ ?_
  · shp
  · shp
  intro xc x0' x1' xg
  refine post_seq _ _ _ _ (distJ_post S xc (n0 + 6) (n1 + 6) ⟨x0', by omega⟩ (by omega) (by omega)) ?_
  rintro d ⟨d0, d1, dg⟩
  refine post_put _ _ _ _ _ _ ?_ ?_
  · shp
  intro dx dx0 dx1 dxg
  refine post_put _ _ _ _ _ _ ?_ ?_
  · shp
  intro dy dy0 dy1 dyg
  refine post_pure _ _ fun i j hi hi' hj hj' => ⟨?_, ?_⟩
  · show dx.get i j = _
    rw [dxg]
    simp only [Bool.and_eq_true, full_n0, full_n1, window_n0, window_n1]
    rw [if_pos ⟨(has_span _ _ _ _ (by omega)).mpr (by omega), (has_span _ _ _ _ (by omega)).mpr (by omega)⟩, cg, yg, yg]
    simp only [Arr.cut, window, cellWidth]
    simp only [Sl.span, Sl.from, Sl.all]
    congr 3 <;> omega
  · show dy.get i j = _
    rw [dyg]
    simp only [Bool.and_eq_true, full_n0, full_n1, window_n0, window_n1]
    rw [if_pos ⟨(has_span _ _ _ _ (by omega)).mpr (by omega), (has_span _ _ _ _ (by omega)).mpr (by omega)⟩, dg, xg, xg]
    simp only [Arr.cut, window, cellHeight]
    simp only [Sl.span, Sl.from, Sl.all]
    congr 3 <;> omega

/-- The areas of a rank's own cells; the ghost cells are marked. -/
theorem C97_area (S : Ops P R) (x0 y0 n0 n1 N0 N1 : Int) (on : OnTile) (X : Int → Int → P)
    (hx : Part 3 x0 n0 N0 on.left on.right) (hy : Part 3 y0 n1 N1 on.bottom on.top) :
    ∃ r, area S (window X 3 x0 y0 n0 n1 1 1) = .ok r ∧ r.n0 = n0 + 7 ∧ r.n1 = n1 + 7 ∧
      ∀ i j, r.get i j = if (3 ≤ i ∧ i < n0 + 3) ∧ 3 ≤ j ∧ j < n1 + 3 then cellArea S X (x0 + i - 3) (y0 + j - 3)
        else S.unset := by
  have := hx.pos; have := hy.pos
  unfold area
  have hv : ((window X 3 x0 y0 n0 n1 1 1).cut (Sl.span 3 3) (Sl.span 3 3)).n0 = n0 + 1 ∧
      ((window X 3 x0 y0 n0 n1 1 1).cut (Sl.span 3 3) (Sl.span 3 3)).n1 = n1 + 1 := by shp
  refine post_seq _ _ _ _ (getArea_post S _ n0 n1 hv (by omega) (by omega)) ?_
  rintro c ⟨c0, c1, cg⟩
  refine post_put' _ _ _ _ _ ?_ ?_
  · shp
  intro r r0 r1 rg
  refine ⟨r0.trans (by rw [full_n0, window_n0]; omega), r1.trans (by rw [full_n1, window_n1]; omega), fun i j => ?_⟩
  rw [rg]
  simp only [Bool.and_eq_true, full_n0, full_n1, window_n0, window_n1,
    has_span 3 4 _ _ (show (4 : Int) ≠ 0 by omega)]
  by_cases hc : (3 ≤ i ∧ i < n0 + 3) ∧ 3 ≤ j ∧ j < n1 + 3
  · rw [if_pos hc, if_pos (by omega), cg]
    simp only [Arr.cut, window, cellArea]
    simp only [Sl.span]
    congr 2 <;> omega
  · rw [if_neg hc, if_neg (by omega)]; rfl

theorem dxdyC0_post (S : Ops P R) (x0 y0 n0 n1 : Int) (A : Int → Int → P) (h0 : 1 ≤ n0) (h1 : 1 ≤ n1) :
    Post (dxdyC0 S (window A 3 x0 y0 n0 n1 1 1)) fun r => (r.1.n0 = n0 + 7 ∧ r.1.n1 = n1 + 7) ∧
      (r.2.n0 = n0 + 7 ∧ r.2.n1 = n1 + 7) ∧
      (∀ i j, 1 ≤ i → i < n0 + 6 → 0 ≤ j → j < n1 + 6 →
        r.1.get i j = S.dist (A (x0 + i - 3 - 1) (y0 + j - 3)) (A (x0 + i - 3) (y0 + j - 3))) ∧
      (∀ i j, 0 ≤ i → i < n0 + 6 → 1 ≤ j → j < n1 + 6 →
        r.2.get i j = S.dist (A (x0 + i - 3) (y0 + j - 3 - 1)) (A (x0 + i - 3) (y0 + j - 3))) := by
  unfold dxdyC0
  have hv : ((window A 3 x0 y0 n0 n1 1 1).cut (Sl.span 0 1) (Sl.span 0 1)).n0 = n0 + 6 ∧
      ((window A 3 x0 y0 n0 n1 1 1).cut (Sl.span 0 1) (Sl.span 0 1)).n1 = n1 + 6 := by shp
  refine post_seq _ _ _ _ (distI_post S _ (n0 + 5) (n1 + 6) (by omega) (by omega) (by omega)) ?_
  rintro c ⟨c0, c1, cg⟩
  refine post_seq _ _ _ _ (distJ_post S _ (n0 + 6) (n1 + 5) (by omega) (by omega) (by omega)) ?_
  rintro d ⟨d0, d1, dg⟩
  refine post_put _ _ _ _ _ _ ?_ ?_
  · shp
  intro u u0 u1 ug
  rw [full_n0, window_n0] at u0; rw [full_n1, window_n1] at u1
  refine post_put _ _ _ _ _ _ ?_ ?_
  · shp
  intro v v0 v1 vg
  refine post_put _ _ _ _ _ _ ?_ ?_
  · shp
  intro w w0 w1 wg
  refine post_put _ _ _ _ _ _ ?_ ?_
  · shp
  intro u' u'0 u'1 u'g
  rw [full_n0, window_n0] at u'0; rw [full_n1, window_n1] at u'1
  refine post_put _ _ _ _ _ _ ?_ ?_
  · shp
  intro v' v'0 v'1 v'g
  refine post_put _ _ _ _ _ _ ?_ ?_
  · shp
  intro w' w'0 w'1 w'g
  have s01 : ∀ n i, (Sl.span 0 1).has n i = true ↔ 0 ≤ i ∧ i < n - 1 := fun n i => has_span 0 1 n i (by omega)
  have s11 : ∀ n i, (Sl.span 1 1).has n i = true ↔ 1 ≤ i ∧ i < n - 1 := fun n i => has_span 1 1 n i (by omega)
  refine post_pure _ _ ⟨⟨by show w.n0 = _; omega, by show w.n1 = _; omega⟩, ⟨by show w'.n0 = _; omega, by show w'.n1 = _; omega⟩,
    fun i j hi hi' hj hj' => ?_, fun i j hi hi' hj hj' => ?_⟩
  · show w.get i j = _
    rw [wg, vg, ug]
    simp only [Bool.and_eq_true, has_one, s01, s11, full_n0, full_n1, window_n0, window_n1]
    rw [if_neg (by simp; omega), if_neg (by simp; omega), if_pos (by omega), cg]
    simp only [Arr.cut, window]
    simp only [Sl.span]
    congr 2 <;> omega
  · show w'.get i j = _
    rw [w'g, v'g, u'g]
    simp only [Bool.and_eq_true, has_one, s01, s11, full_n0, full_n1, window_n0, window_n1]
    rw [if_neg (by simp; omega), if_neg (by simp; omega), if_pos (by omega), dg]
    simp only [Arr.cut, window]
    simp only [Sl.span]
    congr 2 <;> omega

/-- The distances across the sides of a rank's own cells. -/
theorem C97_across (S : Ops P R) (x0 y0 n0 n1 N0 N1 : Int) (on : OnTile) (X A : Int → Int → P)
    (hx : Part 3 x0 n0 N0 on.left on.right) (hy : Part 3 y0 n1 N1 on.bottom on.top) :
    ∃ r, dxdyC S on (window X 3 x0 y0 n0 n1 1 1) (window A 3 x0 y0 n0 n1 1 1) = .ok r ∧
      (∀ i j, 3 ≤ i → i ≤ n0 + 3 → 3 ≤ j → j < n1 + 3 → r.1.get i j = acrossWest S N0 X A (x0 + i - 3) (y0 + j - 3)) ∧
      (∀ i j, 3 ≤ i → i < n0 + 3 → 3 ≤ j → j ≤ n1 + 3 → r.2.get i j = acrossSouth S N1 X A (x0 + i - 3) (y0 + j - 3)) := by
  have px := hx.pos; have py := hy.pos
  unfold dxdyC
  refine post_seq _ _ _ _ (dxdyC0_post S x0 y0 n0 n1 A px py) ?_
  rintro ⟨dx, dy⟩ ⟨⟨a0, a1⟩, ⟨b0, b1⟩, ag, bg⟩
  simp only at a0 a1 b0 b1 ag bg ⊢
  refine post_seq _ _ _ _ (borderDxc_post S on _ _ _ (n0 + 1) n1 ?_ ?_ ?_ (by omega) (by omega)) ?_
  · shp
  · shp
  · shp
  rintro v ⟨v0, v1, vg⟩
  refine post_put _ _ _ _ _ _ ?_ ?_
  · shp
  intro u u0 u1 ug
  refine post_seq _ _ _ _ (borderDyc_post S on _ _ _ n0 (n1 + 1) ?_ ?_ ?_ (by omega) (by omega)) ?_
  · shp
  · shp
  · shp
  rintro v' ⟨v'0, v'1, v'g⟩
  refine post_put _ _ _ _ _ _ ?_ ?_
  · shp
  intro u' u'0 u'1 u'g
  have s33 : ∀ n i, (Sl.span 3 3).has n i = true ↔ 3 ≤ i ∧ i < n - 3 := fun n i => has_span 3 3 n i (by omega)
  have s34 : ∀ n i, (Sl.span 3 4).has n i = true ↔ 3 ≤ i ∧ i < n - 4 := fun n i => has_span 3 4 n i (by omega)
  refine post_pure _ _ ⟨fun i j hi hi' hj hj' => ?_, fun i j hi hi' hj hj' => ?_⟩
  · show u.get i j = _
    rw [ug]
    simp only [Bool.and_eq_true, s33, s34]
    rw [if_pos (by omega)]
    have e1 := edge_first hx (i := i) (by omega)
    have e2 := edge_last hx (i := i) (by omega)
    rw [vg _ _ (by simp only [Sl.span]; omega) (by simp only [Sl.span]; omega) (by simp only [Sl.span]; omega)
      (by simp only [Sl.span]; omega)]
    have q1 : (on.right = true ∧ i - (Sl.span 3 3).start dx.n0 = n0 + 1 - 1) ↔ x0 + i - 3 = N0 := by
      rw [← e2]; simp only [Sl.span]; constructor <;> rintro ⟨h, h'⟩ <;> exact ⟨h, by omega⟩
    have q2 : (on.left = true ∧ i - (Sl.span 3 3).start dx.n0 = 0) ↔ x0 + i - 3 = 0 := by
      rw [← e1]; simp only [Sl.span]; constructor <;> rintro ⟨h, h'⟩ <;> exact ⟨h, by omega⟩
    have := hx.start; have := hx.inside
    unfold acrossWest
    by_cases c1 : x0 + i - 3 = N0
    · rw [if_pos (q1.mpr c1), if_neg (by omega), if_pos c1]
      have := e2.mpr c1
      simp only [Arr.cut, window]
      simp only [Sl.span]
      congr 3 <;> first | omega | (congr 1 <;> omega)
    · rw [if_neg (fun h => c1 (q1.mp h))]
      by_cases c2 : x0 + i - 3 = 0
      · rw [if_pos (q2.mpr c2), if_pos c2]
        have := e1.mpr c2
        simp only [Arr.cut, window]
        simp only [Sl.span]
        congr 3 <;> first | omega | (congr 1 <;> omega)
      · rw [if_neg (fun h => c2 (q2.mp h)), if_neg c2, if_neg c1]
        show dx.get _ _ = _
        simp only [Sl.span]
        rw [ag _ _ (by omega) (by omega) (by omega) (by omega)]
        congr 2 <;> omega
  · show u'.get i j = _
    rw [u'g]
    simp only [Bool.and_eq_true, s33, s34]
    rw [if_pos (by omega)]
    have e1 := edge_first hy (i := j) (by omega)
    have e2 := edge_last hy (i := j) (by omega)
    rw [v'g _ _ (by simp only [Sl.span]; omega) (by simp only [Sl.span]; omega) (by simp only [Sl.span]; omega)
      (by simp only [Sl.span]; omega)]
    have q1 : (on.top = true ∧ j - (Sl.span 3 3).start dy.n1 = n1 + 1 - 1) ↔ y0 + j - 3 = N1 := by
      rw [← e2]; simp only [Sl.span]; constructor <;> rintro ⟨h, h'⟩ <;> exact ⟨h, by omega⟩
    have q2 : (on.bottom = true ∧ j - (Sl.span 3 3).start dy.n1 = 0) ↔ y0 + j - 3 = 0 := by
      rw [← e1]; simp only [Sl.span]; constructor <;> rintro ⟨h, h'⟩ <;> exact ⟨h, by omega⟩
    have := hy.start; have := hy.inside
    unfold acrossSouth
    by_cases c2 : y0 + j - 3 = 0
    · rw [if_pos (q2.mpr c2), if_pos c2]
      have := e1.mpr c2
      simp only [Arr.cut, window]
      simp only [Sl.span]
      congr 3 <;> first | omega | (congr 1 <;> omega)
    · rw [if_neg (fun h => c2 (q2.mp h)), if_neg c2]
      by_cases c1 : y0 + j - 3 = N1
      · rw [if_pos (q1.mpr c1), if_pos c1]
        have := e2.mpr c1
        simp only [Arr.cut, window]
        simp only [Sl.span]
        congr 3 <;> first | omega | (congr 1 <;> omega)
      · rw [if_neg (fun h => c1 (q1.mp h)), if_neg c1]
        show dy.get _ _ = _
        simp only [Sl.span]
        rw [bg _ _ (by omega) (by omega) (by omega) (by omega)]
        congr 2 <;> omega

/-- A change of an array which touches at most the corners of the tile. -/
def CornersOnly (on : OnTile) (v w : Arr R) : Prop :=
  w.n0 = v.n0 ∧ w.n1 = v.n1 ∧ ∀ i j, ¬ (((on.left = true ∧ i = 0) ∨ (on.right = true ∧ i = v.n0 - 1)) ∧
    ((on.bottom = true ∧ j = 0) ∨ (on.top = true ∧ j = v.n1 - 1))) → w.get i j = v.get i j

theorem triangles_cornersOnly (S : Ops P R) (on : OnTile) (x : Arr P) (v : Arr R) : CornersOnly on v (triangles S on x v) := by
  have f0 : ∀ (a : Arr R) (s t : Sl) (c : R), (a.fill s t c).n0 = a.n0 := fun _ _ _ _ => rfl
  have f1 : ∀ (a : Arr R) (s t : Sl) (c : R), (a.fill s t c).n1 = a.n1 := fun _ _ _ _ => rfl
  have fg : ∀ (a : Arr R) (k l : Int) (c : R) (i j : Int),
      ¬ (i = (if k < 0 then a.n0 + k else k) ∧ j = (if l < 0 then a.n1 + l else l)) →
      (a.fill (Sl.one k) (Sl.one l) c).get i j = a.get i j := by
    intro a k l c i j h
    simp only [Arr.fill, Bool.and_eq_true, has_one]
    exact if_neg h
  obtain ⟨l, r, b, t⟩ := on
  refine ⟨?_, ?_, fun i j h => ?_⟩
  · cases l <;> cases r <;> cases b <;> cases t <;> rfl
  · cases l <;> cases r <;> cases b <;> cases t <;> rfl
  · cases l <;> cases r <;> cases b <;> cases t <;> simp [triangles] at h ⊢ <;>
      (repeat rw [fg]) <;> simp [f0, f1] <;> omega

theorem areaC_post (S : Ops P R) (x0 y0 n0 n1 N0 N1 : Int) (on : OnTile) (X A : Int → Int → P)
    (hx : Part 3 x0 n0 N0 on.left on.right) (hy : Part 3 y0 n1 N1 on.bottom on.top) (corners : Arr P → Arr R → Arr R)
    (hc : ∀ x v, CornersOnly on v (corners x v)) :
    Post (areaC S on corners (window X 3 x0 y0 n0 n1 1 1) (window A 3 x0 y0 n0 n1 1 1)) fun r =>
      r.n0 = n0 + 7 ∧ r.n1 = n1 + 7 ∧ ∀ i j, r.get i j =
        if (3 ≤ i ∧ i ≤ n0 + 3) ∧ 3 ≤ j ∧ j ≤ n1 + 3 then cornerArea S N0 N1 X A (x0 + i - 3) (y0 + j - 3) else S.zero := by
  have px := hx.pos; have py := hy.pos
  unfold areaC
  have hv : ((window A 3 x0 y0 n0 n1 1 1).cut (Sl.span 2 3) (Sl.span 2 3)).n0 = n0 + 2 ∧
      ((window A 3 x0 y0 n0 n1 1 1).cut (Sl.span 2 3) (Sl.span 2 3)).n1 = n1 + 2 := by shp
  refine post_seq _ _ _ _ (getArea_post S _ (n0 + 1) (n1 + 1) (by omega) (by omega) (by omega)) ?_
  rintro c ⟨c0, c1, cg⟩
  refine post_put _ _ _ _ _ _ ?_ ?_
  · shp
  intro ar ar0 ar1 arg
  rw [full_n0, window_n0] at ar0; rw [full_n1, window_n1] at ar1
  simp only
  obtain ⟨k0, k1, kg⟩ := hc ((window A 3 x0 y0 n0 n1 1 1).cut (Sl.span 2 3) (Sl.span 2 3)) (ar.cut (Sl.span 3 3) (Sl.span 3 3))
  have av : (ar.cut (Sl.span 3 3) (Sl.span 3 3)).n0 = n0 + 1 ∧ (ar.cut (Sl.span 3 3) (Sl.span 3 3)).n1 = n1 + 1 := by shp
  refine post_seq _ _ _ _ (borderArea_post S on _ _ _ (n0 + 1) (n1 + 1) ?_ ?_ ?_ (by omega) (by omega)) ?_
  · omega
  · shp
  · shp
  rintro w ⟨w0, w1, wg⟩
  refine post_put' _ _ _ _ _ ?_ ?_
  · shp
  intro r r0 r1 rg
  refine ⟨by omega, by omega, fun i j => ?_⟩
  have s33 : ∀ n i, (Sl.span 3 3).has n i = true ↔ 3 ≤ i ∧ i < n - 3 := fun n i => has_span 3 3 n i (by omega)
  rw [rg]
  simp only [Bool.and_eq_true, s33]
  by_cases hin : (3 ≤ i ∧ i ≤ n0 + 3) ∧ 3 ≤ j ∧ j ≤ n1 + 3
  swap
  · rw [if_neg (by omega), if_neg hin, arg]
    simp only [Bool.and_eq_true, s33, full_n0, full_n1, window_n0, window_n1]
    rw [if_neg (by omega)]; rfl
  rw [if_pos (by omega), if_pos hin]
  obtain ⟨⟨hi, hi'⟩, hj, hj'⟩ := hin
  have e1 := edge_first hx (i := i) (by omega)
  have e2 := edge_last hx (i := i) (by omega)
  have e3 := edge_first hy (i := j) (by omega)
  have e4 := edge_last hy (i := j) (by omega)
  have si : i - (Sl.span 3 3).start ar.n0 = i - 3 := rfl
  have sj : j - (Sl.span 3 3).start ar.n1 = j - 3 := rfl
  rw [si, sj, wg _ _ (by omega) (by omega) (by omega) (by omega)]
  have q1 : (on.left = true ∧ i - 3 = 0) ↔ x0 + i - 3 = 0 := by
    rw [← e1]; constructor <;> rintro ⟨h, h'⟩ <;> exact ⟨h, by omega⟩
  have q2 : (on.right = true ∧ i - 3 = n0 + 1 - 1) ↔ x0 + i - 3 = N0 := by
    rw [← e2]; constructor <;> rintro ⟨h, h'⟩ <;> exact ⟨h, by omega⟩
  have q3 : (on.bottom = true ∧ j - 3 = 0) ↔ y0 + j - 3 = 0 := by
    rw [← e3]; constructor <;> rintro ⟨h, h'⟩ <;> exact ⟨h, by omega⟩
  have q4 : (on.top = true ∧ j - 3 = n1 + 1 - 1) ↔ y0 + j - 3 = N1 := by
    rw [← e4]; constructor <;> rintro ⟨h, h'⟩ <;> exact ⟨h, by omega⟩
  unfold cornerArea
  by_cases d3 : y0 + j - 3 = 0
  · rw [if_pos (q3.mpr d3), if_pos d3]
    have := e3.mpr d3
    simp only [Arr.cut, window, edgeAreaJ]
    simp only [Sl.span]
    congr 3 <;> first | omega | (congr 1 <;> omega)
  rw [if_neg (fun h => d3 (q3.mp h)), if_neg d3]
  by_cases d2 : x0 + i - 3 = N0
  · rw [if_pos (q2.mpr d2), if_pos d2]
    have := e2.mpr d2
    simp only [Arr.cut, window, edgeAreaI]
    simp only [Sl.span]
    congr 3 <;> first | omega | (congr 1 <;> omega)
  rw [if_neg (fun h => d2 (q2.mp h)), if_neg d2]
  by_cases d4 : y0 + j - 3 = N1
  · rw [if_pos (q4.mpr d4), if_pos d4]
    have := e4.mpr d4
    simp only [Arr.cut, window, edgeAreaJ]
    simp only [Sl.span]
    congr 3 <;> first | omega | (congr 1 <;> omega)
  rw [if_neg (fun h => d4 (q4.mp h)), if_neg d4]
  by_cases d1 : x0 + i - 3 = 0
  · rw [if_pos (q1.mpr d1), if_pos d1]
    have := e1.mpr d1
    simp only [Arr.cut, window, edgeAreaI]
    simp only [Sl.span]
    congr 3 <;> first | omega | (congr 1 <;> omega)
  rw [if_neg (fun h => d1 (q1.mp h)), if_neg d1, kg]
  · show ar.get (3 + (i - 3)) (3 + (j - 3)) = _
    rw [arg]
    simp only [Bool.and_eq_true, s33, full_n0, full_n1, window_n0, window_n1]
    rw [if_pos (by omega), cg]
    simp only [Arr.cut, window, cellArea]
    simp only [Sl.span]
    congr 2 <;> omega
  · rw [av.1, av.2]
    rintro ⟨h | h, -⟩
    · exact d1 (q1.mp h)
    · exact d2 (q2.mp h)

/-- The areas around the corners of a rank's own cells, its last lines included. -/
theorem C97_corner_area (S : Ops P R) (x0 y0 n0 n1 N0 N1 : Int) (on : OnTile) (X A : Int → Int → P)
    (hx : Part 3 x0 n0 N0 on.left on.right) (hy : Part 3 y0 n1 N1 on.bottom on.top) :
    ∃ r, areaC S on (triangles S on) (window X 3 x0 y0 n0 n1 1 1) (window A 3 x0 y0 n0 n1 1 1) = .ok r ∧
      r.n0 = n0 + 7 ∧ r.n1 = n1 + 7 ∧ ∀ i j, r.get i j =
        if (3 ≤ i ∧ i ≤ n0 + 3) ∧ 3 ≤ j ∧ j ≤ n1 + 3 then cornerArea S N0 N1 X A (x0 + i - 3) (y0 + j - 3) else S.zero :=
  areaC_post S x0 y0 n0 n1 N0 N1 on X A hx hy _ (triangles_cornersOnly S on)

/-- The triangles make no difference (a question asked in the code): without them every value is the same. -/
theorem C97_triangles (S : Ops P R) (x0 y0 n0 n1 N0 N1 : Int) (on : OnTile) (X A : Int → Int → P)
    (hx : Part 3 x0 n0 N0 on.left on.right) (hy : Part 3 y0 n1 N1 on.bottom on.top) :
    areaC S on (triangles S on) (window X 3 x0 y0 n0 n1 1 1) (window A 3 x0 y0 n0 n1 1 1) =
      areaC S on (fun _ v => v) (window X 3 x0 y0 n0 n1 1 1) (window A 3 x0 y0 n0 n1 1 1) := by
  obtain ⟨⟨r0, r1, rg⟩, hr, h0, h1, hg⟩ :=
    areaC_post S x0 y0 n0 n1 N0 N1 on X A hx hy _ (triangles_cornersOnly S on)
  obtain ⟨⟨s0, s1, sg⟩, hs, k0, k1, kg⟩ :=
    areaC_post S x0 y0 n0 n1 N0 N1 on X A hx hy (fun _ v => v) (fun _ _ => ⟨rfl, rfl, fun _ _ _ => rfl⟩)
  rw [hr, hs]
  simp only at h0 h1 hg k0 k1 kg
  have : rg = sg := by funext i j; rw [hg, kg]
  rw [h0, h1, k0, k1, this]

/-- Two ranks of a tile, on a line which both hold, have the same area. -/
theorem C97_shared (S : Ops P R) (x0 y0 n0 n1 x0' y0' n0' n1' N0 N1 : Int) (on on' : OnTile) (X A : Int → Int → P)
    (hx : Part 3 x0 n0 N0 on.left on.right) (hy : Part 3 y0 n1 N1 on.bottom on.top)
    (hx' : Part 3 x0' n0' N0 on'.left on'.right) (hy' : Part 3 y0' n1' N1 on'.bottom on'.top) :
    ∃ r r', areaC S on (triangles S on) (window X 3 x0 y0 n0 n1 1 1) (window A 3 x0 y0 n0 n1 1 1) = .ok r ∧
      areaC S on' (triangles S on') (window X 3 x0' y0' n0' n1' 1 1) (window A 3 x0' y0' n0' n1' 1 1) = .ok r' ∧
      ∀ I J, x0 ≤ I → I ≤ x0 + n0 → x0' ≤ I → I ≤ x0' + n0' → y0 ≤ J → J ≤ y0 + n1 → y0' ≤ J → J ≤ y0' + n1' →
        r.get (I - x0 + 3) (J - y0 + 3) = r'.get (I - x0' + 3) (J - y0' + 3) := by
  obtain ⟨r, hr, -, -, hg⟩ := C97_corner_area S x0 y0 n0 n1 N0 N1 on X A hx hy
  obtain ⟨r', hr', -, -, hg'⟩ := C97_corner_area S x0' y0' n0' n1' N0 N1 on' X A hx' hy'
  refine ⟨r, r', hr, hr', fun I J a1 a2 a3 a4 b1 b2 b3 b4 => ?_⟩
  rw [hg, hg', if_pos (by omega), if_pos (by omega)]
  congr 1 <;> omega

/-! ### Extremes -/

/-- A rank: its tile and its part of it. -/
structure RankPart where
  tile : Nat
  x0 : Int
  y0 : Int
  n0 : Int
  n1 : Int

/-- The ranks' parts lie in their tiles of `N0` by `N1` cells and cover all `T` of them. -/
structure Covers (T : Nat) (N0 N1 : Int) (ranks : List RankPart) : Prop where
  inside : ∀ r ∈ ranks, r.tile < T ∧ 0 ≤ r.x0 ∧ 0 ≤ r.y0 ∧ r.x0 + r.n0 ≤ N0 ∧ r.y0 + r.n1 ≤ N1
  covered : ∀ t I J, t < T → 0 ≤ I → I < N0 → 0 ≤ J → J < N1 →
    ∃ r ∈ ranks, r.tile = t ∧ r.x0 ≤ I ∧ I < r.x0 + r.n0 ∧ r.y0 ≤ J ∧ J < r.y0 + r.n1

/-- A rank's array holds the field `F` of its tile on its own cells. -/
def Holds (F : Nat → Int → Int → R) (p : RankPart) (a : Arr R) : Prop :=
  a.n0 = p.n0 + 7 ∧ a.n1 = p.n1 + 7 ∧ ∀ i j, 3 ≤ i → i < p.n0 + 3 → 3 ≤ j → j < p.n1 + 3 →
    a.get i j = F p.tile (p.x0 + i - 3) (p.y0 + j - 3)

theorem mem_values (a : Arr R) (y : R) : y ∈ values a ↔ ∃ i j, 0 ≤ i ∧ i < a.n0 ∧ 0 ≤ j ∧ j < a.n1 ∧ y = a.get i j := by
  unfold values
  simp only [List.mem_flatMap, List.mem_range, List.mem_map]
  constructor
  · rintro ⟨i, hi, j, hj, rfl⟩
    exact ⟨Int.ofNat i, Int.ofNat j, Int.natCast_nonneg _, by simp only [Int.ofNat_eq_natCast]; omega,
      Int.natCast_nonneg _, by simp only [Int.ofNat_eq_natCast]; omega, rfl⟩
  · rintro ⟨i, j, h1, h2, h3, h4, rfl⟩
    refine ⟨i.toNat, by omega, j.toNat, by omega, ?_⟩
    simp only [Int.ofNat_eq_natCast, Int.toNat_of_nonneg h1, Int.toNat_of_nonneg h3]

theorem mem_own (F : Nat → Int → Int → R) (p : RankPart) (a : Arr R) (h : Holds F p a) (y : R) :
    y ∈ values (a.cut (Sl.span 3 4) (Sl.span 3 4)) ↔ ∃ I J, p.x0 ≤ I ∧ I < p.x0 + p.n0 ∧ p.y0 ≤ J ∧ J < p.y0 + p.n1 ∧
      y = F p.tile I J := by
  obtain ⟨h0, h1, hg⟩ := h
  rw [mem_values]
  have l : ∀ n m : Int, n = m + 7 → (Sl.span 3 4).len n = max 0 m := by
    intro n m hn
    simp only [Sl.len, Sl.span]
    rw [if_neg (by omega), hn]; congr 1; omega
  simp only [cut_n0, cut_n1, l _ _ h0, l _ _ h1]
  constructor
  · rintro ⟨i, j, a1, a2, a3, a4, rfl⟩
    refine ⟨p.x0 + i, p.y0 + j, by omega, by omega, by omega, by omega, ?_⟩
    show a.get (3 + i) (3 + j) = _
    rw [hg _ _ (by omega) (by omega) (by omega) (by omega)]; congr 1 <;> omega
  · rintro ⟨I, J, a1, a2, a3, a4, rfl⟩
    refine ⟨I - p.x0, J - p.y0, by omega, by omega, by omega, by omega, ?_⟩
    show _ = a.get (3 + (I - p.x0)) (3 + (J - p.y0))
    rw [hg _ _ (by omega) (by omega) (by omega) (by omega)]; congr 1 <;> omega

theorem foldl_min [LinearOrder R] (l : List R) (x : R) :
    l.foldl min x ∈ x :: l ∧ ∀ y ∈ x :: l, l.foldl min x ≤ y := by
  induction l generalizing x with
  | nil => exact ⟨List.mem_singleton.mpr rfl, fun y hy => le_of_eq (List.mem_singleton.mp hy).symm⟩
  | cons z l ih =>
    obtain ⟨h1, h2⟩ := ih (min x z)
    refine ⟨?_, fun y hy => ?_⟩
    · rcases List.mem_cons.mp h1 with h | h
      · rw [List.foldl_cons, h]
        rcases min_choice x z with hm | hm <;> rw [hm] <;> simp
      · exact List.mem_cons_of_mem _ (List.mem_cons_of_mem _ h)
    · have hb : (z :: l).foldl min x ≤ min x z := h2 _ (List.mem_cons_self ..)
      rcases List.mem_cons.mp hy with rfl | hy
      · exact le_trans hb (min_le_left _ _)
      · rcases List.mem_cons.mp hy with rfl | hy
        · exact le_trans hb (min_le_right _ _)
        · exact h2 y (List.mem_cons_of_mem _ hy)

theorem foldl_max [LinearOrder R] (l : List R) (x : R) :
    l.foldl max x ∈ x :: l ∧ ∀ y ∈ x :: l, y ≤ l.foldl max x := foldl_min (R := Rᵒᵈ) l x

theorem mem_all (T : Nat) (N0 N1 : Int) (ranks : List (RankPart × Arr R)) (F : Nat → Int → Int → R)
    (hc : Covers T N0 N1 (ranks.map (·.1))) (hF : ∀ r ∈ ranks, Holds F r.1 r.2) (y : R) :
    y ∈ (ranks.map (·.2)).flatMap (fun a => values (a.cut (Sl.span 3 4) (Sl.span 3 4))) ↔
      ∃ t I J, t < T ∧ 0 ≤ I ∧ I < N0 ∧ 0 ≤ J ∧ J < N1 ∧ y = F t I J := by
  simp only [List.mem_flatMap, List.mem_map]
  constructor
  · rintro ⟨_, ⟨r, hr, rfl⟩, hy⟩
    obtain ⟨I, J, a1, a2, a3, a4, rfl⟩ := (mem_own F r.1 r.2 (hF r hr) y).mp hy
    obtain ⟨b0, b1, b2, b3, b4⟩ := hc.inside r.1 (List.mem_map_of_mem hr)
    exact ⟨r.1.tile, I, J, b0, by omega, by omega, by omega, by omega, rfl⟩
  · rintro ⟨t, I, J, a0, a1, a2, a3, a4, rfl⟩
    obtain ⟨p, hp, rfl, b1, b2, b3, b4⟩ := hc.covered t I J a0 a1 a2 a3 a4
    obtain ⟨r, hr, rfl⟩ := List.mem_map.mp hp
    exact ⟨r.2, ⟨r, hr, rfl⟩, (mem_own F r.1 r.2 (hF r hr) _).mpr ⟨I, J, b1, b2, b3, b4, rfl⟩⟩

/-- The smallest and the largest value over all ranks are those of the whole field at the points `(I, J)` with `I < N0`
and `J < N1`, for any decomposition. -/
theorem C97_extremes [LinearOrder R] (T : Nat) (N0 N1 : Int) (hT : 0 < T) (h0 : 0 < N0) (h1 : 0 < N1)
    (ranks : List (RankPart × Arr R)) (F : Nat → Int → Int → R) (hc : Covers T N0 N1 (ranks.map (·.1)))
    (hF : ∀ r ∈ ranks, Holds F r.1 r.2) :
    (∃ t I J, (t < T ∧ 0 ≤ I ∧ I < N0 ∧ 0 ≤ J ∧ J < N1) ∧ reduceAll min (ranks.map (·.2)) = some (F t I J) ∧
      ∀ t' I' J', t' < T → 0 ≤ I' → I' < N0 → 0 ≤ J' → J' < N1 → F t I J ≤ F t' I' J') ∧
    (∃ t I J, (t < T ∧ 0 ≤ I ∧ I < N0 ∧ 0 ≤ J ∧ J < N1) ∧ reduceAll max (ranks.map (·.2)) = some (F t I J) ∧
      ∀ t' I' J', t' < T → 0 ≤ I' → I' < N0 → 0 ≤ J' → J' < N1 → F t' I' J' ≤ F t I J) := by
  have hm := mem_all T N0 N1 ranks F hc hF
  unfold reduceAll
  simp only
  generalize (ranks.map (·.2)).flatMap (fun a => values (a.cut (Sl.span 3 4) (Sl.span 3 4))) = l at hm ⊢
  cases l with
  | nil => exact absurd ((hm (F 0 0 0)).mpr ⟨0, 0, 0, hT, le_refl _, h0, le_refl _, h1, rfl⟩) (List.not_mem_nil)
  | cons x l =>
    constructor
    · obtain ⟨a, b⟩ := foldl_min l x
      obtain ⟨t, I, J, c0, c1, c2, c3, c4, e⟩ := (hm _).mp a
      refine ⟨t, I, J, ⟨c0, c1, c2, c3, c4⟩, congrArg some e, fun t' I' J' d0 d1 d2 d3 d4 => ?_⟩
      rw [← e]; exact b _ ((hm _).mpr ⟨t', I', J', d0, d1, d2, d3, d4, rfl⟩)
    · obtain ⟨a, b⟩ := foldl_max l x
      obtain ⟨t, I, J, c0, c1, c2, c3, c4, e⟩ := (hm _).mp a
      refine ⟨t, I, J, ⟨c0, c1, c2, c3, c4⟩, congrArg some e, fun t' I' J' d0 d1 d2 d3 d4 => ?_⟩
      rw [← e]; exact b _ ((hm _).mpr ⟨t', I', J', d0, d1, d2, d3, d4, rfl⟩)

/-! ### Concrete cases -/

/-- Positions are pairs of numbers; areas and lengths are sums that tell the points apart. -/
def opsZ : Ops (Int × Int) Int :=
  ⟨fun p q r s => 1000 - (p.1 + q.1 + r.1 + s.1) + 10 * (p.2 + 2 * q.2 + 3 * r.2 + 4 * s.2), fun p q r => p.1 + q.1 * r.2,
   fun p q => (q.1 - p.1) + 7 * (q.2 - p.2), fun p q => (p.1 + q.1, p.2 + q.2), fun p q => (p.1 + q.1, p.2 + q.2),
   fun p q r s => (p.1 + q.1 + r.1 + s.1, p.2 + q.2 + r.2 + s.2), fun x => 2 * x, 0, -1⟩

/-- The hypotheses are met: the parts of a tile of 8 by 8 cells on 2 by 2 ranks. -/
example : Part 3 0 4 8 true false ∧ Part 3 4 4 8 false true ∧
    Covers 1 8 8 [⟨0, 0, 0, 4, 4⟩, ⟨0, 4, 0, 4, 4⟩, ⟨0, 0, 4, 4, 4⟩, ⟨0, 4, 4, 4, 4⟩] := by
  refine ⟨⟨by omega, by omega, by omega, by omega, by simp, by simp, by simp, by simp⟩,
    ⟨by omega, by omega, by omega, by omega, by simp, by simp, by simp, by simp⟩, ⟨?_, ?_⟩⟩
  · intro r hr; fin_cases hr <;> simp
  · intro t I J h0 h1 h2 h3 h4
    have : t = 0 := by omega
    subst this
    by_cases a : I < 4 <;> by_cases b : J < 4
    · exact ⟨⟨0, 0, 0, 4, 4⟩, by simp, rfl, by simp; omega⟩
    · exact ⟨⟨0, 0, 4, 4, 4⟩, by simp, rfl, by simp; omega⟩
    · exact ⟨⟨0, 4, 0, 4, 4⟩, by simp, rfl, by simp; omega⟩
    · exact ⟨⟨0, 4, 4, 4, 4⟩, by simp, rfl, by simp; omega⟩

def grid3 : Arr (Int × Int) := window (fun I J => (I, J)) 3 0 0 3 3 1 1
def area3 : Arr Int := match areaC opsZ ⟨true, true, true, true⟩ (triangles opsZ ⟨true, true, true, true⟩) grid3 grid3 with
  | .ok r => r
  | .error _ => full 0 0 0

/-- The extremes of the areas around corners leave out the last line of corners of a tile: the largest of the areas that
the only rank of this tile computes is not the reported one. -/
theorem C97_extremes_violated :
    reduceAll max [area3] = some 2620 ∧ area3.get 6 6 = 2888 := by decide +kernel

end NDSL.Sizes
