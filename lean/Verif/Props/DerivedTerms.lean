import Verif.Lemmas.DerivedTerms
/-
C94: arrays derived from the positions of grid points do not depend on the decomposition.
-/
namespace NDSL.Deriv

variable {P R : Type}

/-- **C94**, centres of cells: every rank finds, for every cell in its array, the unit vectors which the same formulas
give on the whole tile; beyond the tile's corners they are the mark for undefined values. -/
theorem C94_centre (G : Geo P) (gridType h x0 y0 n0 n1 N0 N1 : Int) (on : OnTile) (X : Int → Int → P)
    (hx : Part h x0 n0 N0 on.left on.right) (hy : Part h y0 n1 N1 on.bottom on.top) (hg : gridType < 3) :
    ∃ r, centerVector G gridType h on (window X h x0 y0 n0 n1 1 1) = .ok r ∧
      (r.1.n0 = n0 + 2 * h ∧ r.1.n1 = n1 + 2 * h ∧ r.2.n0 = n0 + 2 * h ∧ r.2.n1 = n1 + 2 * h) ∧
      ∀ i j, 0 ≤ i → i < n0 + 2 * h → 0 ≤ j → j < n1 + 2 * h →
        r.1.get i j = (if BeyondCorner N0 N1 (x0 + i - h) (y0 + j - h) then G.big
          else centre1 G X (x0 + i - h) (y0 + j - h)) ∧
        r.2.get i j = (if BeyondCorner N0 N1 (x0 + i - h) (y0 + j - h) then G.big
          else centre2 G X (x0 + i - h) (y0 + j - h)) := by
  have := hx.halo; have := hx.pos; have := hy.pos
  unfold centerVector
  rw [if_pos hg]
  show Post _ _
  zstep (n0 + 2 * h) (n1 + 2 * h)
  intro s s0 s1 sg
  zstep (n0 + 2 * h) (n1 + 2 * h)
  intro n k0 k1 ng
  zstep (n0 + 2 * h) (n1 + 2 * h)
  intro c c0 c1 cg
  zstep (n0 + 2 * h) (n1 + 2 * h)
  intro p1 p10 p11 p1g
  zstep (n0 + 2 * h) (n1 + 2 * h)
  intro p2 p20 p21 p2g
  zstep (n0 + 2 * h) (n1 + 2 * h)
  intro p3 p30 p31 p3g
  zstep (n0 + 2 * h) (n1 + 2 * h)
  intro v1 v10 v11 v1g
  zstep (n0 + 2 * h) (n1 + 2 * h)
  intro q1 q10 q11 q1g
  zstep (n0 + 2 * h) (n1 + 2 * h)
  intro q2 q20 q21 q2g
  zstep (n0 + 2 * h) (n1 + 2 * h)
  intro q3 q30 q31 q3g
  zstep (n0 + 2 * h) (n1 + 2 * h)
  intro v2 v20 v21 v2g
  apply post_pure
  refine ⟨⟨(fillHaloCorners_n0 _ _ _ _).trans v10, (fillHaloCorners_n1 _ _ _ _).trans v11,
    (fillHaloCorners_n0 _ _ _ _).trans v20, (fillHaloCorners_n1 _ _ _ _).trans v21⟩, ?_⟩
  intro i j hi hi' hj hj'
  have e0 := corner_cells hx 0 (by omega) hi (by omega) (by omega)
  have e1 := corner_cells hy 0 (by omega) hj (by omega) (by omega)
  simp only [Int.add_zero] at e0 e1
  constructor
  · rw [fillHaloCorners_get _ _ _ _ _ _ hi (by simpa [Arr.map, v10] using hi') hj (by simpa [Arr.map, v11] using hj')]
    simp only [Arr.map, v10, v11, e0, e1, v1g, cg, p3g, p2g, p1g, sg, ng]
    simp only [Arr.cut, window, Sl.span, Sl.from, centre1]
    ring_nf
  · rw [fillHaloCorners_get _ _ _ _ _ _ hi (by simpa [Arr.map, v20] using hi') hj (by simpa [Arr.map, v21] using hj')]
    simp only [Arr.map, v20, v21, e0, e1, v2g, cg, q3g, q2g, q1g, sg, ng]
    simp only [Arr.cut, window, Sl.span, Sl.from, centre2]
    ring_nf


set_option maxHeartbeats 1000000 in
/-- **C94**, west sides: every rank finds the unit vectors which the same formulas give on the whole tile, where the
middle of a side on the tile's edge takes the place of the ghost cell's centre, on all sides except for the outermost. -/
theorem C94_west (G : Geo P) (gridType h x0 y0 n0 n1 N0 N1 : Int) (on : OnTile) (X A : Int → Int → P)
    (hx : Part h x0 n0 N0 on.left on.right) (hy : Part h y0 n1 N1 on.bottom on.top) (hg : gridType < 3) :
    ∃ r, westVector G gridType h on (window X h x0 y0 n0 n1 1 1) (window A h x0 y0 n0 n1 0 0) = .ok r ∧
      (r.1.n0 = n0 + 2 * h - 1 ∧ r.1.n1 = n1 + 2 * h ∧ r.2.n0 = n0 + 2 * h - 1 ∧ r.2.n1 = n1 + 2 * h) ∧
      ∀ i j, 0 ≤ i → i < n0 + 2 * h - 1 → 0 ≤ j → j < n1 + 2 * h →
        r.1.get i j = (if BeyondCornerI N0 N1 (x0 + (i + 1) - h) (y0 + j - h) then G.zero
          else west1 G N0 X A (x0 + (i + 1) - h) (y0 + j - h)) ∧
        r.2.get i j = (if BeyondCornerI N0 N1 (x0 + (i + 1) - h) (y0 + j - h) then G.zero
          else alongSide G (X (x0 + (i + 1) - h) (y0 + j - h)) (X (x0 + (i + 1) - h) (y0 + j - h + 1))) := by
  have := hx.halo; have := hx.pos; have := hy.pos
  unfold westVector
  simp only
  rw [if_pos hg]
  show Post _ _
  zstep (n0 + 2 * h - 1) (n1 + 2 * h)
  intro pp pp0 pp1 ppg
  zstep (n0 + 2 * h - 1) (n1 + 2 * h)
  intro a a0 a1 ag
  rowstep
  intro b b0 b1 bg
  rowstep
  intro c c0 c1 cg
  zstep (n0 + 2 * h - 1) (n1 + 2 * h)
  intro d d0 d1 dg
  ostep
  intro e e0 e1 eg
  zstep (n0 + 2 * h - 1) (n1 + 2 * h)
  intro p p0 p1 pg
  zstep (n0 + 2 * h - 1) (n1 + 2 * h)
  intro q q0 q1 qg
  ostep
  intro f f0 f1 fg
  apply post_pure
  have s1 : (Sl.span 1 1).len (n0 + 2 * h + 1) = n0 + 2 * h - 1 := by shapes
  have s2 : Sl.all.len (n1 + 2 * h) = n1 + 2 * h := by shapes
  have e0' : e.n0 = n0 + 2 * h + 1 := e0
  have e1' : e.n1 = n1 + 2 * h := by rw [e1]; simp [full, window]
  have f0' : f.n0 = n0 + 2 * h + 1 := f0
  have f1' : f.n1 = n1 + 2 * h := by rw [f1]; simp [full, window]
  refine ⟨by simp only [Arr.cut, fillHaloCorners_n0, fillHaloCorners_n1, e0', e1', f0', f1', s1, s2, true_and], ?_⟩
  have x1 : ix a.n0 (h - 1) = h - 1 := ix_nonneg _ _ (by omega)
  have x2 : ix pp.n0 (h - 1) = h - 1 := ix_nonneg _ _ (by omega)
  have x3 : ix (window A h x0 y0 n0 n1 0 0).n0 h = h := ix_nonneg _ _ (by omega)
  have x4 : ix b.n0 (-h) = n0 + h - 1 := by rw [ix_neg _ _ (by omega)]; omega
  have x5 : ix pp.n0 (-h) = n0 + h - 1 := by rw [ix_neg _ _ (by omega)]; omega
  have x6 : ix (window A h x0 y0 n0 n1 0 0).n0 (-h - 1) = n0 + h - 1 := by
    rw [ix_neg _ _ (by omega), window_n0]; omega
  intro i j hi hi' hj hj'
  have z : ((Sl.span 1 1).has (n0 + 2 * h + 1) (i + 1) && Sl.all.has (n1 + 2 * h) j) = true := by
    rw [Bool.and_eq_true, has_span _ _ _ _ (by omega), has_all]; omega
  have hC : (x0 + (i + 1) - h < 0 ∨ N0 + 1 ≤ x0 + (i + 1) - h) ∧ (y0 + j - h < 0 ∨ N1 ≤ y0 + j - h) ↔
      BeyondCornerI N0 N1 (x0 + (i + 1) - h) (y0 + j - h) := Iff.rfl
  have hN : x0 + (i + 1) - h = 0 → ¬ (x0 + (i + 1) - h = N0) := by
    have := hx.inside; have := hx.start; omega
  have t1 : i = h - 1 ↔ i + 1 = h := by omega
  have t2 : i = n0 + h - 1 ↔ i + 1 = n0 + h := by omega
  have z0 := corner_cells hx 1 (by omega) (i := i + 1) (by omega) (by omega) (by omega)
  have z1 := corner_cells hy 0 (by omega) hj (by omega) (by omega)
  simp only [Int.add_zero] at z1
  have k1 := edge_first hx (i := i + 1) (by omega)
  have k2 := edge_last hx (i := i + 1) (by omega)
  simp only [Arr.cut, Sl.span, Sl.all, Int.zero_add, Int.add_comm 1 i]
  rw [fillHaloCorners_get _ _ _ _ _ _ (by omega) (by omega) hj (by omega),
    fillHaloCorners_get _ _ _ _ _ _ (by omega) (by omega) hj (by omega), e0', e1', f0', f1']
  simp only [z0, z1]
  have eg' := eg (i + 1) j
  have fg' := fg (i + 1) j
  simp only [full, window, Int.add_zero, z, if_true] at eg' fg'
  simp only [Sl.span, Sl.all, Int.add_sub_cancel, Int.sub_zero, Arr.map] at eg' fg'
  have hcg := cg i j hj (by omega)
  have hbg := bg i j hj (by omega)
  rw [eg', fg', dg, qg, pg, hcg, hbg, ag, ppg]
  rw [x1, x2, x3, x4, x5, x6, ppg, ppg]
  have k1' : on.left = true ∧ i = h - 1 ↔ x0 + (i + 1) - h = 0 := by rw [t1]; exact k1
  have k2' : on.right = true ∧ i = n0 + h - 1 ↔ x0 + (i + 1) - h = N0 := by rw [t2]; exact k2
  have i1 : x0 + (i + 1) - h = 0 → i = h - 1 := fun h => (k1'.mpr h).2
  have i2 : x0 + (i + 1) - h = N0 → i = n0 + h - 1 := fun h => (k2'.mpr h).2
  clear eg fg cg bg ag pg qg dg eg' fg' hcg hbg
  refine ⟨if_congr hC rfl ?_, if_congr hC rfl ?_⟩
  · unfold west1 across
    by_cases g1 : x0 + (i + 1) - h = 0
    · simp only [if_neg (mt k2'.mp (hN g1)), if_pos (k1'.mpr g1), if_pos g1, if_neg (hN g1)]
      have := i1 g1
      subst this
      simp only [Arr.cut, window, Sl.span, Sl.from, Sl.all]
      ring_nf
    · simp only [if_neg (mt k1'.mp g1), if_neg g1]
      by_cases g2 : x0 + (i + 1) - h = N0
      · simp only [if_pos (k2'.mpr g2), if_pos g2]
        have := i2 g2
        subst this
        simp only [Arr.cut, window, Sl.span, Sl.from, Sl.all]
        ring_nf
      · simp only [if_neg (mt k2'.mp g2), if_neg g2]
        simp only [Arr.cut, window, Sl.span, Sl.from, Sl.all]
        ring_nf
  · unfold alongSide
    simp only [Arr.cut, window, Sl.span, Sl.from, Sl.all]
    ring_nf

set_option maxHeartbeats 1000000 in
/-- **C94**, south sides. -/
theorem C94_south (G : Geo P) (gridType h x0 y0 n0 n1 N0 N1 : Int) (on : OnTile) (X A : Int → Int → P)
    (hx : Part h x0 n0 N0 on.left on.right) (hy : Part h y0 n1 N1 on.bottom on.top) (hg : gridType < 3) :
    ∃ r, southVector G gridType h on (window X h x0 y0 n0 n1 1 1) (window A h x0 y0 n0 n1 0 0) = .ok r ∧
      (r.1.n0 = n0 + 2 * h ∧ r.1.n1 = n1 + 2 * h - 1 ∧ r.2.n0 = n0 + 2 * h ∧ r.2.n1 = n1 + 2 * h - 1) ∧
      ∀ i j, 0 ≤ i → i < n0 + 2 * h → 0 ≤ j → j < n1 + 2 * h - 1 →
        r.1.get i j = (if BeyondCornerJ N0 N1 (x0 + i - h) (y0 + (j + 1) - h) then G.zero
          else alongSide G (X (x0 + i - h) (y0 + (j + 1) - h)) (X (x0 + i - h + 1) (y0 + (j + 1) - h))) ∧
        r.2.get i j = (if BeyondCornerJ N0 N1 (x0 + i - h) (y0 + (j + 1) - h) then G.zero
          else south2 G N1 X A (x0 + i - h) (y0 + (j + 1) - h)) := by
  have := hx.halo; have := hx.pos; have := hy.pos
  unfold southVector
  simp only
  rw [if_pos hg]
  show Post _ _
  zstep (n0 + 2 * h) (n1 + 2 * h - 1)
  intro pp pp0 pp1 ppg
  zstep (n0 + 2 * h) (n1 + 2 * h - 1)
  intro a a0 a1 ag
  colstep
  intro b b0 b1 bg
  colstep
  intro c c0 c1 cg
  zstep (n0 + 2 * h) (n1 + 2 * h - 1)
  intro d d0 d1 dg
  ostep
  intro e e0 e1 eg
  zstep (n0 + 2 * h) (n1 + 2 * h - 1)
  intro p p0 p1 pg
  zstep (n0 + 2 * h) (n1 + 2 * h - 1)
  intro q q0 q1 qg
  ostep
  intro f f0 f1 fg
  apply post_pure
  have s1 : (Sl.span 1 1).len (n1 + 2 * h + 1) = n1 + 2 * h - 1 := by shapes
  have s2 : Sl.all.len (n0 + 2 * h) = n0 + 2 * h := by shapes
  have e0' : e.n0 = n0 + 2 * h := by rw [e0]; simp [full, window]
  have e1' : e.n1 = n1 + 2 * h + 1 := e1
  have f0' : f.n0 = n0 + 2 * h := by rw [f0]; simp [full, window]
  have f1' : f.n1 = n1 + 2 * h + 1 := f1
  refine ⟨by simp only [Arr.cut, fillHaloCorners_n0, fillHaloCorners_n1, e0', e1', f0', f1', s1, s2, true_and], ?_⟩
  have x1 : ix a.n1 (h - 1) = h - 1 := ix_nonneg _ _ (by omega)
  have x2 : ix pp.n1 (h - 1) = h - 1 := ix_nonneg _ _ (by omega)
  have x3 : ix (window A h x0 y0 n0 n1 0 0).n1 h = h := ix_nonneg _ _ (by omega)
  have x4 : ix b.n1 (-h) = n1 + h - 1 := by rw [ix_neg _ _ (by omega)]; omega
  have x5 : ix pp.n1 (-h) = n1 + h - 1 := by rw [ix_neg _ _ (by omega)]; omega
  have x6 : ix (window A h x0 y0 n0 n1 0 0).n1 (-h - 1) = n1 + h - 1 := by
    rw [ix_neg _ _ (by omega), window_n1]; omega
  intro i j hi hi' hj hj'
  have z : (Sl.all.has (n0 + 2 * h) i && (Sl.span 1 1).has (n1 + 2 * h + 1) (j + 1)) = true := by
    rw [Bool.and_eq_true, has_span _ _ _ _ (by omega), has_all]; omega
  have hC : (x0 + i - h < 0 ∨ N0 ≤ x0 + i - h) ∧ (y0 + (j + 1) - h < 0 ∨ N1 + 1 ≤ y0 + (j + 1) - h) ↔
      BeyondCornerJ N0 N1 (x0 + i - h) (y0 + (j + 1) - h) := Iff.rfl
  have hN : y0 + (j + 1) - h = 0 → ¬ (y0 + (j + 1) - h = N1) := by
    have := hy.inside; have := hy.start; omega
  have t1 : j = h - 1 ↔ j + 1 = h := by omega
  have t2 : j = n1 + h - 1 ↔ j + 1 = n1 + h := by omega
  have z0 := corner_cells hx 0 (by omega) hi (by omega) (by omega)
  have z1 := corner_cells hy 1 (by omega) (i := j + 1) (by omega) (by omega) (by omega)
  simp only [Int.add_zero] at z0
  have k1 := edge_first hy (i := j + 1) (by omega)
  have k2 := edge_last hy (i := j + 1) (by omega)
  simp only [Arr.cut, Sl.span, Sl.all, Int.zero_add, Int.add_comm 1 j]
  rw [fillHaloCorners_get _ _ _ _ _ _ hi (by omega) (by omega) (by omega),
    fillHaloCorners_get _ _ _ _ _ _ hi (by omega) (by omega) (by omega), e0', e1', f0', f1']
  simp only [z0, z1]
  have eg' := eg i (j + 1)
  have fg' := fg i (j + 1)
  simp only [full, window, Int.add_zero, z, if_true] at eg' fg'
  simp only [Sl.span, Sl.all, Int.add_sub_cancel, Int.sub_zero, Arr.map] at eg' fg'
  have hcg := cg i j hi (by omega)
  have hbg := bg i j hi (by omega)
  rw [eg', fg', dg, qg, pg, hcg, hbg, ag, ppg]
  rw [x1, x2, x3, x4, x5, x6, ppg, ppg]
  have k1' : on.bottom = true ∧ j = h - 1 ↔ y0 + (j + 1) - h = 0 := by rw [t1]; exact k1
  have k2' : on.top = true ∧ j = n1 + h - 1 ↔ y0 + (j + 1) - h = N1 := by rw [t2]; exact k2
  have i1 : y0 + (j + 1) - h = 0 → j = h - 1 := fun h => (k1'.mpr h).2
  have i2 : y0 + (j + 1) - h = N1 → j = n1 + h - 1 := fun h => (k2'.mpr h).2
  clear eg fg cg bg ag pg qg dg eg' fg' hcg hbg
  refine ⟨if_congr hC rfl ?_, if_congr hC rfl ?_⟩
  · unfold alongSide
    simp only [Arr.cut, window, Sl.span, Sl.from, Sl.all]
    ring_nf
  · unfold south2 across
    by_cases g1 : y0 + (j + 1) - h = 0
    · simp only [if_neg (mt k2'.mp (hN g1)), if_pos (k1'.mpr g1), if_pos g1, if_neg (hN g1)]
      have := i1 g1
      subst this
      simp only [Arr.cut, window, Sl.span, Sl.from, Sl.all]
      ring_nf
    · simp only [if_neg (mt k1'.mp g1), if_neg g1]
      by_cases g2 : y0 + (j + 1) - h = N1
      · simp only [if_pos (k2'.mpr g2), if_pos g2]
        have := i2 g2
        subst this
        simp only [Arr.cut, window, Sl.span, Sl.from, Sl.all]
        ring_nf
      · simp only [if_neg (mt k2'.mp g2), if_neg g2]
        simp only [Arr.cut, window, Sl.span, Sl.from, Sl.all]
        ring_nf

/-- Corners of the tile's edge among the corners of the rank. -/
theorem own_first {h x0 n N i : Int} {first last : Bool} (hp : Part h x0 n N first last) (hi : 0 ≤ i) :
    (first = true ∧ i = 0) ↔ x0 + i = 0 := by
  obtain ⟨a, b, c, d, f1, f2, f3, f4⟩ := hp
  cases first <;> simp at f1 f3 ⊢ <;> omega

theorem own_last {h x0 n N i : Int} {first last : Bool} (hp : Part h x0 n N first last) (hi : i ≤ n) :
    (last = true ∧ i = n) ↔ x0 + i = N := by
  obtain ⟨a, b, c, d, f1, f2, f3, f4⟩ := hp
  cases last <;> simp at f2 f4 ⊢ <;> omega

set_option maxHeartbeats 1000000 in
/-- **C94**, corners: every rank finds, at the corners of its own cells, the unit vectors along the grid lines of the
whole tile, which are one-sided on the tile's edges only. -/
theorem C94_xy (G : Geo P) (h x0 y0 n0 n1 N0 N1 : Int) (on : OnTile) (X : Int → Int → P)
    (hx : Part h x0 n0 N0 on.left on.right) (hy : Part h y0 n1 N1 on.bottom on.top) :
    ∃ r, xyUnitVectors G h on (window X h x0 y0 n0 n1 1 1) = .ok r ∧
      (r.1.n0 = n0 + 1 ∧ r.1.n1 = n1 + 1 ∧ r.2.n0 = n0 + 1 ∧ r.2.n1 = n1 + 1) ∧
      ∀ i j, 0 ≤ i → i ≤ n0 → 0 ≤ j → j ≤ n1 →
        r.1.get i j = throughX G N0 X (x0 + i) (y0 + j) ∧ r.2.get i j = throughY G N1 X (x0 + i) (y0 + j) := by
  have := hx.halo; have := hx.pos; have := hy.pos
  unfold xyUnitVectors
  show Post _ _
  zstep (n0 + 1) (n1 + 1)
  intro a a0 a1 ag
  rowstep
  intro b b0 b1 bg
  rowstep
  intro c c0 c1 cg
  zstep (n0 + 1) (n1 + 1)
  intro d d0 d1 dg
  zstep (n0 + 1) (n1 + 1)
  intro e e0 e1 eg
  colstep
  intro f f0 f1 fg
  colstep
  intro g g0 g1 gg
  zstep (n0 + 1) (n1 + 1)
  intro k k0 k1 kg
  apply post_pure
  refine ⟨⟨d0, d1, k0, k1⟩, ?_⟩
  have x1 : ix a.n0 0 = 0 := ix_nonneg _ _ (by omega)
  have x2 : ix b.n0 (-1) = n0 := by rw [ix_neg _ _ (by omega)]; omega
  have x3 : ix e.n1 0 = 0 := ix_nonneg _ _ (by omega)
  have x4 : ix f.n1 (-1) = n1 := by rw [ix_neg _ _ (by omega)]; omega
  have y1 : ∀ n, ix n h = h := fun n => ix_nonneg _ _ (by omega)
  have y2 : ∀ n, ix n (h + 1) = h + 1 := fun n => ix_nonneg _ _ (by omega)
  have y3 : ∀ n, ix n (-h - 2) = n + (-h - 2) := fun n => ix_neg _ _ (by omega)
  have y4 : ∀ n, ix n (-h - 1) = n + (-h - 1) := fun n => ix_neg _ _ (by omega)
  intro i j hi hi' hj hj'
  have n1' : x0 + i = 0 → ¬ (x0 + i = N0) := by have := hx.inside; have := hx.start; omega
  have n2' : y0 + j = 0 → ¬ (y0 + j = N1) := by have := hy.inside; have := hy.start; omega
  have hcg := cg i j hj (by omega)
  have hbg := bg i j hj (by omega)
  have hgg := gg i j hi (by omega)
  have hfg := fg i j hi (by omega)
  have p1 := own_first hx hi
  have p2 := own_last hx hi'
  have p3 := own_first hy hj
  have p4 := own_last hy hj'
  rw [x2] at hcg
  rw [x1] at hbg
  rw [x4] at hgg
  rw [x3] at hfg
  simp only [p1, p2, p3, p4, y1, y2, y3, y4] at hcg hbg hgg hfg
  constructor
  · show G.unit (d.get i j) = _
    rw [dg, hcg, hbg, ag]
    unfold throughX
    clear ag bg cg dg eg fg gg kg hcg hbg hgg hfg
    by_cases q1 : x0 + i = 0
    · simp only [if_neg (n1' q1), if_pos q1]
      have := (p1.mpr q1).2
      subst this
      simp only [Arr.cut, window, Sl.span]
      ring_nf
    · simp only [if_neg q1]
      by_cases q2 : x0 + i = N0
      · simp only [if_pos q2]
        have := (p2.mpr q2).2
        subst this
        simp only [Arr.cut, window, Sl.span]
        ring_nf
      · simp only [if_neg q2]
        simp only [Arr.cut, window, Sl.span]
        ring_nf
  · show G.unit (k.get i j) = _
    rw [kg, hgg, hfg, eg]
    unfold throughY
    clear ag bg cg dg eg fg gg kg hcg hbg hgg hfg
    by_cases q1 : y0 + j = 0
    · simp only [if_neg (n2' q1), if_pos q1]
      have := (p3.mpr q1).2
      subst this
      simp only [Arr.cut, window, Sl.span]
      ring_nf
    · simp only [if_neg q1]
      by_cases q2 : y0 + j = N1
      · simp only [if_pos q2]
        have := (p4.mpr q2).2
        subst this
        simp only [Arr.cut, window, Sl.span]
        ring_nf
      · simp only [if_neg q2]
        simp only [Arr.cut, window, Sl.span]
        ring_nf

/-- **C94**, momentum corrections: every rank finds the values of the whole tile. -/
theorem C94_momentum (corr : P → P → R) (h x0 y0 n0 n1 : Int) (X : Int → Int → P)
    (hh : 1 ≤ h) (h0 : 1 ≤ n0) (h1 : 1 ≤ n1) :
    ∃ r, l2c corr h (window X h x0 y0 n0 n1 1 1) = .ok r ∧
      (r.1.n0 = n0 + 1 ∧ r.1.n1 = n1 ∧ r.2.n0 = n0 ∧ r.2.n1 = n1 + 1) ∧
      (∀ i j, r.1.get i j = corr (X (x0 + i) (y0 + j)) (X (x0 + i) (y0 + j + 1))) ∧
      ∀ i j, r.2.get i j = corr (X (x0 + i) (y0 + j)) (X (x0 + i + 1) (y0 + j)) := by
  unfold l2c
  show Post _ _
  zstep (n0 + 1) n1
  intro a a0 a1 ag
  zstep n0 (n1 + 1)
  intro b b0 b1 bg
  apply post_pure
  refine ⟨⟨a0, a1, b0, b1⟩, ?_, ?_⟩
  · intro i j
    show a.get i j = _
    rw [ag]
    simp only [Arr.cut, window, Sl.span]
    ring_nf
  · intro i j
    show b.get i j = _
    rw [bg]
    simp only [Arr.cut, window, Sl.span]
    ring_nf

end NDSL.Deriv
