import Verif.Model.DGrid
import Verif.Props.ExternalGrid
import Verif.Props.GnomonicEdges

/-! Property C145: the grid of corners is one grid of the sphere, halos and corners of tiles included. -/
namespace NDSL
open Sphere (Placed unit stretched shift rankGrid OnSurface)

/-! ### Specification -/

/-- Longitude and latitude of a point of the unit sphere, in (-π, π] and [-π/2, π/2]; the longitude of a pole is 0. -/
def LonLat (p : ℝ × ℝ) (v : Sphere.V3) : Prop := Placed p v ∧ (v.x = 0 → v.y = 0 → p.1 = 0)

/-- There is only one. -/
theorem lonLat_unique (p q : ℝ × ℝ) (v : Sphere.V3) (hp : LonLat p v) (hq : LonLat q v) : p = q :=
  Sphere.placed_unique p q v hp.1 hq.1 fun hx hy => (hp.2 hx hy).trans (hq.2 hx hy).symm

/-- The corner of a rank. -/
theorem dCorner_place (R : ℝ) (hR : 1 ≤ R) (l c : Nat) (hl : 0 < l) (hc : 0 < c) (hn : l * c ≤ 10 ^ 9) (s t j i : Int)
    (s0 : 0 ≤ s) (s1 : s < (squareCube l).totalRanks) (hs : (squareCube l).At s t j i) (a b : Int)
    (ha : 0 ≤ a) (ha' : a ≤ c) (hb : 0 ≤ b) (hb' : b ≤ c) :
    ∃ p, LonLat p (unit (stretched (l * c) (onCube (l * c) t (2 * (c * i + a) - l * c) (2 * (c * j + b) - l * c)))) ∧
      (squareCube l).dCorner R c s a b = shift p := by
  obtain ⟨t2, j2, i2, hat2, a1, a2, a3, a4, a5, a6, _⟩ :=
    (C01_cube_positions l l (by omega) (by omega)).1 s s0 s1
  obtain ⟨rfl, rfl, rfl⟩ : t = t2 ∧ j = j2 ∧ i = i2 := by
    obtain ⟨p1, p2⟩ := hs
    obtain ⟨q1, q2⟩ := hat2
    have hji := p2.symm.trans q2
    simp only [Prod.mk.injEq] at hji
    exact ⟨Except.ok.inj (p1.symm.trans q1), hji.1, hji.2⟩
  obtain ⟨h1, h2, h3⟩ := Sphere.rank_place R hR l c hc hn t.toNat i.toNat j.toNat a.toNat b.toNat (by omega) (by omega) (by omega)
    (by omega) (by omega)
  have e : onCube (l * c) t.toNat (2 * (i.toNat * c + a.toNat) - l * c) (2 * (j.toNat * c + b.toNat) - l * c) =
      onCube (l * c) t (2 * (c * i + a) - l * c) (2 * (c * j + b) - l * c) := by
    rw [Int.toNat_of_nonneg a1, Int.toNat_of_nonneg a3, Int.toNat_of_nonneg a5, Int.toNat_of_nonneg ha, Int.toNat_of_nonneg hb,
      Int.mul_comm i, Int.mul_comm j]
  rw [e] at h1 h2 h3
  refine ⟨_, ⟨h1, fun hx hy => ?_⟩, ?_⟩
  · have hlen := (Sphere.unit_dot _ (Sphere.surface_ne _ h2)).2
    exact h3 ((div_eq_zero_iff.mp hx).resolve_right (ne_of_gt hlen)) ((div_eq_zero_iff.mp hy).resolve_right (ne_of_gt hlen))
  · unfold CubePart.dCorner
    rw [hs.1, hs.2]
    rfl

/-- **C145**: for every layout, number of cells and rank, every point of the array of corners, halo and corners included,
holds longitude and latitude of its place on the cube, stretched and projected on the sphere, and then shifted: a function
of the place only.  The place is that reached by continuing the sheet of the tile over its edge and, beyond a corner of the
tile, that of the point a quarter turn about the corner away. -/
theorem C145_grid (R : ℝ) (hR : 1 ≤ R) (l c : Nat) (nz : Int) (hl : 0 < l) (hc : 3 ≤ c)
    (hn : l * c ≤ 10 ^ 9) (junk : Nat → ℝ) (old : Int → List Int → ℝ)
    (r t j i : Int) (h0 : 0 ≤ r) (h1 : r < (squareCube l).totalRanks) (hpos : (squareCube l).At r t j i) :
    ∃ q, (squareCube l).initDgrid junk R c nz old r = .ok [q] ∧
      ∀ a b : Int, 0 ≤ a → a < c + 1 + 2 * 3 → 0 ≤ b → b < c + 1 + 2 * 3 →
        ∃ P p, continued (l * c) t (2 * (c * i + (a - 3)) - l * c) (2 * (c * j + (b - 3)) - l * c) = some P ∧
          LonLat p (unit (stretched (l * c) P)) ∧
          q.data.get [a, b, 0] = (shift p).1 ∧ q.data.get [a, b, 1] = (shift p).2 := by
  obtain ⟨q, hq, H⟩ := C144_owner (l : Int) 3 c nz (by omega) (by omega) (by omega) junk (1 : ℝ)
    (fun s a b => ((squareCube l).dCorner R c s a b).1) (fun s a b => ((squareCube l).dCorner R c s a b).2) old
    r t j i h0 h1 hpos
  refine ⟨q, hq, fun a b ha ha' hb hb' => ?_⟩
  obtain ⟨P, hP, s, t', j', i', a', b', s0, s1, hs, g1, g2, g3, g4, on, hv⟩ := H a b 0 ha ha' hb hb' (by omega) (by omega)
  obtain ⟨P', hP', s', t'', j'', i'', a'', b'', s0', s1', hs', g1', g2', g3', g4', on', hv'⟩ :=
    H a b 1 ha ha' hb hb' (by omega) (by omega)
  obtain rfl : P = P' := Option.some.inj (hP.symm.trans hP')
  obtain ⟨p, p1, p2⟩ := dCorner_place R hR l c hl (by omega) hn s t' j' i' s0 s1 hs a' b' g1 g2 g3 g4
  obtain ⟨p', p1', p2'⟩ := dCorner_place R hR l c hl (by omega) hn s' t'' j'' i'' s0' s1' hs' a'' b'' g1' g2' g3' g4'
  rw [on] at p1
  rw [on'] at p1'
  obtain rfl := lonLat_unique _ _ _ p1 p1'
  refine ⟨P, p, hP, p1, ?_, ?_⟩
  · rw [hv, if_pos rfl]; show (CubePart.dCorner _ R c s a' b').1 = _; rw [p2]
  · rw [hv', if_neg (by decide)]; show (CubePart.dCorner _ R c s' a'' b'').2 = _; rw [p2']

/-- **C145**: so two array points, of any ranks, at the same place hold the same longitude and latitude, whatever was in
the halos and in the receive buffers. -/
theorem C145_agree (R : ℝ) (hR : 1 ≤ R) (l c : Nat) (nz : Int) (hl : 0 < l) (hc : 3 ≤ c)
    (hn : l * c ≤ 10 ^ 9) (junk junk' : Nat → ℝ) (old old' : Int → List Int → ℝ)
    (r t j i r' t' j' i' : Int) (h0 : 0 ≤ r) (h1 : r < (squareCube l).totalRanks) (hpos : (squareCube l).At r t j i)
    (h0' : 0 ≤ r') (h1' : r' < (squareCube l).totalRanks) (hpos' : (squareCube l).At r' t' j' i') (q q' : Qty ℝ)
    (hq : (squareCube l).initDgrid junk R c nz old r = .ok [q])
    (hq' : (squareCube l).initDgrid junk' R c nz old' r' = .ok [q'])
    (a b a' b' : Int) (ha : 0 ≤ a ∧ a < c + 1 + 2 * 3) (hb : 0 ≤ b ∧ b < c + 1 + 2 * 3)
    (ha' : 0 ≤ a' ∧ a' < c + 1 + 2 * 3) (hb' : 0 ≤ b' ∧ b' < c + 1 + 2 * 3)
    (he : continued (l * c) t (2 * (c * i + (a - 3)) - l * c) (2 * (c * j + (b - 3)) - l * c) =
      continued (l * c) t' (2 * (c * i' + (a' - 3)) - l * c) (2 * (c * j' + (b' - 3)) - l * c)) :
    q.data.get [a, b, 0] = q'.data.get [a', b', 0] ∧ q.data.get [a, b, 1] = q'.data.get [a', b', 1] := by
  obtain ⟨q1, e1, H1⟩ := C145_grid R hR l c nz hl hc hn junk old r t j i h0 h1 hpos
  obtain ⟨q2, e2, H2⟩ := C145_grid R hR l c nz hl hc hn junk' old' r' t' j' i' h0' h1' hpos'
  obtain rfl : q = q1 := by rw [hq] at e1; simpa using e1
  obtain rfl : q' = q2 := by rw [hq'] at e2; simpa using e2
  obtain ⟨P, p, x1, x2, x3, x4⟩ := H1 a b ha.1 ha.2 hb.1 hb.2
  obtain ⟨P', p', y1, y2, y3, y4⟩ := H2 a' b' ha'.1 ha'.2 hb'.1 hb'.2
  obtain rfl : P = P' := Option.some.inj ((x1.symm.trans he).trans y1)
  obtain rfl := lonLat_unique _ _ _ x2 y2
  exact ⟨x3.trans y3.symm, x4.trans y4.symm⟩

/-- **C145**: all longitudes lie in [0, 2π) and all latitudes in [-π/2, π/2], also in the halo and in the corners. -/
theorem C145_range (R : ℝ) (hR : 1 ≤ R) (l c : Nat) (nz : Int) (hl : 0 < l) (hc : 3 ≤ c)
    (hn : l * c ≤ 10 ^ 9) (junk : Nat → ℝ) (old : Int → List Int → ℝ)
    (r t j i : Int) (h0 : 0 ≤ r) (h1 : r < (squareCube l).totalRanks) (hpos : (squareCube l).At r t j i) (q : Qty ℝ)
    (hq : (squareCube l).initDgrid junk R c nz old r = .ok [q]) (a b : Int) (ha : 0 ≤ a ∧ a < c + 1 + 2 * 3)
    (hb : 0 ≤ b ∧ b < c + 1 + 2 * 3) :
    0 ≤ q.data.get [a, b, 0] ∧ q.data.get [a, b, 0] < 2 * Real.pi ∧
    -(Real.pi / 2) ≤ q.data.get [a, b, 1] ∧ q.data.get [a, b, 1] ≤ Real.pi / 2 := by
  obtain ⟨q1, e1, H1⟩ := C145_grid R hR l c nz hl hc hn junk old r t j i h0 h1 hpos
  obtain rfl : q = q1 := by rw [hq] at e1; simpa using e1
  obtain ⟨P, p, -, ⟨⟨-, x1, x2, x3, x4⟩, -⟩, y1, y2⟩ := H1 a b ha.1 ha.2 hb.1 hb.2
  have := Sphere.C78_shift p x1 x2 x3 x4
  rw [y1, y2]
  exact ⟨this.1, this.2.1, this.2.2.1, this.2.2.2.1⟩

/-- The earth's radius, tiles of 48 cells in 2 by 2 blocks and three halo points. -/
example : (1 : ℝ) ≤ 6371200 ∧ 0 < 2 ∧ 3 ≤ 24 ∧ 2 * 24 ≤ 10 ^ 9 := by
  refine ⟨by norm_num, by decide, by decide, by norm_num⟩

/-- Its first rank, and its last. -/
example : (squareCube 2).At 0 0 0 0 ∧ (squareCube 2).At 23 5 1 1 ∧ 23 < (squareCube 2).totalRanks := by
  unfold CubePart.At; decide

/-- A halo point of tile 0 beyond its north edge is a point of tile 2, one beyond its corner a point of tile 2 too, and the
two are the points of the other tile's own part or halo at the same place. -/
example : continued 48 0 (2 * 5 - 48) (2 * 50 - 48) = continued 48 2 (2 * 2 - 48) (2 * 43 - 48) ∧
    (continued 48 0 (2 * 5 - 48) (2 * 50 - 48)).isSome = true ∧
    (continued 48 0 (2 * 50 - 48) (2 * 50 - 48)).isSome = true := by
  decide

end NDSL
