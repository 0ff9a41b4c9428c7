import Mathlib.Tactic.Ring
import Mathlib.Tactic.FieldSimp
import Mathlib.Tactic.NormNum
import Mathlib.Tactic.Linarith
import Mathlib.Algebra.Field.Rat
import Mathlib.Algebra.Order.Ring.Rat
import Mathlib.Algebra.CharZero.Defs
import Verif.Spec.CartesianGrid
import Verif.Props.EdgeFactors
import Verif.Props.Zarr
/-
C111: the doubly periodic grid.
-/
namespace NDSL.Cartesian
open NDSL.Edges (Place Piece place sliceLen assignOk)
open NDSL.Deriv (Arr Sl OnTile Consts full divgDel6)

/-- C111: the grid type 4 is the doubly periodic grid, those below 3 the cubed sphere, no others exist. -/
theorem C111_types (g : Int) : (kindOf g = .ok .cartesian ↔ g = 4) ∧ (kindOf g = .ok .cubedSphere ↔ g < 3) ∧
    (kindOf g = .error .notImplemented ↔ g = 3 ∨ 4 < g) := by
  unfold kindOf
  by_cases h1 : g = 4
  · subst h1; simp
  · rw [if_neg h1]
    by_cases h2 : g < 3
    · rw [if_pos h2]; simp [h1, h2]; omega
    · rw [if_neg h2]; simp [h1]; omega

variable {K : Type} [Field K]

theorem window_eq {s : Slice} {n np : Int} {first last : Bool} (h : Piece s n np first last) :
    let w := windowOf 3 s np
    assignOk (sliceLen (n + 7) w.l w.lEnd) (w.gEnd - w.g) = true ∧
    (∀ i, (w.l ≤ i ∧ i < w.lEnd) ↔ (0 ≤ s.start + i - 3 ∧ s.start + i - 3 ≤ np - 1 ∧ 0 ≤ i ∧ i < n + 7 ∧ (i < n + 6 ∨ last = true))) ∧
    ∀ i, w.g + (i - w.l) = s.start + i - 3 := by
  obtain ⟨h1, h2, h3, h4, h5, h6⟩ := h
  simp only [windowOf]
  refine ⟨?_, ?_, ?_⟩
  · have : sliceLen (n + 7) (max (s.start - 3) 0 - (s.start - 3))
        (max (s.start - 3) 0 - (s.start - 3) + min (s.stop + 3) np - max (s.start - 3) 0) =
        min (s.stop + 3) np - max (s.start - 3) 0 := by
      unfold sliceLen
      cases last <;> simp at h4 <;> omega
    rw [this]
    simp [assignOk]
  · intro i
    cases last
    · simp at h4
      simp
      omega
    · simp at h4
      have := h6.mp rfl
      simp
      omega
  · intro i; omega

theorem grid_eq (c : Params K) (pl : Place) (nx ny npx npy : Int) (hx : Piece pl.x nx npx pl.left pl.right)
    (hy : Piece pl.y ny npy pl.bottom pl.top) :
    ∃ g, initGrid c 3 pl npx npy (nx + 7) (ny + 7) = .ok g ∧ g.n0 = nx + 7 ∧ g.n1 = ny + 7 ∧
      ∀ i j, 0 ≤ i → i < nx + 7 → 0 ≤ j → j < ny + 7 →
        ((0 ≤ pl.x.start + i - 3 ∧ pl.x.start + i - 3 ≤ npx - 1 ∧ (i < nx + 6 ∨ pl.right = true) ∧
          0 ≤ pl.y.start + j - 3 ∧ pl.y.start + j - 3 ≤ npy - 1 ∧ (j < ny + 6 ∨ pl.top = true)) →
          g.get i j = some (lonAt c npx (pl.x.start + i - 3), latAt c npy (pl.y.start + j - 3))) ∧
        (¬ (0 ≤ pl.x.start + i - 3 ∧ pl.x.start + i - 3 ≤ npx - 1 ∧ (i < nx + 6 ∨ pl.right = true) ∧
          0 ≤ pl.y.start + j - 3 ∧ pl.y.start + j - 3 ≤ npy - 1 ∧ (j < ny + 6 ∨ pl.top = true)) → g.get i j = none) := by
  obtain ⟨x1, x2, x3⟩ := window_eq hx
  obtain ⟨y1, y2, y3⟩ := window_eq hy
  refine ⟨_, by unfold initGrid; rw [if_pos ⟨x1, y1⟩], rfl, rfl, ?_⟩
  intro i j hi0 hi1 hj0 hj1
  have hxi := x2 i
  have hyj := y2 j
  constructor
  · rintro ⟨a1, a2, a3, a4, a5, a6⟩
    have p1 := hxi.mpr ⟨a1, a2, hi0, hi1, a3⟩
    have p2 := hyj.mpr ⟨a4, a5, hj0, hj1, a6⟩
    show (if _ then _ else _) = _
    rw [if_pos ⟨p1.1, p1.2, p2.1, p2.2⟩, x3 i, y3 j]
    simp [coord, lonAt, latAt]
  · intro hn
    show (if _ then _ else _) = _
    rw [if_neg]
    rintro ⟨q1, q2, q3, q4⟩
    obtain ⟨b1, b2, -, -, b3⟩ := hxi.mp ⟨q1, q2⟩
    obtain ⟨b4, b5, -, -, b6⟩ := hyj.mp ⟨q3, q4⟩
    exact hn ⟨b1, b2, b3, b4, b5, b6⟩

variable (fl : FloatOps) (hfl : Zarr.EvenOps fl) (ly lx nx ny : Int) (hy : 0 < ly) (hx : 0 < lx) (hnx : 1 ≤ nx) (hny : 1 ≤ ny)

include hfl hy hx hnx hny in
/-- C111: on a tile divided evenly among any layout of ranks, every rank makes its grid; every corner of its part has the position
that the corner has in the tile, and so has every corner of its halo that is in the tile, up to the last line of the halo to
the east and north, which only ranks at that edge have; all others are NaN. -/
theorem C111_grid (c : Params K) (rank : Int) (h0 : 0 ≤ rank) (h1 : rank < ly * lx) :
    ∃ g, rankGrid fl c ly lx nx ny rank = .ok g ∧ g.n0 = nx + 7 ∧ g.n1 = ny + 7 ∧
      ∀ I J, rankX ly lx rank * nx - 3 ≤ I → I ≤ rankX ly lx rank * nx + nx + 3 → rankY ly lx rank * ny - 3 ≤ J →
        J ≤ rankY ly lx rank * ny + ny + 3 →
        let v := g.get (I - rankX ly lx rank * nx + 3) (J - rankY ly lx rank * ny + 3)
        ((0 ≤ I ∧ I ≤ lx * nx ∧ (I < rankX ly lx rank * nx + nx + 3 ∨ rankX ly lx rank = lx - 1) ∧
          0 ≤ J ∧ J ≤ ly * ny ∧ (J < rankY ly lx rank * ny + ny + 3 ∨ rankY ly lx rank = ly - 1)) →
          v = some (lonAt c (lx * nx + 1) I, latAt c (ly * ny + 1) J)) ∧
        (¬ (0 ≤ I ∧ I ≤ lx * nx ∧ (I < rankX ly lx rank * nx + nx + 3 ∨ rankX ly lx rank = lx - 1) ∧
          0 ≤ J ∧ J ≤ ly * ny ∧ (J < rankY ly lx rank * ny + ny + 3 ∨ rankY ly lx rank = ly - 1)) → v = none) := by
  obtain ⟨pl, hp, px, py, sx, sy⟩ := Edges.C84_place fl hfl ly lx nx ny rank hy hx hnx hny h0 h1
  obtain ⟨g, hg, e0, e1, hv⟩ := grid_eq c pl nx ny _ _ px py
  refine ⟨g, by unfold rankGrid; rw [hp]; exact hg, e0, e1, ?_⟩
  intro I J hI0 hI1 hJ0 hJ1
  have sx' : pl.x.start = rankX ly lx rank * nx := sx
  have sy' : pl.y.start = rankY ly lx rank * ny := sy
  have rx : pl.right = true ↔ rankX ly lx rank = lx - 1 := by
    rw [px.last_iff, sx']
    constructor
    · intro h
      have e : (rankX ly lx rank + 1) * nx = lx * nx := by rw [Int.add_mul]; omega
      have := Int.eq_of_mul_eq_mul_right (by omega) e
      omega
    · intro h; rw [h, Int.sub_mul]; omega
  have ry : pl.top = true ↔ rankY ly lx rank = ly - 1 := by
    rw [py.last_iff, sy']
    constructor
    · intro h
      have e : (rankY ly lx rank + 1) * ny = ly * ny := by rw [Int.add_mul]; omega
      have := Int.eq_of_mul_eq_mul_right (by omega) e
      omega
    · intro h; rw [h, Int.sub_mul]; omega
  have key := hv (I - rankX ly lx rank * nx + 3) (J - rankY ly lx rank * ny + 3) (by omega) (by omega) (by omega) (by omega)
  rw [sx', sy', rx, ry, show rankX ly lx rank * nx + (I - rankX ly lx rank * nx + 3) - 3 = I by omega,
    show rankY ly lx rank * ny + (J - rankY ly lx rank * ny + 3) - 3 = J by omega] at key
  constructor
  · rintro ⟨a1, a2, a3, a4, a5, a6⟩
    exact key.1 ⟨a1, by omega, a3.imp (by omega) id, a4, by omega, a6.imp (by omega) id⟩
  · intro hn
    refine key.2 fun ⟨a1, a2, a3, a4, a5, a6⟩ => hn ⟨a1, by omega, a3.imp (by omega) id, a4, by omega, a6.imp (by omega) id⟩

include hfl hy hx hnx hny in
/-- C111: two ranks, of the same or of different layouts, that both have a corner of the tile in their part give it the same
position. -/
theorem C111_shared (c : Params K) (ly' lx' nx' ny' : Int) (hy' : 0 < ly') (hx' : 0 < lx') (hnx' : 1 ≤ nx') (hny' : 1 ≤ ny')
    (ex : lx * nx = lx' * nx') (ey : ly * ny = ly' * ny') (r r' : Int) (h0 : 0 ≤ r) (h1 : r < ly * lx) (h0' : 0 ≤ r')
    (h1' : r' < ly' * lx') (g g' : Arr (Option (K × K))) (hg : rankGrid fl c ly lx nx ny r = .ok g)
    (hg' : rankGrid fl c ly' lx' nx' ny' r' = .ok g') (I J : Int)
    (hI : rankX ly lx r * nx ≤ I ∧ I ≤ rankX ly lx r * nx + nx) (hJ : rankY ly lx r * ny ≤ J ∧ J ≤ rankY ly lx r * ny + ny)
    (hI' : rankX ly' lx' r' * nx' ≤ I ∧ I ≤ rankX ly' lx' r' * nx' + nx')
    (hJ' : rankY ly' lx' r' * ny' ≤ J ∧ J ≤ rankY ly' lx' r' * ny' + ny') :
    g.get (I - rankX ly lx r * nx + 3) (J - rankY ly lx r * ny + 3) =
      g'.get (I - rankX ly' lx' r' * nx' + 3) (J - rankY ly' lx' r' * ny' + 3) ∧
    g.get (I - rankX ly lx r * nx + 3) (J - rankY ly lx r * ny + 3) ≠ none := by
  have bounds : ∀ (ly lx nx ny r : Int), 0 < ly → 0 < lx → 1 ≤ nx → 1 ≤ ny → 0 ≤ r → r < ly * lx →
      0 ≤ rankX ly lx r * nx ∧ rankX ly lx r * nx + nx ≤ lx * nx ∧ 0 ≤ rankY ly lx r * ny ∧ rankY ly lx r * ny + ny ≤ ly * ny := by
    intro ly lx nx ny r a b d e f g
    obtain ⟨hj, hi⟩ := tile_sub_range a b f g
    have m1 : (rankX ly lx r + 1) * nx ≤ lx * nx := Int.mul_le_mul_of_nonneg_right (by unfold rankX; omega) (by omega)
    have m2 : (rankY ly lx r + 1) * ny ≤ ly * ny := Int.mul_le_mul_of_nonneg_right (by unfold rankY; omega) (by omega)
    have m3 : 0 ≤ rankX ly lx r * nx := Int.mul_nonneg hi.1 (by omega)
    have m4 : 0 ≤ rankY ly lx r * ny := Int.mul_nonneg hj.1 (by omega)
    rw [Int.add_mul] at m1 m2
    omega
  obtain ⟨b1, b2, b3, b4⟩ := bounds ly lx nx ny r hy hx hnx hny h0 h1
  obtain ⟨b1', b2', b3', b4'⟩ := bounds ly' lx' nx' ny' r' hy' hx' hnx' hny' h0' h1'
  obtain ⟨u, hu, -, -, hv⟩ := C111_grid fl hfl ly lx nx ny hy hx hnx hny c r h0 h1
  obtain ⟨u', hu', -, -, hv'⟩ := C111_grid fl hfl ly' lx' nx' ny' hy' hx' hnx' hny' c r' h0' h1'
  rw [hg] at hu; injection hu with hu; subst hu
  rw [hg'] at hu'; injection hu' with hu'; subst hu'
  have k1 := (hv I J (by omega) (by omega) (by omega) (by omega)).1 ⟨by omega, by omega, .inl (by omega), by omega, by omega, .inl (by omega)⟩
  have k2 := (hv' I J (by omega) (by omega) (by omega) (by omega)).1 ⟨by omega, by omega, .inl (by omega), by omega, by omega, .inl (by omega)⟩
  rw [k1, k2, ex, ey]
  exact ⟨rfl, by simp⟩

/-- C111: corners are evenly spaced, from -π/32 to π/32 about longitude 0 and the latitude given. -/
theorem C111_spacing [CharZero K] (c : Params K) (np : Int) (hn : 1 < np) (I : Int) :
    lonAt c np (I + 1) - lonAt c np I = (c.pi / 16) / ((np - 1 : Int) : K) ∧
    latAt c np (I + 1) - latAt c np I = (c.pi / 16) / ((np - 1 : Int) : K) ∧
    lonAt c np 0 = -(c.pi / 32) ∧ lonAt c np (np - 1) = c.pi / 32 ∧
    latAt c np 0 = c.deglat * c.pi / 180 - c.pi / 32 ∧ latAt c np (np - 1) = c.deglat * c.pi / 180 + c.pi / 32 := by
  have hne : ((np - 1 : Int) : K) ≠ 0 := by
    have : np - 1 ≠ 0 := by omega
    exact_mod_cast this
  unfold lonAt latAt
  refine ⟨?_, ?_, ?_, ?_, ?_, ?_⟩
  · push_cast at hne ⊢; field_simp; ring
  · push_cast at hne ⊢; field_simp; ring
  · simp; ring
  · rw [div_self hne]; ring
  · simp; ring
  · rw [div_self hne]; ring

/-- C111: lengths are the constants given everywhere, areas are their product, the vectors along grid lines are orthonormal, and
sines and cosines are those of right angles. -/
theorem C111_terms (c : Params K) (n0 n1 : Int) :
    let t := terms c n0 n1
    Is t.dx c.dx ∧ Is t.dxa c.dx ∧ Is t.dxc c.dx ∧ Is t.dy c.dy ∧ Is t.dya c.dy ∧ Is t.dyc c.dy ∧
    (∀ i j, t.area.get i j = t.dxa.get i j * t.dya.get i j ∧ t.areaC.get i j = t.dxc.get i j * t.dyc.get i j) ∧
    (∀ i j, dot (t.ec1.get i j) (t.ec1.get i j) = 1 ∧ dot (t.ec2.get i j) (t.ec2.get i j) = 1 ∧
      dot (t.ew1.get i j) (t.ew1.get i j) = 1 ∧ dot (t.ew2.get i j) (t.ew2.get i j) = 1 ∧
      dot (t.es1.get i j) (t.es1.get i j) = 1 ∧ dot (t.es2.get i j) (t.es2.get i j) = 1) ∧
    (∀ i j k, dot (t.ec1.get i j) (t.ec2.get i j) = t.cosaS.get i j ∧ dot (t.ew1.get i j) (t.ew2.get i j) = t.cosaU.get i j ∧
      dot (t.es1.get i j) (t.es2.get i j) = t.cosaV.get i j ∧ (t.cosSg k).get i j = 0 ∧ t.cosa.get i j = 0 ∧ t.cosaS.get i j = 0 ∧
      t.cosaU.get i j = 0 ∧ t.cosaV.get i j = 0) ∧
    (∀ i j k, (t.sinSg k).get i j = 1 ∧ t.sina.get i j = 1 ∧ t.sinaU.get i j = 1 ∧ t.sinaV.get i j = 1 ∧
      t.rsina.get i j = 1 ∧ t.rsin2.get i j = 1 ∧ t.rsinU.get i j = 1 ∧ t.rsinV.get i j = 1) := by
  simp [terms, Is, full, dot, unit]

/-- C111: reciprocals are those of the lengths and areas. -/
theorem C111_recip (c : Params K) (n0 n1 : Int) (hdx : c.dx ≠ 0) (hdy : c.dy ≠ 0) (i j : Int) :
    let t := terms c n0 n1
    (recip t.dx).get i j * t.dx.get i j = 1 ∧ (recip t.dy).get i j * t.dy.get i j = 1 ∧
    (recip t.area).get i j * t.area.get i j = 1 ∧ (recip t.areaC).get i j * t.areaC.get i j = 1 := by
  simp only [recip, Deriv.Arr.map, terms, full]
  refine ⟨?_, ?_, ?_, ?_⟩ <;> field_simp

/-- C111: the areas of the cells of all ranks add up to the area of the tile. -/
theorem C111_total (c : Params K) (n0 n1 : Int) (ranks cells : Nat) (place : Nat → Nat → Int × Int) :
    ((List.range ranks).map fun r => ((List.range cells).map fun k =>
      (terms c n0 n1).area.get (place r k).1 (place r k).2).sum).sum = (ranks * cells : Nat) * (c.dx * c.dy) := by
  have h : ∀ (n : Nat) (x : K), ((List.range n).map fun _ => x).sum = n * x := by
    intro n x
    rw [List.map_const']
    simp
  simp only [terms, full, h]
  push_cast
  ring


/-! ### Divergence and damping -/

theorem span_len {n : Int} (h : 1 ≤ n) : (Sl.span 0 1).len n = n - 1 := by
  simp only [Sl.len, Sl.span]
  rw [if_neg (by decide)]
  omega

theorem all_len {n : Int} (h : 0 ≤ n) : Sl.all.len n = n := by simp only [Sl.len, Sl.all]; omega

theorem one_len (k n : Int) : (Sl.one k).len n = 1 := by simp only [Sl.len, Sl.one]; omega

/-- A constant array. -/
def Con {α : Type} (a : Arr α) (n0 n1 : Int) (v : α) : Prop := a.n0 = n0 ∧ a.n1 = n1 ∧ ∀ i j, a.get i j = v

theorem con_full {α : Type} (n0 n1 : Int) (v : α) : Con (full n0 n1 v) n0 n1 v := ⟨rfl, rfl, fun _ _ => rfl⟩

theorem con_cut {α : Type} {a : Arr α} {n0 n1 : Int} {v : α} (h : Con a n0 n1 v) (s t : Sl) : Con (a.cut s t) (s.len n0) (t.len n1) v :=
  ⟨by rw [← h.1]; rfl, by rw [← h.2.1]; rfl, fun _ _ => h.2.2 _ _⟩

theorem con_zip {α β γ : Type} (f : α → β → γ) {a : Arr α} {b : Arr β} {n0 n1 : Int} {v : α} {w : β} (h : Con a n0 n1 v)
    (h' : Con b n0 n1 w) : ∃ r, Deriv.zip f a b = .ok r ∧ Con r n0 n1 (f v w) := by
  unfold Deriv.zip
  rw [if_pos ⟨by rw [h.1, h'.1], by rw [h.2.1, h'.2.1]⟩]
  exact ⟨_, rfl, h.1, h.2.1, fun i j => by rw [← h.2.2 i j, ← h'.2.2 i j]⟩

variable [LinearOrder K]

theorem con_ratio {a b d : Arr K} {n0 n1 : Int} {x y z : K} (ha : Con a n0 n1 x) (hb : Con b n0 n1 y) (hd : Con d n0 n1 z) :
    ∃ r, Deriv.ratio a b d = .ok r ∧ Con r n0 n1 (x * y / z) := by
  obtain ⟨p, hp, cp⟩ := con_zip (· * ·) ha hb
  obtain ⟨q, hq, cq⟩ := con_zip (· / ·) cp hd
  refine ⟨q, ?_, cq⟩
  unfold Deriv.ratio
  rw [hp]
  exact hq

theorem con_meanRatio (C : Consts K) (hC : C.half * (1 + 1) = 1) {u v a b : Arr K} {n0 n1 : Int} {x y : K} (hu : Con u n0 n1 1)
    (hv : Con v n0 n1 1) (ha : Con a n0 n1 x) (hb : Con b n0 n1 y) :
    ∃ r, Deriv.meanRatio C u v a b = .ok r ∧ Con r n0 n1 (1 * x / y) := by
  obtain ⟨m, hm, cm⟩ := con_zip (Deriv.mean C) hu hv
  have e : Deriv.mean C 1 1 = (1 : K) := hC
  rw [e] at cm
  obtain ⟨r, hr, cr⟩ := con_ratio cm ha hb
  refine ⟨r, ?_, cr⟩
  unfold Deriv.meanRatio
  rw [hm]
  exact hr

theorem con_putIf {b : Bool} {a : Arr K} {n0 n1 : Int} {v : K} (ha : Con a n0 n1 v) (s t : Sl) (x : Except Err (Arr K))
    (hx : ∃ r, x = .ok r ∧ Con r (s.len n0) (t.len n1) v) : ∃ r, Deriv.putIf b a s t x = .ok r ∧ Con r n0 n1 v := by
  obtain ⟨r, hr, cr⟩ := hx
  unfold Deriv.putIf
  cases b with
  | false => exact ⟨a, rfl, ha⟩
  | true =>
    rw [hr]
    refine ⟨a.over s t r, ?_, ha.1, ha.2.1, ?_⟩
    · show Deriv.Arr.put a s t r = _
      unfold Deriv.Arr.put
      rw [if_pos ⟨by rw [ha.1, cr.1], by rw [ha.2.1, cr.2.1]⟩]
    · intro i j
      unfold Deriv.Arr.over
      show (if _ then _ else _) = _
      split
      · exact cr.2.2 _ _
      · exact ha.2.2 _ _

theorem con_lineJ (C : Consts K) (hC : C.half * (1 + 1) = 1) {s : Arr (Nat → K)} {m0 m1 n1 : Int} (hm0 : 0 ≤ m0)
    (hs : s.n0 = m0 ∧ s.n1 = m1 ∧ ∀ i j k, s.get i j k = 1) {a b : Arr K} {x y : K} (ha : Con a m0 n1 x) (hb : Con b m0 n1 y) (k l m q : Int) :
    ∃ r, Deriv.meanRatio C ((Deriv.point 1 s).cut Sl.all (Sl.one k)) ((Deriv.point 3 s).cut Sl.all (Sl.one l))
      (a.cut Sl.all (Sl.one m)) (b.cut Sl.all (Sl.one m)) = .ok r ∧ Con r (Sl.all.len m0) ((Sl.one q).len n1) (1 * x / y) := by
  have p : ∀ z, Con (Deriv.point z s) m0 m1 1 := fun z => ⟨hs.1, hs.2.1, fun i j => hs.2.2 i j z⟩
  have c1 := con_cut (p 1) Sl.all (Sl.one k)
  have c2 := con_cut (p 3) Sl.all (Sl.one l)
  have c3 := con_cut ha Sl.all (Sl.one m)
  have c4 := con_cut hb Sl.all (Sl.one m)
  rw [one_len] at c1 c2 c3 c4
  rw [one_len]
  exact con_meanRatio C hC c1 c2 c3 c4

theorem con_lineI (C : Consts K) (hC : C.half * (1 + 1) = 1) {s : Arr (Nat → K)} {m0 m1 n0 : Int} (hm1 : 0 ≤ m1)
    (hs : s.n0 = m0 ∧ s.n1 = m1 ∧ ∀ i j k, s.get i j k = 1) {a b : Arr K} {x y : K} (ha : Con a n0 m1 x) (hb : Con b n0 m1 y) (k l m q : Int) :
    ∃ r, Deriv.meanRatio C ((Deriv.point 0 s).cut (Sl.one k) Sl.all) ((Deriv.point 2 s).cut (Sl.one l) Sl.all)
      (a.cut (Sl.one m) Sl.all) (b.cut (Sl.one m) Sl.all) = .ok r ∧ Con r ((Sl.one q).len n0) (Sl.all.len m1) (1 * x / y) := by
  have p : ∀ z, Con (Deriv.point z s) m0 m1 1 := fun z => ⟨hs.1, hs.2.1, fun i j => hs.2.2 i j z⟩
  have c1 := con_cut (p 0) (Sl.one k) Sl.all
  have c2 := con_cut (p 2) (Sl.one l) Sl.all
  have c3 := con_cut ha (Sl.one m) Sl.all
  have c4 := con_cut hb (Sl.one m) Sl.all
  rw [one_len] at c1 c2 c3 c4
  rw [one_len]
  exact con_meanRatio C hC c1 c2 c3 c4

theorem con_divgDel6 (C : Consts K) (hC : C.half * (1 + 1) = 1) (h : Int) (on : OnTile) {s : Arr (Nat → K)} {n0 n1 : Int} (h0 : 1 ≤ n0)
    (h1 : 1 ≤ n1) (hs : s.n0 = n0 - 1 ∧ s.n1 = n1 - 1 ∧ ∀ i j k, s.get i j k = 1) {su sv dx dy dxc dyc : Arr K} {x y : K}
    (hsu : Con su n0 (n1 - 1) 1) (hsv : Con sv (n0 - 1) n1 1) (hdx : Con dx (n0 - 1) n1 x) (hdy : Con dy n0 (n1 - 1) y)
    (hdxc : Con dxc n0 (n1 - 1) x) (hdyc : Con dyc (n0 - 1) n1 y) :
    ∃ a b c d, divgDel6 C h on s su sv dx dy dxc dyc = .ok (a, b, c, d) ∧ Con a (n0 - 1) n1 (1 * y / x) ∧ Con b n0 (n1 - 1) (1 * x / y) ∧
      Con c (n0 - 1) n1 (1 * x / y) ∧ Con d n0 (n1 - 1) (1 * y / x) := by
  have m0 : 0 ≤ n0 - 1 := by omega
  have m1 : 0 ≤ n1 - 1 := by omega
  obtain ⟨a0, ea0, ca0⟩ := con_ratio hsv hdyc hdx
  obtain ⟨c0, ec0, cc0⟩ := con_ratio hsv hdx hdyc
  obtain ⟨b0, eb0, cb0⟩ := con_ratio hsu hdxc hdy
  obtain ⟨d0, ed0, cd0⟩ := con_ratio hsu hdy hdxc
  obtain ⟨a1, ea1, ca1⟩ := con_putIf (b := on.bottom) ca0 Sl.all (Sl.one h) _ (con_lineJ C hC m0 hs hdyc hdx h (h - 1) h h)
  obtain ⟨c1, ec1, cc1⟩ := con_putIf (b := on.bottom) cc0 Sl.all (Sl.one h) _ (con_lineJ C hC m0 hs hdx hdyc h (h - 1) h h)
  obtain ⟨a2, ea2, ca2⟩ := con_putIf (b := on.top) ca1 Sl.all (Sl.one (-h - 1)) _
    (con_lineJ C hC m0 hs hdyc hdx (-h) (-h - 1) (-h - 1) (-h - 1))
  obtain ⟨c2, ec2, cc2⟩ := con_putIf (b := on.top) cc1 Sl.all (Sl.one (-h - 1)) _
    (con_lineJ C hC m0 hs hdx hdyc (-h) (-h - 1) (-h - 1) (-h - 1))
  obtain ⟨b1, eb1, cb1⟩ := con_putIf (b := on.left) cb0 (Sl.one h) Sl.all _ (con_lineI C hC m1 hs hdxc hdy h (h - 1) h h)
  obtain ⟨d1, ed1, cd1⟩ := con_putIf (b := on.left) cd0 (Sl.one h) Sl.all _ (con_lineI C hC m1 hs hdy hdxc h (h - 1) h h)
  obtain ⟨b2, eb2, cb2⟩ := con_putIf (b := on.right) cb1 (Sl.one (-h - 1)) Sl.all _
    (con_lineI C hC m1 hs hdxc hdy (-h) (-h - 1) (-h - 1) (-h - 1))
  obtain ⟨d2, ed2, cd2⟩ := con_putIf (b := on.right) cd1 (Sl.one (-h - 1)) Sl.all _
    (con_lineI C hC m1 hs hdy hdxc (-h) (-h - 1) (-h - 1) (-h - 1))
  refine ⟨a2, b2, c2, d2, ?_, ca2, cb2, cc2, cd2⟩
  unfold divgDel6
  rw [ea0, ec0, eb0, ed0]
  show (do
    let divgU ← Deriv.putIf on.bottom a0 Sl.all (Sl.one h) _
    let del6U ← Deriv.putIf on.bottom c0 Sl.all (Sl.one h) _
    let divgU ← Deriv.putIf on.top divgU Sl.all (Sl.one (-h - 1)) _
    let del6U ← Deriv.putIf on.top del6U Sl.all (Sl.one (-h - 1)) _
    let divgV ← Deriv.putIf on.left b0 (Sl.one h) Sl.all _
    let del6V ← Deriv.putIf on.left d0 (Sl.one h) Sl.all _
    let divgV ← Deriv.putIf on.right divgV (Sl.one (-h - 1)) Sl.all _
    let del6V ← Deriv.putIf on.right del6V (Sl.one (-h - 1)) Sl.all _
    return (divgU, divgV, del6U, del6V)) = _
  rw [ea1]
  show (do
    let del6U ← Deriv.putIf on.bottom c0 Sl.all (Sl.one h) _
    let divgU ← Deriv.putIf on.top a1 Sl.all (Sl.one (-h - 1)) _
    let del6U ← Deriv.putIf on.top del6U Sl.all (Sl.one (-h - 1)) _
    let divgV ← Deriv.putIf on.left b0 (Sl.one h) Sl.all _
    let del6V ← Deriv.putIf on.left d0 (Sl.one h) Sl.all _
    let divgV ← Deriv.putIf on.right divgV (Sl.one (-h - 1)) Sl.all _
    let del6V ← Deriv.putIf on.right del6V (Sl.one (-h - 1)) Sl.all _
    return (divgU, divgV, del6U, del6V)) = _
  rw [ec1]
  show (do
    let divgU ← Deriv.putIf on.top a1 Sl.all (Sl.one (-h - 1)) _
    let del6U ← Deriv.putIf on.top c1 Sl.all (Sl.one (-h - 1)) _
    let divgV ← Deriv.putIf on.left b0 (Sl.one h) Sl.all _
    let del6V ← Deriv.putIf on.left d0 (Sl.one h) Sl.all _
    let divgV ← Deriv.putIf on.right divgV (Sl.one (-h - 1)) Sl.all _
    let del6V ← Deriv.putIf on.right del6V (Sl.one (-h - 1)) Sl.all _
    return (divgU, divgV, del6U, del6V)) = _
  rw [ea2, ec2, eb1, ed1]
  show (do
    let divgV ← Deriv.putIf on.right b1 (Sl.one (-h - 1)) Sl.all _
    let del6V ← Deriv.putIf on.right d1 (Sl.one (-h - 1)) Sl.all _
    return (a2, divgV, c2, del6V)) = _
  rw [eb2, ed2]
  rfl

theorem put_const {α : Type} {a b : Arr α} {n0 n1 : Int} {z v : α} (ha : Con a n0 n1 z) (s t : Sl) (hb : Con b (s.len n0) (t.len n1) v) :
    ∃ r, a.put s t b = .ok r ∧ r.n0 = n0 ∧ r.n1 = n1 ∧ ∀ i j, r.get i j = if s.has n0 i && t.has n1 j then v else z := by
  refine ⟨a.over s t b, ?_, ha.1, ha.2.1, ?_⟩
  · unfold Deriv.Arr.put
    rw [if_pos ⟨by rw [ha.1, hb.1], by rw [ha.2.1, hb.2.1]⟩]
  · intro i j
    unfold Deriv.Arr.over
    show (if _ then _ else _) = _
    rw [ha.1, ha.2.1, hb.2.2, ha.2.2]

/-- C111: the factors of divergence and damping are dy/dx and dx/dy on every side of a cell in the storage of every rank, at edges of
the tile as elsewhere. -/
theorem C111_divg (C : Consts K) (hC : C.half * (1 + 1) = 1) (h : Int) (on : OnTile) (c : Params K) (n0 n1 : Int) (h0 : 1 ≤ n0) (h1 : 1 ≤ n1) :
    ∃ del6U del6V divgU divgV, divg C h on (terms c n0 n1) n0 n1 = .ok (del6U, del6V, divgU, divgV) ∧
      (∀ i j, 0 ≤ i → i < n0 - 1 → 0 ≤ j → j < n1 → divgU.get i j = c.dy / c.dx ∧ del6U.get i j = c.dx / c.dy) ∧
      ∀ i j, 0 ≤ i → i < n0 → 0 ≤ j → j < n1 - 1 → divgV.get i j = c.dx / c.dy ∧ del6V.get i j = c.dy / c.dx := by
  have e0 := span_len h0
  have e1 := span_len h1
  have l0 := all_len (n := n0) (by omega)
  have l1 := all_len (n := n1) (by omega)
  have cu : ∀ v : K, Con ((full n0 n1 v).cut Sl.all (Sl.span 0 1)) n0 (n1 - 1) v := fun v => by
    have := con_cut (con_full n0 n1 v) Sl.all (Sl.span 0 1); rwa [l0, e1] at this
  have cv : ∀ v : K, Con ((full n0 n1 v).cut (Sl.span 0 1) Sl.all) (n0 - 1) n1 v := fun v => by
    have := con_cut (con_full n0 n1 v) (Sl.span 0 1) Sl.all; rwa [e0, l1] at this
  obtain ⟨a, b, d, e, hd, ca, cb, cd, ce⟩ := con_divgDel6 C hC h on h0 h1
    (s := ⟨(Sl.span 0 1).len n0, (Sl.span 0 1).len n1, fun i j k => ((terms c n0 n1).sinSg (k + 1)).get i j⟩)
    ⟨e0, e1, fun _ _ _ => rfl⟩ (cu 1) (cv 1) (cv c.dx) (cu c.dy) (cu c.dx) (cv c.dy)
  rw [← e0, ← l1] at ca cd
  rw [← e1, ← l0] at cb ce
  obtain ⟨ra, pa, -, -, va⟩ := put_const (con_full n0 n1 (0 : K)) (Sl.span 0 1) Sl.all (by rw [l1] at ca ⊢; exact ca)
  obtain ⟨rb, pb, -, -, vb⟩ := put_const (con_full n0 n1 (0 : K)) Sl.all (Sl.span 0 1) (by rw [l0] at cb ⊢; exact cb)
  obtain ⟨rd, pd, -, -, vd⟩ := put_const (con_full n0 n1 (0 : K)) (Sl.span 0 1) Sl.all (by rw [l1] at cd ⊢; exact cd)
  obtain ⟨re, pe, -, -, ve⟩ := put_const (con_full n0 n1 (0 : K)) Sl.all (Sl.span 0 1) (by rw [l0] at ce ⊢; exact ce)
  refine ⟨rd, re, ra, rb, ?_, ?_, ?_⟩
  · unfold divg
    show (do
      let r ← divgDel6 C h on _ _ _ _ _ _ _
      _) = _
    erw [hd]
    show (do
      let divgU ← (full n0 n1 (0 : K)).put (Sl.span 0 1) Sl.all a
      let divgV ← (full n0 n1 (0 : K)).put Sl.all (Sl.span 0 1) b
      let del6U ← (full n0 n1 (0 : K)).put (Sl.span 0 1) Sl.all d
      let del6V ← (full n0 n1 (0 : K)).put Sl.all (Sl.span 0 1) e
      return (del6U, del6V, divgU, divgV)) = _
    rw [pa, pb, pd, pe]
    rfl
  · intro i j i0 i1 j0 j1
    have hh : ((Sl.span 0 1).has n0 i && Sl.all.has n1 j) = true := by
      simp [Sl.has, Sl.span, Sl.all, i0, i1, j0, j1]
    rw [va, vd, hh]
    simp
  · intro i j i0 i1 j0 j1
    have hh : (Sl.all.has n0 i && (Sl.span 0 1).has n1 j) = true := by
      simp [Sl.has, Sl.span, Sl.all, i0, i1, j0, j1]
    rw [vb, ve, hh]
    simp

/-! ### What does not hold -/

omit [LinearOrder K] in
/-- The matrices that turn winds to east and north are NaN everywhere on this grid. -/
theorem C111_winds_violated (c : Params K) (n0 n1 i j : Int) : gridA (terms c n0 n1) i j = (none, none, none, none) := rfl

omit [LinearOrder K] in
/-- All centres of cells have one position, the middle of the tile. -/
theorem C111_centres_violated (c : Params K) (n0 n1 i j : Int) : (initAgrid c n0 n1).get i j = (0, c.deglat * c.pi / 180) := rfl

/-- Positions of halo corners: the westernmost rank of two has NaN for the corner three cells east of its part, which is in the tile and
which the other rank has; and NaN, not the periodic continuation, west of the tile. -/
theorem C111_halo_violated : ∃ (g g' : Arr (Option (ℚ × ℚ))) (c : Params ℚ), rankGrid exactOps c 1 2 4 4 0 = .ok g ∧
    rankGrid exactOps c 1 2 4 4 1 = .ok g' ∧ g.get 10 3 = none ∧ g'.get 6 3 = some (lonAt c 9 7, latAt c 5 0) ∧ g.get 2 3 = none := by
  have ev : Zarr.EvenOps exactOps := NDSL.Edges.exact_even
  let c : Params ℚ := ⟨1000, 1000, 15, 3⟩
  obtain ⟨g, hg, -, -, hv⟩ := C111_grid exactOps ev 1 2 4 4 (by decide) (by decide) (by decide) (by decide) c 0 (by decide) (by decide)
  obtain ⟨g', hg', -, -, hv'⟩ := C111_grid exactOps ev 1 2 4 4 (by decide) (by decide) (by decide) (by decide) c 1 (by decide) (by decide)
  have x0 : rankX 1 2 0 = 0 := by decide
  have y0 : rankY 1 2 0 = 0 := by decide
  have x1 : rankX 1 2 1 = 1 := by decide
  have y1 : rankY 1 2 1 = 0 := by decide
  rw [x0, y0] at hv
  rw [x1, y1] at hv'
  refine ⟨g, g', c, hg, hg', ?_, ?_, ?_⟩
  · exact (hv 7 0 (by decide) (by decide) (by decide) (by decide)).2 (by decide)
  · exact (hv' 7 0 (by decide) (by decide) (by decide) (by decide)).1 (by decide)
  · exact (hv (-1) 0 (by decide) (by decide) (by decide) (by decide)).2 (by decide)

/-! ### Examples -/

/-- The corners of a tile of 8 by 4 cells. -/
example : lonAt (⟨1000, 1000, 15, 3⟩ : Params ℚ) 9 0 = -3 / 32 ∧ latAt (⟨1000, 1000, 15, 3⟩ : Params ℚ) 5 2 = 1 / 4 := by
  constructor <;> norm_num [lonAt, latAt]

example : ∃ a b c d, divg (⟨1 / 2, 0, 0⟩ : Consts ℚ) 3 ⟨true, false, true, false⟩ (terms ⟨1000, 500, 15, 3⟩ 11 11) 11 11 = .ok (a, b, c, d) ∧
    c.get 4 3 = 1 / 2 := by
  obtain ⟨a, b, c, d, h, hu, -⟩ := C111_divg (⟨1 / 2, 0, 0⟩ : Consts ℚ) (by norm_num) 3 ⟨true, false, true, false⟩
    (⟨1000, 500, 15, 3⟩ : Params ℚ) 11 11 (by decide) (by decide)
  refine ⟨a, b, c, d, h, ?_⟩
  rw [(hu 4 3 (by decide) (by decide) (by decide) (by decide)).1]
  norm_num

end NDSL.Cartesian
