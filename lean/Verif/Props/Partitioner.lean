import Verif.Lemmas.CubeGeometry
import Verif.Lemmas.TileBoundary

/-
Property theorems C01, C06, C07, C08, C09, C10: ranks, positions and boundaries.
-/
namespace NDSL

/-- `tile_index(rank) = t` and `subtile_index(rank) = (j, i)` on a cubed-sphere partitioner. -/
def CubePart.At (p : CubePart) (rank t j i : Int) : Prop :=
  p.tileIndex rank = .ok t ∧ p.tile.subtileIndex rank = (j, i)

/-- The cubed-sphere partitioner with an `n × n` tile layout. -/
abbrev squareCube (n : Int) : CubePart := ⟨⟨(n, n)⟩⟩

theorem at_iff {n : Int} {p : Pos} (hp : p.Ok n) (t j i : Int) :
    (squareCube n).At (p.rank n) t j i ↔ t = p.t ∧ j = p.j ∧ i = p.i := by
  obtain ⟨a, b, c, d⟩ := hp
  have h1 : (squareCube n).tileIndex (p.rank n) = .ok p.t := cube_tileIndex a b c d
  have h2 : (squareCube n).tile.subtileIndex (p.rank n) = (p.j, p.i) := cube_subtileIndex a b c d
  unfold CubePart.At
  rw [h1, h2]
  simp only [Except.ok.injEq, Prod.mk.injEq]
  constructor <;> rintro ⟨h, h', h''⟩ <;> exact ⟨h.symm, h'.symm, h''.symm⟩

/-! ## C01 -/

/-- C01, single tile: each position `(j, i)` of the layout is held by exactly one rank, and every
rank holds a position of the layout. -/
theorem C01_tile_positions (ly lx : Int) (hy : 0 < ly) (hx : 0 < lx) :
    (∀ rank, 0 ≤ rank → rank < (TilePart.mk (ly, lx)).totalRanks →
      let s := (TilePart.mk (ly, lx)).subtileIndex rank
      0 ≤ s.1 ∧ s.1 < ly ∧ 0 ≤ s.2 ∧ s.2 < lx) ∧
    (∀ j i, 0 ≤ j → j < ly → 0 ≤ i → i < lx →
      ∃ rank, (0 ≤ rank ∧ rank < (TilePart.mk (ly, lx)).totalRanks ∧
        (TilePart.mk (ly, lx)).subtileIndex rank = (j, i)) ∧
        ∀ rank', 0 ≤ rank' → rank' < (TilePart.mk (ly, lx)).totalRanks →
          (TilePart.mk (ly, lx)).subtileIndex rank' = (j, i) → rank' = rank) := by
  constructor
  · intro rank h0 h1
    obtain ⟨j, i, a, b, c, d, rfl⟩ := tile_surj hx h0 h1
    simp only [tile_subtileIndex a b c d]
    exact ⟨a, b, c, d⟩
  · intro j i a b c d
    refine ⟨j * lx + i, ⟨(jn_bounds a b c d).1, (jn_bounds a b c d).2,
      tile_subtileIndex a b c d⟩, ?_⟩
    intro rank' h0 h1 h
    obtain ⟨j', i', a', b', c', d', rfl⟩ := tile_surj hx h0 h1
    rw [tile_subtileIndex a' b' c' d'] at h
    simp only [Prod.mk.injEq] at h
    rw [h.1, h.2]

example : (TilePart.mk (2, 3)).subtileIndex 5 = (1, 2) := by decide

/-- C01, cubed sphere (any tile layout): each `(tile, j, i)` is held by exactly one rank, and
`tile_root_rank` is the rank of `(tile, 0, 0)`. -/
theorem C01_cube_positions (ly lx : Int) (hy : 0 < ly) (hx : 0 < lx) :
    let p : CubePart := ⟨⟨(ly, lx)⟩⟩
    (∀ rank, 0 ≤ rank → rank < p.totalRanks →
      ∃ t j i, p.At rank t j i ∧ 0 ≤ t ∧ t < 6 ∧ 0 ≤ j ∧ j < ly ∧ 0 ≤ i ∧ i < lx ∧
        p.At (p.tileRootRank rank) t 0 0 ∧ 0 ≤ p.tileRootRank rank ∧
        p.tileRootRank rank < p.totalRanks) ∧
    (∀ t j i, 0 ≤ t → t < 6 → 0 ≤ j → j < ly → 0 ≤ i → i < lx →
      ∃ rank, (0 ≤ rank ∧ rank < p.totalRanks ∧ p.At rank t j i) ∧
        ∀ rank', 0 ≤ rank' → rank' < p.totalRanks → p.At rank' t j i → rank' = rank) := by
  intro p
  have hT : 0 < ly * lx := Int.mul_pos hy hx
  have tot : p.totalRanks = 6 * (ly * lx) := rfl
  -- position of `t * T + (j * lx + i)`
  have hat : ∀ t j i, 0 ≤ j → j < ly → 0 ≤ i → i < lx →
      p.tileIndex (t * (ly * lx) + (j * lx + i)) = .ok t ∧
      p.tile.subtileIndex (t * (ly * lx) + (j * lx + i)) = (j, i) := by
    intro t j i a b c d
    have hb := jn_bounds a b c d
    constructor
    · unfold CubePart.tileIndex getTileIndex
      rw [tot, if_neg (by omega), Int.mul_ediv_cancel_left _ (by omega), radix_div hb.1 hb.2]
    · show ((_ % (ly * lx)) / lx, (_ % (ly * lx)) % lx) = (j, i)
      rw [radix_mod hb.1 hb.2, radix_div c d, radix_mod c d]
  have hsurj : ∀ rank, 0 ≤ rank → rank < 6 * (ly * lx) →
      ∃ t j i, 0 ≤ t ∧ t < 6 ∧ 0 ≤ j ∧ j < ly ∧ 0 ≤ i ∧ i < lx ∧
        rank = t * (ly * lx) + (j * lx + i) := by
    intro rank h0 h1
    obtain ⟨t, m, a, b, c, d, rfl⟩ := tile_surj (ly := 6) hT h0 h1
    obtain ⟨j, i, a', b', c', d', rfl⟩ := tile_surj hx c d
    exact ⟨t, j, i, a, b, a', b', c', d', rfl⟩
  have hrange : ∀ t j i, 0 ≤ t → t < 6 → 0 ≤ j → j < ly → 0 ≤ i → i < lx →
      0 ≤ t * (ly * lx) + (j * lx + i) ∧ t * (ly * lx) + (j * lx + i) < 6 * (ly * lx) := by
    intro t j i h0 h6 a b c d
    have hb := jn_bounds a b c d
    exact jn_bounds h0 h6 hb.1 hb.2
  constructor
  · intro rank h0 h1
    obtain ⟨t, j, i, ht, ht6, a, b, c, d, rfl⟩ := hsurj rank h0 (tot ▸ h1)
    have hroot : p.tileRootRank (t * (ly * lx) + (j * lx + i)) = t * (ly * lx) + (0 * lx + 0) := by
      have hb := jn_bounds a b c d
      show (ly * lx) * (_ / (ly * lx)) = _
      rw [radix_div hb.1 hb.2, Int.mul_comm]; omega
    refine ⟨t, j, i, hat t j i a b c d, ht, ht6, a, b, c, d, ?_, ?_⟩
    · rw [hroot]; exact hat t 0 0 (by omega) hy (by omega) hx
    · rw [hroot, tot]; exact hrange t 0 0 ht ht6 (by omega) hy (by omega) hx
  · intro t j i ht ht6 a b c d
    refine ⟨t * (ly * lx) + (j * lx + i), ⟨(hrange t j i ht ht6 a b c d).1,
      tot ▸ (hrange t j i ht ht6 a b c d).2, hat t j i a b c d⟩, ?_⟩
    intro rank' h0 h1 h
    obtain ⟨t', j', i', ht', ht6', a', b', c', d', rfl⟩ := hsurj rank' h0 (tot ▸ h1)
    have h' := hat t' j' i' a' b' c' d'
    obtain ⟨e1, e2⟩ := h
    rw [h'.1] at e1
    rw [h'.2] at e2
    simp only [Except.ok.injEq, Prod.mk.injEq] at e1 e2
    rw [e1, e2.1, e2.2]

example : (squareCube 2).At 22 5 1 0 := by unfold CubePart.At; decide

/-! ## C06 -/

/-- C06: the boundary of a single tile points to the neighbouring position modulo the layout,
without rotation, and the opposite boundary of that neighbour points back. -/
theorem C06_tile_boundary (ly lx : Int) (hy : 0 < ly) (hx : 0 < lx) (rank : Int) (h0 : 0 ≤ rank)
    (h1 : rank < (TilePart.mk (ly, lx)).totalRanks) (bt : BType) :
    let p := TilePart.mk (ly, lx)
    let b := p.boundary bt rank
    b.btype = bt ∧ b.fromRank = rank ∧ b.rot = 0 ∧ 0 ≤ b.toRank ∧ b.toRank < p.totalRanks ∧
    p.subtileIndex b.toRank =
      (((p.subtileIndex rank).1 + bt.dir.2) % ly, ((p.subtileIndex rank).2 + bt.dir.1) % lx) ∧
    ∀ back : BType, back.dir = oppV bt.dir → (p.boundary back b.toRank).toRank = rank := by
  obtain ⟨j, i, a, b, c, d, rfl⟩ := tile_surj hx h0 h1
  simp only [tile_boundary_eq a b c d, tile_subtileIndex a b c d]
  have j0 := Int.emod_nonneg (j + bt.dir.2) (show ly ≠ 0 by omega)
  have j1 := Int.emod_lt_of_pos (j + bt.dir.2) hy
  have i0 := Int.emod_nonneg (i + bt.dir.1) (show lx ≠ 0 by omega)
  have i1 := Int.emod_lt_of_pos (i + bt.dir.1) hx
  have hb := jn_bounds j0 j1 i0 i1
  refine ⟨trivial, trivial, trivial, hb.1, hb.2, ?_, ?_⟩
  · rw [tile_subtileIndex j0 j1 i0 i1]
  · intro back hback
    rw [tile_boundary_eq j0 j1 i0 i1]
    simp only [hback, oppV, Int.emod_add_emod]
    rw [show j + bt.dir.2 + -bt.dir.2 = j by omega, show i + bt.dir.1 + -bt.dir.1 = i by omega,
      Int.emod_eq_of_lt a b, Int.emod_eq_of_lt c d]

example : ((TilePart.mk (3, 4)).boundary .northwest 8).toRank = 3 ∧
    ((TilePart.mk (3, 4)).boundary .southeast 3).toRank = 8 := by decide

/-! ## C07 -/

/-- C07: on every square layout, `boundary` never raises; a returned boundary leads to a valid other
rank, and that rank has exactly one boundary leading back: the one in the opposite direction as seen
from its own rotated axes, with the inverse rotation. -/
theorem C07_cube_reciprocal (n : Int) (hn : 0 < n) (rank : Int) (h0 : 0 ≤ rank)
    (h1 : rank < (squareCube n).totalRanks) (bt : BType) :
    (∃ ob, (squareCube n).boundary bt rank = .ok ob) ∧
    ∀ b, (squareCube n).boundary bt rank = .ok (some b) →
      b.btype = bt ∧ b.fromRank = rank ∧ 0 ≤ b.toRank ∧ b.toRank < (squareCube n).totalRanks ∧
      b.toRank ≠ rank ∧
      ∃ back b', back.dir = turnsCW (-b.rot) (oppV bt.dir) ∧
        (squareCube n).boundary back b.toRank = .ok (some b') ∧
        b'.toRank = rank ∧ (b.rot + b'.rot) % 4 = 0 ∧
        ∀ bt'' b'', (squareCube n).boundary bt'' b.toRank = .ok (some b'') →
          b''.toRank = rank → bt'' = back := by
  obtain ⟨p, hp, ht, ht6, rfl⟩ := exists_pos hn h0 h1
  constructor
  · exact ⟨_, boundary_eq hp bt⟩
  · intro b hb
    have e : (squareCube n).boundary bt (p.rank n) = _ := boundary_eq hp bt
    rw [e] at hb
    cases hq : nbr n bt p with
    | none => rw [hq] at hb; simp at hb
    | some x =>
      rw [hq] at hb
      simp only [Option.map_some, Except.ok.injEq, Option.some.injEq] at hb
      subst hb
      obtain ⟨q, r⟩ := x
      have hqok : q.red.Ok n := red_ok (nbr_ok hp hq)
      have hqt : 0 ≤ q.red.t ∧ q.red.t < 6 := by simp only; omega
      have hrange := rank_range hqok hqt.1 hqt.2
      obtain ⟨x', hx', hback, hrot⟩ := nbr_recip hp ht ht6 hq
      have hne : q.red ≠ p := flat_ne_self hp ht ht6 (x := (q, r)) ((nbr_flat hp bt).symm.trans hq)
      refine ⟨rfl, rfl, hrange.1, hrange.2, ?_, recipB bt r,
        ⟨recipB bt r, q.red.rank n, x'.1.red.rank n, x'.2⟩, recipB_dir bt r, ?_, ?_, hrot, ?_⟩
      · intro h; exact hne (rank_inj hqok hp h)
      · have e' : (squareCube n).boundary (recipB bt r) (q.red.rank n) = _ := boundary_eq hqok _
        rw [e', hx']; rfl
      · simp only [hback]
      · intro bt'' b'' hb'' hto
        have e' : (squareCube n).boundary bt'' (q.red.rank n) = _ := boundary_eq hqok _
        simp only at hb''
        rw [e'] at hb''
        cases hy : nbr n bt'' q.red with
        | none => rw [hy] at hb''; simp at hb''
        | some y =>
          rw [hy] at hb''
          simp only [Option.map_some, Except.ok.injEq, Option.some.injEq] at hb''
          subst hb''
          simp only at hto
          have hyp : y.1.red = p := rank_inj (red_ok (nbr_ok hqok hy)) hp hto
          exact flat_distinct hqok hqt.1 hqt.2 ((nbr_flat hqok _).symm.trans hy)
            ((nbr_flat hqok _).symm.trans hx') (hyp.trans hback.symm)

/-- C07, other layouts: a non-square cube layout is refused for every edge. -/
theorem C07_nonsquare_refused (ly lx : Int) (h : ly ≠ lx) (rank : Int) (bt : BType)
    (hb : bt.isEdge = true) :
    (CubePart.mk ⟨(ly, lx)⟩).boundary bt rank = .error .notImplemented := by
  have hs : (CubePart.mk ⟨(ly, lx)⟩).ensureSquare = .error .notImplemented := by
    simp [CubePart.ensureSquare, h]
  cases bt <;> simp [BType.isEdge] at hb <;>
    simp [CubePart.boundary, CubePart.rawBoundary, CubePart.leftEdge, CubePart.rightEdge,
      CubePart.topEdge, CubePart.bottomEdge, hs, bind, Except.bind, Functor.map, Except.map]

example : (squareCube 2).boundary .west 0 = .ok (some ⟨.west, 0, 19, 1⟩) ∧
    (squareCube 2).boundary .north 19 = .ok (some ⟨.north, 19, 0, 3⟩) := by decide

/-! ## C08 -/

/-- C08: the edge neighbour is *the* rank sharing that physical edge of the cube: its edge in the
direction given by the rotation is the same segment of the cube surface (walked the other way
round), and no other rank has that segment as an edge. -/
theorem C08_cube_edge_geometry (n : Int) (hn : 0 < n) (rank t j i : Int) (h0 : 0 ≤ rank)
    (h1 : rank < (squareCube n).totalRanks) (hpos : (squareCube n).At rank t j i)
    (bt : BType) (hb : bt.isEdge = true) :
    ∃ b, (squareCube n).boundary bt rank = .ok (some b) ∧
      ∃ t' j' i', (squareCube n).At b.toRank t' j' i' ∧
        (∀ back : BType, back.dir = turnsCW (-b.rot) (oppV bt.dir) →
          edgeSeg n t' j' i' back = ((edgeSeg n t j i bt).2, (edgeSeg n t j i bt).1)) ∧
        ∀ rank'' t'' j'' i'' side, 0 ≤ rank'' → rank'' < (squareCube n).totalRanks →
          (squareCube n).At rank'' t'' j'' i'' → side.isEdge = true →
          edgeSeg n t'' j'' i'' side = ((edgeSeg n t j i bt).2, (edgeSeg n t j i bt).1) →
          rank'' = b.toRank ∧ side.dir = turnsCW (-b.rot) (oppV bt.dir) := by
  obtain ⟨p, hp, ht, ht6, rfl⟩ := exists_pos hn h0 h1
  obtain ⟨rfl, rfl, rfl⟩ := (at_iff hp t j i).1 hpos
  have hfl : ∃ x, nbr n bt p = some x := by
    cases bt <;> simp [BType.isEdge] at hb <;> exact ⟨_, rfl⟩
  obtain ⟨⟨q, r⟩, hq⟩ := hfl
  have hflat := (nbr_flat hp bt).symm.trans hq
  have hqok : q.red.Ok n := red_ok (nbr_ok hp hq)
  have hqt : 0 ≤ q.red.t ∧ q.red.t < 6 := by simp only; omega
  have hgeo := flat_geometry hp ht ht6 hflat
  have hbackedge : (recipB bt r).isEdge = true := by
    have hr : r % 4 = 0 ∨ r % 4 = 1 ∨ r % 4 = 2 ∨ r % 4 = 3 := by omega
    rcases hr with hr | hr | hr | hr <;> cases bt <;> simp [BType.isEdge] at hb <;>
      simp [recipB, hr, BType.isEdge]
  have dir_inj : ∀ x y : BType, x.dir = y.dir → x = y := by
    intro x y; cases x <;> cases y <;> simp [BType.dir]
  have hbd : (squareCube n).boundary bt (p.rank n) = _ := boundary_eq hp bt
  refine ⟨⟨bt, p.rank n, q.red.rank n, r⟩, by rw [hbd, hq]; rfl, q.red.t, q.red.j, q.red.i,
    (at_iff hqok _ _ _).2 ⟨rfl, rfl, rfl⟩, ?_, ?_⟩
  · intro back hback
    rw [← recipB_dir bt r] at hback
    rw [dir_inj _ _ hback]; exact hgeo
  · intro rank'' t'' j'' i'' side g0 g1 hat hside hseg
    obtain ⟨p'', hp'', ht'', ht6'', rfl⟩ := exists_pos hn g0 g1
    obtain ⟨rfl, rfl, rfl⟩ := (at_iff hp'' _ _ _).1 hat
    have := edgeSeg_inj hp'' ht'' ht6'' hqok hqt.1 hqt.2 hside hbackedge (hseg.trans hgeo.symm)
    constructor
    · rw [this.1]
    · rw [this.2]; exact recipB_dir bt r

example : (squareCube 2).At 0 0 0 0 ∧ edgeSeg 2 0 0 0 .west = (⟨2, -2, 0⟩, ⟨2, -2, -2⟩) ∧
    edgeSeg 2 4 1 1 .north = (⟨2, -2, -2⟩, ⟨2, -2, 0⟩) := by
  unfold CubePart.At; decide

/-! ## C09 -/

/-- C09: the corner boundary is missing exactly at the vertices of the cube; elsewhere it leads to a
rank touching the same point of the cube, which is different from the rank itself, and which is the
next rank around that point after either edge neighbour. -/
theorem C09_cube_corners (n : Int) (hn : 0 < n) (rank t j i : Int) (h0 : 0 ≤ rank)
    (h1 : rank < (squareCube n).totalRanks) (hpos : (squareCube n).At rank t j i)
    (bt : BType) (hb : bt.isEdge = false) :
    ((squareCube n).boundary bt rank = .ok none ↔
      IsCubeVertex n (corner n t j i bt.dir.1 bt.dir.2)) ∧
    ∀ b, (squareCube n).boundary bt rank = .ok (some b) →
      b.toRank ≠ rank ∧
      (∃ t' j' i', (squareCube n).At b.toRank t' j' i' ∧
        ∀ back : BType, back.dir = turnsCW (-b.rot) (oppV bt.dir) →
          corner n t' j' i' back.dir.1 back.dir.2 = corner n t j i bt.dir.1 bt.dir.2) ∧
      ∀ e, e = bt.cornerEdges.1 ∨ e = bt.cornerEdges.2 →
        ∃ be, (squareCube n).boundary e rank = .ok (some be) ∧ be.toRank ≠ b.toRank ∧
        ∃ side bs te je ie, side.isEdge = true ∧
          (squareCube n).boundary side be.toRank = .ok (some bs) ∧ bs.toRank = b.toRank ∧
          (squareCube n).At be.toRank te je ie ∧
          ((edgeSeg n te je ie side).1 = corner n t j i bt.dir.1 bt.dir.2 ∨
           (edgeSeg n te je ie side).2 = corner n t j i bt.dir.1 bt.dir.2) := by
  obtain ⟨p, hp, ht, ht6, rfl⟩ := exists_pos hn h0 h1
  obtain ⟨rfl, rfl, rfl⟩ := (at_iff hp t j i).1 hpos
  have hbd : (squareCube n).boundary bt (p.rank n) = _ := boundary_eq hp bt
  have dir_inj : ∀ x y : BType, x.dir = y.dir → x = y := by
    intro x y; cases x <;> cases y <;> simp [BType.dir]
  constructor
  · rw [hbd, ← flat_none_iff hp ht ht6 hb, ← nbr_flat hp bt]
    cases nbr n bt p <;> simp
  · intro b hbb
    rw [hbd] at hbb
    cases hq : nbr n bt p with
    | none => rw [hq] at hbb; simp at hbb
    | some x =>
      rw [hq] at hbb
      simp only [Option.map_some, Except.ok.injEq, Option.some.injEq] at hbb
      subst hbb
      obtain ⟨q, r⟩ := x
      have hflat := (nbr_flat hp bt).symm.trans hq
      have hqok : q.red.Ok n := red_ok (nbr_ok hp hq)
      have hqt : 0 ≤ q.red.t ∧ q.red.t < 6 := by simp only; omega
      have hne : q.red ≠ p := flat_ne_self hp ht ht6 hflat
      refine ⟨fun h => hne (rank_inj hqok hp h), ⟨q.red.t, q.red.j, q.red.i,
        (at_iff hqok _ _ _).2 ⟨rfl, rfl, rfl⟩, ?_⟩, ?_⟩
      · intro back hback
        simp only at hback
        rw [← recipB_dir bt r] at hback
        rw [dir_inj _ _ hback]
        have hgeo := congrArg Prod.fst (flat_geometry hp ht ht6 hflat)
        have hr : r % 4 = 0 ∨ r % 4 = 1 ∨ r % 4 = 2 ∨ r % 4 = 3 := by omega
        rcases hr with hr | hr | hr | hr <;> cases bt <;> simp [BType.isEdge] at hb <;>
          simpa [recipB, hr, edgeSeg, BType.dir] using hgeo
      · intro e he
        have hee : e.isEdge = true := by
          rcases he with rfl | rfl <;> cases bt <;> simp [BType.isEdge] at hb <;> rfl
        have hy : ∃ y, nbr n e p = some y := by
          cases e <;> simp [BType.isEdge] at hee <;> exact ⟨_, rfl⟩
        obtain ⟨y, hy⟩ := hy
        have hyok : y.1.red.Ok n := red_ok (nbr_ok hp hy)
        obtain ⟨g1, g2, ⟨z, hz, hzx⟩, g3⟩ := flat_around hp ht ht6 hb he hflat
          ((nbr_flat hp e).symm.trans hy)
        have hbe : (squareCube n).boundary e (p.rank n) = _ := boundary_eq hp e
        have hbs : (squareCube n).boundary (aroundEdge bt e y.2) (y.1.red.rank n) = _ :=
          boundary_eq hyok _
        have hz' : nbr n (aroundEdge bt e y.2) y.1.red = some z := (nbr_flat hyok _).trans hz
        refine ⟨⟨e, p.rank n, y.1.red.rank n, y.2⟩, by rw [hbe, hy]; rfl, ?_,
          aroundEdge bt e y.2, ⟨_, y.1.red.rank n, z.1.red.rank n, z.2⟩,
          y.1.red.t, y.1.red.j, y.1.red.i, g1, by rw [hbs, hz']; rfl, ?_,
          (at_iff hyok _ _ _).2 ⟨rfl, rfl, rfl⟩, g3⟩
        · intro h
          have := rank_inj hyok hqok h
          have := flat_distinct hp ht ht6 ((nbr_flat hp e).symm.trans hy) hflat this
          rw [this] at hee; rw [hee] at hb; exact Bool.noConfusion hb
        · simp only [hzx]

example : (squareCube 2).boundary .southwest 0 = .ok none ∧
    (squareCube 2).boundary .northwest 0 = .ok (some ⟨.northwest, 0, 18, 1⟩) := by decide

/-! ## C10 -/

/-- C10, cubed sphere: two boundaries of a rank with the same neighbour are the same boundary. -/
theorem C10_cube_distinct_neighbours (n : Int) (hn : 0 < n) (rank : Int) (h0 : 0 ≤ rank)
    (h1 : rank < (squareCube n).totalRanks) (bt bt' : BType) (b b' : Boundary)
    (hb : (squareCube n).boundary bt rank = .ok (some b))
    (hb' : (squareCube n).boundary bt' rank = .ok (some b'))
    (h : b.toRank = b'.toRank) : bt = bt' := by
  obtain ⟨p, hp, ht, ht6, rfl⟩ := exists_pos hn h0 h1
  have e : (squareCube n).boundary bt (p.rank n) = _ := boundary_eq hp bt
  have e' : (squareCube n).boundary bt' (p.rank n) = _ := boundary_eq hp bt'
  rw [e] at hb; rw [e'] at hb'
  cases hx : nbr n bt p with
  | none => rw [hx] at hb; simp at hb
  | some x =>
    cases hy : nbr n bt' p with
    | none => rw [hy] at hb'; simp at hb'
    | some y =>
      rw [hx] at hb; rw [hy] at hb'
      simp only [Option.map_some, Except.ok.injEq, Option.some.injEq] at hb hb'
      subst hb; subst hb'
      exact flat_distinct hp ht ht6 ((nbr_flat hp _).symm.trans hx) ((nbr_flat hp _).symm.trans hy)
        (rank_inj (red_ok (nbr_ok hp hx)) (red_ok (nbr_ok hp hy)) h)

/-- C10, single tile: the eight neighbours of every rank are pairwise distinct and different from
the rank exactly when both layout sizes are at least 3 (the check of `TileCommunicator`,
`ndsl/comm/communicator.py` 686-762). -/
theorem C10_tile_distinct_iff (ly lx : Int) (hy : 0 < ly) (hx : 0 < lx) :
    (∀ rank, 0 ≤ rank → rank < (TilePart.mk (ly, lx)).totalRanks → ∀ bt bt' : BType,
      ((TilePart.mk (ly, lx)).boundary bt rank).toRank ≠ rank ∧
      (((TilePart.mk (ly, lx)).boundary bt rank).toRank =
        ((TilePart.mk (ly, lx)).boundary bt' rank).toRank → bt = bt')) ↔ (3 ≤ ly ∧ 3 ≤ lx) := by
  have key : ∀ (a d m : Int), 0 ≤ a → a < m → (d = -1 ∨ d = 0 ∨ d = 1) →
      (a + d) % m = (if d = -1 then (if a = 0 then m - 1 else a - 1)
      else if d = 1 then (if a = m - 1 then 0 else a + 1) else a) :=
    fun a d m h1 h2 h3 => wrap_x h1 h2 d h3
  constructor
  · intro h
    have h := h 0 (by omega) (Int.mul_pos hy hx)
    have b0 : ∀ bt, ((TilePart.mk (ly, lx)).boundary bt 0).toRank =
        ((0 + bt.dir.2) % ly) * lx + (0 + bt.dir.1) % lx := by
      intro bt
      have := tile_boundary_eq (ly := ly) (lx := lx) (j := 0) (i := 0) (by omega) hy (by omega) hx bt
      rw [show (0 : Int) * lx + 0 = 0 by omega] at this
      rw [this]
    constructor
    · rcases (by omega : ly = 1 ∨ ly = 2 ∨ 3 ≤ ly) with rfl | rfl | h3
      · have := (h .north .south).2 (by rw [b0, b0]; simp [BType.dir])
        exact BType.noConfusion this
      · have := (h .north .south).2 (by rw [b0, b0]; simp [BType.dir])
        exact BType.noConfusion this
      · exact h3
    · rcases (by omega : lx = 1 ∨ lx = 2 ∨ 3 ≤ lx) with rfl | rfl | h3
      · have := (h .east .west).2 (by rw [b0, b0]; simp [BType.dir])
        exact BType.noConfusion this
      · have := (h .east .west).2 (by rw [b0, b0]; simp [BType.dir])
        exact BType.noConfusion this
      · exact h3
  · rintro ⟨hy3, hx3⟩ rank h0 h1 bt bt'
    obtain ⟨j, i, a, b, c, d, rfl⟩ := tile_surj hx h0 h1
    simp only [tile_boundary_eq a b c d]
    have nn : ∀ (v : Int), 0 ≤ v % lx ∧ v % lx < lx := fun v =>
      ⟨Int.emod_nonneg _ (by omega), Int.emod_lt_of_pos _ hx⟩
    constructor
    · intro e
      have := radix_unique (nn _).1 (nn _).2 c d e
      have ky := key j bt.dir.2 ly a b (by cases bt <;> simp [BType.dir])
      have kx := key i bt.dir.1 lx c d (by cases bt <;> simp [BType.dir])
      rw [ky, kx] at this
      cases bt <;> simp [BType.dir] at this <;> (repeat' split at this) <;> omega
    · intro e
      have := radix_unique (nn _).1 (nn _).2 (nn _).1 (nn _).2 e
      rw [key j bt.dir.2 ly a b (by cases bt <;> simp [BType.dir]),
        key i bt.dir.1 lx c d (by cases bt <;> simp [BType.dir]),
        key j bt'.dir.2 ly a b (by cases bt' <;> simp [BType.dir]),
        key i bt'.dir.1 lx c d (by cases bt' <;> simp [BType.dir])] at this
      obtain ⟨e1, e2⟩ := this
      have f1 : bt.dir.2 = bt'.dir.2 := by
        cases bt <;> cases bt' <;> simp [BType.dir] at e1 ⊢ <;> (repeat' split at e1) <;> omega
      have f2 : bt.dir.1 = bt'.dir.1 := by
        cases bt <;> cases bt' <;> simp [BType.dir] at e2 ⊢ <;> (repeat' split at e2) <;> omega
      cases bt <;> cases bt' <;> simp [BType.dir] at f1 f2 ⊢

example : (squareCube 1).boundary .north 0 = .ok (some ⟨.north, 0, 2, 3⟩) ∧
    (squareCube 1).boundary .east 0 = .ok (some ⟨.east, 0, 1, 0⟩) := by decide

end NDSL
