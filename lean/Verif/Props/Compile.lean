import Verif.Lemmas.Compile
import Mathlib.Tactic.Ring

/-! Properties C42 to C45: configuration equality and distributed compilation. -/
namespace NDSL.Compile

theorem ranks_sit (p : Part) (h1 : 0 < p.layout.1) (h2 : 0 < p.layout.2) (r : Int)
    (hr : 0 ≤ r) (hr2 : r < p.totalRanks) :
    ∃ t y x, Sits p r t y x ∧ p.tileIndex r = .ok t ∧ 0 ≤ t := by
  obtain ⟨t, y, x, h⟩ := exists_sits p h1 h2 r
  have hA : 0 < p.layout.1 * p.layout.2 := Int.mul_pos h1 h2
  have j := jn_bounds h.1 h.2.1 h.2.2.1 h.2.2.2.1
  have ht0 : 0 ≤ t := by
    rcases Int.lt_or_le t 0 with hneg | hok
    · exfalso
      have := Int.mul_le_mul_of_nonneg_right (show t ≤ -1 by omega)
        (Int.le_of_lt hA)
      have := h.2.2.2.2
      omega
    · exact hok
  cases p with
  | cube q => exact ⟨t, y, x, h, sits_tile_cube h, ht0⟩
  | tile q =>
    have : t = 0 := by
      rcases Int.lt_or_le 0 t with hpos | hok
      · exfalso
        have := Int.mul_le_mul_of_nonneg_right (show 1 ≤ t by omega)
          (Int.le_of_lt hA)
        have h5 := h.2.2.2.2
        have : (Part.tile q).totalRanks = (Part.tile q).layout.1 * (Part.tile q).layout.2 := rfl
        omega
      · omega
    subst this
    exact ⟨0, y, x, h, rfl, Int.le_refl _⟩

theorem rank_of_place (p : Part) {y x : Int} (hy : 0 ≤ y) (hy2 : y < p.layout.1) (hx : 0 ≤ x)
    (hx2 : x < p.layout.2) :
    ∃ r, 0 ≤ r ∧ r < p.totalRanks ∧ Sits p r 0 y x ∧ p.tileIndex r = .ok 0 := by
  have j := jn_bounds hy hy2 hx hx2
  have hs : Sits p (y * p.layout.2 + x) 0 y x := ⟨hy, hy2, hx, hx2, by omega⟩
  refine ⟨y * p.layout.2 + x, j.1, ?_, hs, ?_⟩
  · cases p with
    | tile q => exact j.2
    | cube q =>
      have : (Part.cube q).totalRanks
        = 6 * ((Part.cube q).layout.1 * (Part.cube q).layout.2) := rfl
      omega
  · cases p with
    | tile q => rfl
    | cube q => exact sits_tile_cube hs

/-- Places with the same code path. -/
theorem pathAt_inj {a b c d : Third} (h : pathAt a b = pathAt c d) : a = c ∧ b = d := by
  cases a <;> cases b <;> cases c <;> cases d <;> simp_all [pathAt]

theorem thirdOf_eq {n a b : Int} (hn : 2 ≤ n) :
    thirdOf n a = thirdOf n b ↔ ((a = 0 ↔ b = 0) ∧ (a = n - 1 ↔ b = n - 1)) := by
  unfold thirdOf
  split_ifs <;> simp <;> omega

/-- The statement on places that `CompiledOnce` comes down to. -/
theorem compiledOnce_iff_places (p : Part) (h1 : 2 ≤ p.layout.1) (h2 : 2 ≤ p.layout.2) :
    CompiledOnce p false ↔
      ∀ y x, 0 ≤ y → y < p.layout.1 → 0 ≤ x → x < p.layout.2 →
        ∃ y' x', (0 ≤ y' ∧ y' < p.layout.1 ∧ 0 ≤ x' ∧ x' < p.layout.2 ∧ Chosen p.layout y' x' ∧
            thirdOf p.layout.1 y' = thirdOf p.layout.1 y ∧
            thirdOf p.layout.2 x' = thirdOf p.layout.2 x) ∧
          ∀ y'' x'', 0 ≤ y'' → y'' < p.layout.1 → 0 ≤ x'' → x'' < p.layout.2 →
            Chosen p.layout y'' x'' → thirdOf p.layout.1 y'' = thirdOf p.layout.1 y →
            thirdOf p.layout.2 x'' = thirdOf p.layout.2 x → y'' = y' ∧ x'' = x' := by
  constructor
  · intro H y x hy hy2 hx hx2
    obtain ⟨r, hr, hr2, hs, ht⟩ := rank_of_place p hy hy2 hx hx2
    obtain ⟨path, hp, c, ⟨hc, hc2, hcc, hcp⟩, huniq⟩ := H r hr hr2
    obtain ⟨t', y', x', hs', ht', -⟩ := ranks_sit p (by omega) (by omega) c hc hc2
    rw [identify_sits hs h1 h2] at hp
    rw [identify_sits hs' h1 h2] at hcp
    obtain ⟨ht0, hch⟩ := (compiling_sits hs' ht').1 hcc
    have heq := pathAt_inj ((Except.ok.inj hcp).trans (Except.ok.inj hp).symm)
    refine ⟨y', x', ⟨hs'.1, hs'.2.1, hs'.2.2.1, hs'.2.2.2.1, hch, heq.1, heq.2⟩, ?_⟩
    intro y'' x'' a1 a2 a3 a4 hch' e1 e2
    obtain ⟨r'', hr'', hr2'', hs'', ht''⟩ := rank_of_place p a1 a2 a3 a4
    have := huniq r'' hr'' hr2'' ((compiling_sits hs'' ht'').2 ⟨rfl, hch'⟩)
      (by rw [identify_sits hs'' h1 h2, e1, e2]; exact hp)
    have := (sits_unique hs'' hs').1 this
    exact this.2
  · intro H r hr hr2
    obtain ⟨t, y, x, hs, ht, -⟩ := ranks_sit p (by omega) (by omega) r hr hr2
    obtain ⟨y', x', ⟨a1, a2, a3, a4, hch, e1, e2⟩, huniq⟩ :=
      H y x hs.1 hs.2.1 hs.2.2.1 hs.2.2.2.1
    refine ⟨_, identify_sits hs h1 h2, ?_⟩
    obtain ⟨c, hc, hc2, hsc, htc⟩ := rank_of_place p a1 a2 a3 a4
    refine ⟨c, ⟨hc, hc2, (compiling_sits hsc htc).2 ⟨rfl, hch⟩, ?_⟩, ?_⟩
    · rw [identify_sits hsc h1 h2, e1, e2]
    · intro c' hc' hc2' hcc hcp
      obtain ⟨t'', y'', x'', hs'', ht'', -⟩ := ranks_sit p (by omega) (by omega) c' hc' hc2'
      obtain ⟨z, hch''⟩ := (compiling_sits hs'' ht'').1 hcc
      rw [identify_sits hs'' h1 h2] at hcp
      have heq := pathAt_inj (Except.ok.inj hcp)
      have := huniq y'' x'' hs''.1 hs''.2.1 hs''.2.2.1 hs''.2.2.2.1 hch'' heq.1 heq.2
      exact (sits_unique hs'' hsc).2 ⟨z, this.1, this.2⟩

/-- **C43** (exact condition): with at least two ranks on each side of a tile, every code path
is compiled by exactly one rank exactly when the layout is square or two ranks wide. -/
theorem C43_compiled_once_iff (p : Part) (h1 : 2 ≤ p.layout.1) (h2 : 2 ≤ p.layout.2) :
    CompiledOnce p false ↔
      (p.layout.1 = p.layout.2 ∨ p.layout.1 = 2 ∨ p.layout.2 = 2) := by
  rw [compiledOnce_iff_places p h1 h2]
  generalize p.layout = l at *
  obtain ⟨R, C⟩ := l
  simp only [thirdOf_eq h1, thirdOf_eq h2]
  simp only [Chosen] at *
  constructor
  · intro H
    -- the right edge
    obtain ⟨y', x', ⟨a1, a2, a3, a4, hch, e1, e2⟩, huniq⟩ :=
      H 1 (C - 1) (by omega) (by omega) (by omega) (by omega)
    omega
  · intro H y x hy hy2 hx hx2
    refine ⟨if y = 0 then 0 else if y = R - 1 then R - 1 else 1,
      if x = 0 then 0 else if x = C - 1 then C - 1 else 1, ?_, ?_⟩
    · split_ifs <;> omega
    · intro y'' x'' b1 b2 b3 b4 hch e1 e2
      split_ifs <;> omega

/-- **C43**: on every square layout (the layouts the cubed sphere supports) every rank finds
its code path compiled by exactly one rank. -/
theorem C43_square (p : Part) (n : Int) (hn : 1 ≤ n) (hl : p.layout = (n, n)) :
    CompiledOnce p false := by
  by_cases h : n = 1
  · subst h
    intro r hr hr2
    have hid : ∀ r, identifyCodePath r p false = .ok .all := by
      intro r; simp [identifyCodePath, hl]
    refine ⟨.all, hid r, ?_⟩
    have l1 : p.layout.1 = 1 := by rw [hl]
    have l2 : p.layout.2 = 1 := by rw [hl]
    obtain ⟨c, hc, hc2, hsc, htc⟩ :=
      rank_of_place p (y := 0) (x := 0) (by omega) (by omega) (by omega) (by omega)
    refine ⟨c, ⟨hc, hc2, (compiling_sits hsc htc).2 ⟨rfl, Or.inl ⟨by omega, by omega⟩⟩, hid c⟩,
      ?_⟩
    intro c' hc' hc2' hcc _
    obtain ⟨t, y, x, hs, ht, -⟩ := ranks_sit p (by omega) (by omega) c' hc' hc2'
    have hz := ((compiling_sits hs ht).1 hcc).1
    refine (sits_unique hs hsc).2 ⟨hz, ?_, ?_⟩
    · have := hs.1; have := hs.2.1; omega
    · have := hs.2.2.1; have := hs.2.2.2.1; omega
  · exact (C43_compiled_once_iff p (by rw [hl]; simp; omega) (by rw [hl]; simp; omega)).2
      (Or.inl (by rw [hl]))

/-- **C43**: with a single code path only rank 0 compiles, and every rank uses its code. -/
theorem C43_single_code_path (p : Part) (h : 0 < p.totalRanks) : CompiledOnce p true := by
  intro r hr hr2
  refine ⟨.all, by simp [identifyCodePath], 0, ⟨Int.le_refl _, h, ?_, ?_⟩, ?_⟩
  · simp [determineCompilingRank]
  · simp [identifyCodePath]
  · intro c' _ _ hc _
    simpa [determineCompilingRank] using hc

/-- **C43**: layouts with exactly one side of one rank are refused on every rank. -/
theorem C43_thin_layout_refused (p : Part) (hne : p.layout ≠ (1, 1))
    (h : p.layout.1 = 1 ∨ p.layout.2 = 1) (r : Int) :
    identifyCodePath r p false = .error .notImplemented := by
  simp [identifyCodePath, hne, h]

/-- **C43** fails for other layouts, for instance three by four ranks per tile: no rank compiles
the top code path. -/
theorem C43_nonsquare_violated :
    ¬ CompiledOnce (.cube ⟨⟨(3, 4)⟩⟩) false := by
  rw [C43_compiled_once_iff _ (by decide) (by decide)]
  decide

/-- and of the two ranks five and six, of the centre of the first tile, both compile. -/
theorem C43_nonsquare_twice_violated :
    let p := Part.cube ⟨⟨(3, 4)⟩⟩
    determineCompilingRank 5 p false = .ok true ∧ determineCompilingRank 6 p false = .ok true ∧
      identifyCodePath 5 p false = .ok .center ∧ identifyCodePath 6 p false = .ok .center := by
  decide +kernel

example : CompiledOnce (.cube ⟨⟨(4, 4)⟩⟩) false := C43_square _ 4 (by decide) rfl
example : CompiledOnce (.cube ⟨⟨(2, 5)⟩⟩) false :=
  (C43_compiled_once_iff _ (by decide) (by decide)).2 (by decide)

/-! ### C44 -/

/-- The layout whose caches are read in run mode. -/
def referenceSide (n : Int) : Int := if n ≤ 3 then n else 3

/-- **C44** (run mode): the rank whose cache is read is a rank of a one, two or three wide
tile, and it has the same code path there. For up to three ranks a side it is the rank's own
position. -/
theorem C44_run_mode (p q : Part) (n : Int) (hn : 1 ≤ n) (hl : p.layout = (n, n))
    (hq : q.layout = (referenceSide n, referenceSide n)) (r : Int) (hr : 0 ≤ r)
    (hr2 : r < p.totalRanks) :
    ∃ e path, compilingEquivalent .run r p = .ok e ∧ 0 ≤ e ∧
      e < referenceSide n * referenceSide n ∧
      identifyCodePath r p false = .ok path ∧ identifyCodePath e q false = .ok path ∧
      (n ≤ 3 → p.tilePart.subtileIndex e = p.tilePart.subtileIndex r) := by
  have l1 : p.layout.1 = n := by rw [hl]
  have l2 : p.layout.2 = n := by rw [hl]
  have q1 : q.layout.1 = referenceSide n := by rw [hq]
  have q2 : q.layout.2 = referenceSide n := by rw [hq]
  have hlt : p.tilePart.layout = (n, n) := hl
  obtain ⟨t, y, x, hs, ht, -⟩ := ranks_sit p (by omega) (by omega) r hr hr2
  have hsub := sits_subtile hs
  obtain ⟨b1, b2, b3, b4, b5⟩ := hs
  by_cases h1 : n = 1
  · subst h1
    have hpr : identifyCodePath r p false = .ok .all := by simp [identifyCodePath, hl]
    have hqr : identifyCodePath 0 q false = .ok .all := by
      simp [identifyCodePath, hq, referenceSide]
    have hsub0 : p.tilePart.subtileIndex 0 = (0, 0) :=
      sits_subtile (t := 0) ⟨by omega, by omega, by omega, by omega, by omega⟩
    refine ⟨0, .all, by simp [compilingEquivalent, hl], by omega, by decide, hpr, hqr, ?_⟩
    intro _
    rw [hsub, hsub0]
    have : y = 0 := by omega
    have : x = 0 := by omega
    simp [*]
  · have hid := identify_sits (p := p) (r := r) (t := t) (y := y) (x := x)
      ⟨b1, b2, b3, b4, b5⟩ (by omega) (by omega)
    have key : ∀ (y' x' : Int), 0 ≤ y' → y' < referenceSide n → 0 ≤ x' → x' < referenceSide n →
        identifyCodePath (y' * referenceSide n + x') q false
          = .ok (pathAt (thirdOf (referenceSide n) y') (thirdOf (referenceSide n) x')) := by
      intro y' x' c1 c2 c3 c4
      have hm2 : 2 ≤ referenceSide n := by unfold referenceSide; split <;> omega
      have := identify_sits (p := q) (r := y' * referenceSide n + x') (t := 0) (y := y')
        (x := x') ⟨c1, by omega, c3, by omega, by rw [q2]; omega⟩ (by omega) (by omega)
      rw [this, q1, q2]
    have own : ∀ (y' x' : Int), n ≤ 3 → y' = y → x' = x →
        p.tilePart.subtileIndex (y' * n + x') = p.tilePart.subtileIndex r := by
      intro y' x' hn3 ey ex
      rw [hsub, sits_subtile (p := p) (r := y' * n + x') (t := 0) (y := y') (x := x')
        ⟨by omega, by omega, by omega, by omega, by rw [l2]; omega⟩, ey, ex]
    by_cases h2 : n = 2
    · subst h2
      have hm : referenceSide 2 = 2 := by decide
      have he : compilingEquivalent .run r p = .ok (y * 2 + x) := by
        simp only [compilingEquivalent, hl, TilePart.onBottom, TilePart.onTop, TilePart.onLeft,
          TilePart.onRight, onTileBottom, onTileTop, onTileLeft, onTileRight, hsub, hlt]
        have hy : y = 0 ∨ y = 1 := by omega
        have hx : x = 0 ∨ x = 1 := by omega
        rcases hy with rfl | rfl <;> rcases hx with rfl | rfl <;> rfl
      refine ⟨y * 2 + x, _, he, by omega, by rw [hm]; omega, hid, ?_, fun h => own y x h rfl rfl⟩
      have := key y x b1 (by rw [hm]; omega) b3 (by rw [hm]; omega)
      rw [hm] at this
      rw [this, l1, l2]
    · have h3 : 3 ≤ n := by omega
      have hm : referenceSide n = 3 := by unfold referenceSide; split <;> omega
      rw [hm] at key ⊢
      have he : compilingEquivalent .run r p
          = .ok ((if y = 0 then 0 else if y = n - 1 then 2 else 1) * 3
              + (if x = 0 then 0 else if x = n - 1 then 2 else 1)) := by
        have n1 : ¬ (p.layout = (1, 1)) := by rw [hl]; simp; omega
        have n2 : ¬ (p.layout = (2, 2)) := by rw [hl]; simp; omega
        simp only [compilingEquivalent]
        rw [if_pos trivial, if_neg n1, if_neg n2]
        simp only [TilePart.onBottom, TilePart.onTop, TilePart.onLeft, TilePart.onRight,
          onTileBottom, onTileTop, onTileLeft, onTileRight, hsub, hlt, beq_iff_eq]
        split_ifs <;> rfl
      refine ⟨_, _, he, by split_ifs <;> omega, by split_ifs <;> omega, hid, ?_, ?_⟩
      · rw [key _ _ (by split_ifs <;> omega) (by split_ifs <;> omega) (by split_ifs <;> omega)
          (by split_ifs <;> omega), l1, l2]
        congr 2
        · unfold thirdOf; split_ifs <;> first | rfl | omega
        · unfold thirdOf; split_ifs <;> first | rfl | omega
      · intro hn3
        have : n = 3 := by omega
        subst this
        exact own _ _ hn3 (by split_ifs <;> omega) (by split_ifs <;> omega)

/-- **C44** (build modes): on the cubed sphere the equivalent rank is on the first tile, at the
same position, and it is a compiling rank; and it is its own equivalent. -/
theorem C44_build_modes (q : CubePart) (mode : RunMode) (hm : mode ≠ .run)
    (h1 : 0 < q.tile.layout.1) (h2 : 0 < q.tile.layout.2) (r : Int) (hr : 0 ≤ r)
    (hr2 : r < q.totalRanks) :
    ∃ e, compilingEquivalent mode r (.cube q) = .ok e ∧ 0 ≤ e ∧ e < q.totalRanks ∧
      (Part.cube q).tileIndex e = .ok 0 ∧
      q.tile.subtileIndex e = q.tile.subtileIndex r ∧
      rankIsCompiling e q.totalRanks = true ∧
      compilingEquivalent mode e (.cube q) = .ok e := by
  obtain ⟨t, y, x, hs, ht, -⟩ := ranks_sit (.cube q) h1 h2 r hr hr2
  have hsub := sits_subtile hs
  obtain ⟨b1, b2, b3, b4, b5⟩ := hs
  have j := jn_bounds b1 b2 b3 b4
  have hA : q.tile.totalRanks = (Part.cube q).layout.1 * (Part.cube q).layout.2 := rfl
  have he : r % q.tile.totalRanks = y * (Part.cube q).layout.2 + x := by
    rw [hA, b5]; exact radix_mod j.1 j.2
  have hs' : Sits (.cube q) (y * (Part.cube q).layout.2 + x) 0 y x :=
    ⟨b1, b2, b3, b4, by omega⟩
  have hT : q.totalRanks = 6 * q.tile.totalRanks := rfl
  refine ⟨y * (Part.cube q).layout.2 + x, ?_, j.1, by omega, sits_tile_cube hs', ?_, ?_, ?_⟩
  · simp only [compilingEquivalent, if_neg hm]; rw [← he]; rfl
  · exact (sits_subtile hs').trans hsub.symm
  · simp only [rankIsCompiling, decide_eq_true_eq]; omega
  · simp only [compilingEquivalent, if_neg hm]
    congr 1
    exact Int.emod_eq_of_lt j.1 (by rw [show (Part.cube q).tilePart.totalRanks = _ from hA]; omega)

/-- **C44** (who compiles): on the cubed sphere the compiling ranks are exactly those of the first tile. -/
theorem C44_compiling_ranks (q : CubePart) (h1 : 0 < q.tile.layout.1) (h2 : 0 < q.tile.layout.2) (r : Int)
    (hr : 0 ≤ r) (hr2 : r < q.totalRanks) :
    rankIsCompiling r q.totalRanks = true ↔ (Part.cube q).tileIndex r = .ok 0 := by
  obtain ⟨t, y, x, hs, ht, ht2⟩ := ranks_sit (.cube q) h1 h2 r hr hr2
  have hti := sits_tile_cube hs
  obtain ⟨b1, b2, b3, b4, b5⟩ := hs
  have j := jn_bounds b1 b2 b3 b4
  have hA : q.tile.totalRanks = (Part.cube q).layout.1 * (Part.cube q).layout.2 := rfl
  have hT : q.totalRanks = 6 * q.tile.totalRanks := rfl
  rw [hti]
  simp only [rankIsCompiling, decide_eq_true_eq, Except.ok.injEq]
  rw [hT, hA]
  generalize (Part.cube q).layout.1 * (Part.cube q).layout.2 = A at *
  generalize y * (Part.cube q).layout.2 + x = z at *
  constructor
  · intro h
    by_contra hne
    have := Int.mul_le_mul_of_nonneg_right (show 1 ≤ t by omega) (show 0 ≤ A by omega)
    omega
  · intro h
    rw [h] at b5
    omega

example : compilingEquivalent .run 30 (.cube ⟨⟨(4, 4)⟩⟩) = .ok 7 ∧
    identifyCodePath 30 (.cube ⟨⟨(4, 4)⟩⟩) false = .ok .top ∧
    identifyCodePath 7 (.cube ⟨⟨(3, 3)⟩⟩) false = .ok .top := by decide +kernel
example : compilingEquivalent .build 30 (.cube ⟨⟨(4, 4)⟩⟩) = .ok 14 ∧
    rankIsCompiling 14 96 = true := by decide +kernel

/-! ### C45 -/

/-- **C45** is broken as written: with more than one rank the destination is a float, which
mpi4py refuses, so that no compiling rank ever sends a message. -/
theorem C45_float_destination_violated (rank size : Int) (h : 1 < size) :
    unblockWaitingTiles rank size = .error .typeError := by
  unfold unblockWaitingTiles
  rw [if_pos (by omega)]
  rfl

/-- A rank on its own unblocks nobody, and nothing is refused. -/
theorem C45_alone (rank size : Int) (h : size ≤ 1) : unblockWaitingTiles rank size = .ok [] := by
  unfold unblockWaitingTiles
  rw [if_neg (by omega)]

/-- **C45** (partial): of the destinations as numbers, each waiting rank is named exactly once,
by the one rank it waits for, and nobody else is named. What is missing is the conversion of
the destinations to integers, see `C45_float_destination_violated`. -/
theorem C45_matching_partial (q : CubePart) (n : Int) (hn : 1 ≤ n) (hl : q.tile.layout = (n, n))
    (mode : RunMode) (hm : mode ≠ .run) (r w : Int) (hr : 0 ≤ r) (hr2 : r < q.totalRanks)
    (hw : 0 ≤ w) (hw2 : w < q.totalRanks) :
    ∃ ir iw, decompositionInfo mode true (some (r, .cube q)) = .ok ir ∧
      decompositionInfo mode true (some (w, .cube q)) = .ok iw ∧
      (sendsTo ir true mode).count (.float (6 * w))
        = (if waitsFor iw true mode = some r then 1 else 0) := by
  have hlc : (Part.cube q).layout = (n, n) := hl
  have hA : q.tile.totalRanks = n * n := by simp [TilePart.totalRanks, hl]
  have hT : q.totalRanks = 6 * (n * n) := by simp [CubePart.totalRanks, hA]
  have hN : 0 < n * n := Int.mul_pos (by omega) (by omega)
  have hinfo : ∀ r, decompositionInfo mode true (some (r, .cube q))
      = .ok ⟨r, q.totalRanks, r % (n * n), rankIsCompiling r q.totalRanks⟩ := by
    intro r
    have hne : ¬ ((Part.cube q).layout.1 ≠ (Part.cube q).layout.2) := by rw [hlc]; simp
    have : (Part.cube q).tilePart.totalRanks = n * n := hA
    simp only [decompositionInfo]
    rw [if_neg hne]
    simp only [if_true, compilingEquivalent, if_neg hm, this, bind, Except.bind]
    rfl
  refine ⟨_, _, hinfo r, hinfo w, ?_⟩
  have hb : (mode != RunMode.run) = true := by simpa using hm
  have hsz : q.totalRanks > 1 := by omega
  simp only [sendsTo, waitsFor, blockWaiting, hb, Bool.and_true, Bool.true_and, if_pos hsz,
    rankIsCompiling, hT]
  generalize hN' : n * n = N at *
  by_cases hc : 6 * r < 6 * N
  · simp only [hc, decide_true, if_true, tiles, List.map, unblockDest]
    have hwd : w = w / N * N + w % N := by
      have := Int.mul_ediv_add_emod w N
      rw [Int.mul_comm] at this; omega
    have hm1 : 0 ≤ w % N := Int.emod_nonneg _ (by omega)
    have hm2 : w % N < N := Int.emod_lt_of_pos _ hN
    have hd0 : 0 ≤ w / N := Int.ediv_nonneg hw (by omega)
    have hd6 : w / N < 6 := Int.ediv_lt_of_lt_mul hN (by omega)
    generalize w / N = d at *
    generalize w % N = m at *
    have h6 : 6 * N > 1 := by omega
    simp only [if_pos h6, List.count_cons, List.count_nil, beq_iff_eq, PyNum.float.injEq]
    by_cases hw6 : 6 * w < 6 * N
    · simp only [hw6, decide_true, Bool.not_true, Bool.false_eq_true, if_false]
      split_ifs <;> first | rfl | (exfalso; omega) | simp_all
    · simp only [hw6, decide_false, Bool.not_false, if_true, Option.some.injEq]
      have hd : d = 1 ∨ d = 2 ∨ d = 3 ∨ d = 4 ∨ d = 5 := by
        have : d ≠ 0 := by rintro rfl; omega
        omega
      rcases hd with rfl | rfl | rfl | rfl | rfl <;> split_ifs <;> omega
  · simp only [hc, decide_false, Bool.false_eq_true, if_false, List.count_nil]
    have hm2 : w % N < N := Int.emod_lt_of_pos _ hN
    split_ifs <;> simp_all <;> omega

/-- On a single tile the compiling ranks are still the first sixth, so that with six by six
ranks rank 6 waits for a message from itself. -/
theorem C45_single_tile_violated :
    ∃ i, decompositionInfo .buildAndRun true (some (6, .tile ⟨(6, 6)⟩)) = .ok i ∧
      waitsFor i true .buildAndRun = some 6 ∧ sendsTo i true .buildAndRun = [] := by
  refine ⟨⟨6, 36, 6, false⟩, ?_, ?_, ?_⟩ <;> decide +kernel

example : ∃ i, decompositionInfo .build true (some (7, .cube ⟨⟨(2, 2)⟩⟩)) = .ok i ∧
    waitsFor i true .build = some 3 := ⟨⟨7, 24, 3, false⟩, by decide +kernel, by decide +kernel⟩

/-! ### C42 -/

theorem hashInput_eq (c : SConfig) : hashInput c = c.gt4py ++ List.replicate (weight c) 0 := by
  obtain ⟨b, g, o1, o2, o3, o4, o5, o6, m⟩ := c
  cases o1 <;> cases o2 <;> cases o3 <;> cases o4 <;> cases o5 <;> cases o6 <;> cases m <;>
    simp [hashInput, weight, pyBytes, RunMode.value, List.replicate_succ]

theorem append_zeros_inj {a b : List Nat} {m n : Nat} (ha : ∀ x ∈ a, x ≠ 0)
    (hb : ∀ x ∈ b, x ≠ 0)
    (h : a ++ List.replicate m 0 = b ++ List.replicate n 0) : a = b ∧ m = n := by
  induction a generalizing b with
  | nil =>
    cases b with
    | nil => exact ⟨rfl, by simpa using congrArg List.length h⟩
    | cons y b =>
      exfalso
      cases m with
      | zero => simp at h
      | succ m =>
        simp only [List.nil_append, List.replicate_succ, List.cons_append, List.cons.injEq] at h
        exact hb y (by simp) h.1.symm
  | cons x a ih =>
    cases b with
    | nil =>
      exfalso
      cases n with
      | zero => simp at h
      | succ n =>
        simp only [List.nil_append, List.replicate_succ, List.cons_append, List.cons.injEq] at h
        exact ha x (by simp) h.1
    | cons y b =>
      simp only [List.cons_append, List.cons.injEq] at h
      obtain ⟨e1, e2⟩ := ih (fun z hz => ha z (List.mem_cons_of_mem _ hz))
        (fun z hz => hb z (List.mem_cons_of_mem _ hz)) h.2
      exact ⟨by rw [h.1, e1], e2⟩

/-- **C42** (one direction): configurations with the same options are equal and hash alike,
whatever md5 computes. -/
theorem C42_same_options_partial (md5 : List Nat → Nat) (a b : SConfig) (h : a = b) :
    configEq md5 a b = true ∧ hash md5 a = hash md5 b := by
  subst h; simp [configEq]

/-- **C42** (partial): assuming md5 has no collisions, two configurations compare equal exactly
when their GT4Py backend is the same and the *number* of options switched on (counting the run
mode as zero, one or two) is the same. What is missing for C42 is that the options themselves
agree: see the violations below. -/
theorem C42_equal_iff_partial (md5 : List Nat → Nat)
    (hmd5 : ∀ x y, md5 x = md5 y → x = y) (a b : SConfig) (ha : ∀ x ∈ a.gt4py, x ≠ 0)
    (hb : ∀ x ∈ b.gt4py, x ≠ 0) :
    configEq md5 a b = true ↔ a.gt4py = b.gt4py ∧ weight a = weight b := by
  simp only [configEq, hash, beq_iff_eq]
  constructor
  · intro h
    have := hmd5 _ _ h
    rw [hashInput_eq, hashInput_eq] at this
    exact append_zeros_inj ha hb this
  · rintro ⟨h1, h2⟩
    rw [hashInput_eq, hashInput_eq, h1, h2]

/-- **C42** (partial): configurations that differ in exactly one option are told apart. -/
theorem C42_single_difference_partial (md5 : List Nat → Nat)
    (hmd5 : ∀ x y, md5 x = md5 y → x = y) (a : SConfig) (ha : ∀ x ∈ a.gt4py, x ≠ 0) (v : Bool)
    (m : RunMode) :
    (v ≠ a.rebuild → configEq md5 a { a with rebuild := v } = false) ∧
    (v ≠ a.validateArgs → configEq md5 a { a with validateArgs := v } = false) ∧
    (v ≠ a.minimalCaching → configEq md5 a { a with minimalCaching := v } = false) ∧
    (v ≠ a.compareToNumpy → configEq md5 a { a with compareToNumpy := v } = false) ∧
    (v ≠ a.formatSource → configEq md5 a { a with formatSource := v } = false) ∧
    (v ≠ a.deviceSync → configEq md5 a { a with deviceSync := v } = false) ∧
    (m ≠ a.runMode → configEq md5 a { a with runMode := m } = false) := by
  have key : ∀ b : SConfig, b.gt4py = a.gt4py → weight a ≠ weight b → configEq md5 a b = false := by
    intro b hg hw
    rw [← Bool.not_eq_true, C42_equal_iff_partial md5 hmd5 a b ha (by rw [hg]; exact ha)]
    exact fun h => hw h.2
  refine ⟨?_, ?_, ?_, ?_, ?_, ?_, ?_⟩ <;> intro h <;> refine key _ rfl ?_ <;>
    simp only [weight]
  · cases v <;> cases h' : a.rebuild <;> simp_all
  · cases v <;> cases h' : a.validateArgs <;> simp_all
  · cases v <;> cases h' : a.minimalCaching <;> simp_all
  · cases v <;> cases h' : a.compareToNumpy <;> simp_all
  · cases v <;> cases h' : a.formatSource <;> simp_all
  · cases v <;> cases h' : a.deviceSync <;> simp_all
  · cases m <;> cases h' : a.runMode <;> simp_all [RunMode.value]

/-- A configuration used as a witness ("numpy" in bytes). -/
def exConfig : SConfig :=
  { backend := ['n'], gt4py := [110, 117, 109, 112, 121], rebuild := true, validateArgs := false,
    minimalCaching := false, compareToNumpy := false, formatSource := false,
    deviceSync := false, runMode := .buildAndRun }

/-- **C42** is false: whatever md5 is, "rebuild, do not validate" equals "do not rebuild,
validate". -/
theorem C42_swapped_options_violated (md5 : List Nat → Nat) :
    configEq md5 exConfig { exConfig with rebuild := false, validateArgs := true } = true := by
  have h : hashInput exConfig
      = hashInput { exConfig with rebuild := false, validateArgs := true } := by decide
  simp only [configEq, hash, h, beq_self_eq_true]

/-- a set option equals a higher run mode: "rebuild, build and run" equals "no rebuild, run
only" -/
theorem C42_run_mode_violated (md5 : List Nat → Nat) :
    configEq md5 exConfig { exConfig with rebuild := false, runMode := .run } = true := by
  have h : hashInput exConfig = hashInput { exConfig with rebuild := false, runMode := .run } := by
    decide
  simp only [configEq, hash, h, beq_self_eq_true]

/-- and the NDSL backend itself (for instance orchestrated or not) is not part of it. -/
theorem C42_backend_violated (md5 : List Nat → Nat) (c : SConfig) (other : List Char) :
    configEq md5 c { c with backend := other } = true := by
  simp [configEq, hash, hashInput]

example : (∀ x ∈ exConfig.gt4py, x ≠ 0) ∧ weight exConfig = 2 := by decide

end NDSL.Compile
