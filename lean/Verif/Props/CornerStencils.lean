import Verif.Lemmas.CornerStencils

/-! Property C50: the corner stencils copy by a quarter turn about the corner of the tile. -/
namespace NDSL.Corner

variable {K : Type} [Mul K]

/-- **C50** (the specification is meaningful): every point of a halo corner has exactly one
source, which is on the tile's side of the other edge (so not in that corner). -/
theorem C50_source_exists (e : Ext) (dir : Direction) (st : Stagger) (hx hy : Nat)
    (east north : Bool) (p : Point) (hp : InCorner e st hx hy east north p) :
    ∃ p', IsSource e dir st (st.2, st.1) east north p p' ∧
      (∀ p'', IsSource e dir st (st.2, st.1) east north p p'' → p'' = p') ∧
      ∀ hx' hy', ¬ InCorner e (st.2, st.1) hx' hy' east north p' := by
  suffices h : ∃ p', IsSource e dir st (st.2, st.1) east north p p' ∧
      ∀ hx' hy', ¬ InCorner e (st.2, st.1) hx' hy' east north p' by
    obtain ⟨p', h1, h2⟩ := h
    exact ⟨p', h1, fun p'' h3 => source_unique h3 h1, h2⟩
  obtain ⟨s1, s2⟩ := st
  obtain ⟨i, j⟩ := p
  obtain ⟨vi, vj, hv, hvi, hvj⟩ : ∃ vi vj : Int, vertex e east north = (2 * vi, 2 * vj) ∧
      True ∧ True := by
    cases east <;> cases north <;> exact ⟨_, _, rfl, trivial, trivial⟩
  -- the left turn, the right turn
  let δ : Place → Int := fun s => match s with | .centre => 1 | .edge => 0
  let pl : Point := (vi - (j - vj) - δ s2, vj + (i - vi))
  let pr : Point := (vi + (j - vj), vj - (i - vi) - δ s1)
  have hl : disp e (s2, s1) east north pl = turnLeft (disp e (s1, s2) east north (i, j)) := by
    simp only [disp, hv, turnLeft, pl, δ]
    cases s1 <;> cases s2 <;> simp only [Place.pos, Prod.mk.injEq] <;> omega
  have hr : disp e (s2, s1) east north pr = turnRight (disp e (s1, s2) east north (i, j)) := by
    simp only [disp, hv, turnRight, pr, δ]
    cases s1 <;> cases s2 <;> simp only [Place.pos, Prod.mk.injEq] <;> omega
  simp only [InCorner, IsSource] at *
  generalize hd : disp e (s1, s2) east north (i, j) = d at *
  have key : (match dir with
      | .x => SameSide d.1 (turnLeft d).1 | .y => SameSide d.2 (turnLeft d).2) ∨
      (match dir with
      | .x => SameSide d.1 (turnRight d).1 | .y => SameSide d.2 (turnRight d).2) := by
    cases dir <;> cases east <;> cases north <;>
      simp [SameSide, turnLeft, turnRight, Beyond] at hp ⊢ <;> omega
  rcases key with hk | hk
  · refine ⟨pl, ⟨Or.inl hl, by rw [hl]; exact hk⟩, ?_⟩
    intro hx' hy' hc
    rw [hl] at hc
    cases dir <;> cases east <;> cases north <;>
      simp [SameSide, turnLeft, Beyond] at hp hc hk <;> omega
  · refine ⟨pr, ⟨Or.inr hr, by rw [hr]; exact hk⟩, ?_⟩
    intro hx' hy' hc
    rw [hr] at hc
    cases dir <;> cases east <;> cases north <;>
      simp [SameSide, turnRight, Beyond] at hp hc hk <;> omega

/-- Common part of the proofs: one output, filled from one input. -/
theorem filled_one {e : Ext} {dom : Int → Int → Bool} {nk : Nat} {env : Coef → K}
    {bind : Param → Nat} (mem : Nat → Storage K) {tbl : List Stmt} {dst src : Param}
    {dir : Direction} {st st' : Stagger} {hx hy : Nat} {coef : Bool → Bool → Coef} {n : Int}
    (h1 : AtLeast e 1) (hn : bind src = bind dst → AtLeast e n)
    (ht : (tbl.all fun t => decide (t.dst = dst) && decide (t.src = src)) = true)
    (c1 : checkReads n (fun _ _ => true) tbl = true) (c2 : outerTable tbl = true)
    (c3 : checkFill tbl dst src dir st st' hx hy coef = true)
    (c4 : checkOnly tbl dst st hx hy = true) :
    Filled e dom nk dir st st' hx hy (fun east north v => scale env (coef east north) v)
      (mem (bind src)) (mem (bind dst)) (run e dom nk env bind tbl mem (bind dst)) ∧
    ∀ s, s ≠ bind dst → run e dom nk env bind tbl mem s = mem s := by
  have hd : ∀ t ∈ tbl, t.dst = dst ∧ t.src = src := by
    intro t h
    have := List.all_eq_true.mp ht t h
    simpa using this
  have hr : NoReadWritten e bind tbl := by
    by_cases hb : bind src = bind dst
    · exact noReadWritten_of_check (hn hb) c1 (fun _ _ _ _ _ => rfl)
    · intro t h i j _ s hs heq
      rw [(hd t h).2, (hd s hs).1] at heq
      exact absurd heq hb
  have hd' : ∀ t ∈ tbl, bind dst = bind t.dst → dst = t.dst := fun t h _ => ((hd t h).1).symm
  refine ⟨⟨filled_of_check mem h1 hr c2 hd' c3, unchanged_of_check mem hr hd' c4⟩, ?_⟩
  intro s hs
  exact other_storage mem (fun t h => by rw [(hd t h).1]; exact hs)

/-- **C50** (B grid, x direction): `FillCornersBGrid("i")`, also in place, as
`FillCornersBGrid.__call__` runs it. -/
theorem C50_bgrid_x (e : Ext) (dom : Int → Int → Bool) (nk : Nat) (env : Coef → K)
    (bind : Param → Nat) (mem : Nat → Storage K) (h1 : AtLeast e 1)
    (h3 : bind .qIn = bind .qOut → AtLeast e 3) :
    Filled e dom nk .x (.edge, .edge) (.edge, .edge) 3 3 (fun _ _ v => v)
      (mem (bind .qIn)) (mem (bind .qOut)) (run e dom nk env bind bgridX mem (bind .qOut)) ∧
    ∀ s, s ≠ bind .qOut → run e dom nk env bind bgridX mem s = mem s :=
  filled_one (coef := fun _ _ => .one) mem h1 h3 (by decide +kernel) (by decide +kernel)
    (by decide +kernel) (by decide +kernel) (by decide +kernel)

/-- **C50** (B grid, y direction): `FillCornersBGrid("j")`. -/
theorem C50_bgrid_y (e : Ext) (dom : Int → Int → Bool) (nk : Nat) (env : Coef → K)
    (bind : Param → Nat) (mem : Nat → Storage K) (h1 : AtLeast e 1)
    (h3 : bind .qIn = bind .qOut → AtLeast e 3) :
    Filled e dom nk .y (.edge, .edge) (.edge, .edge) 3 3 (fun _ _ v => v)
      (mem (bind .qIn)) (mem (bind .qOut)) (run e dom nk env bind bgridY mem (bind .qOut)) ∧
    ∀ s, s ≠ bind .qOut → run e dom nk env bind bgridY mem s = mem s :=
  filled_one (coef := fun _ _ => .one) mem h1 h3 (by decide +kernel) (by decide +kernel)
    (by decide +kernel) (by decide +kernel) (by decide +kernel)

/-- The factor of each corner. -/
def cornerCoef (east north : Bool) : Coef :=
  match east, north with
  | false, false => .sw
  | true, false => .se
  | false, true => .nw
  | true, true => .ne

/-- **C50** (A grid, two or three cells): `fill_corners_2cells_mult_x`, `..._y`,
`fill_corners_3cells_mult_x`, `..._y` fill the two or three corner cells of the first row (column)
beyond the tile with the turned values times the factor of the corner. -/
theorem C50_cells (e : Ext) (dom : Int → Int → Bool) (nk : Nat) (env : Coef → K)
    (bind : Param → Nat) (mem : Nat → Storage K) (h1 : AtLeast e 1)
    (h3 : bind .qCorner = bind .q → AtLeast e 3) :
    let A : Stagger := (.centre, .centre)
    let f : Bool → Bool → K → K := fun east north v => env (cornerCoef east north) * v
    let fills := fun (dir : Direction) (hx hy : Nat) (tbl : List Stmt) =>
      Filled e dom nk dir A A hx hy f (mem (bind .qCorner)) (mem (bind .q))
        (run e dom nk env bind tbl mem (bind .q)) ∧
      ∀ s, s ≠ bind .q → run e dom nk env bind tbl mem s = mem s
    fills .x 2 1 fill2x ∧ fills .x 3 1 fill3x ∧ fills .y 1 2 fill2y ∧ fills .y 1 3 fill3y := by
  intro A f fills
  have hf : f = fun east north v => scale env (cornerCoef east north) v := by
    funext a b v; cases a <;> cases b <;> rfl
  simp only [fills, hf]
  refine ⟨?_, ?_, ?_, ?_⟩ <;>
    exact filled_one (coef := cornerCoef) mem h1 h3 (by decide +kernel) (by decide +kernel)
      (by decide +kernel) (by decide +kernel) (by decide +kernel)

/-- The parameters of `fill_corners_dgrid` that a caller may bind to the same storage. -/
def dgridShare (a b : Param) : Bool :=
  (decide (a = .xIn) && decide (b = .xOut)) || (decide (a = .yIn) && decide (b = .yOut))

/-- **C50** (D grid): `fill_corners_dgrid_defn` fills the corners of `x` (cell centres along i,
edges along j) from `y` (edges, centres) turned in direction x, and the corners of `y` from `x`
turned in direction y, with the factor `mysign` at the south-west and north-east corners; also
when run in place. -/
theorem C50_dgrid (e : Ext) (dom : Int → Int → Bool) (nk : Nat) (env : Coef → K)
    (bind : Param → Nat) (mem : Nat → Storage K) (h1 : AtLeast e 3)
    (hout : bind .xOut ≠ bind .yOut) (hxy : bind .xIn ≠ bind .yOut) (hyx : bind .yIn ≠ bind .xOut) :
    let X : Stagger := (.centre, .edge)
    let Y : Stagger := (.edge, .centre)
    let f : Bool → Bool → K → K := fun east north v => if east = north then env .mysign * v else v
    let mem' := run e dom nk env bind dgrid mem
    Filled e dom nk .x X Y 3 3 f (mem (bind .yIn)) (mem (bind .xOut)) (mem' (bind .xOut)) ∧
    Filled e dom nk .y Y X 3 3 f (mem (bind .xIn)) (mem (bind .yOut)) (mem' (bind .yOut)) ∧
    ∀ s, s ≠ bind .xOut → s ≠ bind .yOut → mem' s = mem s := by
  intro X Y f mem'
  have hf : f = fun east north v => scale env (if east = north then .mysign else .one) v := by
    funext a b v; cases a <;> cases b <;> rfl
  have ht : ∀ t ∈ dgrid, (t.dst = .xOut ∧ t.src = .yIn) ∨ (t.dst = .yOut ∧ t.src = .xIn) := by
    decide +kernel
  have hr : NoReadWritten e bind dgrid := by
    refine noReadWritten_of_check (n := 3) (share := dgridShare) h1 (by decide +kernel) ?_
    intro t h s hs heq
    rcases ht t h with ⟨_, h2⟩ | ⟨_, h2⟩ <;> rcases ht s hs with ⟨h3, _⟩ | ⟨h3, _⟩ <;>
      rw [h2, h3] at heq ⊢
    · exact absurd heq hyx
    · rfl
    · rfl
    · exact absurd heq hxy
  have hx : ∀ t ∈ dgrid, bind .xOut = bind t.dst → Param.xOut = t.dst := by
    intro t h heq
    rcases ht t h with ⟨h2, _⟩ | ⟨h2, _⟩
    · exact h2.symm
    · rw [h2] at heq; exact absurd heq hout
  have hy : ∀ t ∈ dgrid, bind .yOut = bind t.dst → Param.yOut = t.dst := by
    intro t h heq
    rcases ht t h with ⟨h2, _⟩ | ⟨h2, _⟩
    · rw [h2] at heq; exact absurd heq.symm hout
    · exact h2.symm
  have h1' : AtLeast e 1 := by simp only [AtLeast] at *; omega
  rw [hf]
  refine ⟨⟨filled_of_check mem h1' hr (by decide +kernel) hx (by decide +kernel),
      unchanged_of_check mem hr hx (by decide +kernel)⟩,
    ⟨filled_of_check mem h1' hr (by decide +kernel) hy (by decide +kernel),
      unchanged_of_check mem hr hy (by decide +kernel)⟩, ?_⟩
  intro s h2 h3
  refine other_storage mem fun t h => ?_
  rcases ht t h with ⟨h4, _⟩ | ⟨h4, _⟩ <;> rw [h4] <;> assumption

/-- The signs of the D grid fill are those of a vector that turns with its place: when the turn
that brings the source to the point is to the left, `(x, y)` becomes `(-y, x)`; to the right,
`(y, -x)`. -/
theorem C50_dgrid_vector_signs (e : Ext) (st st' : Stagger) (hx hy : Nat) (east north : Bool)
    (p p' : Point) (hp : InCorner e st hx hy east north p) :
    (IsSource e .x st st' east north p p' →
      (disp e st east north p = turnLeft (disp e st' east north p') ↔ east = north) ∧
      (disp e st east north p = turnRight (disp e st' east north p') ↔ east ≠ north)) ∧
    (IsSource e .y st st' east north p p' →
      (disp e st east north p = turnRight (disp e st' east north p') ↔ east = north) ∧
      (disp e st east north p = turnLeft (disp e st' east north p') ↔ east ≠ north)) := by
  simp only [InCorner, IsSource] at *
  generalize disp e st east north p = d at *
  generalize disp e st' east north p' = d' at *
  obtain ⟨a, b⟩ := d
  obtain ⟨c, d⟩ := d'
  constructor <;> rintro ⟨h1, h2⟩ <;> rcases h1 with h1 | h1 <;>
    cases east <;> cases north <;>
    simp [turnLeft, turnRight, SameSide, Beyond] at * <;> omega

/-- **C50** (copy): `copy_corners_xy_stencil_defn` copies the field at every point of the
domain, except that the corners of `q_out_x` are filled in direction x and those of `q_out_y` in
direction y. -/
theorem C50_copy_corners (e : Ext) (dom : Int → Int → Bool) (nk : Nat) (env : Coef → K)
    (bind : Param → Nat) (mem : Nat → Storage K) (h1 : AtLeast e 1)
    (hout : bind .qOutX ≠ bind .qOutY) (hx : bind .qIn ≠ bind .qOutX)
    (hy : bind .qIn ≠ bind .qOutY) :
    let A : Stagger := (.centre, .centre)
    let mem' := run e dom nk env bind copyXY mem
    let copied : Storage K := fun i j k =>
      if dom i j = true ∧ k < nk then mem (bind .qIn) i j k else mem (bind .qOutX) i j k
    let copied' : Storage K := fun i j k =>
      if dom i j = true ∧ k < nk then mem (bind .qIn) i j k else mem (bind .qOutY) i j k
    Filled e dom nk .x A A 3 3 (fun _ _ v => v) (mem (bind .qIn)) copied (mem' (bind .qOutX)) ∧
    Filled e dom nk .y A A 3 3 (fun _ _ v => v) (mem (bind .qIn)) copied' (mem' (bind .qOutY)) ∧
    ∀ s, s ≠ bind .qOutX → s ≠ bind .qOutY → mem' s = mem s := by
  intro A mem' copied copied'
  have ht : ∀ t ∈ copyXY, (t.dst = .qOutX ∨ t.dst = .qOutY) ∧ t.src = .qIn := by decide +kernel
  have hr : NoReadWritten e bind copyXY := by
    intro t h i j _ s hs heq
    rw [(ht t h).2] at heq
    rcases (ht s hs).1 with h2 | h2 <;> rw [h2] at heq
    · exact absurd heq hx
    · exact absurd heq hy
  have hX : ∀ t ∈ copyXY, bind .qOutX = bind t.dst → Param.qOutX = t.dst := by
    intro t h heq
    rcases (ht t h).1 with h2 | h2
    · exact h2.symm
    · rw [h2] at heq; exact absurd heq hout
  have hY : ∀ t ∈ copyXY, bind .qOutY = bind t.dst → Param.qOutY = t.dst := by
    intro t h heq
    rcases (ht t h).1 with h2 | h2
    · rw [h2] at heq; exact absurd heq.symm hout
    · exact h2.symm
  have hr2 : NoReadWritten e bind (copyXY.drop 2) := fun t h i j hi s hs =>
    hr t (List.mem_of_mem_drop h) i j hi s (List.mem_of_mem_drop hs)
  have hsplit : run e dom nk env bind copyXY mem = run e dom nk env bind (copyXY.drop 2)
      (run e dom nk env bind (copyXY.take 2) mem) := by
    rw [← List.take_append_drop 2 copyXY, run, List.foldl_append, List.take_append_drop]
    rfl
  have hpre : run e dom nk env bind (copyXY.take 2) mem =
      exec e dom nk env bind (exec e dom nk env bind mem ⟨none, .qOutX, .one, .qIn, (0, 0)⟩)
        ⟨none, .qOutY, .one, .qIn, (0, 0)⟩ := rfl
  refine ⟨⟨filled_of_check (coef := fun _ _ => .one) mem h1 hr (by decide +kernel) hX
      (by decide +kernel), ?_⟩,
    ⟨filled_of_check (coef := fun _ _ => .one) mem h1 hr (by decide +kernel) hY
      (by decide +kernel), ?_⟩, ?_⟩
  · intro p k h
    have := unchanged_of_check (dom := dom) (nk := nk) (env := env) (st := A) (hx := 3) (hy := 3)
      (run e dom nk env bind (copyXY.take 2) mem) hr2
      (fun t h => hX t (List.mem_of_mem_drop h)) (by decide +kernel) p k h
    rw [show mem' = run e dom nk env bind (copyXY.drop 2)
      (run e dom nk env bind (copyXY.take 2) mem) from hsplit, this, hpre]
    simp only [exec, copied]
    by_cases hd : dom p.1 p.2 = true ∧ k < nk
    · simp [inRegs, scale, hd.1, hd.2, hout]
    · by_cases hd1 : dom p.1 p.2 = true <;> simp_all [inRegs, scale, hout]
  · intro p k h
    have := unchanged_of_check (dom := dom) (nk := nk) (env := env) (st := A) (hx := 3) (hy := 3)
      (run e dom nk env bind (copyXY.take 2) mem) hr2
      (fun t h => hY t (List.mem_of_mem_drop h)) (by decide +kernel) p k h
    rw [show mem' = run e dom nk env bind (copyXY.drop 2)
      (run e dom nk env bind (copyXY.take 2) mem) from hsplit, this, hpre]
    simp only [exec, copied']
    by_cases hd : dom p.1 p.2 = true ∧ k < nk
    · simp [inRegs, scale, hd.1, hd.2, hx]
    · by_cases hd1 : dom p.1 p.2 = true
      · have hk : ¬ k < nk := fun hk => hd ⟨hd1, hk⟩
        simp [inRegs, hd1, hk]
      · simp [inRegs, hd1]
  · intro s h2 h3
    refine other_storage mem fun t h => ?_
    rcases (ht t h).1 with h4 | h4 <;> rw [h4] <;> assumption

/-! ### Examples -/

/-- A tile of four by five cells with its first cell at `(3, 3)`. -/
def exTile : Ext := ⟨3, 6, 3, 7⟩

example : AtLeast exTile 3 ∧ InCorner exTile (.edge, .edge) 3 3 true true (9, 10) ∧
    IsSource exTile .x (.edge, .edge) (.edge, .edge) true true (9, 10) (9, 6) ∧
    InCorner exTile (.centre, .edge) 3 3 false false (0, 1) ∧
    IsSource exTile .x (.centre, .edge) (.edge, .centre) false false (0, 1) (1, 5) := by
  refine ⟨?_, ?_, ?_, ?_, ?_⟩ <;>
    simp [AtLeast, InCorner, Beyond, IsSource, SameSide, turnLeft, turnRight, disp, vertex, exTile,
      Place.pos]

example : run exTile (fun _ _ => true) 1 (fun _ => (1 : Int)) (fun _ => 0) bgridX
    (fun _ i j _ => 100 * i + j) 0 9 10 0 = 906 := by decide +kernel

/-- The in-place fill needs three cells: on a tile of one cell a corner is read after it has
been written. -/
theorem C50_small_tile_violated :
    let e : Ext := ⟨3, 3, 3, 3⟩
    let mem : Nat → Storage Int := fun _ i j _ => 100 * i + j
    let mem' := run e (fun _ _ => true) 1 (fun _ => 1) (fun _ => 0) bgridX mem
    InCorner e (.edge, .edge) 3 3 false true (2, 7) ∧
    IsSource e .x (.edge, .edge) (.edge, .edge) false true (2, 7) (0, 3) ∧
    InCorner e (.edge, .edge) 3 3 false true (0, 5) ∧
    IsSource e .x (.edge, .edge) (.edge, .edge) false true (0, 5) (2, 1) ∧
    mem' 0 0 5 0 ≠ mem 0 2 1 0 := by
  refine ⟨?_, ?_, ?_, ?_, by decide +kernel⟩ <;>
    simp [InCorner, Beyond, IsSource, SameSide, turnLeft, turnRight, disp, vertex, Place.pos]

end NDSL.Corner
