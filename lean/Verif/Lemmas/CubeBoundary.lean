import Verif.Lemmas.Partitioner
import Verif.Spec.Directions

/-
Closed form of `CubedSpherePartitioner.boundary` for all eight boundary types on positions
`(tile, j, i)`.
-/
namespace NDSL

/-- Position of a rank: tile, row, column. -/
structure Pos where
  t : Int
  j : Int
  i : Int
  deriving DecidableEq, Repr

namespace Pos

def rank (n : Int) (p : Pos) : Int := rk n p.t p.j p.i

/-- Row and column are in range (tile arbitrary). -/
def Ok (n : Int) (p : Pos) : Prop := 0 ≤ p.j ∧ p.j < n ∧ 0 ≤ p.i ∧ p.i < n

abbrev red (p : Pos) : Pos := { p with t := p.t % 6 }

end Pos

/-- Closed forms of the four edges: new position and rotations. -/
def eW (n : Int) (p : Pos) : Pos × Int :=
  if p.i = 0 then
    if p.t % 2 = 0 then (⟨p.t - 2, n - 1, n - 1 - p.j⟩, 1) else (⟨p.t - 1, p.j, n - 1⟩, 0)
  else (⟨p.t, p.j, p.i - 1⟩, 0)

def eE (n : Int) (p : Pos) : Pos × Int :=
  if p.i = n - 1 then
    if p.t % 2 = 0 then (⟨p.t + 1, p.j, 0⟩, 0) else (⟨p.t + 2, 0, n - 1 - p.j⟩, 1)
  else (⟨p.t, p.j, p.i + 1⟩, 0)

def eN (n : Int) (p : Pos) : Pos × Int :=
  if p.j = n - 1 then
    if p.t % 2 = 0 then (⟨p.t + 2, n - 1 - p.i, 0⟩, 3) else (⟨p.t + 1, 0, p.i⟩, 0)
  else (⟨p.t, p.j + 1, p.i⟩, 0)

def eS (n : Int) (p : Pos) : Pos × Int :=
  if p.j = 0 then
    if p.t % 2 = 0 then (⟨p.t - 1, n - 1, p.i⟩, 0) else (⟨p.t - 2, n - 1 - p.i, n - 1⟩, 3)
  else (⟨p.t, p.j - 1, p.i⟩, 0)

def comp2 (e1 e2 : Pos → Pos × Int) (p : Pos) : Pos × Int :=
  ((e2 (e1 p).1).1, (e1 p).2 + (e2 (e1 p).1).2)

/-- Closed form of the raw boundary. -/
def nbr (n : Int) (bt : BType) (p : Pos) : Option (Pos × Int) :=
  match bt with
  | .west => some (eW n p)
  | .east => some (eE n p)
  | .north => some (eN n p)
  | .south => some (eS n p)
  | .northwest =>
    if p.j = n - 1 ∧ p.i = 0 then none
    else some (comp2 (eW n) (if p.t % 2 = 0 ∧ p.i = 0 then eW n else eN n) p)
  | .northeast =>
    if p.j = n - 1 ∧ p.i = n - 1 then none
    else some (comp2 (eN n) (if p.t % 2 = 0 ∧ p.j = n - 1 then eS n else eE n) p)
  | .southwest =>
    if p.j = 0 ∧ p.i = 0 then none
    else some (comp2 (eS n) (if p.t % 2 ≠ 0 ∧ p.j = 0 then eN n else eW n) p)
  | .southeast =>
    if p.j = 0 ∧ p.i = n - 1 then none
    else some (comp2 (eS n) (if p.t % 2 ≠ 0 ∧ p.j = 0 then eS n else eE n) p)

section
variable {n : Int} {p : Pos}

theorem eW_ok (h : p.Ok n) : (eW n p).1.Ok n := by
  unfold eW Pos.Ok at *; (repeat' split) <;> simp <;> omega
theorem eE_ok (h : p.Ok n) : (eE n p).1.Ok n := by
  unfold eE Pos.Ok at *; (repeat' split) <;> simp <;> omega
theorem eN_ok (h : p.Ok n) : (eN n p).1.Ok n := by
  unfold eN Pos.Ok at *; (repeat' split) <;> simp <;> omega
theorem eS_ok (h : p.Ok n) : (eS n p).1.Ok n := by
  unfold eS Pos.Ok at *; (repeat' split) <;> simp <;> omega

theorem left_eq (h : p.Ok n) : (cubeP n).leftEdge (p.rank n) = .ok
    ⟨.west, p.rank n, (eW n p).1.rank n, (eW n p).2⟩ := by
  obtain ⟨h1, h2, h3, h4⟩ := h
  unfold Pos.rank eW
  rw [cube_left h1 h2 h3 h4]
  by_cases ha : p.i = 0 <;> by_cases hb : p.t % 2 = 0 <;> simp [ha, hb]

theorem right_eq (h : p.Ok n) : (cubeP n).rightEdge (p.rank n) = .ok
    ⟨.east, p.rank n, (eE n p).1.rank n, (eE n p).2⟩ := by
  obtain ⟨h1, h2, h3, h4⟩ := h
  unfold Pos.rank eE
  rw [cube_right h1 h2 h3 h4]
  by_cases ha : p.i = n - 1 <;> by_cases hb : p.t % 2 = 0 <;> simp [ha, hb]

theorem top_eq (h : p.Ok n) : (cubeP n).topEdge (p.rank n) = .ok
    ⟨.north, p.rank n, (eN n p).1.rank n, (eN n p).2⟩ := by
  obtain ⟨h1, h2, h3, h4⟩ := h
  unfold Pos.rank eN
  rw [cube_top h1 h2 h3 h4]
  by_cases ha : p.j = n - 1 <;> by_cases hb : p.t % 2 = 0 <;> simp [ha, hb]

theorem bottom_eq (h : p.Ok n) : (cubeP n).bottomEdge (p.rank n) = .ok
    ⟨.south, p.rank n, (eS n p).1.rank n, (eS n p).2⟩ := by
  obtain ⟨h1, h2, h3, h4⟩ := h
  unfold Pos.rank eS
  rw [cube_bottom h1 h2 h3 h4]
  by_cases ha : p.j = 0 <;> by_cases hb : p.t % 2 = 0 <;> simp [ha, hb]

theorem getCorner_eq {bt bt1 bt2 : BType} {f1 f2 : Int → Except Err Boundary}
    {g1 g2 : Pos → Pos × Int}
    (h1 : f1 (p.rank n) = .ok ⟨bt1, p.rank n, (g1 p).1.rank n, (g1 p).2⟩)
    (h2 : f2 ((g1 p).1.rank n) = .ok ⟨bt2, (g1 p).1.rank n, (g2 (g1 p).1).1.rank n,
      (g2 (g1 p).1).2⟩) :
    CubePart.getCorner bt (p.rank n) f1 f2 = .ok
      ⟨bt, p.rank n, (comp2 g1 g2 p).1.rank n, (comp2 g1 g2 p).2⟩ := by
  simp [CubePart.getCorner, h1, h2, bind, Except.bind, pure, Except.pure, comp2]

theorem flags (h : p.Ok n) :
    (cubeP n).tile.onTop (p.rank n) = (p.j == n - 1) ∧
    (cubeP n).tile.onBottom (p.rank n) = (p.j == 0) ∧
    (cubeP n).tile.onLeft (p.rank n) = (p.i == 0) ∧
    (cubeP n).tile.onRight (p.rank n) = (p.i == n - 1) ∧
    (cubeP n).tileIndex (p.rank n) = .ok p.t := by
  obtain ⟨h1, h2, h3, h4⟩ := h
  unfold Pos.rank
  refine ⟨?_, ?_, ?_, ?_, cube_tileIndex h1 h2 h3 h4⟩
  · simp only [TilePart.onTop, onTileTop, cube_subtileIndex h1 h2 h3 h4]; rfl
  · simp only [TilePart.onBottom, onTileBottom, cube_subtileIndex h1 h2 h3 h4]
  · simp only [TilePart.onLeft, onTileLeft, cube_subtileIndex h1 h2 h3 h4]
  · simp only [TilePart.onRight, onTileRight, cube_subtileIndex h1 h2 h3 h4]; rfl

theorem raw_eq (h : p.Ok n) (bt : BType) : (cubeP n).rawBoundary bt (p.rank n) = .ok
    ((nbr n bt p).map fun q => ⟨bt, p.rank n, q.1.rank n, q.2⟩) := by
  obtain ⟨f1, f2, f3, f4, f5⟩ := flags h
  cases bt with
  | west => simp [CubePart.rawBoundary, left_eq h, nbr, Functor.map, Except.map]
  | east => simp [CubePart.rawBoundary, right_eq h, nbr, Functor.map, Except.map]
  | north => simp [CubePart.rawBoundary, top_eq h, nbr, Functor.map, Except.map]
  | south => simp [CubePart.rawBoundary, bottom_eq h, nbr, Functor.map, Except.map]
  | northwest =>
    have c1 := getCorner_eq (bt := .northwest) (left_eq h) (left_eq (eW_ok h))
    have c2 := getCorner_eq (bt := .northwest) (left_eq h) (top_eq (eW_ok h))
    simp only [CubePart.rawBoundary, CubePart.topLeftCorner, nbr, f1, f3, f5, isEven]
    by_cases ha : p.j = n - 1 <;> by_cases hb : p.i = 0 <;> by_cases hc : p.t % 2 = 0 <;>
      simp [ha, hb, hc, c1, c2, bind, Except.bind, pure, Except.pure]
  | northeast =>
    have c1 := getCorner_eq (bt := .northeast) (top_eq h) (bottom_eq (eN_ok h))
    have c2 := getCorner_eq (bt := .northeast) (top_eq h) (right_eq (eN_ok h))
    simp only [CubePart.rawBoundary, CubePart.topRightCorner, nbr, f1, f4, f5, isEven]
    by_cases ha : p.j = n - 1 <;> by_cases hb : p.i = n - 1 <;> by_cases hc : p.t % 2 = 0 <;>
      simp [ha, hb, hc, c1, c2, bind, Except.bind, pure, Except.pure]
  | southwest =>
    have c1 := getCorner_eq (bt := .southwest) (bottom_eq h) (top_eq (eS_ok h))
    have c2 := getCorner_eq (bt := .southwest) (bottom_eq h) (left_eq (eS_ok h))
    simp only [CubePart.rawBoundary, CubePart.bottomLeftCorner, nbr, f2, f3, f5, isEven]
    by_cases ha : p.j = 0 <;> by_cases hb : p.i = 0 <;> by_cases hc : p.t % 2 = 0 <;>
      simp [ha, hb, hc, c1, c2, bind, Except.bind, pure, Except.pure]
  | southeast =>
    have c1 := getCorner_eq (bt := .southeast) (bottom_eq h) (bottom_eq (eS_ok h))
    have c2 := getCorner_eq (bt := .southeast) (bottom_eq h) (right_eq (eS_ok h))
    simp only [CubePart.rawBoundary, CubePart.bottomRightCorner, nbr, f2, f4, f5, isEven]
    by_cases ha : p.j = 0 <;> by_cases hb : p.i = n - 1 <;> by_cases hc : p.t % 2 = 0 <;>
      simp [ha, hb, hc, c1, c2, bind, Except.bind, pure, Except.pure]

theorem nbr_ok (h : p.Ok n) {bt : BType} {q : Pos × Int} (hq : nbr n bt p = some q) :
    q.1.Ok n := by
  cases bt <;> simp only [nbr] at hq
  · cases hq; exact eW_ok h
  · cases hq; exact eE_ok h
  · cases hq; exact eN_ok h
  · cases hq; exact eS_ok h
  all_goals
    split at hq
    · simp at hq
    · cases hq
      unfold comp2
      split
      all_goals
        first
        | exact eW_ok (eW_ok h) | exact eN_ok (eW_ok h) | exact eS_ok (eN_ok h)
        | exact eE_ok (eN_ok h) | exact eN_ok (eS_ok h) | exact eW_ok (eS_ok h)
        | exact eS_ok (eS_ok h) | exact eE_ok (eS_ok h)

/-- Closed form of the cube boundary. -/
theorem boundary_eq (h : p.Ok n) (bt : BType) : (cubeP n).boundary bt (p.rank n) = .ok
    ((nbr n bt p).map fun q => ⟨bt, p.rank n, q.1.red.rank n, q.2⟩) := by
  unfold CubePart.boundary
  rw [raw_eq h bt]
  cases hq : nbr n bt p with
  | none => simp [bind, Except.bind, pure, Except.pure]
  | some q =>
    have hok := nbr_ok h hq
    obtain ⟨h1, h2, h3, h4⟩ := hok
    simp only [bind, Except.bind, pure, Except.pure, Option.map_some]
    have : q.1.rank n % (cubeP n).totalRanks = q.1.red.rank n := by
      show rk n q.1.t q.1.j q.1.i % (6 * (n * n)) = _
      rw [rk_mod_six h1 h2 h3 h4]; rfl
    rw [this]

theorem exists_pos (hn : 0 < n) {r : Int} (h0 : 0 ≤ r) (h1 : r < 6 * (n * n)) :
    ∃ p : Pos, p.Ok n ∧ 0 ≤ p.t ∧ p.t < 6 ∧ r = p.rank n := by
  obtain ⟨t, j, i, a, b, c, d, rfl⟩ := rk_surj hn r
  have := (rk_range a b c d).1 ⟨h0, h1⟩
  exact ⟨⟨t, j, i⟩, ⟨a, b, c, d⟩, this.1, this.2, rfl⟩

theorem rank_inj {q : Pos} (hp : p.Ok n) (hq : q.Ok n) (h : p.rank n = q.rank n) : p = q := by
  obtain ⟨a, b, c, d⟩ := hp
  obtain ⟨a', b', c', d'⟩ := hq
  have := rk_inj a b c d a' b' c' d' h
  cases p; cases q; simp at *; omega

theorem rank_range (hp : p.Ok n) (h0 : 0 ≤ p.t) (h6 : p.t < 6) :
    0 ≤ p.rank n ∧ p.rank n < 6 * (n * n) := by
  obtain ⟨a, b, c, d⟩ := hp
  exact (rk_range a b c d).2 ⟨h0, h6⟩

theorem red_ok (hp : p.Ok n) : p.red.Ok n := hp

end

end NDSL
