import Verif.Lemmas.HaloUpdate
import Verif.Props.Partitioner

/-! The boundaries of the two topologies as a `Setting` of an exchange. -/
namespace NDSL

theorem btypes_distinct : BType.all.Pairwise (· ≠ ·) := by decide

theorem mem_btypes (bt : BType) : bt ∈ BType.all := by cases bt <;> decide

/-! cube -/

/-- boundaries of the rank at position `p` -/
def cubeBnd (n : Int) (p : Pos) : List Boundary :=
  BType.all.filterMap fun bt => (nbr n bt p).map fun x => ⟨bt, p.rank n, x.1.red.rank n, x.2⟩

theorem cube_boundaries {n : Int} {p : Pos} (hp : p.Ok n) :
    (squareCube n).boundaries (p.rank n) = .ok (cubeBnd n p) := by
  unfold CubePart.boundaries
  have h : BType.all.mapM (fun bt => (squareCube n).boundary bt (p.rank n)) =
      .ok (BType.all.map fun bt => (nbr n bt p).map fun x => ⟨bt, p.rank n, x.1.red.rank n, x.2⟩) :=
    mapM_ok fun bt _ => boundary_eq hp bt
  rw [h]
  show Except.ok _ = _
  rw [List.filterMap_map]
  rfl

/-- boundaries of a rank -/
def cubeB (n r : Int) : List Boundary :=
  match (squareCube n).boundaries r with
  | .ok l => l
  | .error _ => []

theorem cubeB_eq {n : Int} {p : Pos} (hp : p.Ok n) : cubeB n (p.rank n) = cubeBnd n p := by
  unfold cubeB; rw [cube_boundaries hp]

theorem mem_cubeBnd {n : Int} {p : Pos} {b : Boundary} : b ∈ cubeBnd n p ↔
    ∃ x, nbr n b.btype p = some x ∧ b = ⟨b.btype, p.rank n, x.1.red.rank n, x.2⟩ := by
  unfold cubeBnd
  simp only [List.mem_filterMap, Option.map_eq_some_iff]
  constructor
  · rintro ⟨bt, _, x, hx, rfl⟩
    exact ⟨x, hx, rfl⟩
  · rintro ⟨x, hx, hb⟩
    exact ⟨b.btype, mem_btypes _, x, hx, hb.symm⟩

/-- the boundary of the neighbour leading back -/
def cubeBack (n : Int) (b : Boundary) : Boundary :=
  match (squareCube n).boundary (recipB b.btype b.rot) b.toRank with
  | .ok (some b') => b'
  | _ => b

theorem cubeBnd_types {n : Int} {p : Pos} :
    (cubeBnd n p).Pairwise fun b b' => b.btype ≠ b'.btype := by
  unfold cubeBnd
  rw [List.pairwise_filterMap]
  refine btypes_distinct.imp ?_
  intro bt bt' h b hb b' hb'
  simp only [Option.map_eq_some_iff] at hb hb'
  obtain ⟨_, _, rfl⟩ := hb
  obtain ⟨_, _, rfl⟩ := hb'
  exact h

section
variable {n : Int} {p : Pos}

theorem cube_back (hp : p.Ok n) (h0 : 0 ≤ p.t) (h6 : p.t < 6) {bt : BType} {x : Pos × Int}
    (hx : nbr n bt p = some x) :
    ∃ r', cubeBack n ⟨bt, p.rank n, x.1.red.rank n, x.2⟩ =
      ⟨recipB bt x.2, x.1.red.rank n, p.rank n, r'⟩ ∧ (x.2 + r') % 4 = 0 ∧
      cubeBack n ⟨bt, p.rank n, x.1.red.rank n, x.2⟩ ∈ cubeBnd n x.1.red := by
  obtain ⟨q, r⟩ := x
  obtain ⟨x', h1, h2, h3⟩ := nbr_recip hp h0 h6 hx
  have hq : q.red.Ok n := red_ok (nbr_ok hp hx)
  have e : (squareCube n).boundary (recipB bt r) (q.red.rank n) =
      .ok (some ⟨recipB bt r, q.red.rank n, p.rank n, x'.2⟩) := by
    have := boundary_eq hq (recipB bt r)
    rw [h1] at this
    rw [← h2]
    exact this
  have e' : cubeBack n ⟨bt, p.rank n, q.red.rank n, r⟩ =
      ⟨recipB bt r, q.red.rank n, p.rank n, x'.2⟩ := by
    unfold cubeBack
    simp only
    rw [e]
  refine ⟨x'.2, e', h3, ?_⟩
  rw [e', mem_cubeBnd]
  exact ⟨x', h1, by simp only [h2]⟩

theorem cube_nodup (hp : p.Ok n) (h0 : 0 ≤ p.t) (h6 : p.t < 6) :
    ((cubeBnd n p).map (·.toRank)).Nodup := by
  unfold cubeBnd List.Nodup
  rw [List.pairwise_map, List.pairwise_filterMap]
  refine btypes_distinct.imp ?_
  intro bt bt' h b hb b' hb' e
  simp only [Option.map_eq_some_iff] at hb hb'
  obtain ⟨x, hx, rfl⟩ := hb
  obtain ⟨x', hx', rfl⟩ := hb'
  simp only at e
  exact h (flat_distinct hp h0 h6 ((nbr_flat hp _).symm.trans hx) ((nbr_flat hp _).symm.trans hx')
    (rank_inj (red_ok (nbr_ok hp hx)) (red_ok (nbr_ok hp hx')) e))

theorem cube_setting (hp : p.Ok n) (h0 : 0 ≤ p.t) (h6 : p.t < 6) :
    Setting (squareCube n).boundaries (cubeB n) (cubeBack n) (p.rank n) where
  topo := by
    intro s hs
    have gen : ∀ q : Pos, q.Ok n → 0 ≤ q.t → q.t < 6 →
        (squareCube n).boundaries (q.rank n) = .ok (cubeB n (q.rank n)) ∧
          ((cubeB n (q.rank n)).map (·.toRank)).Nodup := by
      intro q hq g0 g6
      rw [cubeB_eq hq]
      exact ⟨cube_boundaries hq, cube_nodup hq g0 g6⟩
    rcases hs with rfl | ⟨b, hb, rfl⟩
    · exact gen p hp h0 h6
    · rw [cubeB_eq hp, mem_cubeBnd] at hb
      obtain ⟨x, hx, hb⟩ := hb
      rw [hb]
      have : 0 ≤ x.1.red.t ∧ x.1.red.t < 6 := by simp only [Pos.red]; omega
      exact gen x.1.red (red_ok (nbr_ok hp hx)) this.1 this.2
  partner := by
    intro b hb
    rw [cubeB_eq hp, mem_cubeBnd] at hb
    obtain ⟨x, hx, hb⟩ := hb
    obtain ⟨r', e1, e2, e3⟩ := cube_back hp h0 h6 hx
    rw [hb]
    simp only
    rw [cubeB_eq (red_ok (nbr_ok hp hx))]
    exact ⟨e3, by rw [e1]⟩

end

/-! tile -/

/-- opposite boundary type -/
def oppB : BType → BType
  | .west => .east | .east => .west | .north => .south | .south => .north
  | .northwest => .southeast | .southeast => .northwest
  | .northeast => .southwest | .southwest => .northeast

theorem oppB_dir (bt : BType) : (oppB bt).dir = (-bt.dir.1, -bt.dir.2) := by cases bt <;> rfl

/-- boundaries of a rank of a tile -/
def tileB (ly lx r : Int) : List Boundary := BType.all.map fun bt => (TilePart.mk (ly, lx)).boundary bt r

/-- the boundary of the neighbour leading back -/
def tileBack (ly lx : Int) (b : Boundary) : Boundary :=
  (TilePart.mk (ly, lx)).boundary (oppB b.btype) b.toRank

theorem tile_setting {ly lx r : Int} (hy : 3 ≤ ly) (hx : 3 ≤ lx) (h0 : 0 ≤ r) (h1 : r < ly * lx) :
    Setting (TilePart.mk (ly, lx)).boundaries (tileB ly lx) (tileBack ly lx) r where
  topo := by
    have gen : ∀ s, 0 ≤ s → s < ly * lx →
        (TilePart.mk (ly, lx)).boundaries s = .ok (tileB ly lx s) ∧
          ((tileB ly lx s).map (·.toRank)).Nodup := by
      intro s g0 g1
      refine ⟨rfl, ?_⟩
      unfold tileB List.Nodup
      rw [List.map_map, List.pairwise_map]
      refine btypes_distinct.imp ?_
      intro bt bt' h e
      exact h (((C10_tile_distinct_iff ly lx (by omega) (by omega)).2 ⟨hy, hx⟩ s g0 g1 bt bt').2 e)
    intro s hs
    rcases hs with rfl | ⟨b, hb, rfl⟩
    · exact gen s h0 h1
    · obtain ⟨bt, _, rfl⟩ := List.mem_map.1 hb
      have := C06_tile_boundary ly lx (by omega) (by omega) r h0 h1 bt
      exact gen _ this.2.2.2.1 this.2.2.2.2.1
  partner := by
    intro b hb
    obtain ⟨bt, _, rfl⟩ := List.mem_map.1 hb
    have := C06_tile_boundary ly lx (by omega) (by omega) r h0 h1 bt
    obtain ⟨c1, c2, c3, c4, c5, c6, c7⟩ := this
    unfold tileBack
    rw [c1]
    exact ⟨List.mem_map.2 ⟨oppB bt, mem_btypes _, rfl⟩, c7 (oppB bt) (by rw [oppB_dir]; rfl)⟩

end NDSL
