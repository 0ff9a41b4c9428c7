import Verif.Lemmas.ScatterGather
import Verif.Props.Decomposition

/-! The tile and cube partitioners satisfy what scatter and gather need. -/
namespace NDSL
variable {α : Type}

theorem selects_place {sl : List Slice} {g : List Int} (h : Selects sl g) :
    ∃ i, InShape (widths sl) i ∧ g = place [] sl i := by
  unfold Selects at h
  induction h with
  | nil => exact ⟨[], .nil, rfl⟩
  | @cons s k sl g hk _ ih =>
    obtain ⟨i, h1, h2⟩ := ih
    have hk' : s.start ≤ k ∧ k < s.stop := hk
    refine ⟨(k - s.start) :: i, .cons (by show 0 ≤ k - s.start ∧ k - s.start < s.stop - s.start; omega) h1, ?_⟩
    simp only [place, List.nil_append, List.zipWith_cons_cons] at h2 ⊢
    rw [← h2]; congr 1; omega

/-- the slice without overlap is inside the slice with overlap -/
theorem dimSlice_overlap {fl : FloatOps} {layout sub : Int × Int} {d : Dim} {n I E g : Int}
    (hj : 0 ≤ sub.1 ∧ sub.1 < layout.1) (hi : 0 ≤ sub.2 ∧ sub.2 < layout.2)
    (ha : dimExtents fl d (cnt layout d) n = .ok (I, E))
    (h : (dimSlice layout sub false d I E).Has g) : (dimSlice layout sub true d I E).Has g := by
  by_cases hd : d.isHorizontal = true
  · have hr := idx_cnt_range hj hi d hd
    rw [dimSlice_horizontal _ _ _ _ _ _ hd hr.1] at h ⊢
    unfold Slice.Has at h ⊢
    simp only at h ⊢
    refine ⟨h.1, ?_⟩
    have h2 := h.2
    by_cases hI : d.isInterface = true
    · rw [if_pos ⟨hI, Or.inl trivial⟩]
      split at h2 <;> omega
    · rw [if_neg (fun z => hI z.1)] at h2 ⊢
      exact h2
  · rw [dimSlice_other fl layout sub _ d n I E (by simpa using hd) ha] at h ⊢
    exact h

theorem selects_overlap {fl : FloatOps} {layout sub : Int × Int}
    (hj : 0 ≤ sub.1 ∧ sub.1 < layout.1) (hi : 0 ≤ sub.2 ∧ sub.2 < layout.2) :
    ∀ {dims : List Dim} {ext : List Int} {exts : List (Int × Int)} {g : List Int},
    Accepted fl layout dims ext exts → Selects (slices layout sub false dims exts) g →
    Selects (slices layout sub true dims exts) g
  | [], [], [], g, _, h => h
  | d :: ds, n :: ns, x :: xs, g, ha, h => by
    rw [slices_cons] at h ⊢
    cases h with
    | cons h1 h2 => exact .cons (dimSlice_overlap hj hi ha.1 h1) (selects_overlap hj hi ha.2 h2)
  | [], [], _ :: _, _, ha, _ => by cases ha
  | [], _ :: _, _, _, ha, _ => by cases ha
  | _ :: _, [], _, _, ha, _ => by cases ha
  | _ :: _, _ :: _, [], _, ha, _ => by cases ha

/-- width of a slice with overlap -/
theorem width_dim {layout sub : Int × Int} {d : Dim} {I E : Int} (hd : d.isHorizontal = true)
    (h0 : 0 ≤ idx sub d) :
    (dimSlice layout sub true d I E).stop - (dimSlice layout sub true d I E).start =
      (if idx sub d = 0 ∨ idx sub d = cnt layout d - 1 then E else I) +
        (if d.isInterface = true then 1 else 0) := by
  rw [dimSlice_horizontal _ _ _ _ _ _ hd h0]
  simp only
  rw [bnd_succ]
  have e1 : ((idx sub d).toNat = 0 ∨ ((idx sub d).toNat : Int) = cnt layout d - 1) ↔
      (idx sub d = 0 ∨ idx sub d = cnt layout d - 1) := by omega
  simp only [e1, true_or, and_true]
  omega

theorem slices_length {fl : FloatOps} {layout sub : Int × Int} {ov : Bool} :
    ∀ {dims : List Dim} {ext : List Int} {exts : List (Int × Int)},
    Accepted fl layout dims ext exts → (slices layout sub ov dims exts).length = dims.length
  | [], [], [], _ => rfl
  | d :: ds, n :: ns, x :: xs, ha => by
    rw [slices_cons, List.length_cons, List.length_cons, slices_length ha.2]
  | [], [], _ :: _, ha => by cases ha
  | [], _ :: _, _, ha => by cases ha
  | _ :: _, [], _, ha => by cases ha
  | _ :: _, _ :: _, [], ha => by cases ha

theorem widths_nonneg {fl : FloatOps} {layout sub : Int × Int} (h1 : 0 < layout.1) (h2 : 0 < layout.2)
    (hj : 0 ≤ sub.1 ∧ sub.1 < layout.1) (hi : 0 ≤ sub.2 ∧ sub.2 < layout.2) :
    ∀ {dims : List Dim} {ext : List Int} {exts : List (Int × Int)}, ValidExtents dims ext →
    Accepted fl layout dims ext exts → (NonNeg (widths (slices layout sub true dims exts))) ∧
      ((∀ n ∈ ext, 1 ≤ n) → ∀ w ∈ widths (slices layout sub true dims exts), 1 ≤ w)
  | [], [], [], _, _ => by constructor <;> simp [NonNeg, widths, slices]
  | d :: ds, n :: ns, x :: xs, hv, ha => by
    cases hv with
    | cons hn hv =>
    have ih := widths_nonneg h1 h2 hj hi hv ha.2
    have key : 0 ≤ (dimSlice layout sub true d x.1 x.2).stop - (dimSlice layout sub true d x.1 x.2).start ∧
        (1 ≤ n → 1 ≤ (dimSlice layout sub true d x.1 x.2).stop -
          (dimSlice layout sub true d x.1 x.2).start) := by
      by_cases hd : d.isHorizontal = true
      · have hr := idx_cnt_range hj hi d hd
        rw [width_dim hd hr.1]
        have hN := valid_cells hn
        have hcell : cells d n = if d.isInterface = true then n - 1 else n := rfl
        have hs := dimExtents_sound fl d _ n x.1 x.2 (cnt_pos _ _ h1 h2) (cnt_horizontal _ _) ha.1
        rcases hs with ⟨c, e1, e2⟩ | ⟨c, e1, e2⟩ | ⟨c, e1, e2, e3⟩
        · have : idx sub d = 0 := by omega
          rw [if_pos (Or.inl this)]
          split at hcell <;> simp_all <;> omega
        · have : idx sub d = 0 ∨ idx sub d = cnt layout d - 1 := by omega
          rw [if_pos this]
          split at hcell <;> simp_all <;> omega
        · constructor
          · split <;> split <;> omega
          · intro _; split <;> split <;> omega
      · rw [dimSlice_other fl layout sub _ d n x.1 x.2 (by simpa using hd) ha.1]
        simp only
        omega
    constructor
    · intro w hw
      rw [slices_cons, widths, List.map_cons] at hw
      rcases List.mem_cons.1 hw with rfl | hw
      · exact key.1
      · exact ih.1 w hw
    · intro hp w hw
      rw [slices_cons, widths, List.map_cons] at hw
      rcases List.mem_cons.1 hw with rfl | hw
      · exact key.2 (hp n List.mem_cons_self)
      · exact ih.2 (fun m hm => hp m (List.mem_cons_of_mem _ hm)) w hw
  | [], [], _ :: _, _, ha => by cases ha
  | [], _ :: _, _, _, ha => by cases ha
  | _ :: _, [], _, _, ha => by cases ha
  | _ :: _, _ :: _, [], _, ha => by cases ha

/-- a position inside the second row and column, where there is one -/
def probe (layout : Int × Int) : Int × Int := (if 3 ≤ layout.1 then 1 else 0, if 3 ≤ layout.2 then 1 else 0)

/-- when the probed rank has the shape of the first, the tile's extent is recovered from it -/
theorem extent_of_equal {fl : FloatOps} {layout : Int × Int} (h1 : 0 < layout.1) (h2 : 0 < layout.2) :
    ∀ {dims : List Dim} {ext : List Int} {exts : List (Int × Int)},
    Accepted fl layout dims ext exts →
    widths (slices layout (probe layout) true dims exts) = widths (slices layout (0, 0) true dims exts) →
    tileExtentFromRank dims (widths (slices layout (0, 0) true dims exts)) layout = ext
  | [], [], [], _, _ => rfl
  | d :: ds, n :: ns, x :: xs, ha, h => by
    simp only [slices_cons, widths, List.map_cons, List.cons.injEq] at h
    have ih := extent_of_equal h1 h2 ha.2 h.2
    rw [slices_cons]
    simp only [widths, List.map_cons]
    unfold tileExtentFromRank at ih ⊢
    simp only [listByDims, List.map_cons, List.zip_cons_cons, List.cons.injEq]
    refine ⟨?_, ih⟩
    show dimTileExtent d _ (cnt layout d) = n
    have hs := dimExtents_sound fl d _ n x.1 x.2 (cnt_pos _ _ h1 h2) (cnt_horizontal _ _) ha.1
    by_cases hd : d.isHorizontal = true
    · have e0 : idx ((0, 0) : Int × Int) d = 0 := by unfold idx; split <;> rfl
      have hw := h.1
      have hw0 := width_dim (layout := layout) (I := x.1) (E := x.2) hd (sub := (0, 0)) (by omega)
      rw [e0, if_pos (Or.inl rfl)] at hw0
      rw [hw0] at hw ⊢
      have hE : (cnt layout d) * x.2 = cells d n := by
        rcases hs with ⟨c, e1, e2⟩ | ⟨c, e1, e2⟩ | ⟨c, e1, e2, e3⟩
        · rw [c]; omega
        · rw [c]; omega
        · have hp : idx (probe layout) d = 1 := by
            rw [cnt_eq_ranks hd] at c
            unfold idx probe
            split at c <;> simp_all
          rw [width_dim hd (by omega), hp, if_neg (by omega)] at hw
          have : x.1 = x.2 := by omega
          rw [this] at e3
          rw [← e3]; ring
      unfold dimTileExtent
      unfold cells at hE
      by_cases hi : d.isInterface = true
      · simp only [hi, if_true] at hE ⊢
        rw [Int.mul_comm] at hE
        rw [show x.2 + 1 + -1 = x.2 by omega]; omega
      · simp only [hi, if_false, Bool.false_eq_true] at hE ⊢
        rw [Int.mul_comm] at hE
        rw [show x.2 + 0 + 0 = x.2 by omega]; omega
    · have hc : cnt layout d = 1 := by
        rcases cnt_horizontal layout d with h | h
        · exact absurd h hd
        · exact h
      rw [dimSlice_other fl layout _ _ d n x.1 x.2 (by simpa using hd) ha.1, hc]
      simp only
      unfold dimTileExtent
      simp only
      omega
  | [], [], _ :: _, ha, _ => by cases ha
  | [], _ :: _, _, ha, _ => by cases ha
  | _ :: _, [], _, ha, _ => by cases ha
  | _ :: _, _ :: _, [], ha, _ => by cases ha

/-- positions of ranks are inside the layout -/
theorem sub_range_any {ly lx : Int} (hy : 0 < ly) (hx : 0 < lx) (rank : Int) :
    (0 ≤ ((TilePart.mk (ly, lx)).subtileIndex rank).1 ∧
      ((TilePart.mk (ly, lx)).subtileIndex rank).1 < ly) ∧
    (0 ≤ ((TilePart.mk (ly, lx)).subtileIndex rank).2 ∧
      ((TilePart.mk (ly, lx)).subtileIndex rank).2 < lx) := by
  have hT : 0 < ly * lx := Int.mul_pos hy hx
  have h0 := Int.emod_nonneg rank (b := ly * lx) (by omega)
  have h1 := Int.emod_lt_of_pos rank hT
  have := tile_sub_range hy hx h0 h1
  have e : (TilePart.mk (ly, lx)).subtileIndex (rank % (ly * lx)) =
      (TilePart.mk (ly, lx)).subtileIndex rank := by
    unfold TilePart.subtileIndex subtileIndex
    simp only [TilePart.totalRanks, Int.emod_emod]
  rw [e] at this
  exact this

/-- slices of the ranks of a tile -/
abbrev tileS (ly lx : Int) (dims : List Dim) (exts : List (Int × Int)) (r : Nat) : List Slice :=
  slices (ly, lx) ((TilePart.mk (ly, lx)).subtileIndex r) true dims exts

theorem goodTile {fl : FloatOps} {ly lx : Int} (hy : 0 < ly) (hx : 0 < lx) {dims : List Dim}
    {ext : List Int} {exts : List (Int × Int)} (hd : TileDims dims) (hv : ValidExtents dims ext)
    (ha : Accepted fl (ly, lx) dims ext exts) :
    GoodPart ((TilePart.mk (ly, lx)).part fl) dims ext (fun _ => []) (tileS ly lx dims exts) := by
  have hl := valid_length hv
  have hT : 0 < ly * lx := Int.mul_pos hy hx
  have hsl : ∀ r : Int, (TilePart.mk (ly, lx)).subtileSlice fl r dims ext true =
      .ok (slices (ly, lx) ((TilePart.mk (ly, lx)).subtileIndex r) true dims exts) := fun r =>
    (rankSlice_eq fl dims ext (ly, lx) _ true hd.noTile hl _).2 ⟨exts, ha, rfl⟩
  refine ⟨?_, ?_, ?_, ?_, ?_, ?_, hl.symm⟩
  · intro r _
    show ((TilePart.mk (ly, lx)).subtileSlice fl r dims ext true).map _ = _
    rw [hsl]; rfl
  · intro r _
    show (TilePart.mk (ly, lx)).subtileExtent fl r dims ext = _
    unfold TilePart.subtileExtent
    rw [show rankSlice fl dims ext (TilePart.mk (ly, lx)).layout ((TilePart.mk (ly, lx)).subtileIndex r) true
      = _ from hsl r]
    rfl
  · intro r _
    obtain ⟨hj, hi⟩ := sub_range_any hy hx (r : Int)
    exact (widths_nonneg hy hx hj hi hv ha).1
  · intro r _
    simp only [List.length_nil, Nat.zero_add]
    exact slices_length ha
  · intro g hg
    obtain ⟨⟨j, i⟩, hj, hi, hs⟩ :=
      slices_exists fl (ly, lx) hy hx dims ext exts g hd.oneJ hd.oneI hv ha hg
    obtain ⟨rank, ⟨h0, h1, h2⟩, _⟩ := (C01_tile_positions ly lx hy hx).2 j i hj.1 hj.2 hi.1 hi.2
    have e : (rank.toNat : Int) = rank := by omega
    refine ⟨rank.toNat, ?_, ?_⟩
    · show rank.toNat < (TilePart.mk (ly, lx)).totalRanks.toNat
      omega
    · have : tileS ly lx dims exts rank.toNat = slices (ly, lx) (j, i) true dims exts := by
        unfold tileS; rw [e, h2]
      rw [this]
      exact selects_place (selects_overlap hj hi ha hs)
  · show 0 < (TilePart.mk (ly, lx)).totalRanks.toNat
    simp only [TilePart.totalRanks]; omega

/-- rank of the probed position -/
theorem probe_rank {ly lx : Int} (hy : 0 < ly) (hx : 0 < lx) :
    ∃ r : Nat, (r : Int) < ly * lx ∧ (TilePart.mk (ly, lx)).subtileIndex r = probe (ly, lx) := by
  have hp : 0 ≤ (probe (ly, lx)).1 ∧ (probe (ly, lx)).1 < ly ∧ 0 ≤ (probe (ly, lx)).2 ∧
      (probe (ly, lx)).2 < lx := by
    unfold probe
    refine ⟨?_, ?_, ?_, ?_⟩ <;> simp only <;> split <;> omega
  obtain ⟨rank, ⟨h0, h1, h2⟩, _⟩ := (C01_tile_positions ly lx hy hx).2 _ _ hp.1 hp.2.1 hp.2.2.1 hp.2.2.2
  have h1' : rank < ly * lx := h1
  exact ⟨rank.toNat, by omega, by rw [show (rank.toNat : Int) = rank by omega, h2]⟩

theorem index_zero (ly lx : Int) : (TilePart.mk (ly, lx)).subtileIndex (0 : Nat) = (0, 0) := by
  simp [TilePart.subtileIndex, subtileIndex]

/-! ### cube -/

theorem cubeRankSlice (fl : FloatOps) (dims : List Dim) (ext : List Int) (layout sub : Int × Int)
    (ov : Bool) (n : Int) :
    rankSlice fl (.tile :: dims) (n :: ext) layout sub ov = rankSlice fl dims ext layout sub ov := by
  unfold rankSlice
  rw [discard_cons_tile, discard_cons_tile]

theorem cubeTile {ly lx : Int} (hy : 0 < ly) (hx : 0 < lx) (r : Nat)
    (hr : (r : Int) < (CubePart.mk ⟨(ly, lx)⟩).totalRanks) :
    (CubePart.mk ⟨(ly, lx)⟩).tileIndex r = .ok ((r : Int) / (ly * lx)) := by
  obtain ⟨t, j, i, hat, _⟩ := (C01_cube_positions ly lx hy hx).1 r (by omega) hr
  unfold CubePart.tileIndex getTileIndex
  have : (CubePart.mk ⟨(ly, lx)⟩).totalRanks = 6 * (ly * lx) := rfl
  rw [this, if_neg (by omega)]
  congr 2
  omega

theorem goodCube {fl : FloatOps} {ly lx : Int} (hy : 0 < ly) (hx : 0 < lx) {dims : List Dim}
    {ext : List Int} {exts : List (Int × Int)} (hd : TileDims dims) (hv : ValidExtents dims ext)
    (ha : Accepted fl (ly, lx) dims ext exts) :
    GoodPart ((CubePart.mk ⟨(ly, lx)⟩).part fl) (.tile :: dims) (6 :: ext)
      (fun r => [(r : Int) / (ly * lx)]) (tileS ly lx dims exts) := by
  have hl := valid_length hv
  have hT : 0 < ly * lx := Int.mul_pos hy hx
  have htot : ((CubePart.mk ⟨(ly, lx)⟩).part fl).total = (6 * (ly * lx)).toNat := rfl
  have hsl : ∀ r : Int, (TilePart.mk (ly, lx)).subtileSlice fl r dims ext true =
      .ok (slices (ly, lx) ((TilePart.mk (ly, lx)).subtileIndex r) true dims exts) := fun r =>
    (rankSlice_eq fl dims ext (ly, lx) _ true hd.noTile hl _).2 ⟨exts, ha, rfl⟩
  refine ⟨?_, ?_, ?_, ?_, ?_, ?_, by simp [hl]⟩
  · intro r hr
    show ((CubePart.mk ⟨(ly, lx)⟩).subtileSlice fl r (.tile :: dims) (6 :: ext) true).map _ = _
    simp only [CubePart.subtileSlice, ne_eq, not_true, if_false]
    rw [cubeTile hy hx r (by show (r : Int) < 6 * (ly * lx); omega)]
    simp only [bind, Except.bind, List.tail_cons, hsl]
    rfl
  · intro r _
    show (TilePart.mk (ly, lx)).subtileExtent fl r (.tile :: dims) (6 :: ext) = _
    unfold TilePart.subtileExtent
    rw [cubeRankSlice, show rankSlice fl dims ext (TilePart.mk (ly, lx)).layout
      ((TilePart.mk (ly, lx)).subtileIndex r) true = _ from hsl r]
    rfl
  · intro r _
    obtain ⟨hj, hi⟩ := sub_range_any hy hx (r : Int)
    exact (widths_nonneg hy hx hj hi hv ha).1
  · intro r _
    show 1 + (slices _ _ _ _ _).length = _
    rw [slices_length ha, List.length_cons]; omega
  · intro g hg
    cases hg with
    | @cons n t _ g' ht hg =>
    obtain ⟨⟨j, i⟩, hj, hi, hs⟩ :=
      slices_exists fl (ly, lx) hy hx dims ext exts g' hd.oneJ hd.oneI hv ha hg
    obtain ⟨rank, ⟨h0, h1, h2⟩, _⟩ :=
      (C01_cube_positions ly lx hy hx).2 t j i ht.1 ht.2 hj.1 hj.2 hi.1 hi.2
    have e : (rank.toNat : Int) = rank := by omega
    have h1' : rank < 6 * (ly * lx) := h1
    refine ⟨rank.toNat, by rw [htot]; omega, ?_⟩
    have hS : tileS ly lx dims exts rank.toNat = slices (ly, lx) (j, i) true dims exts := by
      unfold tileS; rw [e, h2.2]
    have hti : (rank.toNat : Int) / (ly * lx) = t := by
      have := cubeTile hy hx rank.toNat (by rw [e]; exact h1)
      rw [e, h2.1] at this
      rw [e]; exact (Except.ok.inj this).symm
    obtain ⟨k, hk1, hk2⟩ := selects_place (selects_overlap hj hi ha hs)
    refine ⟨k, by rw [hS]; exact hk1, ?_⟩
    rw [hS, hk2]
    simp only [hti]
    rfl
  · rw [htot]; omega

end NDSL
