import Verif.Lemmas.Slices
import Verif.Lemmas.EdgeSearch
import Verif.Props.Partitioner
import Mathlib.Tactic.Ring

/-
Property theorems C02-C05: the division of a tile among its ranks. `fl` ranges over all results of
the two floating point computations, i.e. over every `edge_interior_ratio` and every rounding.
-/
namespace NDSL

theorem tile_sub_range {ly lx rank : Int} (hy : 0 < ly) (hx : 0 < lx) (h0 : 0 ≤ rank)
    (h1 : rank < (TilePart.mk (ly, lx)).totalRanks) :
    (0 ≤ ((TilePart.mk (ly, lx)).subtileIndex rank).1 ∧
      ((TilePart.mk (ly, lx)).subtileIndex rank).1 < ly) ∧
    (0 ≤ ((TilePart.mk (ly, lx)).subtileIndex rank).2 ∧
      ((TilePart.mk (ly, lx)).subtileIndex rank).2 < lx) := by
  have := (C01_tile_positions ly lx hy hx).1 rank h0 h1
  exact ⟨⟨this.1, this.2.1⟩, ⟨this.2.2.1, this.2.2.2⟩⟩

theorem not_isJ {d : Dim} (h : d.isI = true) : d.isJ = false := by
  cases d <;> first | rfl | exact absurd h (by decide)

theorem cnt_eq_ranks {layout : Int × Int} {d : Dim} (hh : d.isHorizontal = true) :
    cnt layout d = if d.isJ then layout.1 else layout.2 := by
  cases d <;> simp_all [cnt, Dim.isHorizontal, Dim.isI, Dim.isJ]

/-! ## C02 -/

/-- C02, single tile: if the decomposition is accepted (for some rank) then it is accepted for every
rank; every index of the tile is selected by some rank, and two ranks selecting the same index hold
the same position along every axis present in `dims` (hence are the same rank when an x and a y
dimension are present). Nothing outside the tile is selected. -/
theorem C02_tile_slices_partition (fl : FloatOps) (ly lx : Int) (hy : 0 < ly) (hx : 0 < lx)
    (dims : List Dim) (extent : List Int) (hd : TileDims dims) (hv : ValidExtents dims extent)
    (rank₀ : Int) (s₀ : List Slice)
    (hacc : (TilePart.mk (ly, lx)).subtileSlice fl rank₀ dims extent false = .ok s₀) :
    let p : TilePart := ⟨(ly, lx)⟩
    ∃ S : Int → List Slice,
      (∀ rank, p.subtileSlice fl rank dims extent false = .ok (S rank)) ∧
      (∀ rank, 0 ≤ rank → rank < p.totalRanks → ∀ g, Selects (S rank) g → InExtent extent g) ∧
      (∀ g, InExtent extent g → ∃ rank, 0 ≤ rank ∧ rank < p.totalRanks ∧ Selects (S rank) g) ∧
      (∀ g rank rank', 0 ≤ rank → rank < p.totalRanks → 0 ≤ rank' → rank' < p.totalRanks →
        Selects (S rank) g → Selects (S rank') g →
        ((∃ d ∈ dims, d.isJ = true) → (p.subtileIndex rank).1 = (p.subtileIndex rank').1) ∧
        ((∃ d ∈ dims, d.isI = true) → (p.subtileIndex rank).2 = (p.subtileIndex rank').2) ∧
        ((∃ d ∈ dims, d.isJ = true) → (∃ d ∈ dims, d.isI = true) → rank = rank')) := by
  intro p
  have hl := valid_length hv
  obtain ⟨exts, ha, _⟩ := (rankSlice_eq fl dims extent (ly, lx) _ false hd.noTile hl s₀).1 hacc
  refine ⟨fun rank => slices (ly, lx) (p.subtileIndex rank) false dims exts, ?_, ?_, ?_, ?_⟩
  · intro rank
    exact (rankSlice_eq fl dims extent (ly, lx) _ false hd.noTile hl _).2 ⟨exts, ha, rfl⟩
  · intro rank h0 h1 g hg
    obtain ⟨hj, hi⟩ := tile_sub_range hy hx h0 h1
    exact slices_inside fl (ly, lx) hy hx false _ hj hi dims extent exts g hv ha hg
  · intro g hg
    obtain ⟨⟨j, i⟩, hj, hi, hs⟩ :=
      slices_exists fl (ly, lx) hy hx dims extent exts g hd.oneJ hd.oneI hv ha hg
    obtain ⟨rank, ⟨h0, h1, h2⟩, _⟩ :=
      (C01_tile_positions ly lx hy hx).2 j i hj.1 hj.2 hi.1 hi.2
    exact ⟨rank, h0, h1, by show Selects (slices _ (p.subtileIndex rank) _ _ _) _; rw [h2]; exact hs⟩
  · intro g rank rank' h0 h1 h0' h1' hs hs'
    obtain ⟨hj, hi⟩ := tile_sub_range hy hx h0 h1
    obtain ⟨hj', hi'⟩ := tile_sub_range hy hx h0' h1'
    have hu := slices_unique fl (ly, lx) hy hx _ _ hj hi hj' hi' dims extent exts g hv ha hs hs'
    have hJ : (∃ d ∈ dims, d.isJ = true) → (p.subtileIndex rank).1 = (p.subtileIndex rank').1 := by
      rintro ⟨d, hd, hdj⟩
      have := hu d hd (by simp [Dim.isHorizontal, hdj])
      simpa [idx, hdj] using this
    have hI : (∃ d ∈ dims, d.isI = true) → (p.subtileIndex rank).2 = (p.subtileIndex rank').2 := by
      rintro ⟨d, hd, hdi⟩
      have := hu d hd (by simp [Dim.isHorizontal, hdi])
      have hnj : d.isJ = false := not_isJ hdi
      simpa [idx, hnj] using this
    refine ⟨hJ, hI, fun a b => ?_⟩
    obtain ⟨r, _, hr⟩ := (C01_tile_positions ly lx hy hx).2 _ _ hj.1 hj.2 hi.1 hi.2
    rw [hr rank h0 h1 rfl, hr rank' h0' h1' (Prod.ext (hJ a).symm (hI b).symm)]

/-- Exact arithmetic version of the two estimates for ratio 1, used by the concrete cases. -/
def exactOps : FloatOps where
  startSize n c := (2 * n + c) / (2 * c)
  interior e n c := (n - 2 * e) / (c - 2)

/-- an uneven case: 11 cells (12 interface lines) in x on 3 ranks, 8 in y on 2 ranks, 5 levels -/
example : (TilePart.mk (2, 3)).subtileSlice exactOps 5 [.j, .iInterface, .k] [8, 12, 5] false =
    .ok [⟨4, 8⟩, ⟨7, 12⟩, ⟨0, 5⟩] := by decide
example : (TilePart.mk (2, 3)).subtileSlice exactOps 4 [.j, .iInterface, .k] [8, 12, 5] false =
    .ok [⟨4, 8⟩, ⟨4, 7⟩, ⟨0, 5⟩] := by decide
example : TileDims [.j, .iInterface, .k] := ⟨by decide, by decide, by decide⟩
example : ValidExtents [.j, .iInterface, .k] [8, 12, 5] := by
  refine .cons ?_ (.cons ?_ (.cons ?_ .nil)) <;> decide

/-- C02, cubed sphere: every index `(t, g)` of the six tiles is selected by exactly one rank, when
`dims` starts with the tile dimension and then has one x and one y dimension. -/
theorem C02_cube_slices_partition (fl : FloatOps) (ly lx : Int) (hy : 0 < ly) (hx : 0 < lx)
    (dims : List Dim) (extent : List Int) (hd : TileDims dims) (hv : ValidExtents dims extent)
    (hJ : ∃ d ∈ dims, d.isJ = true) (hI : ∃ d ∈ dims, d.isI = true)
    (s₀ : Int × List Slice)
    (hacc : (CubePart.mk ⟨(ly, lx)⟩).subtileSlice fl 0 (.tile :: dims) (6 :: extent) false = .ok s₀) :
    let p : CubePart := ⟨⟨(ly, lx)⟩⟩
    ∃ S : Int → List Slice, ∃ T : Int → Int,
      (∀ rank, 0 ≤ rank → rank < p.totalRanks →
        p.subtileSlice fl rank (.tile :: dims) (6 :: extent) false = .ok (T rank, S rank)) ∧
      (∀ t g, 0 ≤ t → t < 6 → InExtent extent g →
        ∃ rank, (0 ≤ rank ∧ rank < p.totalRanks ∧ T rank = t ∧ Selects (S rank) g) ∧
          ∀ rank', 0 ≤ rank' → rank' < p.totalRanks → T rank' = t → Selects (S rank') g →
            rank' = rank) := by
  intro p
  have hl := valid_length hv
  have hT : 0 < ly * lx := Int.mul_pos hy hx
  have tot : p.totalRanks = 6 * (ly * lx) := rfl
  obtain ⟨e1, e2⟩ := C01_cube_positions ly lx hy hx
  -- accepted
  have hacc' : ∃ s, p.tile.subtileSlice fl 0 dims extent false = .ok s := by
    simp only [CubePart.subtileSlice, List.tail_cons] at hacc
    cases h : p.tile.subtileSlice fl 0 dims extent false with
    | ok s => exact ⟨s, rfl⟩
    | error e =>
      exfalso
      obtain ⟨t, _, _, hat, _⟩ := e1 0 (by omega) (by rw [show (CubePart.mk ⟨(ly, lx)⟩).totalRanks = 6 * (ly * lx) from rfl]; omega)
      rw [hat.1] at hacc
      simp only [ne_eq, not_true, if_false, bind, Except.bind] at hacc
      have h' : (TilePart.mk (ly, lx)).subtileSlice fl 0 dims extent false = .error e := h
      rw [h'] at hacc
      cases hacc
  obtain ⟨s1, hs1⟩ := hacc'
  obtain ⟨exts, ha, _⟩ := (rankSlice_eq fl dims extent (ly, lx) _ false hd.noTile hl s1).1 hs1
  refine ⟨fun rank => slices (ly, lx) (p.tile.subtileIndex rank) false dims exts,
    fun rank => match p.tileIndex rank with | .ok t => t | .error _ => 0, ?_, ?_⟩
  · intro rank h0 h1
    obtain ⟨t, j, i, hat, _⟩ := e1 rank h0 h1
    have hsl : p.tile.subtileSlice fl rank dims extent false =
        .ok (slices (ly, lx) (p.tile.subtileIndex rank) false dims exts) :=
      (rankSlice_eq fl dims extent (ly, lx) _ false hd.noTile hl _).2 ⟨exts, ha, rfl⟩
    have hat1 : p.tileIndex rank = .ok t := hat.1
    simp only [CubePart.subtileSlice, List.tail_cons, ne_eq, not_true, if_false, hat1, hsl, bind,
      Except.bind, pure, Except.pure]
  · intro t g ht0 ht1 hg
    obtain ⟨⟨j, i⟩, hj, hi, hs⟩ :=
      slices_exists fl (ly, lx) hy hx dims extent exts g hd.oneJ hd.oneI hv ha hg
    obtain ⟨rank, ⟨h0, h1, hat⟩, hu⟩ := e2 t j i ht0 ht1 hj.1 hj.2 hi.1 hi.2
    have hat1 : p.tileIndex rank = .ok t := hat.1
    have hat2 : p.tile.subtileIndex rank = (j, i) := hat.2
    refine ⟨rank, ⟨h0, h1, by simp only [hat1], by simp only [hat2]; exact hs⟩, ?_⟩
    intro rank' h0' h1' ht' hs'
    obtain ⟨t', j', i', hat', _, _, a, b, c, d, _⟩ := e1 rank' h0' h1'
    have hat1' : p.tileIndex rank' = .ok t' := hat'.1
    have hat2' : p.tile.subtileIndex rank' = (j', i') := hat'.2
    simp only [hat1'] at ht'
    simp only [hat2'] at hs'
    subst ht'
    have hq := slices_unique fl (ly, lx) hy hx (j, i) (j', i') hj hi ⟨a, b⟩ ⟨c, d⟩ dims extent exts
      g hv ha hs hs'
    have hjj : j = j' := by
      obtain ⟨d, hd, hdj⟩ := hJ
      have := hq d hd (by simp [Dim.isHorizontal, hdj])
      simpa [idx, hdj] using this
    have hii : i = i' := by
      obtain ⟨d, hd, hdi⟩ := hI
      have := hq d hd (by simp [Dim.isHorizontal, hdi])
      have hnj : d.isJ = false := not_isJ hdi
      simpa [idx, hnj] using this
    subst hjj; subst hii
    exact hu rank' h0' h1' ⟨hat1', hat2'⟩

example : (CubePart.mk ⟨(2, 2)⟩).subtileSlice exactOps 13 [.tile, .k, .jInterface, .i] [6, 3, 9, 8] false
    = .ok (3, [⟨0, 3⟩, ⟨0, 4⟩, ⟨4, 8⟩]) := by decide

/-! ## C03 -/

/-- C03: with overlap the slices have the rank's own extent; along a cell or non-horizontal
dimension they are the ones without overlap; along an x or y interface dimension (position `m` of
`dims`), ranks next to each other on that axis share exactly one index, ranks further apart share
none. -/
theorem C03_overlap_slices (fl : FloatOps) (ly lx : Int) (hy : 0 < ly) (hx : 0 < lx)
    (dims : List Dim) (extent : List Int) (ht : Dim.tile ∉ dims) (hv : ValidExtents dims extent)
    (rank₀ : Int) (s₀ : List Slice)
    (hacc : (TilePart.mk (ly, lx)).subtileSlice fl rank₀ dims extent true = .ok s₀) :
    let p : TilePart := ⟨(ly, lx)⟩
    ∃ S S' : Int → List Slice,
      (∀ rank, p.subtileSlice fl rank dims extent true = .ok (S rank) ∧
        p.subtileSlice fl rank dims extent false = .ok (S' rank) ∧
        p.subtileExtent fl rank dims extent = .ok ((S rank).map fun s => s.stop - s.start)) ∧
      (∀ rank, 0 ≤ rank → rank < p.totalRanks → ∀ (m : Nat) (d : Dim), dims[m]? = some d →
        (d.isHorizontal = false ∨ d.isInterface = false) → (S rank)[m]? = (S' rank)[m]?) ∧
      (∀ rank rank', 0 ≤ rank → rank < p.totalRanks → 0 ≤ rank' → rank' < p.totalRanks →
        ∀ (m : Nat) (d : Dim), dims[m]? = some d → d.isHorizontal = true → d.isInterface = true →
        ∃ s s', (S rank)[m]? = some s ∧ (S rank')[m]? = some s' ∧
          let pos := fun r => if d.isJ then (p.subtileIndex r).1 else (p.subtileIndex r).2
          (pos rank' = pos rank + 1 → ∃ g, ∀ x, (s.Has x ∧ s'.Has x) ↔ x = g) ∧
          (pos rank' > pos rank + 1 → ∀ x, ¬ (s.Has x ∧ s'.Has x))) := by
  intro p
  have hl := valid_length hv
  obtain ⟨exts, ha, _⟩ := (rankSlice_eq fl dims extent (ly, lx) _ true ht hl s₀).1 hacc
  have hS : ∀ ov rank, p.subtileSlice fl rank dims extent ov =
      .ok (slices (ly, lx) (p.subtileIndex rank) ov dims exts) := fun ov rank =>
    (rankSlice_eq fl dims extent (ly, lx) _ ov ht hl _).2 ⟨exts, ha, rfl⟩
  refine ⟨fun rank => slices (ly, lx) (p.subtileIndex rank) true dims exts,
    fun rank => slices (ly, lx) (p.subtileIndex rank) false dims exts, ?_, ?_, ?_⟩
  · intro rank
    refine ⟨hS true rank, hS false rank, ?_⟩
    have := hS true rank
    unfold TilePart.subtileSlice at this
    unfold TilePart.subtileExtent
    rw [this]; rfl
  · intro rank h0 h1 m d hm hd
    have hml : m < dims.length := (List.getElem?_eq_some_iff.1 hm).1
    obtain ⟨n, hn⟩ : ∃ n, extent[m]? = some n := ⟨_, List.getElem?_eq_getElem (by omega)⟩
    obtain ⟨x, hx1, _, hx2⟩ := slices_get fl (ly, lx) (p.subtileIndex rank) true dims extent exts m d n ha hm hn
    obtain ⟨x', hx1', _, hx2'⟩ := slices_get fl (ly, lx) (p.subtileIndex rank) false dims extent exts m d n ha hm hn
    rw [hx1] at hx1'
    cases hx1'
    simp only [hx2, hx2']
    congr 1
    by_cases hh : d.isHorizontal = true
    · have hi : d.isInterface = false := by
        rcases hd with h | h
        · rw [hh] at h; cases h
        · exact h
      obtain ⟨hj, hii⟩ := tile_sub_range hy hx h0 h1
      have hr := idx_cnt_range (layout := (ly, lx)) hj hii d hh
      rw [dimSlice_horizontal _ _ _ _ _ _ hh hr.1, dimSlice_horizontal _ _ _ _ _ _ hh hr.1]
      simp [hi]
    · simp [dimSlice, hh]
  · intro rank rank' h0 h1 h0' h1' m d hm hh hi
    have hml : m < dims.length := (List.getElem?_eq_some_iff.1 hm).1
    obtain ⟨n, hn⟩ : ∃ n, extent[m]? = some n := ⟨_, List.getElem?_eq_getElem (by omega)⟩
    obtain ⟨⟨I, E⟩, hx1, _, hx2⟩ :=
      slices_get fl (ly, lx) (p.subtileIndex rank) true dims extent exts m d n ha hm hn
    obtain ⟨x', hx1', _, hx2'⟩ :=
      slices_get fl (ly, lx) (p.subtileIndex rank') true dims extent exts m d n ha hm hn
    have hxx := hx1
    rw [hx1] at hx1'
    cases hx1'
    obtain ⟨hj, hii⟩ := tile_sub_range hy hx h0 h1
    obtain ⟨hj', hii'⟩ := tile_sub_range hy hx h0' h1'
    have hr := idx_cnt_range (layout := (ly, lx)) hj hii d hh
    have hr' := idx_cnt_range (layout := (ly, lx)) hj' hii' d hh
    have hvn : 0 ≤ n ∧ (d.isInterface = true → 1 ≤ n) := by
      have := (List.forall₂_iff_get.1 hv).2 m hml (by omega)
      simp only [List.get_eq_getElem] at this
      rw [(List.getElem?_eq_some_iff.1 hm).2, (List.getElem?_eq_some_iff.1 hn).2] at this
      exact this
    have hc := cnt_pos (ly, lx) d hy hx
    obtain ⟨hE, hI, _⟩ := dimExtents_bnd fl d _ n I E hc (cnt_horizontal _ _) (valid_cells hvn) hxx
    have hso := dimExtents_sound fl d _ n I E hc (cnt_horizontal _ _) hxx
    refine ⟨_, _, hx2, hx2', ?_⟩
    rw [dimSlice_horizontal _ _ _ _ _ _ hh hr.1, dimSlice_horizontal _ _ _ _ _ _ hh hr'.1]
    simp only [hi, true_and, true_or, if_true]
    show (idx (p.subtileIndex rank') d = idx (p.subtileIndex rank) d + 1 → _) ∧
      (idx (p.subtileIndex rank') d > idx (p.subtileIndex rank) d + 1 → _)
    generalize idx (p.subtileIndex rank) d = a at *
    generalize idx (p.subtileIndex rank') d = b at *
    constructor
    · intro hab
      refine ⟨bnd E I (cnt (ly, lx) d) b.toNat, ?_⟩
      intro x
      have e : b.toNat = a.toNat + 1 := by omega
      have m1 := bnd_le E I (cnt (ly, lx) d) hE hI a.toNat (a.toNat + 1) (by omega) (by omega)
      have m2 := bnd_le E I (cnt (ly, lx) d) hE hI (a.toNat + 1) (a.toNat + 1 + 1) (by omega)
        (by omega)
      rw [e]
      simp only [Slice.Has]
      omega
    · intro hab x hx
      have m1 := bnd_le E I (cnt (ly, lx) d) hE hI (a.toNat + 1 + 1) b.toNat (by omega) (by omega)
      have m2 := bnd_succ E I (cnt (ly, lx) d) (a.toNat + 1)
      simp only [Slice.Has] at hx
      split at m2 <;> omega

example : (TilePart.mk (1, 3)).subtileSlice exactOps 0 [.iInterface] [12] true = .ok [⟨0, 5⟩] ∧
    (TilePart.mk (1, 3)).subtileSlice exactOps 1 [.iInterface] [12] true = .ok [⟨4, 8⟩] ∧
    (TilePart.mk (1, 3)).subtileSlice exactOps 2 [.iInterface] [12] true = .ok [⟨7, 12⟩] := by decide

/-! ## C04 -/

/-- Sum of `f 0 + ... + f (k-1)`. -/
def sumUpTo (f : Nat → Int) : Nat → Int
  | 0 => 0
  | k + 1 => sumUpTo f k + f k

/-- C04, soundness: whenever `subtile_slice` returns, along each x or y dimension (position `m`) the
ranks' numbers of cells are positive (if the tile has at least as many cells as ranks, or at least
three ranks share the axis) and add up to the tile's number of cells. -/
theorem C04_sizes_sound (fl : FloatOps) (layout : Int × Int) (h1 : 0 < layout.1)
    (h2 : 0 < layout.2) (dims : List Dim) (extent : List Int) (ht : Dim.tile ∉ dims)
    (hv : ValidExtents dims extent) (s₀ : List Slice) (sub₀ : Int × Int)
    (hacc : rankSlice fl dims extent layout sub₀ false = .ok s₀)
    (m : Nat) (d : Dim) (n : Int) (hm : dims[m]? = some d) (hn : extent[m]? = some n)
    (hh : d.isHorizontal = true) :
    let ranks := if d.isJ then layout.1 else layout.2
    ∃ len : Nat → Int,
      (∀ a : Nat, (a : Int) < ranks → ∃ s S, rankSlice fl dims extent layout (a, a) false = .ok S ∧
        S[m]? = some s ∧ s.stop - s.start = len a) ∧
      sumUpTo len ranks.toNat = n ∧
      (∀ a : Nat, (a : Int) < ranks → 0 ≤ len a) ∧
      (ranks ≥ 3 ∨ n ≥ (if d.isInterface then ranks + 1 else ranks) →
        ∀ a : Nat, (a : Int) < ranks → 0 < len a) := by
  intro ranks
  have hl := valid_length hv
  obtain ⟨exts, ha, _⟩ := (rankSlice_eq fl dims extent layout _ false ht hl s₀).1 hacc
  have hcr : cnt layout d = ranks := cnt_eq_ranks hh
  have hml : m < dims.length := (List.getElem?_eq_some_iff.1 hm).1
  have hvn : 0 ≤ n ∧ (d.isInterface = true → 1 ≤ n) := by
    have := (List.forall₂_iff_get.1 hv).2 m hml (by omega)
    simp only [List.get_eq_getElem] at this
    rw [(List.getElem?_eq_some_iff.1 hm).2, (List.getElem?_eq_some_iff.1 hn).2] at this
    exact this
  obtain ⟨⟨I, E⟩, hx1, _, _⟩ := slices_get fl layout sub₀ false dims extent exts m d n ha hm hn
  have hc := cnt_pos layout d h1 h2
  obtain ⟨hE, hI, hb⟩ := dimExtents_bnd fl d _ n I E hc (cnt_horizontal _ _) (valid_cells hvn) hx1
  have hso := dimExtents_sound fl d _ n I E hc (cnt_horizontal _ _) hx1
  rw [hcr] at hc hI hb hso
  have hcl : cells d n = if d.isInterface = true then n - 1 else n := rfl
  have hlen : ∀ a : Nat, (dimSlice layout ((a : Int), (a : Int)) false d I E).stop -
      (dimSlice layout ((a : Int), (a : Int)) false d I E).start =
      (if a = 0 ∨ (a : Int) = ranks - 1 then E else I) +
        (if d.isInterface = true ∧ (a : Int) = ranks - 1 then 1 else 0) := by
    intro a
    have hi : idx ((a : Int), (a : Int)) d = a := by simp [idx]
    rw [dimSlice_horizontal _ _ _ _ _ _ hh (by rw [hi]; omega), hi, hcr]
    simp only [Int.toNat_natCast, Bool.false_eq_true, false_or]
    rw [bnd_succ]; omega
  refine ⟨fun a => (dimSlice layout ((a : Int), (a : Int)) false d I E).stop -
      (dimSlice layout ((a : Int), (a : Int)) false d I E).start, ?_, ?_, ?_, ?_⟩
  · intro a _
    obtain ⟨x, hx, _, hs⟩ :=
      slices_get fl layout ((a : Int), (a : Int)) false dims extent exts m d n ha hm hn
    rw [hx1] at hx; cases hx
    exact ⟨_, _, (rankSlice_eq fl dims extent layout _ false ht hl _).2 ⟨exts, ha, rfl⟩, hs, rfl⟩
  · have key : ∀ k : Nat, (k : Int) < ranks →
        sumUpTo (fun a => (dimSlice layout ((a : Int), (a : Int)) false d I E).stop -
          (dimSlice layout ((a : Int), (a : Int)) false d I E).start) k = bnd E I ranks k := by
      intro k
      induction k with
      | zero => intro _; rfl
      | succ k ih =>
        intro hk
        simp only [sumUpTo]
        rw [ih (by omega), bnd_succ, hlen, if_neg (c := d.isInterface = true ∧ _) (by omega)]
        omega
    obtain ⟨k, hk⟩ : ∃ k : Nat, ranks.toNat = k + 1 := ⟨ranks.toNat - 1, by omega⟩
    rw [hk] at hb ⊢
    simp only [sumUpTo]
    rw [key k (by omega), hlen]
    rw [bnd_succ] at hb
    by_cases hint : d.isInterface = true
    · rw [if_pos (c := d.isInterface = true ∧ _) ⟨hint, by omega⟩]
      rw [if_pos hint] at hcl; omega
    · rw [if_neg (c := d.isInterface = true ∧ _) (fun h => hint h.1)]
      rw [if_neg hint] at hcl; omega
  · intro a hal
    simp only [hlen]
    split <;> split <;> omega
  · intro hpos a hal
    simp only [hlen]
    by_cases hint : d.isInterface = true
    · simp only [hint, true_and, if_true] at hcl hpos ⊢
      split <;> split <;> omega
    · have hint' : d.isInterface = false := by simpa using hint
      simp only [hint', Bool.false_eq_true, false_and, if_false] at hcl hpos ⊢
      split <;> omega

example : rankSlice exactOps [.iInterface] [12] (1, 3) (0, 0) false = .ok [⟨0, 4⟩] := by decide

/-- The full completeness half of C04: whenever a tile axis of `n` cells can be divided into two
equal edge ranks and `c - 2` equal interior ranks, the search returns a division. -/
def C04CompleteFor (fl : FloatOps) : Prop :=
  ∀ (d : Dim) (c n e w : Int), d.isHorizontal = true → 3 ≤ c → 1 ≤ e → 1 ≤ w →
    2 * e + (c - 2) * w = cells d n → ∃ r, dimExtents fl d c n = .ok r

/-- C04 completeness fails: 7 cells on 5 ranks can be divided as 2+1+1+1+2, but every evaluation in
which `round(7 / 5)` is 1 raises. -/
theorem C04_complete_violated (fl : FloatOps) (hs : fl.startSize 7 5 = 1)
    (hi : fl.interior 1 7 5 = 1) :
    dimExtents fl .i 5 7 = .error .valueError ∧ ¬ C04CompleteFor fl := by
  have he : dimExtents fl .i 5 7 = .error .valueError := by
    have hl : validEdgeSizes 7 5 1 = [1] := by decide
    unfold dimExtents
    simp only [show Dim.isInterface .i = false from rfl, Bool.false_eq_true, if_false, hs, hl]
    rw [if_neg (by decide), if_pos (by decide)]
    simp [hi]
  refine ⟨he, fun hc => ?_⟩
  obtain ⟨r, hr⟩ := hc .i 5 7 2 1 rfl (by decide) (by decide) (by decide) (by decide)
  rw [he] at hr; cases hr

/-- the hypotheses are those of exact arithmetic (and of IEEE doubles: 7/5 = 1.4, 1/(1/(5/3)) ≈ 1.67) -/
example : exactOps.startSize 7 5 = 1 ∧ exactOps.interior 1 7 5 = 1 := by decide

/-- C04 completeness, the part that holds: `edge_interior_ratio` 1 (the start is a nearest integer to
`n / c`), interior sizes exact when they are integers, and more than 3/2 cells per rank on average.
Missing: fewer cells per rank (there it fails, see `C04_complete_violated`), other ratios. -/
theorem C04_complete_partial (fl : FloatOps)
    (hround : ∀ n c, 3 ≤ c → 2 * n - c ≤ 2 * c * fl.startSize n c ∧
      2 * c * fl.startSize n c ≤ 2 * n + c)
    (hexact : ∀ e n c w, 3 ≤ c → 1 ≤ e → 1 ≤ w → n - 2 * e = (c - 2) * w → fl.interior e n c = w)
    (d : Dim) (c n e w : Int) (hh : d.isHorizontal = true) (hc : 3 ≤ c) (he : 1 ≤ e) (hw : 1 ≤ w)
    (hsum : 2 * e + (c - 2) * w = cells d n) (hbig : 3 * c < 2 * cells d n) :
    ∃ r, dimExtents fl d c n = .ok r := by
  unfold dimExtents
  rw [show (if d.isInterface then n - 1 else n) = cells d n from rfl]
  generalize cells d n = N at *
  simp only
  have hodd : ¬ (c % 2 = 0 ∧ N % 2 ≠ 0) := by
    rintro ⟨h1, h2⟩
    obtain ⟨k, hk⟩ : ∃ k, c = 2 * k := ⟨c / 2, by omega⟩
    apply h2
    rw [← hsum, hk, show 2 * e + (2 * k - 2) * w = 2 * (e + (k - 1) * w) by ring]
    omega
  rw [if_neg hodd, if_pos ⟨hc, hh⟩]
  have htop : N - c + 2 ≥ 0 := by
    have : (c - 2) * 1 ≤ (c - 2) * w := Int.mul_le_mul_of_nonneg_left hw (by omega)
    omega
  have hT : edgeTop N c = (N - c + 2) / 2 + 1 := by
    unfold edgeTop; rw [Int.tdiv_eq_ediv_of_nonneg htop]
  obtain ⟨r1, r2⟩ := hround N c hc
  have hs2 : 2 ≤ fl.startSize N c := by
    by_contra hlt
    have : 2 * c * fl.startSize N c ≤ 2 * c * 1 := Int.mul_le_mul_of_nonneg_left (by omega) (by omega)
    omega
  have hst : fl.startSize N c ≤ edgeTop N c := by
    rw [hT]
    by_contra hgt
    have h6 : 6 * fl.startSize N c ≤ 2 * c * fl.startSize N c := by nlinarith
    have hcs : 2 * c * ((N - c + 2) / 2 + 2) ≤ 2 * c * fl.startSize N c :=
      Int.mul_le_mul_of_nonneg_left (by omega) (by omega)
    have hq : N - c + 2 ≤ 2 * ((N - c + 2) / 2) + 1 := by omega
    nlinarith
  have hmem : e ∈ validEdgeSizes N c (fl.startSize N c) := by
    refine validEdgeSizes_complete N c _ e hs2 hst he ?_
    rw [hT]
    have : (c - 2) * 1 ≤ (c - 2) * w := Int.mul_le_mul_of_nonneg_left hw (by omega)
    omega
  have hok : (e * 2 + (c - 2) * fl.interior e N c == N) = true := by
    rw [hexact e N c w hc he hw (by omega)]
    simp only [beq_iff_eq]; omega
  cases hf : (validEdgeSizes N c (fl.startSize N c)).find?
      (fun e => e * 2 + (c - 2) * fl.interior e N c == N) with
  | some e' => exact ⟨_, rfl⟩
  | none =>
    rw [List.find?_eq_none] at hf
    exact absurd hok (hf e hmem)

/-- C04: exactly what the search finds, for every ratio and rounding of the starting size: a division into two equal edges of `e` cells and `c - 2` equal
interior ranks of `w` is found unless the search does not get to it, which is when it starts at 1 and `e` is not 1, when it starts below 1, and when it starts
so far above the largest size `T = (n - c + 2) / 2` that it ends before coming down to `e`. -/
theorem C04_found_iff_partial (fl : FloatOps)
    (hexact : ∀ e n c w, 3 ≤ c → 1 ≤ e → 1 ≤ w → n - 2 * e = (c - 2) * w → fl.interior e n c = w)
    (d : Dim) (c n : Int) (hh : d.isHorizontal = true) (hc : 3 ≤ c) :
    let N := if d.isInterface then n - 1 else n
    let start := fl.startSize N c
    let T := (N - c + 2) / 2
    (∃ r, dimExtents fl d c n = .ok r) ↔ ∃ e w, 1 ≤ e ∧ 1 ≤ w ∧ 2 * e + (c - 2) * w = N ∧
      ((start = 1 ∧ e = 1) ∨ (2 ≤ start ∧ start ≤ T + 1) ∨ (T + 1 < start ∧ start - (T + 1) < e)) := by
  intro N start T
  have hd : dimExtents fl d c n = (if c % 2 = 0 ∧ N % 2 ≠ 0 then .error .valueError
      else match (validEdgeSizes N c start).find? (fun e => e * 2 + (c - 2) * fl.interior e N c == N) with
        | none => .error .valueError
        | some e => .ok (fl.interior e N c, e)) := by
    unfold dimExtents
    simp only [N, start]
    by_cases ho : c % 2 = 0 ∧ (if d.isInterface then n - 1 else n) % 2 ≠ 0
    · rw [if_pos ho, if_pos ho]
    · rw [if_neg ho, if_neg ho, if_pos ⟨hc, hh⟩]
      rfl
  have hodd : ∀ e w, 2 * e + (c - 2) * w = N → ¬ (c % 2 = 0 ∧ N % 2 ≠ 0) := by
    rintro e w hsum ⟨h1, h2⟩
    obtain ⟨k, hk⟩ : ∃ k, c = 2 * k := ⟨c / 2, by omega⟩
    apply h2
    rw [← hsum, hk, show 2 * e + (2 * k - 2) * w = 2 * (e + (k - 1) * w) by ring]
    omega
  have hT : ∀ e w, 1 ≤ e → 1 ≤ w → 2 * e + (c - 2) * w = N → edgeTop N c = T + 1 ∧ e < edgeTop N c := by
    intro e w he hw hs
    have : (c - 2) * 1 ≤ (c - 2) * w := Int.mul_le_mul_of_nonneg_left hw (by omega)
    unfold edgeTop
    rw [Int.tdiv_eq_ediv_of_nonneg (by omega)]
    exact ⟨rfl, by omega⟩
  rw [hd]
  constructor
  · rintro ⟨r, hr⟩
    split at hr
    · cases hr
    · cases hf : (validEdgeSizes N c start).find? (fun e => e * 2 + (c - 2) * fl.interior e N c == N) with
      | none => rw [hf] at hr; cases hr
      | some e =>
        have h1 := List.find?_some hf
        have h2 := (mem_validEdgeSizes N c start e).1 (List.mem_of_find?_eq_some hf)
        have h1 : e * 2 + (c - 2) * fl.interior e N c = N := by simpa using h1
        obtain ⟨⟨e1, e2⟩, e3⟩ := h2
        have hw : 1 ≤ fl.interior e N c := by
          by_contra hlt
          have h3 : (c - 2) * fl.interior e N c ≤ (c - 2) * 0 := Int.mul_le_mul_of_nonneg_left (by omega) (by omega)
          unfold edgeTop at e2
          have h4 := Int.tdiv_eq_ediv (a := N - c + 2) (b := 2)
          by_cases hn : 0 ≤ N - c + 2
          · rw [Int.tdiv_eq_ediv_of_nonneg hn] at e2
            omega
          · have : (N - c + 2).tdiv 2 ≤ 0 := by
              rw [h4, show Int.sign 2 = 1 from rfl]
              split <;> omega
            omega
        have ht := hT e _ e1 hw (by omega)
        refine ⟨e, fl.interior e N c, e1, hw, by omega, ?_⟩
        rw [ht.1] at e3
        exact e3
  · rintro ⟨e, w, he, hw, hsum, hcase⟩
    rw [if_neg (hodd e w hsum)]
    have ht := hT e w he hw hsum
    have hmem : e ∈ validEdgeSizes N c start := (mem_validEdgeSizes N c start e).2 ⟨⟨he, ht.2⟩, by rw [ht.1]; exact hcase⟩
    cases hf : (validEdgeSizes N c start).find? (fun e => e * 2 + (c - 2) * fl.interior e N c == N) with
    | some e' => exact ⟨_, rfl⟩
    | none =>
      rw [List.find?_eq_none] at hf
      refine absurd ?_ (hf e hmem)
      rw [hexact e N c w hc he hw (by omega)]
      simp only [beq_iff_eq]; omega

/-- exact arithmetic meets the hypotheses; 128 cells on 3 ranks is accepted -/
example : (∀ n c, 3 ≤ c → 2 * n - c ≤ 2 * c * exactOps.startSize n c ∧
      2 * c * exactOps.startSize n c ≤ 2 * n + c) ∧
    (∀ e n c w, 3 ≤ c → 1 ≤ e → 1 ≤ w → n - 2 * e = (c - 2) * w →
      exactOps.interior e n c = w) := by
  constructor
  · intro n c hc
    simp only [exactOps]
    have h1 := Int.mul_ediv_add_emod (2 * n + c) (2 * c)
    have h2 := Int.emod_nonneg (2 * n + c) (b := 2 * c) (by omega)
    have h3 := Int.emod_lt_of_pos (2 * n + c) (b := 2 * c) (by omega)
    omega
  · intro e n c w hc _ _ h
    simp only [exactOps, h]
    exact Int.mul_ediv_cancel_left _ (by omega)
example : dimExtents exactOps .i 3 128 = .ok (42, 43) := by decide +kernel
/-- 9 cells on 5 ranks start at 2 and are divided; 8 on 5 start at 2 too, and have the division 1+2+2+2+1 only -/
example : exactOps.startSize 9 5 = 2 ∧ dimExtents exactOps .i 5 9 = .ok (1, 3) ∧ dimExtents exactOps .i 5 8 = .ok (2, 1) := by decide +kernel

/-! ## C05 -/

theorem round_trip_dim (fl : FloatOps) (d : Dim) (c n : Int) (hc : 1 ≤ c)
    (hh : d.isHorizontal = true ∨ c = 1)
    (hpos : 3 ≤ c → 1 ≤ cells d n)
    (hfl : ∀ c w, 3 ≤ c → 1 ≤ w → fl.startSize (c * w) c = w ∧ fl.interior w (c * w) c = w) :
    dimExtents fl d c (dimTileExtent d n c) = .ok (cells d n, cells d n) := by
  have hcl : (if d.isInterface then dimTileExtent d n c - 1 else dimTileExtent d n c) =
      c * cells d n := by
    unfold dimTileExtent cells
    by_cases hi : d.isInterface = true
    · simp only [hi, if_true]; rw [Int.mul_comm c]; ring
    · simp only [hi, if_false, Bool.false_eq_true]; rw [Int.mul_comm c]; ring
  unfold dimExtents
  rw [hcl]
  generalize cells d n = w at *
  simp only
  have hodd : ¬ (c % 2 = 0 ∧ c * w % 2 ≠ 0) := by
    rintro ⟨h1, h2⟩
    apply h2
    rw [Int.mul_emod, h1]; simp
  rw [if_neg hodd]
  by_cases h3 : 3 ≤ c ∧ d.isHorizontal = true
  · rw [if_pos h3]
    have hw := hpos h3.1
    obtain ⟨f1, f2⟩ := hfl c w h3.1 hw
    rw [f1]
    have hge : 0 ≤ (c - 2) * (w - 1) := Int.mul_nonneg (by omega) (by omega)
    have hex : (c - 2) * (w - 1) = c * w - c + 2 - 2 * w := by ring
    have ht : w < edgeTop (c * w) c := by
      unfold edgeTop
      rw [Int.tdiv_eq_ediv_of_nonneg (by omega)]; omega
    -- the first size tried is `w`
    have hhead : ∀ k : Nat, ∃ l, (Nat.repeat (edgeStep (edgeTop (c * w) c) w) (k + 1) esInit).sizes
        = w :: l := by
      intro k
      induction k with
      | zero =>
        refine ⟨[], ?_⟩
        show (edgeStep (edgeTop (c * w) c) w esInit).sizes = _
        simp only [edgeStep, esInit, Int.mul_zero, Int.add_zero]
        simp only [hw, ht, List.not_mem_nil, not_false_eq_true, and_self, if_true, List.nil_append]
        split <;> rfl
      | succ k ih =>
        obtain ⟨l, hl⟩ := ih
        show ∃ l', (edgeStep (edgeTop (c * w) c) w
          (Nat.repeat (edgeStep (edgeTop (c * w) c) w) (k + 1) esInit)).sizes = w :: l'
        simp only [edgeStep, hl, List.cons_append]
        split <;> split <;> exact ⟨_, rfl⟩
    obtain ⟨l, hl⟩ := hhead (edgeTop (c * w) c - 1).toNat
    have hv : validEdgeSizes (c * w) c w = w :: l := hl
    rw [hv, List.find?_cons_of_pos]
    · simp only [f2]
    · simp only [f2, beq_iff_eq]; ring
  · rw [if_neg h3]
    have hc2 : c = 1 ∨ c = 2 := by
      rcases hh with hh | hh
      · have : ¬ 3 ≤ c := fun h => h3 ⟨h, hh⟩
        omega
      · exact Or.inl hh
    have : (c * w).tdiv c = w := Int.mul_tdiv_cancel_left _ (by omega)
    rw [this]

theorem round_trip_accepted (fl : FloatOps) (layout : Int × Int) (h1 : 0 < layout.1)
    (h2 : 0 < layout.2)
    (hfl : ∀ c w, 3 ≤ c → 1 ≤ w → fl.startSize (c * w) c = w ∧ fl.interior w (c * w) c = w) :
    ∀ (dims : List Dim) (ext : List Int), ValidExtents dims ext →
      List.Forall₂ (fun d n => d.isHorizontal = true → 1 ≤ cells d n) dims ext →
      Accepted fl layout dims (tileExtentFromRank dims ext layout)
        ((dims.zip ext).map fun (d, n) => (cells d n, cells d n))
  | [], [], _, _ => trivial
  | d :: ds, n :: ns, hv, hp => by
    cases hv with
    | cons hn hv =>
    cases hp with
    | cons hpn hp =>
    refine ⟨?_, round_trip_accepted fl layout h1 h2 hfl ds ns hv hp⟩
    refine round_trip_dim fl d (cnt layout d) n (cnt_pos _ _ h1 h2) (cnt_horizontal _ _)
      (fun h3 => ?_) hfl
    rcases cnt_horizontal layout d with h | h
    · exact hpn h
    · omega

theorem round_trip_lengths (layout sub : Int × Int) (hj : 0 ≤ sub.1 ∧ sub.1 < layout.1)
    (hi : 0 ≤ sub.2 ∧ sub.2 < layout.2) :
    ∀ (dims : List Dim) (ext : List Int), dims.length = ext.length →
      (slices layout sub true dims ((dims.zip ext).map fun (d, n) => (cells d n, cells d n))).map
        (fun s => s.stop - s.start) = ext
  | [], [], _ => rfl
  | d :: ds, n :: ns, hl => by
    have ih := round_trip_lengths layout sub hj hi ds ns (by simpa using hl)
    simp only [List.zip_cons_cons, List.map_cons, slices_cons, ih, List.cons.injEq, and_true]
    by_cases hd : d.isHorizontal = true
    · have hr := idx_cnt_range hj hi d hd
      rw [dimSlice_horizontal _ _ _ _ _ _ hd hr.1]
      simp only [true_or, and_true]
      rw [bnd_succ]
      simp only [ite_self]
      unfold cells
      split <;> omega
    · unfold dimSlice cells
      rw [if_neg hd]
      split <;> simp
  | [], _ :: _, h => by simp at h
  | _ :: _, [], h => by simp at h

/-- C05: the tile extent computed from a rank's extent, divided back among the ranks, gives that
rank's extent again, for every rank. `hfl` says that for an evenly divisible tile the default ratio
1 leads to the even division: `round(c*w / c) = w` and `int(w / (w / w)) = w`. -/
theorem C05_extent_round_trip (fl : FloatOps)
    (hfl : ∀ c w, 3 ≤ c → 1 ≤ w → fl.startSize (c * w) c = w ∧ fl.interior w (c * w) c = w)
    (ly lx : Int) (hy : 0 < ly) (hx : 0 < lx) (dims : List Dim) (rankExtent : List Int)
    (ht : Dim.tile ∉ dims) (hv : ValidExtents dims rankExtent)
    (hpos : List.Forall₂ (fun d n => d.isHorizontal = true →
      if d.isInterface then 2 ≤ n else 1 ≤ n) dims rankExtent)
    (rank : Int) (h0 : 0 ≤ rank) (h1 : rank < (TilePart.mk (ly, lx)).totalRanks) :
    (TilePart.mk (ly, lx)).subtileExtent fl rank dims (tileExtentFromRank dims rankExtent (ly, lx)) =
      .ok rankExtent := by
  have hp : List.Forall₂ (fun d n => d.isHorizontal = true → 1 ≤ cells d n) dims rankExtent := by
    refine hpos.imp ?_
    intro d n h hh
    have := h hh
    unfold cells
    split at this <;> simp_all <;> omega
  have ha := round_trip_accepted fl (ly, lx) hy hx hfl dims rankExtent hv hp
  have hl := valid_length hv
  have hl2 : dims.length = (tileExtentFromRank dims rankExtent (ly, lx)).length := by
    simp [tileExtentFromRank, listByDims, hl]
  obtain ⟨hj, hi⟩ := tile_sub_range hy hx h0 h1
  have hs := (rankSlice_eq fl dims (tileExtentFromRank dims rankExtent (ly, lx)) (ly, lx)
    ((TilePart.mk (ly, lx)).subtileIndex rank) true ht hl2 _).2 ⟨_, ha, rfl⟩
  unfold TilePart.subtileExtent
  rw [hs]
  show Except.ok _ = _
  rw [round_trip_lengths (ly, lx) _ hj hi dims rankExtent hl]

/-- the interface line shared by neighbouring ranks is counted once: a tile of `ly × lx` ranks has
`(n - 1) * ranks + 1` interface lines and `n * ranks` cells along an axis -/
theorem C05_tile_extent (ly lx n m k : Int) :
    tileExtentFromRank [.k, .jInterface, .i] [k, n, m] (ly, lx) =
      [k, (n - 1) * ly + 1, m * lx] := by
  simp [tileExtentFromRank, listByDims, dimTileExtent, Dim.isI, Dim.isJ, Dim.isInterface]
  omega

example : tileExtentFromRank [.k, .jInterface, .i] [5, 9, 8] (3, 4) = [5, 25, 32] ∧
    (TilePart.mk (3, 4)).subtileExtent exactOps 7 [.k, .jInterface, .i] [5, 25, 32] =
      .ok [5, 9, 8] := by decide +kernel
example : ∀ c w, 3 ≤ c → 1 ≤ w → exactOps.startSize (c * w) c = w ∧
    exactOps.interior w (c * w) c = w := by
  intro c w hc _
  simp only [exactOps]
  constructor
  · rw [show 2 * (c * w) + c = c + w * (2 * c) by ring, Int.add_mul_ediv_right _ _ (by omega),
      Int.ediv_eq_zero_of_lt (by omega) (by omega)]; omega
  · rw [show c * w - 2 * w = w * (c - 2) by ring, Int.mul_ediv_cancel _ (by omega)]

end NDSL
