import Verif.Lemmas.ScatterParts

/-! C29, C31: scatter and gather on a tile and on a cube. -/
namespace NDSL
variable {α : Type}

theorem tile_accepted [Inhabited α] {fl : FloatOps} {ly lx : Int} (hy : 0 < ly) (hx : 0 < lx) {q : WQty α}
    (hd : TileDims q.dims) (hv : ValidExtents q.dims q.extent) {recv : Nat → Option (WQty α)}
    {rs : List (WQty α)} (h : scatter ((TilePart.mk (ly, lx)).part fl) q recv = .ok rs) :
    ∃ exts, Accepted fl (ly, lx) q.dims q.extent exts := by
  have hT : 0 < ly * lx := Int.mul_pos hy hx
  have hg := scatter_get h
  have ht : 0 < ((TilePart.mk (ly, lx)).part fl).total := by
    show 0 < (ly * lx).toNat
    omega
  obtain ⟨_, h1⟩ := hg.2 0 _ (List.getElem?_eq_getElem (by rw [hg.1]; exact ht))
  unfold scatterOne at h1
  have hsub : ((TilePart.mk (ly, lx)).part fl).subExtent 0 q.dims q.extent =
    (TilePart.mk (ly, lx)).subtileExtent fl ((0 : Nat) : Int) q.dims q.extent := rfl
  rw [hsub] at h1
  unfold TilePart.subtileExtent at h1
  cases hr : rankSlice fl q.dims q.extent (TilePart.mk (ly, lx)).layout
      ((TilePart.mk (ly, lx)).subtileIndex ((0 : Nat) : Int)) true with
  | error e => rw [hr] at h1; cases h1
  | ok s =>
    obtain ⟨exts, ha, _⟩ := (rankSlice_eq fl q.dims q.extent (ly, lx) _ true hd.noTile (valid_length hv) s).1 hr
    exact ⟨exts, ha⟩

theorem cube_accepted [Inhabited α] {fl : FloatOps} {ly lx : Int} (hy : 0 < ly) (hx : 0 < lx) {q : WQty α}
    {dims : List Dim} {ext : List Int} (hqd : q.dims = .tile :: dims) (hqe : q.extent = 6 :: ext)
    (hd : TileDims dims) (hv : ValidExtents dims ext) {recv : Nat → Option (WQty α)}
    {rs : List (WQty α)} (h : scatter ((CubePart.mk ⟨(ly, lx)⟩).part fl) q recv = .ok rs) :
    ∃ exts, Accepted fl (ly, lx) dims ext exts := by
  have hT : 0 < ly * lx := Int.mul_pos hy hx
  have hg := scatter_get h
  have ht : 0 < ((CubePart.mk ⟨(ly, lx)⟩).part fl).total := by
    show 0 < (6 * (ly * lx)).toNat
    omega
  obtain ⟨_, h1⟩ := hg.2 0 _ (List.getElem?_eq_getElem (by rw [hg.1]; exact ht))
  unfold scatterOne at h1
  have hsub : ((CubePart.mk ⟨(ly, lx)⟩).part fl).subExtent 0 q.dims q.extent =
    (TilePart.mk (ly, lx)).subtileExtent fl ((0 : Nat) : Int) (.tile :: dims) (6 :: ext) := by
    rw [hqd, hqe]; rfl
  rw [hsub] at h1
  unfold TilePart.subtileExtent at h1
  rw [cubeRankSlice] at h1
  cases hr : rankSlice fl dims ext (TilePart.mk (ly, lx)).layout
      ((TilePart.mk (ly, lx)).subtileIndex ((0 : Nat) : Int)) true with
  | error e => rw [hr] at h1; cases h1
  | ok s =>
    obtain ⟨exts, ha, _⟩ := (rankSlice_eq fl dims ext (ly, lx) _ true hd.noTile (valid_length hv) s).1 hr
    exact ⟨exts, ha⟩

/-- C29, C31. Whenever a scatter on a tile returns, for any decomposition, every rank has received in its
compute domain the values of its part of the tile (the slices of `subtile_slice` with overlap), and the rest
of a receive quantity it passed is unchanged. A receive quantity must have the extent of the rank. -/
theorem C29_scatter_tile [Inhabited α] (fl : FloatOps) (ly lx : Int) (hy : 0 < ly) (hx : 0 < lx) (q : WQty α)
    (hd : TileDims q.dims) (hv : ValidExtents q.dims q.extent) (recv : Nat → Option (WQty α))
    (hrecv : ∀ r o, recv r = some o → o.origin.length = o.extent.length ∧
      (TilePart.mk (ly, lx)).subtileExtent fl r q.dims q.extent = .ok o.extent)
    (rs : List (WQty α)) (h : scatter ((TilePart.mk (ly, lx)).part fl) q recv = .ok rs) :
    rs.length = (ly * lx).toNat ∧
    ∀ (r : Nat) (out : WQty α), rs[r]? = some out →
      ∃ S, (TilePart.mk (ly, lx)).subtileSlice fl r q.dims q.extent true = .ok S ∧
        out.extent = widths S ∧
        (∀ i, InShape out.extent i → out.val i = q.val (place [] S i)) ∧
        (∀ o, recv r = some o → ∀ g, g.length = o.extent.length → ¬ InShape o.extent g →
          out.val g = o.val g) := by
  obtain ⟨exts, ha⟩ := tile_accepted hy hx hd hv h
  have hP := goodTile hy hx hd hv ha
  have hg := scatter_get h
  refine ⟨hg.1, fun r out hr => ?_⟩
  obtain ⟨h1, h2⟩ := hg.2 r out hr
  have hsub := hP.sub r h1
  have hone := scatterOne_ok hP h1 (by
    intro o ho
    have := hrecv r o ho
    refine ⟨?_, this.1⟩
    have h3 : ((TilePart.mk (ly, lx)).part fl).subExtent r q.dims q.extent = .ok o.extent := this.2
    rw [hsub] at h3
    exact (Except.ok.inj h3).symm) h2
  refine ⟨_, (rankSlice_eq fl q.dims q.extent (ly, lx) _ true hd.noTile (valid_length hv) _).2 ⟨exts, ha, rfl⟩,
    hone.1, ?_, hone.2.2.2.2.2⟩
  exact hone.2.2.2.2.1

/-- C29, C31 on the cube: rank `r` receives from tile `r / (ly * lx)`. -/
theorem C29_scatter_cube [Inhabited α] (fl : FloatOps) (ly lx : Int) (hy : 0 < ly) (hx : 0 < lx) (q : WQty α)
    (dims : List Dim) (ext : List Int) (hqd : q.dims = .tile :: dims) (hqe : q.extent = 6 :: ext)
    (hd : TileDims dims) (hv : ValidExtents dims ext) (recv : Nat → Option (WQty α))
    (hrecv : ∀ r o, recv r = some o → o.origin.length = o.extent.length ∧
      (TilePart.mk (ly, lx)).subtileExtent fl r dims ext = .ok o.extent)
    (rs : List (WQty α)) (h : scatter ((CubePart.mk ⟨(ly, lx)⟩).part fl) q recv = .ok rs) :
    rs.length = (6 * (ly * lx)).toNat ∧
    ∀ (r : Nat) (out : WQty α), rs[r]? = some out →
      ∃ S, (TilePart.mk (ly, lx)).subtileSlice fl r dims ext true = .ok S ∧
        out.extent = widths S ∧
        (∀ i, InShape out.extent i → out.val i = q.val (((r : Int) / (ly * lx)) :: place [] S i)) ∧
        (∀ o, recv r = some o → ∀ g, g.length = o.extent.length → ¬ InShape o.extent g →
          out.val g = o.val g) := by
  obtain ⟨exts, ha⟩ := cube_accepted hy hx hqd hqe hd hv h
  have hP := goodCube hy hx hd hv ha
  rw [← hqd, ← hqe] at hP
  have hg := scatter_get h
  refine ⟨hg.1, fun r out hr => ?_⟩
  obtain ⟨h1, h2⟩ := hg.2 r out hr
  have hsub := hP.sub r h1
  have hone := scatterOne_ok hP h1 (by
    intro o ho
    have := hrecv r o ho
    refine ⟨?_, this.1⟩
    have h3 : (TilePart.mk (ly, lx)).subtileExtent fl r q.dims q.extent = .ok o.extent := by
      rw [← this.2, hqd, hqe]
      unfold TilePart.subtileExtent
      rw [cubeRankSlice]
    have h4 : ((CubePart.mk ⟨(ly, lx)⟩).part fl).subExtent r q.dims q.extent = .ok o.extent := h3
    rw [hsub] at h4
    exact (Except.ok.inj h4).symm) h2
  refine ⟨_, (rankSlice_eq fl dims ext (ly, lx) _ true hd.noTile (valid_length hv) _).2 ⟨exts, ha, rfl⟩,
    hone.1, ?_, hone.2.2.2.2.2⟩
  exact hone.2.2.2.2.1

theorem equal_widths_tile {fl : FloatOps} {ly lx : Int} (hy : 0 < ly) (hx : 0 < lx) {dims : List Dim}
    {ext : List Int} {exts : List (Int × Int)} (ha : Accepted fl (ly, lx) dims ext exts) {n : Nat}
    (hn : (ly * lx).toNat ≤ n)
    (h : ∀ r, r < n → widths (tileS ly lx dims exts r) = widths (tileS ly lx dims exts 0)) :
    tileExtentFromRank dims (widths (tileS ly lx dims exts 0)) (ly, lx) = ext := by
  obtain ⟨r, h1, h2⟩ := probe_rank hy hx
  have := h r (by omega)
  unfold tileS at this ⊢
  rw [index_zero] at this ⊢
  rw [h2] at this
  exact extent_of_equal hy hx ha this

/-- C29. On a tile, gathering what was scattered gives back the global field: if the scatter of a quantity
with a nonempty compute domain returns, the gather returns, with the same dims and extent and the same
values throughout the compute domain. -/
theorem C29_gather_scatter_tile [Inhabited α] (fl : FloatOps) (ly lx : Int) (hy : 0 < ly) (hx : 0 < lx)
    (q : WQty α) (hd : TileDims q.dims) (hv : ValidExtents q.dims q.extent) (hne : ∀ n ∈ q.extent, 1 ≤ n)
    (rs : List (WQty α))
    (h : scatter ((TilePart.mk (ly, lx)).part fl) q (fun _ => none) = .ok rs) :
    ∃ g, gather ((TilePart.mk (ly, lx)).part fl) rs none = .ok g ∧ g.dims = q.dims ∧
      g.extent = q.extent ∧ ∀ i, InShape q.extent i → g.val i = q.val i := by
  obtain ⟨exts, ha⟩ := tile_accepted hy hx hd hv h
  refine gather_scatter (goodTile hy hx hd hv ha) ?_ rfl ?_ h
  · intro r _
    obtain ⟨hj, hi⟩ := sub_range_any hy hx (r : Int)
    exact (widths_nonneg hy hx hj hi hv ha).2 hne
  · intro he
    exact equal_widths_tile hy hx ha (Nat.le_refl _) he

/-- C29. The same on the cube. -/
theorem C29_gather_scatter_cube [Inhabited α] (fl : FloatOps) (ly lx : Int) (hy : 0 < ly) (hx : 0 < lx)
    (q : WQty α) (dims : List Dim) (ext : List Int) (hqd : q.dims = .tile :: dims)
    (hqe : q.extent = 6 :: ext) (hd : TileDims dims) (hv : ValidExtents dims ext) (hne : ∀ n ∈ ext, 1 ≤ n)
    (rs : List (WQty α))
    (h : scatter ((CubePart.mk ⟨(ly, lx)⟩).part fl) q (fun _ => none) = .ok rs) :
    ∃ g, gather ((CubePart.mk ⟨(ly, lx)⟩).part fl) rs none = .ok g ∧ g.dims = q.dims ∧
      g.extent = q.extent ∧ ∀ i, InShape q.extent i → g.val i = q.val i := by
  obtain ⟨exts, ha⟩ := cube_accepted hy hx hqd hqe hd hv h
  have hP := goodCube hy hx hd hv ha
  rw [← hqd, ← hqe] at hP
  refine gather_scatter hP ?_ ?_ ?_ h
  · intro r _
    obtain ⟨hj, hi⟩ := sub_range_any hy hx (r : Int)
    exact (widths_nonneg hy hx hj hi hv ha).2 hne
  · rw [hqd]; rfl
  · intro he
    rw [hqd, hqe]
    show 6 :: tileExtentFromRank dims _ (ly, lx) = _
    have hT : 0 < ly * lx := Int.mul_pos hy hx
    rw [equal_widths_tile hy hx ha (n := (6 * (ly * lx)).toNat) (by omega) he]

theorem hasCells_cells {dims : List Dim} {ext : List Int} (h : HasCells dims ext) :
    List.Forall₂ (fun d n => d.isHorizontal = true → 1 ≤ cells d n) dims ext := by
  refine h.imp ?_
  intro d n h hh
  have := h hh
  unfold cells
  split at this <;> simp_all <;> omega

theorem global_valid {layout : Int × Int} (h1 : 0 < layout.1) (h2 : 0 < layout.2) :
    ∀ {dims : List Dim} {ext : List Int}, ValidExtents dims ext →
    ValidExtents dims (tileExtentFromRank dims ext layout)
  | [], [], _ => .nil
  | d :: ds, n :: ns, hv => by
    cases hv with
    | cons hn hv =>
    have ih := global_valid h1 h2 hv
    refine .cons ?_ ih
    have hc : 1 ≤ cnt layout d := cnt_pos layout d h1 h2
    show 0 ≤ dimTileExtent d n (cnt layout d) ∧ (d.isInterface = true → 1 ≤ dimTileExtent d n (cnt layout d))
    generalize cnt layout d = c at hc
    unfold dimTileExtent
    simp only
    by_cases hi : d.isInterface = true
    · have := hn.2 hi
      simp only [hi, if_true, true_implies]
      have : 0 ≤ (n + -1) * c := Int.mul_nonneg (by omega) (by omega)
      omega
    · simp only [hi, if_false, false_implies, and_true, Bool.false_eq_true]
      have : 0 ≤ (n + 0) * c := Int.mul_nonneg (by omega) (by omega)
      omega

/-- C29. On a tile, scattering what was gathered gives each rank its compute domain back. `F` is a global
field whose parts the ranks hold, so that ranks sharing an interface line agree on it. -/
theorem C29_scatter_gather_tile [Inhabited α] (fl : FloatOps) (hfl : EvenFloats fl) (ly lx : Int)
    (hy : 0 < ly) (hx : 0 < lx) (dims : List Dim) (ext : List Int) (hd : TileDims dims)
    (hv : ValidExtents dims ext) (hc : HasCells dims ext) (F : List Int → α) (sends : List (WQty α))
    (hl : sends.length = (ly * lx).toNat)
    (hs : ∀ (r : Nat) (q : WQty α), sends[r]? = some q → q.dims = dims ∧ q.extent = ext ∧
      ∃ S, (TilePart.mk (ly, lx)).subtileSlice fl r dims (tileExtentFromRank dims ext (ly, lx)) true = .ok S ∧
        ∀ i, InShape ext i → q.val i = F (place [] S i)) :
    ∃ g rs, gather ((TilePart.mk (ly, lx)).part fl) sends none = .ok g ∧ g.dims = dims ∧
      g.extent = tileExtentFromRank dims ext (ly, lx) ∧ (∀ k, InShape g.extent k → g.val k = F k) ∧
      scatter ((TilePart.mk (ly, lx)).part fl) g (fun _ => none) = .ok rs ∧
      rs.length = (ly * lx).toNat ∧
      ∀ (r : Nat) (q out : WQty α), sends[r]? = some q → rs[r]? = some out →
        out.dims = q.dims ∧ out.extent = q.extent ∧ ∀ i, InShape q.extent i → out.val i = q.val i := by
  have ha := round_trip_accepted fl (ly, lx) hy hx hfl dims ext hv (hasCells_cells hc)
  have hgv := global_valid (layout := (ly, lx)) hy hx hv
  have hP := goodTile hy hx hd hgv ha
  refine scatter_gather dims ext hP ?_ rfl F sends hl ?_
  · intro r _
    obtain ⟨hj, hi⟩ := sub_range_any hy hx (r : Int)
    exact round_trip_lengths (ly, lx) _ hj hi dims ext (valid_length hv)
  · intro r q hq
    obtain ⟨h1, h2, S, h3, h4⟩ := hs r q hq
    have h5 := (rankSlice_eq fl dims _ (ly, lx) ((TilePart.mk (ly, lx)).subtileIndex r) true hd.noTile
      (valid_length hgv) _).2 ⟨_, ha, rfl⟩
    have h6 : (TilePart.mk (ly, lx)).subtileSlice fl r dims (tileExtentFromRank dims ext (ly, lx)) true = _ :=
      h5
    rw [h6] at h3
    have := Except.ok.inj h3
    subst this
    exact ⟨h1, h2, h4⟩

/-- C29. The same on the cube. -/
theorem C29_scatter_gather_cube [Inhabited α] (fl : FloatOps) (hfl : EvenFloats fl) (ly lx : Int)
    (hy : 0 < ly) (hx : 0 < lx) (dims : List Dim) (ext : List Int) (hd : TileDims dims)
    (hv : ValidExtents dims ext) (hc : HasCells dims ext) (F : List Int → α) (sends : List (WQty α))
    (hl : sends.length = (6 * (ly * lx)).toNat)
    (hs : ∀ (r : Nat) (q : WQty α), sends[r]? = some q → q.dims = dims ∧ q.extent = ext ∧
      ∃ S, (TilePart.mk (ly, lx)).subtileSlice fl r dims (tileExtentFromRank dims ext (ly, lx)) true = .ok S ∧
        ∀ i, InShape ext i → q.val i = F (((r : Int) / (ly * lx)) :: place [] S i)) :
    ∃ g rs, gather ((CubePart.mk ⟨(ly, lx)⟩).part fl) sends none = .ok g ∧ g.dims = .tile :: dims ∧
      g.extent = 6 :: tileExtentFromRank dims ext (ly, lx) ∧ (∀ k, InShape g.extent k → g.val k = F k) ∧
      scatter ((CubePart.mk ⟨(ly, lx)⟩).part fl) g (fun _ => none) = .ok rs ∧
      rs.length = (6 * (ly * lx)).toNat ∧
      ∀ (r : Nat) (q out : WQty α), sends[r]? = some q → rs[r]? = some out →
        out.dims = q.dims ∧ out.extent = q.extent ∧ ∀ i, InShape q.extent i → out.val i = q.val i := by
  have ha := round_trip_accepted fl (ly, lx) hy hx hfl dims ext hv (hasCells_cells hc)
  have hgv := global_valid (layout := (ly, lx)) hy hx hv
  have hP := goodCube hy hx hd hgv ha
  refine scatter_gather dims ext hP ?_ rfl F sends hl ?_
  · intro r _
    obtain ⟨hj, hi⟩ := sub_range_any hy hx (r : Int)
    exact round_trip_lengths (ly, lx) _ hj hi dims ext (valid_length hv)
  · intro r q hq
    obtain ⟨h1, h2, S, h3, h4⟩ := hs r q hq
    have h5 := (rankSlice_eq fl dims _ (ly, lx) ((TilePart.mk (ly, lx)).subtileIndex r) true hd.noTile
      (valid_length hgv) _).2 ⟨_, ha, rfl⟩
    have h6 : (TilePart.mk (ly, lx)).subtileSlice fl r dims (tileExtentFromRank dims ext (ly, lx)) true = _ :=
      h5
    rw [h6] at h3
    have := Except.ok.inj h3
    subst this
    exact ⟨h1, h2, h4⟩

/-- C31. Scatter never works for ranks of unequal extents: if some rank's extent (without empty axes)
differs from the root's, the scatter raises. -/
theorem C31_uneven_raises [Inhabited α] (fl : FloatOps) (ly lx : Int) (hy : 0 < ly) (hx : 0 < lx) (q : WQty α)
    (hd : TileDims q.dims) (hv : ValidExtents q.dims q.extent) (hne : ∀ n ∈ q.extent, 1 ≤ n)
    (r : Nat) (hr : (r : Int) < ly * lx)
    (hun : (TilePart.mk (ly, lx)).subtileExtent fl r q.dims q.extent ≠
      (TilePart.mk (ly, lx)).subtileExtent fl 0 q.dims q.extent) :
    ∃ e, scatter ((TilePart.mk (ly, lx)).part fl) q (fun _ => none) = .error e := by
  cases h : scatter ((TilePart.mk (ly, lx)).part fl) q (fun _ => none) with
  | error e => exact ⟨e, rfl⟩
  | ok rs =>
    exfalso
    obtain ⟨exts, ha⟩ := tile_accepted hy hx hd hv h
    have hP := goodTile hy hx hd hv ha
    have hg := scatter_get h
    have hrt : r < ((TilePart.mk (ly, lx)).part fl).total := by
      show r < (ly * lx).toNat
      omega
    obtain ⟨h1, h2⟩ := hg.2 r _ (List.getElem?_eq_getElem (by rw [hg.1]; exact hrt))
    have hone := scatterOne_ok hP h1 (by intro o ho; cases ho) h2
    obtain ⟨hj, hi⟩ := sub_range_any hy hx (r : Int)
    have hw := hone.2.2.2.1 ((widths_nonneg hy hx hj hi hv ha).2 hne)
    apply hun
    have s1 : (TilePart.mk (ly, lx)).subtileExtent fl r q.dims q.extent = _ := hP.sub r hrt
    have s2 : (TilePart.mk (ly, lx)).subtileExtent fl ((0 : Nat) : Int) q.dims q.extent = _ := hP.sub 0 hP.total
    rw [s1, hw]
    exact s2.symm

/-! ### Examples -/

/-- a tile of 4 x 7 (y cells, x interfaces) with a halo of 1, values numbering the elements -/
def tileQty : WQty Int :=
  ⟨[.j, .iInterface], [1, 1], [4, 7], ⟨[6, 9], fun i => 10 * NArr.ent i 0 + NArr.ent i 1⟩⟩

example : TileDims tileQty.dims ∧ ValidExtents tileQty.dims tileQty.extent :=
  ⟨⟨by decide, by decide, by decide⟩, .cons (by decide) (.cons (by decide) .nil)⟩

/-- the scatter to 2 x 3 ranks returns, each rank gets 2 x 3 points, and the last rank gets the corner -/
example : (match scatter ((TilePart.mk (2, 3)).part exactOps) tileQty (fun _ => none) with
    | .ok rs => rs.map fun q => (q.extent, q.viewAll.flatten)
    | .error _ => []) =
    [([2, 3], [11, 12, 13, 21, 22, 23]), ([2, 3], [13, 14, 15, 23, 24, 25]),
     ([2, 3], [15, 16, 17, 25, 26, 27]), ([2, 3], [31, 32, 33, 41, 42, 43]),
     ([2, 3], [33, 34, 35, 43, 44, 45]), ([2, 3], [35, 36, 37, 45, 46, 47])] := by decide +kernel

/-- and a cube of six 2 x 2 tiles, one rank per tile cell column -/
def cubeQty : WQty Int :=
  ⟨[.tile, .j, .i], [0, 0, 0], [6, 2, 2],
    ⟨[6, 2, 2], fun i => 100 * NArr.ent i 0 + 10 * NArr.ent i 1 + NArr.ent i 2⟩⟩

example : (match scatter ((CubePart.mk ⟨(1, 2)⟩).part exactOps) cubeQty (fun _ => none) with
    | .ok rs => (rs.map fun q => q.viewAll.flatten).drop 9
    | .error _ => []) = [[401, 411], [500, 510], [501, 511]] := by decide +kernel

example : EvenFloats exactOps := by
  intro c w hc _
  simp only [exactOps]
  constructor
  · rw [show 2 * (c * w) + c = c + w * (2 * c) by ring, Int.add_mul_ediv_right _ _ (by omega),
      Int.ediv_eq_zero_of_lt (by omega) (by omega)]; omega
  · rw [show c * w - 2 * w = w * (c - 2) by ring, Int.mul_ediv_cancel _ (by omega)]

example : HasCells [.j, .iInterface] [2, 3] := .cons (by decide) (.cons (by decide) .nil)

/-- C31, violated: the partitioner divides 7 cells among 3 ranks (2, 3, 2), but the scatter raises. -/
theorem C31_uneven_violated :
    (TilePart.mk (1, 3)).subtileSlice exactOps 1 [.i] [7] true = .ok [⟨2, 5⟩] ∧
    (TilePart.mk (1, 3)).subtileSlice exactOps 0 [.i] [7] true = .ok [⟨0, 2⟩] ∧
    (match scatter ((TilePart.mk (1, 3)).part exactOps)
        (⟨[.i], [0], [7], ⟨[7], fun i => NArr.ent i 0⟩⟩ : WQty Int) (fun _ => none) with
      | .ok _ => none
      | .error e => some e) = some Err.valueError := by decide +kernel

end NDSL
