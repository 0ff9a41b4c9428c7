import Verif.Model.Boilerplate
import Verif.Props.Sizer
import Verif.Props.GridIndexing
/-! C121: sizes from namelists and factories for a single tile. -/
namespace NDSL.Boilerplate

open NDSL.StencilFactory NDSL.Backend NDSL.Indexing

/-! ### Stencils and quantities of one sizer -/

theorem spatial_known {s : Sizer} {d : Dim} (h : Spatial d) : extentOf s d ≠ none := by
  unfold Spatial at h
  cases d <;> first | (intro hc; cases hc) | cases h

theorem same_start (s : Sizer) (p : TilePart) (rank : Int) {d : Dim} (h : Spatial d) :
    startOf (gridOf s p rank) d = some (if d.isHorizontal then s.nHalo else 0) := by
  unfold Spatial at h
  cases d <;> first | rfl | cases h

theorem same_size (s : Sizer) (p : TilePart) (rank : Int) {d : Dim} (h : Spatial d) :
    sizeOf (gridOf s p rank) d = extentOf s d := by
  unfold Spatial at h
  cases d <;> first | rfl | cases h

/-- C121: a stencil made for some spatial dimensions by the factory of a sizer and a communicator computes on exactly the compute domain of
the quantities that the sizer gives these dimensions. -/
theorem C121_same_window (s : Sizer) (p : TilePart) (rank : Int) (dims : List Dim) (hd : ∀ d ∈ dims, Spatial d) :
    ∃ a, allocate s dims = .ok a ∧ (gridOf s p rank).getOriginDomain dims [] = .ok (a.origin, a.extent) := by
  obtain ⟨a, ha⟩ := (C35_known_dims s dims).1.2 (fun d h => spatial_known (hd d h))
  obtain ⟨o, e, h1, h2, h3, h4⟩ := C47_origin_domain (gridOf s p rank) dims [] hd (by simp)
  refine ⟨a, ha, ?_⟩
  obtain ⟨-, a2, a3, -⟩ := allocate_ok ha
  obtain ⟨l3, m3⟩ := mapM_get a3
  rw [h1]
  have e1 : o = a.origin := by
    apply List.ext_getElem?
    intro k
    by_cases hk : k < dims.length
    · rw [(h4 k dims[k] (List.getElem?_eq_getElem hk)).1, same_start s p rank (hd _ (List.getElem_mem hk)), a2]
      simp [Sizer.getOrigin, hk]
    · rw [List.getElem?_eq_none (by omega), List.getElem?_eq_none (by rw [a2]; simp [Sizer.getOrigin]; omega)]
  have e2 : e = a.extent := by
    apply List.ext_getElem?
    intro k
    by_cases hk : k < dims.length
    · have hsp := hd _ (List.getElem_mem hk)
      obtain ⟨y, hy1, hy2⟩ := m3 k dims[k] (List.getElem?_eq_getElem hk)
      rw [(h4 k dims[k] (List.getElem?_eq_getElem hk)).2, same_size s p rank hsp, hy1]
      rw [extentOf_eq] at hy2
      unfold Sizer.orKey at hy2
      cases hx : extentOf s dims[k] with
      | none => exact absurd hx (spatial_known hsp)
      | some n => rw [hx] at hy2; cases hy2; simp
    · rw [List.getElem?_eq_none (by omega), List.getElem?_eq_none (by omega)]
  rw [e1, e2]

/-- C121: a stencil made with halos up to the sizer's stays inside the arrays of these quantities. -/
theorem C121_inside (s : Sizer) (hx : 0 ≤ s.nx) (hy : 0 ≤ s.ny) (hz : 0 ≤ s.nz) (hh : 0 ≤ s.nHalo) (hdata : ∀ e ∈ s.data, 0 ≤ e.2)
    (p : TilePart) (rank : Int) (dims : List Dim) (hd : ∀ d ∈ dims, Spatial d) (halos : List Int) (hl : halos.length ≤ dims.length)
    (hhal : ∀ (i : Nat) (d : Dim), dims[i]? = some d → 0 ≤ halos.getD i 0 ∧ halos.getD i 0 ≤ s.nHalo ∧
      (d.isHorizontal = false → halos.getD i 0 = 0)) :
    ∃ a o e, allocate s dims = .ok a ∧ (gridOf s p rank).getOriginDomain dims halos = .ok (o, e) ∧
      ∀ i : Nat, i < dims.length → ∃ x n m : Int, o[i]? = some x ∧ e[i]? = some n ∧ a.shape[i]? = some m ∧ 0 ≤ x ∧ x + n ≤ m := by
  obtain ⟨a, ha⟩ := (C35_known_dims s dims).1.2 (fun d h => spatial_known (hd d h))
  obtain ⟨o, e, h1, -, -, h4⟩ := C47_origin_domain (gridOf s p rank) dims halos hd hl
  obtain ⟨-, -, -, -, hf⟩ := C35_fit s hx hy hz hh hdata dims a ha
  refine ⟨a, o, e, ha, h1, ?_⟩
  intro i hi
  have hg := List.getElem?_eq_getElem hi
  have hsp := hd _ (List.getElem_mem hi)
  obtain ⟨g1, g2⟩ := h4 i _ hg
  obtain ⟨x, n, m, b1, b2, b3, b4, b5, b6, b7, b8, b9, -⟩ := hf i _ hg
  obtain ⟨c1, c2, c3⟩ := hhal i _ hg
  rw [same_start s p rank hsp] at g1
  rw [same_size s p rank hsp, b4] at g2
  refine ⟨_, _, m, g1, g2, b3, ?_⟩
  by_cases hz' : dims[i].isHorizontal = true
  · obtain ⟨d1, d2⟩ := b8 hz'
    rw [if_pos hz']
    show 0 ≤ s.nHalo - _ ∧ s.nHalo - _ + (n + 2 * _) ≤ m
    omega
  · have hz'' : dims[i].isHorizontal = false := by simpa using hz'
    have := b9 hz''
    have := c3 hz''
    rw [if_neg hz']
    show 0 ≤ 0 - _ ∧ 0 - _ + (n + 2 * _) ≤ m
    omega

/-! ### A single tile -/

theorem tile_params (fl : FloatOps) (nx ny nz nHalo : Int) (data : List (Dim × Int)) (pad : Bool) (rank : Int) :
    Sizer.fromTileParams fl nx ny nz nHalo (1, 1) data pad rank =
      if nHalo < nx ∧ nHalo < ny then .ok ⟨nx, ny, nz, nHalo, data, pad⟩ else .error .runtimeError := by
  have hsub : (TilePart.mk (1, 1)).subtileIndex rank = (0, 0) := by
    show ((rank % _) / 1, (rank % _) % 1) = _
    rw [show (TilePart.mk (1, 1)).totalRanks = 1 from rfl]
    simp [Int.emod_one]
  have hsl : (TilePart.mk (1, 1)).subtileSlice fl rank [.j, .i] [ny, nx] true = .ok [⟨0, ny⟩, ⟨0, nx⟩] := by
    unfold TilePart.subtileSlice
    rw [hsub]
    refine (rankSlice_eq fl [.j, .i] [ny, nx] (1, 1) (0, 0) true (by decide) rfl _).2 ⟨[(ny, ny), (nx, nx)], ⟨?_, ?_, trivial⟩, ?_⟩
    · show Except.ok (ny.tdiv 1, ny.tdiv 1) = _
      rw [Int.tdiv_one]
    · show Except.ok (nx.tdiv 1, nx.tdiv 1) = _
      rw [Int.tdiv_one]
    · simp [slices, dimSlice, Dim.isHorizontal, Dim.isInterface, Dim.isI, Dim.isJ, axisLoop]
  unfold Sizer.fromTileParams
  rw [hsl]
  show (if nx - 0 ≤ nHalo then _ else _) = _
  by_cases h1 : nx - 0 ≤ nHalo
  · rw [if_pos h1, if_neg (by omega)]
  · rw [if_neg h1]
    by_cases h2 : ny - 0 ≤ nHalo
    · rw [if_pos h2, if_neg (by omega)]
    · rw [if_neg h2, if_pos (by omega)]
      show Except.ok (Sizer.mk (nx - 0) (ny - 0) nz nHalo data pad) = _
      rw [Int.sub_zero, Int.sub_zero]

theorem tile_edges (s : Sizer) (rank : Int) :
    (gridOf s ⟨(1, 1)⟩ rank).southEdge = true ∧ (gridOf s ⟨(1, 1)⟩ rank).northEdge = true ∧ (gridOf s ⟨(1, 1)⟩ rank).westEdge = true ∧
      (gridOf s ⟨(1, 1)⟩ rank).eastEdge = true := by
  have hsub : (TilePart.mk (1, 1)).subtileIndex rank = (0, 0) := by
    show ((rank % _) / 1, (rank % _) % 1) = _
    rw [show (TilePart.mk (1, 1)).totalRanks = 1 from rfl]
    simp [Int.emod_one]
  simp only [gridOf, TilePart.onBottom, TilePart.onTop, TilePart.onLeft, TilePart.onRight, hsub]
  decide

theorem factories_eq (fl : FloatOps) (aligned : Backend → Bool) (size rank nx ny nz nHalo : Int) (b : Backend) (mode : Mode) :
    getFactories fl aligned size rank nx ny nz nHalo b mode "tile" =
      if nHalo < nx ∧ nHalo < ny then
        .ok ⟨⟨b, false, true, false, false, .buildAndRun, false⟩, (b, mode),
          ⟨false, gridOf ⟨nx, ny, nz, nHalo, [], !aligned b⟩ ⟨(1, 1)⟩ rank⟩, ⟨nx, ny, nz, nHalo, [], !aligned b⟩, b, decide (size ≠ 1)⟩
      else .error .runtimeError := by
  have hc : CConfig.mk' b false true false false .buildAndRun false = .ok ⟨b, false, true, false, false, .buildAndRun, false⟩ := by
    unfold CConfig.mk'
    rw [if_neg (by simp)]
  unfold getFactories
  rw [hc]
  show (do let sizer ← Sizer.fromTileParams fl nx ny nz nHalo (1, 1) [] (!aligned b) 0; _) = _
  rw [tile_params]
  by_cases h : nHalo < nx ∧ nHalo < ny
  · rw [if_pos h, if_pos h]; rfl
  · rw [if_neg h, if_neg h]; rfl

/-- C121: the factories for a single tile have its size on every process, however many there are: the compute domain is the tile, the halo is the one asked
for, all four edges are there, both factories use the backend given, and stencils are built and run. There is a warning exactly for more than one process.
A tile not larger than its halo in both directions is refused. -/
theorem C121_single_tile (fl : FloatOps) (aligned : Backend → Bool) (size rank nx ny nz nHalo : Int) (b : Backend) :
    (nHalo < nx ∧ nHalo < ny → ∃ m, singleTile fl aligned size rank nx ny nz nHalo b = .ok m ∧
      m.stencils.grid.domain = (nx, ny, nz) ∧ m.stencils.grid.origin = (nHalo, nHalo, 0) ∧
      m.stencils.grid.southEdge = true ∧ m.stencils.grid.northEdge = true ∧ m.stencils.grid.westEdge = true ∧
      m.stencils.grid.eastEdge = true ∧ m.stencils.compareToNumpy = false ∧
      m.sizer.nx = nx ∧ m.sizer.ny = ny ∧ m.sizer.nz = nz ∧ m.sizer.nHalo = nHalo ∧ m.sizer.data = [] ∧
      (m.sizer.pad = true ↔ aligned b = false) ∧
      m.quantities = b ∧ m.config.backend = b ∧ m.config.rebuild = false ∧ m.config.runMode = .buildAndRun ∧ m.dace = (b, .buildAndRun) ∧
      (m.warned = true ↔ size ≠ 1)) ∧
    (¬ (nHalo < nx ∧ nHalo < ny) → singleTile fl aligned size rank nx ny nz nHalo b = .error .runtimeError) := by
  unfold singleTile
  rw [factories_eq]
  constructor
  · intro h
    rw [if_pos h]
    obtain ⟨t1, t2, t3, t4⟩ := tile_edges ⟨nx, ny, nz, nHalo, [], !aligned b⟩ rank
    exact ⟨_, rfl, rfl, rfl, t1, t2, t3, t4, rfl, rfl, rfl, rfl, rfl, rfl, by simp, rfl, rfl, rfl, rfl, rfl, by simp⟩
  · intro h; rw [if_neg h]

/-- C121: quantities and stencils of the factories for a single tile go together: for all spatial dimensions a quantity is allocated, and the stencil for these
dimensions computes on its compute domain. -/
theorem C121_fit (fl : FloatOps) (aligned : Backend → Bool) (size rank nx ny nz nHalo : Int) (b : Backend) (m : Made)
    (h : singleTile fl aligned size rank nx ny nz nHalo b = .ok m) (dims : List Dim) (hd : ∀ d ∈ dims, Spatial d) :
    ∃ a, allocate m.sizer dims = .ok a ∧ m.stencils.grid.getOriginDomain dims [] = .ok (a.origin, a.extent) := by
  unfold singleTile at h
  rw [factories_eq] at h
  by_cases hc : nHalo < nx ∧ nHalo < ny
  · rw [if_pos hc] at h
    cases h
    exact C121_same_window _ _ rank dims hd
  · rw [if_neg hc] at h; cases h

/-- C121: the factories for orchestrated code are those for stencils with the mode asked for, built and run by default; a backend that does not
orchestrate is refused. -/
theorem C121_orchestrated (fl : FloatOps) (aligned : Backend → Bool) (size rank nx ny nz nHalo : Int) (b : Backend) (mode : Option Mode) :
    (b.strategy ≠ .orchestration → singleTileOrchestrated fl aligned size rank nx ny nz nHalo b mode = .error .valueError) ∧
    (b.strategy = .orchestration → ∀ m, singleTileOrchestrated fl aligned size rank nx ny nz nHalo b mode = .ok m ↔
      ∃ m', singleTile fl aligned size rank nx ny nz nHalo b = .ok m' ∧
        m = { m' with dace := (b, match mode with | none => .buildAndRun | some x => x) }) := by
  constructor
  · intro h
    unfold singleTileOrchestrated isOrchestrated
    rw [if_pos]
    simpa using h
  · intro h m
    unfold singleTileOrchestrated singleTile isOrchestrated
    rw [if_neg (by simp [h]), factories_eq, factories_eq]
    by_cases hc : nHalo < nx ∧ nHalo < ny
    · rw [if_pos hc, if_pos hc]
      constructor
      · intro hm
        cases hm
        exact ⟨_, rfl, by cases mode <;> rfl⟩
      · rintro ⟨m', hm', rfl⟩
        cases hm'
        cases mode <;> rfl
    · rw [if_neg hc, if_neg hc]
      constructor
      · intro hm; cases hm
      · rintro ⟨m', hm', -⟩; cases hm'

/-- C121: any other topology is refused, whatever the sizes. -/
theorem C121_topology (fl : FloatOps) (aligned : Backend → Bool) (size rank nx ny nz nHalo : Int) (b : Backend) (mode : Mode)
    (topology : String) (h : topology ≠ "tile") :
    getFactories fl aligned size rank nx ny nz nHalo b mode topology = .error .notImplemented := by
  have hc : CConfig.mk' b false true false false .buildAndRun false = .ok ⟨b, false, true, false, false, .buildAndRun, false⟩ := by
    unfold CConfig.mk'
    rw [if_neg (by simp)]
  unfold getFactories
  rw [hc]
  exact if_neg h

/-! ### Namelists -/

theorem item_ok {d : List (String × NVal)} {k : String} {v : NVal} (h : dictGet d k = some v) : item d k = .ok v := by
  unfold item; rw [h]

/-- C121: from a Fortran namelist the tile has one cell less than grid lines, `npz` levels and a halo of three points, and is divided by the partitioner given, else
by the layout of the namelist. -/
theorem C121_fortran (fl : FloatOps) (namelist core : List (String × NVal)) (ly lx npx npy npz : Int) (part : Option TilePart) (rank : Int)
    (pad : Bool) (h : dictGet namelist "fv_core_nml" = some (.group core)) (h1 : dictGet core "layout" = some (.pair ly lx))
    (h2 : dictGet core "npx" = some (.int npx)) (h3 : dictGet core "npy" = some (.int npy)) (h4 : dictGet core "npz" = some (.int npz)) :
    fromNamelist fl namelist part rank pad =
      Sizer.fromTileParams fl (npx - 1) (npy - 1) npz 3 (match part with | some p => p.layout | none => (ly, lx)) [] pad rank := by
  unfold fromNamelist
  rw [h]
  simp only [Option.isSome_some, if_true]
  simp only [item_ok h, NVal.asGroup, item_ok h1, item_ok h2, item_ok h3, item_ok h4, NVal.asInt, NVal.asLayout, bind, Except.bind]
  cases part <;> rfl

/-- C121: from a namelist of the other format (without a group `fv_core_nml`), the tile has `nx_tile` by `nx_tile` cells. -/
theorem C121_flat (fl : FloatOps) (namelist : List (String × NVal)) (ly lx nx nz : Int) (part : Option TilePart) (rank : Int)
    (pad : Bool) (h : dictGet namelist "fv_core_nml" = none) (h1 : dictGet namelist "layout" = some (.pair ly lx))
    (h2 : dictGet namelist "nx_tile" = some (.int nx)) (h4 : dictGet namelist "nz" = some (.int nz)) :
    fromNamelist fl namelist part rank pad =
      Sizer.fromTileParams fl nx nx nz 3 (match part with | some p => p.layout | none => (ly, lx)) [] pad rank := by
  unfold fromNamelist
  rw [h, h2]
  simp only [Option.isSome_none, Bool.false_eq_true, if_false, Option.isSome_some, if_true]
  simp only [item_ok h1, item_ok h2, item_ok h4, NVal.asInt, NVal.asLayout, bind, Except.bind]
  cases part <;> rfl

/-- C121: a namelist of neither format is refused. -/
theorem C121_unknown (fl : FloatOps) (namelist : List (String × NVal)) (part : Option TilePart) (rank : Int) (pad : Bool)
    (h : dictGet namelist "fv_core_nml" = none) (h1 : dictGet namelist "nx_tile" = none) :
    fromNamelist fl namelist part rank pad = .error .keyError := by
  unfold fromNamelist
  rw [h, h1]
  rfl

/-- C121: what is allocated with the sizes of a Fortran namelist has the extents that the partitioner gives the rank on a tile of these sizes. -/
theorem C121_namelist_extent (fl : FloatOps) (namelist core : List (String × NVal)) (ly lx npx npy npz : Int) (part : Option TilePart)
    (rank : Int) (pad : Bool) (h : dictGet namelist "fv_core_nml" = some (.group core)) (h1 : dictGet core "layout" = some (.pair ly lx))
    (h2 : dictGet core "npx" = some (.int npx)) (h3 : dictGet core "npy" = some (.int npy)) (h4 : dictGet core "npz" = some (.int npz))
    (s : Sizer) (hs : fromNamelist fl namelist part rank pad = .ok s) (d1 d2 d3 : Dim) (n1 n2 n3 : Int)
    (hi : d1 = .i ∧ n1 = npx - 1 ∨ d1 = .iInterface ∧ n1 = npx) (hj : d2 = .j ∧ n2 = npy - 1 ∨ d2 = .jInterface ∧ n2 = npy)
    (hk : d3 = .k ∧ n3 = npz ∨ d3 = .kInterface ∧ n3 = npz + 1) (q : Alloc) (hq : allocate s [d1, d2, d3] = .ok q) :
    (part.getD ⟨(ly, lx)⟩).subtileExtent fl rank [d1, d2, d3] [n1, n2, n3] = .ok q.extent := by
  rw [C121_fortran fl namelist core ly lx npx npy npz part rank pad h h1 h2 h3 h4] at hs
  have hp : part.getD ⟨(ly, lx)⟩ =
      ⟨match (generalizing := false) part with | some p => p.layout | none => (ly, lx)⟩ := by cases part <;> rfl
  rw [hp]
  refine C67_allocated_extent fl _ _ _ _ _ _ _ _ s hs [d1, d2, d3] ?_ [n1, n2, n3] ?_ q hq
  · rcases hi with ⟨rfl, -⟩ | ⟨rfl, -⟩ <;> rcases hj with ⟨rfl, -⟩ | ⟨rfl, -⟩ <;> rcases hk with ⟨rfl, -⟩ | ⟨rfl, -⟩ <;> simp
  · rcases hi with ⟨rfl, rfl⟩ | ⟨rfl, rfl⟩ <;> rcases hj with ⟨rfl, rfl⟩ | ⟨rfl, rfl⟩ <;> rcases hk with ⟨rfl, rfl⟩ | ⟨rfl, rfl⟩ <;>
      simp [tileExtentOf]

/-! ### What does not hold -/

/-- C121 (not so: the tile has the size in the namelist): in the flat format `ny_tile` is not read; a tile of 12 by 24 cells becomes one of 12 by 12. -/
theorem C121_ny_violated :
    (fromNamelist exactOps [("layout", .pair 1 1), ("nx_tile", .int 12), ("ny_tile", .int 24), ("nz", .int 79)] none 0 true).toOption.map
      (fun s => (s.nx, s.ny, s.nz)) = some (12, 12, 79) := by decide +kernel

/-- C121 (not so: the flat format is read when it is complete): a group `fv_core_nml` goes first, and is required to have everything. -/
theorem C121_first_violated :
    (fromNamelist exactOps [("fv_core_nml", .group [("layout", .pair 1 1)]), ("layout", .pair 1 1), ("nx_tile", .int 12), ("nz", .int 79)]
      none 0 true).toOption.map (fun s => (s.nx, s.ny, s.nz)) = none := by decide +kernel

/-- C121 (not so: factories are made for sizes that can be allocated): a number of levels below zero is taken. -/
theorem C121_levels_violated (fl : FloatOps) (aligned : Backend → Bool) (rank : Int) (b : Backend) :
    ∃ m a, singleTile fl aligned 1 rank 12 12 (-5) 3 b = .ok m ∧ allocate m.sizer [.k] = .ok a ∧ a.extent = [-5] := by
  unfold singleTile
  rw [factories_eq, if_pos (by decide)]
  exact ⟨_, _, rfl, rfl, rfl⟩

/-! ### Examples -/

example : (fromNamelist exactOps [("fv_core_nml", .group [("layout", .pair 2 3), ("npx", .int 13), ("npy", .int 9), ("npz", .int 79)])]
    none 5 true).toOption.map (fun s => (s.nx, s.ny, s.nz, s.nHalo)) = some (4, 4, 79, 3) := by decide +kernel

example : ∃ m, singleTile exactOps (fun _ => false) 6 4 5 7 9 2
    ⟨chars! "st:numpy:cpu:IJK", .stencil, .numpy, .cpu, .ijk⟩ = .ok m ∧ m.warned = true ∧
    allocate m.sizer [.i, .jInterface, .k] = .ok ⟨[.i, .jInterface, .k], [2, 2, 0], [5, 8, 9], [10, 12, 10]⟩ ∧
    m.stencils.grid.getOriginDomain [.i, .jInterface, .k] [1, 1] = .ok ([1, 1, 0], [7, 10, 9]) := by
  unfold singleTile
  rw [factories_eq, if_pos (by decide)]
  exact ⟨_, rfl, rfl, by decide +kernel, by decide +kernel⟩

end NDSL.Boilerplate
