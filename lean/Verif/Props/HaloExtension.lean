import Verif.Props.HaloVector
import Verif.Props.HaloTile
import Verif.Props.Decomposition

/-
C19 and C21 read as statements about fields on the cube, and concrete cases of C18-C21.
-/
namespace NDSL
open NArr

variable {α : Type} [Inhabited α]

/-- a compute point of a rank lies on the sheet of its tile -/
theorem coord_in {n L h : Int} {off : Int → Int} (A : Axis n L off) {j i : Int} (j0 : 0 ≤ j)
    (jn : j < n) (i0 : 0 ≤ i) (i1 : i < n) {ds : List DimSpec} {g : List Int}
    (H : HaloField h (off (i + 1) - off i) (off (j + 1) - off j) ds) (hg : InCompute ds g) :
    (-L ≤ coordI L (off i) ds g ∧ coordI L (off i) ds g ≤ L) ∧
    (-L ≤ coordJ L (off j) ds g ∧ coordJ L (off j) ds g ≤ L) := by
  obtain ⟨x, y, X⟩ := H.at
  rw [inCompute_iff] at hg
  rw [coordI_at X hg.1, coordJ_at X hg.1]
  have a := hg.2 x X.lx
  have b := hg.2 y X.ly
  have c := H.cellsX X
  have d := H.cellsY X
  have e1 := A.le (le_refl 0) i0 (by omega)
  have e2 := A.le (i := i + 1) (j := n) (by omega) (by omega) (le_refl n)
  have e3 := A.le (le_refl 0) j0 (by omega)
  have e4 := A.le (i := j + 1) (j := n) (by omega) (by omega) (le_refl n)
  rw [A.last (by omega)] at e2 e4
  rw [A.zero] at e1 e3
  have s1 := stag_cases (dAt ds x)
  have s2 := stag_cases (dAt ds y)
  unfold DimSpec.cells at c d
  unfold cpos
  omega

/-- C19, read as a field on the cube: if before the update every rank holds, on its compute domain, the
values of fields `f k` of the point of the cube and the level, then after the update it holds the values
of the same fields at the points of the sheet of its tile continued over the cube edges, on the compute
domain widened by `h` points (except beyond tile corners, where nothing changes). -/
theorem C19_cube_extension (n h L : Int) (hn : 0 < n) (hh : 0 < h) (off : Int → Int)
    (A : Axis n L off) (hw : ∀ i, 0 ≤ i → i < n → h ≤ off (i + 1) - off i) (junk : Nat → α)
    (st : Int → List (Qty α)) (F : CubeFields n h off fun s => (st s).map Qty.ds)
    (hsq : ∀ s, 0 ≤ s → s < (squareCube n).totalRanks → ∀ q ∈ st s, SquareStagger q.ds)
    (f : Nat → V3 → List Int → α)
    (hf : ∀ s t j i, 0 ≤ s → s < (squareCube n).totalRanks → (squareCube n).At s t j i →
      ∀ (k : Nat) (q : Qty α), (st s)[k]? = some q → ∀ g, InCompute q.ds g →
        q.data.get g =
          f k (onCube L t (coordI L (off i) q.ds g) (coordJ L (off j) q.ds g)) (levels q.ds g))
    (r t j i : Int) (h0 : 0 ≤ r) (h1 : r < (squareCube n).totalRanks)
    (hpos : (squareCube n).At r t j i) (hne : st r ≠ []) :
    ∃ out, (squareCube n).haloUpdate junk h st r = .ok out ∧ out.length = (st r).length ∧
      ∀ (k : Nat) (q q' : Qty α), (st r)[k]? = some q → out[k]? = some q' → q'.ds = q.ds ∧
        ∀ g, InWidened h q.ds g →
          match fold L t (coordI L (off i) q.ds g) (coordJ L (off j) q.ds g) with
          | none => q'.data.get g = q.data.get g
          | some P => q'.data.get g = f k P (levels q.ds g) := by
  obtain ⟨out, ho, hl, H⟩ := C19_cube_halo_fill n h L hn hh off A hw junk st F hsq r t j i h0 h1 hpos hne
  refine ⟨out, ho, hl, ?_⟩
  intro k q q' hq hq'
  obtain ⟨e1, e2, e3⟩ := H k q q' hq hq'
  refine ⟨e1, ?_⟩
  intro g hg
  by_cases hc : InCompute q.ds g
  · have hqm : q ∈ st r := List.mem_of_getElem? hq
    have hfld := F.fields r t j i h0 h1 hpos q.ds (List.mem_map_of_mem hqm)
    obtain ⟨p, hp, ht, ht6, rfl⟩ := exists_pos hn h0 h1
    obtain ⟨rfl, rfl, rfl⟩ := (at_iff hp t j i).1 hpos
    have ci := coord_in A hp.1 hp.2.1 hp.2.2.1 hp.2.2.2 hfld hc
    rw [fold_in ci.1.1 ci.1.2 ci.2.1 ci.2.2]
    simp only
    rw [((C20_halo_update_keeps _ junk h (by omega) st _ out ho).2 k q q' hq hq').2.2 hfld.xy hfld.ext
      g (.inl hc)]
    exact hf _ _ _ _ h0 h1 hpos k q hq g hc
  · have := e3 g hg hc
    split at this
    · next e => rw [e]; exact this
    · next P e =>
      rw [e]
      obtain ⟨s, t', j', i', qs, gs, s0, s1, sp, sq, sc, c1, c2, c3⟩ := this
      simp only
      rw [c3, hf s t' j' i' s0 s1 sp k qs sq gs sc, c1, c2]

/-- C21, read as a vector field on the cube. `f k P l a` is the component along the unit direction `a` of
the `k`-th vector field at the point `P` of the cube and level `l`; the opposite direction has the
opposite component. If before the update both components of every vector of every rank are, on the
compute domain, the components of this field along the two grid axes of the rank's tile, then after the
update they are, on the compute domain widened by `h` points, the components of the same field along
the receiver's own axes, continued over the cube edges (except beyond tile corners). -/
theorem C21_cube_vector_extension [Neg α] (n h L : Int) (hn : 0 < n) (hh : 0 < h) (off : Int → Int)
    (A : Axis n L off) (hw : ∀ i, 0 ≤ i → i < n → h ≤ off (i + 1) - off i) (junk : Nat → α)
    (st : Int → List (Qty α × Qty α))
    (F : ∀ c, CubeFields n h off fun s => (st s).map fun v => (part c v).ds)
    (hv : ∀ s, 0 ≤ s → s < (squareCube n).totalRanks → ∀ v ∈ st s, VectorPair v.1.ds v.2.ds)
    (f : Nat → V3 → List Int → V3 → α) (hodd : ∀ k P l a, f k P l a.neg = - f k P l a)
    (hf : ∀ s t j i, 0 ≤ s → s < (squareCube n).totalRanks → (squareCube n).At s t j i →
      ∀ (k : Nat) (v : Qty α × Qty α), (st s)[k]? = some v → ∀ c g, InCompute (part c v).ds g →
        (part c v).data.get g =
          f k (onCube L t (coordI L (off i) (part c v).ds g) (coordJ L (off j) (part c v).ds g))
            (levels (part c v).ds g) (part c ((frame t).ex, (frame t).ey)))
    (r t j i : Int) (h0 : 0 ≤ r) (h1 : r < (squareCube n).totalRanks)
    (hpos : (squareCube n).At r t j i) (hne : st r ≠ []) :
    ∃ out, (squareCube n).vectorHaloUpdate junk h st r = .ok out ∧ out.length = (st r).length ∧
      ∀ (k : Nat) (v v' : Qty α × Qty α), (st r)[k]? = some v → out[k]? = some v' → ∀ c : Bool,
        (part c v').ds = (part c v).ds ∧
        ∀ g, InWidened h (part c v).ds g →
          match fold L t (coordI L (off i) (part c v).ds g) (coordJ L (off j) (part c v).ds g) with
          | none => (part c v').data.get g = (part c v).data.get g
          | some P => (part c v').data.get g = f k P (levels (part c v).ds g)
              (part c (foldAxes L t (coordI L (off i) (part c v).ds g)
                (coordJ L (off j) (part c v).ds g))) := by
  obtain ⟨out, ho, hl, H⟩ := C21_cube_vector_halo_fill n h L hn hh off A hw junk st F hv r t j i h0 h1
    hpos hne
  refine ⟨out, ho, hl, ?_⟩
  intro k v v' hq hq' c
  obtain ⟨e1, e2, e3⟩ := H k v v' hq hq' c
  refine ⟨e1, ?_⟩
  intro g hg
  by_cases hc : InCompute (part c v).ds g
  · have hqm : v ∈ st r := List.mem_of_getElem? hq
    have hfld := (F c).fields r t j i h0 h1 hpos (part c v).ds (List.mem_map_of_mem (f := fun v =>
      (part c v).ds) hqm)
    obtain ⟨p, hp, ht, ht6, rfl⟩ := exists_pos hn h0 h1
    obtain ⟨rfl, rfl, rfl⟩ := (at_iff hp t j i).1 hpos
    have ci := coord_in A hp.1 hp.2.1 hp.2.2.1 hp.2.2.2 hfld hc
    rw [fold_in ci.1.1 ci.1.2 ci.2.1 ci.2.2, foldAxes_in ci.1.1 ci.1.2 ci.2.1 ci.2.2]
    simp only
    rw [((C20_vector_halo_update_keeps _ junk h (by omega) st _ out ho).2 k v v' hq hq'
      (part c v) (part c v') (by cases c <;> simp [part])).2.2 hfld.xy hfld.ext g (.inl hc)]
    exact hf _ _ _ _ h0 h1 hpos k v hq c g hc
  · have := e3 g hg hc
    split at this
    · next e => rw [e]; exact this
    · next P e =>
      rw [e]
      obtain ⟨s, t', j', i', vs, gs, c', neg, s0, s1, sp, sq, sc, c1, c2, c4, c3⟩ := this
      simp only
      rw [c3, hf s t' j' i' s0 s1 sp k vs sq c' gs sc, c1, c2, c4]
      cases neg
      · rfl
      · exact (hodd _ _ _ _).symm

/-- The hypotheses on the decomposition in C19 and C21 hold for the code's own decomposition: whenever
the code accepts to split a tile of `L × L` cells over `n × n` ranks, the first and last cells of its
slices are given by an `Axis`. -/
theorem C19_code_decomposition (fl : FloatOps) (n L : Int) (hn : 0 < n) (hL : 0 ≤ L) (sub₀ : Int × Int)
    (s₀ : List Slice) (hacc : rankSlice fl [.j, .i] [L, L] (n, n) sub₀ false = .ok s₀) :
    ∃ off, Axis n L off ∧ ∀ j i, 0 ≤ j → j < n → 0 ≤ i → i < n →
      rankSlice fl [.j, .i] [L, L] (n, n) (j, i) false =
        .ok [⟨off j, off (j + 1)⟩, ⟨off i, off (i + 1)⟩] := by
  rw [rankSlice_eq _ _ _ _ _ _ (by decide) rfl] at hacc
  obtain ⟨exts, ha, -⟩ := hacc
  obtain ⟨⟨I, E⟩, ⟨I', E'⟩, rfl⟩ : ∃ x y, exts = [x, y] := by
    match exts, ha with
    | [x, y], _ => exact ⟨x, y, rfl⟩
  have h1 : dimExtents fl .j n L = .ok (I, E) := ha.1
  have h2 : dimExtents fl .i n L = .ok (I', E') := ha.2.1
  have e : (I', E') = (I, E) := by
    have : dimExtents fl .i n L = dimExtents fl .j n L := rfl
    rw [h1, h2] at this
    exact Except.ok.inj this
  obtain ⟨rfl, rfl⟩ := Prod.mk.injEq .. ▸ e
  have hb := dimExtents_bnd fl .j n L I' E' (by omega) (.inl rfl) hL h1
  refine ⟨fun i => bnd E' I' n i.toNat, ⟨rfl, ?_, ?_⟩, ?_⟩
  · intro i i0 i1
    obtain ⟨hE, -, hlast⟩ := hb
    have hc : cells .j L = L := rfl
    rw [hc] at hlast
    by_cases c0 : i = 0
    · subst c0; simpa [bnd_zero] using hlast
    by_cases cn : i = n
    · subst cn; simp [bnd_zero, hlast]
    obtain ⟨a, ha⟩ : ∃ a : Nat, i.toNat = a + 1 := ⟨i.toNat - 1, by omega⟩
    obtain ⟨b, hb⟩ : ∃ b : Nat, (n - i).toNat = b + 1 := ⟨(n - i).toNat - 1, by omega⟩
    obtain ⟨m, hm⟩ : ∃ m : Nat, n = (m : Int) + 2 := ⟨(n - 2).toNat, by omega⟩
    have hl := bnd_last E' I' m
    rw [ha, hb, bnd_mid _ _ _ _ (by omega), bnd_mid _ _ _ _ (by omega), ← hlast, hm,
      show ((m : Int) + 2).toNat = m + 2 by omega, hl, show (m : Int) = (a : Int) + b by omega,
      Int.add_mul]
    omega
  · intro i i0 i1
    rw [show (i + 1).toNat = i.toNat + 1 by omega]
    exact bnd_mono _ _ _ hb.1 hb.2.1 _ (by omega)
  · intro j i j0 j1 i0 i1
    rw [rankSlice_eq _ _ _ _ _ _ (by decide) rfl]
    refine ⟨_, ha, ?_⟩
    rw [slices_cons, slices_cons, dimSlice_horizontal _ (j, i) _ .j _ _ rfl j0,
      dimSlice_horizontal _ (j, i) _ .i _ _ rfl i0]
    have x1 : idx (j, i) .j = j := rfl
    have x2 : idx (j, i) .i = i := rfl
    have x3 : cnt (n, n) .j = n := rfl
    have x4 : cnt (n, n) .i = n := rfl
    simp only
    rw [x1, x2, x3, x4, show (j + 1).toNat = j.toNat + 1 by omega,
      show (i + 1).toNat = i.toNat + 1 by omega]
    simp [slices, Dim.isInterface]

/-- 7 cells on 3 × 3 ranks are accepted (2, 3 and 2 cells per rank) -/
example : rankSlice exactOps [.j, .i] [7, 7] (3, 3) (1, 2) false = .ok [⟨2, 5⟩, ⟨5, 7⟩] := by decide

/-! ### concrete cases -/

/-- a cell-centred field with two levels on 2 × 2 ranks per tile, 2 × 2 cells and one halo point per
rank: `rank * 100 + (k * 4 + j) * 4 + i` -/
def sampleState (r : Int) : List (Qty Int) :=
  [⟨[⟨.k, 0, 2, 2⟩, ⟨.j, 1, 2, 4⟩, ⟨.i, 1, 2, 4⟩],
    ⟨[2, 4, 4], fun g => match g with | [k, j, i] => r * 100 + (k * 4 + j) * 4 + i | _ => 0⟩⟩]

example : Axis 2 4 (fun i => 2 * i) := ⟨rfl, by intro i; omega, by intro i; omega⟩

theorem sample_fields : CubeFields 2 1 (fun i => 2 * i) fun s => (sampleState s).map Qty.ds where
  fields := by
    intro s t j i _ _ _ ds hds
    rw [show (sampleState s).map Qty.ds = [[⟨.k, 0, 2, 2⟩, ⟨.j, 1, 2, 4⟩, ⟨.i, 1, 2, 4⟩]] from rfl,
      List.mem_singleton] at hds
    subst hds
    rw [show 2 * (i + 1) - 2 * i = 2 by omega, show 2 * (j + 1) - 2 * j = 2 by omega]
    exact ⟨⟨by decide, by decide⟩, by decide, by decide, by decide, by decide⟩
  same := by
    intro s s' _ _ _ _
    exact .cons ⟨rfl, .cons (by decide) (.cons (by decide) (.cons (by decide) .nil))⟩ .nil

example : ∀ s, ∀ q ∈ sampleState s, SquareStagger q.ds := by
  intro s q hq
  rw [sampleState, List.mem_singleton] at hq
  subst hq
  show SquareStagger [⟨.k, 0, 2, 2⟩, ⟨.j, 1, 2, 4⟩, ⟨.i, 1, 2, 4⟩]
  unfold SquareStagger
  decide

/-- The west halo of rank 0 (tile 0, south-west rank) at level 1: its southern cell comes from rank 19
(tile 4, north-east rank), across the edge, turned. -/
example : ((squareCube 2).haloUpdate (fun _ => 7) 1 sampleState 0).map
    (fun out => out.map fun q => [q.data.get [1, 1, 0], q.data.get [1, 2, 0], q.data.get [1, 0, 0]]) =
    .ok [[1926, 1925, 16]] := by decide +kernel

/-- a field on `(j, i_interface)` -/
def mixedState (r : Int) : List (Qty Int) :=
  [⟨[⟨.j, 1, 2, 4⟩, ⟨.iInterface, 1, 3, 5⟩], ⟨[4, 5], fun _ => r⟩⟩]

/-- C19 needs both horizontal dimensions to be staggered alike: a scalar update of a field on
`(j, i_interface)` receives a message of a turned neighbour that is longer than its buffer, and fails. -/
theorem C19_mixed_stagger_violated :
    ((squareCube 1).haloUpdate (fun _ => 0) 1 mixedState 0).map List.length = .error .runtimeError := by
  decide +kernel

/-- a wind on the cell edges: x component on `(j_interface, i)`, y component on `(j, i_interface)` -/
def windState (r : Int) : List (Qty Int × Qty Int) :=
  [(⟨[⟨.jInterface, 1, 3, 5⟩, ⟨.i, 1, 2, 5⟩],
      ⟨[5, 5], fun g => match g with | [j, i] => r * 100 + j * 10 + i | _ => 0⟩⟩,
    ⟨[⟨.j, 1, 2, 5⟩, ⟨.iInterface, 1, 3, 5⟩],
      ⟨[5, 5], fun g => match g with | [j, i] => 1000 + r * 100 + j * 10 + i | _ => 0⟩⟩)]

example : ∀ s, ∀ v ∈ windState s, VectorPair v.1.ds v.2.ds := by
  intro s v hv
  rw [windState, List.mem_singleton] at hv
  subst hv
  exact ⟨.cons (by decide) (.cons (by decide) .nil),
    show ∀ d ∈ ([⟨.jInterface, 1, 3, 5⟩, ⟨.i, 1, 2, 5⟩] : List DimSpec),
      ∀ d' ∈ ([⟨.j, 1, 2, 5⟩, ⟨.iInterface, 1, 3, 5⟩] : List DimSpec),
      d.dim.isI = true → d'.dim.isJ = true → d.stag = d'.stag by decide,
    show ∀ d ∈ ([⟨.jInterface, 1, 3, 5⟩, ⟨.i, 1, 2, 5⟩] : List DimSpec),
      ∀ d' ∈ ([⟨.j, 1, 2, 5⟩, ⟨.iInterface, 1, 3, 5⟩] : List DimSpec),
      d.dim.isJ = true → d'.dim.isI = true → d.stag = d'.stag by decide⟩

example : ∀ c, CubeFields 1 1 (fun i => 2 * i) fun s => (windState s).map fun v => (part c v).ds := by
  intro c
  refine ⟨?_, ?_⟩
  · intro s t j i _ _ _ ds hds
    rw [show 2 * (i + 1) - 2 * i = 2 by omega, show 2 * (j + 1) - 2 * j = 2 by omega]
    cases c
    · rw [show ((windState s).map fun v => (part false v).ds) =
        [[⟨.jInterface, 1, 3, 5⟩, ⟨.i, 1, 2, 5⟩]] from rfl, List.mem_singleton] at hds
      subst hds
      exact ⟨⟨by decide, by decide⟩, by decide, by decide, by decide, by decide⟩
    · rw [show ((windState s).map fun v => (part true v).ds) =
        [[⟨.j, 1, 2, 5⟩, ⟨.iInterface, 1, 3, 5⟩]] from rfl, List.mem_singleton] at hds
      subst hds
      exact ⟨⟨by decide, by decide⟩, by decide, by decide, by decide, by decide⟩
  · intro s s' _ _ _ _
    cases c
    · exact .cons ⟨rfl, .cons (by decide) (.cons (by decide) .nil)⟩ .nil
    · exact .cons ⟨rfl, .cons (by decide) (.cons (by decide) .nil)⟩ .nil

/-- the x component in the west halo of tile 0 is the y component of tile 4 (whose north edge it meets) -/
example : ((squareCube 1).vectorHaloUpdate (fun _ => 7) 1 windState 0).map
    (fun out => out.map fun v => [v.1.data.get [1, 0], v.2.data.get [1, 0]]) =
    .ok [[1423, -422]] := by decide +kernel

end NDSL
