import Verif.Lemmas.HaloFields

/-
Property theorems C18-C21: what a halo update delivers.
-/
namespace NDSL
open NArr

variable {α : Type} [Inhabited α]

/-- All ranks of a cubed sphere with `n × n` ranks per tile hold the same list of fields, with room for
`h` halo points. `off i` is the first cell of the ranks in column (and row) `i` of a tile. -/
structure CubeFields (n h : Int) (off : Int → Int) (dss : Int → List (List DimSpec)) : Prop where
  fields : ∀ s t j i, 0 ≤ s → s < (squareCube n).totalRanks → (squareCube n).At s t j i →
    ∀ ds ∈ dss s, HaloField h (off (i + 1) - off i) (off (j + 1) - off j) ds
  same : ∀ s s', 0 ≤ s → s < (squareCube n).totalRanks → 0 ≤ s' → s' < (squareCube n).totalRanks →
    List.Forall₂ SameField (dss s) (dss s')

/-- both horizontal dimensions are on cells, or both on interfaces -/
def SquareStagger (ds : List DimSpec) : Prop :=
  ∀ d ∈ ds, ∀ d' ∈ ds, d.dim.isI = true → d'.dim.isJ = true → d.stag = d'.stag

/-! ## C19 -/

/-- C19: a scalar halo update of `h` points on the cubed sphere does not fail, and afterwards each point
of the halo holds the value of the point of the compute domain of some rank that lies, on the cube, at
the place reached by continuing the sheet of the tile over the cube edge (same level); halo points
beyond a corner of the tile are unchanged. `junk` is the content of recycled buffers. -/
theorem C19_cube_halo_fill (n h L : Int) (hn : 0 < n) (hh : 0 < h) (off : Int → Int)
    (A : Axis n L off) (hw : ∀ i, 0 ≤ i → i < n → h ≤ off (i + 1) - off i) (junk : Nat → α)
    (st : Int → List (Qty α)) (F : CubeFields n h off fun s => (st s).map Qty.ds)
    (hsq : ∀ s, 0 ≤ s → s < (squareCube n).totalRanks → ∀ q ∈ st s, SquareStagger q.ds)
    (r t j i : Int) (h0 : 0 ≤ r) (h1 : r < (squareCube n).totalRanks)
    (hpos : (squareCube n).At r t j i) (hne : st r ≠ []) :
    ∃ out, (squareCube n).haloUpdate junk h st r = .ok out ∧ out.length = (st r).length ∧
      ∀ (k : Nat) (q q' : Qty α), (st r)[k]? = some q → out[k]? = some q' →
        q'.ds = q.ds ∧ q'.data.shape = q.data.shape ∧
        ∀ g, InWidened h q.ds g → ¬ InCompute q.ds g →
          match fold L t (coordI L (off i) q.ds g) (coordJ L (off j) q.ds g) with
          | none => q'.data.get g = q.data.get g
          | some P => ∃ s t' j' i' qs gs, 0 ≤ s ∧ s < (squareCube n).totalRanks ∧
              (squareCube n).At s t' j' i' ∧ (st s)[k]? = some qs ∧ InCompute qs.ds gs ∧
              onCube L t' (coordI L (off i') qs.ds gs) (coordJ L (off j') qs.ds gs) = P ∧
              levels qs.ds gs = levels q.ds g ∧ q'.data.get g = qs.data.get gs := by
  obtain ⟨p, hp, ht, ht6, rfl⟩ := exists_pos hn h0 h1
  obtain ⟨rfl, rfl, rfl⟩ := (at_iff hp t j i).1 hpos
  have S := cube_setting hp ht ht6
  have hF : ∀ (z : Pos), z.Ok n → 0 ≤ z.t → z.t < 6 → ∀ q ∈ st (z.rank n),
      HaloField h (z.ci off) (z.cj off) q.ds := by
    intro z hz z0 z6 q hq
    have := rank_range hz z0 z6
    exact F.fields _ _ _ _ this.1 this.2 ((at_iff hz _ _ _).2 ⟨rfl, rfl, rfl⟩) q.ds
      (List.mem_map_of_mem hq)
  have hR : ∀ (z : Pos), z.Ok n → 0 ≤ z.t → z.t < 6 → ∀ q ∈ st (z.rank n), Room h q.ds := by
    intro z hz z0 z6 q hq
    exact (hF z hz z0 z6 q hq).roomOf (hw _ hz.2.2.1 hz.2.2.2) (hw _ hz.1 hz.2.1)
  have hsame : ∀ (z : Pos), z.Ok n → 0 ≤ z.t → z.t < 6 →
      List.Forall₂ (fun q q' => SameField q.ds q'.ds) (st (p.rank n)) (st (z.rank n)) := by
    intro z hz z0 z6
    have := rank_range hz z0 z6
    have e := F.same (p.rank n) (z.rank n) h0 h1 this.1 this.2
    rwa [List.forall₂_map_left_iff, List.forall₂_map_right_iff] at e
  -- one neighbour
  have comp : ∀ bt z, nbr n bt p = some z → ∀ r', (z.2 + r') % 4 = 0 → ∀ q ∈ st (p.rank n),
      ∀ q' ∈ st (z.1.red.rank n), SameField q.ds q'.ds →
      (sentView (q', info h ⟨recipB bt z.2, z.1.red.rank n, p.rank n, r'⟩ q'.ds)).shape =
        shapeOf (q.ds.map (win bt h false)) ∧
      ∀ g, Selects (q.ds.map (win bt h false)) g → ∃ g', InCompute q'.ds g' ∧
        levels q'.ds g' = levels q.ds g ∧
        (sentView (q', info h ⟨recipB bt z.2, z.1.red.rank n, p.rank n, r'⟩ q'.ds)).get
          (relIdx (q.ds.map (win bt h false)) g) = q'.data.get g' ∧
        some (onCube L z.1.red.t (coordI L (off z.1.red.i) q'.ds g')
          (coordJ L (off z.1.red.j) q'.ds g')) =
          fold L p.t (coordI L (off p.i) q.ds g) (coordJ L (off p.j) q.ds g) := by
    intro bt z hz r' hr' q hq q' hq' hs
    have zok : z.1.red.Ok n := red_ok (nbr_ok hp hz)
    have zt : 0 ≤ z.1.red.t ∧ z.1.red.t < 6 := by simp only [Pos.red]; omega
    obtain ⟨x, y, XX⟩ := (hF p hp ht ht6 q hq).xy.at
    have X := XX.at
    have X' := hs.at X
    have hst : (dAt q.ds x).stag = (dAt q.ds y).stag :=
      hsq _ h0 h1 q hq _ (dAt_mem X.lx) _ (dAt_mem X.ly) X.ix X.jy
    have C := cube_component (α := α) A hh hw hp ht ht6 hz (ds := q.ds) (ds' := q'.ds)
      (rd := q'.ds.map DimSpec.dim) (k' := -r') (by omega) X X' (hs.dims ▸ XX)
      (by rw [List.length_map, hs.len]) hs.len (hs.ext X) (hF p hp ht ht6 q hq)
      (hF _ zok zt.1 zt.2 q' hq') (by
        rw [hs.stag X.lx, hs.stag X.ly, hst]
        unfold rdim; split <;> rfl) q'.data
    refine ⟨C.1, fun g hg => ?_⟩
    obtain ⟨g', e1, e2, e3, e4, _⟩ := C.2 g hg
    exact ⟨g', e1, e2, e3, e4⟩
  obtain ⟨out, ho, hl, hd⟩ := haloUpdate_deliver S junk hh st hne
    (by
      intro s hs
      rcases hs with rfl | ⟨b, hb, rfl⟩
      · exact hR p hp ht ht6
      · rw [cubeB_eq hp, mem_cubeBnd] at hb
        obtain ⟨z, hz, hb⟩ := hb
        rw [hb]
        exact hR z.1.red (red_ok (nbr_ok hp hz)) (by simp only [Pos.red]; omega)
          (by simp only [Pos.red]; omega))
    (by
      intro b hb
      rw [cubeB_eq hp, mem_cubeBnd] at hb
      obtain ⟨z, hz, hb⟩ := hb
      obtain ⟨r', e1, e2, _⟩ := cube_back hp ht ht6 hz
      generalize b.btype = bt at hz hb
      subst hb
      rw [e1]
      have hsm := hsame z.1.red (red_ok (nbr_ok hp hz)) (by simp only [Pos.red]; omega)
        (by simp only [Pos.red]; omega)
      unfold incoming
      rw [List.forall₂_map_left_iff, List.forall₂_iff_get]
      rw [List.forall₂_iff_get] at hsm
      refine ⟨hsm.1.symm, fun k k1 k2 => ?_⟩
      exact (comp bt z hz r' e2 _ (List.get_mem _ _) _ (List.get_mem _ _) (hsm.2 k k2 k1)).1)
    (by
      intro q hq
      rw [cubeB_eq hp]
      refine cubeBnd_types.imp ?_
      intro b b' hbb g g1 g2
      exact hbb ((region_of (by omega) (hF p hp ht ht6 q hq).xy (hR p hp ht ht6 q hq) g).2 _ _ g1 g2))
  refine ⟨out, ho, hl, ?_⟩
  intro k q q' hq hq'
  obtain ⟨k1, hq⟩ := List.getElem?_eq_some_iff.1 hq
  obtain ⟨k2, hq'⟩ := List.getElem?_eq_some_iff.1 hq'
  have D := hd k k1 k2
  rw [hq, hq'] at D
  refine ⟨D.ds, D.shape, ?_⟩
  intro g hg1 hg2
  have hqm : q ∈ st (p.rank n) := hq ▸ List.getElem_mem k1
  have hf := hF p hp ht ht6 q hqm
  have hrg := region_of (by omega) hf.xy (hR p hp ht ht6 q hqm) g
  obtain ⟨bt, hbt⟩ := hrg.1.2 ⟨hg1, hg2⟩
  obtain ⟨x, y, X⟩ := hf.at
  cases hz : nbr n bt p with
  | none =>
    rw [cube_component_none A hw hp hz X hf g hbt]
    simp only
    apply D.outside
    intro t ht hsel
    obtain ⟨b, hb, rfl⟩ := List.mem_map.1 ht
    rw [cubeB_eq hp, mem_cubeBnd] at hb
    obtain ⟨z, hz', _⟩ := hb
    rw [hrg.2 _ _ hsel hbt, hz] at hz'
    exact absurd hz' (by simp)
  | some z =>
    have zok : z.1.red.Ok n := red_ok (nbr_ok hp hz)
    have zt : 0 ≤ z.1.red.t ∧ z.1.red.t < 6 := by simp only [Pos.red]; omega
    have hzr := rank_range zok zt.1 zt.2
    obtain ⟨r', e1, e2, _⟩ := cube_back hp ht ht6 hz
    have hsm := hsame z.1.red zok zt.1 zt.2
    rw [List.forall₂_iff_get] at hsm
    have k3 : k < (st (z.1.red.rank n)).length := hsm.1 ▸ k1
    have hs : SameField q.ds (st (z.1.red.rank n))[k].ds := by
      have := hsm.2 k k1 k3
      simp only [List.get_eq_getElem] at this
      rwa [hq] at this
    obtain ⟨g', f1, f2, f3, f4⟩ := (comp bt z hz r' e2 q hqm _ (List.getElem_mem k3) hs).2 g hbt
    have din := D.inside (recvR h ⟨bt, p.rank n, z.1.red.rank n, z.2⟩ q.ds,
      (incoming h (cubeBack n ⟨bt, p.rank n, z.1.red.rank n, z.2⟩) (st (z.1.red.rank n))).getD k default)
      (by
        refine List.mem_map.2 ⟨⟨bt, p.rank n, z.1.red.rank n, z.2⟩, ?_, rfl⟩
        rw [cubeB_eq hp, mem_cubeBnd]
        exact ⟨z, hz, rfl⟩) g hbt
    rw [← f4]
    simp only
    refine ⟨z.1.red.rank n, z.1.red.t, z.1.red.j, z.1.red.i, (st (z.1.red.rank n))[k], g', hzr.1, hzr.2,
      (at_iff zok _ _ _).2 ⟨rfl, rfl, rfl⟩, List.getElem?_eq_getElem k3, f1, rfl, f2, ?_⟩
    rw [din, ← f3, e1]
    unfold incoming
    rw [getD_eq (by simpa using k3)]
    simp

end NDSL
