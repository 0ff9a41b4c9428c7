import Verif.Props.HaloKept

/-
Property theorem C18: a halo update on a doubly periodic tile.
-/
namespace NDSL
open NArr

variable {α : Type} [Inhabited α]

/-- All ranks of a tile with `ly × lx` ranks hold the same list of fields, with room for `h` halo points.
`offI i` (`offJ j`) is the first cell of the ranks in column `i` (row `j`). -/
structure TileFields (ly lx h : Int) (offI offJ : Int → Int) (dss : Int → List (List DimSpec)) :
    Prop where
  fields : ∀ s j i, 0 ≤ s → s < (TilePart.mk (ly, lx)).totalRanks →
    (TilePart.mk (ly, lx)).subtileIndex s = (j, i) →
    ∀ ds ∈ dss s, HaloField h (offI (i + 1) - offI i) (offJ (j + 1) - offJ j) ds
  same : ∀ s s', 0 ≤ s → s < (TilePart.mk (ly, lx)).totalRanks → 0 ≤ s' →
    s' < (TilePart.mk (ly, lx)).totalRanks → List.Forall₂ SameField (dss s) (dss s')

/-- `off` cuts `L` cells into `n` pieces of at least `h` cells -/
structure Cuts (n L h : Int) (off : Int → Int) : Prop where
  zero : off 0 = 0
  last : off n = L
  wide : ∀ i, 0 ≤ i → i < n → h ≤ off (i + 1) - off i

/-- C18: a scalar halo update of `h` points on a doubly periodic tile of at least 3 × 3 ranks does not
fail, and afterwards each point of the halo holds the value of a point of the compute domain of some rank
at the same level whose global position is the same modulo the size of the tile in both directions. -/
theorem C18_tile_halo_fill (ly lx Ly Lx h : Int) (hy : 3 ≤ ly) (hx : 3 ≤ lx) (hh : 0 < h)
    (offI offJ : Int → Int) (AI : Cuts lx Lx h offI) (AJ : Cuts ly Ly h offJ) (junk : Nat → α)
    (st : Int → List (Qty α)) (F : TileFields ly lx h offI offJ fun s => (st s).map Qty.ds)
    (r j i : Int) (h0 : 0 ≤ r) (h1 : r < (TilePart.mk (ly, lx)).totalRanks)
    (hpos : (TilePart.mk (ly, lx)).subtileIndex r = (j, i)) (hne : st r ≠ []) :
    ∃ out, (TilePart.mk (ly, lx)).haloUpdate junk h st r = .ok out ∧ out.length = (st r).length ∧
      ∀ (k : Nat) (q q' : Qty α), (st r)[k]? = some q → out[k]? = some q' →
        q'.ds = q.ds ∧ q'.data.shape = q.data.shape ∧
        ∀ g, InWidened h q.ds g → ¬ InCompute q.ds g →
          ∃ s j' i' qs gs, 0 ≤ s ∧ s < (TilePart.mk (ly, lx)).totalRanks ∧
            (TilePart.mk (ly, lx)).subtileIndex s = (j', i') ∧ (st s)[k]? = some qs ∧
            InCompute qs.ds gs ∧
            (coordI Lx (offI i') qs.ds gs - coordI Lx (offI i) q.ds g) % (2 * Lx) = 0 ∧
            (coordJ Ly (offJ j') qs.ds gs - coordJ Ly (offJ j) q.ds g) % (2 * Ly) = 0 ∧
            levels qs.ds gs = levels q.ds g ∧ q'.data.get g = qs.data.get gs := by
  have S := tile_setting hy hx h0 h1
  have hw : ∀ s, 0 ≤ s → s < ly * lx → ∃ j i, 0 ≤ j ∧ j < ly ∧ 0 ≤ i ∧ i < lx ∧
      (TilePart.mk (ly, lx)).subtileIndex s = (j, i) := by
    intro s s0 s1
    obtain ⟨j, i, a, b, c, d, rfl⟩ := tile_surj (ly := ly) (lx := lx) (by omega) s0 s1
    exact ⟨j, i, a, b, c, d, tile_subtileIndex a b c d⟩
  have hR : ∀ s, 0 ≤ s → s < ly * lx → ∀ q ∈ st s, Room h q.ds := by
    intro s s0 s1 q hq
    obtain ⟨j, i, a, b, c, d, e⟩ := hw s s0 s1
    exact (F.fields s j i s0 s1 e q.ds (List.mem_map_of_mem hq)).roomOf (AI.wide i c d) (AJ.wide j a b)
  have hB : ∀ bt, ((TilePart.mk (ly, lx)).boundary bt r).btype = bt ∧
      ((TilePart.mk (ly, lx)).boundary bt r).rot = 0 ∧
      0 ≤ ((TilePart.mk (ly, lx)).boundary bt r).toRank ∧
      ((TilePart.mk (ly, lx)).boundary bt r).toRank < ly * lx ∧
      (TilePart.mk (ly, lx)).subtileIndex ((TilePart.mk (ly, lx)).boundary bt r).toRank =
        ((j + bt.dir.2) % ly, (i + bt.dir.1) % lx) := by
    intro bt
    obtain ⟨e1, e2, e3, e4, e5, e6, _⟩ := C06_tile_boundary ly lx (by omega) (by omega) r h0 h1 bt
    rw [hpos] at e6
    exact ⟨e1, e3, e4, e5, e6⟩
  obtain ⟨j0, i0, c1, c2, c3, c4, e0⟩ := hw r h0 h1
  rw [hpos] at e0
  obtain ⟨rfl, rfl⟩ := Prod.mk.injEq .. ▸ e0
  have hsame : ∀ s, 0 ≤ s → s < ly * lx →
      List.Forall₂ (fun q q' => SameField q.ds q'.ds) (st r) (st s) := by
    intro s s0 s1
    have e := F.same r s h0 h1 s0 s1
    rwa [List.forall₂_map_left_iff, List.forall₂_map_right_iff] at e
  have hback : ∀ bt, (tileBack ly lx ((TilePart.mk (ly, lx)).boundary bt r)).btype = oppB bt ∧
      (tileBack ly lx ((TilePart.mk (ly, lx)).boundary bt r)).rot = 0 := by
    intro bt
    obtain ⟨e1, e2, e3, e4, _⟩ := hB bt
    obtain ⟨f1, _, f3, _⟩ := C06_tile_boundary ly lx (by omega) (by omega) _ e3 e4 (oppB bt)
    unfold tileBack
    rw [e1]
    exact ⟨f1, f3⟩
  -- one neighbour
  have comp : ∀ bt, ∀ q ∈ st r,
      ∀ q' ∈ st ((TilePart.mk (ly, lx)).boundary bt r).toRank, SameField q.ds q'.ds →
      (sentView (q', info h (tileBack ly lx ((TilePart.mk (ly, lx)).boundary bt r)) q'.ds)).shape =
        shapeOf (q.ds.map (win bt h false)) ∧
      ∀ g, Selects (q.ds.map (win bt h false)) g → ∃ g', InCompute q'.ds g' ∧
        levels q'.ds g' = levels q.ds g ∧
        (sentView (q', info h (tileBack ly lx ((TilePart.mk (ly, lx)).boundary bt r)) q'.ds)).get
          (relIdx (q.ds.map (win bt h false)) g) = q'.data.get g' ∧
        (coordI Lx (offI ((i + bt.dir.1) % lx)) q'.ds g' - coordI Lx (offI i) q.ds g) % (2 * Lx) = 0 ∧
        (coordJ Ly (offJ ((j + bt.dir.2) % ly)) q'.ds g' - coordJ Ly (offJ j) q.ds g) % (2 * Ly) = 0
        := by
    intro bt q hq q' hq' hs
    obtain ⟨e1, e2, e3, e4, e5⟩ := hB bt
    have H := F.fields r j i h0 h1 hpos q.ds (List.mem_map_of_mem hq)
    have H' := F.fields _ _ _ e3 e4 e5 q'.ds (List.mem_map_of_mem hq')
    obtain ⟨x, y, XX⟩ := H.xy.at
    have X := XX.at
    have C := tile_component (α := α) AI.zero AI.last AJ.zero AJ.last (by omega) (by omega) hh bt
      c1 c2 c3 c4 rfl rfl X (hs.at X) (rd := q'.ds.map DimSpec.dim) (hs.dims ▸ XX)
      (by rw [List.length_map, hs.len]) hs.len (hs.ext X) H H' (hR r h0 h1 q hq)
      (hR _ e3 e4 q' hq') ⟨hs.stag X.lx, hs.stag X.ly⟩ q'.data
      (-(tileBack ly lx ((TilePart.mk (ly, lx)).boundary bt r)).rot) (by rw [(hback bt).2]; rfl)
    unfold sentView
    simp only [info, sendR]
    rw [(hback bt).1]
    exact C
  obtain ⟨out, ho, hl, hd⟩ := haloUpdate_deliver S junk hh st hne
    (by
      intro s hs
      rcases hs with rfl | ⟨b, hb, rfl⟩
      · exact hR s h0 h1
      · obtain ⟨bt, _, rfl⟩ := List.mem_map.1 hb
        exact hR _ (hB bt).2.2.1 (hB bt).2.2.2.1)
    (by
      intro b hb
      obtain ⟨bt, _, rfl⟩ := List.mem_map.1 hb
      have hsm := hsame _ (hB bt).2.2.1 (hB bt).2.2.2.1
      unfold incoming
      rw [List.forall₂_map_left_iff, List.forall₂_iff_get]
      rw [List.forall₂_iff_get] at hsm
      refine ⟨hsm.1.symm, fun k k1 k2 => ?_⟩
      have := (comp bt _ (List.get_mem _ _) _ (List.get_mem _ _) (hsm.2 k k2 k1)).1
      rw [this, recvR, (hB bt).1])
    (by
      intro q hq
      unfold tileB
      rw [List.pairwise_map]
      refine btypes_distinct.imp ?_
      intro bt bt' hbb g g1 g2
      rw [recvR, (hB bt).1] at g1
      rw [recvR, (hB bt').1] at g2
      exact hbb ((region_of (by omega) (F.fields r j i h0 h1 hpos q.ds (List.mem_map_of_mem hq)).xy
        (hR r h0 h1 q hq) g).2 _ _ g1 g2))
  refine ⟨out, ?_, hl, ?_⟩
  · unfold TilePart.haloUpdate
    rw [if_neg (by simp only; omega)]
    exact ho
  intro k q q' hq hq'
  obtain ⟨k1, hq⟩ := List.getElem?_eq_some_iff.1 hq
  obtain ⟨k2, hq'⟩ := List.getElem?_eq_some_iff.1 hq'
  have D := hd k k1 k2
  rw [hq, hq'] at D
  refine ⟨D.ds, D.shape, ?_⟩
  intro g hg1 hg2
  have hqm : q ∈ st r := hq ▸ List.getElem_mem k1
  have hf := F.fields r j i h0 h1 hpos q.ds (List.mem_map_of_mem hqm)
  have hrg := region_of (by omega) hf.xy (hR r h0 h1 q hqm) g
  obtain ⟨bt, hbt⟩ := hrg.1.2 ⟨hg1, hg2⟩
  obtain ⟨e1, e2, e3, e4, e5⟩ := hB bt
  have hsm := hsame _ e3 e4
  rw [List.forall₂_iff_get] at hsm
  have k3 := hsm.1 ▸ k1
  have hs : SameField q.ds (st ((TilePart.mk (ly, lx)).boundary bt r).toRank)[k].ds := by
    have := hsm.2 k k1 k3
    simp only [List.get_eq_getElem] at this
    rwa [hq] at this
  obtain ⟨g', f1, f2, f3, f4, f5⟩ := (comp bt q hqm _ (List.getElem_mem k3) hs).2 g hbt
  have din := D.inside (recvR h ((TilePart.mk (ly, lx)).boundary bt r) q.ds,
    (incoming h (tileBack ly lx ((TilePart.mk (ly, lx)).boundary bt r))
      (st ((TilePart.mk (ly, lx)).boundary bt r).toRank)).getD k default)
    (List.mem_map.2 ⟨_, List.mem_map.2 ⟨bt, mem_btypes bt, rfl⟩, rfl⟩) g (by
      rw [recvR, e1]; exact hbt)
  refine ⟨_, _, _, _, g', e3, e4, e5, List.getElem?_eq_getElem k3, f1, f4, f5, f2, ?_⟩
  rw [din, ← f3]
  unfold incoming
  rw [getD_eq (by simpa using k3), recvR, e1]
  simp

/-- C18, read as a field: if before the update every rank holds, on its compute domain, the values of
doubly periodic fields `f k` of the (doubled) global position and level, then after the update it holds
these values on the compute domain widened by `h` points. -/
theorem C18_tile_periodic_extension (ly lx Ly Lx h : Int) (hy : 3 ≤ ly) (hx : 3 ≤ lx) (hh : 0 < h)
    (offI offJ : Int → Int) (AI : Cuts lx Lx h offI) (AJ : Cuts ly Ly h offJ) (junk : Nat → α)
    (st : Int → List (Qty α)) (F : TileFields ly lx h offI offJ fun s => (st s).map Qty.ds)
    (f : Nat → Int → Int → List Int → α)
    (hper : ∀ k u v u' v' l, (u' - u) % (2 * Lx) = 0 → (v' - v) % (2 * Ly) = 0 →
      f k u' v' l = f k u v l)
    (hf : ∀ s j i, 0 ≤ s → s < (TilePart.mk (ly, lx)).totalRanks →
      (TilePart.mk (ly, lx)).subtileIndex s = (j, i) → ∀ (k : Nat) (q : Qty α), (st s)[k]? = some q →
      ∀ g, InCompute q.ds g → q.data.get g =
        f k (coordI Lx (offI i) q.ds g) (coordJ Ly (offJ j) q.ds g) (levels q.ds g))
    (r j i : Int) (h0 : 0 ≤ r) (h1 : r < (TilePart.mk (ly, lx)).totalRanks)
    (hpos : (TilePart.mk (ly, lx)).subtileIndex r = (j, i)) (hne : st r ≠ []) :
    ∃ out, (TilePart.mk (ly, lx)).haloUpdate junk h st r = .ok out ∧ out.length = (st r).length ∧
      ∀ (k : Nat) (q' : Qty α), out[k]? = some q' → ∀ g, InWidened h q'.ds g →
        q'.data.get g = f k (coordI Lx (offI i) q'.ds g) (coordJ Ly (offJ j) q'.ds g)
          (levels q'.ds g) := by
  obtain ⟨out, ho, hl, H⟩ := C18_tile_halo_fill ly lx Ly Lx h hy hx hh offI offJ AI AJ junk st F r j i
    h0 h1 hpos hne
  refine ⟨out, ho, hl, ?_⟩
  intro k q' hq' g hg
  obtain ⟨k2, _⟩ := List.getElem?_eq_some_iff.1 hq'
  have hq : (st r)[k]? = some (st r)[k] := List.getElem?_eq_getElem (hl ▸ k2)
  generalize (st r)[k] = q at hq
  obtain ⟨e1, e2, e3⟩ := H k q q' hq hq'
  rw [e1] at hg ⊢
  by_cases hc : InCompute q.ds g
  · have hK : haloUpdate (TilePart.mk (ly, lx)).boundaries junk h st r = .ok out := by
      unfold TilePart.haloUpdate at ho
      rw [if_neg (by simp only; omega)] at ho
      exact ho
    have hqm : q ∈ st r := List.mem_of_getElem? hq
    have hfld := F.fields r j i h0 h1 hpos q.ds (List.mem_map_of_mem hqm)
    rw [((C20_halo_update_keeps _ junk h (by omega) st r out hK).2 k q q' hq hq').2.2 hfld.xy hfld.ext
      g (.inl hc)]
    exact hf r j i h0 h1 hpos k q hq g hc
  · obtain ⟨s, j', i', qs, gs, s0, s1, sp, sq, sc, c1, c2, c3, c4⟩ := e3 g hg hc
    rw [c4, hf s j' i' s0 s1 sp k qs sq gs sc, c3]
    exact hper k _ _ _ _ _ c1 c2

/-! ### a concrete case: 3 × 4 ranks with 2 × 2 cells each, one halo point -/

def tileState (r : Int) : List (Qty Int) :=
  [⟨[⟨.j, 1, 2, 4⟩, ⟨.i, 1, 2, 5⟩],
    ⟨[4, 5], fun g => match g with | [j, i] => r * 100 + j * 10 + i | _ => 0⟩⟩]

example : Cuts 4 8 1 (fun i => 2 * i) ∧ Cuts 3 6 1 (fun i => 2 * i) :=
  ⟨⟨rfl, rfl, by intro i; omega⟩, ⟨rfl, rfl, by intro i; omega⟩⟩

example : TileFields 3 4 1 (fun i => 2 * i) (fun i => 2 * i) fun s => (tileState s).map Qty.ds where
  fields := by
    intro s j i _ _ _ ds hds
    rw [show (tileState s).map Qty.ds = [[⟨.j, 1, 2, 4⟩, ⟨.i, 1, 2, 5⟩]] from rfl,
      List.mem_singleton] at hds
    subst hds
    rw [show 2 * (i + 1) - 2 * i = 2 by omega, show 2 * (j + 1) - 2 * j = 2 by omega]
    exact ⟨⟨by decide, by decide⟩, by decide, by decide, by decide, by decide⟩
  same := by
    intro s s' _ _ _ _
    exact .cons ⟨rfl, .cons (by decide) (.cons (by decide) .nil)⟩ .nil

/-- west, south-west and south halo points of rank 0 -/
example : ((TilePart.mk (3, 4)).haloUpdate (fun _ => 7) 1 tileState 0).map
    (fun out => out.map fun q => [q.data.get [1, 0], q.data.get [0, 0], q.data.get [0, 1]]) =
    .ok [[312, 1122, 821]] := by decide +kernel

end NDSL
