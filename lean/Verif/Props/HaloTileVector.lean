import Verif.Props.HaloTile
import Verif.Props.HaloVector

/-
Property theorem C21 on a doubly periodic tile: a vector halo update neither turns nor exchanges components.
-/
namespace NDSL
open NArr

variable {α : Type} [Inhabited α]

/-- C21 on a tile: a vector halo update of `h` points on a doubly periodic tile of at least 3 × 3 ranks does not fail, and
afterwards each component of each vector at each point of the halo holds the value of the same component, with the same sign, at a
point of the compute domain of some rank at the same level whose global position is the same modulo the size of the tile. -/
theorem C21_tile_vector_halo_fill [Neg α] (ly lx Ly Lx h : Int) (hy : 3 ≤ ly) (hx : 3 ≤ lx) (hh : 0 < h)
    (offI offJ : Int → Int) (AI : Cuts lx Lx h offI) (AJ : Cuts ly Ly h offJ) (junk : Nat → α)
    (st : Int → List (Qty α × Qty α))
    (F : ∀ c, TileFields ly lx h offI offJ fun s => (st s).map fun v => (part c v).ds)
    (hv : ∀ s, 0 ≤ s → s < (TilePart.mk (ly, lx)).totalRanks → ∀ v ∈ st s, VectorPair v.1.ds v.2.ds)
    (r j i : Int) (h0 : 0 ≤ r) (h1 : r < (TilePart.mk (ly, lx)).totalRanks)
    (hpos : (TilePart.mk (ly, lx)).subtileIndex r = (j, i)) (hne : st r ≠ []) :
    ∃ out, (TilePart.mk (ly, lx)).vectorHaloUpdate junk h st r = .ok out ∧ out.length = (st r).length ∧
      ∀ (k : Nat) (v v' : Qty α × Qty α), (st r)[k]? = some v → out[k]? = some v' → ∀ c : Bool,
        (part c v').ds = (part c v).ds ∧ (part c v').data.shape = (part c v).data.shape ∧
        ∀ g, InWidened h (part c v).ds g → ¬ InCompute (part c v).ds g →
          ∃ s j' i' vs gs, 0 ≤ s ∧ s < (TilePart.mk (ly, lx)).totalRanks ∧
            (TilePart.mk (ly, lx)).subtileIndex s = (j', i') ∧ (st s)[k]? = some vs ∧
            InCompute (part c vs).ds gs ∧
            (coordI Lx (offI i') (part c vs).ds gs - coordI Lx (offI i) (part c v).ds g) % (2 * Lx) = 0 ∧
            (coordJ Ly (offJ j') (part c vs).ds gs - coordJ Ly (offJ j) (part c v).ds g) % (2 * Ly) = 0 ∧
            levels (part c vs).ds gs = levels (part c v).ds g ∧
            (part c v').data.get g = (part c vs).data.get gs := by
  have S := tile_setting hy hx h0 h1
  have hw : ∀ s, 0 ≤ s → s < ly * lx → ∃ j i, 0 ≤ j ∧ j < ly ∧ 0 ≤ i ∧ i < lx ∧
      (TilePart.mk (ly, lx)).subtileIndex s = (j, i) := by
    intro s s0 s1
    obtain ⟨j, i, a, b, c, d, rfl⟩ := tile_surj (ly := ly) (lx := lx) (by omega) s0 s1
    exact ⟨j, i, a, b, c, d, tile_subtileIndex a b c d⟩
  have hmem : ∀ {s : Int} {v : Qty α × Qty α} (c : Bool), v ∈ st s → (part c v).ds ∈ (st s).map fun v => (part c v).ds :=
    fun c hq => List.mem_map_of_mem (f := fun v => (part c v).ds) hq
  have hR : ∀ s, 0 ≤ s → s < ly * lx → ∀ v ∈ st s, ∀ c, Room h (part c v).ds := by
    intro s s0 s1 v hq c
    obtain ⟨j, i, a, b, c', d, e⟩ := hw s s0 s1
    exact ((F c).fields s j i s0 s1 e _ (hmem c hq)).roomOf (AI.wide i c' d) (AJ.wide j a b)
  have hB : ∀ bt, ((TilePart.mk (ly, lx)).boundary bt r).btype = bt ∧
      ((TilePart.mk (ly, lx)).boundary bt r).rot = 0 ∧
      0 ≤ ((TilePart.mk (ly, lx)).boundary bt r).toRank ∧
      ((TilePart.mk (ly, lx)).boundary bt r).toRank < ly * lx ∧
      (TilePart.mk (ly, lx)).subtileIndex ((TilePart.mk (ly, lx)).boundary bt r).toRank =
        ((j + bt.dir.2) % ly, (i + bt.dir.1) % lx) := by
    intro bt
    obtain ⟨e1, e2, e3, e4, e5, e6, _⟩ := C06_tile_boundary ly lx (by omega) (by omega) r h0 h1 bt
    rw [hpos] at e6
    exact ⟨e1, e3, e4, e5, e6⟩
  obtain ⟨j0, i0, c1, c2, c3, c4, e0⟩ := hw r h0 h1
  rw [hpos] at e0
  obtain ⟨rfl, rfl⟩ := Prod.mk.injEq .. ▸ e0
  have hsame : ∀ s, 0 ≤ s → s < ly * lx → ∀ c,
      List.Forall₂ (fun v v' => SameField (part c v).ds (part c v').ds) (st r) (st s) := by
    intro s s0 s1 c
    have e := (F c).same r s h0 h1 s0 s1
    rwa [List.forall₂_map_left_iff, List.forall₂_map_right_iff] at e
  have hflat : ∀ q ∈ flat2 (st r), ∃ v ∈ st r, ∃ c, q = part c v := by
    intro q hq
    obtain ⟨v, hv, h⟩ := List.mem_flatMap.1 hq
    simp only [List.mem_cons, List.not_mem_nil, or_false] at h
    rcases h with rfl | rfl
    · exact ⟨v, hv, false, rfl⟩
    · exact ⟨v, hv, true, rfl⟩
  have hback : ∀ bt, (tileBack ly lx ((TilePart.mk (ly, lx)).boundary bt r)).btype = oppB bt ∧
      (tileBack ly lx ((TilePart.mk (ly, lx)).boundary bt r)).rot = 0 := by
    intro bt
    obtain ⟨e1, e2, e3, e4, _⟩ := hB bt
    obtain ⟨f1, _, f3, _⟩ := C06_tile_boundary ly lx (by omega) (by omega) _ e3 e4 (oppB bt)
    unfold tileBack
    rw [e1]
    exact ⟨f1, f3⟩
  -- one neighbour
  have comp : ∀ bt, ∀ v ∈ st r,
      ∀ v' ∈ st ((TilePart.mk (ly, lx)).boundary bt r).toRank, (∀ c, SameField (part c v).ds (part c v').ds) → ∀ c,
      (part c (sentVec ⟨v'.1, v'.2, info h (tileBack ly lx ((TilePart.mk (ly, lx)).boundary bt r)) v'.1.ds,
        info h (tileBack ly lx ((TilePart.mk (ly, lx)).boundary bt r)) v'.2.ds⟩)).shape =
        shapeOf ((part c v).ds.map (win bt h false)) ∧
      ∀ g, Selects ((part c v).ds.map (win bt h false)) g → ∃ g', InCompute (part c v').ds g' ∧
        levels (part c v').ds g' = levels (part c v).ds g ∧
        (part c (sentVec ⟨v'.1, v'.2, info h (tileBack ly lx ((TilePart.mk (ly, lx)).boundary bt r)) v'.1.ds,
          info h (tileBack ly lx ((TilePart.mk (ly, lx)).boundary bt r)) v'.2.ds⟩)).get
          (relIdx ((part c v).ds.map (win bt h false)) g) = (part c v').data.get g' ∧
        (coordI Lx (offI ((i + bt.dir.1) % lx)) (part c v').ds g' - coordI Lx (offI i) (part c v).ds g) % (2 * Lx) = 0 ∧
        (coordJ Ly (offJ ((j + bt.dir.2) % ly)) (part c v').ds g' - coordJ Ly (offJ j) (part c v).ds g) % (2 * Ly) = 0
        := by
    intro bt v hvm v' hvm' hs c
    obtain ⟨e1, e2, e3, e4, e5⟩ := hB bt
    have VP := hv _ h0 h1 v hvm
    have H := fun c => (F c).fields r j i h0 h1 hpos _ (hmem c hvm)
    have H' := fun c => (F c).fields _ _ _ e3 e4 e5 _ (hmem c hvm')
    obtain ⟨x, y, XX⟩ := (H false).xy.at
    have X1 : At v.1.ds x y := XX.at
    have X : ∀ c, At (part c v).ds x y := by
      intro c; cases c
      · exact X1
      · exact VP.at X1
    have hlen : ∀ c, (part c v).ds.length = v.1.ds.length := by
      intro c; cases c
      · rfl
      · exact VP.len
    have C := tile_component (α := α) AI.zero AI.last AJ.zero AJ.last (by omega) (by omega) hh bt
      c1 c2 c3 c4 rfl rfl (X c) ((hs c).at (X c)) (rd := v'.1.ds.map DimSpec.dim) ((hs false).dims ▸ XX)
      (by rw [List.length_map, hlen c]; exact (hs false).len) (hs c).len ((hs c).ext (X c)) (H c) (H' c) (hR r h0 h1 v hvm c)
      (hR _ e3 e4 v' hvm' c) ⟨(hs c).stag (X c).lx, (hs c).stag (X c).ly⟩ (part c v').data
      (-(tileBack ly lx ((TilePart.mk (ly, lx)).boundary bt r)).rot) (by rw [(hback bt).2]; rfl)
    have E : part c (sentVec ⟨v'.1, v'.2, info h (tileBack ly lx ((TilePart.mk (ly, lx)).boundary bt r)) v'.1.ds,
        info h (tileBack ly lx ((TilePart.mk (ly, lx)).boundary bt r)) v'.2.ds⟩) =
        rotateScalar (v'.1.ds.map DimSpec.dim) (-(tileBack ly lx ((TilePart.mk (ly, lx)).boundary bt r)).rot)
          ((part c v').data.slice ((part c v').ds.map (win (oppB bt) h true))) := by
      have hb1 := (hback bt).1
      have hb2 := (hback bt).2
      generalize tileBack ly lx ((TilePart.mk (ly, lx)).boundary bt r) = b at hb1 hb2
      obtain ⟨bt', f, t, rot⟩ := b
      simp only at hb1 hb2
      subst hb1 hb2
      unfold sentVec
      rw [rotateVector_part]
      cases c <;> rfl
    rw [E]
    exact C
  have hinc : ∀ (b : Boundary) (l : List (Qty α × Qty α)), incomingVec h b l =
      flat2 (l.map fun q => sentVec ⟨q.1, q.2, info h b q.1.ds, info h b q.2.ds⟩) := by
    intro b l
    unfold incomingVec flat2
    rw [List.flatMap_map]
  obtain ⟨out, ho, hl, hd⟩ := vectorHaloUpdate_deliver S junk hh st hne
    (by
      have key : ∀ s, 0 ≤ s → s < ly * lx → ∀ q ∈ st s, Room h q.1.ds ∧ Room h q.2.ds ∧ q.1.ds.length = q.2.ds.length := by
        intro s s0 s1 q hq
        exact ⟨hR s s0 s1 q hq false, hR s s0 s1 q hq true, (hv s s0 s1 q hq).len.symm⟩
      intro s hs
      rcases hs with rfl | ⟨b, hb, rfl⟩
      · exact key s h0 h1
      · obtain ⟨bt, _, rfl⟩ := List.mem_map.1 hb
        exact key _ (hB bt).2.2.1 (hB bt).2.2.2.1)
    (by
      intro b hb
      obtain ⟨bt, _, rfl⟩ := List.mem_map.1 hb
      have hsm := hsame _ (hB bt).2.2.1 (hB bt).2.2.2.1
      rw [hinc]
      have hf : List.Forall₂ (fun v v' => (∀ c, SameField (part c v).ds (part c v').ds) ∧
          v ∈ st r ∧ v' ∈ st ((TilePart.mk (ly, lx)).boundary bt r).toRank) (st r)
          (st ((TilePart.mk (ly, lx)).boundary bt r).toRank) := by
        rw [List.forall₂_iff_get]
        refine ⟨(hsm false).length_eq, fun q q1 q2 => ⟨fun c => ?_, List.get_mem _ _, List.get_mem _ _⟩⟩
        have := hsm c
        rw [List.forall₂_iff_get] at this
        exact this.2 q q1 q2
      have comp' := comp bt
      have hb1 := (hB bt).1
      generalize st r = l1 at hf comp'
      generalize st ((TilePart.mk (ly, lx)).boundary bt r).toRank = l2 at hf comp'
      have gen : ∀ m1 m2, List.Forall₂
          (fun v v' => (∀ c, SameField (part c v).ds (part c v').ds) ∧ v ∈ l1 ∧ v' ∈ l2) m1 m2 →
          List.Forall₂ (fun (w : NArr α) q =>
            w.shape = shapeOf (recvR h ((TilePart.mk (ly, lx)).boundary bt r) q.ds))
            (flat2 (m2.map fun q => sentVec ⟨q.1, q.2,
              info h (tileBack ly lx ((TilePart.mk (ly, lx)).boundary bt r)) q.1.ds,
              info h (tileBack ly lx ((TilePart.mk (ly, lx)).boundary bt r)) q.2.ds⟩)) (flat2 m1) := by
        intro m1 m2 hm
        induction hm with
        | nil => exact .nil
        | @cons a b la lb hab _ ih =>
          rw [List.map_cons, flat2_cons, flat2_cons]
          refine .cons ?_ (.cons ?_ ih)
          · rw [recvR, hb1]; exact (comp' a hab.2.1 b hab.2.2 hab.1 false).1
          · rw [recvR, hb1]; exact (comp' a hab.2.1 b hab.2.2 hab.1 true).1
      exact gen l1 l2 hf)
    (by
      intro q hq
      obtain ⟨v, hvm, c, rfl⟩ := hflat q hq
      unfold tileB
      rw [List.pairwise_map]
      refine btypes_distinct.imp ?_
      intro bt bt' hbb g g1 g2
      rw [recvR, (hB bt).1] at g1
      rw [recvR, (hB bt').1] at g2
      exact hbb ((region_of (by omega) ((F c).fields r j i h0 h1 hpos _ (hmem c hvm)).xy
        (hR r h0 h1 v hvm c) g).2 _ _ g1 g2))
  rw [flat2_len, flat2_len] at hl
  refine ⟨out, ?_, by omega, ?_⟩
  · unfold TilePart.vectorHaloUpdate
    rw [if_neg (by simp only; omega)]
    exact ho
  intro k v v' hk hk' c
  have hvm : v ∈ st r := List.mem_of_getElem? hk
  let m : Nat := if c then 2 * k + 1 else 2 * k
  have hm : ∀ {β : Type} (l : List (β × β)) (a : β × β), l[k]? = some a →
      (flat2 l)[m]? = some (part c a) := by
    intro β l a h
    cases c
    · show (flat2 l)[2 * k]? = _
      rw [(flat2_get l k).1, h]; rfl
    · show (flat2 l)[2 * k + 1]? = _
      rw [(flat2_get l k).2, h]; rfl
  obtain ⟨k1, hq⟩ := List.getElem?_eq_some_iff.1 (hm _ _ hk)
  obtain ⟨k2, hq'⟩ := List.getElem?_eq_some_iff.1 (hm _ _ hk')
  have D := hd m k1 k2
  rw [hq, hq'] at D
  refine ⟨D.ds, D.shape, ?_⟩
  intro g hg1 hg2
  have hf := (F c).fields r j i h0 h1 hpos _ (hmem c hvm)
  have hrg := region_of (by omega) hf.xy (hR r h0 h1 v hvm c) g
  obtain ⟨bt, hbt⟩ := hrg.1.2 ⟨hg1, hg2⟩
  obtain ⟨e1, e2, e3, e4, e5⟩ := hB bt
  have hsm := hsame _ e3 e4
  obtain ⟨kl, hk0⟩ := List.getElem?_eq_some_iff.1 hk
  have k3 : k < (st ((TilePart.mk (ly, lx)).boundary bt r).toRank).length := (hsm false).length_eq ▸ kl
  have hs : ∀ c, SameField (part c v).ds (part c (st ((TilePart.mk (ly, lx)).boundary bt r).toRank)[k]).ds := by
    intro c
    have := hsm c
    rw [List.forall₂_iff_get] at this
    have := this.2 k kl k3
    simp only [List.get_eq_getElem] at this
    rwa [hk0] at this
  obtain ⟨g', f1, f2, f3, f4, f5⟩ := (comp bt v hvm _ (List.getElem_mem k3) hs c).2 g hbt
  have din := D.inside (recvR h ((TilePart.mk (ly, lx)).boundary bt r) (part c v).ds,
    (incomingVec h (tileBack ly lx ((TilePart.mk (ly, lx)).boundary bt r))
      (st ((TilePart.mk (ly, lx)).boundary bt r).toRank)).getD m default)
    (List.mem_map.2 ⟨_, List.mem_map.2 ⟨bt, mem_btypes bt, rfl⟩, rfl⟩) g (by
      rw [recvR, e1]; exact hbt)
  refine ⟨_, _, _, _, g', e3, e4, e5, List.getElem?_eq_getElem k3, f1, f4, f5, f2, ?_⟩
  rw [din, ← f3, hinc, List.getD_eq_getElem?_getD,
    hm _ _ (by rw [List.getElem?_map, List.getElem?_eq_getElem k3]; rfl), recvR, e1]
  rfl

/-- C21: on a tile of fewer than three ranks in a direction a vector update is refused, as a scalar one is. -/
theorem C21_tile_small [Neg α] (ly lx h : Int) (hs : ly < 3 ∨ lx < 3) (junk : Nat → α)
    (st : Int → List (Qty α × Qty α)) (st' : Int → List (Qty α)) (r : Int) :
    (TilePart.mk (ly, lx)).vectorHaloUpdate junk h st r = .error .notImplemented ∧
      (TilePart.mk (ly, lx)).haloUpdate junk h st' r = .error .notImplemented := by
  unfold TilePart.vectorHaloUpdate TilePart.haloUpdate
  rw [if_pos hs, if_pos hs]
  exact ⟨rfl, rfl⟩

/-! ### a concrete case: 3 × 4 ranks with 2 × 2 cells each, one halo point, winds on the edges of cells -/

def tileWinds (r : Int) : List (Qty Int × Qty Int) :=
  [(⟨[⟨.jInterface, 1, 3, 5⟩, ⟨.i, 1, 2, 5⟩],
      ⟨[5, 5], fun g => match g with | [j, i] => r * 100 + j * 10 + i | _ => 0⟩⟩,
    ⟨[⟨.j, 1, 2, 5⟩, ⟨.iInterface, 1, 3, 5⟩],
      ⟨[5, 5], fun g => match g with | [j, i] => 5000 + r * 100 + j * 10 + i | _ => 0⟩⟩)]

example : ∀ c, TileFields 3 4 1 (fun i => 2 * i) (fun i => 2 * i) fun s => (tileWinds s).map fun v => (part c v).ds := by
  intro c
  constructor
  · intro s j i _ _ _ ds hds
    rw [show 2 * (i + 1) - 2 * i = 2 by omega, show 2 * (j + 1) - 2 * j = 2 by omega]
    cases c
    · rw [show ((tileWinds s).map fun v => (part false v).ds) = [[⟨.jInterface, 1, 3, 5⟩, ⟨.i, 1, 2, 5⟩]] from rfl,
        List.mem_singleton] at hds
      subst hds
      exact ⟨⟨by decide, by decide⟩, by decide, by decide, by decide, by decide⟩
    · rw [show ((tileWinds s).map fun v => (part true v).ds) = [[⟨.j, 1, 2, 5⟩, ⟨.iInterface, 1, 3, 5⟩]] from rfl,
        List.mem_singleton] at hds
      subst hds
      exact ⟨⟨by decide, by decide⟩, by decide, by decide, by decide, by decide⟩
  · intro s s' _ _ _ _
    cases c <;> exact .cons ⟨rfl, .cons (by decide) (.cons (by decide) .nil)⟩ .nil

example (s : Int) : ∀ v ∈ tileWinds s, VectorPair v.1.ds v.2.ds := by
  intro v hv
  simp only [tileWinds, List.mem_singleton] at hv
  subst hv
  show VectorPair [⟨.jInterface, 1, 3, 5⟩, ⟨.i, 1, 2, 5⟩] [⟨.j, 1, 2, 5⟩, ⟨.iInterface, 1, 3, 5⟩]
  exact ⟨.cons (by decide) (.cons (by decide) .nil), by decide, by decide⟩

/-- west and south halo points of rank 0, of both components -/
example : ((TilePart.mk (3, 4)).vectorHaloUpdate (fun _ => 7) 1 tileWinds 0).map
    (fun out => out.map fun v => [v.1.data.get [1, 0], v.1.data.get [0, 1], v.2.data.get [1, 0], v.2.data.get [0, 1]]) =
    .ok [[312, 821, 5312, 5821]] := by decide +kernel

end NDSL
