import Verif.Lemmas.HaloGeometry
import Verif.Lemmas.HaloSetting
import Verif.Props.BoundarySlice

/-! Received data in terms of the coordinates of `Spec/HaloFill`. -/
namespace NDSL
open NArr

section
variable {ds ds' : List DimSpec} {x y : Nat} {g g' : List Int}

theorem zip_find {f : DimSpec → Bool} {p : Nat} (hp : p < ds.length) (hg : g.length = ds.length)
    (h1 : f (dAt ds p) = true) (h2 : ∀ q, q < ds.length → q ≠ p → f (dAt ds q) = false) :
    (ds.zip g).find? (fun e => f e.1) = some (dAt ds p, ent g p) := by
  rw [List.find?_eq_some_iff_getElem]
  have e : ∀ q (h : q < ds.length), dAt ds q = ds[q] := by
    intro q h
    simp [dAt, List.getD_eq_getElem?_getD, List.getElem?_eq_getElem h]
  refine ⟨h1, p, by simp [hg, hp], ?_, ?_⟩
  · rw [List.getElem_zip]
    simp [e p hp, ent, List.getD_eq_getElem?_getD, List.getElem?_eq_getElem (hg ▸ hp : p < g.length)]
  · intro q hq
    rw [List.getElem_zip]
    simp only [Bool.not_eq_true']
    rw [← e q (by omega)]
    exact h2 q (by omega) (by omega)

theorem coordI_at (X : At ds x y) (hg : g.length = ds.length) (L lo : Int) :
    coordI L lo ds g = cpos L lo (dAt ds x).stag (ent g x - (dAt ds x).origin) := by
  unfold coordI
  rw [zip_find (f := fun d => d.dim.isI) X.lx hg X.ix]
  · rfl
  · intro q hq hne
    by_cases h : q = y
    · rw [h]; exact X.iy
    · have := X.other q hq hne h
      simp only [Dim.isHorizontal, Bool.or_eq_false_iff] at this
      exact this.1

theorem coordJ_at (X : At ds x y) (hg : g.length = ds.length) (L lo : Int) :
    coordJ L lo ds g = cpos L lo (dAt ds y).stag (ent g y - (dAt ds y).origin) := by
  unfold coordJ
  rw [zip_find (f := fun d => d.dim.isJ) X.ly hg X.jy]
  · rfl
  · intro q hq hne
    by_cases h : q = x
    · rw [h]; exact X.jx
    · have := X.other q hq h hne
      simp only [Dim.isHorizontal, Bool.or_eq_false_iff] at this
      exact this.2

theorem levels_zip {l l' : List (DimSpec × Int)}
    (h : List.Forall₂ (fun e e' => e.1.dim.isHorizontal = e'.1.dim.isHorizontal ∧
      (e.1.dim.isHorizontal = false → e.2 - e.1.origin = e'.2 - e'.1.origin)) l l') :
    ((l.filter fun p => !p.1.dim.isHorizontal).map fun p => p.2 - p.1.origin) =
      (l'.filter fun p => !p.1.dim.isHorizontal).map fun p => p.2 - p.1.origin := by
  induction h with
  | nil => rfl
  | cons h0 _ ih =>
    rw [List.filter_cons, List.filter_cons, ← h0.1]
    split
    · next hc =>
      rw [List.map_cons, List.map_cons, ih, h0.2 (by simpa using hc)]
    · exact ih

theorem levels_eq (X : At ds x y) (X' : At ds' x y) (hl : ds'.length = ds.length)
    (hg : g.length = ds.length) (hg' : g'.length = ds'.length)
    (h : ∀ p, p < ds.length → p ≠ x → p ≠ y →
      ent g' p - (dAt ds' p).origin = ent g p - (dAt ds p).origin) : levels ds' g' = levels ds g := by
  unfold levels
  apply levels_zip
  rw [List.forall₂_iff_get]
  refine ⟨by simp [hg, hg', hl], ?_⟩
  intro p h1 h2
  have hp : p < ds.length := by simp at h2; omega
  have e : ∀ (l : List DimSpec) q (h : q < l.length), l[q] = dAt l q := by
    intro l q h
    simp [dAt, List.getD_eq_getElem?_getD, List.getElem?_eq_getElem h]
  have e' : ∀ (l : List Int) q (h : q < l.length), l[q] = ent l q := by
    intro l q h
    simp [ent, List.getD_eq_getElem?_getD, List.getElem?_eq_getElem h]
  simp only [List.get_eq_getElem, List.getElem_zip]
  rw [e, e, e', e']
  by_cases c1 : p = x
  · subst c1
    have a : (dAt ds' p).dim.isHorizontal = true := by simp [Dim.isHorizontal, X'.ix]
    have b : (dAt ds p).dim.isHorizontal = true := by simp [Dim.isHorizontal, X.ix]
    rw [a, b]; simp
  · by_cases c2 : p = y
    · subst c2
      have a : (dAt ds' p).dim.isHorizontal = true := by simp [Dim.isHorizontal, X'.jy]
      have b : (dAt ds p).dim.isHorizontal = true := by simp [Dim.isHorizontal, X.jy]
      rw [a, b]; simp
    · rw [X.other p hp c1 c2, X'.other p (by omega) c1 c2]
      exact ⟨rfl, fun _ => h p hp c1 c2⟩

theorem HaloField.at {h ci cj : Int} (H : HaloField h ci cj ds) : ∃ x y, At ds x y := by
  obtain ⟨x, y, X⟩ := H.xy.at
  exact ⟨x, y, X.at⟩

theorem HaloField.roomOf {h ci cj : Int} (H : HaloField h ci cj ds) (h1 : h ≤ ci) (h2 : h ≤ cj) :
    Room h ds := by
  intro d hd
  refine ⟨(H.room d hd).1, (H.room d hd).2, ?_⟩
  have hs : (if d.dim.isInterface = true then (1 : Int) else 0) = d.stag := rfl
  rw [hs]
  split
  · next hh =>
    simp only [Dim.isHorizontal, Bool.or_eq_true] at hh
    rcases hh with hh | hh
    · have := H.extI d hd hh; omega
    · have := H.extJ d hd hh; omega
  · exact H.ext d hd

theorem HaloField.cellsX {h ci cj : Int} (H : HaloField h ci cj ds) (X : At ds x y) :
    (dAt ds x).cells = ci := by
  have := H.extI _ (dAt_mem X.lx) X.ix
  unfold DimSpec.cells; omega

theorem HaloField.cellsY {h ci cj : Int} (H : HaloField h ci cj ds) (X : At ds x y) :
    (dAt ds y).cells = cj := by
  have := H.extJ _ (dAt_mem X.ly) X.jy
  unfold DimSpec.cells; omega

theorem SameField.len (S : SameField ds ds') : ds'.length = ds.length := S.levels.length_eq.symm

theorem SameField.dim (S : SameField ds ds') {p : Nat} (hp : p < ds.length) :
    (dAt ds' p).dim = (dAt ds p).dim := by
  have h := S.dims
  have h' := congrArg (fun l => l[p]?) h
  simp only [List.getElem?_map, List.getElem?_eq_getElem hp,
    List.getElem?_eq_getElem (S.len ▸ hp : p < ds'.length)] at h'
  simp [dAt, List.getD_eq_getElem?_getD, List.getElem?_eq_getElem hp,
    List.getElem?_eq_getElem (S.len ▸ hp : p < ds'.length)] at h' ⊢
  exact h'.symm

theorem SameField.at (S : SameField ds ds') (X : At ds x y) : At ds' x y := by
  have hl := S.len
  refine ⟨by rw [hl]; exact X.lx, by rw [hl]; exact X.ly, ?_, ?_, ?_, ?_, ?_⟩
  · rw [S.dim X.lx]; exact X.ix
  · rw [S.dim X.lx]; exact X.jx
  · rw [S.dim X.ly]; exact X.iy
  · rw [S.dim X.ly]; exact X.jy
  · intro p hp h1 h2
    rw [S.dim (by omega)]; exact X.other p (by omega) h1 h2

theorem SameField.stag (S : SameField ds ds') {p : Nat} (hp : p < ds.length) :
    (dAt ds' p).stag = (dAt ds p).stag := by
  unfold DimSpec.stag; rw [S.dim hp]

theorem SameField.ext (S : SameField ds ds') (X : At ds x y) (p : Nat) (hp : p < ds.length)
    (h1 : p ≠ x) (h2 : p ≠ y) : (dAt ds' p).extent = (dAt ds p).extent := by
  have h := S.levels
  rw [List.forall₂_iff_get] at h
  have := h.2 p hp (S.len ▸ hp)
  have e : ∀ (l : List DimSpec) q (h : q < l.length), l[q] = dAt l q := by
    intro l q h
    simp [dAt, List.getD_eq_getElem?_getD, List.getElem?_eq_getElem h]
  simp only [List.get_eq_getElem] at this
  rw [e ds p hp, e ds' p (S.len ▸ hp)] at this
  exact (this (X.other p hp h1 h2)).symm

end

/-! eight regions -/

theorem region_of {n : Int} (hn : 0 ≤ n) {ds : List DimSpec} (hxy : HasXY (ds.map DimSpec.dim))
    (R : Room n ds) (g : List Int) :
    ((∃ bt, Selects (ds.map (win bt n false)) g) ↔ (InWidened n ds g ∧ ¬ InCompute ds g)) ∧
    (∀ bt bt', Selects (ds.map (win bt n false)) g → Selects (ds.map (win bt' n false)) g →
      bt = bt') := by
  apply C12_recv_regions_tile_ring n hn ds hxy
  · intro d hd
    have := (R d hd).2.2
    have : (0 : Int) ≤ if d.dim.isInterface = true then 1 else 0 := by split <;> simp
    split at * <;> omega
  · intro b
    exact (boundarySlice_ok b n false ds _).2
      ⟨rfl, fun d hd => ⟨(R.win hn hd _ _).1, (R.win hn hd _ _).2.1⟩⟩

theorem selects_recv {n : Int} {ds : List DimSpec} {x y : Nat} (X : At ds x y) {bt : BType}
    {g : List Int} (h : Selects (ds.map (win bt n false)) g) : g.length = ds.length ∧
    InRecv bt.dir.1 (dAt ds x).cells (dAt ds x).stag n (ent g x - (dAt ds x).origin) ∧
    InRecv bt.dir.2 (dAt ds y).cells (dAt ds y).stag n (ent g y - (dAt ds y).origin) := by
  rw [selects_iff] at h
  obtain ⟨h1, h2⟩ := h
  have a := h2 x (by simpa using X.lx)
  have b := h2 y (by simpa using X.ly)
  rw [sAt_map X.lx, win_false, X.alongX] at a
  rw [sAt_map X.ly, win_false, X.alongY] at b
  refine ⟨by simpa using h1, ?_, ?_⟩
  · unfold InRecv; simp only at a; omega
  · unfold InRecv; simp only at b; omega

/-! cube -/

/-- cells of the rank at position `p` -/
abbrev Pos.ci (off : Int → Int) (p : Pos) : Int := off (p.i + 1) - off p.i
abbrev Pos.cj (off : Int → Int) (p : Pos) : Int := off (p.j + 1) - off p.j

theorem cube_component {α : Type} {n L h : Int} {off : Int → Int} (A : Axis n L off) (hh : 0 < h)
    (hw : ∀ i, 0 ≤ i → i < n → h ≤ off (i + 1) - off i)
    {p : Pos} (hp : p.Ok n) (h0 : 0 ≤ p.t) (h6 : p.t < 6)
    {bt : BType} {z : Pos × Int} (hz : nbr n bt p = some z)
    {ds ds' : List DimSpec} {rd : List Dim} {x y : Nat} {k' : Int} (hk : k' % 4 = z.2 % 4)
    (X : At ds x y) (X' : At ds' x y) (XR : XYAt rd x y) (hl : rd.length = ds.length)
    (hl' : ds'.length = ds.length)
    (hrest : ∀ p, p < ds.length → p ≠ x → p ≠ y → (dAt ds' p).extent = (dAt ds p).extent)
    (H : HaloField h (p.ci off) (p.cj off) ds)
    (H' : HaloField h (z.1.red.ci off) (z.1.red.cj off) ds')
    (hst : ((dAt ds' x).stag, (dAt ds' y).stag) = rdim z.2 ((dAt ds x).stag, (dAt ds y).stag))
    (data' : NArr α) :
    (rotateScalar rd k' (data'.slice (ds'.map (win (recipB bt z.2) h true)))).shape =
      shapeOf (ds.map (win bt h false)) ∧
    ∀ g, Selects (ds.map (win bt h false)) g → ∃ g', InCompute ds' g' ∧ levels ds' g' = levels ds g ∧
      (rotateScalar rd k' (data'.slice (ds'.map (win (recipB bt z.2) h true)))).get
        (relIdx (ds.map (win bt h false)) g) = data'.get g' ∧
      some (onCube L z.1.red.t (coordI L (off z.1.red.i) ds' g') (coordJ L (off z.1.red.j) ds' g')) =
        fold L p.t (coordI L (off p.i) ds g) (coordJ L (off p.j) ds g) ∧
      foldAxes L p.t (coordI L (off p.i) ds g) (coordJ L (off p.j) ds g) =
        turnFrame z.2 (frame z.1.red.t) := by
  have hflat := (nbr_flat hp bt).symm.trans hz
  have hzok : z.1.red.Ok n := red_ok (nbr_ok hp hz)
  obtain ⟨c1, c2, c3, c4⟩ := hp
  have R : Room h ds := H.roomOf (hw _ c3 c4) (hw _ c1 c2)
  obtain ⟨d1, d2, d3, d4⟩ := hzok
  have R' : Room h ds' := H'.roomOf (hw _ d3 d4) (hw _ d1 d2)
  have ws := hw _ c3 c4
  have wt := hw _ c1 c2
  have fill : ∀ a b, InRecv bt.dir.1 (off (p.i + 1) - off p.i) (dAt ds x).stag h a →
      InRecv bt.dir.2 (off (p.j + 1) - off p.j) (dAt ds y).stag h b →
      Fill n L h off p bt z (dAt ds x).stag (dAt ds y).stag a b := fun a b ha hb =>
    flat_fill A hw ⟨c1, c2, c3, c4⟩ h0 h6 hflat (stag_cases _) (stag_cases _) a b ha hb
  have hs1 : (dAt ds' x).stag = (rdim z.2 ((dAt ds x).stag, (dAt ds y).stag)).1 :=
    congrArg Prod.fst hst
  have hs2 : (dAt ds' y).stag = (rdim z.2 ((dAt ds x).stag, (dAt ds y).stag)).2 :=
    congrArg Prod.snd hst
  have hlen := (fill (rst bt.dir.1 (off (p.i + 1) - off p.i) (dAt ds x).stag h)
    (rst bt.dir.2 (off (p.j + 1) - off p.j) (dAt ds y).stag h)
    (by
      unfold InRecv wln
      have := stag_cases (dAt ds x)
      split <;> omega)
    (by
      unfold InRecv wln
      have := stag_cases (dAt ds y)
      split <;> omega)).len
  rw [← hs1, ← hs2] at hlen
  have T := transfer (α := α) (k := z.2) (by omega) X X' XR hl hl' hrest R R' data' bt (recipB bt z.2) (by
    rw [H.cellsX X, H.cellsY X, H'.cellsX X', H'.cellsY X']
    exact hlen) k' hk
  refine ⟨T.1, ?_⟩
  intro g hg
  obtain ⟨g', S, hv⟩ := T.2 g hg
  obtain ⟨s1, s2, s3⟩ := selects_recv X hg
  rw [H.cellsX X] at s2
  rw [H.cellsY X] at s3
  have F := fill _ _ s2 s3
  have hgl' : g'.length = ds'.length := (inCompute_iff.1 S.inside).1
  have hpl := F.place (ent g' x - (dAt ds' x).origin, ent g' y - (dAt ds' y).origin) (by
    rw [S.place, H.cellsX X, H.cellsY X, H'.cellsX X', H'.cellsY X', ← hs1, ← hs2])
  rw [← hs1, ← hs2] at hpl
  refine ⟨g', S.inside, levels_eq X X' hl' s1 hgl' S.rest, hv, ?_, ?_⟩
  · rw [coordI_at X s1, coordJ_at X s1, coordI_at X' hgl', coordJ_at X' hgl']
    exact hpl
  · rw [coordI_at X s1, coordJ_at X s1]
    exact F.axes

theorem cube_component_none {n L h : Int} {off : Int → Int} (A : Axis n L off)
    (hw : ∀ i, 0 ≤ i → i < n → h ≤ off (i + 1) - off i)
    {p : Pos} (hp : p.Ok n) {bt : BType} (hz : nbr n bt p = none)
    {ds : List DimSpec} {x y : Nat} (X : At ds x y) (H : HaloField h (p.ci off) (p.cj off) ds)
    (g : List Int) (hg : Selects (ds.map (win bt h false)) g) :
    fold L p.t (coordI L (off p.i) ds g) (coordJ L (off p.j) ds g) = none := by
  obtain ⟨s1, s2, s3⟩ := selects_recv X hg
  rw [H.cellsX X] at s2
  rw [H.cellsY X] at s3
  rw [coordI_at X s1, coordJ_at X s1]
  exact flat_fill_none A hw hp ((nbr_flat hp bt).symm.trans hz) (stag_cases _) (stag_cases _) _ _ s2 s3

/-! tile -/

theorem SAx.wrap {n L i d : Int} {off : Int → Int} (h0 : off 0 = 0) (hL : off n = L) (hn : 1 < n)
    (hi : 0 ≤ i) (hi2 : i < n) (hd : d = 0 ∨ d = -1 ∨ d = 1) :
    ∃ T, (T = 0 ∨ T = L ∨ T = -L) ∧
      SAx d (off i) (off (i + 1)) (off ((i + d) % n)) (off ((i + d) % n + 1)) T := by
  have hw := wrap_x (i := i) (lx := n) hi hi2 d (by omega)
  rw [hw]
  rcases hd with rfl | rfl | rfl
  · exact ⟨0, .inl rfl, by simp, by simp, by simp⟩
  · by_cases c : i = 0
    · subst c
      refine ⟨L, .inr (.inl rfl), by simp, ?_, by simp⟩
      intro _
      simp only [if_true]
      rw [show n - 1 + 1 = n by omega, h0, hL]; omega
    · refine ⟨0, .inl rfl, by simp, ?_, by simp⟩
      intro _
      simp only [if_true, if_neg c]
      rw [show i - 1 + 1 = i by omega]; omega
  · by_cases c : i = n - 1
    · subst c
      refine ⟨-L, .inr (.inr rfl), by simp, by simp, ?_⟩
      intro _
      simp only [show (1 : Int) ≠ -1 by decide, if_true, if_false]
      rw [show n - 1 + 1 = n by omega, h0, hL]; omega
    · refine ⟨0, .inl rfl, by simp, by simp, ?_⟩
      intro _
      simp only [show (1 : Int) ≠ -1 by decide, if_true, if_false, if_neg c]
      omega

theorem wrap_zero {V L : Int} (h : V = 0 ∨ V = L ∨ V = -L) : (2 * V) % (2 * L) = 0 := by
  rcases h with rfl | rfl | rfl
  · simp
  · simp
  · rw [Int.mul_neg]; exact Int.emod_eq_zero_of_dvd (Int.dvd_neg.2 (Int.dvd_refl _))

theorem tile_component {α : Type} {ly lx Ly Lx h : Int} {offI offJ : Int → Int}
    (hI0 : offI 0 = 0) (hIL : offI lx = Lx) (hJ0 : offJ 0 = 0) (hJL : offJ ly = Ly)
    (hy : 1 < ly) (hx : 1 < lx) (hh : 0 < h)
    {j i j' i' : Int} (bt : BType) (c1 : 0 ≤ j) (c2 : j < ly) (c3 : 0 ≤ i) (c4 : i < lx)
    (hj' : j' = (j + bt.dir.2) % ly) (hi' : i' = (i + bt.dir.1) % lx)
    {ds ds' : List DimSpec} {rd : List Dim} {x y : Nat}
    (X : At ds x y) (X' : At ds' x y) (XR : XYAt rd x y) (hl : rd.length = ds.length)
    (hl' : ds'.length = ds.length)
    (hrest : ∀ p, p < ds.length → p ≠ x → p ≠ y → (dAt ds' p).extent = (dAt ds p).extent)
    (H : HaloField h (offI (i + 1) - offI i) (offJ (j + 1) - offJ j) ds)
    (H' : HaloField h (offI (i' + 1) - offI i') (offJ (j' + 1) - offJ j') ds')
    (R : Room h ds) (R' : Room h ds')
    (hst : (dAt ds' x).stag = (dAt ds x).stag ∧ (dAt ds' y).stag = (dAt ds y).stag)
    (data' : NArr α) (k' : Int) (hk : k' % 4 = 0) :
    (rotateScalar rd k' (data'.slice (ds'.map (win (oppB bt) h true)))).shape =
      shapeOf (ds.map (win bt h false)) ∧
    ∀ g, Selects (ds.map (win bt h false)) g → ∃ g', InCompute ds' g' ∧ levels ds' g' = levels ds g ∧
      (rotateScalar rd k' (data'.slice (ds'.map (win (oppB bt) h true)))).get
        (relIdx (ds.map (win bt h false)) g) = data'.get g' ∧
      (coordI Lx (offI i') ds' g' - coordI Lx (offI i) ds g) % (2 * Lx) = 0 ∧
      (coordJ Ly (offJ j') ds' g' - coordJ Ly (offJ j) ds g) % (2 * Ly) = 0 := by
  obtain ⟨d1, d2⟩ := dir_cases bt
  obtain ⟨V, hV, SX⟩ := SAx.wrap (L := Lx) hI0 hIL hx c3 c4 d1
  obtain ⟨U, hU, SY⟩ := SAx.wrap (L := Ly) hJ0 hJL hy c1 c2 d2
  rw [← hi'] at SX
  rw [← hj'] at SY
  have T := transfer (α := α) (k := 0) (by omega) X X' XR hl hl' hrest R R' data' bt (oppB bt) (by
    rw [H.cellsX X, H.cellsY X, H'.cellsX X', H'.cellsY X', hst.1, hst.2, oppB_dir, rdim_zero]
    exact Prod.ext (SX.len d1) (SY.len d2)) k' (by omega)
  refine ⟨T.1, ?_⟩
  intro g hg
  obtain ⟨g', S, hv⟩ := T.2 g hg
  obtain ⟨s1, _, _⟩ := selects_recv X hg
  have hgl' : g'.length = ds'.length := (inCompute_iff.1 S.inside).1
  have hp := S.place
  rw [H.cellsX X, H.cellsY X, H'.cellsX X', H'.cellsY X', hst.1, hst.2] at hp
  simp only [srcIdx, rmap, Int.zero_emod, if_true, oppB_dir, Prod.mk.injEq] at hp
  have p1 := SX.pos (s := (dAt ds x).stag) (h := h) (a := ent g x - (dAt ds x).origin) d1
  have p2 := SY.pos (s := (dAt ds y).stag) (h := h) (a := ent g y - (dAt ds y).origin) d2
  refine ⟨g', S.inside, levels_eq X X' hl' s1 hgl' S.rest, hv, ?_, ?_⟩
  · rw [coordI_at X s1, coordI_at X' hgl', hst.1]
    have e : cpos Lx (offI i') (dAt ds x).stag (ent g' x - (dAt ds' x).origin) -
        cpos Lx (offI i) (dAt ds x).stag (ent g x - (dAt ds x).origin) = 2 * V := by
      unfold cpos
      rw [hp.1, p1]
      omega
    rw [e]
    exact wrap_zero hV
  · rw [coordJ_at X s1, coordJ_at X' hgl', hst.2]
    have e : cpos Ly (offJ j') (dAt ds y).stag (ent g' y - (dAt ds' y).origin) -
        cpos Ly (offJ j) (dAt ds y).stag (ent g y - (dAt ds y).origin) = 2 * U := by
      unfold cpos
      rw [hp.2, p2]
      omega
    rw [e]
    exact wrap_zero hU

end NDSL
