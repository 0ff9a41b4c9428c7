import Verif.Lemmas.HaloUpdate
import Verif.Lemmas.CubeFill

/-! One received array in terms of positions: from which point of the sender each point is filled. -/
namespace NDSL
open NArr

/-- entry of a list of dimensions -/
def dAt (ds : List DimSpec) (p : Nat) : DimSpec := ds.getD p ⟨.k, 0, 0, 0⟩

/-- cells of a dimension -/
abbrev DimSpec.cells (d : DimSpec) : Int := d.extent - d.stag

/-- entry of a list of slices -/
def sAt (sl : List Slice) (p : Nat) : Slice := sl.getD p ⟨0, 0⟩

theorem stag_cases (d : DimSpec) : d.stag = 0 ∨ d.stag = 1 := by
  unfold DimSpec.stag; split <;> simp

theorem win_false (b : BType) (n : Int) (d : DimSpec) :
    win b n false d = ⟨d.origin + rst (b.along d.dim) d.cells d.stag n,
      d.origin + rst (b.along d.dim) d.cells d.stag n + wln (b.along d.dim) d.cells d.stag n⟩ := by
  unfold win rst wln DimSpec.cells
  rcases along_cases b d.dim with h | h | h <;> simp [h] <;> omega

theorem win_true (b : BType) (n : Int) (d : DimSpec) :
    win b n true d = ⟨d.origin + sst (b.along d.dim) d.cells d.stag n,
      d.origin + sst (b.along d.dim) d.cells d.stag n + wln (b.along d.dim) d.cells d.stag n⟩ := by
  unfold win sst wln DimSpec.cells DimSpec.stag
  rcases along_cases b d.dim with h | h | h <;> simp [h] <;> omega

theorem dAt_mem {ds : List DimSpec} {p : Nat} (h : p < ds.length) : dAt ds p ∈ ds := by
  unfold dAt
  rw [List.getD_eq_getElem?_getD, List.getElem?_eq_getElem h]
  exact List.getElem_mem h

theorem ent_relIdx {sl : List Slice} {g : List Int} {p : Nat} (h : p < sl.length)
    (h' : g.length = sl.length) : ent (relIdx sl g) p = ent g p - (sAt sl p).start := by
  unfold relIdx ent sAt
  simp [List.getD_eq_getElem?_getD, List.getElem?_zipWith, List.getElem?_eq_getElem h,
    List.getElem?_eq_getElem (h' ▸ h : p < g.length)]

theorem ent_absIdx {sl : List Slice} {g : List Int} {p : Nat} (h : p < sl.length)
    (h' : g.length = sl.length) : ent (absIdx sl g) p = (sAt sl p).start + ent g p := by
  unfold absIdx ent sAt
  simp [List.getD_eq_getElem?_getD, List.getElem?_zipWith, List.getElem?_eq_getElem h,
    List.getElem?_eq_getElem (h' ▸ h : p < g.length)]

theorem sAt_map {f : DimSpec → Slice} {ds : List DimSpec} {p : Nat} (h : p < ds.length) :
    sAt (ds.map f) p = f (dAt ds p) := by
  unfold sAt dAt
  simp [List.getD_eq_getElem?_getD, List.getElem?_eq_getElem h]

theorem ent_shapeOf {sl : List Slice} {p : Nat} (h : p < sl.length) :
    ent (shapeOf sl) p = max 0 ((sAt sl p).stop - (sAt sl p).start) := by
  unfold ent sAt shapeOf
  simp [List.getD_eq_getElem?_getD, List.getElem?_eq_getElem h]

theorem selects_iff {sl : List Slice} {g : List Int} : Selects sl g ↔ g.length = sl.length ∧
    ∀ p, p < sl.length → (sAt sl p).start ≤ ent g p ∧ ent g p < (sAt sl p).stop := by
  unfold Selects
  rw [List.forall₂_iff_get]
  constructor
  · rintro ⟨h1, h2⟩
    refine ⟨h1.symm, fun p hp => ?_⟩
    have := h2 p hp (h1 ▸ hp)
    simpa [sAt, ent, Slice.Has, List.getD_eq_getElem?_getD, List.getElem?_eq_getElem hp,
      List.getElem?_eq_getElem (h1 ▸ hp : p < g.length)] using this
  · rintro ⟨h1, h2⟩
    refine ⟨h1.symm, fun p hp hp' => ?_⟩
    have := h2 p hp
    simpa [sAt, ent, Slice.Has, List.getD_eq_getElem?_getD, List.getElem?_eq_getElem hp,
      List.getElem?_eq_getElem hp'] using this

theorem inCompute_iff {ds : List DimSpec} {g : List Int} : InCompute ds g ↔ g.length = ds.length ∧
    ∀ p, p < ds.length → (dAt ds p).origin ≤ ent g p ∧
      ent g p < (dAt ds p).origin + (dAt ds p).extent := by
  unfold InCompute
  rw [List.forall₂_iff_get]
  constructor
  · rintro ⟨h1, h2⟩
    refine ⟨h1.symm, fun p hp => ?_⟩
    have := h2 p hp (h1 ▸ hp)
    simpa [dAt, ent, List.getD_eq_getElem?_getD, List.getElem?_eq_getElem hp,
      List.getElem?_eq_getElem (h1 ▸ hp : p < g.length)] using this
  · rintro ⟨h1, h2⟩
    refine ⟨h1.symm, fun p hp hp' => ?_⟩
    have := h2 p hp
    simpa [dAt, ent, List.getD_eq_getElem?_getD, List.getElem?_eq_getElem hp,
      List.getElem?_eq_getElem hp'] using this

theorem dim_dAt {ds : List DimSpec} {p : Nat} (h : p < ds.length) :
    (ds.map DimSpec.dim)[p]'(by simpa using h) = (dAt ds p).dim := by
  simp [dAt, List.getD_eq_getElem?_getD, List.getElem?_eq_getElem h]

/-- x and y positions in a list of dimensions -/
structure At (ds : List DimSpec) (x y : Nat) : Prop where
  lx : x < ds.length
  ly : y < ds.length
  ix : (dAt ds x).dim.isI = true
  jx : (dAt ds x).dim.isJ = false
  iy : (dAt ds y).dim.isI = false
  jy : (dAt ds y).dim.isJ = true
  other : ∀ p, p < ds.length → p ≠ x → p ≠ y → (dAt ds p).dim.isHorizontal = false

theorem At.ne {ds : List DimSpec} {x y : Nat} (h : At ds x y) : x ≠ y := by
  rintro rfl
  have h1 := h.ix
  have h2 := h.iy
  rw [h1] at h2
  exact Bool.noConfusion h2

theorem XYAt.at {ds : List DimSpec} {x y : Nat} (X : XYAt (ds.map DimSpec.dim) x y) : At ds x y := by
  have lx : x < ds.length := by simpa using X.lx
  have ly : y < ds.length := by simpa using X.ly
  have ne := X.ne
  have hI : ∀ p, p < ds.length → ((dAt ds p).dim.isI = true ↔ p = x) := by
    intro p hp
    rw [← dim_dAt hp]; exact X.hx p (by simpa using hp)
  have hJ : ∀ p, p < ds.length → ((dAt ds p).dim.isJ = true ↔ p = y) := by
    intro p hp
    rw [← dim_dAt hp]; exact X.hy p (by simpa using hp)
  refine ⟨lx, ly, (hI x lx).2 rfl, ?_, ?_, (hJ y ly).2 rfl, ?_⟩
  · rw [← Bool.not_eq_true]; intro h; exact ne ((hJ x lx).1 h)
  · rw [← Bool.not_eq_true]; intro h; exact ne ((hI y ly).1 h).symm
  · intro p hp h1 h2
    have a : (dAt ds p).dim.isI = false := by
      rw [← Bool.not_eq_true]; intro h; exact h1 ((hI p hp).1 h)
    have b : (dAt ds p).dim.isJ = false := by
      rw [← Bool.not_eq_true]; intro h; exact h2 ((hJ p hp).1 h)
    simp [Dim.isHorizontal, a, b]

theorem At.alongX {ds : List DimSpec} {x y : Nat} (h : At ds x y) (b : BType) :
    b.along (dAt ds x).dim = b.dir.1 := by
  unfold BType.along; rw [if_pos h.ix]

theorem At.alongY {ds : List DimSpec} {x y : Nat} (h : At ds x y) (b : BType) :
    b.along (dAt ds y).dim = b.dir.2 := by
  unfold BType.along; rw [if_neg (by simp [h.iy]), if_pos h.jy]

theorem At.alongO {ds : List DimSpec} {x y p : Nat} (h : At ds x y) (b : BType) (hp : p < ds.length)
    (h1 : p ≠ x) (h2 : p ≠ y) : b.along (dAt ds p).dim = 0 :=
  along_not_horizontal b _ (h.other p hp h1 h2)

theorem rmap_mod {k k' : Int} (h : k % 4 = k' % 4) (W H : Int) (v : Int × Int) :
    rmap k W H v = rmap k' W H v := by
  unfold rmap; rw [h]

theorem rdim_mod {k k' : Int} (h : k % 4 = k' % 4) (v : Int × Int) :
    rdim k v = rdim k' v := by
  unfold rdim; rw [show k % 2 = k' % 2 by omega]

/-- where the element received at `g` comes from -/
structure Source (h : Int) (bt back : BType) (k : Int) (x y : Nat) (ds ds' : List DimSpec)
    (g g' : List Int) : Prop where
  inside : InCompute ds' g'
  place : (ent g' x - (dAt ds' x).origin, ent g' y - (dAt ds' y).origin) =
    srcIdx bt back k (dAt ds x).cells (dAt ds' x).cells (dAt ds y).cells (dAt ds' y).cells
      (dAt ds x).stag (dAt ds y).stag (dAt ds' x).stag (dAt ds' y).stag h
      (ent g x - (dAt ds x).origin, ent g y - (dAt ds y).origin)
  rest : ∀ p, p < ds.length → p ≠ x → p ≠ y →
    ent g' p - (dAt ds' p).origin = ent g p - (dAt ds p).origin

/-- One received array: its shape fits the receive region, and each element comes from a point of the
compute domain of the sender. -/
theorem transfer {α : Type} {ds ds' : List DimSpec} {rd : List Dim} {x y : Nat} {h k : Int}
    (hh : 0 ≤ h) (X : At ds x y) (X' : At ds' x y)
    (XR : XYAt rd x y) (hl : rd.length = ds.length) (hl' : ds'.length = ds.length)
    (hrest : ∀ p, p < ds.length → p ≠ x → p ≠ y → (dAt ds' p).extent = (dAt ds p).extent)
    (R : Room h ds) (R' : Room h ds') (data' : NArr α) (bt back : BType)
    (hlen : rdim k (wln back.dir.1 (dAt ds' x).cells (dAt ds' x).stag h,
        wln back.dir.2 (dAt ds' y).cells (dAt ds' y).stag h) =
      (wln bt.dir.1 (dAt ds x).cells (dAt ds x).stag h,
        wln bt.dir.2 (dAt ds y).cells (dAt ds y).stag h)) (k' : Int) (hk : k' % 4 = k % 4) :
    (rotateScalar rd k' (data'.slice (ds'.map (win back h true)))).shape =
      shapeOf (ds.map (win bt h false)) ∧
    ∀ g, Selects (ds.map (win bt h false)) g → ∃ g', Source h bt back k x y ds ds' g g' ∧
      (rotateScalar rd k' (data'.slice (ds'.map (win back h true)))).get
        (relIdx (ds.map (win bt h false)) g) = data'.get g' := by
  have ne := X.ne
  have sl' : (data'.slice (ds'.map (win back h true))).shape =
    shapeOf (ds'.map (win back h true)) := rfl
  have hlS : (shapeOf (ds'.map (win back h true))).length = ds.length := by simp [shapeOf, hl']
  obtain ⟨n1, n2⟩ := rotate_nf XR k' (data'.slice (ds'.map (win back h true))) (by
    rw [sl', hlS, hl])
  rw [sl'] at n1 n2
  have eS : ∀ p, p < ds.length → ent (shapeOf (ds'.map (win back h true))) p =
      wln (back.along (dAt ds' p).dim) (dAt ds' p).cells (dAt ds' p).stag h := by
    intro p hp
    have hp' : p < ds'.length := by omega
    have := R'.win hh (dAt_mem hp') back true
    rw [ent_shapeOf (by simpa using hp'), sAt_map hp']
    have e := win_true back h (dAt ds' p)
    rw [e] at this ⊢
    simp only at this ⊢
    omega
  have eR : ∀ p, p < ds.length → ent (shapeOf (ds.map (win bt h false))) p =
      wln (bt.along (dAt ds p).dim) (dAt ds p).cells (dAt ds p).stag h := by
    intro p hp
    have := R.win hh (dAt_mem hp) bt false
    rw [ent_shapeOf (by simpa using hp), sAt_map hp]
    have e := win_false bt h (dAt ds p)
    rw [e] at this ⊢
    simp only at this ⊢
    omega
  have eO : ∀ p, p < ds.length → p ≠ x → p ≠ y →
      ent (shapeOf (ds'.map (win back h true))) p = ent (shapeOf (ds.map (win bt h false))) p := by
    intro p hp h1 h2
    rw [eS p hp, eR p hp, X'.alongO back (by omega) h1 h2, X.alongO bt hp h1 h2]
    have := hrest p hp h1 h2
    simp only [wln, if_true, DimSpec.cells]
    omega
  have hpS : pick (shapeOf (ds'.map (win back h true))) x y =
      (wln back.dir.1 (dAt ds' x).cells (dAt ds' x).stag h,
        wln back.dir.2 (dAt ds' y).cells (dAt ds' y).stag h) := by
    unfold pick
    rw [eS x X.lx, eS y X.ly, X'.alongX, X'.alongY]
  constructor
  · rw [n1, rdim_mod hk, hpS, hlen]
    apply List.ext_getElem?
    intro p
    by_cases hp : p < ds.length
    · have c1 : p < (shapeOf (ds.map (win bt h false))).length := by simpa [shapeOf] using hp
      have key : ent (put (shapeOf (ds'.map (win back h true))) x y
          (wln bt.dir.1 (dAt ds x).cells (dAt ds x).stag h,
            wln bt.dir.2 (dAt ds y).cells (dAt ds y).stag h)) p =
          ent (shapeOf (ds.map (win bt h false))) p := by
        have hpp := pick_put (idx := shapeOf (ds'.map (win back h true))) (hlS ▸ X.lx) (hlS ▸ X.ly) ne
          (wln bt.dir.1 (dAt ds x).cells (dAt ds x).stag h,
            wln bt.dir.2 (dAt ds y).cells (dAt ds y).stag h)
        by_cases h1 : p = x
        · subst h1
          rw [eR p hp, X.alongX]; exact congrArg Prod.fst hpp
        · by_cases h2 : p = y
          · subst h2
            rw [eR p hp, X.alongY]; exact congrArg Prod.snd hpp
          · rw [put_get h1 h2, eO p hp h1 h2]
      have c2 : p < (put (shapeOf (ds'.map (win back h true))) x y
          (wln bt.dir.1 (dAt ds x).cells (dAt ds x).stag h,
            wln bt.dir.2 (dAt ds y).cells (dAt ds y).stag h)).length := by
        rw [put_len, hlS]; exact hp
      rw [List.getElem?_eq_getElem c1, List.getElem?_eq_getElem c2]
      unfold ent at key
      rw [List.getD_eq_getElem?_getD, List.getD_eq_getElem?_getD, List.getElem?_eq_getElem c1,
        List.getElem?_eq_getElem c2] at key
      exact congrArg some key
    · rw [List.getElem?_eq_none (by rw [put_len, hlS]; omega),
        List.getElem?_eq_none (by simpa [shapeOf] using hp)]
  · intro g hg
    have hgl : g.length = ds.length := by simpa using (selects_iff.1 hg).1
    obtain ⟨hin, _⟩ := selects_rel hg
    rw [inShape_iff] at hin
    have hrl : (relIdx (ds.map (win bt h false)) g).length = ds.length := by
      simpa [shapeOf] using hin.1
    have hrel : ∀ p, p < ds.length → ent (relIdx (ds.map (win bt h false)) g) p =
        ent g p - ((dAt ds p).origin + rst (bt.along (dAt ds p).dim) (dAt ds p).cells (dAt ds p).stag h)
        := by
      intro p hp
      rw [ent_relIdx (by simpa using hp) (by simpa using hgl), sAt_map hp, win_false]
    have hrange : ∀ p, p < ds.length → 0 ≤ ent (relIdx (ds.map (win bt h false)) g) p ∧
        ent (relIdx (ds.map (win bt h false)) g) p <
          wln (bt.along (dAt ds p).dim) (dAt ds p).cells (dAt ds p).stag h := by
      intro p hp
      have := hin.2 p (by simpa [shapeOf] using hp)
      rwa [eR p hp] at this
    rw [n2 _ (by rw [hrl, hl]), eS x X.lx, eS y X.ly, X'.alongX, X'.alongY]
    generalize hm : rmap k' (wln back.dir.1 (dAt ds' x).cells (dAt ds' x).stag h)
      (wln back.dir.2 (dAt ds' y).cells (dAt ds' y).stag h)
      (pick (relIdx (ds.map (win bt h false)) g) x y) = m
    have hmr : (0 ≤ m.1 ∧ m.1 < wln back.dir.1 (dAt ds' x).cells (dAt ds' x).stag h) ∧
        0 ≤ m.2 ∧ m.2 < wln back.dir.2 (dAt ds' y).cells (dAt ds' y).stag h := by
      have r1 := hrange x X.lx
      have r2 := hrange y X.ly
      rw [X.alongX] at r1
      rw [X.alongY] at r2
      rw [← hm]
      apply rmap_range
      · rw [rdim_mod hk, hlen]; exact r1
      · rw [rdim_mod hk, hlen]; exact r2
    have hput := pick_put (idx := relIdx (ds.map (win bt h false)) g) (hrl ▸ X.lx) (hrl ▸ X.ly) ne m
    have p1 : ent (put (relIdx (ds.map (win bt h false)) g) x y m) x = m.1 := congrArg Prod.fst hput
    have p2 : ent (put (relIdx (ds.map (win bt h false)) g) x y m) y = m.2 := congrArg Prod.snd hput
    refine ⟨absIdx (ds'.map (win back h true)) (put (relIdx (ds.map (win bt h false)) g) x y m),
      ?_, rfl⟩
    have habs : ∀ p, p < ds.length → ent (absIdx (ds'.map (win back h true))
        (put (relIdx (ds.map (win bt h false)) g) x y m)) p =
        (dAt ds' p).origin + sst (back.along (dAt ds' p).dim) (dAt ds' p).cells (dAt ds' p).stag h +
          ent (put (relIdx (ds.map (win bt h false)) g) x y m) p := by
      intro p hp
      rw [ent_absIdx (by simp; omega) (by rw [put_len, hrl]; simp; omega), sAt_map (by omega), win_true]
    have hdir : ∀ (b : BType) (d : Dim), b.along d = 0 ∨ b.along d = -1 ∨ b.along d = 1 := along_cases
    have rel0 : ∀ p, p < ds.length → p ≠ x → p ≠ y →
        ent (relIdx (ds.map (win bt h false)) g) p = ent g p - (dAt ds p).origin := by
      intro p hp h1 h2
      rw [hrel p hp, X.alongO bt hp h1 h2]
      simp [rst]
    refine ⟨?_, ?_, ?_⟩
    · rw [inCompute_iff]
      refine ⟨by simp [absIdx, put_len, hrl, hl'], ?_⟩
      intro p hp
      have hp0 : p < ds.length := by omega
      rw [habs p hp0]
      have hR := R' (dAt ds' p) (dAt_mem hp)
      by_cases h1 : p = x
      · subst h1
        rw [p1, X'.alongX]
        have hz : (dAt ds' p).dim.isHorizontal = true := by simp [Dim.isHorizontal, X'.ix]
        simp only [hz, if_true] at hR
        have hc := hmr.1
        have hd := (dir_cases back).1
        have hs := stag_cases (dAt ds' p)
        have he : (if (dAt ds' p).dim.isInterface = true then (1 : Int) else 0) = (dAt ds' p).stag := rfl
        rw [he] at hR
        unfold sst
        unfold wln at hc
        simp only [DimSpec.cells] at hc ⊢
        rcases hd with hd | hd | hd <;> simp only [hd] at hc ⊢ <;> simp at hc ⊢ <;> omega
      · by_cases h2 : p = y
        · subst h2
          rw [p2, X'.alongY]
          have hz : (dAt ds' p).dim.isHorizontal = true := by simp [Dim.isHorizontal, X'.jy]
          simp only [hz, if_true] at hR
          have hc := hmr.2
          have hd := (dir_cases back).2
          have hs := stag_cases (dAt ds' p)
          have he : (if (dAt ds' p).dim.isInterface = true then (1 : Int) else 0) = (dAt ds' p).stag :=
            rfl
          rw [he] at hR
          unfold sst
          unfold wln at hc
          simp only [DimSpec.cells] at hc ⊢
          rcases hd with hd | hd | hd <;> simp only [hd] at hc ⊢ <;> simp at hc ⊢ <;> omega
        · rw [put_get h1 h2, X'.alongO back hp h1 h2]
          have := hrange p hp0
          rw [X.alongO bt hp0 h1 h2] at this
          have e := hrest p hp0 h1 h2
          simp only [wln, if_true, sst, DimSpec.cells] at this ⊢
          omega
    · rw [habs x X.lx, habs y X.ly, p1, p2, X'.alongX, X'.alongY]
      have hm' : m = rmap k (wln back.dir.1 (dAt ds' x).cells (dAt ds' x).stag h)
          (wln back.dir.2 (dAt ds' y).cells (dAt ds' y).stag h)
          (ent g x - (dAt ds x).origin - rst bt.dir.1 (dAt ds x).cells (dAt ds x).stag h,
            ent g y - (dAt ds y).origin - rst bt.dir.2 (dAt ds y).cells (dAt ds y).stag h) := by
        rw [← hm, rmap_mod hk]
        unfold pick
        rw [hrel x X.lx, hrel y X.ly, X.alongX, X.alongY, Int.sub_sub, Int.sub_sub]
      unfold srcIdx
      simp only
      rw [← hm', Prod.mk.injEq]
      constructor <;> omega
    · intro p hp h1 h2
      rw [habs p hp, put_get h1 h2, rel0 p hp h1 h2, X'.alongO back (by omega) h1 h2]
      simp only [sst, if_true]
      omega

end NDSL
