import Verif.Props.HaloUpdate
import Verif.Props.HaloKept

/-
Property theorem C21: a vector halo update delivers components in the receiver's orientation.
-/
namespace NDSL
open NArr

variable {α : Type} [Inhabited α]

/-- which component of the sender becomes component `c` after `k` quarter turns, and if it is negated -/
def srcC (k : Int) (c : Bool) : Bool := if k % 2 = 0 then c else !c
def negC (k : Int) (c : Bool) : Bool :=
  if c then k % 4 = 1 ∨ k % 4 = 2 else k % 4 = 2 ∨ k % 4 = 3

theorem mod4 (k : Int) : k % 4 = 0 ∨ k % 4 = 1 ∨ k % 4 = 2 ∨ k % 4 = 3 := by omega

theorem rotateVector_part [Neg α] (rd : List Dim) (k : Int) (u v : NArr α) (c : Bool) :
    part c (rotateVector rd k u v) =
      (if negC k c then NArr.map (- ·) else id) (rotateScalar rd k (part (srcC k c) (u, v))) := by
  unfold rotateVector srcC negC part
  rcases mod4 k with h | h | h | h
  · have h2 : k % 2 = 0 := by omega
    cases c <;> simp [h, h2]
  · have h2 : k % 2 = 1 := by omega
    cases c <;> simp [h, h2]
  · have h2 : k % 2 = 0 := by omega
    cases c <;> simp [h, h2]
  · have h2 : k % 2 = 1 := by omega
    cases c <;> simp [h, h2]

theorem turnFrame_part (k : Int) (f : Frame) (c : Bool) :
    part c (turnFrame k f) =
      (if negC k c then V3.neg else id) (part (srcC k c) (f.ex, f.ey)) := by
  unfold turnFrame srcC negC part
  rcases mod4 k with h | h | h | h
  · have h2 : k % 2 = 0 := by omega
    cases c <;> simp [h, h2]
  · have h2 : k % 2 = 1 := by omega
    cases c <;> simp [h, h2]
  · have h2 : k % 2 = 0 := by omega
    cases c <;> simp [h, h2]
  · have h2 : k % 2 = 1 := by omega
    cases c <;> simp [h, h2]

theorem negC_mod {k k' : Int} (h : k' % 4 = k % 4) (c : Bool) : negC k' c = negC k c := by
  unfold negC; rw [h]

theorem srcC_mod {k k' : Int} (h : k' % 4 = k % 4) (c : Bool) : srcC k' c = srcC k c := by
  unfold srcC; rw [show k' % 2 = k % 2 by omega]

section
variable {dx dy : List DimSpec}

theorem VectorPair.len (V : VectorPair dx dy) : dy.length = dx.length := V.axes.length_eq.symm

theorem VectorPair.dim (V : VectorPair dx dy) {p : Nat} (hp : p < dx.length) :
    (dAt dx p).dim.isI = (dAt dy p).dim.isI ∧ (dAt dx p).dim.isJ = (dAt dy p).dim.isJ ∧
      ((dAt dx p).dim.isHorizontal = false → (dAt dx p).extent = (dAt dy p).extent) := by
  have h := V.axes
  rw [List.forall₂_iff_get] at h
  have := h.2 p hp (V.len ▸ hp)
  have e : ∀ (l : List DimSpec) q (h : q < l.length), l[q] = dAt l q := by
    intro l q h
    simp [dAt, List.getD_eq_getElem?_getD, List.getElem?_eq_getElem h]
  simp only [List.get_eq_getElem] at this
  rwa [e dx p hp, e dy p (V.len ▸ hp)] at this

theorem VectorPair.at (V : VectorPair dx dy) {x y : Nat} (X : At dx x y) : At dy x y := by
  have hl := V.len
  refine ⟨by rw [hl]; exact X.lx, by rw [hl]; exact X.ly, ?_, ?_, ?_, ?_, ?_⟩
  · rw [← (V.dim X.lx).1]; exact X.ix
  · rw [← (V.dim X.lx).2.1]; exact X.jx
  · rw [← (V.dim X.ly).1]; exact X.iy
  · rw [← (V.dim X.ly).2.1]; exact X.jy
  · intro p hp h1 h2
    have := X.other p (by omega) h1 h2
    unfold Dim.isHorizontal at this ⊢
    rwa [← (V.dim (p := p) (by omega)).1, ← (V.dim (p := p) (by omega)).2.1]

end

/-- C21: a vector halo update of `h` points on the cubed sphere does not fail, and afterwards component
`c` of each vector at each point of the halo is, up to a sign, the component of the vector that some rank
holds at the point of its compute domain reached by continuing the sheet over the cube edge (same level).
It is that component, with that sign, whose direction in space is the direction of the receiver's own
axis `c` continued over the edge. Halo points beyond a corner of the tile are unchanged. -/
theorem C21_cube_vector_halo_fill [Neg α] (n h L : Int) (hn : 0 < n) (hh : 0 < h) (off : Int → Int)
    (A : Axis n L off) (hw : ∀ i, 0 ≤ i → i < n → h ≤ off (i + 1) - off i) (junk : Nat → α)
    (st : Int → List (Qty α × Qty α))
    (F : ∀ c, CubeFields n h off fun s => (st s).map fun v => (part c v).ds)
    (hv : ∀ s, 0 ≤ s → s < (squareCube n).totalRanks → ∀ v ∈ st s, VectorPair v.1.ds v.2.ds)
    (r t j i : Int) (h0 : 0 ≤ r) (h1 : r < (squareCube n).totalRanks)
    (hpos : (squareCube n).At r t j i) (hne : st r ≠ []) :
    ∃ out, (squareCube n).vectorHaloUpdate junk h st r = .ok out ∧ out.length = (st r).length ∧
      ∀ (k : Nat) (v v' : Qty α × Qty α), (st r)[k]? = some v → out[k]? = some v' → ∀ c : Bool,
        (part c v').ds = (part c v).ds ∧ (part c v').data.shape = (part c v).data.shape ∧
        ∀ g, InWidened h (part c v).ds g → ¬ InCompute (part c v).ds g →
          match fold L t (coordI L (off i) (part c v).ds g) (coordJ L (off j) (part c v).ds g) with
          | none => (part c v').data.get g = (part c v).data.get g
          | some P => ∃ s t' j' i' vs gs, ∃ c' neg : Bool, 0 ≤ s ∧ s < (squareCube n).totalRanks ∧
              (squareCube n).At s t' j' i' ∧ (st s)[k]? = some vs ∧
              InCompute (part c' vs).ds gs ∧
              onCube L t' (coordI L (off i') (part c' vs).ds gs)
                (coordJ L (off j') (part c' vs).ds gs) = P ∧
              levels (part c' vs).ds gs = levels (part c v).ds g ∧
              part c (foldAxes L t (coordI L (off i) (part c v).ds g)
                (coordJ L (off j) (part c v).ds g)) =
                (if neg then V3.neg else id) (part c' ((frame t').ex, (frame t').ey)) ∧
              (part c v').data.get g =
                (if neg then (fun a => - a) else id) ((part c' vs).data.get gs) := by
  obtain ⟨p, hp, ht, ht6, rfl⟩ := exists_pos hn h0 h1
  obtain ⟨rfl, rfl, rfl⟩ := (at_iff hp t j i).1 hpos
  have S := cube_setting hp ht ht6
  have hF : ∀ (z : Pos), z.Ok n → 0 ≤ z.t → z.t < 6 → ∀ v ∈ st (z.rank n), ∀ c,
      HaloField h (z.ci off) (z.cj off) (part c v).ds := by
    intro z hz z0 z6 v hq c
    have := rank_range hz z0 z6
    exact (F c).fields _ _ _ _ this.1 this.2 ((at_iff hz _ _ _).2 ⟨rfl, rfl, rfl⟩) _
      (List.mem_map_of_mem hq)
  have hR : ∀ (z : Pos), z.Ok n → 0 ≤ z.t → z.t < 6 → ∀ v ∈ st (z.rank n), ∀ c,
      Room h (part c v).ds := by
    intro z hz z0 z6 v hq c
    exact (hF z hz z0 z6 v hq c).roomOf (hw _ hz.2.2.1 hz.2.2.2) (hw _ hz.1 hz.2.1)
  have hsame : ∀ (z : Pos), z.Ok n → 0 ≤ z.t → z.t < 6 → ∀ c,
      List.Forall₂ (fun v v' => SameField (part c v).ds (part c v').ds)
        (st (p.rank n)) (st (z.rank n)) := by
    intro z hz z0 z6 c
    have := rank_range hz z0 z6
    have e := (F c).same (p.rank n) (z.rank n) h0 h1 this.1 this.2
    rwa [List.forall₂_map_left_iff, List.forall₂_map_right_iff] at e
  have hflat : ∀ q ∈ flat2 (st (p.rank n)), ∃ v ∈ st (p.rank n), ∃ c, q = part c v := by
    intro q hq
    obtain ⟨v, hv, h⟩ := List.mem_flatMap.1 hq
    simp only [List.mem_cons, List.not_mem_nil, or_false] at h
    rcases h with rfl | rfl
    · exact ⟨v, hv, false, rfl⟩
    · exact ⟨v, hv, true, rfl⟩
  -- one neighbour
  have comp : ∀ bt z, nbr n bt p = some z → ∀ r', (z.2 + r') % 4 = 0 → ∀ v ∈ st (p.rank n),
      ∀ v' ∈ st (z.1.red.rank n), (∀ c, SameField (part c v).ds (part c v').ds) → ∀ c,
      (part c (sentVec ⟨v'.1, v'.2, info h ⟨recipB bt z.2, z.1.red.rank n, p.rank n, r'⟩ v'.1.ds,
        info h ⟨recipB bt z.2, z.1.red.rank n, p.rank n, r'⟩ v'.2.ds⟩)).shape =
        shapeOf ((part c v).ds.map (win bt h false)) ∧
      ∀ g, Selects ((part c v).ds.map (win bt h false)) g → ∃ g',
        InCompute (part (srcC z.2 c) v').ds g' ∧
        levels (part (srcC z.2 c) v').ds g' = levels (part c v).ds g ∧
        (part c (sentVec ⟨v'.1, v'.2, info h ⟨recipB bt z.2, z.1.red.rank n, p.rank n, r'⟩ v'.1.ds,
        info h ⟨recipB bt z.2, z.1.red.rank n, p.rank n, r'⟩ v'.2.ds⟩)).get
          (relIdx ((part c v).ds.map (win bt h false)) g) =
          (if negC z.2 c then (fun a => - a) else id) ((part (srcC z.2 c) v').data.get g') ∧
        some (onCube L z.1.red.t (coordI L (off z.1.red.i) (part (srcC z.2 c) v').ds g')
          (coordJ L (off z.1.red.j) (part (srcC z.2 c) v').ds g')) =
          fold L p.t (coordI L (off p.i) (part c v).ds g) (coordJ L (off p.j) (part c v).ds g) ∧
        part c (foldAxes L p.t (coordI L (off p.i) (part c v).ds g)
          (coordJ L (off p.j) (part c v).ds g)) =
          (if negC z.2 c then V3.neg else id)
            (part (srcC z.2 c) ((frame z.1.red.t).ex, (frame z.1.red.t).ey)) := by
    intro bt z hz r' hr' v hvm v' hvm' hs c
    have zok : z.1.red.Ok n := red_ok (nbr_ok hp hz)
    have zt : 0 ≤ z.1.red.t ∧ z.1.red.t < 6 := by simp only [Pos.red]; omega
    have zr := rank_range zok zt.1 zt.2
    have VP := hv _ h0 h1 v hvm
    obtain ⟨x, y, XX⟩ := (hF p hp ht ht6 v hvm false).xy.at
    have X1 : At v.1.ds x y := XX.at
    have X : ∀ c, At (part c v).ds x y := by
      intro c; cases c
      · exact X1
      · exact VP.at X1
    have X' : ∀ c, At (part c v').ds x y := fun c => (hs c).at (X c)
    have hlen : ∀ c, (part c v').ds.length = v.1.ds.length := by
      intro c; rw [(hs c).len]; cases c
      · rfl
      · exact VP.len
    have hlv : ∀ c, (part c v).ds.length = v.1.ds.length := by
      intro c; cases c
      · rfl
      · exact VP.len
    have hext : ∀ c c' q, q < v.1.ds.length → q ≠ x → q ≠ y →
        (dAt (part c' v').ds q).extent = (dAt (part c v).ds q).extent := by
      intro c c' q hq q1 q2
      rw [(hs c').ext (X c') q (by rw [hlv]; exact hq) q1 q2]
      have := (VP.dim hq).2.2 (X1.other q hq q1 q2)
      cases c <;> cases c'
      · rfl
      · exact this.symm
      · exact this
      · rfl
    have hstag : ∀ c, ((dAt (part (srcC z.2 c) v').ds x).stag, (dAt (part (srcC z.2 c) v').ds y).stag) =
        rdim z.2 ((dAt (part c v).ds x).stag, (dAt (part c v).ds y).stag) := by
      intro c
      rw [(hs _).stag (by rw [hlv]; exact X1.lx), (hs _).stag (by rw [hlv]; exact X1.ly)]
      have a1 := VP.along _ (dAt_mem X1.lx) _ (dAt_mem (VP.at X1).ly) X1.ix (VP.at X1).jy
      have a2 := VP.across _ (dAt_mem X1.ly) _ (dAt_mem (VP.at X1).lx) X1.jy (VP.at X1).ix
      unfold rdim srcC
      by_cases e : z.2 % 2 = 0
      · simp only [if_pos e]
      · simp only [if_neg e]
        cases c
        · exact Prod.ext a2.symm a1.symm
        · exact Prod.ext a1 a2
    have C := cube_component (α := α) A hh hw hp ht ht6 hz (ds := (part c v).ds)
      (ds' := (part (srcC z.2 c) v').ds) (rd := v'.1.ds.map DimSpec.dim) (k' := -r') (by omega)
      (X c) (X' _) ((hs false).dims ▸ XX)
      (by rw [List.length_map, hlv]; exact hlen false) (by rw [hlen, hlv])
      (fun q hq => hext _ _ q (by rw [hlv] at hq; exact hq)) (hF p hp ht ht6 v hvm c)
      (hF _ zok zt.1 zt.2 v' hvm' _) (hstag c) (part (srcC z.2 c) v').data
    have em : (-r') % 4 = z.2 % 4 := by omega
    have E : part c (sentVec ⟨v'.1, v'.2,
        info h ⟨recipB bt z.2, z.1.red.rank n, p.rank n, r'⟩ v'.1.ds,
        info h ⟨recipB bt z.2, z.1.red.rank n, p.rank n, r'⟩ v'.2.ds⟩) =
        (if negC z.2 c then NArr.map (- ·) else id) (rotateScalar (v'.1.ds.map DimSpec.dim) (-r')
          ((part (srcC z.2 c) v').data.slice
            ((part (srcC z.2 c) v').ds.map (win (recipB bt z.2) h true)))) := by
      unfold sentVec
      rw [rotateVector_part, srcC_mod (k' := -r') em, negC_mod (k' := -r') em]
      simp only [info, sendR]
      cases srcC z.2 c <;> rfl
    rw [E]
    refine ⟨?_, ?_⟩
    · rw [← C.1]; split <;> rfl
    · intro g hg
      obtain ⟨g', e1, e2, e3, e4, e5⟩ := C.2 g hg
      refine ⟨g', e1, e2, ?_, e4, ?_⟩
      · rw [← e3]; split <;> rfl
      · rw [e5, turnFrame_part]
  have hinc : ∀ (b : Boundary) (l : List (Qty α × Qty α)), incomingVec h b l =
      flat2 (l.map fun q => sentVec ⟨q.1, q.2, info h b q.1.ds, info h b q.2.ds⟩) := by
    intro b l
    unfold incomingVec flat2
    rw [List.flatMap_map]
  obtain ⟨out, ho, hl, hd⟩ := vectorHaloUpdate_deliver S junk hh st hne
    (by
      have key : ∀ (z : Pos), z.Ok n → 0 ≤ z.t → z.t < 6 → ∀ q ∈ st (z.rank n),
          Room h q.1.ds ∧ Room h q.2.ds ∧ q.1.ds.length = q.2.ds.length := by
        intro z hz z0 z6 q hq
        have := rank_range hz z0 z6
        exact ⟨hR z hz z0 z6 q hq false, hR z hz z0 z6 q hq true, (hv _ this.1 this.2 q hq).len.symm⟩
      intro s hs
      rcases hs with rfl | ⟨b, hb, rfl⟩
      · exact key p hp ht ht6
      · rw [cubeB_eq hp, mem_cubeBnd] at hb
        obtain ⟨z, hz, hb⟩ := hb
        rw [hb]
        exact key z.1.red (red_ok (nbr_ok hp hz)) (by simp only [Pos.red]; omega)
          (by simp only [Pos.red]; omega))
    (by
      intro b hb
      rw [cubeB_eq hp, mem_cubeBnd] at hb
      obtain ⟨z, hz, hb⟩ := hb
      obtain ⟨r', e1, e2, _⟩ := cube_back hp ht ht6 hz
      generalize b.btype = bt at hz hb
      subst hb
      rw [e1, hinc]
      have hsm := hsame z.1.red (red_ok (nbr_ok hp hz)) (by simp only [Pos.red]; omega)
        (by simp only [Pos.red]; omega)
      simp only
      have hsm2 : ∀ c, List.Forall₂ (fun v v' => SameField (part c v).ds (part c v').ds)
        (st (p.rank n)) (st (z.1.red.rank n)) := hsm
      have hf : List.Forall₂ (fun v v' => (∀ c, SameField (part c v).ds (part c v').ds) ∧
          v ∈ st (p.rank n) ∧ v' ∈ st (z.1.red.rank n)) (st (p.rank n)) (st (z.1.red.rank n)) := by
        rw [List.forall₂_iff_get]
        refine ⟨(hsm2 false).length_eq, fun q q1 q2 => ⟨fun c => ?_, List.get_mem _ _, List.get_mem _ _⟩⟩
        have := hsm2 c
        rw [List.forall₂_iff_get] at this
        exact this.2 q q1 q2
      have comp' := comp bt z hz r' e2
      generalize st (p.rank n) = l1 at hf comp'
      generalize st (z.1.red.rank n) = l2 at hf comp'
      have gen : ∀ m1 m2, (∀ v ∈ m1, v ∈ l1) → (∀ v ∈ m2, v ∈ l2) → List.Forall₂
          (fun v v' => (∀ c, SameField (part c v).ds (part c v').ds) ∧ v ∈ l1 ∧ v' ∈ l2) m1 m2 →
          List.Forall₂ (fun (w : NArr α) q =>
            w.shape = shapeOf (recvR h ⟨bt, p.rank n, z.1.red.rank n, z.2⟩ q.ds))
            (flat2 (m2.map fun q => sentVec ⟨q.1, q.2,
              info h ⟨recipB bt z.2, z.1.red.rank n, p.rank n, r'⟩ q.1.ds,
              info h ⟨recipB bt z.2, z.1.red.rank n, p.rank n, r'⟩ q.2.ds⟩)) (flat2 m1) := by
        intro m1 m2 _ _ hm
        induction hm with
        | nil => exact .nil
        | @cons a b la lb hab _ ih =>
          rw [List.map_cons, flat2_cons, flat2_cons]
          refine .cons (comp' a hab.2.1 b hab.2.2 hab.1 false).1
            (.cons (comp' a hab.2.1 b hab.2.2 hab.1 true).1 (ih ?_ ?_))
          · intro v hv; exact ‹∀ v ∈ a :: la, v ∈ l1› v (List.mem_cons_of_mem _ hv)
          · intro v hv; exact ‹∀ v ∈ b :: lb, v ∈ l2› v (List.mem_cons_of_mem _ hv)
      exact gen l1 l2 (fun _ h => h) (fun _ h => h) hf)
    (by
      intro q hq
      obtain ⟨v, hvm, c, rfl⟩ := hflat q hq
      rw [cubeB_eq hp]
      refine cubeBnd_types.imp ?_
      intro b b' hbb g g1 g2
      exact hbb ((region_of (by omega) (hF p hp ht ht6 v hvm c).xy (hR p hp ht ht6 v hvm c) g).2
        _ _ g1 g2))
  rw [flat2_len, flat2_len] at hl
  refine ⟨out, ho, by omega, ?_⟩
  intro k v v' hk hk' c
  have hvm : v ∈ st (p.rank n) := List.mem_of_getElem? hk
  -- position of the component
  let m : Nat := if c then 2 * k + 1 else 2 * k
  have hm : ∀ {β : Type} (l : List (β × β)) (a : β × β), l[k]? = some a →
      (flat2 l)[m]? = some (part c a) := by
    intro β l a h
    cases c
    · show (flat2 l)[2 * k]? = _
      rw [(flat2_get l k).1, h]; rfl
    · show (flat2 l)[2 * k + 1]? = _
      rw [(flat2_get l k).2, h]; rfl
  obtain ⟨k1, hq⟩ := List.getElem?_eq_some_iff.1 (hm _ _ hk)
  obtain ⟨k2, hq'⟩ := List.getElem?_eq_some_iff.1 (hm _ _ hk')
  have D := hd m k1 k2
  rw [hq, hq'] at D
  refine ⟨D.ds, D.shape, ?_⟩
  intro g hg1 hg2
  have hf := hF p hp ht ht6 v hvm c
  have hrg := region_of (by omega) hf.xy (hR p hp ht ht6 v hvm c) g
  obtain ⟨bt, hbt⟩ := hrg.1.2 ⟨hg1, hg2⟩
  obtain ⟨x, y, X⟩ := hf.at
  cases hz : nbr n bt p with
  | none =>
    rw [cube_component_none A hw hp hz X hf g hbt]
    simp only
    apply D.outside
    intro t ht hsel
    obtain ⟨b, hb, rfl⟩ := List.mem_map.1 ht
    rw [cubeB_eq hp, mem_cubeBnd] at hb
    obtain ⟨z, hz', _⟩ := hb
    rw [hrg.2 _ _ hsel hbt, hz] at hz'
    exact absurd hz' (by simp)
  | some z =>
    have zok : z.1.red.Ok n := red_ok (nbr_ok hp hz)
    have zt : 0 ≤ z.1.red.t ∧ z.1.red.t < 6 := by simp only [Pos.red]; omega
    have hzr := rank_range zok zt.1 zt.2
    obtain ⟨r', e1, e2, _⟩ := cube_back hp ht ht6 hz
    have hsm := hsame z.1.red zok zt.1 zt.2
    obtain ⟨kl, hk0⟩ := List.getElem?_eq_some_iff.1 hk
    have k3 : k < (st (z.1.red.rank n)).length := (hsm false).length_eq ▸ kl
    have hs : ∀ c, SameField (part c v).ds (part c (st (z.1.red.rank n))[k]).ds := by
      intro c
      have := hsm c
      rw [List.forall₂_iff_get] at this
      have := this.2 k kl k3
      simp only [List.get_eq_getElem] at this
      rwa [hk0] at this
    obtain ⟨g', f1, f2, f3, f4, f5⟩ := (comp bt z hz r' e2 v hvm _ (List.getElem_mem k3) hs c).2 g hbt
    have din := D.inside (recvR h ⟨bt, p.rank n, z.1.red.rank n, z.2⟩ (part c v).ds,
      (incomingVec h (cubeBack n ⟨bt, p.rank n, z.1.red.rank n, z.2⟩)
        (st (z.1.red.rank n))).getD m default)
      (by
        refine List.mem_map.2 ⟨⟨bt, p.rank n, z.1.red.rank n, z.2⟩, ?_, rfl⟩
        rw [cubeB_eq hp, mem_cubeBnd]
        exact ⟨z, hz, rfl⟩) g hbt
    rw [← f4]
    simp only
    refine ⟨z.1.red.rank n, z.1.red.t, z.1.red.j, z.1.red.i, (st (z.1.red.rank n))[k], g', srcC z.2 c,
      negC z.2 c, hzr.1, hzr.2,
      (at_iff zok _ _ _).2 ⟨rfl, rfl, rfl⟩, List.getElem?_eq_getElem k3, f1, rfl, f2, f5, ?_⟩
    rw [din, ← f3, e1, hinc, List.getD_eq_getElem?_getD,
      hm _ _ (by rw [List.getElem?_map, List.getElem?_eq_getElem k3]; rfl)]
    rfl

end NDSL
