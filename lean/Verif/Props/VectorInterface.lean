import Verif.Lemmas.VectorInterface
import Verif.Lemmas.HaloSetting
import Verif.Lemmas.CubeFill

/-
Property theorem C22: synchronising the components of a wind on cell edges.
-/
namespace NDSL
open NArr

variable {α : Type} [Inhabited α]

/-- `synchronize_vector_interfaces` on a cubed sphere of `n × n` ranks per tile -/
abbrev cubeSync [Neg α] (n : Int) (junk : Nat → α) (st : Int → Qty α × Qty α) (r : Int) :=
  syncInterfaces (squareCube n).boundaries junk st r

section geometry
local macro "sixfold2" h0:ident h6:ident : tactic => `(tactic| (
  rcases six_cases $h0 $h6 with h | h | h | h | h | h <;> subst h <;>
  first
  | (exfalso; omega)
  | (constructor <;> simp [onCube, frame, V3.add, V3.smul, V3.neg] <;> omega)
  | (constructor <;> simp [onCube, frame, V3.add, V3.smul, V3.neg])))

theorem glue_n0 {t U L : Int} (h0 : 0 ≤ t) (h6 : t < 6) (ht : t % 2 = 0) :
    onCube L ((t + 2) % 6) (-L) (-U) = onCube L t U L ∧
      (frame t).ex = (frame ((t + 2) % 6)).ey.neg := by
  sixfold2 h0 h6
theorem glue_n1 {t U L : Int} (h0 : 0 ≤ t) (h6 : t < 6) (ht : t % 2 = 1) :
    onCube L ((t + 1) % 6) U (-L) = onCube L t U L ∧
      (frame t).ex = (frame ((t + 1) % 6)).ex := by
  sixfold2 h0 h6
theorem glue_e0 {t V L : Int} (h0 : 0 ≤ t) (h6 : t < 6) (ht : t % 2 = 0) :
    onCube L ((t + 1) % 6) (-L) V = onCube L t L V ∧
      (frame t).ey = (frame ((t + 1) % 6)).ey := by
  sixfold2 h0 h6
theorem glue_e1 {t V L : Int} (h0 : 0 ≤ t) (h6 : t < 6) (ht : t % 2 = 1) :
    onCube L ((t + 2) % 6) (-V) (-L) = onCube L t L V ∧
      (frame t).ey = (frame ((t + 2) % 6)).ex.neg := by
  sixfold2 h0 h6

end geometry

theorem findBoundary_cube {n : Int} {p : Pos} {bt : BType} {x : Pos × Int} (hx : nbr n bt p = some x) :
    findBoundary (cubeBnd n p) bt = .ok ⟨bt, p.rank n, x.1.red.rank n, x.2⟩ := by
  have gen : ∀ l : List BType, bt ∈ l →
      (l.filterMap fun bt => (nbr n bt p).map fun x =>
        (⟨bt, p.rank n, x.1.red.rank n, x.2⟩ : Boundary)).find? (fun b => b.btype = bt) =
        some ⟨bt, p.rank n, x.1.red.rank n, x.2⟩ := by
    intro l
    induction l with
    | nil => intro h; simp at h
    | cons c l ih =>
      intro h
      by_cases hc : c = bt
      · subst hc
        rw [List.filterMap_cons_some (by rw [hx]; rfl)]
        simp
      · have := ih (by simpa [Ne.symm hc] using h)
        cases hn : nbr n c p with
        | none => rw [List.filterMap_cons_none (by rw [hn]; rfl)]; exact this
        | some z =>
          rw [List.filterMap_cons_some (by rw [hn]; rfl), List.find?_cons_of_neg (by simpa using hc)]
          exact this
  unfold findBoundary cubeBnd
  rw [gen _ (mem_btypes bt)]

section
variable {n : Int} {p : Pos}

theorem rot_s : (eS n p).2 = 0 ∨ (eS n p).2 = 3 := by unfold eS; repeat' split
                                                      all_goals simp
theorem rot_w : (eW n p).2 = 0 ∨ (eW n p).2 = 1 := by unfold eW; repeat' split
                                                      all_goals simp

/-- fields of a rank with dimensions named -/
structure Winds (ci cj : Int) (lv : List Int) (v : Qty α × Qty α) (sx sy : Bool)
    (ax bx ay bY : DimSpec) (rx ry : List DimSpec) : Prop where
  x : Named .jInterface .i sx ax bx rx v.1.ds
  y : Named .iInterface .j sy ay bY ry v.2.ds
  ax : ax.extent = cj + 1
  bx : bx.extent = ci
  ay : ay.extent = ci + 1
  bY : bY.extent = cj
  rx : rx.map DimSpec.extent = lv
  ry : ry.map DimSpec.extent = lv

theorem EdgeWind.winds {ci cj : Int} {lv : List Int} {v : Qty α × Qty α} (E : EdgeWind ci cj lv v)
    (hi : 0 ≤ ci) (hj : 0 ≤ cj) : ∃ sx sy ax bx ay bY rx ry,
      Winds ci cj lv v sx sy ax bx ay bY rx ry := by
  obtain ⟨sx, ax, bx, rx, N, e1, e2, e3⟩ := E.x.named (by decide) (by omega)
  obtain ⟨sy, ay, bY, ry, M, f1, f2, f3⟩ := E.y.named (by decide) (by omega)
  exact ⟨sx, sy, ax, bx, ay, bY, rx, ry, N, M, e1, e2, f1, f2, e3, f3⟩

theorem Winds.cgrid {ci cj : Int} {lv : List Int} {v : Qty α × Qty α} {sx sy ax bx ay bY rx ry}
    (W : Winds ci cj lv v sx sy ax bx ay bY rx ry) : onCGrid v = true := by
  have h1 : Dim.i ∈ v.1.dims ∧ Dim.jInterface ∈ v.1.dims := by
    unfold Qty.dims
    rw [W.x.eq]
    cases sx <;> simp [W.x.da, W.x.db]
  have h2 : Dim.j ∈ v.2.dims ∧ Dim.iInterface ∈ v.2.dims := by
    unfold Qty.dims
    rw [W.y.eq]
    cases sy <;> simp [W.y.da, W.y.db]
  unfold onCGrid
  rw [if_neg (by simp only [h1, not_true_eq_false, or_self, not_false_eq_true]),
    if_neg (by simp only [h2, not_true_eq_false, or_self, not_false_eq_true])]

theorem sends_at [Neg α] {ci cj : Int} {lv : List Int} {v : Qty α × Qty α} {sx sy ax bx ay bY rx ry}
    (W : Winds ci cj lv v sx sy ax bx ay bY rx ry) : ∃ sd wd,
      edgeSends (cubeBnd n p) v =
        .ok [((eS n p).1.red.rank n, sd.flatten), ((eW n p).1.red.rank n, wd.flatten)] ∧
      EdgeMsg sx ax bx rx v.1 ((eS n p).2 = 3) ((eS n p).2 = 3) sd ∧
      EdgeMsg sy ay bY ry v.2 ((eW n p).2 = 1) ((eW n p).2 = 1) wd := by
  obtain ⟨sd, h1, h2⟩ := southData_ok W.x (eS n p).2 rot_s
  obtain ⟨wd, h3, h4⟩ := westData_ok W.y (eW n p).2 rot_w
  refine ⟨sd, wd, ?_, h2, h4⟩
  unfold edgeSends
  rw [if_neg (by rw [W.cgrid]; simp), findBoundary_cube (x := eS n p) rfl,
    findBoundary_cube (x := eW n p) rfl]
  simp only [bind, Except.bind, pure, Except.pure, h1, h3]

/-- the neighbour in the north sends its south edge or, over a cube edge, its west edge -/
theorem north_match (hp : p.Ok n) (h0 : 0 ≤ p.t) (h6 : p.t < 6) :
    ((eS n (eN n p).1.red).1.red = p ∧ (eS n (eN n p).1.red).2 = 0 ∧
      ((p.j + 1 < n ∧ (eN n p).1.red = ⟨p.t, p.j + 1, p.i⟩) ∨
       (p.j = n - 1 ∧ p.t % 2 = 1 ∧ (eN n p).1.red = ⟨(p.t + 1) % 6, 0, p.i⟩))) ∨
    ((eW n (eN n p).1.red).1.red = p ∧ (eW n (eN n p).1.red).2 = 1 ∧
      p.j = n - 1 ∧ p.t % 2 = 0 ∧ (eN n p).1.red = ⟨(p.t + 2) % 6, n - 1 - p.i, 0⟩) := by
  obtain ⟨t, j, i⟩ := p
  obtain ⟨j0, j1, i0, i1⟩ := hp
  simp only at *
  by_cases hj : j = n - 1
  · by_cases ht : t % 2 = 0
    · right
      have e : (eN n ⟨t, j, i⟩).1.red = ⟨(t + 2) % 6, n - 1 - i, 0⟩ := by
        simp [eN, hj, ht, Pos.red]
      have ht2 : (t + 2) % 6 % 2 = 0 := by omega
      rw [e]
      refine ⟨?_, ?_, hj, ht, rfl⟩
      · simp only [eW, ht2, if_true, Pos.red, Pos.mk.injEq, and_true, true_and]; omega
      · first | simp only [eW, ht2, if_true, if_false] | simp only [eW, if_neg ht2, if_true]
    · left
      have e : (eN n ⟨t, j, i⟩).1.red = ⟨(t + 1) % 6, 0, i⟩ := by
        simp [eN, hj, ht, Pos.red]
      have ht2 : (t + 1) % 6 % 2 = 0 := by omega
      rw [e]
      refine ⟨?_, ?_, .inr ⟨hj, by omega, rfl⟩⟩
      · simp only [eS, ht2, if_true, Pos.red, Pos.mk.injEq, and_true, true_and]; omega
      · first | simp only [eS, ht2, if_true, if_false] | simp only [eS, if_neg ht2, if_true]
  · left
    have e : (eN n ⟨t, j, i⟩).1.red = ⟨t, j + 1, i⟩ := by
      simp only [eN, if_neg hj, Pos.red, Pos.mk.injEq, and_self, and_true]; omega
    have hj2 : ¬ j + 1 = 0 := by omega
    rw [e]
    refine ⟨?_, ?_, .inl ⟨by omega, rfl⟩⟩
    · simp only [eS, if_neg hj2, Pos.red, Pos.mk.injEq, and_true, true_and]; omega
    · simp [eS, hj2]

/-- the neighbour in the east sends its west edge or, over a cube edge, its south edge -/
theorem east_match (hp : p.Ok n) (h0 : 0 ≤ p.t) (h6 : p.t < 6) :
    ((eW n (eE n p).1.red).1.red = p ∧ (eW n (eE n p).1.red).2 = 0 ∧
      ((p.i + 1 < n ∧ (eE n p).1.red = ⟨p.t, p.j, p.i + 1⟩) ∨
       (p.i = n - 1 ∧ p.t % 2 = 0 ∧ (eE n p).1.red = ⟨(p.t + 1) % 6, p.j, 0⟩))) ∨
    ((eS n (eE n p).1.red).1.red = p ∧ (eS n (eE n p).1.red).2 = 3 ∧
      p.i = n - 1 ∧ p.t % 2 = 1 ∧ (eE n p).1.red = ⟨(p.t + 2) % 6, 0, n - 1 - p.j⟩) := by
  obtain ⟨t, j, i⟩ := p
  obtain ⟨j0, j1, i0, i1⟩ := hp
  simp only at *
  by_cases hj : i = n - 1
  · by_cases ht : t % 2 = 0
    · left
      have e : (eE n ⟨t, j, i⟩).1.red = ⟨(t + 1) % 6, j, 0⟩ := by
        simp [eE, hj, ht, Pos.red]
      have ht2 : ¬ (t + 1) % 6 % 2 = 0 := by omega
      rw [e]
      refine ⟨?_, ?_, .inr ⟨hj, by omega, rfl⟩⟩
      · simp only [eW, if_neg ht2, if_true, Pos.red, Pos.mk.injEq, and_true, true_and]; omega
      · first | simp only [eW, ht2, if_true, if_false] | simp only [eW, if_neg ht2, if_true]
    · right
      have e : (eE n ⟨t, j, i⟩).1.red = ⟨(t + 2) % 6, 0, n - 1 - j⟩ := by
        simp [eE, hj, ht, Pos.red]
      have ht2 : ¬ (t + 2) % 6 % 2 = 0 := by omega
      rw [e]
      refine ⟨?_, ?_, hj, by omega, rfl⟩
      · simp only [eS, if_neg ht2, if_true, Pos.red, Pos.mk.injEq, and_true, true_and]; omega
      · first | simp only [eS, ht2, if_true, if_false] | simp only [eS, if_neg ht2, if_true]
  · left
    have e : (eE n ⟨t, j, i⟩).1.red = ⟨t, j, i + 1⟩ := by
      simp only [eE, if_neg hj, Pos.red, Pos.mk.injEq, and_self, and_true]; omega
    have hj2 : ¬ i + 1 = 0 := by omega
    rw [e]
    refine ⟨?_, ?_, .inl ⟨by omega, rfl⟩⟩
    · simp only [eW, if_neg hj2, Pos.red, Pos.mk.injEq, and_true, true_and]; omega
    · simp [eW, hj2]

/-- the two messages of a rank go to different ranks -/
theorem sends_ne (hp : p.Ok n) (h0 : 0 ≤ p.t) (h6 : p.t < 6) {bt bt' : BType} {x x' : Pos × Int}
    (h : bt ≠ bt') (hx : nbr n bt p = some x) (hx' : nbr n bt' p = some x') :
    x.1.red.rank n ≠ x'.1.red.rank n := fun e =>
  h (flat_distinct hp h0 h6 ((nbr_flat hp _).symm.trans hx) ((nbr_flat hp _).symm.trans hx')
    (rank_inj (red_ok (nbr_ok hp hx)) (red_ok (nbr_ok hp hx')) e))

end

/-- a received edge, pointwise -/
theorem edge_values [Neg α] {across along across' along' : Dim} {sw sw' : Bool} {a b a' b' : DimSpec}
    {rest rest' : List DimSpec} {q q' q2 : Qty α} {rev neg : Bool} {m : NArr α}
    (N : Named across along sw a b rest q.ds) (N' : Named across' along' sw' a' b' rest' q'.ds)
    (hac : across.isHorizontal = true) (hac' : across'.isHorizontal = true)
    (M : EdgeMsg sw' a' b' rest' q' rev neg m)
    (hb : b'.extent = b.extent) (hr : rest'.map DimSpec.extent = rest.map DimSpec.extent)
    (h2 : 2 ≤ a'.extent) (G : EdgeGot sw a b rest q m q2) :
    (∀ g, ¬ (InCompute q.ds g ∧ OnLast across q.ds g) → q2.data.get g = q.data.get g) ∧
    ∀ g, InCompute q.ds g → OnLast across q.ds g → ∃ y ks gs, rest.length = ks.length ∧
      rest'.length = ks.length ∧ 0 ≤ y ∧ y < b.extent ∧
      g = placeAt sw (a.origin + a.extent - 1) (b.origin + y) rest ks ∧
      gs = placeAt sw' a'.origin (b'.origin + if rev then b.extent - 1 - y else y) rest' ks ∧
      InCompute q'.ds gs ∧ ¬ OnLast across' q'.ds gs ∧
      q2.data.get g = (if neg then (fun a => - a) else id) (q'.data.get gs) := by
  constructor
  · intro g hg
    apply G.off
    rintro ⟨y, ks, h1, rfl⟩
    apply hg
    constructor
    · rw [place_compute N]
      exact ⟨_, y, ks, by have := N.ra; omega, h1, rfl⟩
    · rw [place_last N hac]
  · intro g hg hl
    obtain ⟨x, y, ks, hx, hy, rfl⟩ := (place_compute N).1 hg
    rw [place_last N hac] at hl
    subst hl
    have hk : rest.length = ks.length := by
      have := hy.length_eq; simpa using this
    have hk' : rest'.length = ks.length := by
      have := congrArg List.length hr
      simp only [List.length_map] at this; omega
    have hy0 : 0 ≤ y ∧ y < b.extent := by cases hy; assumption
    refine ⟨y, ks, _, hk, hk', hy0.1, hy0.2, rfl, rfl, ?_, ?_, ?_⟩
    · rw [place_compute N']
      refine ⟨_, _, ks, by have := N'.ra; omega, ?_, rfl⟩
      rw [hb, hr]
      cases hy with
      | cons h1 h2 =>
        refine .cons ?_ h2
        split <;> omega
    · rw [place_last N' hac']; omega
    · rw [G.on y ks hy, M.get y ks hk', hb]

/-- the statement of C22 for one component on one rank -/
def Received [Neg α] (n L : Int) (off : Int → Int) (st : Int → Qty α × Qty α) (p : Pos) (c : Bool)
    (q : Qty α) : Prop :=
  q.ds = (part c (st (p.rank n))).ds ∧ q.data.shape = (part c (st (p.rank n))).data.shape ∧
  (∀ g, ¬ (InCompute q.ds g ∧ OnLast (acrossDim c) q.ds g) →
    q.data.get g = (part c (st (p.rank n))).data.get g) ∧
  ∀ g, InCompute q.ds g → OnLast (acrossDim c) q.ds g → ∃ (z : Pos) (gs : List Int) (c' neg : Bool),
    z.Ok n ∧ 0 ≤ z.t ∧ z.t < 6 ∧ InCompute (part c' (st (z.rank n))).ds gs ∧
    ¬ OnLast (acrossDim c') (part c' (st (z.rank n))).ds gs ∧
    onCube L z.t (coordI L (off z.i) (part c' (st (z.rank n))).ds gs)
      (coordJ L (off z.j) (part c' (st (z.rank n))).ds gs) =
      onCube L p.t (coordI L (off p.i) q.ds g) (coordJ L (off p.j) q.ds g) ∧
    levels (part c' (st (z.rank n))).ds gs = levels q.ds g ∧
    part c ((frame p.t).ex, (frame p.t).ey) =
      (if neg then V3.neg else id) (part c' ((frame z.t).ex, (frame z.t).ey)) ∧
    q.data.get g = (if neg then (fun a => - a) else id) ((part c' (st (z.rank n))).data.get gs)

section
variable [Neg α] {n L : Int} {off : Int → Int} {lv : List Int} {st : Int → Qty α × Qty α}

/-- hypotheses on the state, by position -/
structure Grid (n L : Int) (off : Int → Int) (lv : List Int) (st : Int → Qty α × Qty α) : Prop where
  axis : Axis n L off
  wide : ∀ i, 0 ≤ i → i < n → 1 ≤ off (i + 1) - off i
  wind : ∀ p : Pos, p.Ok n → 0 ≤ p.t → p.t < 6 → EdgeWind (off (p.i + 1) - off p.i)
    (off (p.j + 1) - off p.j) lv (st (p.rank n))

variable {p : Pos}

theorem Grid.names (H : Grid n L off lv st) (hp : p.Ok n) (h0 : 0 ≤ p.t) (h6 : p.t < 6) :
    ∃ sx sy ax bx ay bY rx ry, Winds (off (p.i + 1) - off p.i) (off (p.j + 1) - off p.j) lv
      (st (p.rank n)) sx sy ax bx ay bY rx ry :=
  (H.wind p hp h0 h6).winds (by have := H.wide _ hp.2.2.1 hp.2.2.2; omega)
    (by have := H.wide _ hp.1 hp.2.1; omega)

theorem received_north (H : Grid n L off lv st) (junk : Nat → α) (hp : p.Ok n) (h0 : 0 ≤ p.t)
    (h6 : p.t < 6) : ∃ l mn q, edgeSends (cubeBnd n (eN n p).1.red) (st ((eN n p).1.red.rank n)) = .ok l ∧
      (l.filter fun m => m.1 == p.rank n) = [mn] ∧
      edgeRecv junk (st (p.rank n)).1 .northwest .jInterface .i mn.2 = .ok q ∧
      Received n L off st p false q := by
  obtain ⟨sx, sy, ax, bx, ay, bY, rx, ry, W⟩ := H.names hp h0 h6
  have zok : (eN n p).1.red.Ok n := red_ok (eN_ok hp)
  have z0 : 0 ≤ (eN n p).1.red.t ∧ (eN n p).1.red.t < 6 := by simp only [Pos.red]; omega
  have hm := north_match hp h0 h6
  generalize (eN n p).1.red = z at *
  obtain ⟨sx', sy', ax', bx', ay', bY', rx', ry', W'⟩ := H.names zok z0.1 z0.2
  obtain ⟨sd, wd, hs, Ms, Mw⟩ := sends_at (n := n) (p := z) W'
  have hne := sends_ne zok z0.1 z0.2 (bt := .south) (bt' := .west) (by decide) (x := eS n z)
    (x' := eW n z) rfl rfl
  have recv : ∀ m : NArr α, m.shape = bx.extent :: rx.map DimSpec.extent →
      ∃ q', edgeRecv junk (st (p.rank n)).1 .northwest .jInterface .i m.flatten = .ok q' ∧
        EdgeGot sx ax bx rx (st (p.rank n)).1 m q' := fun m hm =>
    edgeRecv_ok W.x junk .northwest rfl rfl (by unfold viewOffset atStart; rw [W.x.db]; rfl)
      (by unfold viewOffset atStart; rw [W.x.da]; rfl) m hm
  have wi := H.wide _ hp.2.2.1 hp.2.2.2
  have wj := H.wide _ hp.1 hp.2.1
  have wi' := H.wide _ zok.2.2.1 zok.2.2.2
  have wj' := H.wide _ zok.1 zok.2.1
  rcases hm with ⟨e1, e2, e3⟩ | ⟨e1, e2, e3, e4, e5⟩
  · rw [e1] at hs hne
    rw [e2] at Ms
    have ei : z.i = p.i := by rcases e3 with ⟨_, rfl⟩ | ⟨_, _, rfl⟩ <;> rfl
    have hb : bx'.extent = bx.extent := by rw [W.bx, W'.bx, ei]
    have hr : rx'.map DimSpec.extent = rx.map DimSpec.extent := by rw [W.rx, W'.rx]
    obtain ⟨q, hq, G⟩ := recv sd (by rw [Ms.shape, hb, hr])
    refine ⟨_, (p.rank n, sd.flatten), q, hs, ?_, hq, ?_⟩
    · rw [List.filter_cons_of_pos (by simp), List.filter_cons_of_neg (by simpa using hne.symm)]
      rfl
    · obtain ⟨v1, v2⟩ := edge_values W.x W'.x rfl rfl Ms hb hr (by rw [W'.ax]; omega) G
      refine ⟨G.ds, G.shape, ?_, ?_⟩
      · rw [G.ds]; exact v1
      · rw [G.ds]
        intro g hg hl
        obtain ⟨y, ks, gs, k1, k2, y0, y1, hgg, hgs, f1, f2, f3⟩ := v2 g hg hl
        refine ⟨z, gs, false, false, zok, z0.1, z0.2, f1, f2, ?_, ?_, ?_, f3⟩
        · show onCube L z.t (coordI L (off z.i) (st (z.rank n)).1.ds gs)
            (coordJ L (off z.j) (st (z.rank n)).1.ds gs) =
            onCube L p.t (coordI L (off p.i) (st (p.rank n)).1.ds g)
              (coordJ L (off p.j) (st (p.rank n)).1.ds g)
          rw [hgg, hgs, (place_coord_x W.x ..).1, (place_coord_x W.x ..).2, (place_coord_x W'.x ..).1,
            (place_coord_x W'.x ..).2, W.ax, ei]
          have c1 : 2 * (off p.i + (bx'.origin + (if decide ((0 : Int) = 3) = true then
              bx.extent - 1 - y else y) - bx'.origin)) + 1 - L =
              2 * (off p.i + (bx.origin + y - bx.origin)) + 1 - L := by simp
          rw [c1]
          rcases e3 with ⟨g1, rfl⟩ | ⟨g1, g2, rfl⟩
          · congr 1; simp only; omega
          · have := H.axis.last (by have := hp.1; omega)
            have hj : off (p.j + 1) = L := by rw [show p.j + 1 = n by omega]; exact this
            have h00 := H.axis.zero
            rw [show 2 * (off p.j + (ax.origin + (off (p.j + 1) - off p.j + 1) - 1 - ax.origin)) - L
              = L by omega,
              show 2 * (off 0 + (ax'.origin - ax'.origin)) - L = -L by omega]
            exact (glue_n1 h0 h6 g2).1
        · show levels (st (z.rank n)).1.ds gs = levels (st (p.rank n)).1.ds g
          rw [hgg, hgs, place_levels W.x rfl rfl k1, place_levels W'.x rfl rfl k2]
        · show (frame p.t).ex = (frame z.t).ex
          rcases e3 with ⟨g1, rfl⟩ | ⟨g1, g2, rfl⟩
          · rfl
          · exact (glue_n1 (U := 0) (L := 0) h0 h6 g2).2
  · rw [e1] at hs hne
    rw [e2] at Mw
    subst e5
    have m1 := H.axis.m1 hp.2.2.1 hp.2.2.2
    have m2 := H.axis.m2 hp.2.2.1 hp.2.2.2
    have hb : bY'.extent = bx.extent := by
      rw [W.bx, W'.bY]; simp only; omega
    have hr : ry'.map DimSpec.extent = rx.map DimSpec.extent := by rw [W.rx, W'.ry]
    obtain ⟨q, hq, G⟩ := recv wd (by rw [Mw.shape, hb, hr])
    refine ⟨_, (p.rank n, wd.flatten), q, hs, ?_, hq, ?_⟩
    · rw [List.filter_cons_of_neg (by simpa using hne), List.filter_cons_of_pos (by simp)]
      rfl
    · obtain ⟨v1, v2⟩ := edge_values W.x W'.y rfl rfl Mw hb hr (by rw [W'.ay]; simp only at *; omega) G
      refine ⟨G.ds, G.shape, ?_, ?_⟩
      · rw [G.ds]; exact v1
      · rw [G.ds]
        intro g hg hl
        obtain ⟨y, ks, gs, k1, k2, y0, y1, hgg, hgs, f1, f2, f3⟩ := v2 g hg hl
        refine ⟨_, gs, true, true, zok, z0.1, z0.2, f1, f2, ?_, ?_, ?_, f3⟩
        · show onCube L ((p.t + 2) % 6) (coordI L (off 0) (st (Pos.rank n _)).2.ds gs)
            (coordJ L (off (n - 1 - p.i)) (st (Pos.rank n _)).2.ds gs) =
            onCube L p.t (coordI L (off p.i) (st (p.rank n)).1.ds g)
              (coordJ L (off p.j) (st (p.rank n)).1.ds g)
          rw [hgg, hgs, (place_coord_x W.x ..).1, (place_coord_x W.x ..).2, (place_coord_y W'.y ..).1,
            (place_coord_y W'.y ..).2, W.ax]
          have c1 : (if decide ((1 : Int) = 1) = true then bx.extent - 1 - y else y) =
            bx.extent - 1 - y := by simp
          rw [c1]
          have := H.axis.last (by have := hp.1; omega)
          have hj : off (p.j + 1) = L := by rw [show p.j + 1 = n by omega]; exact this
          have h00 := H.axis.zero
          have wx := W.bx
          rw [show 2 * (off p.j + (ax.origin + (off (p.j + 1) - off p.j + 1) - 1 - ax.origin)) - L
              = L by omega,
              show 2 * (off 0 + (ay'.origin - ay'.origin)) - L = -L by omega,
              show 2 * (off (n - 1 - p.i) + (bY'.origin + (bx.extent - 1 - y) - bY'.origin)) + 1 - L =
                -(2 * (off p.i + (bx.origin + y - bx.origin)) + 1 - L) by omega]
          exact (glue_n0 h0 h6 e4).1
        · show levels (st (Pos.rank n _)).2.ds gs = levels (st (p.rank n)).1.ds g
          rw [hgg, hgs, place_levels W.x rfl rfl k1, place_levels W'.y rfl rfl k2]
        · show (frame p.t).ex = (frame ((p.t + 2) % 6)).ey.neg
          exact (glue_n0 (U := 0) (L := 0) h0 h6 e4).2

theorem received_east (H : Grid n L off lv st) (junk : Nat → α) (hp : p.Ok n) (h0 : 0 ≤ p.t)
    (h6 : p.t < 6) : ∃ l mn q, edgeSends (cubeBnd n (eE n p).1.red) (st ((eE n p).1.red.rank n)) = .ok l ∧
      (l.filter fun m => m.1 == p.rank n) = [mn] ∧
      edgeRecv junk (st (p.rank n)).2 .southeast .iInterface .j mn.2 = .ok q ∧
      Received n L off st p true q := by
  obtain ⟨sx, sy, ax, bx, ay, bY, rx, ry, W⟩ := H.names hp h0 h6
  have zok : (eE n p).1.red.Ok n := red_ok (eE_ok hp)
  have z0 : 0 ≤ (eE n p).1.red.t ∧ (eE n p).1.red.t < 6 := by simp only [Pos.red]; omega
  have hm := east_match hp h0 h6
  generalize (eE n p).1.red = z at *
  obtain ⟨sx', sy', ax', bx', ay', bY', rx', ry', W'⟩ := H.names zok z0.1 z0.2
  obtain ⟨sd, wd, hs, Ms, Mw⟩ := sends_at (n := n) (p := z) W'
  have hne := sends_ne zok z0.1 z0.2 (bt := .south) (bt' := .west) (by decide) (x := eS n z)
    (x' := eW n z) rfl rfl
  have recv : ∀ m : NArr α, m.shape = bY.extent :: ry.map DimSpec.extent →
      ∃ q', edgeRecv junk (st (p.rank n)).2 .southeast .iInterface .j m.flatten = .ok q' ∧
        EdgeGot sy ay bY ry (st (p.rank n)).2 m q' := fun m hm =>
    edgeRecv_ok W.y junk .southeast rfl rfl (by unfold viewOffset atStart; rw [W.y.db]; rfl)
      (by unfold viewOffset atStart; rw [W.y.da]; rfl) m hm
  have wi := H.wide _ hp.2.2.1 hp.2.2.2
  have wj := H.wide _ hp.1 hp.2.1
  have wi' := H.wide _ zok.2.2.1 zok.2.2.2
  have wj' := H.wide _ zok.1 zok.2.1
  rcases hm with ⟨e1, e2, e3⟩ | ⟨e1, e2, e3, e4, e5⟩
  · rw [e1] at hs hne
    rw [e2] at Mw
    have ei : z.j = p.j := by rcases e3 with ⟨_, rfl⟩ | ⟨_, _, rfl⟩ <;> rfl
    have hb : bY'.extent = bY.extent := by rw [W.bY, W'.bY, ei]
    have hr : ry'.map DimSpec.extent = ry.map DimSpec.extent := by rw [W.ry, W'.ry]
    obtain ⟨q, hq, G⟩ := recv wd (by rw [Mw.shape, hb, hr])
    refine ⟨_, (p.rank n, wd.flatten), q, hs, ?_, hq, ?_⟩
    · rw [List.filter_cons_of_neg (by simpa using hne), List.filter_cons_of_pos (by simp)]
      rfl
    · obtain ⟨v1, v2⟩ := edge_values W.y W'.y rfl rfl Mw hb hr (by rw [W'.ay]; omega) G
      refine ⟨G.ds, G.shape, ?_, ?_⟩
      · rw [G.ds]; exact v1
      · rw [G.ds]
        intro g hg hl
        obtain ⟨y, ks, gs, k1, k2, y0, y1, hgg, hgs, f1, f2, f3⟩ := v2 g hg hl
        refine ⟨z, gs, true, false, zok, z0.1, z0.2, f1, f2, ?_, ?_, ?_, f3⟩
        · show onCube L z.t (coordI L (off z.i) (st (z.rank n)).2.ds gs)
            (coordJ L (off z.j) (st (z.rank n)).2.ds gs) =
            onCube L p.t (coordI L (off p.i) (st (p.rank n)).2.ds g)
              (coordJ L (off p.j) (st (p.rank n)).2.ds g)
          rw [hgg, hgs, (place_coord_y W.y ..).1, (place_coord_y W.y ..).2, (place_coord_y W'.y ..).1,
            (place_coord_y W'.y ..).2, W.ay, ei]
          have c1 : 2 * (off p.j + (bY'.origin + (if decide ((0 : Int) = 1) = true then
              bY.extent - 1 - y else y) - bY'.origin)) + 1 - L =
              2 * (off p.j + (bY.origin + y - bY.origin)) + 1 - L := by simp
          rw [c1]
          rcases e3 with ⟨g1, rfl⟩ | ⟨g1, g2, rfl⟩
          · congr 1; simp only; omega
          · have := H.axis.last (by have := hp.1; have := hp.2.1; omega)
            have hj : off (p.i + 1) = L := by rw [show p.i + 1 = n by omega]; exact this
            have h00 := H.axis.zero
            rw [show 2 * (off p.i + (ay.origin + (off (p.i + 1) - off p.i + 1) - 1 - ay.origin)) - L
              = L by omega,
              show 2 * (off 0 + (ay'.origin - ay'.origin)) - L = -L by omega]
            exact (glue_e0 h0 h6 g2).1
        · show levels (st (z.rank n)).2.ds gs = levels (st (p.rank n)).2.ds g
          rw [hgg, hgs, place_levels W.y rfl rfl k1, place_levels W'.y rfl rfl k2]
        · show (frame p.t).ey = (frame z.t).ey
          rcases e3 with ⟨g1, rfl⟩ | ⟨g1, g2, rfl⟩
          · rfl
          · exact (glue_e0 (V := 0) (L := 0) h0 h6 g2).2
  · rw [e1] at hs hne
    rw [e2] at Ms
    subst e5
    have m1 := H.axis.m1 hp.1 hp.2.1
    have m2 := H.axis.m2 hp.1 hp.2.1
    have hb : bx'.extent = bY.extent := by
      rw [W.bY, W'.bx]; simp only; omega
    have hr : rx'.map DimSpec.extent = ry.map DimSpec.extent := by rw [W.ry, W'.rx]
    obtain ⟨q, hq, G⟩ := recv sd (by rw [Ms.shape, hb, hr])
    refine ⟨_, (p.rank n, sd.flatten), q, hs, ?_, hq, ?_⟩
    · rw [List.filter_cons_of_pos (by simp), List.filter_cons_of_neg (by simpa using hne.symm)]
      rfl
    · obtain ⟨v1, v2⟩ := edge_values W.y W'.x rfl rfl Ms hb hr (by rw [W'.ax]; simp only at *; omega) G
      refine ⟨G.ds, G.shape, ?_, ?_⟩
      · rw [G.ds]; exact v1
      · rw [G.ds]
        intro g hg hl
        obtain ⟨y, ks, gs, k1, k2, y0, y1, hgg, hgs, f1, f2, f3⟩ := v2 g hg hl
        refine ⟨_, gs, false, true, zok, z0.1, z0.2, f1, f2, ?_, ?_, ?_, f3⟩
        · show onCube L ((p.t + 2) % 6) (coordI L (off (n - 1 - p.j)) (st (Pos.rank n _)).1.ds gs)
            (coordJ L (off 0) (st (Pos.rank n _)).1.ds gs) =
            onCube L p.t (coordI L (off p.i) (st (p.rank n)).2.ds g)
              (coordJ L (off p.j) (st (p.rank n)).2.ds g)
          rw [hgg, hgs, (place_coord_y W.y ..).1, (place_coord_y W.y ..).2, (place_coord_x W'.x ..).1,
            (place_coord_x W'.x ..).2, W.ay]
          have c1 : (if decide ((3 : Int) = 3) = true then bY.extent - 1 - y else y) =
            bY.extent - 1 - y := by simp
          rw [c1]
          have := H.axis.last (by have := hp.1; have := hp.2.1; omega)
          have hj : off (p.i + 1) = L := by rw [show p.i + 1 = n by omega]; exact this
          have h00 := H.axis.zero
          have wx := W.bY
          rw [show 2 * (off p.i + (ay.origin + (off (p.i + 1) - off p.i + 1) - 1 - ay.origin)) - L
              = L by omega,
              show 2 * (off 0 + (ax'.origin - ax'.origin)) - L = -L by omega,
              show 2 * (off (n - 1 - p.j) + (bx'.origin + (bY.extent - 1 - y) - bx'.origin)) + 1 - L =
                -(2 * (off p.j + (bY.origin + y - bY.origin)) + 1 - L) by omega]
          exact (glue_e1 h0 h6 e4).1
        · show levels (st (Pos.rank n _)).1.ds gs = levels (st (p.rank n)).2.ds g
          rw [hgg, hgs, place_levels W.y rfl rfl k1, place_levels W'.x rfl rfl k2]
        · show (frame p.t).ey = (frame ((p.t + 2) % 6)).ex.neg
          exact (glue_e1 (V := 0) (L := 0) h0 h6 e4).2

theorem sync_at (H : Grid n L off lv st) (junk : Nat → α) (hp : p.Ok n) (h0 : 0 ≤ p.t)
    (h6 : p.t < 6) : ∃ x y, cubeSync n junk st (p.rank n) = .ok (x, y) ∧
      Received n L off st p false x ∧ Received n L off st p true y := by
  obtain ⟨sx, sy, ax, bx, ay, bY, rx, ry, W⟩ := H.names hp h0 h6
  obtain ⟨sd, wd, hs, _, _⟩ := sends_at (n := n) (p := p) W
  obtain ⟨l, mn, x, a1, a2, a3, a4⟩ := received_north H junk hp h0 h6
  obtain ⟨l', mn', y, b1, b2, b3, b4⟩ := received_east H junk hp h0 h6
  have hne := sends_ne hp h0 h6 (bt := .north) (bt' := .east) (by decide) (x := eN n p)
    (x' := eE n p) rfl rfl
  refine ⟨x, y, ?_, a4, b4⟩
  unfold cubeSync syncInterfaces
  rw [cube_boundaries hp]
  simp only [bind, Except.bind, hs, findBoundary_cube (n := n) (p := p) (bt := .north) (x := eN n p) rfl,
    findBoundary_cube (n := n) (p := p) (bt := .east) (x := eE n p) rfl,
    cube_boundaries (red_ok (eN_ok hp)), cube_boundaries (red_ok (eE_ok hp)), a1, b1, a2, b2,
    if_neg hne, List.drop_zero, a3, b3]
  rfl

end

/-- C22: `synchronize_vector_interfaces`, called by all ranks of a cubed sphere with the components of a
wind on the cell edges (horizontal dimensions first), does not fail on any rank. Afterwards nothing has
changed except on the north edge of the x component and the east edge of the y component. Each point
there is also a point, not on such an edge, of a component that some rank holds: at the same place on the
cube, on the same level, with the same direction in space up to a sign; and the two ranks now hold the
same vector component: equal values up to that sign. The value is the one the other rank already had. -/
theorem C22_cube_shared_edges [Neg α] (n L : Int) (hn : 0 < n) (off : Int → Int) (A : Axis n L off)
    (hw : ∀ i, 0 ≤ i → i < n → 1 ≤ off (i + 1) - off i) (lv : List Int) (junk : Nat → α)
    (st : Int → Qty α × Qty α)
    (F : ∀ s t j i, 0 ≤ s → s < (squareCube n).totalRanks → (squareCube n).At s t j i →
      EdgeWind (off (i + 1) - off i) (off (j + 1) - off j) lv (st s)) :
    ∃ after : Int → Qty α × Qty α,
      ∀ r t j i, 0 ≤ r → r < (squareCube n).totalRanks → (squareCube n).At r t j i →
        cubeSync n junk st r = .ok (after r) ∧ ∀ c : Bool,
          (part c (after r)).ds = (part c (st r)).ds ∧
          (part c (after r)).data.shape = (part c (st r)).data.shape ∧
          (∀ g, ¬ (InCompute (part c (st r)).ds g ∧ OnLast (acrossDim c) (part c (st r)).ds g) →
            (part c (after r)).data.get g = (part c (st r)).data.get g) ∧
          ∀ g, InCompute (part c (st r)).ds g → OnLast (acrossDim c) (part c (st r)).ds g →
            ∃ s t' j' i' gs, ∃ c' neg : Bool, 0 ≤ s ∧ s < (squareCube n).totalRanks ∧
              (squareCube n).At s t' j' i' ∧
              InCompute (part c' (st s)).ds gs ∧ ¬ OnLast (acrossDim c') (part c' (st s)).ds gs ∧
              onCube L t' (coordI L (off i') (part c' (st s)).ds gs)
                (coordJ L (off j') (part c' (st s)).ds gs) =
                onCube L t (coordI L (off i) (part c (st r)).ds g)
                  (coordJ L (off j) (part c (st r)).ds g) ∧
              levels (part c' (st s)).ds gs = levels (part c (st r)).ds g ∧
              part c ((frame t).ex, (frame t).ey) =
                (if neg then V3.neg else id) (part c' ((frame t').ex, (frame t').ey)) ∧
              (part c (after r)).data.get g =
                (if neg then (fun a => - a) else id) ((part c' (after s)).data.get gs) ∧
              (part c' (after s)).data.get gs = (part c' (st s)).data.get gs := by
  have H : Grid n L off lv st := ⟨A, hw, fun p hp h0 h6 => F _ _ _ _ (rank_range hp h0 h6).1
    (rank_range hp h0 h6).2 ((at_iff hp _ _ _).2 ⟨rfl, rfl, rfl⟩)⟩
  let after : Int → Qty α × Qty α := fun r =>
    match cubeSync n junk st r with
    | .ok v => v
    | .error _ => st r
  have key : ∀ p : Pos, p.Ok n → 0 ≤ p.t → p.t < 6 →
      cubeSync n junk st (p.rank n) = .ok (after (p.rank n)) ∧
      ∀ c, Received n L off st p c (part c (after (p.rank n))) := by
    intro p hp h0 h6
    obtain ⟨x, y, e, e1, e2⟩ := sync_at H junk hp h0 h6
    have ea : after (p.rank n) = (x, y) := by show (match cubeSync n junk st (p.rank n) with
      | .ok v => v
      | .error _ => st (p.rank n)) = _
                                              rw [e]
    rw [ea]
    refine ⟨e, ?_⟩
    intro c; cases c
    · exact e1
    · exact e2
  refine ⟨after, ?_⟩
  intro r t j i h0 h1 hpos
  obtain ⟨p, hp, ht, ht6, rfl⟩ := exists_pos hn h0 h1
  obtain ⟨rfl, rfl, rfl⟩ := (at_iff hp t j i).1 hpos
  obtain ⟨e, R⟩ := key p hp ht ht6
  refine ⟨e, ?_⟩
  intro c
  obtain ⟨d1, d2, d3, d4⟩ := R c
  rw [d1] at d3 d4
  refine ⟨d1, d2, d3, ?_⟩
  intro g hg hl
  obtain ⟨z, gs, c', neg, z1, z2, z3, z4, z5, z6, z7, z8, z9⟩ := d4 g hg hl
  have := rank_range z1 z2 z3
  obtain ⟨_, R'⟩ := key z z1 z2 z3
  obtain ⟨q1, _, q3, _⟩ := R' c'
  rw [q1] at q3
  have same := q3 gs (fun h => z5 h.2)
  refine ⟨z.rank n, z.t, z.j, z.i, gs, c', neg, this.1, this.2, (at_iff z1 _ _ _).2 ⟨rfl, rfl, rfl⟩, z4,
    z5, z6, z7, z8, ?_, same⟩
  rw [same]; exact z9

/-- C22: components that are not on the cell edges are refused on every topology before anything is
sent. -/
theorem C22_not_on_edges [Neg α] (topo : Int → Except Err (List Boundary)) (junk : Nat → α)
    (st : Int → Qty α × Qty α) (r : Int) (bs : List Boundary) (hb : topo r = .ok bs)
    (h : Dim.i ∉ (st r).1.dims ∨ Dim.jInterface ∉ (st r).1.dims ∨ Dim.j ∉ (st r).2.dims ∨
      Dim.iInterface ∉ (st r).2.dims) :
    syncInterfaces topo junk st r = .error .valueError := by
  have e : onCGrid (st r) = false := by
    unfold onCGrid
    by_cases h1 : (¬ (Dim.i ∈ (st r).1.dims) ∨ ¬ (Dim.jInterface ∈ (st r).1.dims))
    · rw [if_pos h1]
    · rw [if_neg h1, if_pos]
      tauto
  unfold syncInterfaces edgeSends
  rw [hb]
  simp [bind, Except.bind, e]

/-! concrete cases: one rank per tile, 2 by 2 cells, two levels, one halo point -/

/-- x component with dims (i, j_interface, k), y component with dims (i_interface, j, k); all values
different -/
def edgeState (s : Int) : Qty Int × Qty Int :=
  (⟨[⟨.i, 1, 2, 4⟩, ⟨.jInterface, 1, 3, 5⟩, ⟨.k, 0, 2, 3⟩],
    ⟨[4, 5, 3], fun g => 1000 * (s + 1) + 100 * g.getD 0 0 + 10 * g.getD 1 0 + g.getD 2 0⟩⟩,
   ⟨[⟨.iInterface, 1, 3, 5⟩, ⟨.j, 1, 2, 4⟩, ⟨.k, 0, 2, 3⟩],
    ⟨[5, 4, 3], fun g => 10000 * (s + 1) + 100 * g.getD 0 0 + 10 * g.getD 1 0 + g.getD 2 0⟩⟩)

/-- the hypotheses of C22 are met -/
theorem edgeState_ok (s : Int) : EdgeWind 2 2 [2] (edgeState s) where
  x := by
    refine ⟨⟨⟨.jInterface, 1, 3, 5⟩, ⟨.i, 1, 2, 4⟩, [⟨.k, 0, 2, 3⟩], .inr rfl, rfl, rfl, rfl, rfl, rfl,
      by decide⟩, ?_⟩
    show ∀ d ∈ [(⟨.i, 1, 2, 4⟩ : DimSpec), ⟨.jInterface, 1, 3, 5⟩, ⟨.k, 0, 2, 3⟩], _
    decide
  y := by
    refine ⟨⟨⟨.iInterface, 1, 3, 5⟩, ⟨.j, 1, 2, 4⟩, [⟨.k, 0, 2, 3⟩], .inl rfl, rfl, rfl, rfl, rfl, rfl,
      by decide⟩, ?_⟩
    show ∀ d ∈ [(⟨.iInterface, 1, 3, 5⟩ : DimSpec), ⟨.j, 1, 2, 4⟩, ⟨.k, 0, 2, 3⟩], _
    decide

example : ∃ after : Int → Qty Int × Qty Int,
    ∀ r t j i, 0 ≤ r → r < (squareCube 1).totalRanks → (squareCube 1).At r t j i →
      cubeSync 1 (fun _ => 0) edgeState r = .ok (after r) := by
  have A : Axis 1 2 (fun i => 2 * i) := ⟨rfl, by intro i _ _; omega, by intro i _ _; omega⟩
  obtain ⟨after, h⟩ := C22_cube_shared_edges 1 2 (by omega) (fun i => 2 * i) A (by intro i _ _; omega)
    [2] (fun _ => 0) edgeState (by
      intro s t j i _ _ _
      have := edgeState_ok s
      rwa [show 2 * (i + 1) - 2 * i = 2 by omega, show 2 * (j + 1) - 2 * j = 2 by omega])
  exact ⟨after, fun r t j i h0 h1 hp => (h r t j i h0 h1 hp).1⟩

/-- over the north edge of tile 0 the x component is the negated y component of tile 2, reversed -/
example : (cubeSync 1 (fun _ => 0) edgeState 0).map (fun v => (v.1.data.get [1, 3, 0],
    v.1.data.get [2, 3, 1], v.1.data.get [1, 2, 0], v.2.data.get [3, 1, 1])) =
    .ok (-(30000 + 100 + 20), -(30000 + 100 + 10 + 1), 1000 + 100 + 20, 20000 + 100 + 10 + 1) := by
  decide +kernel

/-- the same with the vertical dimension first -/
def edgeStateK (s : Int) : Qty Int × Qty Int :=
  (⟨[⟨.k, 0, 2, 2⟩, ⟨.i, 1, 2, 4⟩, ⟨.jInterface, 1, 3, 5⟩],
    ⟨[2, 4, 5], fun g => 1000 * (s + 1) + 100 * g.getD 0 0 + 10 * g.getD 1 0 + g.getD 2 0⟩⟩,
   ⟨[⟨.k, 0, 2, 2⟩, ⟨.iInterface, 1, 3, 5⟩, ⟨.j, 1, 2, 4⟩],
    ⟨[2, 5, 4], fun g => 10000 * (s + 1) + 100 * g.getD 0 0 + 10 * g.getD 1 0 + g.getD 2 0⟩⟩)

/-- C22 fails if the vertical dimension comes first: the call returns on both ranks, the first point of
the north edge of tile 0 and the last point of the west edge of tile 2 are one point of the cube on one
level, their components have opposite directions, but the values are not opposite (the code reverses the
first dimension of the edge, which is the vertical one). -/
theorem C22_leading_vertical_violated :
    onCube 2 0 (coordI 2 0 (edgeStateK 0).1.ds [0, 1, 3]) (coordJ 2 0 (edgeStateK 0).1.ds [0, 1, 3]) =
      onCube 2 2 (coordI 2 0 (edgeStateK 2).2.ds [0, 1, 2]) (coordJ 2 0 (edgeStateK 2).2.ds [0, 1, 2]) ∧
    levels (edgeStateK 0).1.ds [0, 1, 3] = levels (edgeStateK 2).2.ds [0, 1, 2] ∧
    (frame 0).ex = (frame 2).ey.neg ∧
    (cubeSync 1 (fun _ => 0) edgeStateK 0).map (fun v => v.1.data.get [0, 1, 3]) =
      .ok (-(30000 + 100 + 10 + 1)) ∧
    (cubeSync 1 (fun _ => 0) edgeStateK 2).map (fun v => v.2.data.get [0, 1, 2]) =
      .ok (30000 + 10 + 2) := by
  decide +kernel

end NDSL
