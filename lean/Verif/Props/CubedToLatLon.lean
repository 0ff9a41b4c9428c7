import Verif.Model.CubedToLatLon
import Verif.Spec.CubedToLatLon
import Verif.Props.GridArea
import Verif.Props.GnomonicEdges

/-! Property C80: winds on the cubed sphere are converted to their east and north components. -/
namespace NDSL.Sphere
open Real

/-- The volume spanned by three vectors. -/
def triple (p q r : V3) : ℝ := dot p (cross q r)

theorem normalize_unit' (p : V3) (h : dot p p ≠ 0) : normalize p = some (unit p) ∧ 0 < len p :=
  normalize_some p h

theorem triple_ne {p q r : V3} (h : triple p q r ≠ 0) : dot p p ≠ 0 ∧ dot q q ≠ 0 ∧ dot r r ≠ 0 := by
  refine ⟨?_, ?_, ?_⟩ <;> intro h0 <;> apply h <;> rw [dot_self_eq_zero _ h0] <;>
    simp [triple, dot, cross]

/-- Vectors at right angles to three independent ones. -/
theorem indep (p q r x : V3) (h : triple p q r ≠ 0) (h1 : dot x p = 0) (h2 : dot x q = 0) (h3 : dot x r = 0) :
    x = ⟨0, 0, 0⟩ := by
  have e1 : triple p q r * x.x = dot x p * (cross q r).x + dot x q * (cross r p).x + dot x r * (cross p q).x := by
    unfold triple dot cross; simp only; ring
  have e2 : triple p q r * x.y = dot x p * (cross q r).y + dot x q * (cross r p).y + dot x r * (cross p q).y := by
    unfold triple dot cross; simp only; ring
  have e3 : triple p q r * x.z = dot x p * (cross q r).z + dot x q * (cross r p).z + dot x r * (cross p q).z := by
    unfold triple dot cross; simp only; ring
  rw [h1, h2, h3] at e1 e2 e3
  ext
  · simpa [h] using e1
  · simpa [h] using e2
  · simpa [h] using e3

/-- The direction from the middle of a cell to the middle of a side, as `get_center_vector` computes it. -/
theorem direction_eq (P1 P2 : V3) (hc : dot (cross (add P1 P2) P2) (cross (add P1 P2) P2) ≠ 0) (h1 : dot P1 P1 ≠ 0)
    (h2 : dot P2 P2 ≠ 0) (h3 : dot (add P1 P2) (add P1 P2) ≠ 0) :
    normalize (cross (unit (add P1 P2)) (cross (unit P2) (unit P1))) =
      some (unit (tangent (unit (add P1 P2)) P2)) ∧
    0 < len (tangent (unit (add P1 P2)) P2) := by
  have l1 := (normalize_unit' P1 h1).2
  have l2 := (normalize_unit' P2 h2).2
  have l3 := (normalize_unit' _ h3).2
  have u3 : dot (unit (add P1 P2)) (unit (add P1 P2)) = 1 := (unit_dot _ (by
    intro h
    apply h3
    rw [h]
    simp [dot])).1
  set S := add P1 P2 with hS
  have hp1 : P1 = ⟨S.x - P2.x, S.y - P2.y, S.z - P2.z⟩ := by
    rw [hS]; unfold add; ext <;> simp
  have hS' : S = scale (len S) (unit S) := by
    unfold scale unit
    ext <;> simp only <;> field_simp
  have e : cross (unit S) (cross (unit P2) (unit P1)) = scale (len S / (len P1 * len P2)) (tangent (unit S) P2) := by
    rw [unit_as_scale P1, unit_as_scale P2, cross_scale]
    have : cross P2 P1 = scale (len S) (cross P2 (unit S)) := by
      conv_lhs => rw [hp1, hS']
      unfold cross scale
      ext <;> simp only <;> ring
    rw [this]
    generalize unit S = c at *
    unfold scale tangent cross
    unfold dot at u3 ⊢
    ext <;> simp only <;> field_simp
    · linear_combination (P2.x) * u3
    · linear_combination (P2.y) * u3
    · linear_combination (P2.z) * u3
  have ht : 0 < len (tangent (unit S) P2) := by
    apply sqrt_pos.mpr
    rw [tangent_dot _ _ _ u3]
    refine lt_of_le_of_ne (dot_self_nonneg _) (Ne.symm ?_)
    intro h0
    apply hc
    rw [hS']
    have := cross_scale (len S) 1 (unit S) P2
    have hs1 : scale 1 P2 = P2 := by unfold scale; ext <;> simp
    rw [hs1] at this
    rw [this, dot_scale, h0, mul_zero]
  have hk : 0 < len S / (len P1 * len P2) := by positivity
  refine ⟨?_, ht⟩
  rw [e, ← unit_scale _ hk (tangent (unit S) P2)]
  refine (normalize_unit' _ ?_).1
  rw [dot_scale]
  have : dot (tangent (unit S) P2) (tangent (unit S) P2) ≠ 0 := by
    rw [← len_sq]
    positivity
  exact mul_ne_zero (by positivity) this

theorem dot_unit_self (p : V3) (h : dot p p ≠ 0) : dot (unit p) (unit p) = 1 :=
  (unit_dot p (by rintro rfl; exact h (by simp [dot]))).1

theorem unit_perp (c p : V3) (h : dot c p = 0) : dot c (unit p) = 0 := by
  have : dot c (unit p) = dot c p / len p := by
    unfold dot unit
    simp only
    ring
  rw [this, h, zero_div]

theorem tangent_perp (c p : V3) (hc : dot c c = 1) : dot c (tangent c p) = 0 := by
  have : dot c (tangent c p) = dot c p - dot c p * dot c c := by
    unfold tangent
    generalize hd : dot c p = d
    unfold dot at hd ⊢
    simp only
    linear_combination hd
  rw [this, hc]
  ring

theorem perp_sin (c p q : V3) (hc : dot c c = 1) (hp : dot c p = 0) (hq : dot c q = 0) (hp1 : dot p p = 1)
    (hq1 : dot q q = 1) : 1 - dot p q ^ 2 = triple c p q ^ 2 := by
  have h1 := lagrange c (cross p q) (cross p q)
  have h2 := lagrange p q q
  have h3 : cross c (cross p q) = ⟨0, 0, 0⟩ := by
    have : cross c (cross p q) = ⟨p.x * dot c q - q.x * dot c p, p.y * dot c q - q.y * dot c p,
        p.z * dot c q - q.z * dot c p⟩ := by
      unfold cross dot
      ext <;> simp only <;> ring
    rw [this, hp, hq]
    ext <;> simp
  rw [h3, hc, h2, hp1, hq1] at h1
  have h0 : dot (⟨0, 0, 0⟩ : V3) ⟨0, 0, 0⟩ = 0 := by simp [dot]
  rw [h0] at h1
  unfold triple
  linear_combination -h1

theorem sinSg5_eq (c p q : V3) (hc : dot c c = 1) (hp : dot c p = 0) (hq : dot c q = 0) (hp1 : dot p p = 1)
    (hq1 : dot q q = 1) (ht : 0 < triple c p q) (hfar : dot p q ≤ 1 - 1 / 10 ^ 15) :
    sinSg5 p q = triple c p q := by
  have hs := perp_sin c p q hc hp hq hp1 hq1
  have hcl : snapOne (dot p q) = dot p q := by
    unfold snapOne
    rw [if_neg]
    rw [abs_of_nonneg (by linarith [show (0 : ℝ) < 1 / 10 ^ 15 by norm_num])]
    linarith
  have hnn : notBelow0 (triple c p q ^ 2) = triple c p q ^ 2 := if_neg (not_lt.mpr (sq_nonneg _))
  unfold sinSg5 sineOf
  rw [sumMul_eq, hcl, hs, hnn, sqrt_sq (le_of_lt ht)]
  unfold notAbove1
  rw [if_neg]
  nlinarith [sq_nonneg (dot p q)]

/-- The four corners of a cell on the unit sphere, counter-clockwise seen from outside, every three of
them. -/
structure Cell (sw se nw ne : V3) : Prop where
  sw1 : dot sw sw = 1
  se1 : dot se se = 1
  nw1 : dot nw nw = 1
  ne1 : dot ne ne = 1
  t1 : 0 < triple sw se nw
  t2 : 0 < triple sw se ne
  t3 : 0 < triple sw ne nw
  t4 : 0 < triple se ne nw

theorem triple_tangent (c p q : V3) : triple c (tangent c p) (tangent c q) = triple c p q := by
  unfold tangent
  generalize dot c p = d
  generalize dot c q = e
  unfold triple dot cross
  simp only
  ring

theorem triple_scale (a b c : ℝ) (p q r : V3) : triple (scale a p) (scale b q) (scale c r) = a * b * c * triple p q r := by
  unfold triple dot cross scale
  simp only
  ring

theorem cell_center {sw se nw ne : V3} (h : Cell sw se nw ne) :
    let c := unit (mid4 sw se nw ne)
    let e := eastward sw se nw ne
    let n := northward sw se nw ne
    centerVectors sw se nw ne = some (e, n) ∧ centre sw se nw ne = some c ∧ centre ne sw se nw = some c ∧
    dot c c = 1 ∧ dot c e = 0 ∧ dot c n = 0 ∧ dot e e = 1 ∧ dot n n = 1 ∧ 0 < triple c e n ∧
    triple c e n * (len (mid4 sw se nw ne) * len (tangent c (add se ne)) * len (tangent c (add nw ne))) =
      triple sw se nw + triple sw se ne + triple sw ne nw + triple se ne nw := by
  intro c e n
  have hS1 : mid4 sw se nw ne = add (add sw nw) (add se ne) := rfl
  have hS2 : mid4 sw se nw ne = add (add sw se) (add nw ne) := by
    unfold mid4 add
    ext <;> simp only <;> ring
  have hD : triple (mid4 sw se nw ne) (add se ne) (add nw ne) =
      triple sw se nw + triple sw se ne + triple sw ne nw + triple se ne nw := by
    unfold mid4 add triple dot cross
    simp only
    ring
  have hD' : triple (mid4 sw se nw ne) (add sw nw) (add sw se) =
      triple sw se nw + triple sw se ne + triple sw ne nw + triple se ne nw := by
    unfold mid4 add triple dot cross
    simp only
    ring
  have hpos : 0 < triple sw se nw + triple sw se ne + triple sw ne nw + triple se ne nw := by
    linarith [h.t1, h.t2, h.t3, h.t4]
  obtain ⟨n0, n2, m2⟩ := triple_ne (show triple (mid4 sw se nw ne) (add se ne) (add nw ne) ≠ 0 by rw [hD]; exact ne_of_gt hpos)
  obtain ⟨_, n1, m1⟩ := triple_ne (show triple (mid4 sw se nw ne) (add sw nw) (add sw se) ≠ 0 by rw [hD']; exact ne_of_gt hpos)
  have cr : ∀ p q r : V3, triple p q r ≠ 0 → dot (cross p q) (cross p q) ≠ 0 ∧ dot (cross p r) (cross p r) ≠ 0 := by
    intro p q r ht
    have e1 : triple p q r = dot (cross p q) r := by unfold triple dot cross; simp only; ring
    have e2 : triple p q r = -dot (cross p r) q := by unfold triple dot cross; simp only; ring
    constructor
    · intro h0
      apply ht
      rw [e1, dot_self_eq_zero _ h0]
      simp [dot]
    · intro h0
      apply ht
      rw [e2, dot_self_eq_zero _ h0]
      simp [dot]
  obtain ⟨c1, c2⟩ := cr _ _ _ (show triple (mid4 sw se nw ne) (add se ne) (add nw ne) ≠ 0 by rw [hD]; exact ne_of_gt hpos)
  have d1 := direction_eq (add sw nw) (add se ne) (by rw [← hS1]; exact c1) n1 n2 (by rw [← hS1]; exact n0)
  have d2 := direction_eq (add sw se) (add nw ne) (by rw [← hS2]; exact c2) m1 m2 (by rw [← hS2]; exact n0)
  rw [← hS1] at d1
  rw [← hS2] at d2
  have hc1 : centre sw se nw ne = some c := by
    have : centre sw se nw ne = normalize (mid4 sw se nw ne) := by
      unfold centre mid4 add
      congr 1
      ext <;> simp only <;> ring
    rw [this, (normalize_unit' _ n0).1]
  have hc2 : centre ne sw se nw = some c := by
    have : centre ne sw se nw = normalize (mid4 sw se nw ne) := by
      unfold centre mid4 add
      congr 1
      ext <;> simp only <;> ring
    rw [this, (normalize_unit' _ n0).1]
  have hcc : dot c c = 1 := dot_unit_self _ n0
  have l1 := d1.2
  have l2 := d2.2
  have l0 := (normalize_unit' _ n0).2
  have ht : triple c e n * (len (mid4 sw se nw ne) * len (tangent c (add se ne)) * len (tangent c (add nw ne))) =
      triple sw se nw + triple sw se ne + triple sw ne nw + triple se ne nw := by
    have e1 : triple c e n = 1 * (1 / len (tangent c (add se ne))) * (1 / len (tangent c (add nw ne))) *
        triple c (tangent c (add se ne)) (tangent c (add nw ne)) := by
      rw [← triple_scale, ← unit_as_scale, ← unit_as_scale]
      have : scale 1 c = c := by unfold scale; ext <;> simp
      rw [this]
      rfl
    rw [triple_tangent] at e1
    have e2 : triple c (add se ne) (add nw ne) = 1 / len (mid4 sw se nw ne) * 1 * 1 *
        triple (mid4 sw se nw ne) (add se ne) (add nw ne) := by
      rw [← triple_scale, ← unit_as_scale]
      have : ∀ p : V3, scale 1 p = p := by intro p; unfold scale; ext <;> simp
      rw [this, this]
    rw [e1, e2, hD]
    have k1 : len (tangent c (add se ne)) ≠ 0 := ne_of_gt l1
    have k2 : len (tangent c (add nw ne)) ≠ 0 := ne_of_gt l2
    have k0 : len (mid4 sw se nw ne) ≠ 0 := ne_of_gt l0
    generalize len (tangent c (add se ne)) = x1 at *
    generalize len (tangent c (add nw ne)) = x2 at *
    generalize len (mid4 sw se nw ne) = x0 at *
    field_simp
  refine ⟨?_, hc1, hc2, hcc, unit_perp _ _ (tangent_perp _ _ hcc), unit_perp _ _ (tangent_perp _ _ hcc), ?_, ?_, ?_, ht⟩
  · unfold centerVectors
    rw [hc1]
    have q1 : midpoint sw nw = some (unit (add sw nw)) := (normalize_unit' _ n1).1
    have q2 : midpoint se ne = some (unit (add se ne)) := (normalize_unit' _ n2).1
    have q3 : midpoint sw se = some (unit (add sw se)) := (normalize_unit' _ m1).1
    have q4 : midpoint nw ne = some (unit (add nw ne)) := (normalize_unit' _ m2).1
    rw [q1, q2, q3, q4]
    simp only [Option.bind_eq_bind, Option.bind_some]
    rw [d1.1, d2.1]
    rfl
  · exact dot_unit_self _ (by rw [← len_sq]; positivity)
  · exact dot_unit_self _ (by rw [← len_sq]; positivity)
  · by_contra hle
    have : triple c e n * (len (mid4 sw se nw ne) * len (tangent c (add se ne)) * len (tangent c (add nw ne))) ≤ 0 :=
      mul_nonpos_of_nonpos_of_nonneg (not_lt.mp hle) (by positivity)
    linarith

/-- The coefficients turn the components along the two directions of the cell into those along two
directions at right angles. -/
theorem gridA_spec (c p q vlon vlat : V3) (hc : dot c c = 1) (hp : dot c p = 0) (hq : dot c q = 0) (hp1 : dot p p = 1)
    (hq1 : dot q q = 1) (ht : 0 < triple c p q) (hfar : dot p q ≤ 1 - 1 / 10 ^ 15) (h1 : dot vlon vlon = 1)
    (h2 : dot vlon c = 0) (h3 : cross c vlon = vlat) :
    ∃ A, gridA p q vlon vlat = some A ∧ ∀ U V : ℝ, ∃ W : V3,
      dot W c = 0 ∧ dot W p = U ∧ dot W q = V ∧
      (∀ W', dot W' c = 0 → dot W' p = U → dot W' q = V → W' = W) ∧
      A.a11 * (2 * U) + A.a12 * (2 * V) = dot W vlon ∧ A.a21 * (2 * U) + A.a22 * (2 * V) = dot W vlat := by
  have hs := sinSg5_eq c p q hc hp hq hp1 hq1 ht hfar
  have hv2 : dot vlat vlat = 1 := by
    rw [← h3, lagrange, hc, h1]
    have : dot c vlon = 0 := by rw [dot_comm]; exact h2
    rw [this]; ring
  have hv12 : dot vlon vlat = 0 := by
    rw [← h3]
    unfold dot cross
    simp only
    ring
  have hv2c : dot vlat c = 0 := by
    rw [← h3]
    unfold dot cross
    simp only
    ring
  have hdet : dot p vlon * dot q vlat - dot p vlat * dot q vlon = triple c p q := by
    have e1 : dot p vlon * dot q vlat - dot p vlat * dot q vlon = dot (cross p q) (cross vlon vlat) := by
      unfold dot cross
      simp only
      ring
    have e2 : cross vlon vlat = c := by
      rw [← h3]
      have : cross vlon (cross c vlon) = ⟨c.x * dot vlon vlon - vlon.x * dot vlon c,
          c.y * dot vlon vlon - vlon.y * dot vlon c, c.z * dot vlon vlon - vlon.z * dot vlon c⟩ := by
        unfold cross dot
        ext <;> simp only <;> ring
      rw [this, h1, h2]
      ext <;> simp
    rw [e1, e2, dot_comm]
    rfl
  unfold gridA
  simp only [sumMul_eq]
  rw [hs, if_neg (ne_of_gt ht)]
  refine ⟨_, rfl, ?_⟩
  intro U V
  set s := triple c p q with hsdef
  have hs0 : s ≠ 0 := ne_of_gt ht
  let ua := (dot q vlat * U - dot p vlat * V) / s
  let va := (-dot q vlon * U + dot p vlon * V) / s
  let W : V3 := ⟨ua * vlon.x + va * vlat.x, ua * vlon.y + va * vlat.y, ua * vlon.z + va * vlat.z⟩
  have hW : ∀ x, dot W x = ua * dot vlon x + va * dot vlat x := by
    intro x
    unfold dot
    simp only [W]
    ring
  have w1 : dot W c = 0 := by rw [hW, h2, hv2c]; ring
  have w2 : dot W p = U := by
    rw [hW, dot_comm vlon p, dot_comm vlat p]
    simp only [ua, va]
    field_simp
    rw [← hdet]
    ring
  have w3 : dot W q = V := by
    rw [hW, dot_comm vlon q, dot_comm vlat q]
    simp only [ua, va]
    field_simp
    rw [← hdet]
    ring
  refine ⟨W, w1, w2, w3, ?_, ?_, ?_⟩
  · intro W' a1 a2 a3
    have hd : ∀ x, dot (⟨W'.x - W.x, W'.y - W.y, W'.z - W.z⟩ : V3) x = dot W' x - dot W x := by
      intro x
      unfold dot
      simp only
      ring
    have := indep c p q ⟨W'.x - W.x, W'.y - W.y, W'.z - W.z⟩ hs0 (by rw [hd, a1, w1]; ring)
      (by rw [hd, a2, w2]; ring) (by rw [hd, a3, w3]; ring)
    have b1 := congrArg V3.x this
    have b2 := congrArg V3.y this
    have b3 := congrArg V3.z this
    simp only at b1 b2 b3
    ext <;> linarith
  · rw [hW, h1, dot_comm vlat vlon, hv12]
    simp only [ua]
    field_simp
    ring
  · rw [hW, hv12, hv2]
    simp only [va]
    field_simp
    ring

/-! ### The cells of the cubed sphere -/

def sub (p q : V3) : V3 := ⟨p.x - q.x, p.y - q.y, p.z - q.z⟩

/-- A map of space that keeps lengths, angles and orientation. -/
structure Turn (f : V3 → V3) : Prop where
  rigid : Rigid f
  cross : ∀ a b, f (cross a b) = cross (f a) (f b)

theorem Turn.triple {f : V3 → V3} (h : Turn f) (p q r : V3) : triple (f p) (f q) (f r) = triple p q r := by
  unfold Sphere.triple
  rw [← h.cross, h.rigid]

theorem unit_lipschitz (A B : V3) (hA : 1 / 3 ≤ dot A A) (hB : 1 / 3 ≤ dot B B) :
    dot (sub (unit B) (unit A)) (sub (unit B) (unit A)) ≤ 3 * dot (sub B A) (sub B A) := by
  have ha : dot A A ≠ 0 := by intro h; rw [h] at hA; norm_num at hA
  have hb : dot B B ≠ 0 := by intro h; rw [h] at hB; norm_num at hB
  have e : ∀ p q : V3, dot (sub p q) (sub p q) = dot p p + dot q q - 2 * dot p q := by
    intro p q; unfold dot sub; simp only; ring
  rw [e, e, dot_unit_self A ha, dot_unit_self B hb, unit_as_scale, unit_as_scale, dot_scale]
  have la := (normalize_unit' A ha).2
  have lb := (normalize_unit' B hb).2
  have qa := len_sq A
  have qb := len_sq B
  rw [← qa, ← qb]
  rw [← qa] at hA
  rw [← qb] at hB
  have hcs : 0 ≤ dot (sub B A) (sub B A) := dot_self_nonneg _
  rw [e, ← qa, ← qb] at hcs
  generalize dot B A = d at *
  generalize len A = x at *
  generalize len B = y at *
  have hxy : 1 / 3 ≤ y * x := by nlinarith [sq_nonneg (x - y), mul_pos la lb, sq_nonneg (y * x - 1 / 3)]
  have hk : 0 < y * x := by positivity
  have : 1 + 1 - 2 * (1 / y * (1 / x) * d) = (2 * (y * x) - 2 * d) / (y * x) := by
    field_simp
    ring
  rw [this, div_le_iff₀ hk]
  nlinarith [sq_nonneg (x - y)]

/-- What is needed of a cell of a face, before projection to the sphere. -/
structure Flat (A B D E : V3) (dx dy : ℝ) : Prop where
  hx : 0 < dx
  hy : 0 < dy
  a : 1 / 3 ≤ dot A A ∧ dot A A ≤ 1
  b : 1 / 3 ≤ dot B B ∧ dot B B ≤ 1
  d : 1 / 3 ≤ dot D D ∧ dot D D ≤ 1
  e : 1 / 3 ≤ dot E E ∧ dot E E ≤ 1
  t1 : triple A B D = rt * dx * dy
  t2 : triple A B E = rt * dx * dy
  t3 : triple A E D = rt * dx * dy
  t4 : triple B E D = rt * dx * dy
  ab : dot (sub B A) (sub B A) = dx ^ 2
  de : dot (sub E D) (sub E D) = dx ^ 2
  ad : dot (sub D A) (sub D A) = dy ^ 2
  be : dot (sub E B) (sub E B) = dy ^ 2

theorem tangent_half (c P1 P2 : V3) (k : ℝ) (hc : dot c c = 1) (hS : add P1 P2 = scale k c) :
    4 * dot (tangent c P2) (tangent c P2) ≤ dot (sub P2 P1) (sub P2 P1) := by
  rw [tangent_dot _ _ _ hc, lagrange, hc]
  have hp : P1 = ⟨k * c.x - P2.x, k * c.y - P2.y, k * c.z - P2.z⟩ := by
    have h1 := congrArg V3.x hS
    have h2 := congrArg V3.y hS
    have h3 := congrArg V3.z hS
    unfold add scale at h1 h2 h3
    simp only at h1 h2 h3
    ext <;> simp only <;> linarith
  have e : dot (sub P2 P1) (sub P2 P1) = 4 * dot P2 P2 - 4 * k * dot c P2 + k ^ 2 * dot c c := by
    rw [hp]
    unfold sub dot
    simp only
    ring
  rw [e, hc]
  nlinarith [sq_nonneg (2 * dot c P2 - k)]

theorem sum_bound (p q : V3) : dot (add p q) (add p q) ≤ 2 * (dot p p + dot q q) := by
  have : dot (add p q) (add p q) + dot (sub p q) (sub p q) = 2 * (dot p p + dot q q) := by
    unfold add sub dot
    simp only
    ring
  linarith [dot_self_nonneg (sub p q)]

theorem flat_cell {A B D E : V3} {dx dy : ℝ} (h : Flat A B D E dx dy) (f : V3 → V3) (hf : Turn f) :
    Cell (f (unit A)) (f (unit B)) (f (unit D)) (f (unit E)) ∧
    dot (eastward (f (unit A)) (f (unit B)) (f (unit D)) (f (unit E)))
      (northward (f (unit A)) (f (unit B)) (f (unit D)) (f (unit E))) ≤ 1 - 1 / 10 ^ 15 := by
  have nz : ∀ {p : V3}, 1 / 3 ≤ dot p p ∧ dot p p ≤ 1 → dot p p ≠ 0 := by
    intro p hp h0
    rw [h0] at hp
    norm_num at hp
  have ln : ∀ {p : V3}, 1 / 3 ≤ dot p p ∧ dot p p ≤ 1 → 1 ≤ 1 / len p := by
    intro p hp
    have l := (normalize_unit' p (nz hp)).2
    rw [le_div_iff₀ l]
    have := len_sq p
    nlinarith [hp.2]
  have hr := rt_pos
  have hτ : 0 < rt * dx * dy := mul_pos (mul_pos hr h.hx) h.hy
  have tr : ∀ {p q r : V3}, 1 / 3 ≤ dot p p ∧ dot p p ≤ 1 → 1 / 3 ≤ dot q q ∧ dot q q ≤ 1 →
      1 / 3 ≤ dot r r ∧ dot r r ≤ 1 → triple p q r = rt * dx * dy →
      rt * dx * dy ≤ triple (f (unit p)) (f (unit q)) (f (unit r)) := by
    intro p q r hp hq hr ht
    rw [hf.triple, unit_as_scale p, unit_as_scale q, unit_as_scale r, triple_scale, ht]
    have h1 := ln hp
    have h2 := ln hq
    have h3 := ln hr
    have h4 : 1 ≤ 1 / len p * (1 / len q) := one_le_mul_of_one_le_of_one_le h1 h2
    have h5 : 1 ≤ 1 / len p * (1 / len q) * (1 / len r) := one_le_mul_of_one_le_of_one_le h4 h3
    nlinarith
  have r1 := tr h.a h.b h.d h.t1
  have r2 := tr h.a h.b h.e h.t2
  have r3 := tr h.a h.e h.d h.t3
  have r4 := tr h.b h.e h.d h.t4
  have hcell : Cell (f (unit A)) (f (unit B)) (f (unit D)) (f (unit E)) :=
    ⟨by rw [hf.rigid]; exact dot_unit_self _ (nz h.a), by rw [hf.rigid]; exact dot_unit_self _ (nz h.b),
      by rw [hf.rigid]; exact dot_unit_self _ (nz h.d), by rw [hf.rigid]; exact dot_unit_self _ (nz h.e),
      lt_of_lt_of_le hτ r1, lt_of_lt_of_le hτ r2, lt_of_lt_of_le hτ r3, lt_of_lt_of_le hτ r4⟩
  refine ⟨hcell, ?_⟩
  have dd : ∀ p q : V3, dot (sub (f p) (f q)) (sub (f p) (f q)) = dot (sub p q) (sub p q) := by
    intro p q
    have e : ∀ p q : V3, dot (sub p q) (sub p q) = dot p p + dot q q - 2 * dot p q := by
      intro p q; unfold dot sub; simp only; ring
    rw [e, e, hf.rigid, hf.rigid, hf.rigid]
  have lab := unit_lipschitz A B h.a.1 h.b.1
  have lde := unit_lipschitz D E h.d.1 h.e.1
  have lad := unit_lipschitz A D h.a.1 h.d.1
  have lbe := unit_lipschitz B E h.b.1 h.e.1
  rw [← dd, h.ab] at lab
  rw [← dd, h.de] at lde
  rw [← dd, h.ad] at lad
  rw [← dd, h.be] at lbe
  obtain ⟨_, _, _, hcc, hce, hcn, hee, hnn, hpos, heq⟩ := cell_center hcell
  have hs := perp_sin _ _ _ hcc hce hcn hee hnn
  have hS1 := sum_bound (add (f (unit A)) (f (unit D))) (add (f (unit B)) (f (unit E)))
  have hS2 := sum_bound (f (unit A)) (f (unit D))
  have hS3 := sum_bound (f (unit B)) (f (unit E))
  have a1 := hcell.sw1
  have b1 := hcell.se1
  have d1 := hcell.nw1
  have e1 := hcell.ne1
  have hSS : len (mid4 (f (unit A)) (f (unit B)) (f (unit D)) (f (unit E))) ^ 2 ≤ 16 := by
    rw [len_sq]
    have : mid4 (f (unit A)) (f (unit B)) (f (unit D)) (f (unit E)) =
      add (add (f (unit A)) (f (unit D))) (add (f (unit B)) (f (unit E))) := rfl
    rw [this]
    linarith
  have hlS : len (mid4 (f (unit A)) (f (unit B)) (f (unit D)) (f (unit E))) ≠ 0 := by
    intro h0
    rw [h0, zero_mul, zero_mul, mul_zero] at heq
    linarith
  have hsc : mid4 (f (unit A)) (f (unit B)) (f (unit D)) (f (unit E)) =
      scale (len (mid4 (f (unit A)) (f (unit B)) (f (unit D)) (f (unit E))))
        (unit (mid4 (f (unit A)) (f (unit B)) (f (unit D)) (f (unit E)))) := by
    generalize mid4 (f (unit A)) (f (unit B)) (f (unit D)) (f (unit E)) = S at *
    unfold scale unit
    ext <;> simp only <;> field_simp
  have g1 := tangent_half _ (add (f (unit A)) (f (unit D))) (add (f (unit B)) (f (unit E))) _ hcc hsc
  have hS' : mid4 (f (unit A)) (f (unit B)) (f (unit D)) (f (unit E)) =
      add (add (f (unit A)) (f (unit B))) (add (f (unit D)) (f (unit E))) := by
    unfold mid4 add
    ext <;> simp only <;> ring
  have g2 := tangent_half _ (add (f (unit A)) (f (unit B))) (add (f (unit D)) (f (unit E))) _ hcc (hS'.symm.trans hsc)
  have k1 : dot (sub (add (f (unit B)) (f (unit E))) (add (f (unit A)) (f (unit D))))
      (sub (add (f (unit B)) (f (unit E))) (add (f (unit A)) (f (unit D)))) ≤ 12 * dx ^ 2 := by
    have : sub (add (f (unit B)) (f (unit E))) (add (f (unit A)) (f (unit D))) =
        add (sub (f (unit B)) (f (unit A))) (sub (f (unit E)) (f (unit D))) := by
      unfold add sub
      ext <;> simp only <;> ring
    rw [this]
    linarith [sum_bound (sub (f (unit B)) (f (unit A))) (sub (f (unit E)) (f (unit D)))]
  have k2 : dot (sub (add (f (unit D)) (f (unit E))) (add (f (unit A)) (f (unit B))))
      (sub (add (f (unit D)) (f (unit E))) (add (f (unit A)) (f (unit B)))) ≤ 12 * dy ^ 2 := by
    have : sub (add (f (unit D)) (f (unit E))) (add (f (unit A)) (f (unit B))) =
        add (sub (f (unit D)) (f (unit A))) (sub (f (unit E)) (f (unit B))) := by
      unfold add sub
      ext <;> simp only <;> ring
    rw [this]
    linarith [sum_bound (sub (f (unit D)) (f (unit A))) (sub (f (unit E)) (f (unit B)))]
  rw [← len_sq] at g1 g2
  have m1 : len (tangent (unit (mid4 (f (unit A)) (f (unit B)) (f (unit D)) (f (unit E)))) (add (f (unit B)) (f (unit E)))) ^ 2
      ≤ 3 * dx ^ 2 := by linarith
  have m2 : len (tangent (unit (mid4 (f (unit A)) (f (unit B)) (f (unit D)) (f (unit E)))) (add (f (unit D)) (f (unit E)))) ^ 2
      ≤ 3 * dy ^ 2 := by linarith
  have hsum : 4 * (rt * dx * dy) ≤ triple (unit (mid4 (f (unit A)) (f (unit B)) (f (unit D)) (f (unit E))))
      (eastward (f (unit A)) (f (unit B)) (f (unit D)) (f (unit E)))
      (northward (f (unit A)) (f (unit B)) (f (unit D)) (f (unit E))) *
      (len (mid4 (f (unit A)) (f (unit B)) (f (unit D)) (f (unit E))) *
      len (tangent (unit (mid4 (f (unit A)) (f (unit B)) (f (unit D)) (f (unit E)))) (add (f (unit B)) (f (unit E)))) *
      len (tangent (unit (mid4 (f (unit A)) (f (unit B)) (f (unit D)) (f (unit E)))) (add (f (unit D)) (f (unit E))))) := by
    rw [heq]
    linarith
  generalize triple (unit (mid4 (f (unit A)) (f (unit B)) (f (unit D)) (f (unit E))))
      (eastward (f (unit A)) (f (unit B)) (f (unit D)) (f (unit E)))
      (northward (f (unit A)) (f (unit B)) (f (unit D)) (f (unit E))) = σ at *
  generalize len (mid4 (f (unit A)) (f (unit B)) (f (unit D)) (f (unit E))) = X at *
  generalize len (tangent (unit (mid4 (f (unit A)) (f (unit B)) (f (unit D)) (f (unit E)))) (add (f (unit B)) (f (unit E)))) = Y at *
  generalize len (tangent (unit (mid4 (f (unit A)) (f (unit B)) (f (unit D)) (f (unit E)))) (add (f (unit D)) (f (unit E)))) = Z at *
  generalize dot (eastward (f (unit A)) (f (unit B)) (f (unit D)) (f (unit E)))
      (northward (f (unit A)) (f (unit B)) (f (unit D)) (f (unit E))) = c at *
  have hsq : (4 * (rt * dx * dy)) ^ 2 ≤ (σ * (X * Y * Z)) ^ 2 := pow_le_pow_left₀ (by positivity) hsum 2
  have hrs := rt_sq
  have e2 : (4 * (rt * dx * dy)) ^ 2 = 16 / 3 * (dx ^ 2 * dy ^ 2) := by
    rw [show (4 * (rt * dx * dy)) ^ 2 = 16 * rt ^ 2 * (dx ^ 2 * dy ^ 2) by ring, hrs]
    ring
  have e3 : (σ * (X * Y * Z)) ^ 2 ≤ σ ^ 2 * (16 * (3 * dx ^ 2) * (3 * dy ^ 2)) := by
    rw [show (σ * (X * Y * Z)) ^ 2 = σ ^ 2 * (X ^ 2 * Y ^ 2 * Z ^ 2) by ring]
    apply mul_le_mul_of_nonneg_left _ (sq_nonneg σ)
    apply mul_le_mul _ m2 (sq_nonneg Z) (by positivity)
    exact mul_le_mul hSS m1 (sq_nonneg Y) (by norm_num)
  have hxy : 0 < dx ^ 2 * dy ^ 2 := mul_pos (pow_pos h.hx 2) (pow_pos h.hy 2)
  have hσ : 1 / 27 ≤ σ ^ 2 := by
    rw [e2] at hsq
    have : 16 / 3 * (dx ^ 2 * dy ^ 2) ≤ 144 * σ ^ 2 * (dx ^ 2 * dy ^ 2) := by linarith
    have := le_of_mul_le_mul_right this hxy
    linarith
  have : c ≤ 99 / 100 := by nlinarith
  linarith [show (1 / 10 ^ 15 : ℝ) ≤ 1 / 100 by norm_num]

theorem face_flat (t : Nat) (ht : t < 6) (x x' y y' : ℝ) (hx : x < x') (hy : y < y') (h1 : -rt ≤ x) (h2 : x' ≤ rt)
    (h3 : -rt ≤ y) (h4 : y' ≤ rt) :
    Flat (face t x y) (face t x' y) (face t x y') (face t x' y') (x' - x) (y' - y) := by
  have hr := rt_sq
  have hp := rt_pos
  have dt : ∀ a b a' b', dot (face t a b) (face t a' b') = 1 / 3 + a * a' + b * b' := by
    intro a b a' b'
    rw [← hr]
    match t, ht with
    | 0, _ => simp only [face, dot, ← rt_half]; ring
    | 1, _ => simp only [face, dot, ← rt_half]; ring
    | 2, _ => simp only [face, dot, ← rt_half]; ring
    | 3, _ => simp only [face, dot, ← rt_half]; ring
    | 4, _ => simp only [face, dot, ← rt_half]; ring
    | 5, _ => simp only [face, dot, ← rt_half]; ring
  have tt : ∀ a b a' b' a'' b'', triple (face t a b) (face t a' b') (face t a'' b'') =
      rt * ((a' - a) * (b'' - b) - (a'' - a) * (b' - b)) := by
    intro a b a' b' a'' b''
    match t, ht with
    | 0, _ => simp only [face, triple, cross, dot, ← rt_half]; ring
    | 1, _ => simp only [face, triple, cross, dot, ← rt_half]; ring
    | 2, _ => simp only [face, triple, cross, dot, ← rt_half]; ring
    | 3, _ => simp only [face, triple, cross, dot, ← rt_half]; ring
    | 4, _ => simp only [face, triple, cross, dot, ← rt_half]; ring
    | 5, _ => simp only [face, triple, cross, dot, ← rt_half]; ring
  have sd : ∀ p q : V3, dot (sub p q) (sub p q) = dot p p + dot q q - 2 * dot p q := by
    intro p q; unfold dot sub; simp only; ring
  have rng : ∀ a b, -rt ≤ a → a ≤ rt → -rt ≤ b → b ≤ rt → 1 / 3 ≤ dot (face t a b) (face t a b) ∧
      dot (face t a b) (face t a b) ≤ 1 := by
    intro a b c1 c2 c3 c4
    rw [dt]
    exact ⟨by nlinarith [mul_self_nonneg a, mul_self_nonneg b], by nlinarith⟩
  refine ⟨by linarith, by linarith, rng _ _ h1 (by linarith) h3 (by linarith), rng _ _ (by linarith) h2 h3 (by linarith),
    rng _ _ h1 (by linarith) (by linarith) h4, rng _ _ (by linarith) h2 (by linarith) h4, ?_, ?_, ?_, ?_, ?_, ?_, ?_, ?_⟩
  · rw [tt]; ring
  · rw [tt]; ring
  · rw [tt]; ring
  · rw [tt]; ring
  · rw [sd, dt, dt, dt]; ring
  · rw [sd, dt, dt, dt]; ring
  · rw [sd, dt, dt, dt]; ring
  · rw [sd, dt, dt, dt]; ring

/-! ### The middle of a cell -/

theorem turnWest_turn (a : ℝ) : Turn (turnWest a) := by
  refine ⟨turnWest_rigid a, ?_⟩
  intro p q
  have := sin_sq_add_cos_sq a
  unfold turnWest cross
  ext
  · simp only; ring
  · simp only; ring
  · simp only
    linear_combination -(p.x * q.y - p.y * q.x) * this

theorem turnWest_add (a : ℝ) (p q : V3) : turnWest a (add p q) = add (turnWest a p) (turnWest a q) := by
  unfold turnWest add
  ext <;> simp only <;> ring

theorem unit_of_unit (p : V3) (h : dot p p = 1) : unit p = p := by
  unfold unit len
  rw [h, sqrt_one]
  ext <;> simp

/-- Directions on the axis or far enough from it are converted to longitude and latitude exactly. -/
theorem convert_exact (p : V3) (hp : p ≠ ⟨0, 0, 0⟩) (hfar : (p.x = 0 ∧ p.y = 0) ∨ (len p / 10 ^ 10) ^ 2 ≤ p.x ^ 2 + p.y ^ 2) :
    ∃ lon lat, xyzToLonLat p = some (lon, lat) ∧ point lon lat = unit p := by
  obtain ⟨lon, lat, h1, _, _, _, _, _, hs, hx⟩ := C76_convert p hp
  refine ⟨lon, lat, h1, ?_⟩
  have hl := (unit_dot p hp).2
  rcases hfar with ⟨h2, h3⟩ | h
  · have hq := len_sq p
    have hz : (p.z / len p) ^ 2 = 1 := by
      rw [div_pow, hq]
      unfold dot
      rw [h2, h3]
      have : p.z ≠ 0 := by
        intro h0
        apply hp
        ext <;> assumption
      field_simp
      ring
    have hc : cos lat = 0 := by
      have := sin_sq_add_cos_sq lat
      rw [hs, hz] at this
      nlinarith
    unfold point unit
    rw [hc, hs, h2, h3]
    ext <;> simp
  · apply hx
    have h0 : 0 ≤ len p / 10 ^ 10 := by positivity
    have h1 : p.x ^ 2 + p.y ^ 2 ≤ (|p.x| + |p.y|) ^ 2 := by
      have := sq_abs p.x
      have := sq_abs p.y
      nlinarith [mul_nonneg (abs_nonneg p.x) (abs_nonneg p.y)]
    have h2 : 0 ≤ |p.x| + |p.y| := by positivity
    exact abs_le_of_sq_le_sq' (by linarith) h2 |>.2

/-- The sum of one coordinate over the corners of a cell is 0, by symmetry, or not small. -/
theorem sum_far (n : Nat) (hn : 0 < n) (k : Nat) (hk : k + 1 ≤ n) (L : ℝ → ℝ → ℝ) (y y' : ℝ)
    (hL : ∀ x z, 1 ≤ L x z) (hs : ∀ x z, L (-x) z = L x z) :
    T n k * L (T n k) y + T n (k + 1 : Nat) * L (T n (k + 1 : Nat)) y + T n k * L (T n k) y' +
      T n (k + 1 : Nat) * L (T n (k + 1 : Nat)) y' = 0 ∨
    2 / (3 * n) ≤ |T n k * L (T n k) y + T n (k + 1 : Nat) * L (T n (k + 1 : Nat)) y + T n k * L (T n k) y' +
      T n (k + 1 : Nat) * L (T n (k + 1 : Nat)) y'| := by
  have hn' : (0 : ℝ) < n := by exact_mod_cast hn
  have e2 : (2 : ℝ) / (3 * n) = 2 * (1 / (3 * n)) := by ring
  rcases Nat.lt_trichotomy (2 * k + 1) n with h | h | h
  · right
    have h1 := (T_sign n hn k (by omega)).1 (by omega)
    have h2 := (T_sign n hn (k + 1) (by omega)).1 (by omega)
    have h3 := T_far n hn k (by omega) (by omega)
    rw [abs_of_nonpos h1] at h3
    generalize T n k = a at *
    generalize T n (k + 1 : Nat) = b at *
    rw [abs_of_nonpos (by nlinarith [hL a y, hL b y, hL a y', hL b y']), e2]
    nlinarith [hL a y, hL b y, hL a y', hL b y']
  · left
    have h1 := T_neg n hn k (by omega)
    rw [show n - k = k + 1 by omega] at h1
    rw [h1, hs, hs]
    ring
  · right
    have h1 := (T_sign n hn k (by omega)).2 (by omega)
    have h2 := (T_sign n hn (k + 1) (by omega)).2 (by omega)
    have h3 := T_far n hn (k + 1) (by omega) (by omega)
    rw [abs_of_nonneg h2] at h3
    generalize T n k = a at *
    generalize T n (k + 1 : Nat) = b at *
    rw [abs_of_nonneg (by nlinarith [hL a y, hL b y, hL a y', hL b y']), e2]
    nlinarith [hL a y, hL b y, hL a y', hL b y']

noncomputable def shrink (x y : ℝ) : ℝ := 1 / len ⟨rt, x, y⟩

theorem face_dot (t : Nat) (ht : t < 6) (x y : ℝ) : dot (face t x y) (face t x y) = 1 / 3 + x ^ 2 + y ^ 2 := by
  rw [← rt_sq]
  match t, ht with
  | 0, _ => simp only [face, dot, ← rt_half]; ring
  | 1, _ => simp only [face, dot, ← rt_half]; ring
  | 2, _ => simp only [face, dot, ← rt_half]; ring
  | 3, _ => simp only [face, dot, ← rt_half]; ring
  | 4, _ => simp only [face, dot, ← rt_half]; ring
  | 5, _ => simp only [face, dot, ← rt_half]; ring

theorem shrink_face (t : Nat) (ht : t < 6) (x y : ℝ) : unit (face t x y) = scale (shrink x y) (face t x y) := by
  rw [unit_as_scale]
  have : len (face t x y) = len ⟨rt, x, y⟩ := by
    unfold len
    rw [face_dot t ht]
    congr 1
    unfold dot
    simp only
    rw [← rt_sq]
    ring
  unfold shrink
  rw [this]

theorem shrink_even (x y : ℝ) : shrink (-x) y = shrink x y ∧ shrink x (-y) = shrink x y := by
  unfold shrink len dot
  simp only [neg_mul_neg, and_self]

theorem shrink_ge (x y : ℝ) (hx : |x| ≤ rt) (hy : |y| ≤ rt) : 1 ≤ shrink x y := by
  unfold shrink
  have h2 := rt_sq
  have hr := rt_pos
  have hx2 : x ^ 2 ≤ rt ^ 2 := by rw [← sq_abs x]; exact pow_le_pow_left₀ (abs_nonneg x) hx 2
  have hy2 : y ^ 2 ≤ rt ^ 2 := by rw [← sq_abs y]; exact pow_le_pow_left₀ (abs_nonneg y) hy 2
  have hl : 0 < len (⟨rt, x, y⟩ : V3) := by
    unfold len
    apply sqrt_pos.mpr
    unfold dot
    simp only
    nlinarith [mul_self_nonneg x, mul_self_nonneg y]
  rw [le_div_iff₀ hl, one_mul]
  unfold len
  rw [sqrt_le_one]
  unfold dot
  simp only
  nlinarith

/-- A version of `shrink` that is at least 1 everywhere. -/
noncomputable def shrink1 (x y : ℝ) : ℝ := max 1 (shrink x y)

theorem shrink1_eq (x y : ℝ) (hx : |x| ≤ rt) (hy : |y| ≤ rt) : shrink x y = shrink1 x y := by
  unfold shrink1
  rw [max_eq_right (shrink_ge x y hx hy)]

/-- The middle of a cell is on the axis of the poles or far enough from it. -/
theorem middle_far (n t : Nat) (ht : t < 6) (hn : 0 < n) (hn9 : n ≤ 10 ^ 9) (k m : Nat) (hk : k + 1 ≤ n) (hm : m + 1 ≤ n) :
    let N := mid4 (unit (face t (T n k) (T n m))) (unit (face t (T n (k + 1 : Nat)) (T n m)))
      (unit (face t (T n k) (T n (m + 1 : Nat)))) (unit (face t (T n (k + 1 : Nat)) (T n (m + 1 : Nat))))
    (N.x = 0 ∧ N.y = 0) ∨ (4 / 10 ^ 10 : ℝ) ^ 2 ≤ N.x ^ 2 + N.y ^ 2 := by
  have ab : ∀ k : Nat, k ≤ n → |T n k| ≤ rt := by
    intro k hk
    have := T_range n hn k hk
    exact abs_le.mpr this
  have s1 := shrink1_eq _ _ (ab k (by omega)) (ab m (by omega))
  have s2 := shrink1_eq _ _ (ab (k + 1) (by omega)) (ab m (by omega))
  have s3 := shrink1_eq _ _ (ab k (by omega)) (ab (m + 1) (by omega))
  have s4 := shrink1_eq _ _ (ab (k + 1) (by omega)) (ab (m + 1) (by omega))
  have sx := sum_far n hn k hk shrink1 (T n m) (T n (m + 1 : Nat)) (fun _ _ => le_max_left _ _)
    (fun x z => by unfold shrink1; rw [(shrink_even x z).1])
  have sy := sum_far n hn m hm (fun y x => shrink1 x y) (T n k) (T n (k + 1 : Nat)) (fun _ _ => le_max_left _ _)
    (fun x z => by unfold shrink1; rw [(shrink_even z x).2])
  simp only [shrink_face t ht, s1, s2, s3, s4]
  have g1 : 1 ≤ shrink1 (T n k) (T n m) := le_max_left _ _
  have g2 : 1 ≤ shrink1 (T n (k + 1 : Nat)) (T n m) := le_max_left _ _
  have g3 : 1 ≤ shrink1 (T n k) (T n (m + 1 : Nat)) := le_max_left _ _
  have g4 : 1 ≤ shrink1 (T n (k + 1 : Nat)) (T n (m + 1 : Nat)) := le_max_left _ _
  have hh : (1 : ℝ) / 10 ≤ half := by
    rw [← rt_half]
    nlinarith [rt_sq, rt_pos]
  have hfar : (4 : ℝ) / 10 ^ 10 ≤ 2 / (3 * n) := by
    have h1 : (n : ℝ) ≤ 10 ^ 9 := by exact_mod_cast hn9
    have h2 : (0 : ℝ) < n := by exact_mod_cast hn
    rw [div_le_div_iff₀ (by norm_num) (by positivity)]
    linarith
  have sqr : ∀ v : ℝ, 2 / (3 * n) ≤ |v| → (4 / 10 ^ 10 : ℝ) ^ 2 ≤ v ^ 2 := by
    intro v hv
    rw [← sq_abs v]
    exact pow_le_pow_left₀ (by norm_num) (le_trans hfar hv) 2
  generalize shrink1 (T n k) (T n m) = a1 at *
  generalize shrink1 (T n (k + 1 : Nat)) (T n m) = a2 at *
  generalize shrink1 (T n k) (T n (m + 1 : Nat)) = a3 at *
  generalize shrink1 (T n (k + 1 : Nat)) (T n (m + 1 : Nat)) = a4 at *
  generalize T n k = x at *
  generalize T n (k + 1 : Nat) = x' at *
  generalize T n m = y at *
  generalize T n (m + 1 : Nat) = y' at *
  have big : (4 / 10 ^ 10 : ℝ) ^ 2 ≤ (a1 * half + a2 * half + a3 * half + a4 * half) ^ 2 := by
    apply pow_le_pow_left₀ (by norm_num)
    have : 4 * half ≤ a1 * half + a2 * half + a3 * half + a4 * half := by nlinarith
    linarith [show (4 / 10 ^ 10 : ℝ) ≤ 4 / 10 by norm_num]
  generalize hX : x * a1 + x' * a2 + x * a3 + x' * a4 = X at *
  generalize hY : y * a1 + y' * a3 + y * a2 + y' * a4 = Y at *
  have pole : (X = 0 ∧ Y = 0) ∨ (4 / 10 ^ 10 : ℝ) ^ 2 ≤ X ^ 2 + Y ^ 2 := by
    rcases sx with h | h
    · rcases sy with h' | h'
      · exact Or.inl ⟨h, h'⟩
      · right; linarith [sqr _ h', sq_nonneg X]
    · right; linarith [sqr _ h, sq_nonneg Y]
  match t, ht with
  | 0, _ =>
    right
    simp only [mid4, add, scale, face]
    rw [show a1 * half + a3 * half + (a2 * half + a4 * half) = a1 * half + a2 * half + a3 * half + a4 * half by ring]
    exact le_trans big (le_add_of_nonneg_right (sq_nonneg _))
  | 1, _ =>
    right
    simp only [mid4, add, scale, face]
    rw [show a1 * half + a3 * half + (a2 * half + a4 * half) = a1 * half + a2 * half + a3 * half + a4 * half by ring]
    exact le_trans big (le_add_of_nonneg_left (sq_nonneg _))
  | 2, _ =>
    simp only [mid4, add, scale, face]
    rw [show a1 * -x + a3 * -x + (a2 * -x' + a4 * -x') = -X by rw [← hX]; ring,
      show a1 * -y + a3 * -y' + (a2 * -y + a4 * -y') = -Y by rw [← hY]; ring]
    simpa using pole
  | 3, _ =>
    right
    simp only [mid4, add, scale, face]
    rw [show a1 * -half + a3 * -half + (a2 * -half + a4 * -half) = -(a1 * half + a2 * half + a3 * half + a4 * half) by ring,
      neg_sq]
    exact le_trans big (le_add_of_nonneg_right (sq_nonneg _))
  | 4, _ =>
    right
    simp only [mid4, add, scale, face]
    rw [show a1 * -half + a3 * -half + (a2 * -half + a4 * -half) = -(a1 * half + a2 * half + a3 * half + a4 * half) by ring,
      neg_sq]
    exact le_trans big (le_add_of_nonneg_left (sq_nonneg _))
  | 5, _ =>
    simp only [mid4, add, scale, face]
    rw [show a1 * y + a3 * y' + (a2 * y + a4 * y') = Y by rw [← hY]; ring,
      show a1 * x + a3 * x + (a2 * x' + a4 * x') = X by rw [← hX]; ring, add_comm]
    rcases pole with ⟨h, h'⟩ | h
    · exact Or.inl ⟨h', h⟩
    · exact Or.inr h

/-- What the conversion needs of a cell. -/
theorem cell_main (a : ℝ) (n t oi oj w : Nat) (ht : t < 6) (hn9 : n ≤ 10 ^ 9) (hoi : oi + w ≤ n) (hoj : oj + w ≤ n)
    (g : Nat → Nat → ℝ × ℝ)
    (hg : ∀ i j, i ≤ w → j ≤ w → point (g i j).1 (g i j).2 =
      turnWest a (unit (face t (T n (oi + i : Nat)) (T n (oj + j : Nat)))))
    (i j : Nat) (hi : i < w) (hj : j < w) :
    let P := fun i j => point (g i j).1 (g i j).2
    ∃ A lon lat, cellA g i j = some A ∧ cellCentre g i j = some (lon, lat) ∧
      point lon lat = unit (mid4 (P i j) (P (i + 1) j) (P i (j + 1)) (P (i + 1) (j + 1))) ∧
      (P i j ≠ P (i + 1) j ∧ P i (j + 1) ≠ P (i + 1) (j + 1) ∧ P i j ≠ P i (j + 1) ∧ P (i + 1) j ≠ P (i + 1) (j + 1)) ∧
      ∀ U V, ∃ W, IsWind (point lon lat) (eastward (P i j) (P (i + 1) j) (P i (j + 1)) (P (i + 1) (j + 1)))
          (northward (P i j) (P (i + 1) j) (P i (j + 1)) (P (i + 1) (j + 1))) U V W ∧
        (∀ W', IsWind (point lon lat) (eastward (P i j) (P (i + 1) j) (P i (j + 1)) (P (i + 1) (j + 1)))
          (northward (P i j) (P (i + 1) j) (P i (j + 1)) (P (i + 1) (j + 1))) U V W' → W' = W) ∧
        A.a11 * (2 * U) + A.a12 * (2 * V) = dot W (trueEast lon) ∧
        A.a21 * (2 * U) + A.a22 * (2 * V) = dot W (trueNorth lon lat) := by
  intro P
  have hn : 0 < n := by omega
  have p1 : P i j = turnWest a (unit (face t (T n (oi + i : Nat)) (T n (oj + j : Nat)))) := hg i j (by omega) (by omega)
  have p2 : P (i + 1) j = turnWest a (unit (face t (T n (oi + i + 1 : Nat)) (T n (oj + j : Nat)))) :=
    hg (i + 1) j (by omega) (by omega)
  have p3 : P i (j + 1) = turnWest a (unit (face t (T n (oi + i : Nat)) (T n (oj + j + 1 : Nat)))) :=
    hg i (j + 1) (by omega) (by omega)
  have p4 : P (i + 1) (j + 1) = turnWest a (unit (face t (T n (oi + i + 1 : Nat)) (T n (oj + j + 1 : Nat)))) :=
    hg (i + 1) (j + 1) (by omega) (by omega)
  have hx := T_mono n hn (oi + i : Nat) (oi + i + 1 : Nat) (by omega) (by omega) (by omega)
  have hy := T_mono n hn (oj + j : Nat) (oj + j + 1 : Nat) (by omega) (by omega) (by omega)
  have rx := T_range n hn (oi + i) (by omega)
  have rx' := T_range n hn (oi + i + 1) (by omega)
  have ry := T_range n hn (oj + j) (by omega)
  have ry' := T_range n hn (oj + j + 1) (by omega)
  obtain ⟨hcell, hfar⟩ := flat_cell (face_flat t ht _ _ _ _ hx hy rx.1 rx'.2 ry.1 ry'.2) (turnWest a) (turnWest_turn a)
  have hmid := middle_far n t ht hn hn9 (oi + i) (oj + j) (by omega) (by omega)
  rw [← p1, ← p2, ← p3, ← p4] at hcell hfar
  obtain ⟨c1, c2, c3, hcc, hce, hcn, hee, hnn, hpos, _⟩ := cell_center hcell
  have hN : mid4 (P i j) (P (i + 1) j) (P i (j + 1)) (P (i + 1) (j + 1)) =
      turnWest a (mid4 (unit (face t (T n (oi + i : Nat)) (T n (oj + j : Nat)))) (unit (face t (T n (oi + i + 1 : Nat)) (T n (oj + j : Nat))))
        (unit (face t (T n (oi + i : Nat)) (T n (oj + j + 1 : Nat)))) (unit (face t (T n (oi + i + 1 : Nat)) (T n (oj + j + 1 : Nat))))) := by
    rw [p1, p2, p3, p4]
    unfold mid4
    rw [turnWest_add, turnWest_add, turnWest_add]
  have hmid' : ((mid4 (P i j) (P (i + 1) j) (P i (j + 1)) (P (i + 1) (j + 1))).x = 0 ∧
      (mid4 (P i j) (P (i + 1) j) (P i (j + 1)) (P (i + 1) (j + 1))).y = 0) ∨
      (4 / 10 ^ 10 : ℝ) ^ 2 ≤ (mid4 (P i j) (P (i + 1) j) (P i (j + 1)) (P (i + 1) (j + 1))).x ^ 2 +
        (mid4 (P i j) (P (i + 1) j) (P i (j + 1)) (P (i + 1) (j + 1))).y ^ 2 := by
    rw [hN]
    simp only at hmid
    generalize mid4 (unit (face t (T n (oi + i : Nat)) (T n (oj + j : Nat)))) (unit (face t (T n (oi + i + 1 : Nat)) (T n (oj + j : Nat))))
        (unit (face t (T n (oi + i : Nat)) (T n (oj + j + 1 : Nat)))) (unit (face t (T n (oi + i + 1 : Nat)) (T n (oj + j + 1 : Nat)))) = M at *
    rcases hmid with ⟨h1, h2⟩ | h
    · left
      unfold turnWest
      simp only [h1, h2, mul_zero, add_zero, and_self]
    · right
      have := sin_sq_add_cos_sq a
      unfold turnWest
      simp only
      have e : (cos a * M.x + sin a * M.y) ^ 2 + (-sin a * M.x + cos a * M.y) ^ 2 = M.x ^ 2 + M.y ^ 2 := by
        linear_combination (M.x ^ 2 + M.y ^ 2) * this
      rw [e]
      exact h
  have hSS : len (mid4 (P i j) (P (i + 1) j) (P i (j + 1)) (P (i + 1) (j + 1))) ≤ 4 := by
    have hS1 := sum_bound (add (P i j) (P i (j + 1))) (add (P (i + 1) j) (P (i + 1) (j + 1)))
    have hS2 := sum_bound (P i j) (P i (j + 1))
    have hS3 := sum_bound (P (i + 1) j) (P (i + 1) (j + 1))
    rw [hcell.sw1, hcell.nw1] at hS2
    rw [hcell.se1, hcell.ne1] at hS3
    unfold len
    rw [show (4 : ℝ) = sqrt 16 by rw [show (16 : ℝ) = 4 ^ 2 by norm_num, sqrt_sq (by norm_num)]]
    apply sqrt_le_sqrt
    unfold mid4
    linarith
  have hl0 : 0 ≤ len (mid4 (P i j) (P (i + 1) j) (P i (j + 1)) (P (i + 1) (j + 1))) := sqrt_nonneg _
  obtain ⟨lon, lat, hconv, hpt⟩ := convert_exact (unit (mid4 (P i j) (P (i + 1) j) (P i (j + 1)) (P (i + 1) (j + 1))))
    (by intro h0; rw [h0] at hcc; unfold dot at hcc; norm_num at hcc) (by
      have hlen : len (unit (mid4 (P i j) (P (i + 1) j) (P i (j + 1)) (P (i + 1) (j + 1)))) = 1 := by
        unfold len
        rw [hcc, sqrt_one]
      rw [hlen]
      generalize mid4 (P i j) (P (i + 1) j) (P i (j + 1)) (P (i + 1) (j + 1)) = M at *
      have hM : 0 < len M := by
        rcases lt_or_eq_of_le hl0 with h | h
        · exact h
        · exfalso
          unfold unit dot at hcc
          rw [← h] at hcc
          simp at hcc
      unfold unit
      simp only
      rcases hmid' with ⟨h1, h2⟩ | h
      · left; rw [h1, h2]; simp
      · right
        rw [div_pow M.x, div_pow M.y, ← add_div, le_div_iff₀ (by positivity)]
        have h16 : len M ^ 2 ≤ 4 ^ 2 := pow_le_pow_left₀ hl0 hSS 2
        have : (1 / 10 ^ 10 : ℝ) ^ 2 * 4 ^ 2 = (4 / 10 ^ 10) ^ 2 := by norm_num
        nlinarith [sq_nonneg (1 / 10 ^ 10 : ℝ)])
  have hpt' : point lon lat = unit (mid4 (P i j) (P (i + 1) j) (P i (j + 1)) (P (i + 1) (j + 1))) := by
    rw [hpt, unit_of_unit _ hcc]
  obtain ⟨v1, v2, v3, v4, v5, v6⟩ := C76_lonlat_vect lon lat
  have v1' : dot (lonVect lon lat) (lonVect lon lat) = 1 := by rw [← len_sq, v1]; norm_num
  rw [hpt'] at v4 v6
  obtain ⟨A, hA, hW⟩ := gridA_spec _ _ _ (lonVect lon lat) (latVect lon lat) hcc hce hcn hee hnn hpos hfar v1' v4 v6
  have hcent : cellCentre g i j = some (lon, lat) := by
    unfold cellCentre
    simp only [lonLatToXyz_eq, Option.bind_eq_bind, Option.bind_some]
    show (centre (P (i + 1) (j + 1)) (P i j) (P (i + 1) j) (P i (j + 1))).bind _ = _
    rw [c3]
    exact hconv
  have tri : ∀ p q r : V3, p = q ∨ p = r ∨ q = r → triple p q r = 0 := by
    rintro p q r (h | h | h) <;> subst h <;> unfold triple dot cross <;> simp only <;> ring
  refine ⟨A, lon, lat, ?_, hcent, hpt', ⟨?_, ?_, ?_, ?_⟩, ?_⟩
  · unfold cellA
    rw [hcent]
    simp only [lonLatToXyz_eq, Option.bind_eq_bind, Option.bind_some]
    show (centerVectors (P i j) (P (i + 1) j) (P i (j + 1)) (P (i + 1) (j + 1))).bind _ = _
    rw [c1]
    exact hA
  · exact fun h => ne_of_gt hcell.t1 (tri _ _ _ (Or.inl h))
  · exact fun h => ne_of_gt hcell.t4 (tri _ _ _ (Or.inr (Or.inr h.symm)))
  · exact fun h => ne_of_gt hcell.t1 (tri _ _ _ (Or.inr (Or.inl h)))
  · exact fun h => ne_of_gt hcell.t4 (tri _ _ _ (Or.inl h))
  · intro U V
    obtain ⟨W, w1, w2, w3, w4, w5, w6⟩ := hW U V
    refine ⟨W, ⟨by rw [hpt']; exact w1, w2, w3⟩, ?_, w5, ?_⟩
    · rintro W' ⟨h1, h2, h3⟩
      rw [hpt'] at h1
      exact w4 W' h1 h2 h3
    · rw [w6]
      unfold trueNorth latVect
      simp only [neg_mul]

/-! ### The conversion -/

/-- What the conversion does at cell `(i, j)` of a grid: the cell gets coefficients and its centre is its
middle; the lengths used as weights are positive; and for all winds on its sides, the second and the fourth
order conversions return the components east and north, at the centre, of the one horizontal vector whose
components along the axes of the grid are means of the winds on the sides. -/
def Converts (radius : ℝ) (g : Nat → Nat → ℝ × ℝ) (i j : Nat) : Prop :=
  let P := fun i j => point (g i j).1 (g i j).2
  let ex := eastward (P i j) (P (i + 1) j) (P i (j + 1)) (P (i + 1) (j + 1))
  let ey := northward (P i j) (P (i + 1) j) (P i (j + 1)) (P (i + 1) (j + 1))
  let dx0 := cellDx radius g i j
  let dxN := cellDx radius g i (j + 1)
  let dy0 := cellDy radius g i j
  let dyE := cellDy radius g (i + 1) j
  ∃ A lon lat, cellA g i j = some A ∧ cellCentre g i j = some (lon, lat) ∧
    point lon lat = unit (mid4 (P i j) (P (i + 1) j) (P i (j + 1)) (P (i + 1) (j + 1))) ∧
    0 < dx0 ∧ 0 < dxN ∧ 0 < dy0 ∧ 0 < dyE ∧
    (∀ gridType u0 uN v0 vE, gridType < 4 → ∃ W,
      IsWind (point lon lat) ex ey (weighted u0 dx0 uN dxN) (weighted v0 dy0 vE dyE) W ∧
      (∀ W', IsWind (point lon lat) ex ey (weighted u0 dx0 uN dxN) (weighted v0 dy0 vE dyE) W' → W' = W) ∧
      ord2 gridType u0 uN v0 vE dx0 dxN dy0 dyE A = (dot W (trueEast lon), dot W (trueNorth lon lat))) ∧
    (∀ gridType iS iE jS jE u v dx dy x y, gridType < 4 →
      let edge := iS = some x ∨ iE = some x ∨ jS = some y ∨ jE = some y
      ∃ U V W, IsWind (point lon lat) ex ey U V W ∧ (∀ W', IsWind (point lon lat) ex ey U V W' → W' = W) ∧
        (edge → U = weighted (u x y) (dx x y) (u x (y + 1)) (dx x (y + 1)) ∧
          V = weighted (v x y) (dy x y) (v (x + 1) y) (dy (x + 1) y)) ∧
        (¬edge → U = cubicMiddle (u x (y - 1)) (u x y) (u x (y + 1)) (u x (y + 2)) ∧
          V = cubicMiddle (v (x - 1) y) (v x y) (v (x + 1) y) (v (x + 2) y)) ∧
        ord4 gridType iS iE jS jE u v dx dy A x y = (dot W (trueEast lon), dot W (trueNorth lon lat)))

theorem converts (radius : ℝ) (hr : 0 < radius) (a : ℝ) (n t oi oj w : Nat) (ht : t < 6) (hn9 : n ≤ 10 ^ 9)
    (hoi : oi + w ≤ n) (hoj : oj + w ≤ n) (g : Nat → Nat → ℝ × ℝ)
    (hg : ∀ i j, i ≤ w → j ≤ w → point (g i j).1 (g i j).2 =
      turnWest a (unit (face t (T n (oi + i : Nat)) (T n (oj + j : Nat)))))
    (i j : Nat) (hi : i < w) (hj : j < w) : Converts radius g i j := by
  obtain ⟨A, lon, lat, h1, h2, h3, ⟨n1, n2, n3, n4⟩, hW⟩ := cell_main a n t oi oj w ht hn9 hoi hoj g hg i j hi hj
  have pos : ∀ p q : ℝ × ℝ, point p.1 p.2 ≠ point q.1 q.2 → 0 < distLonLat p.1 q.1 p.2 q.2 radius := by
    intro p q hne
    have h := C76_metric radius hr p q p
    exact lt_of_le_of_ne h.1 (fun h0 => hne (h.2.2.2.2.mp h0.symm))
  refine ⟨A, lon, lat, h1, h2, h3, pos _ _ n1, pos _ _ n2, pos _ _ n3, pos _ _ n4, ?_, ?_⟩
  · intro gt u0 uN v0 vE hgt
    obtain ⟨W, w1, w2, w3, w4⟩ := hW (weighted u0 (cellDx radius g i j) uN (cellDx radius g i (j + 1)))
      (weighted v0 (cellDy radius g i j) vE (cellDy radius g (i + 1) j))
    refine ⟨W, w1, w2, ?_⟩
    unfold ord2
    rw [if_pos hgt, ← w3, ← w4]
    unfold weighted
    ext <;> simp only <;> ring
  · intro gt iS iE jS jE u v dx dy x y hgt edge
    by_cases he : edge
    · obtain ⟨W, w1, w2, w3, w4⟩ := hW (weighted (u x y) (dx x y) (u x (y + 1)) (dx x (y + 1)))
        (weighted (v x y) (dy x y) (v (x + 1) y) (dy (x + 1) y))
      refine ⟨_, _, W, w1, w2, fun _ => ⟨rfl, rfl⟩, fun h => absurd he h, ?_⟩
      unfold ord4
      rw [if_pos hgt, ← w3, ← w4]
      simp only
      unfold weighted
      by_cases hi : iS = some x ∨ iE = some x
      · rw [if_pos hi, if_pos hi]
        ext <;> simp only <;> ring
      · have hj : jS = some y ∨ jE = some y := by
          rcases he with h | h | h | h
          · exact absurd (Or.inl h) hi
          · exact absurd (Or.inr h) hi
          · exact Or.inl h
          · exact Or.inr h
        rw [if_neg hi, if_neg hi, if_pos hj, if_pos hj]
        ext <;> simp only <;> ring
    · obtain ⟨W, w1, w2, w3, w4⟩ := hW (cubicMiddle (u x (y - 1)) (u x y) (u x (y + 1)) (u x (y + 2)))
        (cubicMiddle (v (x - 1) y) (v x y) (v (x + 1) y) (v (x + 2) y))
      refine ⟨_, _, W, w1, w2, fun h => absurd h he, fun _ => ⟨rfl, rfl⟩, ?_⟩
      have hi : ¬(iS = some x ∨ iE = some x) := fun h => he (h.elim Or.inl (fun h => Or.inr (Or.inl h)))
      have hj : ¬(jS = some y ∨ jE = some y) := fun h => he (Or.inr (Or.inr h))
      unfold ord4
      rw [if_pos hgt, ← w3, ← w4]
      simp only
      rw [if_neg hi, if_neg hi, if_neg hj, if_neg hj]
      unfold cubicMiddle cC1 cC2
      ext <;> simp only <;> ring

/-- **C80** (winds): on every cell of the cubed-sphere grid, for every layout and size and all winds, the
conversion returns the components east and north of the one horizontal vector that has the means of the
winds on the sides as components along the grid: in second order the means by length, in fourth order the
cubic interpolation, except next to the edges of a tile, where the means by length are used. -/
theorem C80_winds (R radius : ℝ) (hR : 1 ≤ R) (hr : 0 < radius) (l w t bi bj : Nat) (hn : l * w ≤ 10 ^ 9) (ht : t < 6)
    (hbi : bi < l) (hbj : bj < l) (i j : Nat) (hi : i < w) (hj : j < w) :
    Converts radius (rankGrid R l w t bi bj) i j := by
  have fits : ∀ b : Nat, b < l → b * w + w ≤ l * w := by
    intro b hb
    have := Nat.mul_le_mul_right w (show b + 1 ≤ l by omega)
    rw [Nat.add_mul, Nat.one_mul] at this
    exact this
  apply converts radius hr 0 (l * w) t (bi * w) (bj * w) w ht hn (fits _ hbi) (fits _ hbj) _ _ i j hi hj
  intro i j hi' hj'
  rw [(rank_core R hR l w t bi bj ht (by omega) hbi hbj hn i j hi' hj').1.1]
  unfold turnWest
  rw [cos_zero, sin_zero]
  ext <;> simp

/-- **C80** (winds on the shifted grid): the same after the final shift, as long as no longitude comes so
close to 0 that it is replaced by 0. -/
theorem C80_winds_shifted (R radius : ℝ) (hR : 1 ≤ R) (hr : 0 < radius) (l w t bi bj : Nat) (hn : l * w ≤ 10 ^ 9)
    (ht : t < 6) (hbi : bi < l) (hbj : bj < l)
    (hlon : ∀ i j, i ≤ w → j ≤ w →
      (rankGrid R l w t bi bj i j).1 = π / 18 ∨ 1 / 10 ^ 10 ≤ |(rankGrid R l w t bi bj i j).1 - π / 18|)
    (i j : Nat) (hi : i < w) (hj : j < w) :
    Converts radius (fun i j => shift (rankGrid R l w t bi bj i j)) i j := by
  have fits : ∀ b : Nat, b < l → b * w + w ≤ l * w := by
    intro b hb
    have := Nat.mul_le_mul_right w (show b + 1 ≤ l by omega)
    rw [Nat.add_mul, Nat.one_mul] at this
    exact this
  apply converts radius hr (π / 18) (l * w) t (bi * w) (bj * w) w ht hn (fits _ hbi) (fits _ hbj) _ _ i j hi hj
  intro i j hi' hj'
  exact shifted_point R hR l w t bi bj i j (by omega) hn ht hbi hbj hi' hj' (hlon i j hi' hj')

/-- The Earth in 6 by 3 by 3 ranks of 16 by 16 cells; for the shifted grid see the example beside
`C77_sphere_shifted`. -/
example : Converts 6371200 (rankGrid 6371200 3 16 2 1 1) 8 8 :=
  C80_winds _ _ (by norm_num) (by norm_num) 3 16 2 1 1 (by norm_num) (by norm_num) (by norm_num) (by norm_num) 8 8
    (by norm_num) (by norm_num)

/-- **C80** (order of the interpolation): the interpolation used by the fourth order conversion gives the
exact value in the middle of the side for all polynomials of degree at most three. -/
theorem C80_cubic (a b c d x : ℝ) :
    let f := fun x : ℝ => a + b * x + c * x ^ 2 + d * x ^ 3
    cubicMiddle (f (x - 1)) (f x) (f (x + 1)) (f (x + 2)) = f (x + 1 / 2) := by
  simp only [cubicMiddle]
  ring

/-- **C80** (flat grids): on doubly periodic grids the second order conversion returns the plain means and
the fourth order conversion the cubic interpolation, also at edges. -/
theorem C80_flat (gridType : Int) (h : 4 ≤ gridType) (u0 uN v0 vE dx0 dxN dy0 dyE : ℝ) (A : Mat)
    (iS iE jS jE : Option Int) (u v dx dy : Int → Int → ℝ) (x y : Int) :
    ord2 gridType u0 uN v0 vE dx0 dxN dy0 dyE A = ((u0 + uN) / 2, (v0 + vE) / 2) ∧
    ord4 gridType iS iE jS jE u v dx dy A x y =
      (cubicMiddle (u x (y - 1)) (u x y) (u x (y + 1)) (u x (y + 2)),
        cubicMiddle (v (x - 1) y) (v x y) (v (x + 1) y) (v (x + 2) y)) := by
  have hn : ¬gridType < 4 := by omega
  unfold ord2 ord4 cubicMiddle cA1 cA2
  rw [if_neg hn, if_neg hn]
  constructor <;> ext <;> simp only <;> ring

example : (4 : Int) ≤ 4 := by decide

end NDSL.Sphere
