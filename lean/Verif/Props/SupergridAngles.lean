import Verif.Model.SupergridAngles
import Verif.Spec.SupergridAngles
import Verif.Props.CubedToLatLon
/-
C86: the sines and cosines of grid angles, and the unit vectors along grid lines.
-/
namespace NDSL.Sphere
open Real

theorem cos_angle (p q : V3) (hp : dot p p ≠ 0) (hq : dot q q ≠ 0) : cos (angle p q) = dot p q / (len p * len q) := by
  have lp := (normalize_some p hp).2
  have lq := (normalize_some q hq).2
  have hc := cauchy p q
  rw [← len_sq, ← len_sq, ← mul_pow] at hc
  have hpos : 0 < len p * len q := mul_pos lp lq
  have habs := abs_le_of_sq_le_sq' hc (le_of_lt hpos)
  unfold angle
  apply cos_arccos
  · rw [le_div_iff₀ hpos]; linarith [habs.1]
  · rw [div_le_iff₀ hpos]; linarith [habs.2]

theorem cross_ne_of_triple {c p q : V3} (h : triple c p q ≠ 0) :
    dot (cross c p) (cross c p) ≠ 0 ∧ dot (cross c q) (cross c q) ≠ 0 := by
  have e1 : triple c p q = dot (cross c p) q := by unfold triple dot cross; simp only; ring
  have e2 : triple c p q = -dot (cross c q) p := by unfold triple dot cross; simp only; ring
  constructor
  · intro h0
    apply h
    rw [e1, dot_self_eq_zero _ h0]
    simp [dot]
  · intro h0
    apply h
    rw [e2, dot_self_eq_zero _ h0]
    simp [dot]

theorem sphericalCos_eq (c p q : V3) (hp : dot (cross c p) (cross c p) ≠ 0) (hq : dot (cross c q) (cross c q) ≠ 0) :
    sphericalCos c p q = some (dot (cross c p) (cross c q) / (len (cross c p) * len (cross c q))) := by
  unfold sphericalCos
  simp only
  have hnn : 0 ≤ dot (cross c p) (cross c p) * dot (cross c q) (cross c q) :=
    mul_nonneg (dot_self_nonneg _) (dot_self_nonneg _)
  rw [if_neg (by rw [sumMul_eq, sumMul_eq]; exact (sqrt_ne_zero hnn).mpr (mul_ne_zero hp hq))]
  unfold len
  rw [sumMul_eq, sumMul_eq, sumMul_eq, sqrt_mul (dot_self_nonneg _)]

theorem sphericalCos_lines (c p q : V3) (hc : dot c c = 1) (h1 : dot (cross c p) (cross c p) ≠ 0)
    (h2 : dot (cross c q) (cross c q) ≠ 0) :
    sphericalCos c p q = some (cos (angle (tangent c p) (tangent c q))) ∧
    dot (tangent c p) (tangent c p) ≠ 0 ∧ dot (tangent c q) (tangent c q) ≠ 0 := by
  have e1 := tangent_dot c p p hc
  have e2 := tangent_dot c q q hc
  have e3 := tangent_dot c p q hc
  refine ⟨?_, by rw [e1]; exact h1, by rw [e2]; exact h2⟩
  rw [sphericalCos_eq c p q h1 h2, cos_angle _ _ (by rw [e1]; exact h1) (by rw [e2]; exact h2)]
  unfold len
  rw [e1, e2, e3]

theorem sphericalCos_angle (c p q : V3) (hc : dot c c = 1) (h : triple c p q ≠ 0) :
    sphericalCos c p q = some (cos (angle (tangent c p) (tangent c q))) ∧
    dot (tangent c p) (tangent c p) ≠ 0 ∧ dot (tangent c q) (tangent c q) ≠ 0 :=
  sphericalCos_lines c p q hc (cross_ne_of_triple h).1 (cross_ne_of_triple h).2

theorem opposite_dot (p q : V3) : dot (opposite p) q = -dot p q ∧ dot p (opposite q) = -dot p q := by
  constructor <;> (unfold dot opposite; simp only; ring)

theorem opposite_len (p : V3) : len (opposite p) = len p := by
  unfold len
  rw [(opposite_dot p _).1, (opposite_dot p p).2, neg_neg]

theorem angle_opposite (p q : V3) : angle (opposite p) (opposite q) = angle p q ∧ angle p q = angle q p ∧
    cos (angle (opposite p) q) = -cos (angle p q) ∧ cos (angle p (opposite q)) = -cos (angle p q) := by
  refine ⟨?_, ?_, ?_, ?_⟩
  · unfold angle
    rw [opposite_len, opposite_len, (opposite_dot p _).1, (opposite_dot p q).2, neg_neg]
  · unfold angle
    rw [show dot p q = dot q p by unfold dot; ring, mul_comm]
  · unfold angle
    rw [opposite_len, (opposite_dot p _).1, neg_div, arccos_neg, cos_pi_sub]
  · unfold angle
    rw [opposite_len, (opposite_dot p _).2, neg_div, arccos_neg, cos_pi_sub]

/-- **C86** (cosines in a cell): for every cell of four corners that turn counter-clockwise, the cosine at
each of its nine points is that of the angle between the grid lines there, from the direction east to the
direction north. -/
theorem C86_cell (sw se nw ne : V3) (h : Cell sw se nw ne) (k : Nat) (hk : k < 9) :
    cellCos sw se nw ne (unit (mid4 sw se nw ne)) (eastward sw se nw ne) (northward sw se nw ne) k =
      some (cos (gridAngle sw se nw ne k)) := by
  have hpos : ∀ {a b c : V3}, 0 < triple a b c → triple a b c ≠ 0 := fun h => ne_of_gt h
  have t1 := h.t1
  have t2 := h.t2
  have t3 := h.t3
  have t4 := h.t4
  have cyc : ∀ a b c : V3, triple a b c = triple b c a ∧ triple a b c = -triple a c b := by
    intro a b c
    constructor <;> (unfold triple dot cross; simp only; ring)
  -- middles of sides
  have side : ∀ (p q r : V3), triple (add p q) (mid4 sw se nw ne) r ≠ 0 → 
      midpoint p q = some (unit (add p q)) ∧ dot (unit (add p q)) (unit (add p q)) = 1 ∧
      triple (unit (add p q)) (unit (mid4 sw se nw ne)) r ≠ 0 := by
    intro p q r ht
    obtain ⟨n1, n2, _⟩ := triple_ne ht
    refine ⟨(normalize_unit' _ n1).1, dot_unit_self _ n1, ?_⟩
    have hr : r = scale 1 r := by unfold scale; ext <;> simp
    rw [unit_as_scale, unit_as_scale, hr, triple_scale]
    have l1 := (normalize_unit' _ n1).2
    have l2 := (normalize_unit' _ n2).2
    exact mul_ne_zero (by positivity) ht
  have m0 : triple (add sw nw) (mid4 sw se nw ne) nw = triple sw se nw + triple sw ne nw := by
    unfold mid4 add triple dot cross; simp only; ring
  have m1 : triple (add sw se) (mid4 sw se nw ne) se = -(triple sw se nw + triple sw se ne) := by
    unfold mid4 add triple dot cross; simp only; ring
  have m2 : triple (add se ne) (mid4 sw se nw ne) se = triple sw se ne + triple se ne nw := by
    unfold mid4 add triple dot cross; simp only; ring
  have m3 : triple (add nw ne) (mid4 sw se nw ne) nw = -(triple sw ne nw + triple se ne nw) := by
    unfold mid4 add triple dot cross; simp only; ring
  match k, hk with
  | 0, _ =>
    obtain ⟨a, b, d⟩ := side sw nw nw (by rw [m0]; exact ne_of_gt (by linarith))
    simp only [cellCos, a, Option.bind_some]
    rw [(sphericalCos_angle _ _ _ b d).1]
    rfl
  | 1, _ =>
    obtain ⟨a, b, d⟩ := side sw se se (by rw [m1]; exact ne_of_lt (by linarith))
    simp only [cellCos, a, Option.bind_some]
    rw [(sphericalCos_angle _ _ _ b (by rw [(cyc _ _ _).2]; exact neg_ne_zero.mpr d)).1]
    rfl
  | 2, _ =>
    obtain ⟨a, b, d⟩ := side se ne se (by rw [m2]; exact ne_of_gt (by linarith))
    simp only [cellCos, a, Option.bind_some]
    rw [(sphericalCos_angle _ _ _ b d).1]
    simp only [gridAngle, gridLines]
    rw [(angle_opposite _ _).1]
  | 3, _ =>
    obtain ⟨a, b, d⟩ := side nw ne nw (by rw [m3]; exact ne_of_lt (by linarith))
    simp only [cellCos, a, Option.bind_some]
    rw [(sphericalCos_angle _ _ _ b (by rw [(cyc _ _ _).2]; exact neg_ne_zero.mpr d)).1]
    simp only [gridAngle, gridLines]
    rw [(angle_opposite _ _).1]
  | 4, _ =>
    obtain ⟨_, _, _, _, _, _, he, hn, _⟩ := cell_center h
    simp only [cellCos, sumMul_eq]
    simp only [gridAngle, gridLines]
    rw [cos_angle _ _ (by rw [he]; norm_num) (by rw [hn]; norm_num), len_of_unit he, len_of_unit hn]
    simp
  | 5, _ =>
    simp only [cellCos]
    rw [(sphericalCos_angle _ _ _ h.sw1 (hpos t1)).1]
    rfl
  | 6, _ =>
    simp only [cellCos, minusCos]
    rw [(sphericalCos_angle _ _ _ h.se1 (by rw [(cyc _ _ _).2, ← (cyc _ _ _).1]; exact neg_ne_zero.mpr (hpos t2))).1]
    simp only [gridAngle, gridLines]
    rw [(angle_opposite _ _).2.2.1]
    simp
  | 7, _ =>
    simp only [cellCos]
    rw [(sphericalCos_angle _ _ _ h.ne1 (by rw [(cyc _ _ _).2, ← (cyc _ _ _).1]; exact neg_ne_zero.mpr (hpos t4))).1]
    simp only [gridAngle, gridLines]
    rw [(angle_opposite _ _).1, (angle_opposite _ _).2.1]
  | 8, _ =>
    simp only [cellCos, minusCos]
    rw [(sphericalCos_angle _ _ _ h.nw1 (by rw [(cyc _ _ _).1]; exact hpos t3)).1]
    simp only [gridAngle, gridLines]
    rw [(angle_opposite _ _).2.2.2, (angle_opposite _ _).2.1]
    simp

/-- **C86** (sines): the stored cosine and sine of every angle are the two coordinates of one point of the
upper unit circle; they are the exact cosine and sine, unless the cosine is closer to 1 than `1e-15`. -/
theorem C86_sine (θ : ℝ) (h0 : 0 ≤ θ) (h1 : θ ≤ π) :
    let c := (cosSin (cos θ)).1
    let s := (cosSin (cos θ)).2
    c ^ 2 + s ^ 2 = 1 ∧ 0 ≤ s ∧ s ≤ 1 ∧ |c - cos θ| < 1 / 10 ^ 15 ∧
    (cos θ ≤ 1 - 1 / 10 ^ 15 → c = cos θ ∧ s = sin θ) := by
  have hs := sin_nonneg_of_nonneg_of_le_pi h0 h1
  have hcs := sin_sq_add_cos_sq θ
  have hc1 := cos_le_one θ
  have key : ∀ c : ℝ, c ^ 2 ≤ 1 → notAbove1 (sqrt (notBelow0 (1 - c ^ 2))) = sqrt (1 - c ^ 2) := by
    intro c hc
    have : notBelow0 (1 - c ^ 2) = 1 - c ^ 2 := if_neg (by linarith)
    rw [this]
    have hle : sqrt (1 - c ^ 2) ≤ 1 := by
      exact sqrt_le_iff.mpr ⟨by norm_num, by linarith [sq_nonneg c]⟩
    exact if_neg (not_lt.mpr hle)
  have hsq : snapOne (cos θ) ^ 2 ≤ 1 := by
    unfold snapOne
    split
    · norm_num
    · nlinarith [sq_nonneg (sin θ)]
  have e : (cosSin (cos θ)).2 = sqrt (1 - snapOne (cos θ) ^ 2) := by
    unfold cosSin sineOf
    exact key _ hsq
  refine ⟨?_, ?_, ?_, ?_, ?_⟩
  · rw [e, sq_sqrt (by linarith)]
    simp [cosSin]
  · rw [e]; exact sqrt_nonneg _
  · rw [e]; exact sqrt_le_iff.mpr ⟨by norm_num, by linarith [sq_nonneg (snapOne (cos θ))]⟩
  · show |snapOne (cos θ) - cos θ| < _
    unfold snapOne
    split
    · assumption
    · simp
  · intro hfar
    have hc : snapOne (cos θ) = cos θ := by
      unfold snapOne
      rw [if_neg]
      rw [abs_of_nonneg (by linarith)]
      linarith
    refine ⟨hc, ?_⟩
    rw [e, hc, show 1 - cos θ ^ 2 = sin θ ^ 2 by linarith, sqrt_sq hs]

/-! ### The cubed-sphere grid -/

/-- A motion of space. -/
structure Move (f : V3 → V3) : Prop where
  turn : Turn f
  scale : ∀ k p, f (scale k p) = scale k (f p)

theorem Move.unit {f : V3 → V3} (h : Move f) (p : V3) : f (unit p) = unit (f p) := by
  rw [unit_as_scale, h.scale, unit_as_scale (f p)]
  unfold len
  rw [h.turn.rigid]

theorem face_turn (a : ℝ) (t : Nat) (ht : t < 6) :
    ∃ f : V3 → V3, Move f ∧ ∀ x y, turnWest a (unit (face t x y)) = f (unit ⟨rt, x, y⟩) := by
  have core : ∃ f : V3 → V3, Move f ∧ ∀ x y, face t x y = f ⟨rt, x, y⟩ := by
    match t, ht with
    | 0, _ => exact ⟨fun p => p, ⟨⟨fun _ _ => rfl, fun _ _ => rfl⟩, fun _ _ => rfl⟩, fun x y => by simp [face, rt_half]⟩
    | 1, _ => exact ⟨fun p => ⟨-p.y, p.x, p.z⟩, ⟨⟨fun a b => by unfold dot; simp only; ring,
        fun a b => by unfold cross; ext <;> simp only <;> ring⟩, fun k p => by unfold scale; ext <;> simp only <;> ring⟩,
        fun x y => by simp [face, rt_half]⟩
    | 2, _ => exact ⟨fun p => ⟨-p.y, -p.z, p.x⟩, ⟨⟨fun a b => by unfold dot; simp only; ring,
        fun a b => by unfold cross; ext <;> simp only <;> ring⟩, fun k p => by unfold scale; ext <;> simp only <;> ring⟩,
        fun x y => by simp [face, rt_half]⟩
    | 3, _ => exact ⟨fun p => ⟨-p.x, -p.z, -p.y⟩, ⟨⟨fun a b => by unfold dot; simp only; ring,
        fun a b => by unfold cross; ext <;> simp only <;> ring⟩, fun k p => by unfold scale; ext <;> simp only <;> ring⟩,
        fun x y => by simp [face, rt_half]⟩
    | 4, _ => exact ⟨fun p => ⟨p.z, -p.x, -p.y⟩, ⟨⟨fun a b => by unfold dot; simp only; ring,
        fun a b => by unfold cross; ext <;> simp only <;> ring⟩, fun k p => by unfold scale; ext <;> simp only <;> ring⟩,
        fun x y => by simp [face, rt_half]⟩
    | 5, _ => exact ⟨fun p => ⟨p.z, p.y, -p.x⟩, ⟨⟨fun a b => by unfold dot; simp only; ring,
        fun a b => by unfold cross; ext <;> simp only <;> ring⟩, fun k p => by unfold scale; ext <;> simp only <;> ring⟩,
        fun x y => by simp [face, rt_half]⟩
  obtain ⟨f, hf, he⟩ := core
  have hw := turnWest_turn a
  refine ⟨fun p => turnWest a (f p), ⟨⟨fun p q => ?_, fun p q => ?_⟩, fun k p => ?_⟩, fun x y => ?_⟩
  · rw [hw.rigid, hf.turn.rigid]
  · rw [hf.turn.cross, hw.cross]
  · rw [hf.scale]
    unfold turnWest scale
    ext <;> simp only <;> ring
  · rw [he, ← hf.unit]

/-- Points of one face; the products with neighbours along the grid lines are multiples of two vectors. -/
theorem face_products (f : V3 → V3) (hf : Move f) (x y : ℝ) :
    let b := fun x y => f (unit ⟨rt, x, y⟩)
    dot (b x y) (b x y) = 1 ∧
    (∀ x0 x1, ∃ k, 0 < k ∧ cross (b x0 y) (b x1 y) = scale (k * (x1 - x0)) (f ⟨-y, 0, rt⟩)) ∧
    (∀ y0 y1, ∃ k, 0 < k ∧ cross (b x y0) (b x y1) = scale (k * (y1 - y0)) (f ⟨x, -rt, 0⟩)) := by
  intro b
  have hr := rt_pos
  have ne : ∀ x y : ℝ, dot (⟨rt, x, y⟩ : V3) ⟨rt, x, y⟩ ≠ 0 := by
    intro x y
    unfold dot
    simp only
    nlinarith [mul_self_nonneg x, mul_self_nonneg y, mul_pos hr hr]
  have lp : ∀ x y : ℝ, 0 < len (⟨rt, x, y⟩ : V3) := fun x y => (normalize_some _ (ne x y)).2
  refine ⟨?_, ?_, ?_⟩
  · show dot (f _) (f _) = 1
    rw [hf.turn.rigid, dot_unit_self _ (ne x y)]
  · intro x0 x1
    refine ⟨1 / len (⟨rt, x0, y⟩ : V3) * (1 / len (⟨rt, x1, y⟩ : V3)), ?_, ?_⟩
    · have := lp x0 y
      have := lp x1 y
      positivity
    · show cross (f _) (f _) = _
      rw [← hf.turn.cross, unit_as_scale ⟨rt, x0, y⟩, unit_as_scale ⟨rt, x1, y⟩, cross_scale, ← hf.scale]
      congr 1
      unfold cross scale
      ext <;> simp only <;> ring
  · intro y0 y1
    refine ⟨1 / len (⟨rt, x, y0⟩ : V3) * (1 / len (⟨rt, x, y1⟩ : V3)), ?_, ?_⟩
    · have := lp x y0
      have := lp x y1
      positivity
    · show cross (f _) (f _) = _
      rw [← hf.turn.cross, unit_as_scale ⟨rt, x, y0⟩, unit_as_scale ⟨rt, x, y1⟩, cross_scale, ← hf.scale]
      congr 1
      unfold cross scale
      ext <;> simp only <;> ring

theorem len_scale (k : ℝ) (p : V3) : len (scale k p) = |k| * len p := by
  unfold len
  rw [show dot (scale k p) (scale k p) = k ^ 2 * dot p p by unfold dot scale; simp only; ring,
    sqrt_mul (sq_nonneg k), sqrt_sq_eq_abs]

theorem sphericalCos_scaled (c p q u v : V3) (α β : ℝ) (h1 : cross c p = scale α u) (h2 : cross c q = scale β v)
    (hu : dot u u ≠ 0) (hv : dot v v ≠ 0) :
    (0 < α * β → sphericalCos c p q = some (dot u v / (len u * len v))) ∧
    (α * β < 0 → minusCos c p q = some (dot u v / (len u * len v))) := by
  have nz : ∀ (k : ℝ) (w : V3), k ≠ 0 → dot w w ≠ 0 → dot (scale k w) (scale k w) ≠ 0 := by
    intro k w hk hw
    rw [dot_scale]
    exact mul_ne_zero (mul_ne_zero hk hk) hw
  have lu := (normalize_some u hu).2
  have lv := (normalize_some v hv).2
  have e : α * β ≠ 0 → sphericalCos c p q = some (α * β / |α * β| * (dot u v / (len u * len v))) := by
    intro hne
    have ha : α ≠ 0 := fun h => hne (by rw [h, zero_mul])
    have hb : β ≠ 0 := fun h => hne (by rw [h, mul_zero])
    rw [sphericalCos_eq c p q (by rw [h1]; exact nz α u ha hu) (by rw [h2]; exact nz β v hb hv), h1, h2, dot_scale,
      len_scale, len_scale, abs_mul]
    have := abs_pos.mpr ha
    have := abs_pos.mpr hb
    congr 1
    field_simp
  constructor
  · intro h
    rw [e (ne_of_gt h), abs_of_pos h, div_self (ne_of_gt h), one_mul]
  · intro h
    unfold minusCos
    rw [e (ne_of_lt h), abs_of_neg h, div_neg, div_self (ne_of_lt h)]
    simp

theorem lines_value (f : V3 → V3) (hf : Move f) (X Y : ℝ) :
    dot (f ⟨-Y, 0, rt⟩) (f ⟨X, -rt, 0⟩) / (len (f ⟨-Y, 0, rt⟩) * len (f ⟨X, -rt, 0⟩)) = lineCos X Y ∧
    dot (f ⟨-Y, 0, rt⟩) (f ⟨-Y, 0, rt⟩) ≠ 0 ∧ dot (f ⟨X, -rt, 0⟩) (f ⟨X, -rt, 0⟩) ≠ 0 := by
  have hr := rt_pos
  have e1 : dot (f ⟨-Y, 0, rt⟩) (f ⟨-Y, 0, rt⟩) = rt ^ 2 + Y ^ 2 := by
    rw [hf.turn.rigid]; unfold dot; simp only; ring
  have e2 : dot (f ⟨X, -rt, 0⟩) (f ⟨X, -rt, 0⟩) = rt ^ 2 + X ^ 2 := by
    rw [hf.turn.rigid]; unfold dot; simp only; ring
  refine ⟨?_, ?_, ?_⟩
  · unfold len
    rw [e1, e2, hf.turn.rigid]
    unfold lineCos
    rw [← rt_half, mul_comm (sqrt (rt ^ 2 + X ^ 2))]
    congr 1
    unfold dot
    simp only
    ring
  · rw [e1]; positivity
  · rw [e2]; positivity

theorem lineCos_small (X Y : ℝ) (hX : -half ≤ X ∧ X ≤ half) (hY : -half ≤ Y ∧ Y ≤ half) :
    -(1 / 2) ≤ lineCos X Y ∧ lineCos X Y ≤ 1 / 2 := by
  have hr := rt_pos
  rw [rt_half] at hr
  have hx : X ^ 2 ≤ half ^ 2 := by nlinarith
  have hy : Y ^ 2 ≤ half ^ 2 := by nlinarith
  set A := sqrt (half ^ 2 + X ^ 2) with hA
  set B := sqrt (half ^ 2 + Y ^ 2) with hB
  have hA2 : A ^ 2 = half ^ 2 + X ^ 2 := sq_sqrt (by positivity)
  have hB2 : B ^ 2 = half ^ 2 + Y ^ 2 := sq_sqrt (by positivity)
  have pA : 0 < A := sqrt_pos.mpr (by positivity)
  have pB : 0 < B := sqrt_pos.mpr (by positivity)
  have hAB : (2 * (X * Y)) ^ 2 ≤ (A * B) ^ 2 := by
    rw [mul_pow A B, hA2, hB2]
    nlinarith [mul_nonneg (sub_nonneg.mpr hx) (sub_nonneg.mpr hy), sq_nonneg X, sq_nonneg Y,
      mul_nonneg (sub_nonneg.mpr hx) (sq_nonneg Y), mul_nonneg (sub_nonneg.mpr hy) (sq_nonneg X)]
  have := abs_le_of_sq_le_sq' hAB (by positivity)
  unfold lineCos
  have pAB : 0 < A * B := mul_pos pA pB
  constructor
  · rw [le_div_iff₀ pAB]; linarith [this.2]
  · rw [div_le_iff₀ pAB]; linarith [this.1]

/-- Grid points around `(i, j)`, on one face of the cube turned by `a`, in increasing order. -/
structure Around (a : ℝ) (t : Nat) (X Y : Int → ℝ) (x : Int → Int → V3) (i j : Int) : Prop where
  face : t < 6
  west : X (i - 1) < X i
  east : X i < X (i + 1)
  south : Y (j - 1) < Y j
  north : Y j < Y (j + 1)
  rangeX : -half ≤ X i ∧ X i ≤ half
  rangeY : -half ≤ Y j ∧ Y j ≤ half
  at' : ∀ p q, i - 1 ≤ p → p ≤ i + 1 → j - 1 ≤ q → q ≤ j + 1 → x p q = turnWest a (unit (Sphere.face t (X p) (Y q)))

theorem around_cos {a : ℝ} {t : Nat} {X Y : Int → ℝ} {x : Int → Int → V3} {i j : Int} (h : Around a t X Y x i j) :
    sphericalCos (x i j) (x (i + 1) j) (x i (j + 1)) = some (lineCos (X i) (Y j)) ∧
    minusCos (x i j) (x (i - 1) j) (x i (j + 1)) = some (lineCos (X i) (Y j)) ∧
    sphericalCos (x i j) (x i (j - 1)) (x (i - 1) j) = some (lineCos (X i) (Y j)) ∧
    minusCos (x i j) (x i (j - 1)) (x (i + 1) j) = some (lineCos (X i) (Y j)) ∧
    cos (angle (tangent (x i j) (x (i + 1) j)) (tangent (x i j) (x i (j + 1)))) = lineCos (X i) (Y j) := by
  obtain ⟨f, hf, he⟩ := face_turn a t h.face
  have hx : ∀ p q, i - 1 ≤ p → p ≤ i + 1 → j - 1 ≤ q → q ≤ j + 1 → x p q = f (unit ⟨rt, X p, Y q⟩) := by
    intro p q h1 h2 h3 h4
    rw [h.at' p q h1 h2 h3 h4, he]
  rw [hx i j (by omega) (by omega) (by omega) (by omega), hx (i + 1) j (by omega) (by omega) (by omega) (by omega),
    hx i (j + 1) (by omega) (by omega) (by omega) (by omega), hx (i - 1) j (by omega) (by omega) (by omega) (by omega),
    hx i (j - 1) (by omega) (by omega) (by omega) (by omega)]
  obtain ⟨h1, hX, hY⟩ := face_products f hf (X i) (Y j)
  obtain ⟨hl, hu, hv⟩ := lines_value f hf (X i) (Y j)
  obtain ⟨ke, pe, ce⟩ := hX (X i) (X (i + 1))
  obtain ⟨kw, pw, cw⟩ := hX (X i) (X (i - 1))
  obtain ⟨kn, pn, cn⟩ := hY (Y j) (Y (j + 1))
  obtain ⟨ks, ps, cs⟩ := hY (Y j) (Y (j - 1))
  have se : 0 < ke * (X (i + 1) - X i) := mul_pos pe (by linarith [h.east])
  have sw : 0 < kw * (X i - X (i - 1)) := mul_pos pw (by linarith [h.west])
  have sn : 0 < kn * (Y (j + 1) - Y j) := mul_pos pn (by linarith [h.north])
  have ss : 0 < ks * (Y j - Y (j - 1)) := mul_pos ps (by linarith [h.south])
  have comm : dot (f ⟨X i, -rt, 0⟩) (f ⟨-Y j, 0, rt⟩) / (len (f ⟨X i, -rt, 0⟩) * len (f ⟨-Y j, 0, rt⟩)) =
      lineCos (X i) (Y j) := by
    rw [← hl, mul_comm (len (f ⟨X i, -rt, 0⟩))]
    congr 1
    unfold dot
    ring
  have main := (sphericalCos_scaled _ _ _ _ _ _ _ ce cn hu hv).1 (mul_pos se sn)
  rw [hl] at main
  refine ⟨main, ?_, ?_, ?_, ?_⟩
  · rw [(sphericalCos_scaled _ _ _ _ _ _ _ cw cn hu hv).2 (by nlinarith [mul_pos sw sn]), hl]
  · rw [(sphericalCos_scaled _ _ _ _ _ _ _ cs cw hv hu).1 (by nlinarith [mul_pos sw ss]), comm]
  · rw [(sphericalCos_scaled _ _ _ _ _ _ _ cs ce hv hu).2 (by nlinarith [mul_pos se ss]), comm]
  · have nz : ∀ (k : ℝ) (w : V3), k ≠ 0 → dot w w ≠ 0 → dot (scale k w) (scale k w) ≠ 0 := by
      intro k w hk hw
      rw [dot_scale]
      exact mul_ne_zero (mul_ne_zero hk hk) hw
    have := (sphericalCos_lines _ (f (unit ⟨rt, X (i + 1), Y j⟩)) (f (unit ⟨rt, X i, Y (j + 1)⟩)) h1
      (by show dot (cross (f _) _) _ ≠ 0; rw [ce]; exact nz _ _ (ne_of_gt se) hu)
      (by show dot (cross (f _) _) _ ≠ 0; rw [cn]; exact nz _ _ (ne_of_gt sn) hv)).1
    have := this.symm.trans main
    exact Option.some.inj this

/-- **C86** (grid points): at every point of the cubed-sphere grid inside a tile, the four cells that meet
there have the same cosine; `cosa` and `sina` are the exact cosine and sine of the angle between the grid
lines, which has a closed form. -/
theorem C86_corner {a : ℝ} {t : Nat} {X Y : Int → ℝ} {x : Int → Int → V3} {i j : Int} (h : Around a t X Y x i j)
    (c e1 e2 : Int → Int → V3) :
    let θ := angle (tangent (x i j) (x (i + 1) j)) (tangent (x i j) (x i (j + 1)))
    let C := fun (k : Nat) (p q : Int) => cellCos (x p q) (x (p + 1) q) (x p (q + 1)) (x (p + 1) (q + 1)) (c p q)
      (e1 p q) (e2 p q) k
    C 5 i j = some (cos θ) ∧ C 6 (i - 1) j = some (cos θ) ∧ C 7 (i - 1) (j - 1) = some (cos θ) ∧
    C 8 i (j - 1) = some (cos θ) ∧
    cosaSina x c e1 e2 i j = some (cos θ, sin θ) ∧ cos θ = lineCos (X i) (Y j) ∧ 1 / 2 ≤ sin θ := by
  intro θ C
  obtain ⟨h5, h6, h7, h8, hc⟩ := around_cos h
  rw [← hc] at h5 h6 h7 h8
  have ei : i - 1 + 1 = i := by omega
  have ej : j - 1 + 1 = j := by omega
  have c5 : C 5 i j = some (cos θ) := h5
  have c6 : C 6 (i - 1) j = some (cos θ) := by
    show cellCos _ _ _ _ _ _ _ 6 = _
    simp only [cellCos, ei]
    exact h6
  have c7 : C 7 (i - 1) (j - 1) = some (cos θ) := by
    show cellCos _ _ _ _ _ _ _ 7 = _
    simp only [cellCos, ei, ej]
    exact h7
  have c8 : C 8 i (j - 1) = some (cos θ) := by
    show cellCos _ _ _ _ _ _ _ 8 = _
    simp only [cellCos, ej]
    exact h8
  have hsm := lineCos_small (X i) (Y j) h.rangeX h.rangeY
  have h0 : 0 ≤ θ := arccos_nonneg _
  have h1 : θ ≤ π := arccos_le_pi _
  obtain ⟨_, _, _, _, hex⟩ := C86_sine θ h0 h1
  obtain ⟨ec, es⟩ := hex (by
    show cos (angle _ _) ≤ _
    rw [hc]
    linarith [hsm.2, show (1 / 10 ^ 15 : ℝ) ≤ 1 / 2 by norm_num])
  refine ⟨c5, c6, c7, c8, ?_, hc, ?_⟩
  · have t7 : cellTrig x c e1 e2 7 (i - 1) (j - 1) = some (cosSin (cos θ)) := by
      unfold cellTrig
      rw [show cellCos (x (i - 1) (j - 1)) (x (i - 1 + 1) (j - 1)) (x (i - 1) (j - 1 + 1)) (x (i - 1 + 1) (j - 1 + 1))
        (c (i - 1) (j - 1)) (e1 (i - 1) (j - 1)) (e2 (i - 1) (j - 1)) 7 = some (cos θ) from c7]
      rfl
    have t5 : cellTrig x c e1 e2 5 i j = some (cosSin (cos θ)) := by
      unfold cellTrig
      rw [show cellCos (x i j) (x (i + 1) j) (x i (j + 1)) (x (i + 1) (j + 1)) (c i j) (e1 i j) (e2 i j) 5 =
        some (cos θ) from c5]
      rfl
    unfold cosaSina
    rw [t7, t5]
    simp only [Option.bind_eq_bind, Option.bind_some, ec, es, Option.pure_def]
    congr 2 <;> ring
  · have hs := sin_nonneg_of_nonneg_of_le_pi h0 h1
    have hcs := sin_sq_add_cos_sq θ
    have hc2 : cos θ ^ 2 ≤ 1 / 4 := by
      show cos (angle _ _) ^ 2 ≤ _
      rw [hc]
      nlinarith [hsm.1, hsm.2]
    nlinarith

theorem turn_back (p e : V3) (hp : dot p p = 1) : cross (cross p e) p = tangent p e := by
  have : cross (cross p e) p = ⟨dot p p * e.x - dot p e * p.x, dot p p * e.y - dot p e * p.y,
      dot p p * e.z - dot p e * p.z⟩ := by
    unfold cross dot
    ext <;> simp only <;> ring
  rw [this, hp]
  unfold tangent
  ext <;> simp only <;> ring

/-- A vector along the great circle with normal `u`, from products of points on it. -/
theorem along (p e w u c : V3) (hp : dot p p = 1) (α β γ : ℝ) (hc : c = scale α u) (he : cross p e = scale β u)
    (hw : cross p w = scale γ u) (ha : 0 < α) (hb : 0 < β) (hg : γ < 0) (hu : dot u u ≠ 0) :
    normalize (cross c p) = some (unit (tangent p e)) ∧ unit (opposite (tangent p w)) = unit (tangent p e) ∧
    dot (tangent p e) (tangent p e) ≠ 0 := by
  have t1 := turn_back p e hp
  have t2 := turn_back p w hp
  rw [he] at t1
  rw [hw] at t2
  have s1 : ∀ k, cross (scale k u) p = scale k (cross u p) := by
    intro k
    unfold cross scale
    ext <;> simp only <;> ring
  rw [s1] at t1 t2
  have ht : dot (tangent p e) (tangent p e) ≠ 0 := by
    rw [tangent_dot _ _ _ hp, he, dot_scale]
    exact mul_ne_zero (mul_ne_zero (ne_of_gt hb) (ne_of_gt hb)) hu
  have hup : dot (cross u p) (cross u p) ≠ 0 := by
    intro h0
    apply ht
    rw [← t1, dot_scale, h0, mul_zero]
  refine ⟨?_, ?_, ht⟩
  · rw [hc, s1, (normalize_unit' _ _).1, unit_scale α ha, ← t1, unit_scale β hb]
    rw [dot_scale]
    exact mul_ne_zero (mul_ne_zero (ne_of_gt ha) (ne_of_gt ha)) hup
  · have : opposite (tangent p w) = scale (-γ) (cross u p) := by
      rw [← t2]
      unfold opposite scale
      ext <;> simp only <;> ring
    rw [this, unit_scale (-γ) (by linarith), ← t1, unit_scale β hb]

/-- **C86** (unit vectors): at every grid point of the cubed-sphere grid inside a tile, the horizontal and
the vertical unit vector point along the two grid lines: towards the neighbour in the east and in the north,
and away from the one in the west and in the south.  This holds with the one-sided products used at the
tile's sides as well.  Their scalar product is the cosine of the angle between the grid lines. -/
theorem C86_unit {a : ℝ} {t : Nat} {X Y : Int → ℝ} {x : Int → Int → V3} {i j : Int} (h : Around a t X Y x i j)
    (west east south north : Bool) :
    let e := unit (tangent (x i j) (x (i + 1) j))
    let n := unit (tangent (x i j) (x i (j + 1)))
    unitX x west east i j = some e ∧ unitY x south north i j = some n ∧
    e = unit (opposite (tangent (x i j) (x (i - 1) j))) ∧ n = unit (opposite (tangent (x i j) (x i (j - 1)))) ∧
    dot e e = 1 ∧ dot n n = 1 ∧ dot (x i j) e = 0 ∧ dot (x i j) n = 0 ∧ dot e n = lineCos (X i) (Y j) := by
  have hcos := (around_cos h).2.2.2.2
  obtain ⟨f, hf, he⟩ := face_turn a t h.face
  have hx : ∀ p q, i - 1 ≤ p → p ≤ i + 1 → j - 1 ≤ q → q ≤ j + 1 → x p q = f (unit ⟨rt, X p, Y q⟩) := by
    intro p q h1 h2 h3 h4
    rw [h.at' p q h1 h2 h3 h4, he]
  have xP := hx i j (by omega) (by omega) (by omega) (by omega)
  have xE := hx (i + 1) j (by omega) (by omega) (by omega) (by omega)
  have xN := hx i (j + 1) (by omega) (by omega) (by omega) (by omega)
  have xW := hx (i - 1) j (by omega) (by omega) (by omega) (by omega)
  have xS := hx i (j - 1) (by omega) (by omega) (by omega) (by omega)
  obtain ⟨h1, hX, hY⟩ := face_products f hf (X i) (Y j)
  obtain ⟨_, hu, hv⟩ := lines_value f hf (X i) (Y j)
  have hP : dot (x i j) (x i j) = 1 := by rw [xP]; exact h1
  obtain ⟨ke, pe, ce⟩ := hX (X i) (X (i + 1))
  obtain ⟨kw, pw, cw⟩ := hX (X i) (X (i - 1))
  obtain ⟨kv, pv, cv⟩ := hX (X (i - 1)) (X i)
  obtain ⟨kb, pb, cb⟩ := hX (X (i - 1)) (X (i + 1))
  obtain ⟨kn, pn, cn⟩ := hY (Y j) (Y (j + 1))
  obtain ⟨ks, ps, cs⟩ := hY (Y j) (Y (j - 1))
  obtain ⟨kr, pr, cr⟩ := hY (Y (j - 1)) (Y j)
  obtain ⟨kd, pd, cd⟩ := hY (Y (j - 1)) (Y (j + 1))
  simp only [← xP, ← xE, ← xN, ← xW, ← xS] at ce cw cv cb cn cs cr cd
  have hwest := h.west
  have heast := h.east
  have hsouth := h.south
  have hnorth := h.north
  have se : 0 < ke * (X (i + 1) - X i) := mul_pos pe (by linarith)
  have sw : kw * (X (i - 1) - X i) < 0 := mul_neg_of_pos_of_neg pw (by linarith)
  have sv : 0 < kv * (X i - X (i - 1)) := mul_pos pv (by linarith)
  have sb : 0 < kb * (X (i + 1) - X (i - 1)) := mul_pos pb (by linarith)
  have sn : 0 < kn * (Y (j + 1) - Y j) := mul_pos pn (by linarith)
  have ss : ks * (Y (j - 1) - Y j) < 0 := mul_neg_of_pos_of_neg ps (by linarith)
  have sr : 0 < kr * (Y j - Y (j - 1)) := mul_pos pr (by linarith)
  have sd : 0 < kd * (Y (j + 1) - Y (j - 1)) := mul_pos pd (by linarith)
  obtain ⟨_, eo, te⟩ := along _ _ _ _ _ hP _ _ _ ce ce cw se se sw hu
  obtain ⟨_, no, tn⟩ := along _ _ _ _ _ hP _ _ _ cn cn cs sn sn ss hv
  have de : dot (unit (tangent (x i j) (x (i + 1) j))) (unit (tangent (x i j) (x (i + 1) j))) = 1 := dot_unit_self _ te
  have dn : dot (unit (tangent (x i j) (x i (j + 1)))) (unit (tangent (x i j) (x i (j + 1)))) = 1 := dot_unit_self _ tn
  refine ⟨?_, ?_, eo.symm, no.symm, de, dn, unit_perp _ _ (tangent_perp _ _ hP), unit_perp _ _ (tangent_perp _ _ hP), ?_⟩
  · unfold unitX
    cases east
    · cases west
      · exact (along _ _ _ _ _ hP _ _ _ cb ce cw sb se sw hu).1
      · exact (along _ _ _ _ _ hP _ _ _ ce ce cw se se sw hu).1
    · exact (along _ _ _ _ _ hP _ _ _ cv ce cw sv se sw hu).1
  · unfold unitY
    cases north
    · cases south
      · exact (along _ _ _ _ _ hP _ _ _ cd cn cs sd sn ss hv).1
      · exact (along _ _ _ _ _ hP _ _ _ cn cn cs sn sn ss hv).1
    · exact (along _ _ _ _ _ hP _ _ _ cr cn cs sr sn ss hv).1
  · rw [← hcos, cos_angle _ _ te tn, unit_as_scale (tangent (x i j) (x (i + 1) j)),
      unit_as_scale (tangent (x i j) (x i (j + 1))), dot_scale]
    ring

/-- **C86** (unit vectors at the sides of a tile): there, the unit vector across the side points towards the
only neighbour on the tile, or away from it.  This holds for every grid. -/
theorem C86_unit_side (x : Int → Int → V3) (i j : Int) (h : dot (x i j) (x i j) = 1) (b : Bool) :
    (tangent (x i j) (x (i + 1) j) ≠ ⟨0, 0, 0⟩ → unitX x true false i j = some (unit (tangent (x i j) (x (i + 1) j)))) ∧
    (tangent (x i j) (x (i - 1) j) ≠ ⟨0, 0, 0⟩ →
      unitX x b true i j = some (unit (opposite (tangent (x i j) (x (i - 1) j))))) ∧
    (tangent (x i j) (x i (j + 1)) ≠ ⟨0, 0, 0⟩ → unitY x true false i j = some (unit (tangent (x i j) (x i (j + 1))))) ∧
    (tangent (x i j) (x i (j - 1)) ≠ ⟨0, 0, 0⟩ →
      unitY x b true i j = some (unit (opposite (tangent (x i j) (x i (j - 1)))))) := by
  have back : ∀ w : V3, cross (cross w (x i j)) (x i j) = opposite (tangent (x i j) w) := by
    intro w
    rw [← turn_back _ _ h]
    unfold cross opposite
    ext <;> simp only <;> ring
  have ne : ∀ v : V3, v ≠ ⟨0, 0, 0⟩ → dot v v ≠ 0 := fun v hv h0 => hv (dot_self_eq_zero v h0)
  have neo : ∀ v : V3, v ≠ ⟨0, 0, 0⟩ → dot (opposite v) (opposite v) ≠ 0 := by
    intro v hv
    rw [(opposite_dot v _).1, (opposite_dot v v).2, neg_neg]
    exact ne v hv
  refine ⟨fun ht => ?_, fun ht => ?_, fun ht => ?_, fun ht => ?_⟩
  · show normalize (cross (cross _ _) _) = _
    rw [turn_back _ _ h, (normalize_unit' _ (ne _ ht)).1]
  · show normalize (cross (cross _ _) _) = _
    rw [back, (normalize_unit' _ (neo _ ht)).1]
  · show normalize (cross (cross _ _) _) = _
    rw [turn_back _ _ h, (normalize_unit' _ (ne _ ht)).1]
  · show normalize (cross (cross _ _) _) = _
    rw [back, (normalize_unit' _ (neo _ ht)).1]

/-- **C86** (every rank): the hypotheses of `C86_corner` and `C86_unit` hold at every grid point inside a
rank of a cubed sphere, for every layout and tile. -/
theorem C86_rank (R : ℝ) (hR : 1 ≤ R) (l w tile bi bj : Nat) (ht : tile < 6) (hbi : bi < l) (hbj : bj < l)
    (hn : l * w ≤ 10 ^ 9) (i j : Nat) (hi0 : 0 < i) (hi : i < w) (hj0 : 0 < j) (hj : j < w) :
    Around 0 tile (fun p => line (l * w) (bi * w + p.toNat)) (fun q => line (l * w) (bj * w + q.toNat))
      (fun p q => point (rankGrid R l w tile bi bj p.toNat q.toNat).1 (rankGrid R l w tile bi bj p.toNat q.toNat).2)
      i j := by
  have fits : ∀ b : Nat, b < l → b * w + w ≤ l * w := by
    intro b hb
    have := Nat.mul_le_mul_right w (show b + 1 ≤ l by omega)
    rw [Nat.add_mul, Nat.one_mul] at this
    exact this
  have f1 := fits bi hbi
  have f2 := fits bj hbj
  have hlw : 0 < l * w := by omega
  have mono : ∀ p q : Nat, p < q → q ≤ l * w → line (l * w) p < line (l * w) q := by
    intro p q h1 h2
    rw [← T_line, ← T_line]
    exact T_mono (l * w) hlw p q (by omega) (by omega) (by omega)
  have range : ∀ p : Nat, p ≤ l * w → -half ≤ line (l * w) p ∧ line (l * w) p ≤ half := by
    intro p h
    rw [← T_line, ← rt_half]
    exact T_range (l * w) hlw p h
  refine ⟨ht, ?_, ?_, ?_, ?_, ?_, ?_, ?_⟩
  · exact mono _ _ (by omega) (by omega)
  · exact mono _ _ (by omega) (by omega)
  · exact mono _ _ (by omega) (by omega)
  · exact mono _ _ (by omega) (by omega)
  · exact range _ (by omega)
  · exact range _ (by omega)
  · intro p q h1 h2 h3 h4
    rw [(C78_rank R hR l w tile bi bj ht (by omega) hbi hbj hn p.toNat q.toNat (by omega) (by omega)).1]
    unfold turnWest
    rw [cos_zero, sin_zero]
    ext <;> simp

/-- **C86** (every rank): the hypothesis of `C86_cell` holds for every cell of a rank of a cubed sphere. -/
theorem C86_rank_cell (R : ℝ) (hR : 1 ≤ R) (l w tile bi bj : Nat) (ht : tile < 6) (hbi : bi < l) (hbj : bj < l)
    (hn : l * w ≤ 10 ^ 9) (i j : Nat) (hi : i < w) (hj : j < w) :
    let P := fun p q => point (rankGrid R l w tile bi bj p q).1 (rankGrid R l w tile bi bj p q).2
    Cell (P i j) (P (i + 1) j) (P i (j + 1)) (P (i + 1) (j + 1)) := by
  intro P
  have fits : ∀ b : Nat, b < l → b * w + w ≤ l * w := by
    intro b hb
    have := Nat.mul_le_mul_right w (show b + 1 ≤ l by omega)
    rw [Nat.add_mul, Nat.one_mul] at this
    exact this
  have f1 := fits bi hbi
  have f2 := fits bj hbj
  have hlw : 0 < l * w := by omega
  have hP : ∀ p q : Nat, p ≤ w → q ≤ w → P p q =
      unit (face tile (T (l * w) (bi * w + p : Nat)) (T (l * w) (bj * w + q : Nat))) := by
    intro p q h1 h2
    exact (rank_core R hR l w tile bi bj ht (by omega) hbi hbj hn p q h1 h2).1.1
  rw [hP i j (by omega) (by omega), hP (i + 1) j (by omega) (by omega), hP i (j + 1) (by omega) (by omega),
    hP (i + 1) (j + 1) (by omega) (by omega)]
  exact (flat_cell (face_flat tile ht _ _ _ _ (T_mono (l * w) hlw _ _ (by omega) (by omega) (by omega))
    (T_mono (l * w) hlw _ _ (by omega) (by omega) (by omega)) (T_range (l * w) hlw _ (by omega)).1
    (T_range (l * w) hlw _ (by omega)).2 (T_range (l * w) hlw _ (by omega)).1 (T_range (l * w) hlw _ (by omega)).2)
    (fun p => p) ⟨fun _ _ => rfl, fun _ _ => rfl⟩).1

/-- A point inside the second rank of tile 3, 2 by 2 blocks of 12 cells. -/
example : Around 0 2 (fun p => line 24 (0 * 12 + p.toNat)) (fun q => line 24 (1 * 12 + q.toNat))
    (fun p q => point (rankGrid 6371200 2 12 2 0 1 p.toNat q.toNat).1 (rankGrid 6371200 2 12 2 0 1 p.toNat q.toNat).2)
    5 7 :=
  C86_rank 6371200 (by norm_num) 2 12 2 0 1 (by norm_num) (by norm_num) (by norm_num) (by norm_num) 5 7
    (by norm_num) (by norm_num) (by norm_num) (by norm_num)

end NDSL.Sphere
