import Verif.Props.Sphere

/-! Property C77: areas on the sphere. -/
namespace NDSL.Sphere
open Real

/-! ### Triangles -/

theorem angle_comm (a b : V3) : angle a b = angle b a := by
  unfold angle
  rw [dot_comm, mul_comm (len a)]

/-- The opposite vector. -/
def neg (a : V3) : V3 := ⟨-a.x, -a.y, -a.z⟩

theorem toE_neg (a : V3) : toE (neg a) = -toE a := by
  unfold toE neg
  ext i
  fin_cases i <;> simp

theorem angle_neg (a b : V3) : angle a (neg b) = π - angle a b := by
  rw [angle_toE, toE_neg, InnerProductGeometry.angle_neg_right, ← angle_toE]

theorem neg_angle (a b : V3) : angle (neg a) b = π - angle a b := by
  rw [angle_comm, angle_neg, angle_comm]

theorem neg_angle_neg (a b : V3) : angle (neg a) (neg b) = angle a b := by
  rw [neg_angle, angle_neg]; ring

theorem angle_triangle (a b c : V3) : angle a c ≤ angle a b + angle b c := by
  rw [angle_toE, angle_toE, angle_toE]
  exact InnerProductGeometry.angle_le_angle_add_angle _ _ _

theorem cross_neg (a b : V3) : cross b a = neg (cross a b) := by
  unfold cross neg
  ext <;> simp only <;> ring

theorem cross_cross_zero_comm (a b : V3) : dot (cross a b) (cross a b) = dot (cross b a) (cross b a) := by
  rw [cross_neg b a]
  unfold dot neg
  simp only
  ring

/-- Two points that are neither in the same place nor opposite each other. -/
def Apart (a b : V3) : Prop := cross a b ≠ ⟨0, 0, 0⟩

theorem Apart.ne {a b : V3} (h : Apart a b) : dot (cross a b) (cross a b) ≠ 0 :=
  fun h0 => h (dot_self_eq_zero _ h0)

theorem Apart.symm {a b : V3} (h : Apart a b) : Apart b a := by
  intro h0
  apply h
  have := cross_neg a b
  rw [h0] at this
  unfold neg at this
  simp only [V3.mk.injEq] at this
  ext <;> simp only <;> linarith [this.1, this.2.1, this.2.2]

/-- **C77** (triangles): the area of a triangle with three corners apart is between 0 and half the
sphere; it does not depend on the order of the corners. -/
theorem C77_triangle (p q r : V3) (radius : ℝ) (hpq : Apart p q) (hqr : Apart q r) (hrp : Apart r p) :
    0 ≤ triangleArea p q r radius ∧ triangleArea p q r radius ≤ 2 * π * radius ^ 2 ∧
    triangleArea q r p radius = triangleArea p q r radius ∧
    triangleArea p r q radius = triangleArea p q r radius := by
  have b1 := C76_angle_props p q r
  have b2 := C76_angle_props q r p
  have b3 := C76_angle_props r p q
  refine ⟨?_, ?_, ?_, ?_⟩
  · have e1 : sphericalAngle p q r = π - angle (cross p q) (cross r p) := by
      rw [sphericalAngle_eq _ _ _ (mul_ne_zero hpq.ne hrp.symm.ne), ← angle_neg, ← cross_neg r p]
    have e2 : sphericalAngle q r p = π - angle (cross q r) (cross p q) := by
      rw [sphericalAngle_eq _ _ _ (mul_ne_zero hqr.ne hpq.symm.ne), ← angle_neg, ← cross_neg p q]
    have e3 : sphericalAngle r p q = π - angle (cross r p) (cross q r) := by
      rw [sphericalAngle_eq _ _ _ (mul_ne_zero hrp.ne hqr.symm.ne), ← angle_neg, ← cross_neg q r]
    have ht := angle_triangle (cross p q) (neg (cross q r)) (cross r p)
    rw [angle_neg, neg_angle] at ht
    have h1 := angle_comm (cross q r) (cross p q)
    have h2 := angle_comm (cross r p) (cross q r)
    unfold triangleArea
    apply mul_nonneg _ (sq_nonneg _)
    rw [e1, e2, e3]
    linarith
  · unfold triangleArea
    apply mul_le_mul_of_nonneg_right _ (sq_nonneg _)
    linarith [b1.2.1, b2.2.1, b3.2.1]
  · unfold triangleArea
    ring
  · unfold triangleArea
    rw [b1.2.2.1, b2.2.2.1, b3.2.2.1]
    ring

/-- One eighth of the sphere. -/
example : triangleArea ⟨1, 0, 0⟩ ⟨0, 1, 0⟩ ⟨0, 0, 1⟩ 2 = 4 * π * 2 ^ 2 / 8 := by
  have h : ∀ p q r : V3, dot (cross p q) (cross p q) = 1 → dot (cross p r) (cross p r) = 1 →
      dot (cross p q) (cross p r) = 0 → sphericalAngle p q r = π / 2 := by
    intro p q r h1 h2 h3
    rw [sphericalAngle_eq _ _ _ (by rw [h1, h2]; norm_num)]
    unfold angle
    rw [h3]
    simp
  unfold triangleArea
  rw [h, h, h]
  · ring
  all_goals unfold dot cross; norm_num

/-! ### Rectangles -/

theorem angle_add (x y z : V3) (b c : ℝ) (hb : 0 ≤ b) (hc : 0 ≤ c) (hy : y ≠ ⟨0, 0, 0⟩)
    (h : y = ⟨b * x.x + c * z.x, b * x.y + c * z.y, b * x.z + c * z.z⟩) :
    angle x z = angle x y + angle y z := by
  rw [angle_toE, angle_toE, angle_toE]
  apply InnerProductGeometry.angle_eq_angle_add_add_angle_add_of_mem_span
  · intro h0
    apply hy
    have := inner_toE y y
    rw [h0, inner_zero_left] at this
    exact dot_self_eq_zero _ this.symm
  · rw [Submodule.mem_span_pair]
    refine ⟨Real.toNNReal b, Real.toNNReal c, ?_⟩
    rw [NNReal.smul_def, NNReal.smul_def, Real.coe_toNNReal b hb, Real.coe_toNNReal c hc, h]
    unfold toE
    ext i
    fin_cases i <;> simp

theorem cross_comb (p q r s : V3) (a b c : ℝ)
    (h : r = ⟨a * p.x + b * q.x + c * s.x, a * p.y + b * q.y + c * s.y, a * p.z + b * q.z + c * s.z⟩) :
    cross p r = ⟨b * (cross p q).x + c * (cross p s).x, b * (cross p q).y + c * (cross p s).y,
      b * (cross p q).z + c * (cross p s).z⟩ := by
  rw [h]
  unfold cross
  ext <;> simp only <;> ring

/-- `r` lies between the arcs from `p` to `q` and from `p` to `s`. -/
def Between (p q r s : V3) : Prop :=
  ∃ a b c : ℝ, 0 ≤ b ∧ 0 ≤ c ∧
    r = ⟨a * p.x + b * q.x + c * s.x, a * p.y + b * q.y + c * s.y, a * p.z + b * q.z + c * s.z⟩

theorem spherical_add (p q r s : V3) (hq : Apart p q) (hr : Apart p r) (hs : Apart p s)
    (hb : Between p q r s) : sphericalAngle p q s = sphericalAngle p q r + sphericalAngle p r s := by
  obtain ⟨a, b, c, hb, hc, e⟩ := hb
  rw [sphericalAngle_eq _ _ _ (mul_ne_zero hq.ne hs.ne), sphericalAngle_eq _ _ _ (mul_ne_zero hq.ne hr.ne),
    sphericalAngle_eq _ _ _ (mul_ne_zero hr.ne hs.ne)]
  exact angle_add _ _ _ b c hb hc hr (cross_comb p q r s a b c e)

/-- **C77** (rectangles): the area of a convex four-cornered cell is the sum of the areas of the two
triangles its diagonal cuts it into; so it is never negative. -/
theorem C77_rectangle (p1 p2 p3 p4 : V3) (radius : ℝ) (h12 : Apart p1 p2) (h23 : Apart p2 p3)
    (h34 : Apart p3 p4) (h41 : Apart p4 p1) (h13 : Apart p1 p3) (hb1 : Between p1 p2 p3 p4)
    (hb3 : Between p3 p4 p1 p2) :
    rectangleArea p1 p2 p3 p4 radius = triangleArea p1 p2 p3 radius + triangleArea p1 p3 p4 radius ∧
    0 ≤ rectangleArea p1 p2 p3 p4 radius := by
  have e : rectangleArea p1 p2 p3 p4 radius =
      triangleArea p1 p2 p3 radius + triangleArea p1 p3 p4 radius := by
    have s1 := spherical_add p1 p2 p3 p4 h12 h13 h41.symm hb1
    have s3 := spherical_add p3 p4 p1 p2 h34 h13.symm h23.symm hb3
    have c1 := (C76_angle_props p1 p4 p2).2.2.1
    have c3 := (C76_angle_props p3 p2 p4).2.2.1
    have c4 := (C76_angle_props p4 p3 p1).2.2.1
    unfold rectangleArea triangleArea
    rw [c1, c3, s1, s3, c4]
    ring
  refine ⟨e, ?_⟩
  rw [e]
  exact add_nonneg (C77_triangle p1 p2 p3 radius h12 h23 h13.symm).1
    (C77_triangle p1 p3 p4 radius h13 h34 h41).1

/-- A cell that meets the hypotheses: a face of the cube. -/
example : 0 ≤ rectangleArea ⟨1, -1, -1⟩ ⟨1, -1, 1⟩ ⟨1, 1, 1⟩ ⟨1, 1, -1⟩ 1 := by
  refine (C77_rectangle _ _ _ _ _ ?_ ?_ ?_ ?_ ?_ ?_ ?_).2
  iterate 5
    · unfold Apart cross
      intro h
      simp only [V3.mk.injEq] at h
      norm_num at h
  · exact ⟨-1, 1, 1, by norm_num, by norm_num, by norm_num⟩
  · exact ⟨-1, 1, 1, by norm_num, by norm_num, by norm_num⟩

end NDSL.Sphere
