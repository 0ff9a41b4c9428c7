import Verif.Props.GnomonicTiles
import Verif.Props.SphereArea
import Mathlib.Algebra.BigOperators.Group.Finset.Basic

/-! Property C77, continued: the areas of the cells of the cubed sphere. -/
namespace NDSL.Sphere
open Real

/-! ### Invariance -/

theorem cross_scale (a b : ℝ) (p q : V3) : cross (scale a p) (scale b q) = scale (a * b) (cross p q) := by
  unfold cross scale
  ext <;> simp only <;> ring

theorem dot_scale (a b : ℝ) (p q : V3) : dot (scale a p) (scale b q) = a * b * dot p q := by
  unfold dot scale
  simp only
  ring

theorem toE_scale (a : ℝ) (p : V3) : toE (scale a p) = a • toE p := by
  unfold toE scale
  ext i
  fin_cases i <;> simp

theorem angle_scale (a b : ℝ) (ha : 0 < a) (hb : 0 < b) (p q : V3) : angle (scale a p) (scale b q) = angle p q := by
  rw [angle_toE, angle_toE, toE_scale, toE_scale, InnerProductGeometry.angle_smul_left_of_pos _ _ ha,
    InnerProductGeometry.angle_smul_right_of_pos _ _ hb]

theorem angle_scale_neg (a b : ℝ) (ha : 0 < a) (hb : b < 0) (p q : V3) :
    angle (scale a p) (scale b q) = π - angle p q := by
  have e : scale b q = neg (scale (-b) q) := by
    unfold scale neg
    ext <;> simp
  rw [e, angle_neg, angle_scale a (-b) ha (by linarith)]

theorem sphericalAngle_scale (a b c : ℝ) (ha : 0 < a) (hb : 0 < b) (hc : 0 < c) (p q r : V3) :
    sphericalAngle (scale a p) (scale b q) (scale c r) = sphericalAngle p q r := by
  have hab : 0 < a * b := mul_pos ha hb
  have hac : 0 < a * c := mul_pos ha hc
  by_cases h : dot (cross p q) (cross p q) * dot (cross p r) (cross p r) = 0
  · rw [sphericalAngle_zero p q r h, sphericalAngle_zero]
    rw [cross_scale, cross_scale, dot_scale, dot_scale]
    rw [show a * b * (a * b) * dot (cross p q) (cross p q) * (a * c * (a * c) * dot (cross p r) (cross p r)) =
      a * b * (a * b) * (a * c * (a * c)) * (dot (cross p q) (cross p q) * dot (cross p r) (cross p r)) by ring, h,
      mul_zero]
  · rw [sphericalAngle_eq p q r h, sphericalAngle_eq, cross_scale, cross_scale, angle_scale _ _ hab hac]
    rw [cross_scale, cross_scale, dot_scale, dot_scale]
    rw [show a * b * (a * b) * dot (cross p q) (cross p q) * (a * c * (a * c) * dot (cross p r) (cross p r)) =
      a * b * (a * b) * (a * c * (a * c)) * (dot (cross p q) (cross p q) * dot (cross p r) (cross p r)) by ring]
    exact mul_ne_zero (by positivity) h

theorem unit_as_scale (p : V3) : unit p = scale (1 / len p) p := by
  unfold unit scale
  ext <;> simp only <;> ring

/-- A map of space that keeps lengths and angles. -/
def Rigid (f : V3 → V3) : Prop := ∀ a b, dot (f a) (f b) = dot a b

theorem sphericalAngle_moved (f : V3 → V3) (hf : Rigid f) (p q r : V3) (hp : p ≠ ⟨0, 0, 0⟩)
    (hq : q ≠ ⟨0, 0, 0⟩) (hr : r ≠ ⟨0, 0, 0⟩) :
    sphericalAngle (f (unit p)) (f (unit q)) (f (unit r)) = sphericalAngle p q r := by
  rw [(C76_angle_props (unit p) (unit q) (unit r)).2.2.2 f hf, unit_as_scale, unit_as_scale, unit_as_scale]
  have lp := (unit_dot p hp).2
  have lq := (unit_dot q hq).2
  have lr := (unit_dot r hr).2
  exact sphericalAngle_scale _ _ _ (by positivity) (by positivity) (by positivity) p q r

theorem rectangleArea_moved (f : V3 → V3) (hf : Rigid f) (a b c d : V3) (R : ℝ) (ha : a ≠ ⟨0, 0, 0⟩)
    (hb : b ≠ ⟨0, 0, 0⟩) (hc : c ≠ ⟨0, 0, 0⟩) (hd : d ≠ ⟨0, 0, 0⟩) :
    rectangleArea (f (unit a)) (f (unit b)) (f (unit c)) (f (unit d)) R = rectangleArea a b c d R := by
  unfold rectangleArea
  rw [sphericalAngle_moved f hf _ _ _ hb hc ha, sphericalAngle_moved f hf _ _ _ hc hb hd,
    sphericalAngle_moved f hf _ _ _ hd hc ha, sphericalAngle_moved f hf _ _ _ ha hd hb]

theorem rectangleArea_rigid (f : V3 → V3) (hf : Rigid f) (a b c d : V3) (R : ℝ) :
    rectangleArea (f a) (f b) (f c) (f d) R = rectangleArea a b c d R := by
  unfold rectangleArea
  rw [(C76_angle_props b c a).2.2.2 f hf, (C76_angle_props c b d).2.2.2 f hf,
    (C76_angle_props d c a).2.2.2 f hf, (C76_angle_props a d b).2.2.2 f hf]

/-! ### One face -/

/-- The angle at which the lines through a point of a face cross on the sphere. -/
noncomputable def crossing (x y : ℝ) : ℝ := angle ⟨-y, 0, rt⟩ ⟨y * 0 + x, -rt, 0⟩

theorem cross_x (x x' y : ℝ) : cross ⟨rt, x, y⟩ ⟨rt, x', y⟩ = scale (x' - x) ⟨-y, 0, rt⟩ := by
  unfold cross scale
  ext <;> simp only <;> ring

theorem cross_y (x y y' : ℝ) : cross ⟨rt, x, y⟩ ⟨rt, x, y'⟩ = scale (y' - y) ⟨y * 0 + x, -rt, 0⟩ := by
  unfold cross scale
  ext <;> simp only <;> ring

theorem dot_gx (y : ℝ) : dot ⟨-y, 0, rt⟩ ⟨-y, 0, rt⟩ ≠ 0 := by
  have := rt_pos
  unfold dot
  simp only
  nlinarith [mul_pos this this, mul_self_nonneg y]

theorem dot_gy (x y : ℝ) : dot ⟨y * 0 + x, -rt, 0⟩ ⟨y * 0 + x, -rt, 0⟩ ≠ 0 := by
  have := rt_pos
  unfold dot
  simp only
  nlinarith [mul_pos this this, mul_self_nonneg x]

theorem vertex (x y x' y' : ℝ) (hx : x' ≠ x) (hy : y' ≠ y) :
    sphericalAngle ⟨rt, x, y⟩ ⟨rt, x', y⟩ ⟨rt, x, y'⟩ =
      if (x < x' ↔ y < y') then crossing x y else π - crossing x y := by
  have hx0 : x' - x ≠ 0 := sub_ne_zero.mpr hx
  have hy0 : y' - y ≠ 0 := sub_ne_zero.mpr hy
  rw [sphericalAngle_eq]
  · rw [cross_x, cross_y]
    unfold crossing
    rcases lt_or_gt_of_ne hx with h1 | h1 <;> rcases lt_or_gt_of_ne hy with h2 | h2
    · rw [if_pos (by constructor <;> intro h <;> linarith)]
      have e : ∀ (k : ℝ) (p : V3), scale k p = neg (scale (-k) p) := by
        intro k p
        unfold scale neg
        ext <;> simp
      rw [e (x' - x), e (y' - y), neg_angle_neg, angle_scale _ _ (by linarith) (by linarith)]
    · rw [if_neg (by intro h; have := h.mpr h2; linarith), angle_comm,
        angle_scale_neg _ _ (by linarith) (by linarith), angle_comm]
    · rw [if_neg (by intro h; have := h.mp h1; linarith), angle_scale_neg _ _ (by linarith) (by linarith)]
    · rw [if_pos (by constructor <;> intro _ <;> assumption), angle_scale _ _ (by linarith) (by linarith)]
  · rw [cross_x, cross_y, dot_scale, dot_scale]
    exact mul_ne_zero (mul_ne_zero (mul_ne_zero hx0 hx0) (dot_gx y)) (mul_ne_zero (mul_ne_zero hy0 hy0) (dot_gy x y))

/-- The area of a rectangle of a face. -/
theorem face_area (x x' y y' R : ℝ) (hx : x < x') (hy : y < y') :
    rectangleArea ⟨rt, x, y⟩ ⟨rt, x, y'⟩ ⟨rt, x', y'⟩ ⟨rt, x', y⟩ R =
      (crossing x y - crossing x' y + crossing x' y' - crossing x y') * R ^ 2 := by
  unfold rectangleArea
  rw [vertex x y' x' y (ne_of_gt hx) (ne_of_lt hy),
    vertex x' y' x y (ne_of_lt hx) (ne_of_lt hy),
    (C76_angle_props ⟨rt, x', y⟩ ⟨rt, x', y'⟩ ⟨rt, x, y⟩).2.2.1,
    vertex x' y x y' (ne_of_lt hx) (ne_of_gt hy),
    vertex x y x' y' (ne_of_gt hx) (ne_of_gt hy),
    if_neg (by intro h; have := h.mp hx; linarith),
    if_pos (by constructor <;> intro _ <;> linarith),
    if_neg (by intro h; have := h.mpr hy; linarith),
    if_pos (by constructor <;> intro _ <;> assumption)]
  ring

theorem face_area_nonneg (x x' y y' R : ℝ) (hx : x < x') (hy : y < y') :
    0 ≤ rectangleArea ⟨rt, x, y⟩ ⟨rt, x, y'⟩ ⟨rt, x', y'⟩ ⟨rt, x', y⟩ R := by
  have hr := rt_pos
  have h1 : rt * (x' - x) ≠ 0 := ne_of_gt (mul_pos hr (by linarith))
  have h2 : rt * (y' - y) ≠ 0 := ne_of_gt (mul_pos hr (by linarith))
  refine (C77_rectangle _ _ _ _ _ ?_ ?_ ?_ ?_ ?_ ?_ ?_).2
  · intro h
    have := congrArg V3.y h
    unfold cross at this
    simp only at this
    apply h2
    linarith
  · intro h
    have := congrArg V3.z h
    unfold cross at this
    simp only at this
    apply h1
    linarith
  · intro h
    have := congrArg V3.y h
    unfold cross at this
    simp only at this
    apply h2
    linarith
  · intro h
    have := congrArg V3.z h
    unfold cross at this
    simp only at this
    apply h1
    linarith
  · intro h
    have := congrArg V3.z h
    unfold cross at this
    simp only at this
    apply h1
    linarith
  · exact ⟨-1, 1, 1, by norm_num, by norm_num, by ext <;> simp only <;> ring⟩
  · exact ⟨-1, 1, 1, by norm_num, by norm_num, by ext <;> simp only <;> ring⟩

/-- The whole face covers a sixth of the sphere. -/
theorem whole_face : crossing (-rt) (-rt) - crossing rt (-rt) + crossing rt rt - crossing (-rt) rt = 2 * π / 3 := by
  have hr := rt_pos
  have hlen : ∀ a b c : ℝ, a * a + b * b + c * c = 2 * (rt * rt) → len ⟨a, b, c⟩ = sqrt (2 * (rt * rt)) := by
    intro a b c h
    unfold len dot
    simp only
    rw [h]
  have hd : ∀ s : ℝ, arccos (s * (rt * rt) / (sqrt (2 * (rt * rt)) * sqrt (2 * (rt * rt)))) = arccos (s / 2) := by
    intro s
    rw [mul_self_sqrt (by positivity)]
    congr 1
    field_simp
  have h1 : arccos (-1 / 2) = 2 * π / 3 := by
    rw [show (-1 / 2 : ℝ) = -(1 / 2) by ring, arccos_neg, ← cos_pi_div_three,
      arccos_cos (by positivity) (by linarith [pi_pos])]
    ring
  have h2 : arccos (1 / 2) = π / 3 := by
    rw [← cos_pi_div_three, arccos_cos (by positivity) (by linarith [pi_pos])]
  have c1 : crossing (-rt) (-rt) = 2 * π / 3 := by
    unfold crossing angle
    rw [hlen _ _ _ (by ring), hlen _ _ _ (by ring), ← h1, ← hd (-1)]
    congr 2
    unfold dot
    simp only
    ring
  have c2 : crossing rt rt = 2 * π / 3 := by
    unfold crossing angle
    rw [hlen _ _ _ (by ring), hlen _ _ _ (by ring), ← h1, ← hd (-1)]
    congr 2
    unfold dot
    simp only
    ring
  have c3 : crossing rt (-rt) = π / 3 := by
    unfold crossing angle
    rw [hlen _ _ _ (by ring), hlen _ _ _ (by ring), ← h2, ← hd 1]
    congr 2
    unfold dot
    simp only
    ring
  have c4 : crossing (-rt) rt = π / 3 := by
    unfold crossing angle
    rw [hlen _ _ _ (by ring), hlen _ _ _ (by ring), ← h2, ← hd 1]
    congr 2
    unfold dot
    simp only
    ring
  rw [c1, c2, c3, c4]
  ring

/-- Each face is the first one, moved. -/
theorem face_move (t : Nat) (ht : t < 6) : ∃ f : V3 → V3, Rigid f ∧ ∀ x y, face t x y = f ⟨rt, x, y⟩ := by
  match t, ht with
  | 0, _ => exact ⟨fun p => p, fun _ _ => rfl, fun x y => by simp [face, rt_half]⟩
  | 1, _ => exact ⟨fun p => ⟨-p.y, p.x, p.z⟩, fun a b => by unfold dot; simp only; ring,
      fun x y => by simp [face, rt_half]⟩
  | 2, _ => exact ⟨fun p => ⟨-p.y, -p.z, p.x⟩, fun a b => by unfold dot; simp only; ring,
      fun x y => by simp [face, rt_half]⟩
  | 3, _ => exact ⟨fun p => ⟨-p.x, -p.z, -p.y⟩, fun a b => by unfold dot; simp only; ring,
      fun x y => by simp [face, rt_half]⟩
  | 4, _ => exact ⟨fun p => ⟨p.z, -p.x, -p.y⟩, fun a b => by unfold dot; simp only; ring,
      fun x y => by simp [face, rt_half]⟩
  | 5, _ => exact ⟨fun p => ⟨p.z, p.y, -p.x⟩, fun a b => by unfold dot; simp only; ring,
      fun x y => by simp [face, rt_half]⟩

theorem face_ne (t : Nat) (x y : ℝ) (ht : t < 6) : face t x y ≠ ⟨0, 0, 0⟩ := by
  have hh : half ≠ 0 := by rw [← rt_half]; exact ne_of_gt rt_pos
  match t, ht with
  | 0, _ => intro h; exact hh (congrArg V3.x h)
  | 1, _ => intro h; exact hh (congrArg V3.y h)
  | 2, _ => intro h; exact hh (congrArg V3.z h)
  | 3, _ => intro h; exact hh (neg_eq_zero.mp (congrArg V3.x h))
  | 4, _ => intro h; exact hh (neg_eq_zero.mp (congrArg V3.y h))
  | 5, _ => intro h; exact hh (neg_eq_zero.mp (congrArg V3.z h))

/-! ### Sums -/

theorem telescope (θ : Nat → Nat → ℝ) (o p a b : Nat) :
    (∑ i ∈ Finset.range a, ∑ j ∈ Finset.range b,
      (θ (o + i) (p + j) - θ (o + i + 1) (p + j) + θ (o + i + 1) (p + j + 1) - θ (o + i) (p + j + 1))) =
    θ o p - θ (o + a) p + θ (o + a) (p + b) - θ o (p + b) := by
  have inner : ∀ i, (∑ j ∈ Finset.range b,
      (θ (o + i) (p + j) - θ (o + i + 1) (p + j) + θ (o + i + 1) (p + j + 1) - θ (o + i) (p + j + 1))) =
      θ (o + i) p - θ (o + i + 1) p + θ (o + i + 1) (p + b) - θ (o + i) (p + b) := by
    intro i
    induction b with
    | zero => simp
    | succ b ih => rw [Finset.sum_range_succ, ih, show p + (b + 1) = p + b + 1 by omega]; ring
  rw [Finset.sum_congr rfl (fun i _ => inner i)]
  induction a with
  | zero => simp
  | succ a ih => rw [Finset.sum_range_succ, ih, show o + (a + 1) = o + a + 1 by omega]; ring

theorem blocks (θ : Nat → Nat → ℝ) (w a b : Nat) :
    (∑ i ∈ Finset.range a, ∑ j ∈ Finset.range b,
      (θ (i * w) (j * w) - θ (i * w + w) (j * w) + θ (i * w + w) (j * w + w) - θ (i * w) (j * w + w))) =
    θ 0 0 - θ (a * w) 0 + θ (a * w) (b * w) - θ 0 (b * w) := by
  have := telescope (fun i j => θ (i * w) (j * w)) 0 0 a b
  simp only [Nat.zero_add, Nat.zero_mul, Nat.add_mul, Nat.one_mul] at this
  exact this

theorem cellArea_eq (R : ℝ) (f : V3 → V3) (hf : Rigid f) (n t oi oj w : Nat) (ht : t < 6) (hn : 0 < n)
    (hoi : oi + w ≤ n) (hoj : oj + w ≤ n) (g : Nat → Nat → ℝ × ℝ)
    (hg : ∀ i j, i ≤ w → j ≤ w → point (g i j).1 (g i j).2 =
      f (unit (face t (T n (oi + i : Nat)) (T n (oj + j : Nat)))))
    (i j : Nat) (hi : i < w) (hj : j < w) :
    cellArea R g i j = some ((crossing (T n (oi + i : Nat)) (T n (oj + j : Nat))
      - crossing (T n (oi + i + 1 : Nat)) (T n (oj + j : Nat))
      + crossing (T n (oi + i + 1 : Nat)) (T n (oj + j + 1 : Nat))
      - crossing (T n (oi + i : Nat)) (T n (oj + j + 1 : Nat))) * R ^ 2) ∧
    0 ≤ (crossing (T n (oi + i : Nat)) (T n (oj + j : Nat))
      - crossing (T n (oi + i + 1 : Nat)) (T n (oj + j : Nat))
      + crossing (T n (oi + i + 1 : Nat)) (T n (oj + j + 1 : Nat))
      - crossing (T n (oi + i : Nat)) (T n (oj + j + 1 : Nat))) * R ^ 2 := by
  have hx := T_mono n hn (oi + i : Nat) (oi + i + 1 : Nat) (by omega) (by omega) (by omega)
  have hy := T_mono n hn (oj + j : Nat) (oj + j + 1 : Nat) (by omega) (by omega) (by omega)
  obtain ⟨m, hm, hmf⟩ := face_move t ht
  rw [← face_area _ _ _ _ R hx hy]
  refine ⟨?_, face_area_nonneg _ _ _ _ R hx hy⟩
  unfold cellArea
  rw [lonLatToXyz_eq, lonLatToXyz_eq, lonLatToXyz_eq, lonLatToXyz_eq, hg i j (by omega) (by omega),
    hg (i + 1) j (by omega) (by omega), hg i (j + 1) (by omega) (by omega),
    hg (i + 1) (j + 1) (by omega) (by omega)]
  simp only [Option.bind_eq_bind, Option.bind_some, Option.pure_def]
  rw [rectangleArea_moved f hf _ _ _ _ R (face_ne t _ _ ht) (face_ne t _ _ ht) (face_ne t _ _ ht)
    (face_ne t _ _ ht), hmf, hmf, hmf, hmf, rectangleArea_rigid m hm]
  rfl

/-- The cells of a grid that is moved rigidly from the grid of the cube. -/
theorem sphere_sums (R : ℝ) (f : V3 → V3) (hf : Rigid f) (l w : Nat) (hl : 0 < l) (hw : 0 < w)
    (g : Nat → Nat → Nat → Nat → Nat → ℝ × ℝ)
    (hg : ∀ t bi bj i j, t < 6 → bi < l → bj < l → i ≤ w → j ≤ w → point (g t bi bj i j).1 (g t bi bj i j).2 =
      f (unit (face t (T (l * w) (bi * w + i : Nat)) (T (l * w) (bj * w + j : Nat))))) :
    ∃ area : Nat → Nat → Nat → Nat → Nat → ℝ,
      (∀ t bi bj i j, t < 6 → bi < l → bj < l → i < w → j < w →
        cellArea R (g t bi bj) i j = some (area t bi bj i j) ∧ 0 ≤ area t bi bj i j) ∧
      (∀ t bi bj, t < 6 → bi < l → bj < l →
        (∑ i ∈ Finset.range w, ∑ j ∈ Finset.range w, area t bi bj i j) =
        rectangleArea (point (g t bi bj 0 0).1 (g t bi bj 0 0).2) (point (g t bi bj 0 w).1 (g t bi bj 0 w).2)
          (point (g t bi bj w w).1 (g t bi bj w w).2) (point (g t bi bj w 0).1 (g t bi bj w 0).2) R) ∧
      (∀ t, t < 6 → (∑ bi ∈ Finset.range l, ∑ bj ∈ Finset.range l, ∑ i ∈ Finset.range w, ∑ j ∈ Finset.range w,
        area t bi bj i j) = 4 * π * R ^ 2 / 6) ∧
      (∑ t ∈ Finset.range 6, ∑ bi ∈ Finset.range l, ∑ bj ∈ Finset.range l, ∑ i ∈ Finset.range w,
        ∑ j ∈ Finset.range w, area t bi bj i j) = 4 * π * R ^ 2 := by
  have hn : 0 < l * w := Nat.mul_pos hl hw
  have fits : ∀ b : Nat, b < l → b * w + w ≤ l * w := by
    intro b hb
    have := Nat.mul_le_mul_right w (show b + 1 ≤ l by omega)
    rw [Nat.add_mul, Nat.one_mul] at this
    exact this
  let θ : Nat → Nat → ℝ := fun i j => crossing (T (l * w) i) (T (l * w) j)
  let area : Nat → Nat → Nat → Nat → Nat → ℝ := fun _ bi bj i j =>
    (θ (bi * w + i) (bj * w + j) - θ (bi * w + i + 1) (bj * w + j) + θ (bi * w + i + 1) (bj * w + j + 1)
      - θ (bi * w + i) (bj * w + j + 1)) * R ^ 2
  have block : ∀ t bi bj, (∑ i ∈ Finset.range w, ∑ j ∈ Finset.range w, area t bi bj i j) =
      (θ (bi * w) (bj * w) - θ (bi * w + w) (bj * w) + θ (bi * w + w) (bj * w + w)
        - θ (bi * w) (bj * w + w)) * R ^ 2 := by
    intro t bi bj
    rw [← telescope θ (bi * w) (bj * w) w w, Finset.sum_mul]
    apply Finset.sum_congr rfl
    intro i _
    rw [Finset.sum_mul]
  have tile : ∀ t, (∑ bi ∈ Finset.range l, ∑ bj ∈ Finset.range l, ∑ i ∈ Finset.range w, ∑ j ∈ Finset.range w,
        area t bi bj i j) = 4 * π * R ^ 2 / 6 := by
    intro t
    rw [Finset.sum_congr rfl (fun bi _ => Finset.sum_congr rfl (fun bj _ => block t bi bj))]
    have e : ∀ bi, (∑ bj ∈ Finset.range l, (θ (bi * w) (bj * w) - θ (bi * w + w) (bj * w) +
        θ (bi * w + w) (bj * w + w) - θ (bi * w) (bj * w + w)) * R ^ 2) =
        (∑ bj ∈ Finset.range l, (θ (bi * w) (bj * w) - θ (bi * w + w) (bj * w) +
        θ (bi * w + w) (bj * w + w) - θ (bi * w) (bj * w + w))) * R ^ 2 := fun bi => by rw [Finset.sum_mul]
    rw [Finset.sum_congr rfl (fun bi _ => e bi), ← Finset.sum_mul, blocks θ w l l]
    have h0 : T (l * w) ((0 : Nat) : Int) = -rt := T_zero _
    have h1 := T_n (l * w) hn
    show (crossing _ _ - crossing _ _ + crossing _ _ - crossing _ _) * R ^ 2 = _
    rw [h0, h1, whole_face]
    ring
  refine ⟨area, ?_, ?_, fun t _ => tile t, ?_⟩
  · intro t bi bj i j ht hbi hbj hi hj
    exact cellArea_eq R f hf (l * w) t (bi * w) (bj * w) w ht hn (fits bi hbi) (fits bj hbj) (g t bi bj)
      (fun i j hi hj => hg t bi bj i j ht hbi hbj hi hj) i j hi hj
  · intro t bi bj ht hbi hbj
    obtain ⟨m, hm, hmf⟩ := face_move t ht
    rw [block t bi bj, hg t bi bj 0 0 ht hbi hbj (by omega) (by omega), hg t bi bj 0 w ht hbi hbj (by omega) (by omega),
      hg t bi bj w w ht hbi hbj (by omega) (by omega), hg t bi bj w 0 ht hbi hbj (by omega) (by omega),
      rectangleArea_moved f hf _ _ _ _ R (face_ne t _ _ ht) (face_ne t _ _ ht) (face_ne t _ _ ht)
        (face_ne t _ _ ht), hmf, hmf, hmf, hmf, rectangleArea_rigid m hm]
    have fx := fits bi hbi
    have fy := fits bj hbj
    rw [face_area _ _ _ _ R (T_mono (l * w) hn _ _ (by omega) (by omega) (by omega))
      (T_mono (l * w) hn _ _ (by omega) (by omega) (by omega))]
    rfl
  · rw [Finset.sum_congr rfl (fun t _ => tile t), Finset.sum_const, Finset.card_range]
    simp only [nsmul_eq_mul]
    push_cast
    ring

/-- **C77** (the sphere): for every layout and size, every cell of every rank gets an area that is not
negative; the areas of a rank's cells add up to the area between its four corners, those of a tile to a
sixth of the sphere, and those of all tiles to the sphere. -/
theorem C77_sphere (R R0 : ℝ) (hR : 1 ≤ R0) (l w : Nat) (hl : 0 < l) (hw : 0 < w) (hn : l * w ≤ 10 ^ 9) :
    ∃ area : Nat → Nat → Nat → Nat → Nat → ℝ,
      (∀ t bi bj i j, t < 6 → bi < l → bj < l → i < w → j < w →
        cellArea R (rankGrid R0 l w t bi bj) i j = some (area t bi bj i j) ∧ 0 ≤ area t bi bj i j) ∧
      (∀ t bi bj, t < 6 → bi < l → bj < l →
        (∑ i ∈ Finset.range w, ∑ j ∈ Finset.range w, area t bi bj i j) =
        rectangleArea (point (rankGrid R0 l w t bi bj 0 0).1 (rankGrid R0 l w t bi bj 0 0).2)
          (point (rankGrid R0 l w t bi bj 0 w).1 (rankGrid R0 l w t bi bj 0 w).2)
          (point (rankGrid R0 l w t bi bj w w).1 (rankGrid R0 l w t bi bj w w).2)
          (point (rankGrid R0 l w t bi bj w 0).1 (rankGrid R0 l w t bi bj w 0).2) R) ∧
      (∀ t, t < 6 → (∑ bi ∈ Finset.range l, ∑ bj ∈ Finset.range l, ∑ i ∈ Finset.range w, ∑ j ∈ Finset.range w,
        area t bi bj i j) = 4 * π * R ^ 2 / 6) ∧
      (∑ t ∈ Finset.range 6, ∑ bi ∈ Finset.range l, ∑ bj ∈ Finset.range l, ∑ i ∈ Finset.range w,
        ∑ j ∈ Finset.range w, area t bi bj i j) = 4 * π * R ^ 2 :=
  sphere_sums R (fun p => p) (fun _ _ => rfl) l w hl hw (rankGrid R0 l w) (fun t bi bj i j ht hbi hbj hi hj =>
    (rank_core R0 hR l w t bi bj ht hw hbi hbj hn i j hi hj).1.1)

/-- The Earth in 6 by 3 by 3 ranks of 16 by 16 cells. -/
example : (1 : ℝ) ≤ 6371200 ∧ 0 < 3 ∧ 0 < 16 ∧ 3 * 16 ≤ 10 ^ 9 := by norm_num

theorem turnWest_rigid (a : ℝ) : Rigid (turnWest a) := by
  intro p q
  unfold dot turnWest
  simp only
  have := sin_sq_add_cos_sq a
  linear_combination (p.x * q.x + p.y * q.y) * this

theorem shifted_point (R0 : ℝ) (hR : 1 ≤ R0) (l w t bi bj i j : Nat) (hw : 0 < w) (hn : l * w ≤ 10 ^ 9) (ht : t < 6)
    (hbi : bi < l) (hbj : bj < l) (hi : i ≤ w) (hj : j ≤ w)
    (hl : (rankGrid R0 l w t bi bj i j).1 = π / 18 ∨ 1 / 10 ^ 10 ≤ |(rankGrid R0 l w t bi bj i j).1 - π / 18|) :
    point (shift (rankGrid R0 l w t bi bj i j)).1 (shift (rankGrid R0 l w t bi bj i j)).2 =
      turnWest (π / 18) (unit (face t (T (l * w) (bi * w + i : Nat)) (T (l * w) (bj * w + j : Nat)))) := by
  have hn0 : 0 < l * w := Nat.mul_pos (by omega) hw
  obtain ⟨e, a1, a2, a3, a4⟩ := (rank_core R0 hR l w t bi bj ht hw hbi hbj hn i j hi hj).1
  rw [← e]
  have fits : ∀ b k : Nat, b < l → k ≤ w → b * w + k ≤ l * w := by
    intro b k hb hk
    have := Nat.mul_le_mul_right w (show b + 1 ≤ l by omega)
    rw [Nat.add_mul, Nat.one_mul] at this
    omega
  have far : ∀ k : Nat, k ≤ l * w → T (l * w) k = 0 ∨ 1 / 10 ^ 10 ≤ |T (l * w) k| := by
    intro k hk
    by_cases h : 2 * k = l * w
    · exact Or.inl (T_mid _ hn0 k h)
    · right
      refine le_trans ?_ (T_far _ hn0 k hk h)
      have h1 : ((l * w : Nat) : ℝ) ≤ 10 ^ 9 := by exact_mod_cast hn
      have h2 : (0 : ℝ) < ((l * w : Nat) : ℝ) := by exact_mod_cast hn0
      apply one_div_le_one_div_of_le (by positivity)
      nlinarith
  have hlat : (rankGrid R0 l w t bi bj i j).2 = 0 ∨ 1 / 10 ^ 10 ≤ |(rankGrid R0 l w t bi bj i j).2| := by
    have fi := fits bi i hbi hi
    have fj := fits bj j hbj hj
    have hX := T_range _ hn0 (bi * w + i) fi
    have hY := T_range _ hn0 (bj * w + j) fj
    have zX := far _ fi
    have zY := far _ fj
    generalize T (l * w) (bi * w + i : Nat) = X at *
    generalize T (l * w) (bj * w + j : Nat) = Y at *
    have hz : sin (rankGrid R0 l w t bi bj i j).2 = (face t X Y).z / len (face t X Y) := congrArg V3.z e
    have hr := rt_pos
    have hlen0 := (unit_dot _ (face_ne t X Y ht)).2
    have hlen1 : len (face t X Y) ≤ 1 := by
      obtain ⟨m, hm, hmf⟩ := face_move t ht
      unfold len
      rw [hmf, hm, sqrt_le_one]
      unfold dot
      simp only
      have h2 := rt_sq
      nlinarith
    have hfz : (face t X Y).z = 0 ∨ 1 / 10 ^ 10 ≤ |(face t X Y).z| := by
      have hh : 1 / 10 ^ 10 ≤ |half| := by
        rw [← rt_half, abs_of_pos hr]
        have : (1 / 10 : ℝ) < rt := by nlinarith [rt_sq]
        linarith [show (1 / 10 ^ 10 : ℝ) ≤ 1 / 10 by norm_num]
      match t, ht with
      | 0, _ => exact zY
      | 1, _ => exact zY
      | 2, _ => exact Or.inr hh
      | 3, _ => simp only [face, abs_neg, neg_eq_zero]; exact zX
      | 4, _ => simp only [face, abs_neg, neg_eq_zero]; exact zX
      | 5, _ => simp only [face, abs_neg]; exact Or.inr hh
    rcases hfz with h | h
    · left
      rw [h, zero_div] at hz
      exact injOn_sin ⟨a3, a4⟩ ⟨by linarith [pi_pos], by linarith [pi_pos]⟩ (by rw [hz, sin_zero])
    · right
      have h1 : |(face t X Y).z| ≤ |sin (rankGrid R0 l w t bi bj i j).2| := by
        rw [hz, abs_div, abs_of_pos hlen0, le_div_iff₀ hlen0]
        nlinarith [abs_nonneg (face t X Y).z]
      exact le_trans h (le_trans h1 abs_sin_le_abs)
  generalize rankGrid R0 l w t bi bj i j = p at *
  have hp := pi_pos
  have hp3 := pi_gt_three
  have s2 : (shift p).2 = p.2 := by
    show (if |p.2| < 1 / 10 ^ 10 then 0 else p.2) = p.2
    split
    · rename_i h
      rcases hlat with h0 | h0
      · exact h0.symm
      · linarith
    · rfl
  rw [s2]
  have tw : turnWest (π / 18) (point p.1 p.2) = point (p.1 - π / 18) p.2 := by
    unfold turnWest point
    rw [cos_sub, sin_sub]
    ext <;> simp only <;> ring
  rw [tw]
  show point (if |if p.1 - π / 18 < 0 then p.1 - π / 18 + 2 * π else p.1 - π / 18| < 1 / 10 ^ 10 then 0
    else if p.1 - π / 18 < 0 then p.1 - π / 18 + 2 * π else p.1 - π / 18) p.2 = _
  by_cases hneg : p.1 - π / 18 < 0
  · rw [if_pos hneg, if_neg (by
      rw [abs_of_pos (by linarith)]
      have : (1 / 10 ^ 10 : ℝ) < 1 := by norm_num
      linarith), point_add_two_pi]
  · rw [if_neg hneg]
    rcases hl with h0 | h0
    · rw [h0, sub_self, abs_zero, if_pos (by norm_num)]
    · rw [if_neg (not_lt.mpr h0)]

/-- **C77** (the shifted sphere): the same after the final shift, as long as no longitude comes so close
to 0 that it is replaced by 0. -/
theorem C77_sphere_shifted (R R0 : ℝ) (hR : 1 ≤ R0) (l w : Nat) (hl : 0 < l) (hw : 0 < w) (hn : l * w ≤ 10 ^ 9)
    (hlon : ∀ t bi bj i j, t < 6 → bi < l → bj < l → i ≤ w → j ≤ w →
      (rankGrid R0 l w t bi bj i j).1 = π / 18 ∨ 1 / 10 ^ 10 ≤ |(rankGrid R0 l w t bi bj i j).1 - π / 18|) :
    ∃ area : Nat → Nat → Nat → Nat → Nat → ℝ,
      (∀ t bi bj i j, t < 6 → bi < l → bj < l → i < w → j < w →
        cellArea R (fun i j => shift (rankGrid R0 l w t bi bj i j)) i j = some (area t bi bj i j) ∧
        0 ≤ area t bi bj i j) ∧
      (∀ t, t < 6 → (∑ bi ∈ Finset.range l, ∑ bj ∈ Finset.range l, ∑ i ∈ Finset.range w, ∑ j ∈ Finset.range w,
        area t bi bj i j) = 4 * π * R ^ 2 / 6) ∧
      (∑ t ∈ Finset.range 6, ∑ bi ∈ Finset.range l, ∑ bj ∈ Finset.range l, ∑ i ∈ Finset.range w,
        ∑ j ∈ Finset.range w, area t bi bj i j) = 4 * π * R ^ 2 := by
  have hrig := turnWest_rigid (π / 18)
  obtain ⟨area, h1, _, h2, h3⟩ := sphere_sums R _ hrig l w hl hw
    (fun t bi bj i j => shift (rankGrid R0 l w t bi bj i j)) (by
      intro t bi bj i j ht hbi hbj hi hj
      exact shifted_point R0 hR l w t bi bj i j hw hn ht hbi hbj hi hj (hlon t bi bj i j ht hbi hbj hi hj))
  exact ⟨area, h1, h2, h3⟩

/-- The hypothesis on longitudes holds for one cell per tile: all corners are at 45 degrees. -/
example : ∀ t bi bj i j, t < 6 → bi < 1 → bj < 1 → i ≤ 1 → j ≤ 1 →
    (rankGrid 6371200 1 1 t bi bj i j).1 = π / 18 ∨ 1 / 10 ^ 10 ≤ |(rankGrid 6371200 1 1 t bi bj i j).1 - π / 18| := by
  intro t bi bj i j ht hbi hbj hi hj
  right
  have hT : ∀ b k : Nat, b < 1 → k ≤ 1 → T (1 * 1) (b * 1 + k : Nat) = rt ∨ T (1 * 1) (b * 1 + k : Nat) = -rt := by
    intro b k hb hk
    have h1 := T_n 1 one_pos
    have h0 := T_zero 1
    obtain rfl : b = 0 := by omega
    rcases (show k = 0 ∨ k = 1 by omega) with rfl | rfl
    · right; exact h0
    · left; exact h1
  have hX := hT bi i hbi hi
  have hY := hT bj j hbj hj
  obtain ⟨e, _, _, _, _⟩ := (rank_core 6371200 (by norm_num) 1 1 t bi bj ht one_pos hbi hbj (by norm_num) i j hi hj).1
  generalize T (1 * 1) (bi * 1 + i : Nat) = X at *
  generalize T (1 * 1) (bj * 1 + j : Nat) = Y at *
  generalize rankGrid 6371200 1 1 t bi bj i j = p at *
  have hr := rt_pos
  have hl := (unit_dot _ (face_ne t X Y ht)).2
  have hsq : (face t X Y).x ^ 2 = (face t X Y).y ^ 2 ∧ (face t X Y).x ≠ 0 := by
    have hX2 : X ^ 2 = rt ^ 2 := by rcases hX with h | h <;> rw [h] <;> ring
    have hY2 : Y ^ 2 = rt ^ 2 := by rcases hY with h | h <;> rw [h] <;> ring
    have hX0 : X ≠ 0 := by intro h; rw [h] at hX2; nlinarith
    have hY0 : Y ≠ 0 := by intro h; rw [h] at hY2; nlinarith
    match t, ht with
    | 0, _ => simp only [face, ← rt_half]; exact ⟨by linarith, ne_of_gt hr⟩
    | 1, _ => simp only [face, ← rt_half]; exact ⟨by linarith [neg_sq X], neg_ne_zero.mpr hX0⟩
    | 2, _ => simp only [face, ← rt_half]; exact ⟨by linarith [neg_sq X, neg_sq Y], neg_ne_zero.mpr hX0⟩
    | 3, _ => simp only [face, ← rt_half]; exact ⟨by linarith [neg_sq rt, neg_sq Y], neg_ne_zero.mpr (ne_of_gt hr)⟩
    | 4, _ => simp only [face, ← rt_half]; exact ⟨by linarith [neg_sq rt, neg_sq Y], hY0⟩
    | 5, _ => simp only [face, ← rt_half]; exact ⟨by linarith, hY0⟩
  have hx : cos p.2 * cos p.1 = (face t X Y).x / len (face t X Y) := congrArg V3.x e
  have hy : cos p.2 * sin p.1 = (face t X Y).y / len (face t X Y) := congrArg V3.y e
  have hc : cos p.2 ≠ 0 := by
    intro h0
    rw [h0, zero_mul] at hx
    exact div_ne_zero hsq.2 (ne_of_gt hl) hx.symm
  have hcs : cos p.1 ^ 2 = sin p.1 ^ 2 := by
    have h2 : (cos p.2 * cos p.1) ^ 2 = (cos p.2 * sin p.1) ^ 2 := by
      rw [hx, hy, div_pow, div_pow, hsq.1]
    rw [mul_pow, mul_pow] at h2
    exact mul_left_cancel₀ (pow_ne_zero 2 hc) h2
  by_contra hcon
  rw [not_le, abs_lt] at hcon
  have hp := pi_gt_three
  have hsmall : (1 / 10 ^ 10 : ℝ) < 1 / 18 := by norm_num
  have hlo : 0 < p.1 := by linarith
  have hhi : p.1 < π / 4 := by linarith
  have h1 : sin p.1 < sin (π / 4) := sin_lt_sin_of_lt_of_le_pi_div_two (by linarith) (by linarith) hhi
  have h2 : cos (π / 4) < cos p.1 := cos_lt_cos_of_nonneg_of_le_pi (by linarith) (by linarith) hhi
  have h3 : 0 < sin p.1 := sin_pos_of_pos_of_lt_pi hlo (by linarith)
  rw [sin_pi_div_four] at h1
  rw [cos_pi_div_four] at h2
  nlinarith

end NDSL.Sphere
