import Verif.Model.Sphere
import Verif.Spec.Sphere
import Mathlib.Geometry.Euclidean.Angle.Unoriented.TriangleInequality
import Mathlib.Analysis.InnerProductSpace.PiL2
import Mathlib.Analysis.Real.Pi.Bounds
import Mathlib.Tactic.Linarith
import Mathlib.Tactic.FieldSimp
import Mathlib.Tactic.LinearCombination

/-! Property C76: distances, midpoints and angles on the sphere. -/
namespace NDSL.Sphere
open Real

/-! ### Vectors -/

theorem dot_comm (a b : V3) : dot a b = dot b a := by unfold dot; ring

theorem dot_self_nonneg (a : V3) : 0 ≤ dot a a := by
  unfold dot
  nlinarith [sq_nonneg a.x, sq_nonneg a.y, sq_nonneg a.z]

theorem dot_self_eq_zero (a : V3) (h : dot a a = 0) : a = ⟨0, 0, 0⟩ := by
  unfold dot at h
  ext <;> simp only <;> nlinarith [sq_nonneg a.x, sq_nonneg a.y, sq_nonneg a.z]

theorem len_sq (a : V3) : len a ^ 2 = dot a a := sq_sqrt (dot_self_nonneg a)

theorem len_nonneg (a : V3) : 0 ≤ len a := sqrt_nonneg _

/-- The vector as an element of Euclidean space. -/
noncomputable def toE (a : V3) : EuclideanSpace ℝ (Fin 3) := !₂[a.x, a.y, a.z]

theorem inner_toE (a b : V3) : inner ℝ (toE a) (toE b) = dot a b := by
  unfold toE dot
  simp [PiLp.inner_apply, Fin.sum_univ_three]
  ring

theorem norm_toE (a : V3) : ‖toE a‖ = len a := by
  rw [← sqrt_sq (norm_nonneg (toE a)), ← real_inner_self_eq_norm_sq, inner_toE]
  rfl

theorem angle_toE (a b : V3) : angle a b = InnerProductGeometry.angle (toE a) (toE b) := by
  unfold angle InnerProductGeometry.angle
  rw [inner_toE, norm_toE, norm_toE]

theorem cauchy (a b : V3) : dot a b ^ 2 ≤ dot a a * dot b b := by
  unfold dot
  nlinarith [sq_nonneg (a.x * b.y - a.y * b.x), sq_nonneg (a.y * b.z - a.z * b.y),
    sq_nonneg (a.z * b.x - a.x * b.z)]

theorem dot_point (lon lat : ℝ) : dot (point lon lat) (point lon lat) = 1 := by
  unfold dot point
  have h1 := sin_sq_add_cos_sq lat
  have h2 := sin_sq_add_cos_sq lon
  simp only
  linear_combination (cos lat ^ 2) * h2 + h1

theorem len_point (lon lat : ℝ) : len (point lon lat) = 1 := by
  unfold len
  rw [dot_point, sqrt_one]

theorem len_of_unit {p : V3} (h : dot p p = 1) : len p = 1 := by
  unfold len
  rw [h, sqrt_one]

theorem angle_unit {p q : V3} (hp : dot p p = 1) (hq : dot q q = 1) : angle p q = arccos (dot p q) := by
  unfold angle
  rw [len_of_unit hp, len_of_unit hq]
  simp

theorem dot_unit_range {p q : V3} (hp : dot p p = 1) (hq : dot q q = 1) : -1 ≤ dot p q ∧ dot p q ≤ 1 := by
  have := cauchy p q
  rw [hp, hq] at this
  constructor <;> nlinarith

/-! ### Normalisation and conversions -/

theorem normalize_some (p : V3) (h : dot p p ≠ 0) :
    normalize p = some ⟨p.x / len p, p.y / len p, p.z / len p⟩ ∧ 0 < len p := by
  have hl : 0 < len p := sqrt_pos.mpr (lt_of_le_of_ne (dot_self_nonneg p) (Ne.symm h))
  have e : sqrt (p.x ^ 2 + p.y ^ 2 + p.z ^ 2) = len p := by
    unfold len dot
    congr 1
    ring
  refine ⟨?_, hl⟩
  unfold normalize
  rw [e, if_neg (ne_of_gt hl)]
  simp only
  congr 1
  ext <;> simp only <;> ring

theorem normalize_none (p : V3) (h : dot p p = 0) : normalize p = none := by
  have e : sqrt (p.x ^ 2 + p.y ^ 2 + p.z ^ 2) = 0 := by
    have : p.x ^ 2 + p.y ^ 2 + p.z ^ 2 = dot p p := by unfold dot; ring
    rw [this, h, sqrt_zero]
  unfold normalize
  rw [if_pos e]

theorem normalize_unit (p : V3) (h : dot p p = 1) : normalize p = some p := by
  have := (normalize_some p (by rw [h]; exact one_ne_zero)).1
  rw [this, len_of_unit h]
  simp

theorem lonLatToXyz_eq (lon lat : ℝ) : lonLatToXyz lon lat = some (point lon lat) :=
  normalize_unit (point lon lat) (dot_point lon lat)

theorem point_of_xyz (q : V3) (h : dot q q = 1) (hc : q.x ≠ 0 ∨ q.y ≠ 0) :
    point (arctan2 q.y q.x) (arcsin q.z) = q := by
  have hz : q.z ^ 2 ≤ 1 := by unfold dot at h; nlinarith [sq_nonneg q.x, sq_nonneg q.y]
  have h1 : -1 ≤ q.z := by nlinarith
  have h2 : q.z ≤ 1 := by nlinarith
  have hne : (⟨q.x, q.y⟩ : ℂ) ≠ 0 := by
    intro h0
    have hx : q.x = 0 := congrArg Complex.re h0
    have hy : q.y = 0 := congrArg Complex.im h0
    rcases hc with hc | hc
    · exact hc hx
    · exact hc hy
  have hn : ‖(⟨q.x, q.y⟩ : ℂ)‖ = sqrt (1 - q.z ^ 2) := by
    rw [Complex.norm_eq_sqrt_sq_add_sq]
    congr 1
    unfold dot at h
    linarith
  have hpos : sqrt (1 - q.z ^ 2) ≠ 0 := by
    rw [← hn]
    exact norm_ne_zero_iff.mpr hne
  unfold point arctan2
  rw [cos_arcsin, sin_arcsin h1 h2, Complex.cos_arg hne, Complex.sin_arg, hn]
  ext <;> simp only <;> field_simp

theorem point_add_two_pi (lon lat : ℝ) : point (lon + 2 * π) lat = point lon lat := by
  unfold point
  rw [cos_add_two_pi, sin_add_two_pi]

/-- **C76** (conversion): every vector other than zero gets a longitude in [0, 2π) and a latitude in
[-π/2, π/2]; they point in its direction, exactly unless the direction is within the cut-off of a
pole.  Converting back never fails. -/
theorem C76_convert (p : V3) (h : p ≠ ⟨0, 0, 0⟩) :
    ∃ lon lat, xyzToLonLat p = some (lon, lat) ∧ 0 ≤ lon ∧ lon < 2 * π ∧ -(π / 2) ≤ lat ∧ lat ≤ π / 2 ∧
      lonLatToXyz lon lat = some (point lon lat) ∧
      sin lat = p.z / len p ∧
      (|p.x| + |p.y| ≥ len p / 10 ^ 10 →
        point lon lat = ⟨p.x / len p, p.y / len p, p.z / len p⟩) := by
  have hd : dot p p ≠ 0 := fun h0 => h (dot_self_eq_zero p h0)
  obtain ⟨hn, hl⟩ := normalize_some p hd
  have hp := pi_pos
  have hu : dot (⟨p.x / len p, p.y / len p, p.z / len p⟩ : V3) ⟨p.x / len p, p.y / len p, p.z / len p⟩ = 1 := by
    have hs := len_sq p
    unfold dot at hs ⊢
    have : len p ≠ 0 := ne_of_gt hl
    simp only
    field_simp
    linarith
  generalize hq : (⟨p.x / len p, p.y / len p, p.z / len p⟩ : V3) = q at hn hu
  have hqz : p.z / len p = q.z := by rw [← hq]
  have hz : q.z ^ 2 ≤ 1 := by unfold dot at hu; nlinarith [sq_nonneg q.x, sq_nonneg q.y]
  have hcond : |p.x| + |p.y| ≥ len p / 10 ^ 10 → |q.x| + |q.y| ≥ 1 / 10 ^ 10 := by
    intro hh
    rw [← hq]
    simp only
    rw [abs_div, abs_div, abs_of_pos hl, ← add_div, ge_iff_le, le_div_iff₀ hl]
    linarith
  unfold xyzToLonLat
  rw [hn]
  simp only
  rw [hqz]
  have hmem : -π < arctan2 q.y q.x ∧ arctan2 q.y q.x ≤ π := ⟨Complex.neg_pi_lt_arg _, Complex.arg_le_pi _⟩
  have hlat := sin_arcsin (x := q.z) (by nlinarith) (by nlinarith)
  by_cases hc : |q.x| + |q.y| ≥ 1 / 10 ^ 10
  · have hc' : q.x ≠ 0 ∨ q.y ≠ 0 := by
      by_contra hcon
      push Not at hcon
      rw [hcon.1, hcon.2] at hc
      norm_num at hc
    rw [if_pos hc]
    have he := point_of_xyz q hu hc'
    by_cases hneg : arctan2 q.y q.x < 0
    · rw [if_pos hneg]
      refine ⟨_, _, rfl, by linarith, by linarith, neg_pi_div_two_le_arcsin _, arcsin_le_pi_div_two _,
        lonLatToXyz_eq _ _, hlat, fun _ => ?_⟩
      rw [point_add_two_pi, he]
    · rw [if_neg hneg]
      exact ⟨_, _, rfl, by linarith, by linarith, neg_pi_div_two_le_arcsin _, arcsin_le_pi_div_two _,
        lonLatToXyz_eq _ _, hlat, fun _ => he⟩
  · rw [if_neg hc, if_neg (lt_irrefl _)]
    exact ⟨_, _, rfl, le_refl _, by linarith, neg_pi_div_two_le_arcsin _, arcsin_le_pi_div_two _,
      lonLatToXyz_eq _ _, hlat, fun hh => absurd (hcond hh) hc⟩

example : ∃ lon lat, xyzToLonLat ⟨3, -4, 0⟩ = some (lon, lat) ∧ 0 ≤ lon ∧ lon < 2 * π := by
  obtain ⟨lon, lat, h1, h2, h3, _⟩ := C76_convert ⟨3, -4, 0⟩ (by intro h; injection h with h; norm_num at h)
  exact ⟨lon, lat, h1, h2, h3⟩

/-- Two longitudes in [0, 2π) with the same cosine and sine are equal. -/
theorem lon_unique (a b : ℝ) (ha : 0 ≤ a) (ha' : a < 2 * π) (hb : 0 ≤ b) (hb' : b < 2 * π)
    (hc : cos a = cos b) (hs : sin a = sin b) : a = b := by
  have h1 : cos (a - b) = 1 := by
    rw [cos_sub, hc, hs]
    have := sin_sq_add_cos_sq b
    nlinarith
  rw [cos_eq_one_iff] at h1
  obtain ⟨n, hn⟩ := h1
  have hp := pi_pos
  have : n = 0 := by
    have h2 : (n : ℝ) < 1 := by nlinarith
    have h3 : (-1 : ℝ) < n := by nlinarith
    have h2' : n < 1 := by exact_mod_cast h2
    have h3' : -1 < n := by exact_mod_cast h3
    omega
  rw [this] at hn
  simp at hn
  linarith

/-- **C76** (round trip): a longitude in [0, 2π) and a latitude not within the cut-off of a pole come
back unchanged from the conversion to Cartesian coordinates and back. -/
theorem C76_round_trip (lon lat : ℝ) (h0 : 0 ≤ lon) (h1 : lon < 2 * π) (h2 : -(π / 2) ≤ lat)
    (h3 : lat ≤ π / 2) (hcut : cos lat ≥ 1 / 10 ^ 10) :
    (lonLatToXyz lon lat).bind xyzToLonLat = some (lon, lat) := by
  rw [lonLatToXyz_eq]
  show xyzToLonLat (point lon lat) = _
  have hcp : 0 < cos lat := lt_of_lt_of_le (by norm_num) hcut
  have hne : point lon lat ≠ ⟨0, 0, 0⟩ := by
    intro h
    have := dot_point lon lat
    rw [h] at this
    unfold dot at this
    norm_num at this
  obtain ⟨lon', lat', e, a1, a2, a3, a4, _, hs, hx⟩ := C76_convert _ hne
  rw [len_point] at hs hx
  have hsum : |(point lon lat).x| + |(point lon lat).y| ≥ 1 / 10 ^ 10 := by
    unfold point
    simp only
    rw [abs_mul, abs_mul, abs_of_pos hcp]
    have : 1 ≤ |cos lon| + |sin lon| := by
      have e1 := sin_sq_add_cos_sq lon
      have e2 := sq_abs (cos lon)
      have e3 := sq_abs (sin lon)
      nlinarith [abs_nonneg (cos lon), abs_nonneg (sin lon), abs_cos_le_one lon, abs_sin_le_one lon]
    nlinarith
  have hpt := hx hsum
  simp only [div_one] at hpt hs
  have hlat : lat' = lat := by
    have : sin lat' = sin lat := by rw [hs]; rfl
    exact injOn_sin ⟨a3, a4⟩ ⟨h2, h3⟩ this
  subst hlat
  have hc : cos lon' = cos lon := by
    have : cos lat' * cos lon' = cos lat' * cos lon := congrArg V3.x hpt
    exact mul_left_cancel₀ (ne_of_gt hcp) this
  have hs' : sin lon' = sin lon := by
    have : cos lat' * sin lon' = cos lat' * sin lon := congrArg V3.y hpt
    exact mul_left_cancel₀ (ne_of_gt hcp) this
  rw [e, lon_unique lon' lon a1 a2 h0 h1 hc hs']

example : (lonLatToXyz 5 (-1)).bind xyzToLonLat = some (5, -1) := by
  have hp := pi_gt_three
  apply C76_round_trip <;> try linarith
  have h1 : cos (-1 : ℝ) = cos 1 := cos_neg 1
  have h2 : cos (π / 3) < cos (1 : ℝ) := cos_lt_cos_of_nonneg_of_le_pi_div_two (by norm_num) (by linarith) (by linarith)
  rw [cos_pi_div_three] at h2
  rw [h1]
  linarith

/-! ### Distances -/

theorem haversine (c : ℝ) (h1 : -1 ≤ c) (h2 : c ≤ 1) : arcsin (sqrt ((1 - c) / 2)) * 2 = arccos c := by
  have h0 := arccos_nonneg c
  have hpi := arccos_le_pi c
  have hc : c = cos (arccos c) := (cos_arccos h1 h2).symm
  have hd : (1 - c) / 2 = sin (arccos c / 2) ^ 2 := by
    rw [sin_sq_eq_half_sub, show 2 * (arccos c / 2) = arccos c by ring, ← hc]
    ring
  have hs : 0 ≤ sin (arccos c / 2) := sin_nonneg_of_nonneg_of_le_pi (by linarith) (by linarith)
  rw [hd, sqrt_sq hs, arcsin_sin (by linarith) (by linarith)]
  ring

theorem haversine_arg (lon1 lon2 lat1 lat2 : ℝ) :
    sin ((lat1 - lat2) / 2) ^ 2 + cos lat1 * cos lat2 * sin ((lon1 - lon2) / 2) ^ 2 =
      (1 - dot (point lon1 lat1) (point lon2 lat2)) / 2 := by
  rw [sin_sq_eq_half_sub, sin_sq_eq_half_sub, show 2 * ((lat1 - lat2) / 2) = lat1 - lat2 by ring,
    show 2 * ((lon1 - lon2) / 2) = lon1 - lon2 by ring, cos_sub, cos_sub]
  unfold dot point
  simp only
  ring

/-- **C76** (distance): the great circle distance is the radius times the angle between the two
directions. -/
theorem C76_distance (lon1 lon2 lat1 lat2 radius : ℝ) :
    distLonLat lon1 lon2 lat1 lat2 radius = radius * angle (point lon1 lat1) (point lon2 lat2) := by
  have hr := dot_unit_range (dot_point lon1 lat1) (dot_point lon2 lat2)
  unfold distLonLat beta
  rw [haversine_arg, haversine _ hr.1 hr.2, angle_unit (dot_point _ _) (dot_point _ _)]

/-- **C76** (a metric): for a positive radius distances are at most half the circumference, zero
exactly between points in the same place, symmetric, and obey the triangle inequality. -/
theorem C76_metric (radius : ℝ) (hr : 0 < radius) (a b c : ℝ × ℝ) :
    let d := fun p q : ℝ × ℝ => distLonLat p.1 q.1 p.2 q.2 radius
    0 ≤ d a b ∧ d a b ≤ π * radius ∧ d a b = d b a ∧ d a c ≤ d a b + d b c ∧
      (d a b = 0 ↔ point a.1 a.2 = point b.1 b.2) := by
  simp only [C76_distance]
  have hab := dot_unit_range (dot_point a.1 a.2) (dot_point b.1 b.2)
  refine ⟨?_, ?_, ?_, ?_, ?_⟩
  · exact mul_nonneg (le_of_lt hr) (arccos_nonneg _)
  · rw [mul_comm]
    exact mul_le_mul_of_nonneg_right (arccos_le_pi _) (le_of_lt hr)
  · unfold angle
    rw [dot_comm, mul_comm (len _)]
  · rw [← mul_add]
    apply mul_le_mul_of_nonneg_left _ (le_of_lt hr)
    rw [angle_toE, angle_toE, angle_toE]
    exact InnerProductGeometry.angle_le_angle_add_angle _ _ _
  · rw [mul_eq_zero, or_iff_right (ne_of_gt hr), angle_unit (dot_point _ _) (dot_point _ _), arccos_eq_zero]
    constructor
    · intro h
      have h1 : dot (point a.1 a.2) (point b.1 b.2) = 1 := le_antisymm hab.2 h
      have ha := dot_point a.1 a.2
      have hb := dot_point b.1 b.2
      generalize point a.1 a.2 = p at h1 ha
      generalize point b.1 b.2 = q at h1 hb
      unfold dot at h1 ha hb
      have : (p.x - q.x) ^ 2 + (p.y - q.y) ^ 2 + (p.z - q.z) ^ 2 = 0 := by nlinarith
      ext <;> nlinarith [sq_nonneg (p.x - q.x), sq_nonneg (p.y - q.y), sq_nonneg (p.z - q.z)]
    · intro h
      rw [h, dot_point]

/-- From the equator at longitude 0 to the pole it is a quarter of the circumference. -/
example : distLonLat 0 1 0 (π / 2) 2 = π := by
  rw [C76_distance, angle_unit (dot_point _ _) (dot_point _ _)]
  unfold dot point
  simp
  ring

/-! ### Midpoints -/

theorem half_angle (c : ℝ) (h1 : -1 < c) (h2 : c ≤ 1) : arccos (sqrt ((1 + c) / 2)) = arccos c / 2 := by
  have h0 := arccos_nonneg c
  have hpi := arccos_le_pi c
  have hc : c = cos (arccos c) := (cos_arccos (le_of_lt h1) h2).symm
  have hd : (1 + c) / 2 = cos (arccos c / 2) ^ 2 := by
    rw [cos_sq, show 2 * (arccos c / 2) = arccos c by ring, ← hc]
    ring
  have hs : 0 ≤ cos (arccos c / 2) := cos_nonneg_of_neg_pi_div_two_le_of_le (by linarith) (by linarith)
  rw [hd, sqrt_sq hs, arccos_cos (by linarith) (by linarith)]

/-- **C76** (midpoint): the midpoint of two unit vectors that are not opposite is a unit vector, at
half their angle from each. -/
theorem C76_midpoint (p q : V3) (hp : len p = 1) (hq : len q = 1) (hne : angle p q ≠ π) :
    ∃ m, midpoint p q = some m ∧ len m = 1 ∧ angle p m = angle p q / 2 ∧ angle m q = angle p q / 2 := by
  have hp' : dot p p = 1 := by rw [← len_sq, hp]; norm_num
  have hq' : dot q q = 1 := by rw [← len_sq, hq]; norm_num
  have hr := dot_unit_range hp' hq'
  have hlt : -1 < dot p q := by
    refine lt_of_le_of_ne hr.1 ?_
    intro h
    apply hne
    rw [angle_unit hp' hq', ← h, arccos_neg_one]
  let s : V3 := ⟨p.x + q.x, p.y + q.y, p.z + q.z⟩
  have hs : dot s s = 2 * (1 + dot p q) := by
    have : dot s s = dot p p + dot q q + 2 * dot p q := by unfold dot; simp only [s]; ring
    rw [this, hp', hq']
    ring
  obtain ⟨hn, hl⟩ := normalize_some s (by rw [hs]; intro h; linarith)
  have hl2 := len_sq s
  rw [hs] at hl2
  have hm : dot (⟨s.x / len s, s.y / len s, s.z / len s⟩ : V3) ⟨s.x / len s, s.y / len s, s.z / len s⟩ = 1 := by
    have h1 := len_sq s
    unfold dot at h1 ⊢
    have : len s ≠ 0 := ne_of_gt hl
    simp only at h1 ⊢
    field_simp
    linarith
  have hval : (1 + dot p q) / len s = sqrt ((1 + dot p q) / 2) := by
    symm
    rw [sqrt_eq_iff_mul_self_eq (by linarith) (by apply div_nonneg <;> linarith)]
    have : len s ≠ 0 := ne_of_gt hl
    field_simp
    nlinarith
  have hpm : dot p ⟨s.x / len s, s.y / len s, s.z / len s⟩ = sqrt ((1 + dot p q) / 2) := by
    rw [← hval, ← hp']
    unfold dot
    simp only [s]
    ring
  have hmq : dot ⟨s.x / len s, s.y / len s, s.z / len s⟩ q = sqrt ((1 + dot p q) / 2) := by
    rw [← hval, ← hq']
    unfold dot
    simp only [s]
    ring
  refine ⟨_, hn, len_of_unit hm, ?_, ?_⟩
  · rw [angle_unit hp' hm, angle_unit hp' hq', hpm, half_angle _ hlt hr.2]
  · rw [angle_unit hm hq', angle_unit hp' hq', hmq, half_angle _ hlt hr.2]

/-- **C76** (midpoint of positions): the midpoint of two positions that are not opposite each other is
half their distance from each, unless it is within the cut-off of a pole. -/
theorem C76_lon_lat_midpoint (lon1 lon2 lat1 lat2 radius : ℝ)
    (hne : point lon1 lat1 ≠ ⟨-(point lon2 lat2).x, -(point lon2 lat2).y, -(point lon2 lat2).z⟩) :
    ∃ lon lat, lonLatMidpoint lon1 lon2 lat1 lat2 = some (lon, lat) ∧
      0 ≤ lon ∧ lon < 2 * π ∧ -(π / 2) ≤ lat ∧ lat ≤ π / 2 ∧
      (cos lat ≥ 1 / 10 ^ 10 →
        distLonLat lon1 lon lat1 lat radius = distLonLat lon1 lon2 lat1 lat2 radius / 2 ∧
        distLonLat lon lon2 lat lat2 radius = distLonLat lon1 lon2 lat1 lat2 radius / 2) := by
  have hang : angle (point lon1 lat1) (point lon2 lat2) ≠ π := by
    intro h
    rw [angle_unit (dot_point _ _) (dot_point _ _), arccos_eq_pi] at h
    apply hne
    have ha := dot_point lon1 lat1
    have hb := dot_point lon2 lat2
    have hr := dot_unit_range ha hb
    generalize point lon1 lat1 = p at *
    generalize point lon2 lat2 = q at *
    have h1 : dot p q = -1 := le_antisymm h hr.1
    unfold dot at h1 ha hb
    have : (p.x + q.x) ^ 2 + (p.y + q.y) ^ 2 + (p.z + q.z) ^ 2 = 0 := by nlinarith
    ext <;> simp only <;> nlinarith [sq_nonneg (p.x + q.x), sq_nonneg (p.y + q.y), sq_nonneg (p.z + q.z)]
  obtain ⟨m, hm, hlen, h1, h2⟩ := C76_midpoint _ _ (len_point lon1 lat1) (len_point lon2 lat2) hang
  have hm0 : m ≠ ⟨0, 0, 0⟩ := by
    intro h
    rw [h] at hlen
    unfold len dot at hlen
    norm_num at hlen
  obtain ⟨lon, lat, e, a1, a2, a3, a4, _, hs, hx⟩ := C76_convert m hm0
  refine ⟨lon, lat, ?_, a1, a2, a3, a4, ?_⟩
  · unfold lonLatMidpoint
    rw [lonLatToXyz_eq, lonLatToXyz_eq]
    simp only
    rw [hm]
    exact e
  · intro hcut
    rw [hlen] at hx hs
    have hsum : |m.x| + |m.y| ≥ 1 / 10 ^ 10 := by
      have hmm : dot m m = 1 := by rw [← len_sq, hlen]; norm_num
      have hz : m.z = sin lat := by rw [hs]; ring
      have hcs := sin_sq_add_cos_sq lat
      have hxy : m.x ^ 2 + m.y ^ 2 = cos lat ^ 2 := by
        unfold dot at hmm
        rw [hz] at hmm
        linarith
      have hcp : 0 ≤ cos lat := le_trans (by norm_num) hcut
      have : cos lat ≤ |m.x| + |m.y| := by
        apply abs_le_of_sq_le_sq' _ (by positivity) |>.2
        rw [← hxy, ← sq_abs m.x, ← sq_abs m.y]
        nlinarith [abs_nonneg m.x, abs_nonneg m.y]
      linarith
    have hpt := hx hsum
    simp only [div_one] at hpt
    rw [C76_distance, C76_distance, C76_distance, hpt]
    rw [show (⟨m.x, m.y, m.z⟩ : V3) = m from rfl, h1, h2]
    constructor <;> ring

/-- **C76** (false as stated for opposite points): the midpoint of opposite points is `NaN`. -/
theorem C76_midpoint_violated : lonLatMidpoint 0 π 0 0 = none := by
  unfold lonLatMidpoint
  rw [lonLatToXyz_eq, lonLatToXyz_eq]
  simp only
  have : midpoint (point 0 0) (point π 0) = none := by
    apply normalize_none
    unfold dot point
    simp
  rw [this]

/-! ### Angles -/

theorem sumMul_eq (a b : V3) : sumMul a b = dot a b := rfl

theorem lagrange (p q r : V3) : dot (cross p q) (cross p r) = dot p p * dot q r - dot p q * dot p r := by
  unfold dot cross
  simp only
  ring

theorem tangent_dot (p q r : V3) (hp : dot p p = 1) :
    dot (tangent p q) (tangent p r) = dot (cross p q) (cross p r) := by
  rw [lagrange, hp]
  have : dot (tangent p q) (tangent p r) = dot q r - 2 * (dot p q * dot p r) + dot p q * dot p r * dot p p := by
    unfold tangent
    generalize hA : dot p q = A
    generalize hB : dot p r = B
    unfold dot at *
    simp only
    rw [← hA, ← hB]
    ring
  rw [this, hp]
  ring

theorem sphericalAngle_eq (p q r : V3) (h : dot (cross p q) (cross p q) * dot (cross p r) (cross p r) ≠ 0) :
    sphericalAngle p q r = angle (cross p q) (cross p r) := by
  unfold sphericalAngle
  simp only
  have hnn : 0 ≤ dot (cross p q) (cross p q) * dot (cross p r) (cross p r) :=
    mul_nonneg (dot_self_nonneg _) (dot_self_nonneg _)
  rw [if_neg (by rw [sumMul_eq, sumMul_eq]; exact (sqrt_ne_zero hnn).mpr h)]
  unfold angle len
  rw [sumMul_eq, sumMul_eq, sumMul_eq, sqrt_mul (dot_self_nonneg _)]

theorem sphericalAngle_zero (p q r : V3) (h : dot (cross p q) (cross p q) * dot (cross p r) (cross p r) = 0) :
    sphericalAngle p q r = 0 := by
  unfold sphericalAngle
  simp only
  rw [sumMul_eq, sumMul_eq, h, sqrt_zero, if_pos rfl]

/-- **C76** (angles): at a point of the unit sphere, the spherical angle is the angle between the
directions in which the two arcs leave; it is 0 when one of the arcs has no direction. -/
theorem C76_angle (p q r : V3) (hp : len p = 1) :
    (tangent p q ≠ ⟨0, 0, 0⟩ → tangent p r ≠ ⟨0, 0, 0⟩ →
      sphericalAngle p q r = angle (tangent p q) (tangent p r)) ∧
    (tangent p q = ⟨0, 0, 0⟩ ∨ tangent p r = ⟨0, 0, 0⟩ → sphericalAngle p q r = 0) := by
  have hp' : dot p p = 1 := by rw [← len_sq, hp]; norm_num
  constructor
  · intro h1 h2
    have e1 := tangent_dot p q q hp'
    have e2 := tangent_dot p r r hp'
    have e3 := tangent_dot p q r hp'
    rw [sphericalAngle_eq]
    · unfold angle len
      rw [e1, e2, e3]
    · rw [← e1, ← e2]
      exact mul_ne_zero (fun h => h1 (dot_self_eq_zero _ h)) (fun h => h2 (dot_self_eq_zero _ h))
  · intro h
    apply sphericalAngle_zero
    rw [← tangent_dot p q q hp', ← tangent_dot p r r hp']
    rcases h with h | h <;> rw [h] <;> unfold dot <;> simp

/-- A right angle at the north pole, between the meridians of longitude 0 and 90 degrees. -/
example : sphericalAngle ⟨0, 0, 1⟩ ⟨1, 0, 0⟩ ⟨0, 1, 0⟩ = π / 2 := by
  have hl : len (⟨0, 0, 1⟩ : V3) = 1 := by unfold len dot; norm_num
  rw [(C76_angle _ _ _ hl).1]
  · unfold angle tangent dot
    norm_num
  · unfold tangent dot; intro h; injection h with h; norm_num at h
  · unfold tangent dot; intro h; injection h with h1 h2; norm_num at h2

/-- **C76** (angles are between 0 and π, symmetric, and do not change when the sphere is moved by any
map that keeps scalar products). -/
theorem C76_angle_props (p q r : V3) :
    0 ≤ sphericalAngle p q r ∧ sphericalAngle p q r ≤ π ∧ sphericalAngle p q r = sphericalAngle p r q ∧
    ∀ f : V3 → V3, (∀ a b, dot (f a) (f b) = dot a b) →
      sphericalAngle (f p) (f q) (f r) = sphericalAngle p q r := by
  refine ⟨?_, ?_, ?_, ?_⟩
  · unfold sphericalAngle
    simp only
    split
    · exact le_refl _
    · exact arccos_nonneg _
  · unfold sphericalAngle
    simp only
    split
    · exact le_of_lt pi_pos
    · exact arccos_le_pi _
  · by_cases h : dot (cross p q) (cross p q) * dot (cross p r) (cross p r) = 0
    · rw [sphericalAngle_zero _ _ _ h, sphericalAngle_zero _ _ _ (by rw [mul_comm]; exact h)]
    · rw [sphericalAngle_eq _ _ _ h, sphericalAngle_eq _ _ _ (by rw [mul_comm]; exact h)]
      unfold angle
      rw [dot_comm, mul_comm (len _)]
  · intro f hf
    unfold sphericalAngle
    simp only [sumMul_eq]
    simp only [lagrange, hf]

/-- **C76** (the Fortran form): the two functions for spherical angles agree. -/
theorem C76_fortran (p q r : V3) : fortranAngle p q r = sphericalAngle p q r := by
  have e1 : (p.y * q.z - p.z * q.y) * (p.y * q.z - p.z * q.y) +
      (p.z * q.x - p.x * q.z) * (p.z * q.x - p.x * q.z) +
      (p.x * q.y - p.y * q.x) * (p.x * q.y - p.y * q.x) = dot (cross p q) (cross p q) := rfl
  have e2 : (p.y * r.z - p.z * r.y) * (p.y * r.z - p.z * r.y) +
      (p.z * r.x - p.x * r.z) * (p.z * r.x - p.x * r.z) +
      (p.x * r.y - p.y * r.x) * (p.x * r.y - p.y * r.x) = dot (cross p r) (cross p r) := rfl
  have e3 : (p.y * q.z - p.z * q.y) * (p.y * r.z - p.z * r.y) +
      (p.z * q.x - p.x * q.z) * (p.z * r.x - p.x * r.z) +
      (p.x * q.y - p.y * q.x) * (p.x * r.y - p.y * r.x) = dot (cross p q) (cross p r) := rfl
  have hnn : 0 ≤ dot (cross p q) (cross p q) * dot (cross p r) (cross p r) :=
    mul_nonneg (dot_self_nonneg _) (dot_self_nonneg _)
  have hcs := cauchy (cross p q) (cross p r)
  unfold fortranAngle
  simp only [e1, e2, e3]
  by_cases h : dot (cross p q) (cross p q) * dot (cross p r) (cross p r) = 0
  · rw [if_pos (le_of_eq h), sphericalAngle_zero _ _ _ h]
  · have hpos := lt_of_le_of_ne hnn (Ne.symm h)
    rw [if_neg (not_le.mpr hpos), sphericalAngle_eq _ _ _ h]
    have hsp := sqrt_pos.mpr hpos
    have habs : |dot (cross p q) (cross p r) / sqrt (dot (cross p q) (cross p q) * dot (cross p r) (cross p r))| ≤ 1 := by
      rw [abs_div, abs_of_pos hsp, div_le_one hsp]
      exact abs_le_sqrt hcs
    rw [if_neg (not_lt.mpr habs)]
    unfold angle len
    rw [sqrt_mul (dot_self_nonneg _)]

/-- **C76** (false as stated in the code's comment): the angle can be equal to π. -/
theorem C76_less_than_pi_violated : sphericalAngle ⟨1, 0, 0⟩ ⟨0, 1, 0⟩ ⟨0, -1, 0⟩ = π := by
  rw [sphericalAngle_eq]
  · unfold angle len cross dot
    norm_num
  · unfold cross dot
    norm_num

/-! ### Directions -/

/-- **C76** (unit vectors): the longitude and latitude directions at a point are unit vectors, at
right angles to each other and to the vertical. -/
theorem C76_lonlat_vect (lon lat : ℝ) :
    len (lonVect lon lat) = 1 ∧ len (latVect lon lat) = 1 ∧ dot (lonVect lon lat) (latVect lon lat) = 0 ∧
    dot (lonVect lon lat) (point lon lat) = 0 ∧ dot (latVect lon lat) (point lon lat) = 0 ∧
    cross (point lon lat) (lonVect lon lat) = latVect lon lat := by
  have h1 := sin_sq_add_cos_sq lat
  have h2 := sin_sq_add_cos_sq lon
  refine ⟨?_, ?_, ?_, ?_, ?_, ?_⟩
  · apply len_of_unit
    unfold dot lonVect
    simp only
    linear_combination h2
  · apply len_of_unit
    unfold dot latVect
    simp only
    linear_combination (sin lat ^ 2) * h2 + h1
  · unfold dot lonVect latVect; simp only; ring
  · unfold dot lonVect point; simp only; ring
  · unfold dot latVect point
    simp only
    linear_combination (-(sin lat * cos lat)) * h2
  · unfold cross lonVect latVect point
    ext <;> simp only
    · ring
    · ring
    · linear_combination (cos lat) * h2

theorem cross_ne (p q : V3) (hp : dot p p = 1) (hq : dot q q = 1) (h1 : dot p q ≠ 1) (h2 : dot p q ≠ -1) :
    dot (cross q p) (cross q p) ≠ 0 := by
  rw [lagrange, hp, hq]
  intro h
  have : (1 - dot p q) * (1 + dot p q) = 0 := by rw [dot_comm q p] at h; linarith
  rcases mul_eq_zero.mp this with h | h
  · exact h1 (by linarith)
  · exact h2 (by linarith)

/-- **C76** (direction between points): for two positions neither equal nor opposite, the unit vector
is at right angles to the vertical at their midpoint, and is the direction from the first towards the
second: a positive multiple of their difference. -/
theorem C76_direction (lon1 lat1 lon2 lat2 : ℝ)
    (h1 : angle (point lon1 lat1) (point lon2 lat2) ≠ 0)
    (h2 : angle (point lon1 lat1) (point lon2 lat2) ≠ π) :
    ∃ u k, unitVectorDirection lon1 lat1 lon2 lat2 = some u ∧ len u = 1 ∧ 0 < k ∧
      u = ⟨k * ((point lon2 lat2).x - (point lon1 lat1).x), k * ((point lon2 lat2).y - (point lon1 lat1).y),
        k * ((point lon2 lat2).z - (point lon1 lat1).z)⟩ := by
  have hp := dot_point lon1 lat1
  have hq := dot_point lon2 lat2
  have hr := dot_unit_range hp hq
  obtain ⟨m, hm, hlen, hm1, hm2⟩ := C76_midpoint _ _ (len_point lon1 lat1) (len_point lon2 lat2) h2
  unfold unitVectorDirection
  rw [lonLatToXyz_eq, lonLatToXyz_eq]
  simp only
  rw [hm]
  simp only
  rw [angle_unit hp hq] at h1 h2
  generalize point lon1 lat1 = p at *
  generalize point lon2 lat2 = q at *
  have hlt1 : dot p q ≠ 1 := fun h => h1 (by rw [h, arccos_one])
  have hlt2 : dot p q ≠ -1 := fun h => h2 (by rw [h, arccos_neg_one])
  -- the midpoint as a multiple of the sum
  let s : V3 := ⟨p.x + q.x, p.y + q.y, p.z + q.z⟩
  have hs : dot s s = 2 * (1 + dot p q) := by
    have : dot s s = dot p p + dot q q + 2 * dot p q := by unfold dot; simp only [s]; ring
    rw [this, hp, hq]
    ring
  have hspos : dot s s ≠ 0 := by
    rw [hs]; intro h; exact hlt2 (by linarith)
  obtain ⟨hn, hl⟩ := normalize_some s hspos
  have hms : m = ⟨s.x / len s, s.y / len s, s.z / len s⟩ := by
    have : midpoint p q = normalize s := rfl
    rw [this, hn] at hm
    exact (Option.some.inj hm).symm
  let d : V3 := ⟨q.x - p.x, q.y - p.y, q.z - p.z⟩
  let c : ℝ := (1 + dot p q) / len s
  have hcpos : 0 < c := by
    apply div_pos _ hl
    refine lt_of_le_of_ne (by linarith [hr.1]) ?_
    intro h
    exact hlt2 (by linarith)
  have hcross : cross m (cross q p) = ⟨c * d.x, c * d.y, c * d.z⟩ := by
    rw [hms]
    have e1 : c = (dot p p + dot p q) / len s := by rw [hp]
    have e2 : c = (dot q q + dot p q) / len s := by rw [hq]
    have hx : c * d.x = (q.x * (dot p p + dot p q) - p.x * (dot q q + dot p q)) / len s := by
      have : c * d.x = q.x * c - p.x * c := by simp only [d]; ring
      rw [this]
      nth_rewrite 1 [e1]
      rw [e2]
      ring
    have hy : c * d.y = (q.y * (dot p p + dot p q) - p.y * (dot q q + dot p q)) / len s := by
      have : c * d.y = q.y * c - p.y * c := by simp only [d]; ring
      rw [this]
      nth_rewrite 1 [e1]
      rw [e2]
      ring
    have hz : c * d.z = (q.z * (dot p p + dot p q) - p.z * (dot q q + dot p q)) / len s := by
      have : c * d.z = q.z * c - p.z * c := by simp only [d]; ring
      rw [this]
      nth_rewrite 1 [e1]
      rw [e2]
      ring
    rw [hx, hy, hz]
    unfold cross dot
    ext <;> simp only [s] <;> ring
  have hdd : dot (⟨c * d.x, c * d.y, c * d.z⟩ : V3) ⟨c * d.x, c * d.y, c * d.z⟩ = c ^ 2 * dot d d := by
    unfold dot; simp only; ring
  have hdne : dot d d ≠ 0 := by
    have : dot d d = dot p p + dot q q - 2 * dot p q := by unfold dot; simp only [d]; ring
    rw [this, hp, hq]
    intro h
    exact hlt1 (by linarith)
  obtain ⟨hn2, hl2⟩ := normalize_some ⟨c * d.x, c * d.y, c * d.z⟩
    (by rw [hdd]; exact mul_ne_zero (pow_ne_zero 2 (ne_of_gt hcpos)) hdne)
  have hls := len_sq (⟨c * d.x, c * d.y, c * d.z⟩ : V3)
  rw [hcross, hn2]
  generalize len (⟨c * d.x, c * d.y, c * d.z⟩ : V3) = L at *
  refine ⟨_, c / L, rfl, ?_, div_pos hcpos hl2, ?_⟩
  · apply len_of_unit
    unfold dot at hls ⊢
    have : L ≠ 0 := ne_of_gt hl2
    simp only at hls ⊢
    field_simp
    linarith
  · ext <;> simp only [d] <;> ring

end NDSL.Sphere
