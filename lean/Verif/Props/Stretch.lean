import Verif.Model.Stretch
import Verif.Spec.Stretch
import Mathlib.Tactic.Linarith
import Mathlib.Tactic.FieldSimp
import Mathlib.Tactic.LinearCombination

/-! Property C75: the stretched grid. -/
namespace NDSL.Stretch
open Real

/-! ### The specification is a rotation -/

theorem dot_point (lon lat : ℝ) : dot (point lon lat) (point lon lat) = 1 := by
  unfold dot point
  have h1 := sin_sq_add_cos_sq lat
  have h2 := sin_sq_add_cos_sq lon
  simp only
  linear_combination (cos lat ^ 2) * h2 + h1

/-- **C75** (the specification is what it says): `turn` keeps angles and orientation, and takes the
south pole to the target. -/
theorem C75_turn (lonP latP : ℝ) (a b c : ℝ × ℝ × ℝ) :
    dot (turn lonP latP a) (turn lonP latP b) = dot a b ∧
    det (turn lonP latP a) (turn lonP latP b) (turn lonP latP c) = det a b c ∧
    turn lonP latP (0, 0, -1) = point lonP latP := by
  have h1 := sin_sq_add_cos_sq latP
  have h2 := sin_sq_add_cos_sq lonP
  refine ⟨?_, ?_, ?_⟩
  · have h1' : sin latP ^ 2 = 1 - cos latP ^ 2 := by linarith
    have h2' : sin lonP ^ 2 = 1 - cos lonP ^ 2 := by linarith
    unfold dot turn
    simp only
    ring_nf
    rw [h1', h2']
    ring
  · have h1' : sin latP ^ 2 = 1 - cos latP ^ 2 := by linarith
    have h2' : sin lonP ^ 2 = 1 - cos lonP ^ 2 := by linarith
    unfold det turn
    simp only
    ring_nf
    rw [h1', h2']
    ring
  · unfold turn point
    simp only
    ext <;> simp <;> ring

/-! ### Longitudes -/

theorem wrap_trig (x : ℝ) : cos (wrap x) = cos x ∧ sin (wrap x) = sin x := by
  unfold wrap
  simp only
  split <;> split <;> simp [sub_eq_add_neg, add_assoc, cos_add_two_pi, sin_add_two_pi] <;>
    constructor <;> simp [← sub_eq_add_neg, cos_sub_two_pi, sin_sub_two_pi]

theorem wrap_range (x : ℝ) (h1 : -(2 * π) ≤ x) (h2 : x < 4 * π) : 0 ≤ wrap x ∧ wrap x < 2 * π := by
  have hp := pi_pos
  unfold wrap
  simp only
  split <;> split <;> constructor <;> linarith

theorem wrap_id (x : ℝ) (h1 : 0 ≤ x) (h2 : x < 2 * π) : wrap x = x := by
  unfold wrap
  simp only
  rw [if_neg (not_lt.mpr h1), if_neg (not_le.mpr h2)]

theorem arctan2_mem (y x : ℝ) : -π < arctan2 y x ∧ arctan2 y x ≤ π :=
  ⟨Complex.neg_pi_lt_arg _, Complex.arg_le_pi _⟩

/-! ### Translation -/

theorem point_shift (lonP t r x y z lat : ℝ) (hr : cos lat = r) (hc : r * cos t = x) (hs : r * sin t = y)
    (hz : sin lat = z) :
    point (lonP + t) lat = (cos lonP * x - sin lonP * y, sin lonP * x + cos lonP * y, z) := by
  unfold point
  rw [cos_add, sin_add, hz, hr, ← hc, ← hs]
  ext <;> simp <;> ring

theorem translate_exact (lonP latP lon latT : ℝ) (h : ¬ 1 - |sinO latP lon latT| < 1 / 10 ^ 7) :
    point (translate lonP latP lon latT).1 (translate lonP latP lon latT).2 =
      turn lonP latP (point lon latT) := by
  unfold translate
  simp only
  rw [if_neg h]
  simp only
  have ho : |sinO latP lon latT| < 1 := by
    have : (0 : ℝ) < 1 / 10 ^ 7 := by positivity
    linarith
  have hsin : sin (arcsin (sinO latP lon latT)) = sinO latP lon latT :=
    sin_arcsin (by linarith [neg_abs_le (sinO latP lon latT)]) (by linarith [le_abs_self (sinO latP lon latT)])
  have hpos : 0 < 1 - sinO latP lon latT ^ 2 := by
    have : sinO latP lon latT ^ 2 < 1 := (sq_lt_one_iff_abs_lt_one _).mpr ho
    linarith
  have hx : (-sin latT * cos latP + cos latT * sin latP * cos lon) ^ 2 + (-cos latT * sin lon) ^ 2 =
      1 - sinO latP lon latT ^ 2 := by
    unfold sinO
    have h1 := sin_sq_add_cos_sq latP
    have h2 := sin_sq_add_cos_sq lon
    have h3 := sin_sq_add_cos_sq latT
    have h1' : sin latP ^ 2 = 1 - cos latP ^ 2 := by linarith
    have h2' : sin lon ^ 2 = 1 - cos lon ^ 2 := by linarith
    have h3' : sin latT ^ 2 = 1 - cos latT ^ 2 := by linarith
    ring_nf
    rw [h1', h2', h3']
    ring
  have hnorm : ‖(⟨-sin latT * cos latP + cos latT * sin latP * cos lon, -cos latT * sin lon⟩ : ℂ)‖ =
      sqrt (1 - sinO latP lon latT ^ 2) := by
    rw [← hx, Complex.norm_eq_sqrt_sq_add_sq]
  have hne : (⟨-sin latT * cos latP + cos latT * sin latP * cos lon, -cos latT * sin lon⟩ : ℂ) ≠ 0 := by
    intro h0
    rw [h0, norm_zero] at hnorm
    have := sqrt_pos.mpr hpos
    linarith
  have hsq : sqrt (1 - sinO latP lon latT ^ 2) ≠ 0 := ne_of_gt (sqrt_pos.mpr hpos)
  have key := point_shift lonP
    (arctan2 (-cos latT * sin lon) (-sin latT * cos latP + cos latT * sin latP * cos lon))
    (sqrt (1 - sinO latP lon latT ^ 2))
    (-sin latT * cos latP + cos latT * sin latP * cos lon) (-cos latT * sin lon) (sinO latP lon latT)
    (arcsin (sinO latP lon latT)) (cos_arcsin _)
    (by unfold arctan2; rw [Complex.cos_arg hne, hnorm]; field_simp)
    (by unfold arctan2; rw [Complex.sin_arg, hnorm]; field_simp) hsin
  have hw : ∀ a b : ℝ, point (wrap a) b = point a b := by
    intro a b
    unfold point
    rw [(wrap_trig a).1, (wrap_trig a).2]
  rw [hw, key]
  unfold turn point sinO
  refine Prod.ext ?_ (Prod.ext ?_ ?_) <;> simp only <;> ring

theorem sinO_turn (lonP latP lon latT : ℝ) :
    (turn lonP latP (point lon latT)).2.2 = sinO latP lon latT := by
  unfold turn point sinO
  simp only
  ring

theorem translate_near (lonP latP lon latT : ℝ) (h : 1 - |sinO latP lon latT| < 1 / 10 ^ 7) :
    dot (point (translate lonP latP lon latT).1 (translate lonP latP lon latT).2)
      (turn lonP latP (point lon latT)) > 1 - 1 / 10 ^ 7 := by
  have hne : sinO latP lon latT ≠ 0 := by
    intro h0
    rw [h0] at h
    norm_num at h
  unfold translate
  simp only
  rw [if_pos h, abs_of_pos (by linarith [pi_pos] : (0 : ℝ) < π / 2)]
  unfold dot
  rw [sinO_turn]
  rcases lt_or_gt_of_ne hne with ho | ho
  · have : SignType.sign (sinO latP lon latT) = -1 := sign_neg ho
    rw [this]
    unfold point
    rw [abs_of_neg ho] at h
    simp
    linarith
  · have : SignType.sign (sinO latP lon latT) = 1 := sign_pos ho
    rw [this]
    unfold point
    rw [abs_of_pos ho] at h
    simp
    linarith

/-! ### Stretching -/

theorem den_pos (s lat : ℝ) (hs : s ≠ 0) :
    0 < 1 + s ^ 2 + (1 - s ^ 2) * sin lat := by
  have h1 := neg_one_le_sin lat
  have h2 := sin_le_one lat
  have h3 : 0 < s ^ 2 := by positivity
  rcases lt_or_ge 0 (sin lat) with h | h
  · nlinarith
  · nlinarith

theorem stretch_sin (s lat : ℝ) (hs : s ≠ 0) (hc : |1 - s ^ 2| > 1 / 10 ^ 7) :
    sin (stretchLat s lat) =
      (1 - s ^ 2 + (1 + s ^ 2) * sin lat) / (1 + s ^ 2 + (1 - s ^ 2) * sin lat) := by
  have hd := den_pos s lat hs
  have h1 := neg_one_le_sin lat
  have h2 := sin_le_one lat
  have h3 : 0 < s ^ 2 := by positivity
  unfold stretchLat
  simp only
  rw [if_pos hc]
  apply sin_arcsin
  · rw [le_div_iff₀ hd]; nlinarith
  · rw [div_le_one hd]; nlinarith

theorem stretch_mem (s lat : ℝ) (h : -(π / 2) ≤ lat ∧ lat ≤ π / 2) :
    -(π / 2) ≤ stretchLat s lat ∧ stretchLat s lat ≤ π / 2 := by
  unfold stretchLat
  simp only
  split
  · exact ⟨neg_pi_div_two_le_arcsin _, arcsin_le_pi_div_two _⟩
  · exact h

theorem tan_half_sq (x : ℝ) (h1 : -(π / 2) ≤ x) (h2 : x < π / 2) :
    tan ((π / 2 + x) / 2) ^ 2 = (1 + sin x) / (1 - sin x) ∧ 0 ≤ tan ((π / 2 + x) / 2) ∧ 0 < 1 - sin x := by
  have hp := pi_pos
  have hcos : 0 < cos ((π / 2 + x) / 2) := cos_pos_of_mem_Ioo ⟨by linarith, by linarith⟩
  have hsx : sin x = 1 - 2 * cos ((π / 2 + x) / 2) ^ 2 := by
    have := cos_two_mul ((π / 2 + x) / 2)
    rw [show 2 * ((π / 2 + x) / 2) = x + π / 2 by ring, cos_add_pi_div_two] at this
    linarith
  have h3 : 0 < 1 - sin x := by rw [hsx]; nlinarith
  refine ⟨?_, ?_, h3⟩
  · rw [tan_eq_sin_div_cos, div_pow, sin_sq, hsx]
    have : cos ((π / 2 + x) / 2) ≠ 0 := ne_of_gt hcos
    rw [hsx] at h3
    field_simp
    ring
  · exact tan_nonneg_of_nonneg_of_le_pi_div_two (by linarith) (by linarith)

/-- **C75** (stretching): moving away from the south pole, the tangent of half the angular distance
to that pole is divided by the stretch factor; the poles stay where they are.  The stretch factors
that are applied are those whose square differs from 1 by more than the cut-off. -/
theorem C75_stretch (s : ℝ) (hs : 0 < s) (hc : |1 - s ^ 2| > 1 / 10 ^ 7) :
    (∀ lat, -(π / 2) ≤ lat → lat < π / 2 →
      stretchLat s lat < π / 2 ∧
      tan ((π / 2 + stretchLat s lat) / 2) = tan ((π / 2 + lat) / 2) / s) ∧
    stretchLat s (π / 2) = π / 2 ∧ stretchLat s (-(π / 2)) = -(π / 2) := by
  refine ⟨?_, ?_, ?_⟩
  · intro lat h1 h2
    obtain ⟨e1, p1, d1⟩ := tan_half_sq lat h1 h2
    have hsin := stretch_sin s lat (ne_of_gt hs) hc
    have hd := den_pos s lat (ne_of_gt hs)
    have hm := stretch_mem s lat ⟨h1, le_of_lt h2⟩
    have hlt : sin (stretchLat s lat) < 1 := by
      rw [hsin, div_lt_one hd]
      have : 0 < s ^ 2 := by positivity
      nlinarith
    have hne : stretchLat s lat < π / 2 := by
      refine lt_of_le_of_ne hm.2 ?_
      intro h
      rw [h, sin_pi_div_two] at hlt
      exact absurd hlt (lt_irrefl _)
    refine ⟨hne, ?_⟩
    obtain ⟨e2, p2, d2⟩ := tan_half_sq _ hm.1 hne
    have : tan ((π / 2 + stretchLat s lat) / 2) ^ 2 = (tan ((π / 2 + lat) / 2) / s) ^ 2 := by
      rw [e2, div_pow, e1, hsin]
      have a1 : 1 + sin lat - s ^ 2 * (sin lat - 1) ≠ 0 := by
        intro h; apply ne_of_gt hd; linarith
      have a2 : 1 - sin lat ≠ 0 := ne_of_gt d1
      have a3 : s ≠ 0 := ne_of_gt hs
      have a4 : 1 + s ^ 2 + (1 - s ^ 2) * sin lat ≠ 0 := ne_of_gt hd
      have e3 : 1 - (1 - s ^ 2 + (1 + s ^ 2) * sin lat) / (1 + s ^ 2 + (1 - s ^ 2) * sin lat) =
          2 * s ^ 2 * (1 - sin lat) / (1 + s ^ 2 + (1 - s ^ 2) * sin lat) := by
        field_simp; ring
      have e4 : 1 + (1 - s ^ 2 + (1 + s ^ 2) * sin lat) / (1 + s ^ 2 + (1 - s ^ 2) * sin lat) =
          2 * (1 + sin lat) / (1 + s ^ 2 + (1 - s ^ 2) * sin lat) := by
        field_simp; ring
      rw [e3, e4, div_div_div_cancel_right₀ a4]
      field_simp
    have p3 : 0 ≤ tan ((π / 2 + lat) / 2) / s := div_nonneg p1 (le_of_lt hs)
    exact (sq_eq_sq₀ p2 p3).mp this
  · unfold stretchLat
    simp only
    rw [if_pos hc, sin_pi_div_two, show (1 - s ^ 2 + (1 + s ^ 2) * 1 : ℝ) = 2 by ring,
      show (1 + s ^ 2 + (1 - s ^ 2) * 1 : ℝ) = 2 by ring, div_self two_ne_zero, arcsin_one]
  · unfold stretchLat
    simp only
    have : s ^ 2 ≠ 0 := by positivity
    rw [if_pos hc, sin_neg, sin_pi_div_two, show (1 - s ^ 2 + (1 + s ^ 2) * -1 : ℝ) = -(2 * s ^ 2) by ring,
      show (1 + s ^ 2 + (1 - s ^ 2) * -1 : ℝ) = 2 * s ^ 2 by ring, neg_div,
      div_self (mul_ne_zero two_ne_zero this), arcsin_neg, arcsin_one]

/-- A stretch factor of 3 doubles-plus the resolution: the equator moves to the latitude whose
half-distance to the south pole has tangent 1/3. -/
example : tan ((π / 2 + stretchLat 3 0) / 2) = 1 / 3 := by
  have h := (C75_stretch 3 (by norm_num) (by norm_num)).1 0 (by linarith [pi_pos]) (by linarith [pi_pos])
  rw [h.2, show (π / 2 + 0) / 2 = π / 4 by ring, tan_pi_div_four]

/-- **C75** (no stretching): with factor 1 latitudes are left alone. -/
theorem C75_stretch_one (lat : ℝ) : stretchLat 1 lat = lat := by
  unfold stretchLat
  simp

/-! ### The whole transform -/

theorem shift190 (lon lat : ℝ) (q : ℝ × ℝ × ℝ) (h : q = point (wrap (lon + deg2rad 190)) lat) :
    q = point (lon + deg2rad 190) lat := by
  rw [h]
  unfold point
  rw [(wrap_trig _).1, (wrap_trig _).2]

/-- **C75** (position): a grid point at `(lon, lat)` is stretched towards the south pole, turned by
190 degrees about the axis, and then moved by the rotation that takes the south pole to the target.
The result is exactly that point, unless it is reported at a pole; then it is that pole to within the
cut-off. -/
theorem C75_position (s lonTarget latTarget lon lat : ℝ) :
    let out := directTransform s lonTarget latTarget lon lat
    let exact := turn (deg2rad lonTarget) (deg2rad latTarget)
      (point (lon + deg2rad 190) (stretchLat s lat))
    (|sin out.2| ≠ 1 → point out.1 out.2 = exact) ∧
    dot (point out.1 out.2) exact > 1 - 1 / 10 ^ 7 := by
  simp only
  have hq := shift190 lon (stretchLat s lat) _ rfl
  rw [← hq]
  unfold directTransform
  generalize wrap (lon + deg2rad 190) = l
  generalize stretchLat s lat = la
  generalize deg2rad lonTarget = a
  generalize deg2rad latTarget = b
  by_cases h : 1 - |sinO b l la| < 1 / 10 ^ 7
  · refine ⟨?_, translate_near a b l la h⟩
    intro hne
    exfalso
    apply hne
    have hne0 : sinO b l la ≠ 0 := by
      intro h0
      rw [h0] at h
      norm_num at h
    unfold translate
    simp only
    rw [if_pos h, abs_of_pos (by linarith [pi_pos] : (0 : ℝ) < π / 2)]
    rcases lt_or_gt_of_ne hne0 with ho | ho
    · rw [sign_neg ho]; simp
    · rw [sign_pos ho]; simp
  · have e := translate_exact a b l la h
    refine ⟨fun _ => e, ?_⟩
    rw [e, (C75_turn a b (point l la) (point l la) (0, 0, 0)).1, dot_point]
    norm_num

/-- **C75** (angles and orientation): without stretching, the transform keeps the angle between any
two points and the orientation of any three, unless one of them is reported at a pole. -/
theorem C75_rotation (lonTarget latTarget : ℝ) (p q r : ℝ × ℝ)
    (hp : |sin (directTransform 1 lonTarget latTarget p.1 p.2).2| ≠ 1)
    (hq : |sin (directTransform 1 lonTarget latTarget q.1 q.2).2| ≠ 1)
    (hr : |sin (directTransform 1 lonTarget latTarget r.1 r.2).2| ≠ 1) :
    let out := fun x : ℝ × ℝ => point (directTransform 1 lonTarget latTarget x.1 x.2).1
      (directTransform 1 lonTarget latTarget x.1 x.2).2
    dot (out p) (out q) = dot (point p.1 p.2) (point q.1 q.2) ∧
    det (out p) (out q) (out r) = det (point p.1 p.2) (point q.1 q.2) (point r.1 r.2) := by
  simp only
  rw [(C75_position 1 lonTarget latTarget p.1 p.2).1 hp,
    (C75_position 1 lonTarget latTarget q.1 q.2).1 hq,
    (C75_position 1 lonTarget latTarget r.1 r.2).1 hr]
  have key := C75_turn (deg2rad lonTarget) (deg2rad latTarget)
    (point (p.1 + deg2rad 190) (stretchLat 1 p.2)) (point (q.1 + deg2rad 190) (stretchLat 1 q.2))
    (point (r.1 + deg2rad 190) (stretchLat 1 r.2))
  rw [key.1, key.2.1, C75_stretch_one, C75_stretch_one, C75_stretch_one]
  have h2 := sin_sq_add_cos_sq (deg2rad 190)
  have h2' : sin (deg2rad 190) ^ 2 = 1 - cos (deg2rad 190) ^ 2 := by linarith
  constructor
  · unfold dot point
    simp only [cos_add, sin_add]
    ring_nf
    rw [h2']
    ring
  · unfold det point
    simp only [cos_add, sin_add]
    ring_nf
    rw [h2']
    ring

/-- Three different points that meet the hypotheses: the poles and a point of the equator. -/
example : ∀ x ∈ [((0 : ℝ), -(π / 2)), (0, π / 2), (π / 2 - deg2rad 190, 0)],
    |sin (directTransform 1 0 0 x.1 x.2).2| ≠ 1 := by
  have h0 : deg2rad 0 = 0 := by unfold deg2rad; ring
  have key : ∀ a b : ℝ, sinO 0 (wrap (a + deg2rad 190)) b = 0 →
      |sin (directTransform 1 0 0 a b).2| ≠ 1 := by
    intro a b h
    unfold directTransform
    rw [C75_stretch_one, h0]
    unfold translate
    simp only
    rw [h, if_neg (by norm_num)]
    simp
  intro x hx
  simp only [List.mem_cons, List.not_mem_nil, or_false] at hx
  rcases hx with rfl | rfl | rfl
  · apply key; unfold sinO; simp
  · apply key; unfold sinO; simp
  · apply key
    unfold sinO
    rw [(wrap_trig _).1]
    simp

/-- **C75** (centre): the centre of the tile at the south pole lands on the target, whatever the
stretch factor and the longitude it is given with. -/
theorem C75_centre (s lonTarget latTarget lon : ℝ) (hs : 0 < s) (h0 : 0 ≤ lonTarget) (h1 : lonTarget < 360)
    (h2 : -90 < latTarget) (h3 : latTarget < 90) (hcut : 1 - |sin (deg2rad latTarget)| ≥ 1 / 10 ^ 7) :
    directTransform s lonTarget latTarget lon (-(π / 2)) = (deg2rad lonTarget, deg2rad latTarget) := by
  have hp := pi_pos
  have hst : stretchLat s (-(π / 2)) = -(π / 2) := by
    by_cases hc : |1 - s ^ 2| > 1 / 10 ^ 7
    · exact (C75_stretch s hs hc).2.2
    · unfold stretchLat
      simp only
      rw [if_neg hc]
  unfold directTransform
  rw [hst]
  have ho : sinO (deg2rad latTarget) (wrap (lon + deg2rad 190)) (-(π / 2)) = sin (deg2rad latTarget) := by
    unfold sinO
    simp
  unfold translate
  simp only
  rw [ho, if_neg (not_lt.mpr hcut)]
  have ha : -(π / 2) ≤ deg2rad latTarget := by unfold deg2rad; nlinarith
  have hb : deg2rad latTarget ≤ π / 2 := by unfold deg2rad; nlinarith
  have hcpos : 0 < cos (deg2rad latTarget) := by
    refine cos_pos_of_mem_Ioo ⟨?_, ?_⟩ <;> unfold deg2rad <;> nlinarith
  rw [arcsin_sin ha hb]
  have harg : arctan2 (-cos (-(π / 2)) * sin (wrap (lon + deg2rad 190)))
      (-sin (-(π / 2)) * cos (deg2rad latTarget) +
        cos (-(π / 2)) * sin (deg2rad latTarget) * cos (wrap (lon + deg2rad 190))) = 0 := by
    unfold arctan2
    have : (⟨-sin (-(π / 2)) * cos (deg2rad latTarget) +
        cos (-(π / 2)) * sin (deg2rad latTarget) * cos (wrap (lon + deg2rad 190)),
        -cos (-(π / 2)) * sin (wrap (lon + deg2rad 190))⟩ : ℂ) = ((cos (deg2rad latTarget) : ℝ) : ℂ) := by
      apply Complex.ext <;> simp [-Complex.ofReal_cos]
    rw [this]
    exact Complex.arg_ofReal_of_nonneg (le_of_lt hcpos)
  rw [harg, add_zero, wrap_id _ (by unfold deg2rad; positivity) (by unfold deg2rad; nlinarith)]

/-- The default stretched grid: factor 3, target over Oklahoma. -/
example : directTransform 3 262 36 0 (-(π / 2)) = (deg2rad 262, deg2rad 36) := by
  apply C75_centre <;> try norm_num
  have h1 : sin (deg2rad 36) ≤ sin (π / 4) := by
    apply sin_le_sin_of_le_of_le_pi_div_two <;> try unfold deg2rad
    all_goals nlinarith [pi_pos]
  have h2 : 0 ≤ sin (deg2rad 36) := by
    apply sin_nonneg_of_nonneg_of_le_pi <;> unfold deg2rad <;> nlinarith [pi_pos]
  rw [abs_of_nonneg h2]
  rw [sin_pi_div_four] at h1
  have h3 : sqrt 2 ≤ 3 / 2 := by
    rw [sqrt_le_left (by norm_num)]
    norm_num
  linarith

/-- **C75** (range): with a target longitude between -180 (included) and 540 degrees, the transform
returns longitudes in [0, 2π) and latitudes in [-π/2, π/2]. -/
theorem C75_range (s lonTarget latTarget lon lat : ℝ) (h0 : -180 ≤ lonTarget) (h1 : lonTarget < 540) :
    0 ≤ (directTransform s lonTarget latTarget lon lat).1 ∧
    (directTransform s lonTarget latTarget lon lat).1 < 2 * π ∧
    -(π / 2) ≤ (directTransform s lonTarget latTarget lon lat).2 ∧
    (directTransform s lonTarget latTarget lon lat).2 ≤ π / 2 := by
  have hp := pi_pos
  unfold directTransform translate
  simp only
  split
  · have := wrap_range 0 (by linarith) (by linarith)
    refine ⟨this.1, this.2, ?_⟩
    simp only
    rw [abs_of_pos (by linarith : (0 : ℝ) < π / 2)]
    rcases lt_trichotomy 0 (sinO (deg2rad latTarget) (wrap (lon + deg2rad 190)) (stretchLat s lat)) with h | h | h
    · rw [sign_pos h]; simp; linarith
    · rw [← h]; simp; linarith
    · rw [sign_neg h]; simp; linarith
  · have ha : -π ≤ deg2rad lonTarget := by unfold deg2rad; nlinarith
    have hb : deg2rad lonTarget < 3 * π := by unfold deg2rad; nlinarith
    have hm := arctan2_mem (-cos (stretchLat s lat) * sin (wrap (lon + deg2rad 190)))
      (-sin (stretchLat s lat) * cos (deg2rad latTarget) +
        cos (stretchLat s lat) * sin (deg2rad latTarget) * cos (wrap (lon + deg2rad 190)))
    have := wrap_range (deg2rad lonTarget + arctan2 (-cos (stretchLat s lat) * sin (wrap (lon + deg2rad 190)))
      (-sin (stretchLat s lat) * cos (deg2rad latTarget) +
        cos (stretchLat s lat) * sin (deg2rad latTarget) * cos (wrap (lon + deg2rad 190))))
      (by linarith) (by linarith)
    exact ⟨this.1, this.2, neg_pi_div_two_le_arcsin _, arcsin_le_pi_div_two _⟩

example : 0 ≤ (directTransform 3 262 36 1 (1 / 2)).1 :=
  (C75_range 3 262 36 1 (1 / 2) (by norm_num) (by norm_num)).1

/-- **C75** (false as stated for every target longitude): a target of 900 degrees gives a longitude
of 3π. -/
theorem C75_range_violated : (directTransform 1 900 0 0 (-(π / 2))).1 = 3 * π := by
  have hp := pi_pos
  unfold directTransform
  rw [C75_stretch_one]
  have h0 : deg2rad 0 = 0 := by unfold deg2rad; ring
  have ho : sinO (deg2rad 0) (wrap (0 + deg2rad 190)) (-(π / 2)) = 0 := by
    unfold sinO
    simp [h0]
  unfold translate
  simp only
  rw [ho, if_neg (by norm_num)]
  have harg : arctan2 (-cos (-(π / 2)) * sin (wrap (0 + deg2rad 190)))
      (-sin (-(π / 2)) * cos (deg2rad 0) +
        cos (-(π / 2)) * sin (deg2rad 0) * cos (wrap (0 + deg2rad 190))) = 0 := by
    unfold arctan2
    rw [h0]
    have : (⟨-sin (-(π / 2)) * cos 0 + cos (-(π / 2)) * sin 0 * cos (wrap (0 + deg2rad 190)),
        -cos (-(π / 2)) * sin (wrap (0 + deg2rad 190))⟩ : ℂ) = ((1 : ℝ) : ℂ) := by
      apply Complex.ext <;> simp
    rw [this]
    exact Complex.arg_ofReal_of_nonneg (by norm_num)
  rw [harg, add_zero]
  unfold wrap deg2rad
  simp only
  have hneg : ¬ (900 * π / 180 < 0) := by linarith
  rw [if_neg hneg, if_pos (by linarith)]
  ring

/-- **C75** (false as stated near the poles): two different grid points can be given the same
position.  Here the target is the north pole, and two latitudes at and near the south pole both go to the pole with longitude 0. -/
theorem C75_injective_violated :
    ∃ a b : ℝ, -(π / 2) ≤ a ∧ a < b ∧ b ≤ π / 2 ∧
      directTransform 1 0 90 0 a = directTransform 1 0 90 0 b ∧
      (directTransform 1 0 90 0 a).1 = 0 := by
  have hp := pi_pos
  have key : ∀ c : ℝ, 1 - 1 / 10 ^ 7 < c → c ≤ 1 →
      directTransform 1 0 90 0 (-arcsin c) = (0, π / 2) := by
    intro c h1 h2
    have h90 : deg2rad 90 = π / 2 := by unfold deg2rad; ring
    have hsin : sin (arcsin c) = c := sin_arcsin (by norm_num at h1; linarith) h2
    have hc0 : 0 < c := by norm_num at h1; linarith
    unfold directTransform
    rw [C75_stretch_one, h90]
    have ho : sinO (π / 2) (wrap (0 + deg2rad 190)) (-arcsin c) = c := by
      unfold sinO
      simp [hsin]
    unfold translate
    simp only
    rw [ho, abs_of_pos hc0, if_pos (by linarith), sign_pos hc0, wrap_id 0 (le_refl _) (by linarith),
      abs_of_pos (by linarith : (0 : ℝ) < π / 2)]
    simp
  refine ⟨-arcsin 1, -arcsin (1 - 1 / 10 ^ 8), ?_, ?_, ?_, ?_, ?_⟩
  · rw [arcsin_one]
  · apply neg_lt_neg
    exact strictMonoOn_arcsin (by constructor <;> norm_num) (by constructor <;> norm_num) (by norm_num)
  · linarith [neg_pi_div_two_le_arcsin (1 - 1 / 10 ^ 8 : ℝ)]
  · rw [key 1 (by norm_num) (le_refl _), key (1 - 1 / 10 ^ 8) (by norm_num) (by norm_num)]
  · rw [key 1 (by norm_num) (le_refl _)]

end NDSL.Stretch
