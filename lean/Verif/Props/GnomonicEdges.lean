import Verif.Props.GnomonicTiles
import Verif.Props.Partitioner

/-! Property C78 (shift) and property C79 (one grid on the sphere). -/
namespace NDSL.Sphere
open Real

theorem turnWest_point (a lon lat : ℝ) : turnWest a (point lon lat) = point (lon - a) lat := by
  unfold turnWest point
  rw [cos_sub, sin_sub]
  ext <;> simp only <;> ring

/-- **C78** (shift): the final longitudes lie in [0, 2π), and each corner is turned 10 degrees westwards
and no further than 1e-10 in longitude and latitude from there; not at all unless it was closer than that
to the equator or to longitude 0. -/
theorem C78_shift (p : ℝ × ℝ) (h1 : -π < p.1) (h2 : p.1 ≤ π) (h3 : -(π / 2) ≤ p.2) (h4 : p.2 ≤ π / 2) :
    0 ≤ (shift p).1 ∧ (shift p).1 < 2 * π ∧ -(π / 2) ≤ (shift p).2 ∧ (shift p).2 ≤ π / 2 ∧
    ∃ lon lat, point lon lat = turnWest (10 * (π / 180)) (point p.1 p.2) ∧ 0 ≤ lon ∧ lon < 2 * π ∧
      |(shift p).1 - lon| < 1 / 10 ^ 10 ∧ |(shift p).2 - lat| < 1 / 10 ^ 10 ∧
      (1 / 10 ^ 10 ≤ lon → (shift p).1 = lon) ∧ (1 / 10 ^ 10 ≤ |lat| → (shift p).2 = lat) := by
  have hp := pi_pos
  have hpi3 := pi_gt_three
  generalize hlon : (if p.1 - π / 18 < 0 then p.1 - π / 18 + 2 * π else p.1 - π / 18) = lon
  have hs : shift p = (if |lon| < 1 / 10 ^ 10 then 0 else lon, if |p.2| < 1 / 10 ^ 10 then 0 else p.2) := by
    rw [← hlon]
    rfl
  have hr : 0 ≤ lon ∧ lon < 2 * π := by
    rw [← hlon]
    split
    · constructor <;> linarith
    · constructor <;> linarith
  have hpt : point lon p.2 = turnWest (10 * (π / 180)) (point p.1 p.2) := by
    rw [turnWest_point, show 10 * (π / 180) = π / 18 by ring, ← hlon]
    split
    · rw [point_add_two_pi]
    · rfl
  rw [hs]
  refine ⟨?_, ?_, ?_, ?_, lon, p.2, hpt, hr.1, hr.2, ?_, ?_, ?_, ?_⟩ <;> simp only
  · split
    · exact le_refl _
    · exact hr.1
  · split
    · linarith
    · exact hr.2
  · split
    · linarith
    · exact h3
  · split
    · linarith
    · exact h4
  · split
    · rw [zero_sub, abs_neg]; assumption
    · rw [sub_self, abs_zero]; norm_num
  · split
    · rw [zero_sub, abs_neg]; assumption
    · rw [sub_self, abs_zero]; norm_num
  · intro h
    rw [abs_of_nonneg hr.1, if_neg (not_lt.mpr h)]
  · intro h
    rw [if_neg (not_lt.mpr h)]

/-- The meridian of the shifted grid: what was at longitude 10 degrees is at longitude 0. -/
example : shift (π / 18, 1) = (0, 1) := by
  unfold shift
  norm_num

/-! ### One grid -/

/-- The face coordinate as a function of the centred coordinate, in half cells. -/
noncomputable def coord (n : Nat) (X : Int) : ℝ := sqrt 2 * half * tan (arcsin half * (X / n))

theorem coord_line (n : Nat) (hn : 0 < n) (k : Nat) : coord n (2 * k - n) = line n k := by
  unfold coord line
  have : (n : ℝ) ≠ 0 := by positivity
  congr 2
  push_cast
  field_simp

theorem coord_zero (n : Nat) : coord n 0 = 0 := by
  unfold coord
  simp

theorem coord_neg (n : Nat) (X : Int) : coord n (-X) = -coord n X := by
  unfold coord
  push_cast
  rw [neg_div, mul_neg, tan_neg]
  ring

theorem coord_n (n : Nat) (hn : 0 < n) : coord n n = half := by
  have h := T_n n hn
  have e : coord n n = T n n := by
    have := coord_line n hn n
    rw [show (2 * (n : Int) - n) = n by ring] at this
    rw [this, ← T_line]
  rw [e, h, rt_half]

theorem coord_mono (n : Nat) (hn : 0 < n) (X Y : Int) (h0 : -n ≤ X) (h : X < Y) (h1 : Y ≤ n) :
    coord n X < coord n Y := by
  have hn' : (0 : ℝ) < n := by positivity
  have ha := alpha_pos
  have hb := alpha_lt
  unfold alpha at ha hb
  rw [rt_half] at ha hb
  have hx : -1 ≤ (X : ℝ) / n := by
    rw [le_div_iff₀ hn']
    have : (-(n : Int) : ℝ) ≤ X := by exact_mod_cast h0
    push_cast at this
    linarith
  have hy : (Y : ℝ) / n ≤ 1 := by
    rw [div_le_iff₀ hn', one_mul]
    exact_mod_cast h1
  have hxy : (X : ℝ) / n < Y / n := by
    apply div_lt_div_of_pos_right _ hn'
    exact_mod_cast h
  unfold coord
  have ht := tan_lt_tan_of_lt_of_lt_pi_div_two (x := arcsin half * (X / n)) (y := arcsin half * (Y / n))
    (by nlinarith) (by nlinarith) (by nlinarith)
  have : 0 < sqrt 2 * half := by rw [← rt_half]; exact mul_pos sqrt2_pos rt_pos
  nlinarith

theorem coord_inj (n : Nat) (hn : 0 < n) (X Y : Int) (hX : -n ≤ X) (hX' : X ≤ n) (hY : -n ≤ Y) (hY' : Y ≤ n)
    (h : coord n X = coord n Y) : X = Y := by
  rcases Int.lt_trichotomy X Y with hlt | heq | hgt
  · have := coord_mono n hn X Y hX hlt hY'; linarith
  · exact heq
  · have := coord_mono n hn Y X hY hgt hX'; linarith

theorem coord_abs (n : Nat) (hn : 0 < n) (X : Int) (hX : -n ≤ X) (hX' : X ≤ n) : |coord n X| ≤ half := by
  rw [abs_le]
  constructor
  · rw [← coord_n n hn, ← coord_neg]
    rcases Int.lt_or_eq_of_le hX with h | h
    · exact le_of_lt (coord_mono n hn _ _ (le_refl _) h hX')
    · rw [h]
  · rw [← coord_n n hn]
    rcases Int.lt_or_eq_of_le hX' with h | h
    · exact le_of_lt (coord_mono n hn _ _ hX h (le_refl _))
    · rw [h]

/-- The integral cube, stretched to the inscribed one. -/
noncomputable def stretched (n : Nat) (v : NDSL.V3) : V3 := ⟨coord n v.x, coord n v.y, coord n v.z⟩

theorem face_stretched (n : Nat) (hn : 0 < n) (t : Nat) (ht : t < 6) (X Y : Int) :
    face t (coord n X) (coord n Y) = stretched n (onCube n t X Y) := by
  have hneg : coord n (-n) = -half := by rw [coord_neg, coord_n n hn]
  have hnn := coord_n n hn
  match t, ht with
  | 0, _ | 1, _ | 2, _ | 3, _ | 4, _ | 5, _ =>
    unfold stretched onCube frame NDSL.V3.add NDSL.V3.smul
    simp [face, hnn, hneg, coord_neg]

theorem onCube_range (n : Nat) (t : Int) (X Y : Int) (hX : -n ≤ X) (hX' : X ≤ n) (hY : -n ≤ Y) (hY' : Y ≤ n) :
    let v := onCube n t X Y
    (-n ≤ v.x ∧ v.x ≤ n) ∧ (-n ≤ v.y ∧ v.y ≤ n) ∧ (-n ≤ v.z ∧ v.z ≤ n) ∧
    (v.x = n ∨ v.x = -n ∨ v.y = n ∨ v.y = -n ∨ v.z = n ∨ v.z = -n) := by
  unfold onCube frame NDSL.V3.add NDSL.V3.smul
  repeat' split
  all_goals simp only
  all_goals omega

theorem stretched_inj (n : Nat) (hn : 0 < n) (v u : NDSL.V3)
    (hv : (-n ≤ v.x ∧ v.x ≤ n) ∧ (-n ≤ v.y ∧ v.y ≤ n) ∧ (-n ≤ v.z ∧ v.z ≤ n))
    (hu : (-n ≤ u.x ∧ u.x ≤ n) ∧ (-n ≤ u.y ∧ u.y ≤ n) ∧ (-n ≤ u.z ∧ u.z ≤ n))
    (h : stretched n v = stretched n u) : v = u := by
  have hx := coord_inj n hn _ _ hv.1.1 hv.1.2 hu.1.1 hu.1.2 (congrArg V3.x h)
  have hy := coord_inj n hn _ _ hv.2.1.1 hv.2.1.2 hu.2.1.1 hu.2.1.2 (congrArg V3.y h)
  have hz := coord_inj n hn _ _ hv.2.2.1 hv.2.2.2 hu.2.2.1 hu.2.2.2 (congrArg V3.z h)
  cases v; cases u
  simp only at hx hy hz
  subst hx hy hz
  rfl

/-- A point on the surface of the inscribed cube. -/
def OnSurface (p : V3) : Prop :=
  |p.x| ≤ rt ∧ |p.y| ≤ rt ∧ |p.z| ≤ rt ∧ (|p.x| = rt ∨ |p.y| = rt ∨ |p.z| = rt)

theorem surface_ne (p : V3) (h : OnSurface p) : p ≠ ⟨0, 0, 0⟩ := by
  intro h0
  rw [h0] at h
  obtain ⟨_, _, _, h | h | h⟩ := h <;> simp only [abs_zero] at h <;> linarith [rt_pos]

theorem ratio_le (p q : V3) (k : ℝ) (hk : 0 < k) (hp : OnSurface p) (hq : OnSurface q) (h : p = scale k q) :
    k ≤ 1 := by
  have hr := rt_pos
  obtain ⟨h1, h2, h3, _⟩ := hp
  rw [h] at h1 h2 h3
  unfold scale at h1 h2 h3
  simp only [abs_mul, abs_of_pos hk] at h1 h2 h3
  obtain ⟨_, _, _, hh | hh | hh⟩ := hq
  · rw [hh] at h1; nlinarith
  · rw [hh] at h2; nlinarith
  · rw [hh] at h3; nlinarith

theorem unit_inj (p q : V3) (hp : OnSurface p) (hq : OnSurface q) (h : unit p = unit q) : p = q := by
  have lp := (unit_dot p (surface_ne p hp)).2
  have lq := (unit_dot q (surface_ne q hq)).2
  have hx : p.x / len p = q.x / len q := congrArg V3.x h
  have hy : p.y / len p = q.y / len q := congrArg V3.y h
  have hz : p.z / len p = q.z / len q := congrArg V3.z h
  have e : ∀ a b c d : ℝ, 0 < b → 0 < d → a / b = c / d → a = b / d * c := by
    intro a b c d hb hd h
    field_simp at h ⊢
    linarith
  have e1 : p = scale (len p / len q) q := by
    unfold scale
    ext
    · exact e _ _ _ _ lp lq hx
    · exact e _ _ _ _ lp lq hy
    · exact e _ _ _ _ lp lq hz
  have e2 : q = scale (len q / len p) p := by
    unfold scale
    ext
    · exact e _ _ _ _ lq lp hx.symm
    · exact e _ _ _ _ lq lp hy.symm
    · exact e _ _ _ _ lq lp hz.symm
  have k1 := ratio_le p q _ (div_pos lp lq) hp hq e1
  have k2 := ratio_le q p _ (div_pos lq lp) hq hp e2
  rw [div_le_one lq] at k1
  rw [div_le_one lp] at k2
  have hl : len p = len q := le_antisymm k1 k2
  rw [e1, hl, div_self (ne_of_gt lq)]
  unfold scale
  ext <;> simp

theorem stretched_surface (n : Nat) (hn : 0 < n) (t : Int) (X Y : Int) (hX : -n ≤ X) (hX' : X ≤ n)
    (hY : -n ≤ Y) (hY' : Y ≤ n) : OnSurface (stretched n (onCube n t X Y)) := by
  obtain ⟨⟨a1, a2⟩, ⟨b1, b2⟩, ⟨c1, c2⟩, d⟩ := onCube_range n t X Y hX hX' hY hY'
  have hneg : coord n (-n) = -half := by rw [coord_neg, coord_n n hn]
  have hnn := coord_n n hn
  have hh : |half| = rt := by rw [← rt_half]; exact abs_of_pos rt_pos
  unfold OnSurface stretched
  simp only
  rw [rt_half] at *
  refine ⟨coord_abs n hn _ a1 a2, coord_abs n hn _ b1 b2, coord_abs n hn _ c1 c2, ?_⟩
  rcases d with d | d | d | d | d | d <;> rw [d]
  · left; rw [hnn, hh]
  · left; rw [hneg, abs_neg, hh]
  · right; left; rw [hnn, hh]
  · right; left; rw [hneg, abs_neg, hh]
  · right; right; rw [hnn, hh]
  · right; right; rw [hneg, abs_neg, hh]

/-- Longitude and latitude are determined by the position, away from the poles. -/
theorem placed_unique (p q : ℝ × ℝ) (v : V3) (hp : Placed p v) (hq : Placed q v)
    (h : v.x = 0 → v.y = 0 → p.1 = q.1) : p = q := by
  obtain ⟨e, a1, a2, a3, a4⟩ := hp
  obtain ⟨e', b1, b2, b3, b4⟩ := hq
  have hz : sin p.2 = sin q.2 := (congrArg V3.z e).trans (congrArg V3.z e').symm
  have h2 : p.2 = q.2 := injOn_sin ⟨a3, a4⟩ ⟨b3, b4⟩ hz
  have x1 : cos p.2 * cos p.1 = v.x := congrArg V3.x e
  have y1 : cos p.2 * sin p.1 = v.y := congrArg V3.y e
  have x2 : cos q.2 * cos q.1 = v.x := congrArg V3.x e'
  have y2 : cos q.2 * sin q.1 = v.y := congrArg V3.y e'
  by_cases hc : cos p.2 = 0
  · rw [hc, zero_mul] at x1 y1
    exact Prod.ext (h x1.symm y1.symm) h2
  · rw [← h2] at x2 y2
    have hcos : cos p.1 = cos q.1 := mul_left_cancel₀ hc (x1.trans x2.symm)
    have hsin : sin p.1 = sin q.1 := mul_left_cancel₀ hc (y1.trans y2.symm)
    have : cos (p.1 - q.1) = 1 := by
      rw [cos_sub, hcos, hsin]
      have := sin_sq_add_cos_sq q.1
      nlinarith
    have h1 : p.1 - q.1 = 0 := (cos_eq_one_iff_of_lt_of_lt (by linarith) (by linarith)).mp this
    exact Prod.ext (by linarith) h2

/-- The corner of a rank is at the unit vector through its place on the stretched cube; at the poles, its longitude
is 0. -/
theorem rank_place (R : ℝ) (hR : 1 ≤ R) (l w : Nat) (hw : 0 < w) (hn : l * w ≤ 10 ^ 9)
    (t bi bj i j : Nat) (ht : t < 6) (hbi : bi < l) (hbj : bj < l) (hi : i ≤ w) (hj : j ≤ w) :
    Placed (rankGrid R l w t bi bj i j)
      (unit (stretched (l * w) (onCube (l * w) t (2 * (bi * w + i) - l * w) (2 * (bj * w + j) - l * w)))) ∧
    OnSurface (stretched (l * w) (onCube (l * w) t (2 * (bi * w + i) - l * w) (2 * (bj * w + j) - l * w))) ∧
    ((stretched (l * w) (onCube (l * w) t (2 * (bi * w + i) - l * w) (2 * (bj * w + j) - l * w))).x = 0 →
      (stretched (l * w) (onCube (l * w) t (2 * (bi * w + i) - l * w) (2 * (bj * w + j) - l * w))).y = 0 →
      (rankGrid R l w t bi bj i j).1 = 0) := by
  have fits : ∀ b k : Nat, b < l → k ≤ w → b * w + k ≤ l * w := by
    intro b k hb hk
    have := Nat.mul_le_mul_right w (show b + 1 ≤ l by omega)
    rw [Nat.add_mul, Nat.one_mul] at this
    omega
  have hn0 : 0 < l * w := Nat.mul_pos (by omega) hw
  obtain ⟨h1, h2⟩ := rank_core R hR l w t bi bj ht hw hbi hbj hn i j hi hj
  have f1 := fits bi i hbi hi
  have f2 := fits bj j hbj hj
  have e : face t (T (l * w) (bi * w + i : Nat)) (T (l * w) (bj * w + j : Nat)) =
      stretched (l * w) (onCube (l * w) t (2 * (bi * w + i) - l * w) (2 * (bj * w + j) - l * w)) := by
    rw [T_line, T_line, ← coord_line _ hn0, ← coord_line _ hn0, face_stretched _ hn0 t ht]
    push_cast
    rfl
  have hs := stretched_surface (l * w) hn0 t (2 * ((bi * w + i : Nat) : Int) - (l * w : Nat))
    (2 * ((bj * w + j : Nat) : Int) - (l * w : Nat)) (by omega) (by omega) (by omega) (by omega)
  push_cast at hs
  refine ⟨by rw [← e]; exact h1, hs, ?_⟩
  rw [← e]
  have hr := rt_pos
  intro hx hy
  have hh : half ≠ 0 := by rw [← rt_half]; exact ne_of_gt hr
  match t, ht with
  | 0, _ => exact absurd hx hh
  | 1, _ => exact absurd hy hh
  | 2, _ => exact h2 (Or.inl rfl) (neg_eq_zero.mp hx) (neg_eq_zero.mp hy)
  | 3, _ => exact absurd (neg_eq_zero.mp hx) hh
  | 4, _ => exact absurd (neg_eq_zero.mp hy) hh
  | 5, _ => exact h2 (Or.inr rfl) hy hx

/-- **C79** (one grid): for every layout and size, two corners, of any ranks of any tiles, get the same
longitude and latitude exactly when they are the same point of the cube on whose surface the tiles are
glued.  In particular, ranks and tiles agree on the corners they share, and no two different corners
coincide. -/
theorem C79_one_grid (R : ℝ) (hR : 1 ≤ R) (l w : Nat) (hw : 0 < w) (hn : l * w ≤ 10 ^ 9)
    (t bi bj i j t' bi' bj' i' j' : Nat) (ht : t < 6) (hbi : bi < l) (hbj : bj < l) (hi : i ≤ w) (hj : j ≤ w)
    (ht' : t' < 6) (hbi' : bi' < l) (hbj' : bj' < l) (hi' : i' ≤ w) (hj' : j' ≤ w) :
    rankGrid R l w t bi bj i j = rankGrid R l w t' bi' bj' i' j' ↔
      onCube (l * w) t (2 * (bi * w + i) - l * w) (2 * (bj * w + j) - l * w) =
      onCube (l * w) t' (2 * (bi' * w + i') - l * w) (2 * (bj' * w + j') - l * w) := by
  have fits : ∀ b k : Nat, b < l → k ≤ w → b * w + k ≤ l * w := by
    intro b k hb hk
    have := Nat.mul_le_mul_right w (show b + 1 ≤ l by omega)
    rw [Nat.add_mul, Nat.one_mul] at this
    omega
  have hn0 : 0 < l * w := Nat.mul_pos (by omega) hw
  obtain ⟨a1, a2, a3⟩ := rank_place R hR l w hw hn t bi bj i j ht hbi hbj hi hj
  obtain ⟨b1, b2, b3⟩ := rank_place R hR l w hw hn t' bi' bj' i' j' ht' hbi' hbj' hi' hj'
  constructor
  · intro h
    have hu := a1.1
    rw [h, b1.1] at hu
    have hs := unit_inj _ _ b2 a2 hu
    have f1 := fits bi i hbi hi
    have f2 := fits bj j hbj hj
    have f3 := fits bi' i' hbi' hi'
    have f4 := fits bj' j' hbj' hj'
    have r1 := onCube_range (l * w) t (2 * ((bi * w + i : Nat) : Int) - (l * w : Nat))
      (2 * ((bj * w + j : Nat) : Int) - (l * w : Nat)) (by omega) (by omega) (by omega) (by omega)
    have r2 := onCube_range (l * w) t' (2 * ((bi' * w + i' : Nat) : Int) - (l * w : Nat))
      (2 * ((bj' * w + j' : Nat) : Int) - (l * w : Nat)) (by omega) (by omega) (by omega) (by omega)
    push_cast at r1 r2
    refine (stretched_inj (l * w) hn0 _ _ ?_ ?_ hs).symm
    · push_cast; exact ⟨r2.1, r2.2.1, r2.2.2.1⟩
    · push_cast; exact ⟨r1.1, r1.2.1, r1.2.2.1⟩
  · intro h
    rw [h] at a1 a3
    apply placed_unique _ _ _ a1 b1
    intro hx hy
    have hl := (unit_dot _ (surface_ne _ b2)).2
    have hx' := (div_eq_zero_iff.mp hx).resolve_right (ne_of_gt hl)
    have hy' := (div_eq_zero_iff.mp hy).resolve_right (ne_of_gt hl)
    rw [a3 hx' hy', b3 hx' hy']

/-- The north end of tile 0 is the west end of tile 2, turned: corner 5 of the one is corner 43 of the
other, on tiles of 48 cells. -/
example : onCube 48 0 (2 * 5 - 48) (2 * 48 - 48) = onCube 48 2 (2 * 0 - 48) (2 * 43 - 48) := by decide

/-! ### Along the sides of ranks -/

theorem side_linear (l w : Nat) (t : Int) (bi bj : Nat) (bt : BType) (k : Nat) (hk : k ≤ w) :
    onCube (l * w) t (2 * (bi * w + (sideCorner w bt k).1) - l * w) (2 * (bj * w + (sideCorner w bt k).2) - l * w)
      = ((edgeSeg l t bj bi bt).1.smul (w - k)).add ((edgeSeg l t bj bi bt).2.smul k) := by
  have hc : ((w - k : Nat) : Int) = w - k := by omega
  cases bt <;> unfold sideCorner edgeSeg corner onCube frame NDSL.V3.add NDSL.V3.smul <;> simp only [hc] <;>
    (repeat' split) <;> simp only [NDSL.V3.mk.injEq] <;> push_cast <;> refine ⟨?_, ?_, ?_⟩ <;> ring

/-- **C79** (neighbours): for every layout, size and rank, and each of its sides, the partitioner's
neighbour across that side computes the same longitudes and latitudes along it, corner by corner: the
side that the reported rotation gives, walked the other way. -/
theorem C79_neighbours (R : ℝ) (hR : 1 ≤ R) (l w : Nat) (hl : 0 < l) (hw : 0 < w) (hn : l * w ≤ 10 ^ 9)
    (rank : Int) (h0 : 0 ≤ rank) (h1 : rank < (squareCube l).totalRanks) (t j i : Nat) (ht : t < 6)
    (hj : j < l) (hi : i < l) (hpos : (squareCube l).At rank t j i) (bt : BType) (hb : bt.isEdge = true) :
    ∃ b, (squareCube l).boundary bt rank = .ok (some b) ∧
      ∃ t' j' i' : Nat, t' < 6 ∧ j' < l ∧ i' < l ∧ (squareCube l).At b.toRank t' j' i' ∧
        ∀ back : BType, back.dir = turnsCW (-b.rot) (oppV bt.dir) → ∀ k, k ≤ w →
          rankGrid R l w t i j (sideCorner w bt k).1 (sideCorner w bt k).2 =
          rankGrid R l w t' i' j' (sideCorner w back (w - k)).1 (sideCorner w back (w - k)).2 := by
  obtain ⟨b, hbd, t', j', i', hat, hback, _⟩ :=
    C08_cube_edge_geometry l (by omega) rank t j i h0 h1 hpos bt hb
  have hr := (C07_cube_reciprocal l (by omega) rank h0 h1 bt).2 b hbd
  obtain ⟨t2, j2, i2, hat2, a1, a2, a3, a4, a5, a6, _⟩ :=
    (C01_cube_positions l l (by omega) (by omega)).1 b.toRank hr.2.2.1 hr.2.2.2.1
  obtain ⟨e1, e2, e3⟩ : t' = t2 ∧ j' = j2 ∧ i' = i2 := by
    obtain ⟨p1, p2⟩ := hat
    obtain ⟨q1, q2⟩ := hat2
    have hji := p2.symm.trans q2
    simp only [Prod.mk.injEq] at hji
    exact ⟨Except.ok.inj (p1.symm.trans q1), hji.1, hji.2⟩
  subst e1 e2 e3
  refine ⟨b, hbd, t'.toNat, j'.toNat, i'.toNat, by omega, by omega, by omega, ?_, ?_⟩
  · rw [Int.toNat_of_nonneg a1, Int.toNat_of_nonneg a3, Int.toNat_of_nonneg a5]
    exact hat
  · intro back hdir k hk
    have hseg := hback back hdir
    have hside : ∀ (bt : BType) (k : Nat), k ≤ w → (sideCorner w bt k).1 ≤ w ∧ (sideCorner w bt k).2 ≤ w := by
      intro bt k hk
      cases bt <;> simp only [sideCorner] <;> omega
    rw [C79_one_grid R hR l w hw hn _ _ _ _ _ _ _ _ _ _ ht hi hj (hside bt k hk).1 (hside bt k hk).2
      (by omega) (by omega) (by omega) (hside back (w - k) (by omega)).1 (hside back (w - k) (by omega)).2,
      side_linear l w t i j bt k hk, side_linear l w _ _ _ back (w - k) (by omega),
      Int.toNat_of_nonneg a1, Int.toNat_of_nonneg a3, Int.toNat_of_nonneg a5, hseg]
    have hc : ((w - k : Nat) : Int) = w - k := by omega
    rw [hc]
    unfold NDSL.V3.add NDSL.V3.smul
    simp only [NDSL.V3.mk.injEq]
    refine ⟨?_, ?_, ?_⟩ <;> ring

/-- The first rank of 24, on tiles of 48 cells in 2 by 2 blocks. -/
example : (squareCube 2).At 0 (0 : Nat) (0 : Nat) (0 : Nat) ∧ 0 < (squareCube 2).totalRanks ∧
    BType.west.isEdge = true := by
  refine ⟨?_, by decide, rfl⟩
  unfold CubePart.At; decide

end NDSL.Sphere
