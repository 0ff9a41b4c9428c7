import Verif.Model.Gnomonic
import Verif.Spec.Gnomonic
import Verif.Props.SphereArea

/-! Property C78: the grid of every rank is the grid of the whole tile. -/
namespace NDSL.Sphere
open Real

/-! ### Constants -/

theorem rt_pos : 0 < rt := by unfold rt; positivity

theorem rt_sq : rt ^ 2 = 1 / 3 := by
  unfold rt
  rw [div_pow, sq_sqrt (by norm_num)]
  norm_num

theorem rt_half : rt = half := rfl

theorem rt_lt_one : rt < 1 := by nlinarith [rt_sq, rt_pos]

theorem sin_alpha : sin alpha = rt := sin_arcsin (by linarith [rt_pos]) (le_of_lt rt_lt_one)

theorem cos_alpha : cos alpha = sqrt 2 * rt := by
  unfold alpha
  rw [cos_arcsin, rt_sq, sqrt_eq_iff_mul_self_eq (by norm_num) (by have := rt_pos; positivity)]
  have h1 : sqrt 2 ^ 2 = 2 := sq_sqrt (by norm_num)
  have h2 := rt_sq
  have : sqrt 2 * rt * (sqrt 2 * rt) = sqrt 2 ^ 2 * rt ^ 2 := by ring
  rw [this, h1, h2]
  norm_num

theorem alpha_pos : 0 < alpha := arcsin_pos.mpr rt_pos

theorem alpha_lt : alpha < π / 2 := arcsin_lt_pi_div_two.mpr rt_lt_one

theorem sqrt2_sq : sqrt 2 ^ 2 = 2 := sq_sqrt (by norm_num)

theorem sqrt2_pos : 0 < sqrt 2 := by positivity

theorem cos_34 : cos (3 / 4 * π) = -(sqrt 2 / 2) := by
  rw [show 3 / 4 * π = π - π / 4 by ring, cos_pi_sub, cos_pi_div_four]

theorem sin_34 : sin (3 / 4 * π) = sqrt 2 / 2 := by
  rw [show 3 / 4 * π = π - π / 4 by ring, sin_pi_sub, sin_pi_div_four]

theorem cos_54 : cos (5 / 4 * π) = -(sqrt 2 / 2) := by
  rw [show 5 / 4 * π = π / 4 + π by ring, cos_add_pi, cos_pi_div_four]

theorem sin_54 : sin (5 / 4 * π) = -(sqrt 2 / 2) := by
  rw [show 5 / 4 * π = π / 4 + π by ring, sin_add_pi, sin_pi_div_four]

theorem toXyz_eq (lon lat : ℝ) : toXyz lon lat = point lon lat := by
  unfold toXyz
  rw [lonLatToXyz_eq]
  rfl

/-! ### Latitudes along the edge -/

theorem edgeLat_zero (n : Nat) : edgeLat n 0 = -alpha := by
  unfold edgeLat
  simp

theorem edgeLat_n (n : Nat) (hn : 0 < n) : edgeLat n n = alpha := by
  unfold edgeLat
  have : (n : ℝ) ≠ 0 := by positivity
  push_cast
  field_simp
  ring

theorem edgeLat_range (n : Nat) (hn : 0 < n) (k : Int) (h0 : 0 ≤ k) (h1 : k ≤ n) :
    -alpha ≤ edgeLat n k ∧ edgeLat n k ≤ alpha := by
  have hn' : (0 : ℝ) < n := by positivity
  have h0' : (0 : ℝ) ≤ k := by exact_mod_cast h0
  have h1' : (k : ℝ) ≤ n := by exact_mod_cast h1
  have ha := alpha_pos
  have e : edgeLat n k = -alpha + 2 * alpha * (k / n) := by unfold edgeLat; ring
  have g0 : 0 ≤ (k : ℝ) / n := by positivity
  have g1 : (k : ℝ) / n ≤ 1 := by rw [div_le_one hn']; exact h1'
  rw [e]
  constructor <;> nlinarith

theorem edgeLat_cos (n : Nat) (hn : 0 < n) (k : Int) (h0 : 0 ≤ k) (h1 : k ≤ n) :
    sqrt 2 * rt ≤ cos (edgeLat n k) := by
  obtain ⟨a, b⟩ := edgeLat_range n hn k h0 h1
  rw [← cos_alpha, ← cos_abs (edgeLat n k)]
  apply cos_le_cos_of_nonneg_of_le_pi (abs_nonneg _) (by linarith [alpha_lt, pi_pos])
  exact abs_le.mpr ⟨a, b⟩

/-- The face coordinate at integer index `k`. -/
noncomputable def T (n : Nat) (k : Int) : ℝ := sqrt 2 * rt * tan (edgeLat n k)

theorem T_line (n : Nat) (k : Nat) : T n k = line n k := by
  unfold T line edgeLat alpha
  rw [rt_half]
  congr 2
  push_cast
  ring

theorem T_zero (n : Nat) : T n 0 = -rt := by
  unfold T
  rw [edgeLat_zero, tan_neg, tan_eq_sin_div_cos, sin_alpha, cos_alpha]
  have := rt_pos
  have := sqrt2_pos
  field_simp

theorem T_n (n : Nat) (hn : 0 < n) : T n n = rt := by
  unfold T
  rw [edgeLat_n n hn, tan_eq_sin_div_cos, sin_alpha, cos_alpha]
  have := rt_pos
  have := sqrt2_pos
  field_simp

/-! ### Edges of the tile -/

theorem west_cube (lat : ℝ) (h : cos lat ≠ 0) :
    toCube (toXyz (3 / 4 * π) lat) = ⟨-(cos lat * (sqrt 2 / 2)), rt, sqrt 2 * rt * tan lat⟩ := by
  rw [toXyz_eq]
  unfold toCube point
  rw [cos_34, sin_34, tan_eq_sin_div_cos]
  have h2 := sqrt2_pos
  have h3 := sqrt2_sq
  ext <;> simp only
  · ring
  · field_simp
  · field_simp
    linear_combination (-(sin lat * rt)) * h3

theorem corner_sw : toXyz (3 / 4 * π) (-alpha) = ⟨-rt, rt, -rt⟩ := by
  rw [toXyz_eq]
  unfold point
  rw [cos_34, sin_34, cos_neg, sin_neg, cos_alpha, sin_alpha]
  have h3 := sqrt2_sq
  ext <;> simp only
  · linear_combination (-(rt / 2)) * h3
  · linear_combination (rt / 2) * h3

theorem corner_nw : toXyz (3 / 4 * π) alpha = ⟨-rt, rt, rt⟩ := by
  rw [toXyz_eq]
  unfold point
  rw [cos_34, sin_34, cos_alpha, sin_alpha]
  have h3 := sqrt2_sq
  ext <;> simp only
  · linear_combination (-(rt / 2)) * h3
  · linear_combination (rt / 2) * h3

theorem corner_se : toXyz (5 / 4 * π) (-alpha) = ⟨-rt, -rt, -rt⟩ := by
  rw [toXyz_eq]
  unfold point
  rw [cos_54, sin_54, cos_neg, sin_neg, cos_alpha, sin_alpha]
  have h3 := sqrt2_sq
  ext <;> simp only
  · linear_combination (-(rt / 2)) * h3
  · linear_combination (-(rt / 2)) * h3

theorem corner_ne : toXyz (5 / 4 * π) alpha = ⟨-rt, -rt, rt⟩ := by
  rw [toXyz_eq]
  unfold point
  rw [cos_54, sin_54, cos_alpha, sin_alpha]
  have h3 := sqrt2_sq
  ext <;> simp only
  · linear_combination (-(rt / 2)) * h3
  · linear_combination (-(rt / 2)) * h3

theorem toLonLat_unit (q : V3) (hq : dot q q = 1) (hx : |q.x| + |q.y| ≥ 1 / 10 ^ 10) :
    point (toLonLat q).1 (toLonLat q).2 = q := by
  have hl := len_of_unit hq
  obtain ⟨lon, lat, e, _, _, _, _, _, _, h⟩ := C76_convert q (by
    intro h0
    rw [h0] at hq
    unfold dot at hq
    norm_num at hq)
  rw [hl] at h
  unfold toLonLat
  rw [e]
  have := h hx
  simp only [div_one] at this
  simpa using this

theorem mirror_point (lat : ℝ) (h : sqrt 2 * rt ≤ cos lat) :
    let r := mirrorLatlon (3 / 4 * π) (-alpha) (5 / 4 * π) alpha (3 / 4 * π) lat
    point r.1 r.2 = ⟨-(cos lat * (sqrt 2 / 2)), -sin lat, -(cos lat * (sqrt 2 / 2))⟩ := by
  have h2 := sqrt2_pos
  have h3 := sqrt2_sq
  have hr := rt_pos
  have hr2 := rt_sq
  simp only
  unfold mirrorLatlon
  simp only [corner_sw, corner_ne]
  have hp0 : toXyz (3 / 4 * π) lat = ⟨-(cos lat * (sqrt 2 / 2)), cos lat * (sqrt 2 / 2), sin lat⟩ := by
    rw [toXyz_eq]
    unfold point
    rw [cos_34, sin_34]
    ext <;> simp only
    ring
  have hnb : cross ⟨-rt, rt, -rt⟩ ⟨-rt, -rt, rt⟩ = (⟨0, 2 / 3, 2 / 3⟩ : V3) := by
    unfold cross
    ext <;> simp only
    · ring
    · linear_combination 2 * hr2
    · linear_combination 2 * hr2
  have hnorm : sqrt ((0 : ℝ) ^ 2 + (2 / 3) ^ 2 + (2 / 3) ^ 2) = 2 / 3 * sqrt 2 := by
    rw [show (0 : ℝ) ^ 2 + (2 / 3) ^ 2 + (2 / 3) ^ 2 = (2 / 3) ^ 2 * 2 by norm_num,
      sqrt_mul (by norm_num), sqrt_sq (by norm_num)]
  rw [hp0, hnb]
  simp only [hnorm]
  have hd : (2 / 3 : ℝ) / (2 / 3 * sqrt 2) = sqrt 2 / 2 := by
    field_simp
    linarith
  rw [hd, zero_div]
  have hvec : (⟨-(cos lat * (sqrt 2 / 2)) - 2 * (-(cos lat * (sqrt 2 / 2)) * 0 + cos lat * (sqrt 2 / 2) * (sqrt 2 / 2) +
        sin lat * (sqrt 2 / 2)) * 0,
      cos lat * (sqrt 2 / 2) - 2 * (-(cos lat * (sqrt 2 / 2)) * 0 + cos lat * (sqrt 2 / 2) * (sqrt 2 / 2) +
        sin lat * (sqrt 2 / 2)) * (sqrt 2 / 2),
      sin lat - 2 * (-(cos lat * (sqrt 2 / 2)) * 0 + cos lat * (sqrt 2 / 2) * (sqrt 2 / 2) +
        sin lat * (sqrt 2 / 2)) * (sqrt 2 / 2)⟩ : V3) =
      ⟨-(cos lat * (sqrt 2 / 2)), -sin lat, -(cos lat * (sqrt 2 / 2))⟩ := by
    ext <;> simp only
    · ring
    · linear_combination (-(cos lat * sqrt 2 / 4) - sin lat / 2) * h3
    · linear_combination (-(cos lat * sqrt 2 / 4) - sin lat / 2) * h3
  rw [hvec]
  apply toLonLat_unit
  · unfold dot
    simp only
    have := sin_sq_add_cos_sq lat
    linear_combination this + (cos lat ^ 2 / 2) * h3
  · simp only
    have hx : rt ≤ |-(cos lat * (sqrt 2 / 2))| := by
      rw [abs_neg]
      refine le_trans ?_ (le_abs_self _)
      nlinarith
    have : (1 / 10 ^ 10 : ℝ) ≤ rt := by
      have : (1 / 10 ^ 10 : ℝ) ^ 2 ≤ rt ^ 2 := by rw [hr2]; norm_num
      exact le_of_sq_le_sq this (le_of_lt hr)
    linarith [abs_nonneg (-sin lat)]

theorem south_cube (lat : ℝ) (h : sqrt 2 * rt ≤ cos lat) :
    let r := mirrorLatlon (3 / 4 * π) (-alpha) (5 / 4 * π) alpha (3 / 4 * π) lat
    toCube (toXyz r.1 r.2) = ⟨-(cos lat * (sqrt 2 / 2)), -(sqrt 2 * rt * tan lat), -rt⟩ := by
  simp only
  rw [toXyz_eq, mirror_point lat h]
  have h2 := sqrt2_pos
  have h3 := sqrt2_sq
  have hr := rt_pos
  have hc : cos lat ≠ 0 := by
    have : 0 < sqrt 2 * rt := by positivity
    intro h0
    linarith
  unfold toCube
  rw [tan_eq_sin_div_cos]
  ext <;> simp only
  · field_simp
    linear_combination (sin lat) * h3
  · field_simp

/-! ### The whole tile -/

theorem cos_ne_of_ge {x : ℝ} (h : sqrt 2 * rt ≤ x) : x ≠ 0 := by
  have := sqrt2_pos
  have := rt_pos
  have : 0 < sqrt 2 * rt := by positivity
  intro h0
  linarith

theorem globalPp_eq (n : Nat) (hn : 0 < n) (i j : Nat) (hi : i ≤ n) (hj : j ≤ n) :
    globalPp n i j = ⟨-rt, -T n i, T n j⟩ := by
  have hw : (globalPpWest n j).y = rt ∧ (globalPpWest n j).z = T n j := by
    unfold globalPpWest
    by_cases h0 : j = 0
    · rw [if_pos h0, edgeLat_zero, corner_sw, h0]
      exact ⟨rfl, (T_zero n).symm⟩
    · rw [if_neg h0]
      by_cases h1 : j = n
      · rw [if_pos h1, edgeLat_n n hn, corner_nw, h1]
        exact ⟨rfl, (T_n n hn).symm⟩
      · rw [if_neg h1, west_cube _ (cos_ne_of_ge (edgeLat_cos n hn j (by omega) (by omega)))]
        exact ⟨rfl, rfl⟩
  have hs : 0 < i → (globalPpSouth n i).y = -T n i ∧ (globalPpSouth n i).z = -rt := by
    intro hpos
    unfold globalPpSouth
    rw [if_neg (by omega)]
    by_cases h1 : i = n
    · rw [if_pos h1, edgeLat_zero, corner_se, h1, T_n n hn]
      exact ⟨rfl, rfl⟩
    · rw [if_neg h1]
      have := south_cube (edgeLat n i) (edgeLat_cos n hn i (by omega) (by omega))
      unfold globalSouth
      rw [edgeLat_zero, edgeLat_n n hn, this]
      exact ⟨rfl, rfl⟩
  unfold globalPp
  by_cases h0 : i = 0
  · rw [if_pos h0, if_pos h0, hw.1, hw.2, h0]
    rw [show ((0 : Nat) : Int) = 0 from rfl, T_zero, neg_neg]
  · rw [if_neg h0, if_neg h0, (hs (by omega)).1, (hs (by omega)).2, hw.2]
    by_cases h1 : j = 0
    · rw [if_pos h1, h1, show ((0 : Nat) : Int) = 0 from rfl, T_zero]
    · rw [if_neg h1]

/-! ### One rank -/

/-- The arguments with which `local_gnomonic_ed` is called for a rank whose first corner is `(oi, oj)`
of the tile: the edge flags say whether the rank touches that edge of the tile. -/
structure Local.Sits (c : Local) (oi oj : Nat) : Prop where
  im_pos : 0 < c.im
  fits_i : oi + c.im ≤ c.n
  fits_j : oj + c.im ≤ c.n
  gis : c.gis = 3 + oi
  gjs : c.gjs = 3 + oj
  west : c.west = true ↔ oi = 0
  east : c.east = true ↔ oi + c.im = c.n
  south : c.south = true ↔ oj = 0
  north : c.north = true ↔ oj + c.im = c.n

theorem local_pp (c : Local) (oi oj : Nat) (h : c.Sits oi oj) (i j : Nat) (hi : i ≤ c.im) (hj : j ≤ c.im) :
    c.pp i j = ⟨-rt, -T c.n (oi + i : Nat), T c.n (oj + j : Nat)⟩ := by
  obtain ⟨himp, hfi, hfj, hgi, hgj, hw, he, hs, hn⟩ := h
  have hnpos : 0 < c.n := by omega
  have ei : c.gis - 3 + i = ((oi + i : Nat) : Int) := by omega
  have ej : c.gjs - 3 + j = ((oj + j : Nat) : Int) := by omega
  have rawW : c.rawWest j = ⟨-(cos (edgeLat c.n (oj + j : Nat)) * (sqrt 2 / 2)), rt, T c.n (oj + j : Nat)⟩ := by
    unfold Local.rawWest
    rw [ej, west_cube _ (cos_ne_of_ge (edgeLat_cos c.n hnpos _ (by omega) (by omega)))]
    rfl
  have hW : (c.ppWest j).z = T c.n (oj + j : Nat) := by
    unfold Local.ppWest
    by_cases h1 : c.north ∧ j = c.im
    · rw [if_pos h1, edgeLat_n _ hnpos, corner_nw]
      have : oj + j = c.n := by rw [h1.2]; exact hn.mp h1.1
      rw [this, T_n _ hnpos]
    · rw [if_neg h1]
      by_cases h2 : c.south ∧ j = 0
      · rw [if_pos h2, edgeLat_zero, corner_sw]
        have : oj + j = 0 := by have := hs.mp h2.1; omega
        rw [this, show ((0 : Nat) : Int) = 0 from rfl, T_zero]
      · rw [if_neg h2, rawW]
  have rawS : (c.west = true → i ≠ 0) → (c.east = true → i ≠ c.im) →
      c.rawSouth i = ⟨-(cos (edgeLat c.n (oi + i : Nat)) * (sqrt 2 / 2)), -T c.n (oi + i : Nat), -rt⟩ := by
    intro a1 a2
    unfold Local.rawSouth Local.southEdge
    have hc : (if c.west = true then 1 else 0) ≤ i ∧ i < (if c.east = true then c.im else c.im + 1) := by
      constructor
      · split
        · rename_i hh; have := a1 hh; omega
        · omega
      · split
        · rename_i hh; have := a2 hh; omega
        · omega
    rw [if_pos hc, edgeLat_zero, edgeLat_n _ hnpos, ei]
    exact south_cube _ (edgeLat_cos c.n hnpos _ (by omega) (by omega))
  have hS : (c.ppSouth i).y = -T c.n (oi + i : Nat) := by
    unfold Local.ppSouth
    by_cases h1 : c.east ∧ i = c.im
    · rw [if_pos h1, edgeLat_zero, corner_se]
      have : oi + i = c.n := by rw [h1.2]; exact he.mp h1.1
      rw [this, T_n _ hnpos]
    · rw [if_neg h1]
      by_cases h2 : c.west ∧ i = 0
      · rw [if_pos h2, edgeLat_zero, corner_sw]
        have : oi + i = 0 := by have := hw.mp h2.1; omega
        rw [this, show ((0 : Nat) : Int) = 0 from rfl, T_zero, neg_neg]
      · rw [if_neg h2, rawS (fun a b => h2 ⟨a, b⟩) (fun a b => h1 ⟨a, b⟩)]
  unfold Local.pp
  by_cases hc : (if c.west = true then 1 else 0) ≤ i ∧ (if c.south = true then 1 else 0) ≤ j
  · rw [if_pos hc, hS, hW]
  · rw [if_neg hc]
    by_cases h1 : c.south ∧ j = 0
    · rw [if_pos h1]
      have hj0 : oj + j = 0 := by have := hs.mp h1.1; omega
      have hTj : T c.n (oj + j : Nat) = -rt := by rw [hj0]; exact T_zero c.n
      by_cases h2 : c.west ∧ i = 0
      · rw [if_pos h2, edgeLat_zero, corner_sw, hTj]
        have : oi + i = 0 := by have := hw.mp h2.1; omega
        rw [this, show ((0 : Nat) : Int) = 0 from rfl, T_zero, neg_neg]
      · rw [if_neg h2, hTj]
        by_cases h3 : c.east ∧ i = c.im
        · -- the south-east corner of the tile
          have hi_n : oi + i = c.n := by rw [h3.2]; exact he.mp h3.1
          have hse : c.southEdge i = (5 / 4 * π, -alpha) := by
            unfold Local.southEdge
            have : ¬ ((if c.west = true then 1 else 0) ≤ i ∧ i < (if c.east = true then c.im else c.im + 1)) := by
              rw [if_pos h3.1]; omega
            rw [if_neg this, if_pos h3]
            have hz : c.gjs - 3 = 0 := by omega
            rw [hz, edgeLat_zero]
          have hr := rt_pos
          unfold Local.rawSouth
          rw [hse]
          simp only
          rw [corner_se, hi_n, T_n _ hnpos]
          unfold toCube
          ext <;> simp only <;> field_simp
        · rw [rawS (fun a b => h2 ⟨a, b⟩) (fun a b => h3 ⟨a, b⟩)]
    · rw [if_neg h1, rawW]
      have hi0 : oi + i = 0 := by
        by_cases hwt : c.west = true
        · have := hw.mp hwt
          rw [if_pos hwt] at hc
          by_cases hst : c.south = true
          · rw [if_pos hst] at hc
            have : j ≠ 0 := fun hj => h1 ⟨hst, hj⟩
            omega
          · rw [if_neg hst] at hc
            omega
        · rw [if_neg hwt] at hc
          by_cases hst : c.south = true
          · rw [if_pos hst] at hc
            have : j ≠ 0 := fun hj => h1 ⟨hst, hj⟩
            omega
          · rw [if_neg hst] at hc
            omega
      rw [hi0, show ((0 : Nat) : Int) = 0 from rfl, T_zero, neg_neg]

/-- **C78** (decomposition): for every rank, at every place of the tile and of every size, the grid it
computes for itself is its part of the grid of the whole tile, corner by corner. -/
theorem C78_local (c : Local) (oi oj : Nat) (h : c.Sits oi oj) (i j : Nat) (hi : i ≤ c.im) (hj : j ≤ c.im) :
    c.grid i j = globalGrid c.n (oi + i) (oj + j) := by
  have hnpos : 0 < c.n := by have := h.im_pos; have := h.fits_i; omega
  unfold Local.grid globalGrid
  rw [local_pp c oi oj h i j hi hj,
    globalPp_eq c.n hnpos _ _ (by have := h.fits_i; omega) (by have := h.fits_j; omega)]

/-- The rank in the south-east of a tile of 12 by 12 cells cut in 3 by 3. -/
example : (⟨12, 4, false, true, true, false, 11, 3⟩ : Local).Sits 8 0 := by
  constructor <;> simp

end NDSL.Sphere
