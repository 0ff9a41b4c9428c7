import Verif.Props.Gnomonic

/-! Property C78, continued: mirroring and rotation of tiles. -/
namespace NDSL.Sphere
open Real

/-! ### Face coordinates -/

theorem edgeLat_neg (n : Nat) (hn : 0 < n) (k : Nat) (hk : k ≤ n) : edgeLat n (n - k : Nat) = -edgeLat n k := by
  unfold edgeLat
  have : (n : ℝ) ≠ 0 := by positivity
  have e : (((n - k : Nat) : Int) : ℝ) = n - k := by
    push_cast [hk]
    ring
  rw [e]
  push_cast
  field_simp
  ring

theorem T_neg (n : Nat) (hn : 0 < n) (k : Nat) (hk : k ≤ n) : T n (n - k : Nat) = -T n k := by
  unfold T
  rw [edgeLat_neg n hn k hk, tan_neg]
  ring

theorem edgeLat_mono (n : Nat) (hn : 0 < n) (k l : Int) (h : k < l) : edgeLat n k < edgeLat n l := by
  unfold edgeLat
  have h1 : (k : ℝ) < l := by exact_mod_cast h
  have hn' : (0 : ℝ) < n := by positivity
  have ha := alpha_pos
  have : 0 < 2 * alpha / n := by positivity
  nlinarith

theorem T_mono (n : Nat) (hn : 0 < n) (k l : Int) (h0 : 0 ≤ k) (h : k < l) (h1 : l ≤ n) : T n k < T n l := by
  have hk := edgeLat_range n hn k h0 (by omega)
  have hl := edgeLat_range n hn l (by omega) h1
  have ha := alpha_lt
  have hm := edgeLat_mono n hn k l h
  have ht := tan_lt_tan_of_lt_of_lt_pi_div_two (x := edgeLat n k) (y := edgeLat n l) (by linarith) (by linarith) hm
  unfold T
  have : 0 < sqrt 2 * rt := mul_pos sqrt2_pos rt_pos
  nlinarith

theorem T_range (n : Nat) (hn : 0 < n) (k : Nat) (hk : k ≤ n) : -rt ≤ T n k ∧ T n k ≤ rt := by
  constructor
  · rw [← T_zero n]
    rcases Nat.eq_zero_or_pos k with h | h
    · rw [h]; exact le_refl _
    · exact le_of_lt (T_mono n hn 0 k (le_refl _) (by omega) (by omega))
  · rw [← T_n n hn]
    rcases Nat.eq_or_lt_of_le hk with h | h
    · rw [h]
    · exact le_of_lt (T_mono n hn k n (by omega) (by omega) (by omega))

theorem T_mid (n : Nat) (hn : 0 < n) (k : Nat) (h : 2 * k = n) : T n k = 0 := by
  have := T_neg n hn k (by omega)
  rw [show n - k = k by omega] at this
  linarith

theorem alpha_ge : rt ≤ alpha := by
  have h := sin_le (le_of_lt alpha_pos)
  rw [sin_alpha] at h
  exact h

theorem T_far (n : Nat) (hn : 0 < n) (k : Nat) (hk : k ≤ n) (h : 2 * k ≠ n) : 1 / (3 * n) ≤ |T n k| := by
  have hn' : (0 : ℝ) < n := by positivity
  have key : ∀ k : Nat, k ≤ n → n < 2 * k → 1 / (3 * n) ≤ T n k := by
    intro k hk h
    have h' : (n : ℝ) + 1 ≤ 2 * k := by exact_mod_cast h
    have hr := rt_pos
    have hr2 := rt_sq
    have h2 := sqrt2_pos
    have h22 := sqrt2_sq
    have hag := alpha_ge
    have e : edgeLat n k = alpha * ((2 * k - n) / n) := by
      unfold edgeLat
      push_cast
      field_simp
      ring
    have hge : alpha / n ≤ edgeLat n k := by
      rw [e, div_eq_mul_inv, div_eq_mul_inv]
      have hi : 0 < (n : ℝ)⁻¹ := by positivity
      have : alpha * (n : ℝ)⁻¹ ≤ alpha * (n : ℝ)⁻¹ * (2 * k - n) :=
        le_mul_of_one_le_right (mul_nonneg (le_of_lt alpha_pos) (le_of_lt hi)) (by linarith)
      linarith
    have hr' := edgeLat_range n hn k (by omega) (by omega)
    have hpos : 0 ≤ edgeLat n k := le_trans (div_nonneg (le_of_lt alpha_pos) (le_of_lt hn')) hge
    have ht := le_tan hpos (by linarith [alpha_lt])
    unfold T
    have h1 : rt / n ≤ tan (edgeLat n k) := by
      refine le_trans ?_ (le_trans hge ht)
      exact div_le_div_of_nonneg_right hag (le_of_lt hn')
    have h3 : (1 : ℝ) ≤ sqrt 2 := by nlinarith
    have h4 : 1 / (3 * n) = rt * (rt / n) := by
      field_simp
      linarith
    rw [h4]
    have h5 : 0 ≤ rt / n := by positivity
    have h6 : rt ≤ sqrt 2 * rt := by nlinarith
    calc rt * (rt / n) ≤ sqrt 2 * rt * (rt / n) := mul_le_mul_of_nonneg_right h6 h5
      _ ≤ _ := mul_le_mul_of_nonneg_left h1 (by positivity)
  rcases Nat.lt_or_gt_of_ne h with h | h
  · have := key (n - k) (by omega) (by omega)
    rw [T_neg n hn k hk] at this
    rw [← abs_neg]
    exact le_trans this (le_abs_self _)
  · exact le_trans (key k hk h) (le_abs_self _)

/-! ### Position of the points of a tile before rotation -/

theorem unit_dot (p : V3) (h : p ≠ ⟨0, 0, 0⟩) : dot (unit p) (unit p) = 1 ∧ 0 < len p := by
  have hd : dot p p ≠ 0 := fun h0 => h (dot_self_eq_zero p h0)
  obtain ⟨_, hl⟩ := normalize_some p hd
  refine ⟨?_, hl⟩
  have hs := len_sq p
  unfold dot at hs
  unfold unit dot
  have : len p ≠ 0 := ne_of_gt hl
  simp only
  field_simp
  linarith

theorem point_pos (A B x y z : ℝ) (hx : 0 < x) (hA : -π ≤ A) (hA' : A < π) (hB : -(π / 2) ≤ B)
    (hB' : B ≤ π / 2) (h : point A B = ⟨x, y, z⟩) : -(π / 2) < A ∧ A < π / 2 ∧ 0 < cos B := by
  have hp := pi_pos
  have h1 : cos B * cos A = x := congrArg V3.x h
  have hc : 0 ≤ cos B := cos_nonneg_of_neg_pi_div_two_le_of_le hB hB'
  have hcp : 0 < cos B := by
    rcases lt_or_eq_of_le hc with h | h
    · exact h
    · rw [← h] at h1; linarith
  have hcA : 0 < cos A := by
    by_contra hcon
    nlinarith
  refine ⟨?_, ?_, hcp⟩
  · by_contra hcon
    have : cos A ≤ 0 := by
      rw [← cos_neg]
      exact cos_nonpos_of_pi_div_two_le_of_le (by linarith) (by linarith)
    linarith
  · by_contra hcon
    have : cos A ≤ 0 := cos_nonpos_of_pi_div_two_le_of_le (by linarith) (by linarith)
    linarith

/-- What the grid of a whole tile gives. -/
theorem globalGrid_char (n : Nat) (hn : 0 < n) (i j : Nat) (hi : i ≤ n) (hj : j ≤ n) :
    point (globalGrid n i j).1 (globalGrid n i j).2 = unit ⟨rt, T n i, T n j⟩ ∧
    -(π / 2) < (globalGrid n i j).1 ∧ (globalGrid n i j).1 < π / 2 ∧
    -(π / 2) ≤ (globalGrid n i j).2 ∧ (globalGrid n i j).2 ≤ π / 2 := by
  have hr := rt_pos
  have hpp := globalPp_eq n hn i j hi hj
  have hne : globalPp n i j ≠ ⟨0, 0, 0⟩ := by
    rw [hpp]
    intro h
    have : -rt = 0 := congrArg V3.x h
    linarith
  have hlen : len (globalPp n i j) = len ⟨rt, T n i, T n j⟩ := by
    rw [hpp]
    unfold len dot
    congr 1
    simp only
    ring
  obtain ⟨lon, lat, e, h0, h1, h2, h3, _, _, h4⟩ := C76_convert _ hne
  have hl := (unit_dot _ hne).2
  have hx : |(globalPp n i j).x| + |(globalPp n i j).y| ≥ len (globalPp n i j) / 10 ^ 10 := by
    have hT1 := T_range n hn i hi
    have hT2 := T_range n hn j hj
    have hle : len (globalPp n i j) ≤ 1 := by
      rw [hlen]
      unfold len dot
      rw [sqrt_le_one]
      simp only
      have h2 := rt_sq
      nlinarith
    rw [hpp]
    simp only
    rw [abs_neg, abs_of_pos hr, hpp] at *
    have h2 : (1 / 10 : ℝ) < rt := by
      have := rt_sq
      nlinarith
    have := abs_nonneg (-T n i)
    have : len (⟨-rt, -T n ↑i, T n ↑j⟩ : V3) / 10 ^ 10 ≤ 1 / 10 ^ 10 :=
      div_le_div_of_nonneg_right hle (by norm_num)
    have h3 : (1 / 10 ^ 10 : ℝ) ≤ 1 / 10 := by norm_num
    linarith
  have hpt := h4 hx
  have hg : globalGrid n i j = (lon - π, lat) := by
    unfold globalGrid toLonLat
    rw [e]
    rfl
  have hpoint : point (lon - π) lat = unit ⟨rt, T n i, T n j⟩ := by
    unfold unit
    rw [← hlen]
    unfold point at hpt ⊢
    rw [cos_sub_pi, sin_sub_pi]
    have hx := congrArg V3.x hpt
    have hy := congrArg V3.y hpt
    have hz := congrArg V3.z hpt
    rw [hpp] at hx hy hz
    rw [hpp]
    simp only at hx hy hz
    ext <;> simp only
    · rw [mul_neg, hx]; ring
    · rw [mul_neg, hy]; ring
    · exact hz
  rw [hg]
  simp only
  refine ⟨hpoint, ?_, ?_, h2, h3⟩
  · exact (point_pos (lon - π) lat _ _ _ (div_pos hr (by rw [← hlen]; exact hl)) (by linarith) (by linarith)
      h2 h3 hpoint).1
  · exact (point_pos (lon - π) lat _ _ _ (div_pos hr (by rw [← hlen]; exact hl)) (by linarith) (by linarith)
      h2 h3 hpoint).2.1

/-- Longitude and latitude on the front half of the sphere are determined by the position. -/
theorem front_unique (A B A' B' : ℝ) (hA : -(π / 2) < A) (hA2 : A < π / 2) (hB : -(π / 2) ≤ B)
    (hB2 : B ≤ π / 2) (hA' : -(π / 2) < A') (hA2' : A' < π / 2) (hB' : -(π / 2) ≤ B') (hB2' : B' ≤ π / 2)
    (hc : cos B ≠ 0) (h : point A B = point A' B') : A = A' ∧ B = B' := by
  have hz : sin B = sin B' := congrArg V3.z h
  have hBB : B = B' := injOn_sin ⟨hB, hB2⟩ ⟨hB', hB2'⟩ hz
  subst hBB
  have hy : cos B * sin A = cos B * sin A' := congrArg V3.y h
  have hs : sin A = sin A' := mul_left_cancel₀ hc hy
  exact ⟨injOn_sin ⟨le_of_lt hA, le_of_lt hA2⟩ ⟨le_of_lt hA', le_of_lt hA2'⟩ hs, rfl⟩

theorem len_sign (x y y' z z' : ℝ) (h1 : y' ^ 2 = y ^ 2) (h2 : z' ^ 2 = z ^ 2) :
    len (⟨x, y', z'⟩ : V3) = len ⟨x, y, z⟩ := by
  unfold len dot
  congr 1
  simp only
  linarith [h1, h2, sq y, sq y', sq z, sq z']

theorem cosB_ne (n : Nat) (hn : 0 < n) (i j : Nat) (hi : i ≤ n) (hj : j ≤ n) :
    cos (globalGrid n i j).2 ≠ 0 := by
  obtain ⟨e, _⟩ := globalGrid_char n hn i j hi hj
  have hr := rt_pos
  have hne : (⟨rt, T n i, T n j⟩ : V3) ≠ ⟨0, 0, 0⟩ := by
    intro h
    have : rt = 0 := congrArg V3.x h
    linarith
  have hx : cos (globalGrid n i j).2 * cos (globalGrid n i j).1 = rt / len ⟨rt, T n i, T n j⟩ := congrArg V3.x e
  intro h0
  rw [h0, zero_mul] at hx
  have := div_pos hr (unit_dot _ hne).2
  linarith

/-- The grid of a whole tile is symmetric in its middle lines. -/
theorem globalGrid_symm (n : Nat) (hn : 0 < n) (i j : Nat) (hi : i ≤ n) (hj : j ≤ n) :
    globalGrid n (n - i) j = (-(globalGrid n i j).1, (globalGrid n i j).2) ∧
    globalGrid n i (n - j) = ((globalGrid n i j).1, -(globalGrid n i j).2) := by
  obtain ⟨e, a1, a2, a3, a4⟩ := globalGrid_char n hn i j hi hj
  constructor
  · obtain ⟨e', b1, b2, b3, b4⟩ := globalGrid_char n hn (n - i) j (by omega) hj
    have hp : point (globalGrid n (n - i) j).1 (globalGrid n (n - i) j).2 =
        point (-(globalGrid n i j).1) (globalGrid n i j).2 := by
      rw [e', T_neg n hn i hi]
      have hl := len_sign rt (T n i) (-T n i) (T n j) (T n j) (by ring) rfl
      unfold unit at e ⊢
      rw [hl]
      have hx := congrArg V3.x e
      have hy := congrArg V3.y e
      have hz := congrArg V3.z e
      simp only [point] at hx hy hz
      unfold point
      rw [cos_neg, sin_neg]
      ext <;> simp only
      · exact hx.symm
      · rw [mul_neg, hy]; ring
      · exact hz.symm
    obtain ⟨h1, h2⟩ := front_unique _ _ _ _ b1 b2 b3 b4 (by linarith) (by linarith) a3 a4
      (cosB_ne n hn (n - i) j (by omega) hj) hp
    exact Prod.ext h1 h2
  · obtain ⟨e', b1, b2, b3, b4⟩ := globalGrid_char n hn i (n - j) hi (by omega)
    have hp : point (globalGrid n i (n - j)).1 (globalGrid n i (n - j)).2 =
        point (globalGrid n i j).1 (-(globalGrid n i j).2) := by
      rw [e', T_neg n hn j hj]
      have hl := len_sign rt (T n i) (T n i) (T n j) (-T n j) rfl (by ring)
      unfold unit at e ⊢
      rw [hl]
      have hx := congrArg V3.x e
      have hy := congrArg V3.y e
      have hz := congrArg V3.z e
      simp only [point] at hx hy hz
      unfold point
      rw [cos_neg, sin_neg]
      ext <;> simp only
      · exact hx.symm
      · exact hy.symm
      · rw [hz]; ring
    obtain ⟨h1, h2⟩ := front_unique _ _ _ _ b1 b2 b3 b4 a1 a2 (by linarith) (by linarith)
      (cosB_ne n hn i (n - j) hi (by omega)) hp
    exact Prod.ext h1 h2

/-- The middle line has longitude 0. -/
theorem globalGrid_mid (n : Nat) (hn : 0 < n) (i j : Nat) (hi : 2 * i = n) (hj : j ≤ n) :
    (globalGrid n i j).1 = 0 := by
  have h := congrArg Prod.fst (globalGrid_symm n hn i j (by omega) hj).1
  rw [show n - i = i by omega] at h
  simp only at h
  linarith

theorem copysign_abs (x : ℝ) : copysign (1 / 4 * (|x| + |x| + |x| + |x|)) x = x := by
  unfold copysign
  have h : |1 / 4 * (|x| + |x| + |x| + |x|)| = |x| := by
    rw [show 1 / 4 * (|x| + |x| + |x| + |x|) = |x| by ring, abs_abs]
  rw [h]
  split
  · rename_i hx; rw [abs_of_neg hx]; ring
  · rename_i hx; exact abs_of_nonneg (not_lt.mp hx)

/-! ### Mirroring -/

theorem base_eq (m : Mirror) (oi oj : Nat) (hw : 0 < m.w) (hi0 : oi + m.w ≤ m.n) (hj0 : oj + m.w ≤ m.n)
    (hgi : m.gis = 3 + oi) (loc ew ns diag : Nat → Nat → ℝ × ℝ)
    (hl : ∀ i j, i ≤ m.w → j ≤ m.w → loc i j = globalGrid m.n (oi + i) (oj + j))
    (he : ∀ i j, i ≤ m.w → j ≤ m.w → ew i j = globalGrid m.n (m.n - oi - m.w + i) (oj + j))
    (hs : ∀ i j, i ≤ m.w → j ≤ m.w → ns i j = globalGrid m.n (oi + i) (m.n - oj - m.w + j))
    (hd : ∀ i j, i ≤ m.w → j ≤ m.w → diag i j = globalGrid m.n (m.n - oi - m.w + i) (m.n - oj - m.w + j))
    (i j : Nat) (hi : i ≤ m.w) (hj : j ≤ m.w) :
    m.base loc ew ns diag i j = globalGrid m.n (oi + i) (oj + j) := by
  have hn : 0 < m.n := by omega
  have e1 := (globalGrid_symm m.n hn (oi + i) (oj + j) (by omega) (by omega)).1
  have e2 := (globalGrid_symm m.n hn (oi + i) (oj + j) (by omega) (by omega)).2
  have e3 := (globalGrid_symm m.n hn (oi + i) (m.n - (oj + j)) (by omega) (by omega)).1
  rw [e2] at e3
  have hew : ew (m.w - i) j = (-(globalGrid m.n (oi + i) (oj + j)).1, (globalGrid m.n (oi + i) (oj + j)).2) := by
    rw [he _ _ (by omega) hj, show m.n - oi - m.w + (m.w - i) = m.n - (oi + i) by omega, e1]
  have hns : ns i (m.w - j) = ((globalGrid m.n (oi + i) (oj + j)).1, -(globalGrid m.n (oi + i) (oj + j)).2) := by
    rw [hs _ _ hi (by omega), show m.n - oj - m.w + (m.w - j) = m.n - (oj + j) by omega, e2]
  have hdi : diag (m.w - i) (m.w - j) =
      (-(globalGrid m.n (oi + i) (oj + j)).1, -(globalGrid m.n (oi + i) (oj + j)).2) := by
    rw [hd _ _ (by omega) (by omega), show m.n - oi - m.w + (m.w - i) = m.n - (oi + i) by omega,
      show m.n - oj - m.w + (m.w - j) = m.n - (oj + j) by omega, e3]
  unfold Mirror.base
  simp only
  rw [hl i j hi hj, hew, hns, hdi]
  simp only
  unfold mirrorMean
  rw [abs_neg, abs_neg, copysign_abs, copysign_abs]
  have hfix : (m.odd && m.xCentre && decide ((i : Int) = m.iMid)) = true →
      (globalGrid m.n (oi + i) (oj + j)).1 = 0 := by
    intro h
    simp only [Bool.and_eq_true, decide_eq_true_eq] at h
    obtain ⟨⟨h1, _⟩, h2⟩ := h
    apply globalGrid_mid m.n hn _ _ _ (by omega)
    unfold Mirror.iMid at h2
    unfold Mirror.odd at h1
    simp only [bne_iff_ne, ne_eq] at h1
    omega
  split
  · rename_i h
    exact Prod.ext (hfix h).symm rfl
  · rfl

/-! ### Rotation -/

/-- Left-handed Cartesian coordinates: the third is turned over. -/
def flip (p : V3) : V3 := ⟨p.x, p.y, -p.z⟩

/-- A multiple of a vector. -/
def scale (k : ℝ) (p : V3) : V3 := ⟨k * p.x, k * p.y, k * p.z⟩

theorem sphToCart_eq (lon lat r : ℝ) : sphToCart false lon lat r = scale r (flip (point lon lat)) := by
  unfold sphToCart scale flip point
  ext <;> simp <;> ring

/-- A vector on the axis, or further from it than the cut-off. -/
def OffAxis (p : V3) : Prop := (p.x = 0 ∧ p.y = 0) ∨ |p.x| + |p.y| ≥ 1 / 10 ^ 10

theorem cartToSph_spec (p : V3) (hp : p ≠ ⟨0, 0, 0⟩) (ho : OffAxis p) :
    point (cartToSph false p).1 (cartToSph false p).2.1 = flip (unit p) ∧
    (cartToSph false p).2.2 = len p ∧
    sphToCart false (cartToSph false p).1 (cartToSph false p).2.1 (cartToSph false p).2.2 = p := by
  obtain ⟨hu, hl⟩ := unit_dot p hp
  have hlen : sqrt (p.x * p.x + p.y * p.y + p.z * p.z) = len p := rfl
  have hlen2 := len_sq p
  have hz : (p.z / len p) ^ 2 ≤ 1 := by
    unfold unit dot at hu
    simp only at hu
    nlinarith [sq_nonneg (p.x / len p), sq_nonneg (p.y / len p)]
  have hz1 : -1 ≤ p.z / len p := by nlinarith
  have hz2 : p.z / len p ≤ 1 := by nlinarith
  have hpt : point (cartToSph false p).1 (cartToSph false p).2.1 = flip (unit p) := by
    unfold cartToSph
    simp only [hlen, Bool.false_eq_true, if_false]
    have hsin : sin (arccos (p.z / len p) - π / 2) = -(p.z / len p) := by
      rw [sin_sub_pi_div_two, cos_arccos hz1 hz2]
    have hcos : cos (arccos (p.z / len p) - π / 2) = sqrt (1 - (p.z / len p) ^ 2) := by
      rw [cos_sub_pi_div_two, sin_arccos]
    have hxy : (p.x / len p) ^ 2 + (p.y / len p) ^ 2 = 1 - (p.z / len p) ^ 2 := by
      unfold unit dot at hu
      simp only at hu
      linarith [sq (p.x / len p), sq (p.y / len p), sq (p.z / len p)]
    rcases ho with ⟨hx, hy⟩ | ho
    · have h0 : sqrt (1 - (p.z / len p) ^ 2) = 0 := by
        rw [← hxy, hx, hy]
        simp
      rw [if_pos (by rw [hx, hy]; norm_num)]
      unfold point flip unit
      rw [hsin, hcos, h0, hx, hy]
      simp
    · rw [if_neg (not_lt.mpr ho)]
      have hne : (⟨p.x, p.y⟩ : ℂ) ≠ 0 := by
        intro h0
        have hx : p.x = 0 := congrArg Complex.re h0
        have hy : p.y = 0 := congrArg Complex.im h0
        rw [hx, hy] at ho
        norm_num at ho
      have hn : ‖(⟨p.x, p.y⟩ : ℂ)‖ = len p * sqrt (1 - (p.z / len p) ^ 2) := by
        rw [Complex.norm_eq_sqrt_sq_add_sq, ← hxy]
        have : p.x ^ 2 + p.y ^ 2 = len p ^ 2 * ((p.x / len p) ^ 2 + (p.y / len p) ^ 2) := by
          field_simp
        simp only
        rw [this, sqrt_mul (sq_nonneg _), sqrt_sq (le_of_lt hl)]
      have hn0 : len p * sqrt (1 - (p.z / len p) ^ 2) ≠ 0 := by
        rw [← hn]
        exact norm_ne_zero_iff.mpr hne
      have hs0 : sqrt (1 - (p.z / len p) ^ 2) ≠ 0 := fun h => hn0 (by rw [h, mul_zero])
      unfold point flip unit arctan2
      rw [hsin, hcos, Complex.cos_arg hne, Complex.sin_arg, hn]
      generalize sqrt (1 - (p.z / len p) ^ 2) = S at hs0
      have hl0 : len p ≠ 0 := ne_of_gt hl
      ext <;> simp only <;> field_simp
  refine ⟨hpt, rfl, ?_⟩
  rw [sphToCart_eq, hpt]
  have : (cartToSph false p).2.2 = len p := rfl
  rw [this]
  unfold scale flip unit
  have : len p ≠ 0 := ne_of_gt hl
  ext <;> simp only <;> field_simp

theorem deg (d : ℝ) (c s : ℝ) (a : ℝ) (h : d * π / 180 = a) (hc : cos a = c) (hs : sin a = s) :
    cos (d * π / 180) = c ∧ sin (d * π / 180) = s := by
  rw [h]; exact ⟨hc, hs⟩

theorem deg_90 : cos ((90 : ℝ) * π / 180) = 0 ∧ sin ((90 : ℝ) * π / 180) = 1 :=
  deg 90 0 1 (π / 2) (by ring) cos_pi_div_two sin_pi_div_two

theorem deg_m90 : cos ((-90 : ℝ) * π / 180) = 0 ∧ sin ((-90 : ℝ) * π / 180) = -1 :=
  deg (-90) 0 (-1) (-(π / 2)) (by ring) (by rw [cos_neg, cos_pi_div_two]) (by rw [sin_neg, sin_pi_div_two])

theorem deg_m180 : cos ((-180 : ℝ) * π / 180) = -1 ∧ sin ((-180 : ℝ) * π / 180) = 0 :=
  deg (-180) (-1) 0 (-π) (by ring) (by rw [cos_neg, cos_pi]) (by rw [sin_neg, sin_pi, neg_zero])

theorem deg_0 : cos ((0 : ℝ) * π / 180) = 1 ∧ sin ((0 : ℝ) * π / 180) = 0 :=
  deg 0 1 0 0 (by ring) cos_zero sin_zero

/-- One rotation, when the point it produces is off the axis. -/
theorem rot3d_spec (ax : Axis) (d : ℝ) (s : ℝ × ℝ × ℝ) (p q : V3)
    (hs : sphToCart false s.1 s.2.1 s.2.2 = p) (hr : rotate ax (d * π / 180) p = q)
    (hq : q ≠ ⟨0, 0, 0⟩) (ho : OffAxis q) :
    sphToCart false (rot3d false ax d s).1 (rot3d false ax d s).2.1 (rot3d false ax d s).2.2 = q ∧
    point (rot3d false ax d s).1 (rot3d false ax d s).2.1 = flip (unit q) ∧
    (q.x = 0 → q.y = 0 → (rot3d false ax d s).1 = 0) := by
  have e : rot3d false ax d s = cartToSph false q := by
    unfold rot3d
    rw [hs, hr]
  rw [e]
  refine ⟨(cartToSph_spec q hq ho).2.2, (cartToSph_spec q hq ho).1, ?_⟩
  intro hx hy
  unfold cartToSph
  simp only
  rw [if_pos (by rw [hx, hy]; norm_num)]

theorem unit_scale (k : ℝ) (hk : 0 < k) (p : V3) : unit (scale k p) = unit p := by
  have hl : len (scale k p) = k * len p := by
    unfold len
    rw [show dot (scale k p) (scale k p) = k ^ 2 * dot p p by unfold dot scale; simp only; ring,
      sqrt_mul (sq_nonneg k), sqrt_sq (le_of_lt hk)]
  unfold unit
  rw [hl]
  unfold scale
  by_cases h : len p = 0
  · rw [h]; simp
  · have : k ≠ 0 := ne_of_gt hk
    ext <;> simp only <;> field_simp

theorem scale_point (R lon lat : ℝ) (p : V3) (h : point lon lat = unit p) :
    sphToCart false lon lat R = scale (R / len p) (flip p) := by
  rw [sphToCart_eq, h]
  unfold scale flip unit
  ext <;> simp only <;> ring

theorem flip_unit (p : V3) : flip (unit p) = unit (flip p) := by
  have : len (flip p) = len p := by
    unfold len dot flip
    congr 1
    simp only
    ring
  unfold unit
  rw [this]
  unfold flip
  ext <;> simp only
  ring

theorem flip_flip (p : V3) : flip (flip p) = p := by
  unfold flip
  ext <;> simp

theorem flip_scale (k : ℝ) (p : V3) : flip (scale k p) = scale k (flip p) := by
  unfold flip scale
  ext <;> simp

theorem scale_ne (k : ℝ) (hk : 0 < k) (p : V3) (h : p ≠ ⟨0, 0, 0⟩) : scale k p ≠ ⟨0, 0, 0⟩ := by
  intro h0
  apply h
  unfold scale at h0
  simp only [V3.mk.injEq, mul_eq_zero, ne_of_gt hk, false_or] at h0
  ext
  · exact h0.1
  · exact h0.2.1
  · exact h0.2.2

theorem final_point (k : ℝ) (hk : 0 < k) (q f : V3) (h : flip q = f) :
    flip (unit (scale k q)) = unit f := by
  rw [unit_scale k hk, flip_unit, h]

/-- The position of a point after the rotations of its tile. -/
theorem rotateTile_spec (R : ℝ) (tile : Nat) (ht : tile < 6) (lon lat x y : ℝ)
    (h : point lon lat = unit ⟨rt, x, y⟩) (k : ℝ) (hkdef : k = R / len ⟨rt, x, y⟩) (hk1 : 1 / 10 ^ 9 ≤ k)
    (hpole : tile = 2 ∨ tile = 5 → OffAxis (scale k ⟨y, x, 0⟩)) :
    point (rotateTile false R tile (lon, lat)).1 (rotateTile false R tile (lon, lat)).2 = unit (face tile x y) ∧
    (tile = 2 ∨ tile = 5 → x = 0 → y = 0 → (rotateTile false R tile (lon, lat)).1 = 0) := by
  have hr := rt_pos
  have hrt : (1 / 10 : ℝ) ≤ rt := by nlinarith [rt_sq]
  have hk : 0 < k := lt_of_lt_of_le (by norm_num) hk1
  have hkrt : (1 / 10 ^ 10 : ℝ) ≤ k * rt := by
    calc (1 / 10 ^ 10 : ℝ) = 1 / 10 ^ 9 * (1 / 10) := by norm_num
      _ ≤ k * rt := mul_le_mul hk1 hrt (by norm_num) (le_of_lt hk)
  have hstart : sphToCart false lon lat R = scale k ⟨rt, x, -y⟩ := by
    rw [scale_point R lon lat _ h, hkdef]
    rfl
  have offx : ∀ a b c : ℝ, a = rt ∨ a = -rt → OffAxis (scale k ⟨a, b, c⟩) := by
    intro a b c ha
    right
    unfold scale
    simp only
    have : |k * a| = k * rt := by
      rcases ha with ha | ha <;> rw [ha]
      · exact abs_of_pos (by positivity)
      · rw [mul_neg, abs_neg]; exact abs_of_pos (by positivity)
    rw [this]
    linarith [abs_nonneg (k * b)]
  have offy : ∀ a b c : ℝ, b = rt ∨ b = -rt → OffAxis (scale k ⟨a, b, c⟩) := by
    intro a b c ha
    right
    unfold scale
    simp only
    have : |k * b| = k * rt := by
      rcases ha with ha | ha <;> rw [ha]
      · exact abs_of_pos (by positivity)
      · rw [mul_neg, abs_neg]; exact abs_of_pos (by positivity)
    rw [this]
    linarith [abs_nonneg (k * a)]
  have ne : ∀ q : V3, (q.x = rt ∨ q.x = -rt ∨ q.y = rt ∨ q.y = -rt ∨ q.z = rt ∨ q.z = -rt) →
      scale k q ≠ ⟨0, 0, 0⟩ := by
    intro q hq
    apply scale_ne k hk
    intro h0
    rw [h0] at hq
    simp only at hq
    rcases hq with hq | hq | hq | hq | hq | hq <;> linarith
  obtain ⟨c90, s90⟩ := deg_90
  obtain ⟨cm90, sm90⟩ := deg_m90
  obtain ⟨cm180, sm180⟩ := deg_m180
  obtain ⟨c0, s0⟩ := deg_0
  match tile, ht with
  | 0, _ => exact ⟨h, by omega⟩
  | 1, _ =>
    have r1 : rotate .three ((-90 : ℝ) * π / 180) (scale k ⟨rt, x, -y⟩) = scale k ⟨-x, rt, -y⟩ := by
      unfold rotate scale
      simp only [cm90, sm90]
      ext <;> simp only <;> ring
    have h1 := rot3d_spec .three (-90) (lon, lat, R) _ _ hstart r1 (ne _ (by simp)) (offy _ _ _ (Or.inl rfl))
    refine ⟨?_, by omega⟩
    show point (rot3d false .three (-90) (lon, lat, R)).1
      (rot3d false .three (-90) (lon, lat, R)).2.1 = _
    rw [h1.2.1]
    exact final_point k hk _ _ (by unfold flip face; simp [rt_half])
  | 2, _ =>
    have r1 : rotate .three ((-90 : ℝ) * π / 180) (scale k ⟨rt, x, -y⟩) = scale k ⟨-x, rt, -y⟩ := by
      unfold rotate scale
      simp only [cm90, sm90]
      ext <;> simp only <;> ring
    have r2 : rotate .one ((90 : ℝ) * π / 180) (scale k ⟨-x, rt, -y⟩) = scale k ⟨-x, -y, -rt⟩ := by
      unfold rotate scale
      simp only [c90, s90]
      ext <;> simp only <;> ring
    have h1 := rot3d_spec .three (-90) (lon, lat, R) _ _ hstart r1 (ne _ (by simp)) (offy _ _ _ (Or.inl rfl))
    have ho : OffAxis (scale k ⟨-x, -y, -rt⟩) := by
      have := hpole (Or.inl rfl)
      unfold OffAxis scale at this ⊢
      simp only [mul_neg, abs_neg, neg_eq_zero] at this ⊢
      rcases this with hh | hh
      · exact Or.inl ⟨hh.2, hh.1⟩
      · right; linarith
    have h2 := rot3d_spec .one 90 (rot3d false .three (-90) (lon, lat, R)) _ _ h1.1 r2 (ne _ (by simp)) ho
    refine ⟨?_, fun _ hx hy => h2.2.2 (by unfold scale; simp [hx, hy]) (by unfold scale; simp [hx, hy])⟩
    show point (rot3d false .one 90 (rot3d false .three (-90) (lon, lat, R))).1
      (rot3d false .one 90 (rot3d false .three (-90) (lon, lat, R))).2.1 = _
    rw [h2.2.1]
    exact final_point k hk _ _ (by unfold flip face; simp [rt_half])
  | 3, _ =>
    have r1 : rotate .three ((-180 : ℝ) * π / 180) (scale k ⟨rt, x, -y⟩) = scale k ⟨-rt, -x, -y⟩ := by
      unfold rotate scale
      simp only [cm180, sm180]
      ext <;> simp only <;> ring
    have r2 : rotate .one ((90 : ℝ) * π / 180) (scale k ⟨-rt, -x, -y⟩) = scale k ⟨-rt, -y, x⟩ := by
      unfold rotate scale
      simp only [c90, s90]
      ext <;> simp only <;> ring
    have h1 := rot3d_spec .three (-180) (lon, lat, R) _ _ hstart r1 (ne _ (by simp)) (offx _ _ _ (Or.inr rfl))
    have h2 := rot3d_spec .one 90 (rot3d false .three (-180) (lon, lat, R)) _ _ h1.1 r2 (ne _ (by simp))
      (offx _ _ _ (Or.inr rfl))
    refine ⟨?_, by omega⟩
    show point (rot3d false .one 90 (rot3d false .three (-180) (lon, lat, R))).1
      (rot3d false .one 90 (rot3d false .three (-180) (lon, lat, R))).2.1 = _
    rw [h2.2.1]
    exact final_point k hk _ _ (by unfold flip face; simp [rt_half])
  | 4, _ =>
    have r1 : rotate .three ((90 : ℝ) * π / 180) (scale k ⟨rt, x, -y⟩) = scale k ⟨x, -rt, -y⟩ := by
      unfold rotate scale
      simp only [c90, s90]
      ext <;> simp only <;> ring
    have r2 : rotate .two ((90 : ℝ) * π / 180) (scale k ⟨x, -rt, -y⟩) = scale k ⟨y, -rt, x⟩ := by
      unfold rotate scale
      simp only [c90, s90]
      ext <;> simp only <;> ring
    have h1 := rot3d_spec .three 90 (lon, lat, R) _ _ hstart r1 (ne _ (by simp)) (offy _ _ _ (Or.inr rfl))
    have h2 := rot3d_spec .two 90 (rot3d false .three 90 (lon, lat, R)) _ _ h1.1 r2 (ne _ (by simp))
      (offy _ _ _ (Or.inr rfl))
    refine ⟨?_, by omega⟩
    show point (rot3d false .two 90 (rot3d false .three 90 (lon, lat, R))).1
      (rot3d false .two 90 (rot3d false .three 90 (lon, lat, R))).2.1 = _
    rw [h2.2.1]
    exact final_point k hk _ _ (by unfold flip face; simp [rt_half])
  | 5, _ =>
    have r1 : rotate .two ((90 : ℝ) * π / 180) (scale k ⟨rt, x, -y⟩) = scale k ⟨y, x, rt⟩ := by
      unfold rotate scale
      simp only [c90, s90]
      ext <;> simp only <;> ring
    have r2 : rotate .three ((0 : ℝ) * π / 180) (scale k ⟨y, x, rt⟩) = scale k ⟨y, x, rt⟩ := by
      unfold rotate scale
      simp only [c0, s0]
      ext <;> simp only <;> ring
    have ho : OffAxis (scale k ⟨y, x, rt⟩) := hpole (Or.inr rfl)
    have h1 := rot3d_spec .two 90 (lon, lat, R) _ _ hstart r1 (ne _ (by simp)) ho
    have h2 := rot3d_spec .three 0 (rot3d false .two 90 (lon, lat, R)) _ _ h1.1 r2 (ne _ (by simp)) ho
    refine ⟨?_, fun _ hx hy => h2.2.2 (by unfold scale; simp [hx, hy]) (by unfold scale; simp [hx, hy])⟩
    show point (rot3d false .three 0 (rot3d false .two 90 (lon, lat, R))).1
      (rot3d false .three 0 (rot3d false .two 90 (lon, lat, R))).2.1 = _
    rw [h2.2.1]
    exact final_point k hk _ _ (by unfold flip face; simp [rt_half])

theorem cartToSph_range (p : V3) :
    -π < (cartToSph false p).1 ∧ (cartToSph false p).1 ≤ π ∧
    -(π / 2) ≤ (cartToSph false p).2.1 ∧ (cartToSph false p).2.1 ≤ π / 2 := by
  have hp := pi_pos
  unfold cartToSph
  simp only [Bool.false_eq_true, if_false]
  refine ⟨?_, ?_, ?_, ?_⟩
  · split
    · linarith
    · exact Complex.neg_pi_lt_arg _
  · split
    · linarith
    · exact Complex.arg_le_pi _
  · linarith [arccos_nonneg (p.z / sqrt (p.x * p.x + p.y * p.y + p.z * p.z))]
  · linarith [arccos_le_pi (p.z / sqrt (p.x * p.x + p.y * p.y + p.z * p.z))]

theorem rotateTile_range (R : ℝ) (tile : Nat) (ht : tile < 6) (p : ℝ × ℝ) (h1 : -(π / 2) < p.1) (h2 : p.1 < π / 2)
    (h3 : -(π / 2) ≤ p.2) (h4 : p.2 ≤ π / 2) :
    -π < (rotateTile false R tile p).1 ∧ (rotateTile false R tile p).1 ≤ π ∧
    -(π / 2) ≤ (rotateTile false R tile p).2 ∧ (rotateTile false R tile p).2 ≤ π / 2 := by
  have hp := pi_pos
  match tile, ht with
  | 0, _ =>
    show -π < p.1 ∧ p.1 ≤ π ∧ -(π / 2) ≤ p.2 ∧ p.2 ≤ π / 2
    exact ⟨by linarith, by linarith, h3, h4⟩
  | 1, _ => exact cartToSph_range _
  | 2, _ => exact cartToSph_range _
  | 3, _ => exact cartToSph_range _
  | 4, _ => exact cartToSph_range _
  | 5, _ => exact cartToSph_range _

/-- A point of the plane of the Greenwich meridian has longitude 0 or `π`. -/
theorem meridian (lon lat a c : ℝ) (hl : -(π / 2) ≤ lat) (hl' : lat ≤ π / 2) (h : point lon lat = ⟨a, 0, c⟩) :
    (0 ≤ a → point 0 lat = ⟨a, 0, c⟩) ∧ (a ≤ 0 → point π lat = ⟨a, 0, c⟩) := by
  have hx : cos lat * cos lon = a := congrArg V3.x h
  have hy : cos lat * sin lon = 0 := congrArg V3.y h
  have hz : sin lat = c := congrArg V3.z h
  have hc : 0 ≤ cos lat := cos_nonneg_of_neg_pi_div_two_le_of_le hl hl'
  have hsq : a ^ 2 = cos lat ^ 2 := by
    have := sin_sq_add_cos_sq lon
    rw [← hx]
    nlinarith
  unfold point
  constructor
  · intro ha
    have : cos lat = a := by
      rcases sq_eq_sq_iff_eq_or_eq_neg.mp hsq with h | h
      · exact h.symm
      · nlinarith
    ext <;> simp [this, hz]
  · intro ha
    have : cos lat = -a := by
      rcases sq_eq_sq_iff_eq_or_eq_neg.mp hsq with h | h
      · nlinarith
      · linarith
    ext <;> simp [this, hz]

/-- What the corrections of the tiles keep. -/
def Placed (p : ℝ × ℝ) (v : V3) : Prop :=
  point p.1 p.2 = v ∧ -π < p.1 ∧ p.1 ≤ π ∧ -(π / 2) ≤ p.2 ∧ p.2 ≤ π / 2

theorem T_sign (n : Nat) (hn : 0 < n) (k : Nat) (hk : k ≤ n) :
    (2 * k ≤ n → T n k ≤ 0) ∧ (n ≤ 2 * k → 0 ≤ T n k) := by
  have hneg := T_neg n hn k hk
  constructor
  · intro h
    rcases Nat.eq_or_lt_of_le h with h' | h'
    · exact le_of_eq (T_mid n hn k h')
    · have := T_mono n hn k (n - k : Nat) (by omega) (by omega) (by omega)
      linarith
  · intro h
    rcases Nat.eq_or_lt_of_le h with h' | h'
    · exact le_of_eq (T_mid n hn k h'.symm).symm
    · have := T_mono n hn (n - k : Nat) k (by omega) (by omega) (by omega)
      linarith

theorem unit_mid (x h : ℝ) : unit ⟨-x, -0, h⟩ = ⟨-x / len ⟨-x, -0, h⟩, 0, h / len ⟨-x, -0, h⟩⟩ := by
  unfold unit
  ext <;> simp

theorem fix2_placed (m : Mirror) (oi oj : Nat) (hi0 : oi + m.w ≤ m.n) (hj0 : oj + m.w ≤ m.n) (hw : 0 < m.w)
    (hgi : m.gis = 3 + oi) (hgj : m.gjs = 3 + oj) (i j : Nat) (hi : i ≤ m.w) (hj : j ≤ m.w) (p : ℝ × ℝ)
    (h : Placed p (unit (face 2 (T m.n (oi + i : Nat)) (T m.n (oj + j : Nat)))))
    (hpole : T m.n (oi + i : Nat) = 0 → T m.n (oj + j : Nat) = 0 → p.1 = 0) :
    Placed (m.fix2 i j p) (unit (face 2 (T m.n (oi + i : Nat)) (T m.n (oj + j : Nat)))) ∧
    (T m.n (oi + i : Nat) = 0 → T m.n (oj + j : Nat) = 0 → (m.fix2 i j p).1 = 0) := by
  have hn : 0 < m.n := by omega
  have hp := pi_pos
  unfold Mirror.fix2
  by_cases hodd : m.odd = true
  swap
  · rw [if_neg hodd]; exact ⟨h, hpole⟩
  rw [if_pos hodd]
  have hodd' : m.n % 2 = 0 := by
    unfold Mirror.odd at hodd
    simp only [bne_iff_ne, ne_eq] at hodd
    omega
  by_cases hjm : (j : Int) = m.jMid
  swap
  · simp only [hjm, decide_false, Bool.false_and, Bool.false_eq_true, if_false]
    exact ⟨h, hpole⟩
  have hj2 : 2 * (oj + j) = m.n := by
    unfold Mirror.jMid at hjm
    omega
  have hTj : T m.n (oj + j : Nat) = 0 := T_mid m.n hn _ hj2
  rw [hTj] at h ⊢
  have hs := T_sign m.n hn (oi + i) (by omega)
  have hface : face 2 (T m.n (oi + i : Nat)) 0 = ⟨-T m.n (oi + i : Nat), -0, rt⟩ := by
    show (⟨-T m.n (oi + i : Nat), -0, half⟩ : V3) = _
    rw [rt_half]
  rw [hface] at h ⊢
  have hlpos := (unit_dot (⟨-T m.n (oi + i : Nat), -0, rt⟩ : V3) (by
    intro h0
    have : rt = 0 := congrArg V3.z h0
    linarith [rt_pos])).2
  rw [unit_mid] at h ⊢
  obtain ⟨h1, h2, h3, h4, h5⟩ := h
  -- at the pole
  by_cases hmid : (i : Int) = m.iMid
  · have hi2 : 2 * (oi + i) = m.n := by
      unfold Mirror.iMid at hmid
      omega
    have hTi : T m.n (oi + i : Nat) = 0 := T_mid m.n hn _ hi2
    have hp0 := hpole hTi hTj
    have hx : m.xCentre = true := by
      unfold Mirror.xCentre
      simp only [Bool.and_eq_true, decide_eq_true_eq]
      omega
    have hy : m.yCentre = true := by
      unfold Mirror.yCentre
      simp only [Bool.and_eq_true, decide_eq_true_eq]
      omega
    have hpole2 : p.2 = π / 2 := by
      have hz : sin p.2 = rt / len ⟨-T m.n (oi + i : Nat), -0, rt⟩ := congrArg V3.z h1
      have hl : len (⟨-T m.n (oi + i : Nat), -0, rt⟩ : V3) = rt := by
        rw [hTi]
        unfold len dot
        rw [show (-0 : ℝ) * -0 + -0 * -0 + rt * rt = rt * rt by ring, sqrt_mul_self (le_of_lt rt_pos)]
      rw [hl, div_self (ne_of_gt rt_pos)] at hz
      have := injOn_sin (x₁ := p.2) (x₂ := π / 2) ⟨h4, h5⟩ ⟨by linarith, le_refl _⟩ (by rw [hz, sin_pi_div_two])
      exact this
    have hi1 : (i : Int) < m.iMid + 1 := by omega
    simp only [hjm, hmid, hx, hy, decide_true, Bool.true_and, Bool.and_true, if_true]
    have e : (if decide (m.iMid = m.jMid) = true then ((0 : ℝ), π / 2) else p) = p := by
      split
      · exact Prod.ext hp0.symm hpole2.symm
      · rfl
    rw [e, if_pos (by omega)]
    refine ⟨?_, fun _ _ => rfl⟩
    have ep : ((0 : ℝ), p.2) = p := Prod.ext hp0.symm rfl
    rw [ep]
    exact ⟨h1, h2, h3, h4, h5⟩
  · simp only [hjm, hmid, decide_true, decide_false, Bool.and_false, Bool.true_and, Bool.false_eq_true, if_false]
    have hTne : T m.n (oi + i : Nat) ≠ 0 := by
      intro h0
      have h2i : 2 * (oi + i) ≠ m.n := by
        unfold Mirror.iMid at hmid
        omega
      have := T_far m.n hn (oi + i) (by omega) h2i
      rw [h0, abs_zero] at this
      have h' : (0 : ℝ) < 1 / (3 * m.n) := by positivity
      linarith
    refine ⟨?_, fun h0 => absurd h0 hTne⟩
    have hm := meridian p.1 p.2 _ _ h4 h5 h1
    by_cases hy : m.yCentre = true
    swap
    · rw [if_neg hy]; exact ⟨h1, h2, h3, h4, h5⟩
    rw [if_pos hy]
    by_cases hx : m.xCentre = true
    · rw [if_pos hx]
      by_cases hlt : (i : Int) < m.iMid + 1
      · rw [if_pos hlt]
        refine ⟨hm.1 ?_, by simpa using hp, le_of_lt hp, h4, h5⟩
        apply div_nonneg _ (le_of_lt hlpos)
        have := hs.1 (by unfold Mirror.iMid at hlt; omega)
        linarith
      · rw [if_neg hlt]
        refine ⟨hm.2 ?_, by simp only; linarith, le_refl _, h4, h5⟩
        apply div_nonpos_of_nonpos_of_nonneg _ (le_of_lt hlpos)
        have := hs.2 (by unfold Mirror.iMid at hlt; omega)
        linarith
    · rw [if_neg hx, if_neg (by unfold Mirror.iMid; omega), if_neg (by unfold Mirror.iMid; omega)]
      exact ⟨h1, h2, h3, h4, h5⟩

theorem fix3_placed (m : Mirror) (oj : Nat) (hj0 : oj + m.w ≤ m.n) (hw : 0 < m.w)
    (hgj : m.gjs = 3 + oj) (i j : Nat) (hj : j ≤ m.w) (p : ℝ × ℝ) (x : ℝ)
    (h : Placed p (unit (face 3 x (T m.n (oj + j : Nat))))) :
    Placed (m.fix3 i j p) (unit (face 3 x (T m.n (oj + j : Nat)))) := by
  have hn : 0 < m.n := by omega
  unfold Mirror.fix3
  by_cases hodd : m.odd = true
  swap
  · rw [if_neg hodd]; exact h
  rw [if_pos hodd]
  split
  swap
  · exact h
  rename_i hc
  simp only [Bool.and_eq_true, decide_eq_true_eq] at hc
  have hTj : T m.n (oj + j : Nat) = 0 := by
    apply T_mid m.n hn
    have h1 := hc.1
    unfold Mirror.jMid at h1
    unfold Mirror.odd at hodd
    simp only [bne_iff_ne, ne_eq] at hodd
    omega
  rw [hTj] at h ⊢
  have hface : unit (face 3 x 0) = ⟨-rt / len (face 3 x 0), 0, -x / len (face 3 x 0)⟩ := by
    unfold unit
    ext
    · simp [face, rt_half]
    · simp [face]
    · simp [face]
  have hlpos := (unit_dot (face 3 x 0) (by
    intro h0
    have : -half = 0 := congrArg V3.x h0
    rw [← rt_half] at this
    linarith [rt_pos])).2
  rw [hface] at h ⊢
  obtain ⟨h1, h2, h3, h4, h5⟩ := h
  refine ⟨(meridian p.1 p.2 _ _ h4 h5 h1).2 ?_, by simp only; linarith [pi_pos], le_refl _, h4, h5⟩
  exact div_nonpos_of_nonpos_of_nonneg (by linarith [rt_pos]) (le_of_lt hlpos)

theorem fix5_eq (m : Mirror) (i j : Nat) (p : ℝ × ℝ) : m.fix5 i j p = p := by
  unfold Mirror.fix5
  by_cases hodd : m.odd = true
  swap
  · rw [if_neg hodd]
  rw [if_pos hodd]
  have hodd' : m.n % 2 = 0 := by
    unfold Mirror.odd at hodd
    simp only [bne_iff_ne, ne_eq] at hodd
    omega
  have h1 : decide (2 * (m.gjs + m.jMid) > 2 * 3 + m.n) = false := by
    unfold Mirror.jMid
    simp only [decide_eq_false_iff_not]
    omega
  have h2 : decide (2 * (m.gjs + m.jMid) < 2 * 3 + m.n) = false := by
    unfold Mirror.jMid
    simp only [decide_eq_false_iff_not]
    omega
  have h3 : (decide ((m.w + 1 : Int) = m.iMid) && m.xCentre) = false := by
    unfold Mirror.iMid Mirror.xCentre
    rw [Bool.eq_false_iff]
    intro h
    simp only [Bool.and_eq_true, decide_eq_true_eq] at h
    omega
  rw [h1, h2, h3]
  rfl

theorem rank_core (R : ℝ) (hR : 1 ≤ R) (l w tile bi bj : Nat) (ht : tile < 6) (hw : 0 < w) (hbi : bi < l)
    (hbj : bj < l) (hn : l * w ≤ 10 ^ 9) (i j : Nat) (hi : i ≤ w) (hj : j ≤ w) :
    Placed (rankGrid R l w tile bi bj i j)
      (unit (face tile (T (l * w) (bi * w + i : Nat)) (T (l * w) (bj * w + j : Nat)))) ∧
    (tile = 2 ∨ tile = 5 → T (l * w) (bi * w + i : Nat) = 0 → T (l * w) (bj * w + j : Nat) = 0 →
      (rankGrid R l w tile bi bj i j).1 = 0) := by
  have hbi' : bi * w + w ≤ l * w := by
    have := Nat.mul_le_mul_right w (show bi + 1 ≤ l by omega)
    rw [Nat.add_mul, Nat.one_mul] at this
    exact this
  have hbj' : bj * w + w ≤ l * w := by
    have := Nat.mul_le_mul_right w (show bj + 1 ≤ l by omega)
    rw [Nat.add_mul, Nat.one_mul] at this
    exact this
  have hn0 : 0 < l * w := by omega
  have hrt := rt_pos
  -- origins of the mirrored ranks
  have oe : ∀ b : Nat, b < l → ((l : Int) - b - 1) * w = ((l * w - b * w - w : Nat) : Int) := by
    intro b hb
    have h1 : b * w + w ≤ l * w := by
      have := Nat.mul_le_mul_right w (show b + 1 ≤ l by omega)
      rw [Nat.add_mul, Nat.one_mul] at this
      exact this
    rw [Int.sub_mul, Int.sub_mul, Int.one_mul]
    push_cast [Nat.sub_sub, h1]
    ring
  have first : ∀ b : Nat, (b == 0) = true ↔ b * w = 0 := by
    intro b
    rw [beq_iff_eq, Nat.mul_eq_zero]
    omega
  have last : ∀ b : Nat, b < l → ((b + 1 == l) = true ↔ b * w + w = l * w) := by
    intro b hb
    rw [beq_iff_eq]
    constructor
    · intro h; rw [← h, Nat.add_mul, Nat.one_mul]
    · intro h
      have h2 : (b + 1) * w = l * w := by rw [Nat.add_mul, Nat.one_mul]; exact h
      exact Nat.eq_of_mul_eq_mul_right hw h2
  have first' : ∀ b : Nat, b < l → ((b == 0) = true ↔ l * w - b * w - w + w = l * w) := by
    intro b hb
    rw [first b]
    have : b * w + w ≤ l * w := by
      have := Nat.mul_le_mul_right w (show b + 1 ≤ l by omega)
      rw [Nat.add_mul, Nat.one_mul] at this
      exact this
    omega
  have last' : ∀ b : Nat, b < l → ((b + 1 == l) = true ↔ l * w - b * w - w = 0) := by
    intro b hb
    rw [last b hb]
    have : b * w + w ≤ l * w := by
      have := Nat.mul_le_mul_right w (show b + 1 ≤ l by omega)
      rw [Nat.add_mul, Nat.one_mul] at this
      exact this
    omega
  have s1 : (⟨l * w, w, bi == 0, bi + 1 == l, bj == 0, bj + 1 == l, 3 + bi * w, 3 + bj * w⟩ : Local).Sits
      (bi * w) (bj * w) :=
    ⟨hw, hbi', hbj', by push_cast; rfl, by push_cast; rfl, first bi, last bi hbi, first bj, last bj hbj⟩
  have s2 : (⟨l * w, w, bi + 1 == l, bi == 0, bj == 0, bj + 1 == l, 3 + ((l : Int) - bi - 1) * w, 3 + bj * w⟩ :
      Local).Sits (l * w - bi * w - w) (bj * w) :=
    ⟨hw, by simp only; omega, hbj', by simp only [oe bi hbi], by push_cast; rfl, last' bi hbi, first' bi hbi,
      first bj, last bj hbj⟩
  have s3 : (⟨l * w, w, bi == 0, bi + 1 == l, bj + 1 == l, bj == 0, 3 + bi * w, 3 + ((l : Int) - bj - 1) * w⟩ :
      Local).Sits (bi * w) (l * w - bj * w - w) :=
    ⟨hw, hbi', by simp only; omega, by push_cast; rfl, by simp only [oe bj hbj], first bi, last bi hbi,
      last' bj hbj, first' bj hbj⟩
  have s4 : (⟨l * w, w, bi + 1 == l, bi == 0, bj + 1 == l, bj == 0, 3 + ((l : Int) - bi - 1) * w,
      3 + ((l : Int) - bj - 1) * w⟩ : Local).Sits (l * w - bi * w - w) (l * w - bj * w - w) :=
    ⟨hw, by simp only; omega, by simp only; omega, by simp only [oe bi hbi], by simp only [oe bj hbj],
      last' bi hbi, first' bi hbi, last' bj hbj, first' bj hbj⟩
  unfold rankGrid Mirror.grid
  simp only
  generalize hm : (⟨l * w, w, 3 + bi * w, 3 + bj * w, tile, false, R⟩ : Mirror) = m
  have mn : m.n = l * w := by rw [← hm]
  have mw : m.w = w := by rw [← hm]
  have mgi : m.gis = 3 + (bi * w : Nat) := by rw [← hm]; push_cast; rfl
  have mgj : m.gjs = 3 + (bj * w : Nat) := by rw [← hm]; push_cast; rfl
  have g1 := fun (i j : Nat) (hi : i ≤ w) (hj : j ≤ w) => C78_local _ _ _ s1 i j hi hj
  have g2 := fun (i j : Nat) (hi : i ≤ w) (hj : j ≤ w) => C78_local _ _ _ s2 i j hi hj
  have g3 := fun (i j : Nat) (hi : i ≤ w) (hj : j ≤ w) => C78_local _ _ _ s3 i j hi hj
  have g4 := fun (i j : Nat) (hi : i ≤ w) (hj : j ≤ w) => C78_local _ _ _ s4 i j hi hj
  have hbase := base_eq m (bi * w) (bj * w) (by rw [mw]; exact hw) (by rw [mw, mn]; exact hbi')
    (by rw [mw, mn]; exact hbj') mgi (Local.grid _) (Local.grid _) (Local.grid _) (Local.grid _)
    (by rw [mn, mw]; exact g1) (by rw [mn, mw]; exact g2) (by rw [mn, mw]; exact g3) (by rw [mn, mw]; exact g4)
    i j (by rw [mw]; exact hi) (by rw [mw]; exact hj)
  rw [hbase, mn]
  obtain ⟨c1, c2, c3, c4, c5⟩ := globalGrid_char (l * w) hn0 (bi * w + i) (bj * w + j) (by omega) (by omega)
  have hTx := T_range (l * w) hn0 (bi * w + i) (by omega)
  have hTy := T_range (l * w) hn0 (bj * w + j) (by omega)
  have hTxf := T_far (l * w) hn0 (bi * w + i) (by omega)
  have hTyf := T_far (l * w) hn0 (bj * w + j) (by omega)
  have hTx0 := T_mid (l * w) hn0 (bi * w + i)
  have hTy0 := T_mid (l * w) hn0 (bj * w + j)
  generalize hX : T (l * w) (bi * w + i : Nat) = X at *
  generalize hY : T (l * w) (bj * w + j : Nat) = Y at *
  have hlen1 : len (⟨rt, X, Y⟩ : V3) ≤ 1 := by
    unfold len dot
    rw [sqrt_le_one]
    simp only
    have h2 := rt_sq
    nlinarith
  have hlen0 := (unit_dot (⟨rt, X, Y⟩ : V3) (by
    intro h0
    have : rt = 0 := congrArg V3.x h0
    linarith)).2
  have hk : 1 ≤ R / len ⟨rt, X, Y⟩ := by
    rw [le_div_iff₀ hlen0]
    linarith
  have hpole : OffAxis (scale (R / len ⟨rt, X, Y⟩) ⟨Y, X, 0⟩) := by
    have hbig : ∀ a : ℝ, 1 / (3 * ((l * w : Nat) : ℝ)) ≤ |a| → 1 / 10 ^ 10 ≤ |R / len ⟨rt, X, Y⟩ * a| := by
      intro a ha
      rw [abs_mul, abs_of_pos (lt_of_lt_of_le one_pos hk)]
      have h1 : ((l * w : Nat) : ℝ) ≤ 10 ^ 9 := by exact_mod_cast hn
      have h2 : (0 : ℝ) < ((l * w : Nat) : ℝ) := by exact_mod_cast hn0
      have h3 : (1 : ℝ) / 10 ^ 10 ≤ 1 / (3 * ((l * w : Nat) : ℝ)) := by
        apply one_div_le_one_div_of_le (by positivity)
        nlinarith
      calc (1 : ℝ) / 10 ^ 10 ≤ |a| := le_trans h3 ha
        _ ≤ R / len ⟨rt, X, Y⟩ * |a| := le_mul_of_one_le_left (abs_nonneg a) hk
    by_cases hx : 2 * (bi * w + i) = l * w
    · by_cases hy : 2 * (bj * w + j) = l * w
      · left
        rw [hTx0 hx, hTy0 hy]
        unfold scale
        simp
      · right
        unfold scale
        simp only
        linarith [hbig Y (hTyf hy), abs_nonneg (R / len ⟨rt, X, Y⟩ * X)]
    · right
      unfold scale
      simp only
      linarith [hbig X (hTxf hx), abs_nonneg (R / len ⟨rt, X, Y⟩ * Y)]
  have hrot := rotateTile_spec R tile ht _ _ X Y c1 _ rfl (le_trans (by norm_num) hk) (fun _ => hpole)
  have hrng := rotateTile_range R tile ht (globalGrid (l * w) (bi * w + i) (bj * w + j)) c2 c3 c4 c5
  generalize hp : rotateTile false R tile (globalGrid (l * w) (bi * w + i) (bj * w + j)) = p at *
  have hpl : Placed p (unit (face tile X Y)) := ⟨hrot.1, hrng⟩
  have fin : tile = 2 → Placed (m.fix2 i j p) (unit (face 2 X Y)) ∧ (X = 0 → Y = 0 → (m.fix2 i j p).1 = 0) := by
    intro h2
    subst h2
    have := fix2_placed m (bi * w) (bj * w) (by rw [mw, mn]; exact hbi') (by rw [mw, mn]; exact hbj')
      (by rw [mw]; exact hw) mgi mgj i j (by rw [mw]; exact hi) (by rw [mw]; exact hj) p
      (by rw [mn, hX, hY]; exact hpl) (by rw [mn, hX, hY]; exact hrot.2 (Or.inl rfl))
    rw [mn, hX, hY] at this
    exact this
  have fin3 : tile = 3 → Placed (m.fix3 i j p) (unit (face 3 X Y)) := by
    intro h3
    subst h3
    have := fix3_placed m (bj * w) (by rw [mw, mn]; exact hbj')
      (by rw [mw]; exact hw) mgj i j (by rw [mw]; exact hj) p X
      (by rw [mn, hY]; exact hpl)
    rw [mn, hY] at this
    exact this
  match tile, ht with
  | 0, _ => exact ⟨hpl, hrot.2⟩
  | 1, _ => exact ⟨hpl, hrot.2⟩
  | 2, _ => exact ⟨(fin rfl).1, fun _ => (fin rfl).2⟩
  | 3, _ => exact ⟨fin3 rfl, by omega⟩
  | 4, _ => exact ⟨hpl, hrot.2⟩
  | 5, _ =>
    show Placed (m.fix5 i j p) _ ∧ (_ → _ → _ → (m.fix5 i j p).1 = 0)
    rw [fix5_eq]
    exact ⟨hpl, hrot.2⟩

/-- **C78** (position): for every layout, size, tile and rank, each corner that a rank computes has its
longitude in (-π, π] and its latitude in [-π/2, π/2], and they point at the corner's place on the cube:
the face of the tile, at the grid lines with the corner's index in the tile.  None of it depends on how
the tile is cut into ranks. -/
theorem C78_rank (R : ℝ) (hR : 1 ≤ R) (l w tile bi bj : Nat) (ht : tile < 6) (hw : 0 < w) (hbi : bi < l)
    (hbj : bj < l) (hn : l * w ≤ 10 ^ 9) (i j : Nat) (hi : i ≤ w) (hj : j ≤ w) :
    point (rankGrid R l w tile bi bj i j).1 (rankGrid R l w tile bi bj i j).2 =
      unit (face tile (line (l * w) (bi * w + i)) (line (l * w) (bj * w + j))) ∧
    -π < (rankGrid R l w tile bi bj i j).1 ∧ (rankGrid R l w tile bi bj i j).1 ≤ π ∧
    -(π / 2) ≤ (rankGrid R l w tile bi bj i j).2 ∧ (rankGrid R l w tile bi bj i j).2 ≤ π / 2 := by
  have := (rank_core R hR l w tile bi bj ht hw hbi hbj hn i j hi hj).1
  unfold Placed at this
  rw [T_line, T_line] at this
  exact this

/-- The sixth rank of tile 3 in a layout of 3 by 3 blocks of 16 by 16 cells, on the Earth. -/
example : (1 : ℝ) ≤ 6371200 ∧ 3 < 6 ∧ 0 < 16 ∧ 2 < 3 ∧ 1 < 3 ∧ 3 * 16 ≤ 10 ^ 9 := by norm_num

end NDSL.Sphere
