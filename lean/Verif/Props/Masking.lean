import Verif.Model.Masking
import Verif.Props.Segments
import Mathlib.Tactic.Linarith
import Mathlib.Tactic.Ring
import Mathlib.Tactic.NormNum
import Mathlib.Tactic.FieldSimp
/-
Property C105: cells at the edge of the map, and colours.
-/
namespace NDSL.Masking
open NDSL.Segments (Mat Piece allSegments Rect Corners)

/-! ### Specification -/

/-- The same place on a circle of 360 degrees. -/
def SamePlace (x y : ℚ) : Prop := ∃ n : Int, y = x + 360 * n

/-- `at_` says where the corners `vs` are on a line, so that they are less than 90 degrees apart: the cell is narrow. -/
def Unrolled (vs : List ℚ) (at_ : ℚ → ℚ) : Prop :=
  (∀ v ∈ vs, SamePlace v (at_ v)) ∧ ∀ v ∈ vs, ∀ w ∈ vs, at_ v - at_ w < 90

/-- The meridian `am` goes through the cell: a corner is beyond it and another is not. -/
def Cuts (am : ℚ) (vs : List ℚ) (at_ : ℚ → ℚ) : Prop :=
  ∃ m, SamePlace am m ∧ (∃ v ∈ vs, at_ v ≤ m) ∧ ∃ w ∈ vs, m < at_ w

/-! ### Distances -/

theorem absQ_le {x b : ℚ} : absQ x ≤ b ↔ -b ≤ x ∧ x ≤ b := by
  unfold absQ
  split
  · constructor
    · intro h; exact ⟨by linarith, by linarith⟩
    · intro h; linarith [h.1]
  · constructor
    · intro h; exact ⟨by linarith, h⟩
    · intro h; exact h.2

/-- C105: up to one and a half periods apart, the difference is the shortest on the circle; and the comparisons are its
sign. -/
theorem C105_difference (x y p : ℚ) (h : absQ (x - y) ≤ 3 * p / 2) :
    absQ (periodicDiff x y p) ≤ p / 2 ∧
    (∃ n : Int, periodicDiff x y p = x - y + p * n) ∧
    (periodicLe x y p = true ↔ periodicDiff x y p ≤ 0) ∧ (periodicGt x y p = true ↔ 0 < periodicDiff x y p) := by
  have h' := absQ_le.mp h
  unfold periodicDiff periodicLe periodicGt
  by_cases h1 : absQ (x - y) ≤ p / 2
  · simp only [if_pos h1]
    exact ⟨h1, ⟨0, by push_cast; ring⟩, by rw [decide_eq_true_eq], by rw [decide_eq_true_eq]⟩
  · simp only [if_neg h1]
    by_cases h2 : x - y ≥ 0
    · simp only [if_pos h2]
      refine ⟨?_, ⟨-1, by push_cast; ring⟩, by rw [decide_eq_true_eq], by rw [decide_eq_true_eq]⟩
      rw [absQ_le] at h1 ⊢
      constructor
      · by_contra hc; apply h1; constructor <;> linarith
      · linarith
    · simp only [if_neg h2]
      refine ⟨?_, ⟨1, by push_cast; ring⟩, by rw [decide_eq_true_eq], by rw [decide_eq_true_eq]⟩
      rw [absQ_le] at h1 ⊢
      constructor
      · linarith
      · by_contra hc; apply h1; constructor <;> linarith

/-- C105: the antimeridian is the place opposite of the centre, as a number from 0 up to 360. -/
theorem C105_antimeridian (central : ℚ) :
    0 ≤ antimeridian central ∧ antimeridian central < 360 ∧ SamePlace (central + 180) (antimeridian central) := by
  unfold antimeridian pyMod
  have h1 := Rat.floor_le ((central + 180) / 360)
  have h2 := Rat.lt_floor_add_one ((central + 180) / 360)
  push_cast at h2
  refine ⟨by linarith, by linarith, -((central + 180) / 360).floor, by push_cast; ring⟩

theorem int_zero {k : Int} (h1 : (-360 : ℚ) < 360 * k) (h2 : 360 * (k : ℚ) < 360) : k = 0 := by
  have a : (-1 : ℚ) < k := by linarith
  have b : (k : ℚ) < 1 := by linarith
  have a' : (-1 : Int) < k := by exact_mod_cast a
  have b' : k < (1 : Int) := by exact_mod_cast b
  omega

/-- C105: a narrow cell of the six tiles is left out if and only if the antimeridian goes through it. -/
theorem C105_mask (central : ℚ) (k : Nat) (hk : k < 6) (lon : Mat ℚ) (i j : Nat) (at_ : ℚ → ℚ)
    (hr : ∀ v ∈ vertices lon i j, -180 ≤ v ∧ v < 540) (hu : Unrolled (vertices lon i j) at_) :
    keep (antimeridian central) k lon i j = false ↔ Cuts (antimeridian central) (vertices lon i j) at_ := by
  obtain ⟨a0, a1, -⟩ := C105_antimeridian central
  revert a0 a1
  generalize antimeridian central = am
  intro a0 a1
  have len : (vertices lon i j).length = 4 := rfl
  revert hr hu len
  unfold keep
  generalize vertices lon i j = vs
  intro hr hu len
  have key : ∀ v ∈ vs, absQ (periodicDiff v am 360) ≤ 360 / 2 ∧
      (∃ n : Int, periodicDiff v am 360 = v - am + 360 * n) ∧
      (periodicLe v am 360 = true ↔ periodicDiff v am 360 ≤ 0) ∧
      (periodicGt v am 360 = true ↔ 0 < periodicDiff v am 360) := by
    intro v hv
    have := hr v hv
    exact C105_difference v am 360 (absQ_le.mpr ⟨by linarith, by linarith⟩)
  have all4 : ∀ p : ℚ → Bool, vs.countP p = 4 ↔ ∀ v ∈ vs, p v = true := by
    intro p; rw [← len, List.countP_eq_length]
  simp only [if_pos hk, Bool.not_eq_false', Bool.and_eq_true, decide_eq_true_eq, ne_eq, all4]
  -- the place of a corner relative to the antimeridian
  have place : ∀ v ∈ vs, ∃ n : Int, periodicDiff v am 360 = at_ v - am + 360 * n := by
    intro v hv
    obtain ⟨-, ⟨n, hn⟩, -⟩ := key v hv
    obtain ⟨q, hq⟩ := hu.1 v hv
    exact ⟨n - q, by rw [hn, hq]; push_cast; ring⟩
  constructor
  · rintro ⟨⟨h1, h2⟩, h3⟩
    have h1' : ∃ v ∈ vs, 0 < periodicDiff v am 360 := by
      by_contra hc; apply h1; intro v hv
      rw [(key v hv).2.2.1]
      by_contra hd; exact hc ⟨v, hv, not_le.mp hd⟩
    have h2' : ∃ v ∈ vs, periodicDiff v am 360 ≤ 0 := by
      by_contra hc; apply h2; intro v hv
      rw [(key v hv).2.2.2]
      by_contra hd; exact hc ⟨v, hv, not_lt.mp hd⟩
    obtain ⟨w, hw, hw0⟩ := h1'
    obtain ⟨v, hv, hv0⟩ := h2'
    obtain ⟨n, hn⟩ := place v hv
    obtain ⟨m, hm⟩ := place w hw
    have b1 := (absQ_le.mp (key v hv).1).1
    have b2 := h3 w hw
    have c1 := hu.2 v hv w hw
    have c2 := hu.2 w hw v hv
    have e : m - n = 0 := by
      apply int_zero
      · push_cast; linarith
      · push_cast; linarith
    have e' : m = n := by omega
    subst e'
    exact ⟨am + 360 * ((-m : Int) : ℚ), ⟨-m, rfl⟩, ⟨v, hv, by push_cast; linarith⟩, w, hw, by push_cast; linarith⟩
  · rintro ⟨_, ⟨t, rfl⟩, ⟨v, hv, hv0⟩, w, hw, hw0⟩
    have near : ∀ u ∈ vs, periodicDiff u am 360 = at_ u - am - 360 * t := by
      intro u hu'
      obtain ⟨n, hn⟩ := place u hu'
      have b := absQ_le.mp (key u hu').1
      have c1 := hu.2 u hu' v hv
      have c2 := hu.2 w hw u hu'
      have e : n + t = 0 := by
        apply int_zero
        · push_cast; linarith
        · push_cast; linarith
      have e' : n = -t := by omega
      rw [hn, e']; push_cast; ring
    refine ⟨⟨fun h => ?_, fun h => ?_⟩, fun u hu' => ?_⟩
    · have := (key w hw).2.2.1.mp (h w hw)
      rw [near w hw] at this; linarith
    · have := (key v hv).2.2.2.mp (h v hv)
      rw [near v hv] at this; linarith
    · rw [near u hu']
      have c1 := hu.2 u hu' v hv
      linarith

/-- C105: centred longitudes are the same places, less than a turn from one antimeridian to the other. -/
theorem C105_center (central x : ℚ) (h0 : 0 ≤ x) (h1 : x < 360) :
    SamePlace x (center central x) ∧ antimeridian central - 360 ≤ center central x ∧
      center central x < antimeridian central := by
  obtain ⟨a0, a1, -⟩ := C105_antimeridian central
  unfold center
  split
  · exact ⟨⟨0, by push_cast; ring⟩, by linarith, by assumption⟩
  · rename_i h
    exact ⟨⟨-1, by push_cast; ring⟩, by linarith, by linarith⟩

/-! ### What is drawn -/

theorem vertices_center (central : ℚ) (lon : Mat ℚ) (i j : Nat) :
    vertices { lon with get := fun i j => center central (lon.get i j) } i j = (vertices lon i j).map (center central) := rfl

theorem kept_narrow (central : ℚ) (k : Nat) (hk : k < 6) (lon : Mat ℚ) (i j : Nat) (at_ : ℚ → ℚ)
    (hr : ∀ v ∈ vertices lon i j, 0 ≤ v ∧ v < 360) (hu : Unrolled (vertices lon i j) at_)
    (ham : ∀ v ∈ vertices lon i j, v ≠ antimeridian central)
    (hkeep : keep (antimeridian central) k lon i j = true) :
    ∀ v ∈ vertices lon i j, ∀ w ∈ vertices lon i j, center central v - center central w < 90 := by
  have hno : ¬ Cuts (antimeridian central) (vertices lon i j) at_ := by
    rw [← C105_mask central k hk lon i j at_ (fun v hv => ⟨by linarith [(hr v hv).1], by linarith [(hr v hv).2]⟩) hu, hkeep]
    simp
  intro v hv w hw
  obtain ⟨⟨n, hn⟩, l1, u1⟩ := C105_center central v (hr v hv).1 (hr v hv).2
  obtain ⟨⟨m, hm⟩, l2, u2⟩ := C105_center central w (hr w hw).1 (hr w hw).2
  obtain ⟨p, hp⟩ := hu.1 v hv
  obtain ⟨q, hq⟩ := hu.1 w hw
  have c1 := hu.2 v hv w hw
  have c2 := hu.2 w hw v hv
  by_contra hc
  apply hno
  -- the centred longitudes are a turn further apart than the corners
  have e : (n - p) - (m - q) - 1 = 0 := by
    apply int_zero
    · push_cast; linarith
    · push_cast; linarith
  have e' : n - p = m - q + 1 := by omega
  have eq' : (n : ℚ) - p = m - q + 1 := by exact_mod_cast e'
  refine ⟨antimeridian central + 360 * ((p - n : Int) : ℚ), ⟨p - n, rfl⟩, ⟨v, hv, by push_cast; linarith⟩, w, hw, ?_⟩
  have hne := ham w hw
  push_cast
  rcases lt_or_eq_of_le l2 with h | h
  · linarith
  · exfalso
    apply hne
    -- the corner `w` is centred to the left edge, so it is the antimeridian itself
    rw [center] at h
    split at h
    · linarith [(hr w hw).1, (C105_antimeridian central).2.1]
    · linarith

/-- C105: no drawn cell reaches over the map. With six tiles of narrow cells, none of whose corners is on the antimeridian,
drawing ends and in all pieces the corners of every cell are less than 90 degrees apart. -/
theorem C105_drawn {V : Type} (central : ℚ) (tiles : List (Tile V)) (h6 : tiles.length = 6)
    (hc : ∀ t ∈ tiles, Corners t.lon t.lat t.array)
    (hn : ∀ t ∈ tiles, ∀ i j, i < t.array.rows → j < t.array.cols →
      (∀ v ∈ vertices t.lon i j, 0 ≤ v ∧ v < 360 ∧ v ≠ antimeridian central) ∧ ∃ at_, Unrolled (vertices t.lon i j) at_) :
    ∃ N, ∀ fuel, N ≤ fuel → ∃ pieces, draw fuel central tiles = .ok (some pieces) ∧
      ∀ p ∈ pieces, ∀ i j, i < p.2.2.rows → j < p.2.2.cols →
        ∀ v ∈ vertices p.1 i j, ∀ w ∈ vertices p.1 i j, v - w < 90 := by
  obtain ⟨rects, hcov, N, hN⟩ := Segments.C104_tiles (tiles.zipIdx.map fun t => plotTile central t.2 t.1) (by
    intro t ht
    obtain ⟨⟨u, k⟩, hu, rfl⟩ := List.mem_map.mp ht
    exact hc u (List.fst_mem_of_mem_zipIdx hu))
  refine ⟨N, fun fuel hf => ⟨_, by rw [draw, if_neg (by omega), hN fuel hf], ?_⟩⟩
  intro p hp i j hi hj
  obtain ⟨t, ht, hp⟩ := List.mem_flatMap.mp hp
  obtain ⟨rc, hrc, rfl⟩ := List.mem_map.mp hp
  obtain ⟨hb, hcount⟩ := hcov t ht
  obtain ⟨⟨u, k⟩, hu, rfl⟩ := List.mem_map.mp ht
  have hu' := List.fst_mem_of_mem_zipIdx hu
  have hk : k < 6 := by
    have := List.snd_lt_of_mem_zipIdx hu; simp only [Nat.zero_add] at this; omega
  obtain ⟨b1, b2, b3, b4⟩ := hb rc hrc
  -- the cell in the tile
  have cell : ∀ r c, rc.top ≤ r → r < rc.top + rc.height → rc.left ≤ c → c < rc.left + rc.width →
      ∀ v ∈ vertices u.lon r c, ∀ w ∈ vertices u.lon r c, center central v - center central w < 90 := by
    intro r c r1 r2 c1 c2
    have hr1 : r < u.array.rows := by
      have : rc.top + rc.height ≤ u.array.rows := b3
      omega
    have hc1 : c < u.array.cols := by
      have : rc.left + rc.width ≤ u.array.cols := b4
      omega
    have hcnt := hcount r c hr1 hc1
    have hpos : 0 < (rects (plotTile central k u)).countP fun x => x.has r c :=
      List.countP_pos_iff.mpr ⟨rc, hrc, (Segments.has_iff _ _ _).mpr ⟨r1, r2, c1, c2⟩⟩
    have hkeep : keep (antimeridian central) k u.lon r c = true := by
      by_contra hkf
      have : Segments.isNan (plotTile central k u).2.2 r c = true := by
        unfold Segments.isNan plotTile
        simp only [if_neg hkf, Option.isNone_none]
      have e : List.countP (fun rc => rc.has r c) (rects (plotTile central k u)) = 0 := by
        rw [hcnt]; exact if_pos this
      omega
    obtain ⟨g1, at_, g2⟩ := hn u hu' r c hr1 hc1
    exact kept_narrow central k hk u.lon r c at_ (fun v hv => ⟨(g1 v hv).1, (g1 v hv).2.1⟩) g2 (fun v hv => (g1 v hv).2.2) hkeep
  unfold Rect.piece Rect.part at hi hj ⊢
  by_cases htr : rc.turned = true
  · simp only [htr, if_true, Nat.add_zero] at hi hj ⊢
    intro v hv w hw
    have := cell (rc.top + j) (rc.left + i) (by omega) (by omega) (by omega) (by omega)
    have conv : ∀ v, v ∈ vertices ⟨rc.width + 1, rc.height + 1, fun i j => (plotTile central k u).1.get (rc.top + j) (rc.left + i)⟩ i j →
        ∃ v' ∈ vertices u.lon (rc.top + j) (rc.left + i), center central v' = v := by
      intro v hv
      simp only [vertices, plotTile, List.mem_cons, List.not_mem_nil, or_false] at hv
      rcases hv with rfl | rfl | rfl | rfl
      · exact ⟨_, by simp [vertices], rfl⟩
      · exact ⟨u.lon.get (rc.top + j) (rc.left + i + 1), by simp [vertices], rfl⟩
      · exact ⟨u.lon.get (rc.top + j + 1) (rc.left + i), by simp [vertices], rfl⟩
      · exact ⟨u.lon.get (rc.top + j + 1) (rc.left + i + 1), by simp [vertices], rfl⟩
    obtain ⟨v', hv', rfl⟩ := conv v hv
    obtain ⟨w', hw', rfl⟩ := conv w hw
    exact this v' hv' w' hw'
  · simp only [htr, Bool.false_eq_true, if_false, Nat.add_zero] at hi hj ⊢
    intro v hv w hw
    have := cell (rc.top + i) (rc.left + j) (by omega) (by omega) (by omega) (by omega)
    have conv : ∀ v, v ∈ vertices ⟨rc.height + 1, rc.width + 1, fun i j => (plotTile central k u).1.get (rc.top + i) (rc.left + j)⟩ i j →
        ∃ v' ∈ vertices u.lon (rc.top + i) (rc.left + j), center central v' = v := by
      intro v hv
      simp only [vertices, plotTile, List.mem_cons, List.not_mem_nil, or_false] at hv
      rcases hv with rfl | rfl | rfl | rfl
      · exact ⟨_, by simp [vertices], rfl⟩
      · exact ⟨u.lon.get (rc.top + i + 1) (rc.left + j), by simp [vertices], rfl⟩
      · exact ⟨u.lon.get (rc.top + i) (rc.left + j + 1), by simp [vertices], rfl⟩
      · exact ⟨u.lon.get (rc.top + i + 1) (rc.left + j + 1), by simp [vertices], rfl⟩
    obtain ⟨v', hv', rfl⟩ := conv v hv
    obtain ⟨w', hw', rfl⟩ := conv w hw
    exact this v' hv' w' hw'

/-! ### Colours -/

/-- C105: limits and colours that are given are kept; without limits all data are within them; if the data go from negative
to positive and at most one limit, on its own side of zero, is given, limits are symmetric and the colours diverge unless
given. -/
theorem C105_colors (xmin xmax : ℚ) (vmin vmax : Option ℚ) (cmap : Option String) (lo hi : ℚ) (c : String)
    (h : colorLimits xmin xmax vmin vmax cmap = .ok (lo, hi, c)) :
    (∀ v, vmin = some v → lo = v) ∧ (∀ v, vmax = some v → hi = v) ∧ (∀ s, cmap = some s → s ≠ "" → c = s) ∧
    (vmin = none → vmax = none → lo ≤ xmin ∧ xmax ≤ hi) ∧
    (xmin < 0 → 0 < xmax → (vmin = none ∨ vmax = none) → (∀ v, vmin = some v → v < 0) → (∀ v, vmax = some v → 0 < v) →
      lo = -hi ∧ (cmap = none → c = "RdBu_r")) ∧
    (cmap = none → c = "RdBu_r" → lo = -hi) := by
  have ab : ∀ x, x ≤ absQ x ∧ -x ≤ absQ x := by
    intro x; unfold absQ; split <;> constructor <;> linarith
  have vm : absQ xmin ≤ vabsMax xmin xmax ∧ absQ xmax ≤ vabsMax xmin xmax := by
    unfold vabsMax; split <;> constructor <;> linarith
  have oe : ∀ s d, s ≠ "" → orElse (some s) d = s := fun s d hs => if_neg hs
  cases vmin with
  | none =>
    cases vmax with
    | none =>
      rw [colorLimits] at h
      by_cases hs : xmin < 0 ∧ xmax > 0
      · rw [if_pos hs] at h
        injection h with h; injection h with e1 h; injection h with e2 e3
        subst e1 e2 e3
        refine ⟨fun _ h => (by cases h), fun _ h => (by cases h), fun s e hs => (by subst e; exact oe s _ hs), fun _ _ => ?_,
          fun _ _ _ _ _ => ⟨rfl, fun e => (by subst e; rfl)⟩, fun _ _ => rfl⟩
        exact ⟨by linarith [(ab xmin).2], by linarith [(ab xmax).1]⟩
      · rw [if_neg hs] at h
        injection h with h; injection h with e1 h; injection h with e2 e3
        subst e1 e2 e3
        exact ⟨fun _ h => (by cases h), fun _ h => (by cases h), fun s e hs => (by subst e; exact oe s _ hs),
          fun _ _ => ⟨le_refl _, le_refl _⟩, fun a b => absurd ⟨a, b⟩ hs, fun e h => (by subst e; simp [orElse] at h)⟩
    | some y =>
      rw [colorLimits] at h
      by_cases hs : xmin < 0 ∧ y > 0
      · rw [if_pos hs] at h
        injection h with h; injection h with e1 h; injection h with e2 e3
        subst e1 e2 e3
        exact ⟨fun _ h => (by cases h), fun _ h => (by injection h), fun s e hs => (by subst e; exact oe s _ hs),
          fun _ h => (by cases h), fun _ _ _ _ _ => ⟨rfl, fun e => (by subst e; rfl)⟩, fun _ _ => rfl⟩
      · rw [if_neg hs] at h
        injection h with h; injection h with e1 h; injection h with e2 e3
        subst e1 e2 e3
        exact ⟨fun _ h => (by cases h), fun _ h => (by injection h), fun s e hs => (by subst e; exact oe s _ hs),
          fun _ h => (by cases h), fun a _ _ _ b => absurd ⟨a, b _ rfl⟩ hs, fun e h => (by subst e; simp [orElse] at h)⟩
  | some x =>
    cases vmax with
    | none =>
      rw [colorLimits] at h
      by_cases hs : xmax > 0 ∧ x < 0
      · rw [if_pos hs] at h
        injection h with h; injection h with e1 h; injection h with e2 e3
        subst e1 e2 e3
        exact ⟨fun _ h => (by injection h), fun _ h => (by cases h), fun s e hs => (by subst e; exact oe s _ hs),
          fun h => (by cases h), fun _ _ _ _ _ => ⟨by ring, fun e => (by subst e; rfl)⟩, fun _ _ => by ring⟩
      · rw [if_neg hs] at h
        injection h with h; injection h with e1 h; injection h with e2 e3
        subst e1 e2 e3
        exact ⟨fun _ h => (by injection h), fun _ h => (by cases h), fun s e hs => (by subst e; exact oe s _ hs),
          fun h => (by cases h), fun _ a _ b _ => absurd ⟨a, b _ rfl⟩ hs, fun e h => (by subst e; simp [orElse] at h)⟩
    | some y =>
      rw [colorLimits] at h
      by_cases hs : noCmap cmap = true
      · rw [if_pos hs] at h
        injection h with h; injection h with e1 h; injection h with e2 e3
        subst e1 e2 e3
        refine ⟨fun _ h => (by injection h), fun _ h => (by injection h), fun s e hs' => ?_, fun h => (by cases h),
          fun _ _ h => (by rcases h with h | h <;> cases h), fun _ h => ?_⟩
        · subst e; simp [noCmap, hs'] at hs
        · by_contra hne
          rw [if_neg hne] at h; simp at h
      · rw [if_neg hs] at h; cases h

/-- C105: only when both limits and the colours are given there is no answer. -/
theorem C105_answers (xmin xmax : ℚ) (vmin vmax : Option ℚ) (cmap : Option String)
    (h : vmin = none ∨ vmax = none ∨ cmap = none ∨ cmap = some "") :
    ∃ r, colorLimits xmin xmax vmin vmax cmap = .ok r := by
  cases vmin with
  | none => cases vmax <;> rw [colorLimits] <;> split <;> exact ⟨_, rfl⟩
  | some x =>
    cases vmax with
    | none => rw [colorLimits]; split <;> exact ⟨_, rfl⟩
    | some y =>
      rcases h with h | h | h | h
      · cases h
      · cases h
      · subst h; exact ⟨_, rfl⟩
      · subst h; exact ⟨_, rfl⟩

/-! ### Not so -/

/-- Not so: that limits and colours can all be given. -/
theorem C105_all_given_violated (xmin xmax x y : ℚ) :
    colorLimits xmin xmax (some x) (some y) (some "jet") = .error .valueError := rfl

/-- A cell whose western and eastern corners have these longitudes. -/
def cellLon (west east : ℚ) : Mat ℚ := ⟨2, 2, fun _ j => if j = 0 then west else east⟩

/-- Not so for cells that touch the antimeridian from the west: one from 170 to 180 degrees is kept, and drawn from 170 to
-180 degrees, over the whole map. -/
theorem C105_touch_violated :
    keep (antimeridian 0) 0 (cellLon 170 180) 0 0 = true ∧ center 0 170 = 170 ∧ center 0 180 = -180 ∧
      Unrolled (vertices (cellLon 170 180) 0 0) id := by
  refine ⟨by decide +kernel, by decide +kernel, by decide +kernel, fun v _ => ⟨0, by simp⟩, ?_⟩
  intro v hv w hw
  simp [vertices, cellLon] at hv hw
  simp only [id]
  rcases hv with rfl | rfl <;> rcases hw with rfl | rfl <;> norm_num

/-- Not so for wide cells: one from 175 to 270 degrees is cut by the antimeridian, but kept. -/
theorem C105_wide_violated :
    keep (antimeridian 0) 0 (cellLon 175 270) 0 0 = true ∧ Cuts (antimeridian 0) (vertices (cellLon 175 270) 0 0) id := by
  refine ⟨by decide +kernel, 180, ⟨0, by decide +kernel⟩, ⟨175, by simp [vertices, cellLon], by norm_num⟩, 270,
    by simp [vertices, cellLon], by norm_num⟩

/-- Not so for a seventh tile, whose cells are all kept. -/
theorem C105_tile_violated :
    keep (antimeridian 0) 6 (cellLon 175 185) 0 0 = true ∧ keep (antimeridian 0) 5 (cellLon 175 185) 0 0 = false := by
  constructor <;> decide +kernel

theorem flatMap_congr' {α β : Type} {l : List α} {f g : α → List β} (h : ∀ a ∈ l, f a = g a) : l.flatMap f = l.flatMap g := by
  induction l with
  | nil => rfl
  | cons a l ih =>
    rw [List.flatMap_cons, List.flatMap_cons, h a List.mem_cons_self, ih fun x hx => h x (List.mem_cons_of_mem _ hx)]

/-- C105: everything else is drawn, once and at its place. With six tiles there are arrays `shown` that hold the values of the
tiles except those of the narrow cells that the antimeridian goes through, and rectangles that contain every value of these
once, such that the pieces are the rectangles of the tiles in turn, with the corners of the tile. -/
theorem C105_shown {V : Type} (central : ℚ) (tiles : List (Tile V)) (h6 : tiles.length = 6)
    (hc : ∀ t ∈ tiles, Corners t.lon t.lat t.array) :
    ∃ (shown : Nat → Mat (Option V)) (rects : Nat → List Rect),
      (∀ (k : Nat) (t : Tile V), tiles[k]? = some t →
        (shown k).rows = t.array.rows ∧ (shown k).cols = t.array.cols ∧
        Segments.Cover t.array.rows t.array.cols (Segments.isNan (shown k)) (rects k) ∧
        ∀ i j at_, (∀ v ∈ vertices t.lon i j, -180 ≤ v ∧ v < 540) → Unrolled (vertices t.lon i j) at_ →
          (Cuts (antimeridian central) (vertices t.lon i j) at_ → (shown k).get i j = none) ∧
          (¬ Cuts (antimeridian central) (vertices t.lon i j) at_ → (shown k).get i j = t.array.get i j)) ∧
      ∃ N, ∀ fuel, N ≤ fuel → draw fuel central tiles = .ok (some (tiles.zipIdx.flatMap fun t => (rects t.2).map fun rc =>
        rc.piece { t.1.lon with get := fun i j => center central (t.1.lon.get i j) } t.1.lat (shown t.2))) := by
  obtain ⟨rects, hcov, N, hN⟩ := Segments.C104_tiles (tiles.zipIdx.map fun t => plotTile central t.2 t.1) (by
    intro t ht
    obtain ⟨⟨u, k⟩, hu, rfl⟩ := List.mem_map.mp ht
    exact hc u (List.fst_mem_of_mem_zipIdx hu))
  have hget : ∀ (k : Nat) (t : Tile V), tiles[k]? = some t → (tiles[k]?.map (plotTile central k)) = some (plotTile central k t) := by
    intro k t h; rw [h]; rfl
  refine ⟨fun k => match tiles[k]? with
      | some t => (plotTile central k t).2.2
      | none => ⟨0, 0, fun _ _ => none⟩,
    fun k => match tiles[k]? with
      | some t => rects (plotTile central k t)
      | none => [], fun k t hk => ?_, N, fun fuel hf => ?_⟩
  · have hk6 : k < 6 := by have := (List.getElem?_eq_some_iff.mp hk).1; omega
    simp only [hk]
    refine ⟨rfl, rfl, ?_, fun i j at_ hr hu => ⟨fun hcut => ?_, fun hcut => ?_⟩⟩
    · exact hcov _ (List.mem_map.mpr ⟨(t, k), List.mem_zipIdx_iff_getElem?.mpr hk, rfl⟩)
    · show (if keep (antimeridian central) k t.lon i j = true then t.array.get i j else none) = none
      rw [(C105_mask central k hk6 t.lon i j at_ hr hu).mpr hcut]; rfl
    · show (if keep (antimeridian central) k t.lon i j = true then t.array.get i j else none) = t.array.get i j
      have : keep (antimeridian central) k t.lon i j ≠ false := fun h => hcut ((C105_mask central k hk6 t.lon i j at_ hr hu).mp h)
      rw [if_pos (by simpa using this)]
  · rw [draw, if_neg (by omega), hN fuel hf, List.flatMap_map]
    congr 2
    apply flatMap_congr'
    rintro ⟨t, k⟩ ht
    rw [List.mem_zipIdx_iff_getElem?] at ht
    simp only [ht]
    rfl

/-- C105: with fewer than six tiles nothing is drawn. -/
theorem C105_few_violated {V : Type} (fuel : Nat) (central : ℚ) (tiles : List (Tile V)) (h : tiles.length < 6) :
    draw fuel central tiles = .error .indexError := if_pos h

/-- Not so for longitudes far apart: the difference of -200 and 350 degrees is not the shortest. -/
theorem C105_far_violated : periodicDiff (-200) 350 360 = -190 := by decide +kernel

/-! ### Examples -/

example : keep (antimeridian 0) 0 (cellLon 175 185) 0 0 = false := by decide +kernel
example : keep (antimeridian 0) 0 (cellLon 350 10) 0 0 = true := by decide +kernel
/-- `C105_mask`, `C105_drawn`: a cell over the meridian of Greenwich. -/
example : Unrolled (vertices (cellLon 350 10) 0 0) (fun v => if v = 350 then -10 else v) := by
  constructor
  · intro v hv
    simp [vertices, cellLon] at hv
    rcases hv with rfl | rfl
    · exact ⟨-1, by norm_num⟩
    · exact ⟨0, by norm_num⟩
  · intro v hv w hw
    simp [vertices, cellLon] at hv hw
    rcases hv with rfl | rfl <;> rcases hw with rfl | rfl <;> norm_num
example : absQ ((10 : ℚ) - 350) ≤ 3 * 360 / 2 ∧ periodicDiff 10 350 360 = 20 := by decide +kernel
/-- `C105_shown`: six tiles of one cell each, the first over the antimeridian. -/
example : (List.map (fun e => (⟨⟨2, 2, fun i _ => 10 * i⟩, cellLon e (e + 10), ⟨1, 1, fun _ _ => some e⟩⟩ : Tile ℚ)) [175, 0, 60, 120, 240, 300]).length = 6 ∧
    ∀ t ∈ List.map (fun e => (⟨⟨2, 2, fun i _ => 10 * i⟩, cellLon e (e + 10), ⟨1, 1, fun _ _ => some e⟩⟩ : Tile ℚ)) [175, 0, 60, 120, 240, 300],
      Corners t.lon t.lat t.array := by
  refine ⟨rfl, fun t ht => ?_⟩
  obtain ⟨e, -, rfl⟩ := List.mem_map.mp ht
  simp [Corners, cellLon]
example : (colorLimits (-10) 20 none none none).toOption = some (-20, 20, "RdBu_r") := by decide +kernel

end NDSL.Masking
