import Verif.Model.GlobalMirror
import Verif.Props.GnomonicEdges
import Mathlib.Data.List.Nodup
import Mathlib.Tactic.SplitIfs
import Mathlib.Tactic.Tauto
/-
C101: the grid of all tiles made on one rank is the grid the ranks make.
-/
namespace NDSL.Sphere
open Real

/-! ### the base region -/

/-- The mean of the absolute values at the four mirrored points. -/
noncomputable def mean4 (npx npy : Nat) (A : Nat → Nat → ℝ) (a b : Nat) : ℝ :=
  (|A a b| + |A (npx - 1 - a) b| + |A a (npy - 1 - b)| + |A (npx - 1 - a) (npy - 1 - b)|) / 4

/-- `a` is `i` or its mirror image. -/
def Mir (n i a : Nat) : Prop := a = i ∨ a = n - 1 - i
instance (n i a : Nat) : Decidable (Mir n i a) := inferInstanceAs (Decidable (_ ∨ _))

theorem copysign_abs_left (x y : ℝ) : copysign |x| y = copysign x y := by
  unfold copysign; rw [abs_abs]

theorem copysign_idem (x y : ℝ) : copysign x (copysign x y) = copysign x y := by
  unfold copysign
  by_cases h : y < 0
  · simp only [if_pos h]
    by_cases hx : -|x| < 0
    · rw [if_pos hx]
    · rw [if_neg hx]
      have := abs_nonneg x
      linarith
  · simp only [if_neg h]
    rw [if_neg (by have := abs_nonneg x; linarith)]

theorem signAt_apply (x1 : ℝ) (A : Nat → Nat → ℝ) (i j a b : Nat) :
    signAt x1 A i j a b = if a = i ∧ b = j then copysign x1 (A a b) else A a b := by
  unfold signAt putAt
  split
  · rename_i h; rw [h.1, h.2]
  · rfl

/-- One step of the loop: the four mirrored points get the mean with their own signs. -/
theorem mirrorFour_apply {npx npy : Nat} (A : Nat → Nat → ℝ) {i j : Nat} (a b : Nat) :
    mirrorFour npx npy A i j a b =
      if Mir npx i a ∧ Mir npy j b then copysign (mean4 npx npy A i j) (A a b) else A a b := by
  have e1 : npx - (i + 1) = npx - 1 - i := by omega
  have e2 : npy - (j + 1) = npy - 1 - j := by omega
  unfold mirrorFour
  simp only [e1, e2]
  have hm : 1 / 4 * (|A i j| + |A (npx - 1 - i) j| + |A i (npy - 1 - j)| + |A (npx - 1 - i) (npy - 1 - j)|) =
      mean4 npx npy A i j := by unfold mean4; ring
  rw [hm]
  generalize mean4 npx npy A i j = x
  unfold Mir
  simp only [signAt_apply]
  have key : ∀ (c1 c2 c3 c4 : Prop) [Decidable c1] [Decidable c2] [Decidable c3] [Decidable c4] (v : ℝ),
      (if c1 then copysign x (if c2 then copysign x (if c3 then copysign x (if c4 then copysign x v else v) else
        if c4 then copysign x v else v) else if c3 then copysign x (if c4 then copysign x v else v) else
        if c4 then copysign x v else v) else if c2 then copysign x (if c3 then copysign x (if c4 then copysign x v else v) else
        if c4 then copysign x v else v) else if c3 then copysign x (if c4 then copysign x v else v) else
        if c4 then copysign x v else v) = if c1 ∨ c2 ∨ c3 ∨ c4 then copysign x v else v := by
    intro c1 c2 c3 c4 _ _ _ _ v
    by_cases h1 : c1 <;> by_cases h2 : c2 <;> by_cases h3 : c3 <;> by_cases h4 : c4 <;>
      simp only [h1, h2, h3, h4, if_true, if_false, or_true, true_or, or_false, copysign_idem]
  rw [key]
  refine if_congr ?_ rfl rfl
  constructor
  · rintro (h | h | h | h) <;> exact ⟨by omega, by omega⟩
  · rintro ⟨h | h, h' | h'⟩ <;> simp [h, h']

theorem zeroMiddle_apply {npx npy : Nat} (A : Nat → Nat → ℝ) {i j : Nat} (a b : Nat) :
    zeroMiddle npx npy A i j a b =
      if npx % 2 ≠ 0 ∧ i = (npx - 1) / 2 ∧ a = i ∧ Mir npy j b then 0 else A a b := by
  have e2 : npy - (j + 1) = npy - 1 - j := by omega
  unfold zeroMiddle putAt Mir
  rw [e2]
  by_cases h : npx % 2 ≠ 0 ∧ i = (npx - 1) / 2
  · rw [if_pos h]
    by_cases h1 : a = i ∧ b = npy - 1 - j
    · simp [h1, h.1, ← h.2]
    · by_cases h2 : a = i ∧ b = j
      · simp [h2, h.1, ← h.2]
      · have h3 : ¬ (a = i ∧ (b = j ∨ b = npy - 1 - j)) := by
          rintro ⟨x, y | y⟩
          · exact h2 ⟨x, y⟩
          · exact h1 ⟨x, y⟩
        simp only [h1, h2, if_false, h.1, h.2.symm]
        simp [h3]
  · rw [if_neg h, if_neg]
    rintro ⟨x, y, -⟩
    exact h ⟨x, y⟩

/-- Longitude after the loop: the mean with its own sign, and zero on the middle line. -/
noncomputable def lonAfter (npx npy : Nat) (X : Nat → Nat → ℝ) (a b : Nat) : ℝ :=
  if npx % 2 ≠ 0 ∧ a = (npx - 1) / 2 then 0 else copysign (mean4 npx npy X a b) (X a b)
noncomputable def latAfter (npx npy : Nat) (Y : Nat → Nat → ℝ) (a b : Nat) : ℝ := copysign (mean4 npx npy Y a b) (Y a b)

theorem mir_unique {n i i' a : Nat} (hi : i < (n + 1) / 2) (hi' : i' < (n + 1) / 2) (h : Mir n i a) (h' : Mir n i' a) :
    i = i' := by
  unfold Mir at h h'
  omega

theorem mean4_mir {npx npy i j a b : Nat} (A : Nat → Nat → ℝ) (hi : i < npx) (hj : j < npy) (h : Mir npx i a)
    (h' : Mir npy j b) : mean4 npx npy A a b = mean4 npx npy A i j := by
  unfold Mir at h h'
  unfold mean4
  have e1 : npx - 1 - (npx - 1 - i) = i := by omega
  have e2 : npy - 1 - (npy - 1 - j) = j := by omega
  rcases h with rfl | rfl <;> rcases h' with rfl | rfl <;> simp only [e1, e2] <;> ring

/-- Some visited pair mirrors to `(a, b)`. -/
def Seen (npx npy : Nat) (l : List (Nat × Nat)) (a b : Nat) : Prop := ∃ e ∈ l, Mir npx e.1 a ∧ Mir npy e.2 b

theorem loop_apply {npx npy : Nat} (X Y : Nat → Nat → ℝ) : ∀ (l done : List (Nat × Nat)) (s : (Nat → Nat → ℝ) × (Nat → Nat → ℝ)),
    (∀ e ∈ done ++ l, e.1 < (npx + 1) / 2 ∧ e.2 < (npy + 1) / 2) → (done ++ l).Nodup →
    (∀ a b, (Seen npx npy done a b → s.1 a b = lonAfter npx npy X a b ∧ s.2 a b = latAfter npx npy Y a b) ∧
      (¬ Seen npx npy done a b → s.1 a b = X a b ∧ s.2 a b = Y a b)) →
    let r := l.foldl (fun s e => (zeroMiddle npx npy (mirrorFour npx npy s.1 e.1 e.2) e.1 e.2,
      mirrorFour npx npy s.2 e.1 e.2)) s
    ∀ a b, Seen npx npy (done ++ l) a b → r.1 a b = lonAfter npx npy X a b ∧ r.2 a b = latAfter npx npy Y a b
  | [], done, s, _, _, h => by
    intro r a b hs
    rw [List.append_nil] at hs
    exact (h a b).1 hs
  | e :: l, done, s, hr, hn, h => by
    rw [List.foldl_cons]
    have hd : done ++ e :: l = (done ++ [e]) ++ l := by simp
    rw [hd] at hr hn ⊢
    refine loop_apply X Y l (done ++ [e]) _ hr hn ?_
    obtain ⟨he1, he2⟩ := hr e (by simp)
    have hfresh : ∀ a b, Mir npx e.1 a → Mir npy e.2 b → ¬ Seen npx npy done a b := by
      rintro a b ha hb ⟨e', he', ha', hb'⟩
      obtain ⟨k1, k2⟩ := hr e' (by simp [he'])
      have : e' = e := Prod.ext (mir_unique k1 he1 ha' ha) (mir_unique k2 he2 hb' hb)
      rw [this] at he'
      have hn2 := (List.nodup_append.mp hn).1
      exact (List.nodup_append.mp hn2).2.2 e he' e (by simp) rfl
    have hmir : ∀ {n i : Nat}, Mir n i i := Or.inl rfl
    have hmir' : ∀ {n i : Nat}, Mir n i (n - 1 - i) := Or.inr rfl
    -- the state still holds the input at the four points
    have hX : mean4 npx npy s.1 e.1 e.2 = mean4 npx npy X e.1 e.2 := by
      unfold mean4
      rw [((h _ _).2 (hfresh _ _ hmir hmir)).1, ((h _ _).2 (hfresh _ _ hmir' hmir)).1,
        ((h _ _).2 (hfresh _ _ hmir hmir')).1, ((h _ _).2 (hfresh _ _ hmir' hmir')).1]
    have hY : mean4 npx npy s.2 e.1 e.2 = mean4 npx npy Y e.1 e.2 := by
      unfold mean4
      rw [((h _ _).2 (hfresh _ _ hmir hmir)).2, ((h _ _).2 (hfresh _ _ hmir' hmir)).2,
        ((h _ _).2 (hfresh _ _ hmir hmir')).2, ((h _ _).2 (hfresh _ _ hmir' hmir')).2]
    intro a b
    simp only [zeroMiddle_apply, mirrorFour_apply, hX, hY]
    by_cases hm : Mir npx e.1 a ∧ Mir npy e.2 b
    · have hin := (h a b).2 (hfresh a b hm.1 hm.2)
      refine ⟨fun _ => ?_, fun hs => absurd ⟨e, by simp, hm⟩ hs⟩
      simp only [if_pos hm, hin.1, hin.2]
      have m1 := mean4_mir X (show e.1 < npx by omega) (show e.2 < npy by omega) hm.1 hm.2
      have m2 := mean4_mir Y (show e.1 < npx by omega) (show e.2 < npy by omega) hm.1 hm.2
      refine ⟨?_, by rw [latAfter, m2]⟩
      rw [lonAfter, m1]
      refine if_congr ?_ rfl rfl
      have hma := hm.1
      unfold Mir at hma
      constructor
      · rintro ⟨x, y, z, -⟩; exact ⟨x, by omega⟩
      · rintro ⟨x, y⟩; exact ⟨x, by omega, by omega, hm.2⟩
    · have hz : ¬ (npx % 2 ≠ 0 ∧ e.1 = (npx - 1) / 2 ∧ a = e.1 ∧ Mir npy e.2 b) := by
        rintro ⟨-, -, x, y⟩; exact hm ⟨Or.inl x, y⟩
      simp only [if_neg hm, if_neg hz]
      have hseen : Seen npx npy (done ++ [e]) a b ↔ Seen npx npy done a b := by
        unfold Seen
        constructor
        · rintro ⟨e', he', hh⟩
          rcases List.mem_append.mp he' with h1 | h1
          · exact ⟨e', h1, hh⟩
          · rw [List.mem_singleton] at h1; rw [h1] at hh; exact absurd hh hm
        · rintro ⟨e', he', hh⟩; exact ⟨e', by simp [he'], hh⟩
      rw [hseen]
      exact h a b

theorem quarter_nodup (npx npy : Nat) : (quarter npx npy).Nodup := by
  unfold quarter
  rw [List.nodup_flatMap]
  refine ⟨fun j _ => ?_, ?_⟩
  · exact List.Nodup.map (fun a b h => by simpa using h) List.nodup_range
  · refine List.Pairwise.imp_of_mem ?_ (List.nodup_range (n := (npy + 1) / 2))
    intro a b _ _ hab x hx hy
    simp only [List.mem_map] at hx hy
    obtain ⟨i, -, rfl⟩ := hx
    obtain ⟨i', -, h⟩ := hy
    exact hab (by simpa using (congrArg Prod.snd h).symm)

/-- C101: for any array, every point of the base tile afterwards has the mean of the absolute values at its four mirror
images with its own sign; with an odd number of lines the middle one has longitude zero. -/
theorem C101_base (npx npy : Nat) (X Y : Nat → Nat → ℝ) (a b : Nat) (ha : a < npx) (hb : b < npy) :
    (globalBase npx npy X Y).1 a b = lonAfter npx npy X a b ∧ (globalBase npx npy X Y).2 a b = latAfter npx npy Y a b := by
  have hmem : ∀ e ∈ quarter npx npy, e.1 < (npx + 1) / 2 ∧ e.2 < (npy + 1) / 2 := by
    intro e he
    simp only [quarter, List.mem_flatMap, List.mem_map, List.mem_range] at he
    obtain ⟨j, hj, i, hi, rfl⟩ := he
    exact ⟨hi, hj⟩
  refine loop_apply X Y (quarter npx npy) [] (X, Y) hmem (quarter_nodup npx npy) (fun a b => ⟨?_, fun _ => ⟨rfl, rfl⟩⟩) a b ?_
  · rintro ⟨e, he, -⟩; cases he
  · refine ⟨(min a (npx - 1 - a), min b (npy - 1 - b)), ?_, ?_, ?_⟩
    · simp only [List.nil_append, quarter, List.mem_flatMap, List.mem_map, List.mem_range]
      exact ⟨min b (npy - 1 - b), by omega, min a (npx - 1 - a), by omega, rfl⟩
    · unfold Mir; simp only; omega
    · unfold Mir; simp only; omega

/-- C101: so the base tile is symmetric afterwards, whatever it was. -/
theorem C101_symmetric (npx npy : Nat) (X Y : Nat → Nat → ℝ) (a b : Nat) (ha : a < npx) (hb : b < npy) :
    |(globalBase npx npy X Y).1 (npx - 1 - a) b| = |(globalBase npx npy X Y).1 a b| ∧
    |(globalBase npx npy X Y).1 a (npy - 1 - b)| = |(globalBase npx npy X Y).1 a b| ∧
    |(globalBase npx npy X Y).2 (npx - 1 - a) b| = |(globalBase npx npy X Y).2 a b| ∧
    |(globalBase npx npy X Y).2 a (npy - 1 - b)| = |(globalBase npx npy X Y).2 a b| := by
  have hc : ∀ x y, |copysign x y| = |x| := by
    intro x y
    unfold copysign
    split
    · rw [abs_neg, abs_abs]
    · exact abs_abs x
  have e1 : ∀ A : Nat → Nat → ℝ, mean4 npx npy A (npx - 1 - a) b = mean4 npx npy A a b := fun A =>
    mean4_mir A ha hb (Or.inr rfl) (Or.inl rfl)
  have e2 : ∀ A : Nat → Nat → ℝ, mean4 npx npy A a (npy - 1 - b) = mean4 npx npy A a b := fun A =>
    mean4_mir A ha hb (Or.inl rfl) (Or.inr rfl)
  obtain ⟨p1, p2⟩ := C101_base npx npy X Y a b ha hb
  obtain ⟨q1, q2⟩ := C101_base npx npy X Y (npx - 1 - a) b (by omega) hb
  obtain ⟨r1, r2⟩ := C101_base npx npy X Y a (npy - 1 - b) ha (by omega)
  rw [p1, p2, q1, q2, r1, r2]
  unfold lonAfter latAfter
  refine ⟨?_, ?_, by rw [hc, hc, e1], by rw [hc, hc, e2]⟩
  · by_cases h : npx % 2 ≠ 0 ∧ a = (npx - 1) / 2
    · rw [if_pos h, if_pos (by omega)]
    · rw [if_neg h, if_neg (by omega), hc, hc, e1]
  · by_cases h : npx % 2 ≠ 0 ∧ a = (npx - 1) / 2
    · rw [if_pos h, if_pos h]
    · rw [if_neg h, if_neg h, hc, hc, e2]

/-- The gnomonic tile is symmetric already. -/
theorem globalBase_gnomonic (n : Nat) (hn : 0 < n) (a b : Nat) (ha : a ≤ n) (hb : b ≤ n) :
    ((globalBase (n + 1) (n + 1) (fun i j => (globalGrid n i j).1) (fun i j => (globalGrid n i j).2)).1 a b,
     (globalBase (n + 1) (n + 1) (fun i j => (globalGrid n i j).1) (fun i j => (globalGrid n i j).2)).2 a b) =
      globalGrid n a b := by
  obtain ⟨p1, p2⟩ := C101_base (n + 1) (n + 1) (fun i j => (globalGrid n i j).1) (fun i j => (globalGrid n i j).2) a b
    (by omega) (by omega)
  rw [p1, p2]
  have e1 := (globalGrid_symm n hn a b ha hb).1
  have e2 := (globalGrid_symm n hn a b ha hb).2
  have e3 := (globalGrid_symm n hn a (n - b) ha (by omega)).1
  rw [e2] at e3
  have m1 : mean4 (n + 1) (n + 1) (fun i j => (globalGrid n i j).1) a b =
      1 / 4 * (|(globalGrid n a b).1| + |(globalGrid n a b).1| + |(globalGrid n a b).1| + |(globalGrid n a b).1|) := by
    unfold mean4
    simp only [Nat.add_sub_cancel, e1, e2, e3, abs_neg]; ring
  have m2 : mean4 (n + 1) (n + 1) (fun i j => (globalGrid n i j).2) a b =
      1 / 4 * (|(globalGrid n a b).2| + |(globalGrid n a b).2| + |(globalGrid n a b).2| + |(globalGrid n a b).2|) := by
    unfold mean4
    simp only [Nat.add_sub_cancel, e1, e2, e3, abs_neg]; ring
  unfold lonAfter latAfter
  rw [m1, m2, copysign_abs, copysign_abs]
  by_cases h : (n + 1) % 2 ≠ 0 ∧ a = (n + 1 - 1) / 2
  · rw [if_pos h]
    exact Prod.ext (globalGrid_mid n hn a b (by omega) hb).symm rfl
  · rw [if_neg h]

/-- A tile that is one rank's. -/
theorem rankGrid_whole (R : ℝ) (n tile : Nat) (hn : 0 < n) (i j : Nat) (hi : i ≤ n) (hj : j ≤ n) :
    rankGrid R 1 n tile 0 0 i j =
      (match tile with
      | 2 => (⟨n, n, 3, 3, tile, false, R⟩ : Mirror).fix2 i j (rotateTile false R tile (globalGrid n i j))
      | 3 => (⟨n, n, 3, 3, tile, false, R⟩ : Mirror).fix3 i j (rotateTile false R tile (globalGrid n i j))
      | 5 => (⟨n, n, 3, 3, tile, false, R⟩ : Mirror).fix5 i j (rotateTile false R tile (globalGrid n i j))
      | _ => rotateTile false R tile (globalGrid n i j)) := by
  have hs : (⟨n, n, true, true, true, true, 3, 3⟩ : Local).Sits 0 0 :=
    ⟨hn, by simp, by simp, rfl, rfl, by simp, by simp, by simp, by simp⟩
  have hg := fun (i j : Nat) (hi : i ≤ n) (hj : j ≤ n) => C78_local _ _ _ hs i j hi hj
  have e : rankGrid R 1 n tile 0 0 = Mirror.grid ⟨n, n, 3, 3, tile, false, R⟩
      (Local.grid ⟨n, n, true, true, true, true, 3, 3⟩) (Local.grid ⟨n, n, true, true, true, true, 3, 3⟩)
      (Local.grid ⟨n, n, true, true, true, true, 3, 3⟩) (Local.grid ⟨n, n, true, true, true, true, 3, 3⟩) := by
    unfold rankGrid
    simp
  have hbase := base_eq ⟨n, n, 3, 3, tile, false, R⟩ 0 0 hn (by simp) (by simp) rfl
    (Local.grid ⟨n, n, true, true, true, true, 3, 3⟩) (Local.grid ⟨n, n, true, true, true, true, 3, 3⟩)
    (Local.grid ⟨n, n, true, true, true, true, 3, 3⟩) (Local.grid ⟨n, n, true, true, true, true, 3, 3⟩)
    hg (by simpa using hg) (by simpa using hg) (by simpa using hg) i j hi hj
  simp only [Nat.zero_add] at hbase
  rw [e]
  unfold Mirror.grid
  simp only
  rw [hbase]
  rfl

theorem globalFix2_eq (R : ℝ) (n : Nat) (i j : Nat) (hi : i ≤ n) (hj : j ≤ n) (t : Nat) (p : ℝ × ℝ) :
    globalFix2 (n + 1) (n + 1) i j p = (⟨n, n, 3, 3, t, false, R⟩ : Mirror).fix2 i j p := by
  unfold globalFix2 Mirror.fix2
  have ho : (⟨n, n, 3, 3, t, false, R⟩ : Mirror).odd = true ↔ (n + 1) % 2 ≠ 0 := by simp [Mirror.odd]
  by_cases h : (n + 1) % 2 ≠ 0
  swap
  · rw [if_neg h, if_neg (fun x => h (ho.mp x))]
  rw [if_pos h, if_pos (ho.mpr h)]
  have hx : (⟨n, n, 3, 3, t, false, R⟩ : Mirror).xCentre = true := by
    simp only [Mirror.xCentre, Bool.and_eq_true, decide_eq_true_eq]; omega
  have hy : (⟨n, n, 3, 3, t, false, R⟩ : Mirror).yCentre = true := by
    simp only [Mirror.yCentre, Bool.and_eq_true, decide_eq_true_eq]; omega
  have hm : (⟨n, n, 3, 3, t, false, R⟩ : Mirror).iMid = (n / 2 : Nat) := by simp only [Mirror.iMid]; omega
  have hm' : (⟨n, n, 3, 3, t, false, R⟩ : Mirror).jMid = (n / 2 : Nat) := by simp only [Mirror.jMid]; omega
  simp only [hx, hy, hm, hm', Nat.add_sub_cancel, Bool.and_true, decide_true, Bool.and_eq_true, decide_eq_true_eq,
    if_true, Int.ofNat_inj]
  have e : ((i : Int) < ((n / 2 : Nat) : Int) + 1) ↔ i < n / 2 + 1 := by omega
  simp only [e]

theorem globalFix3_eq (R : ℝ) (n : Nat) (i j : Nat) (t : Nat) (p : ℝ × ℝ) :
    globalFix3 (n + 1) (n + 1) i j p = (⟨n, n, 3, 3, t, false, R⟩ : Mirror).fix3 i j p := by
  unfold globalFix3 Mirror.fix3
  have ho : (⟨n, n, 3, 3, t, false, R⟩ : Mirror).odd = true ↔ (n + 1) % 2 ≠ 0 := by simp [Mirror.odd]
  by_cases h : (n + 1) % 2 ≠ 0
  swap
  · rw [if_neg h, if_neg (fun x => h (ho.mp x))]
  rw [if_pos h, if_pos (ho.mpr h)]
  have hy : (⟨n, n, 3, 3, t, false, R⟩ : Mirror).yCentre = true := by
    simp only [Mirror.yCentre, Bool.and_eq_true, decide_eq_true_eq]; omega
  have hm' : (⟨n, n, 3, 3, t, false, R⟩ : Mirror).jMid = (n / 2 : Nat) := by simp only [Mirror.jMid]; omega
  simp only [hy, hm', Nat.add_sub_cancel, Bool.and_true, decide_eq_true_eq, Int.ofNat_inj]

/-- At the south pole the correction does not change anything. -/
theorem globalFix5_eq (n : Nat) (hn : 0 < n) (i j : Nat) (hi : i ≤ n) (hj : j ≤ n) (p : ℝ × ℝ)
    (h : Placed p (unit (face 5 (T n i) (T n j)))) (hpole : T n i = 0 → T n j = 0 → p.1 = 0) :
    globalFix5 (n + 1) (n + 1) i j p = p := by
  have hr := rt_pos
  have hh : half ≠ 0 := by rw [← rt_half]; exact ne_of_gt hr
  unfold globalFix5
  by_cases hodd : (n + 1) % 2 ≠ 0
  swap
  · rw [if_neg hodd]
  rw [if_pos hodd]
  simp only [Nat.add_sub_cancel]
  by_cases him : i = n / 2
  swap
  · simp only [him, and_false, if_false]
    split_ifs <;> rfl
  have hTi : T n i = 0 := T_mid n hn i (by omega)
  have hlpos := (unit_dot (face 5 0 (T n j)) (by
    intro h0
    have : -half = 0 := congrArg V3.z h0
    exact hh (neg_eq_zero.mp this))).2
  have hface : unit (face 5 0 (T n j)) = ⟨T n j / len (face 5 0 (T n j)), 0, -half / len (face 5 0 (T n j))⟩ := by
    unfold unit
    ext <;> simp [face]
  by_cases hjm : j = n / 2
  · simp only [hjm, him, and_self, if_true, gt_iff_lt, Nat.lt_irrefl, if_false]
    have hTj : T n j = 0 := T_mid n hn j (by omega)
    rw [hTi, hTj] at h
    have q : Placed ((0, -π / 2) : ℝ × ℝ) (unit (face 5 0 0)) := by
      refine ⟨?_, by simp [pi_pos], by simp [le_of_lt pi_pos], by simp only; linarith, by simp only; linarith [pi_pos]⟩
      rw [hTj] at hface
      rw [hface]
      have hlen : len (face 5 0 0) = half := by
        unfold len dot face
        simp only
        rw [show (0 : ℝ) * 0 + 0 * 0 + -half * -half = half ^ 2 by ring]
        exact sqrt_sq (by rw [← rt_half]; exact le_of_lt hr)
      rw [hlen]
      unfold point
      ext
      · simp [neg_div]
      · simp
      · simp [neg_div, hh]
    refine placed_unique _ _ _ q h ?_
    intro _ _
    exact (hpole hTi hTj).symm
  · simp only [hjm, false_and, if_false]
    have hs := T_sign n hn j hj
    rw [hTi, hface] at h
    obtain ⟨h1, h2, h3, h4, h5⟩ := h
    have hm := meridian p.1 p.2 _ _ h4 h5 h1
    have hTne : T n j ≠ 0 := by
      intro h0
      have := T_far n hn j hj (by omega)
      rw [h0, abs_zero] at this
      have hn' : (0 : ℝ) < n := by exact_mod_cast hn
      have : (0 : ℝ) < 1 / (3 * n) := by positivity
      linarith
    have hne : T n j / len (face 5 0 (T n j)) ≠ 0 := div_ne_zero hTne (ne_of_gt hlpos)
    by_cases hgt : j > n / 2
    · rw [if_pos hgt, if_pos him]
      refine placed_unique (0, p.2) p _ ⟨hm.1 (div_nonneg (hs.2 (by omega)) (le_of_lt hlpos)), by simp only; linarith [pi_pos],
        by simp only; linarith [pi_pos], h4, h5⟩ ⟨h1, h2, h3, h4, h5⟩ (fun hx => absurd hx hne)
    · rw [if_neg hgt, if_pos (by omega), if_pos him]
      refine placed_unique (π, p.2) p _ ⟨hm.2 (div_nonpos_of_nonpos_of_nonneg (hs.1 (by omega)) (le_of_lt hlpos)),
        by simp only; linarith [pi_pos], le_refl _, h4, h5⟩ ⟨h1, h2, h3, h4, h5⟩ (fun hx => absurd hx hne)

/-- Two ways of cutting a tile give the same grid. -/
theorem rankGrid_cut (R : ℝ) (hR : 1 ≤ R) (l w tile bi bj : Nat) (ht : tile < 6) (hw : 0 < w) (hbi : bi < l)
    (hbj : bj < l) (hn : l * w ≤ 10 ^ 9) (i j : Nat) (hi : i ≤ w) (hj : j ≤ w) :
    rankGrid R l w tile bi bj i j = rankGrid R 1 (l * w) tile 0 0 (bi * w + i) (bj * w + j) := by
  have fits : ∀ b k : Nat, b < l → k ≤ w → b * w + k ≤ l * w := by
    intro b k hb hk
    have := Nat.mul_le_mul_right w (show b + 1 ≤ l by omega)
    rw [Nat.add_mul, Nat.one_mul] at this
    omega
  have f1 := fits bi i hbi hi
  have f2 := fits bj j hbj hj
  have hn0 : 0 < l * w := Nat.mul_pos (by omega) hw
  obtain ⟨a1, a2⟩ := rank_core R hR l w tile bi bj ht hw hbi hbj hn i j hi hj
  obtain ⟨b1, b2⟩ := rank_core R hR 1 (l * w) tile 0 0 ht hn0 (by omega) (by omega) (by omega) _ _ f1 f2
  simp only [Nat.one_mul, Nat.zero_mul, Nat.zero_add] at b1 b2
  refine placed_unique _ _ _ a1 b1 ?_
  generalize T (l * w) ((bi * w + i : Nat) : Int) = X at *
  generalize T (l * w) ((bj * w + j : Nat) : Int) = Y at *
  have hh : half ≠ 0 := by rw [← rt_half]; exact ne_of_gt rt_pos
  have h0 : face tile X Y ≠ ⟨0, 0, 0⟩ := by
    intro h
    match tile, ht with
    | 0, _ => exact hh (congrArg V3.x h)
    | 1, _ => exact hh (congrArg V3.y h)
    | 2, _ => exact hh (congrArg V3.z h)
    | 3, _ => exact hh (neg_eq_zero.mp (congrArg V3.x h))
    | 4, _ => exact hh (neg_eq_zero.mp (congrArg V3.y h))
    | 5, _ => exact hh (neg_eq_zero.mp (congrArg V3.z h))
  have hl := (unit_dot _ h0).2
  intro hx hy
  have hx' : (face tile X Y).x = 0 := by
    have : (face tile X Y).x / len (face tile X Y) = 0 := hx
    rcases div_eq_zero_iff.mp this with h | h
    · exact h
    · exact absurd h (ne_of_gt hl)
  have hy' : (face tile X Y).y = 0 := by
    have : (face tile X Y).y / len (face tile X Y) = 0 := hy
    rcases div_eq_zero_iff.mp this with h | h
    · exact h
    · exact absurd h (ne_of_gt hl)
  match tile, ht with
  | 0, _ => exact absurd hx' hh
  | 1, _ => exact absurd hy' hh
  | 2, _ => rw [a2 (Or.inl rfl) (neg_eq_zero.mp hx') (neg_eq_zero.mp hy'), b2 (Or.inl rfl) (neg_eq_zero.mp hx') (neg_eq_zero.mp hy')]
  | 3, _ => exact absurd (neg_eq_zero.mp hx') hh
  | 4, _ => exact absurd (neg_eq_zero.mp hy') hh
  | 5, _ => rw [a2 (Or.inr rfl) hy' hx', b2 (Or.inr rfl) hy' hx']

/-- C101: the six tiles made on one rank are those the ranks make, for every size and layout. -/
theorem C101_tiles (R : ℝ) (hR : 1 ≤ R) (l w tile bi bj : Nat) (ht : tile < 6) (hw : 0 < w) (hbi : bi < l)
    (hbj : bj < l) (hn : l * w ≤ 10 ^ 9) (i j : Nat) (hi : i ≤ w) (hj : j ≤ w) :
    globalMirror false R (l * w + 1) (l * w + 1) (fun i j => (globalGrid (l * w) i j).1) (fun i j => (globalGrid (l * w) i j).2)
      tile (bi * w + i) (bj * w + j) = rankGrid R l w tile bi bj i j := by
  have fits : ∀ b k : Nat, b < l → k ≤ w → b * w + k ≤ l * w := by
    intro b k hb hk
    have := Nat.mul_le_mul_right w (show b + 1 ≤ l by omega)
    rw [Nat.add_mul, Nat.one_mul] at this
    omega
  have f1 := fits bi i hbi hi
  have f2 := fits bj j hbj hj
  have hn0 : 0 < l * w := Nat.mul_pos (by omega) hw
  rw [rankGrid_cut R hR l w tile bi bj ht hw hbi hbj hn i j hi hj]
  obtain ⟨b1, b2⟩ := rank_core R hR 1 (l * w) tile 0 0 ht hn0 (by omega) (by omega) (by omega) _ _ f1 f2
  simp only [Nat.one_mul, Nat.zero_mul, Nat.zero_add] at b1 b2
  generalize bi * w + i = a at *
  generalize bj * w + j = b at *
  generalize l * w = n at *
  rw [rankGrid_whole R n tile hn0 a b f1 f2] at b1 b2 ⊢
  unfold globalMirror
  simp only
  rw [globalBase_gnomonic n hn0 a b f1 f2]
  match tile, ht with
  | 0, _ => rfl
  | 1, _ => rfl
  | 2, _ => exact globalFix2_eq R n a b f1 f2 2 _
  | 3, _ => exact globalFix3_eq R n a b 3 _
  | 4, _ => rfl
  | 5, _ =>
    have b2' := b2 (Or.inr rfl)
    simp only [fix5_eq] at b1 b2' ⊢
    exact globalFix5_eq n hn0 a b f1 f2 _ b1 b2'

/-- A case of the hypotheses: 4 by 4 blocks of 12 by 12 cells, a corner on the middle line of the last tile. -/
example : globalMirror false 6371200 49 49 (fun i j => (globalGrid 48 i j).1) (fun i j => (globalGrid 48 i j).2) 5 24 13 =
    rankGrid 6371200 4 12 5 2 1 0 1 :=
  C101_tiles 6371200 (by norm_num) 4 12 5 2 1 (by decide) (by decide) (by decide) (by decide) (by decide) 0 1 (by decide)
    (by decide)

/-- A case that is not symmetric before: one value of 4 among zeros becomes four of 1. -/
example : (globalBase 4 3 (fun i j => if i = 1 ∧ j = 0 then 4 else 0) (fun _ _ => 0)).1 2 2 = 1 := by
  rw [(C101_base 4 3 _ _ 2 2 (by decide) (by decide)).1]
  unfold lonAfter mean4 copysign
  norm_num

end NDSL.Sphere
