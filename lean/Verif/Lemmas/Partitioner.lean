import Verif.Model.Partitioner

/-
Closed forms for the partitioner model: ranks as `(tile, j, i)` triples.
-/
namespace NDSL

theorem firstWhere_eq {rows cols : Nat} {f : Nat → Nat → Int} {v : Int} {a b : Nat}
    (ha : a < rows) (hb : b < cols) (hv : f a b = v)
    (huniq : ∀ a' b', a' < rows → b' < cols → f a' b' = v → a' = a ∧ b' = b) :
    firstWhere rows cols f v = some (a, b) := by
  unfold firstWhere
  cases h : List.find? (fun p : Nat × Nat => f p.1 p.2 == v)
      ((List.range rows).flatMap fun a => (List.range cols).map fun b => (a, b)) with
  | none =>
    rw [List.find?_eq_none] at h
    have := h (a, b) (by simp [List.mem_flatMap]; exact ⟨ha, hb⟩)
    simp [hv] at this
  | some p =>
    have h1 := List.find?_some h
    have h2 := List.mem_of_find?_eq_some h
    simp [List.mem_flatMap] at h2 h1
    obtain ⟨a', ha', b', hb', rfl⟩ := h2
    obtain ⟨rfl, rfl⟩ := huniq a' b' ha' hb' h1
    rfl

/-- Uniqueness of mixed-radix representation. -/
theorem radix_unique {n a b a' b' : Int} (hb : 0 ≤ b) (hb2 : b < n) (hb' : 0 ≤ b')
    (hb2' : b' < n) (h : a * n + b = a' * n + b') : a = a' ∧ b = b' := by
  have hn : 0 < n := by omega
  have h1 : (a * n + b) / n = a := by
    rw [Int.add_comm, Int.add_mul_ediv_right _ _ (by omega), Int.ediv_eq_zero_of_lt hb hb2]; omega
  have h2 : (a' * n + b') / n = a' := by
    rw [Int.add_comm, Int.add_mul_ediv_right _ _ (by omega), Int.ediv_eq_zero_of_lt hb' hb2']
    omega
  have : a = a' := by rw [← h1, ← h2, h]
  subst this
  constructor
  · rfl
  · omega

theorem radix_div {n a b : Int} (hb : 0 ≤ b) (hb2 : b < n) : (a * n + b) / n = a := by
  rw [Int.add_comm, Int.add_mul_ediv_right _ _ (by omega), Int.ediv_eq_zero_of_lt hb hb2]; omega

theorem radix_mod {n a b : Int} (hb : 0 ≤ b) (hb2 : b < n) : (a * n + b) % n = b := by
  rw [Int.add_comm, Int.add_mul_emod_self_right, Int.emod_eq_of_lt hb hb2]

theorem jn_bounds {ly lx j i : Int} (hj : 0 ≤ j) (hj2 : j < ly) (hi : 0 ≤ i) (hi2 : i < lx) :
    0 ≤ j * lx + i ∧ j * lx + i < ly * lx := by
  have h0 : 0 ≤ j * lx := Int.mul_nonneg hj (by omega)
  have h1 : (j + 1) * lx ≤ ly * lx := Int.mul_le_mul_of_nonneg_right (by omega) (by omega)
  rw [Int.add_mul] at h1
  omega

/-- `rotate_subtile_rank(rank, layout, 1)` on a square layout moves `(j, i)` to `(n-1-i, j)`. -/
theorem rotateSubtileRank_one {n j i : Int} (hj : 0 ≤ j) (hj2 : j < n) (hi : 0 ≤ i) (hi2 : i < n) :
    rotateSubtileRank (j * n + i) (n, n) 1 = .ok ((n - 1 - i) * n + j) := by
  unfold rotateSubtileRank
  have : firstWhere n.toNat n.toNat
      (fun a b => rankArray (n, n) b (n.toNat - 1 - a)) (j * n + i)
      = some ((n - 1 - i).toNat, j.toNat) := by
    apply firstWhere_eq
    · omega
    · omega
    · simp only [rankArray]
      have e1 : ((j.toNat : Nat) : Int) = j := by omega
      have e2 : ((n.toNat - 1 - (n - 1 - i).toNat : Nat) : Int) = i := by omega
      rw [e1, e2]
    · intro a' b' ha hb h
      simp only [rankArray] at h
      have := radix_unique (by omega) (by omega) hi hi2 h
      omega
  rw [if_neg (by decide), if_pos rfl]
  show rankArrayAt (n, n) (firstWhere n.toNat n.toNat
      (fun a b => rankArray (n, n) b (n.toNat - 1 - a)) (j * n + i)) = _
  rw [this]
  simp only [rankArrayAt, rankArray]
  have e1 : (((n - 1 - i).toNat : Nat) : Int) = n - 1 - i := by omega
  have e2 : ((j.toNat : Nat) : Int) = j := by omega
  simp only [e1, e2]
  rw [if_pos (by constructor <;> omega)]

/-- `fliplr_subtile_rank` moves `(j, i)` to `(j, nx-1-i)`. -/
theorem fliplrSubtileRank_eq {ly lx j i : Int} (hj : 0 ≤ j) (hj2 : j < ly) (hi : 0 ≤ i)
    (hi2 : i < lx) :
    fliplrSubtileRank (j * lx + i) (ly, lx) = .ok (j * lx + (lx - 1 - i)) := by
  unfold fliplrSubtileRank
  have : firstWhere ly.toNat lx.toNat
      (fun a b => rankArray (ly, lx) a (lx.toNat - 1 - b)) (j * lx + i)
      = some (j.toNat, (lx - 1 - i).toNat) := by
    apply firstWhere_eq
    · omega
    · omega
    · simp only [rankArray]
      have e1 : ((j.toNat : Nat) : Int) = j := by omega
      have e2 : ((lx.toNat - 1 - (lx - 1 - i).toNat : Nat) : Int) = i := by omega
      rw [e1, e2]
    · intro a' b' ha hb h
      simp only [rankArray] at h
      have := radix_unique (by omega) (by omega) hi hi2 h
      omega
  show rankArrayAt (ly, lx) (firstWhere ly.toNat lx.toNat
      (fun a b => rankArray (ly, lx) a (lx.toNat - 1 - b)) (j * lx + i)) = _
  rw [this]
  simp only [rankArrayAt, rankArray]
  have e1 : (((lx - 1 - i).toNat : Nat) : Int) = lx - 1 - i := by omega
  have e2 : ((j.toNat : Nat) : Int) = j := by omega
  simp only [e1, e2]
  rw [if_pos (by constructor <;> omega)]

/-- Rank of position `(t, j, i)` on an `n × n` cube layout. -/
def rk (n t j i : Int) : Int := t * (n * n) + (j * n + i)

section
variable {n t j i : Int}

theorem rk_div (hj : 0 ≤ j) (hj2 : j < n) (hi : 0 ≤ i) (hi2 : i < n) : rk n t j i / (n * n) = t :=
  radix_div (jn_bounds hj hj2 hi hi2).1 (jn_bounds hj hj2 hi hi2).2

theorem rk_mod (hj : 0 ≤ j) (hj2 : j < n) (hi : 0 ≤ i) (hi2 : i < n) :
    rk n t j i % (n * n) = j * n + i :=
  radix_mod (jn_bounds hj hj2 hi hi2).1 (jn_bounds hj hj2 hi hi2).2

theorem rk_inj {t' j' i' : Int} (hj : 0 ≤ j) (hj2 : j < n) (hi : 0 ≤ i) (hi2 : i < n)
    (hj' : 0 ≤ j') (hj2' : j' < n) (hi' : 0 ≤ i') (hi2' : i' < n)
    (h : rk n t j i = rk n t' j' i') : t = t' ∧ j = j' ∧ i = i' := by
  have h1 := radix_unique (jn_bounds hj hj2 hi hi2).1 (jn_bounds hj hj2 hi hi2).2
    (jn_bounds hj' hj2' hi' hi2').1 (jn_bounds hj' hj2' hi' hi2').2 h
  have h2 := radix_unique hi hi2 hi' hi2' h1.2
  exact ⟨h1.1, h2.1, h2.2⟩

/-- Every integer is the (possibly out of range) rank of a unique position. -/
theorem rk_surj (hn : 0 < n) (r : Int) :
    ∃ t j i, 0 ≤ j ∧ j < n ∧ 0 ≤ i ∧ i < n ∧ r = rk n t j i := by
  have hT : 0 < n * n := Int.mul_pos hn hn
  have h0 := Int.emod_nonneg r (show n * n ≠ 0 by omega)
  have h1 := Int.emod_lt_of_pos r hT
  refine ⟨r / (n * n), (r % (n * n)) / n, (r % (n * n)) % n,
    Int.ediv_nonneg h0 (by omega), ?_, Int.emod_nonneg _ (by omega), Int.emod_lt_of_pos _ hn, ?_⟩
  · exact Int.ediv_lt_of_lt_mul hn h1
  · unfold rk
    have e1 := Int.mul_ediv_add_emod (r % (n * n)) n
    have e2 := Int.mul_ediv_add_emod r (n * n)
    rw [Int.mul_comm (r / (n*n)), Int.mul_comm (r % (n*n) / n)]
    omega

theorem rk_mod_six (hj : 0 ≤ j) (hj2 : j < n) (hi : 0 ≤ i) (hi2 : i < n) :
    rk n t j i % (6 * (n * n)) = rk n (t % 6) j i := by
  have hb := jn_bounds hj hj2 hi hi2
  have h6 := Int.mul_ediv_add_emod t 6
  have : rk n t j i = rk n (t % 6) j i + (6 * (n * n)) * (t / 6) := by
    unfold rk
    conv => lhs; rw [← h6]
    rw [Int.add_mul, Int.mul_assoc, Int.mul_assoc, Int.mul_comm (t/6)]
    omega
  rw [this, Int.add_mul_emod_self_left, Int.emod_eq_of_lt]
  · unfold rk
    have : 0 ≤ (t % 6) * (n * n) := Int.mul_nonneg (by omega) (by omega)
    omega
  · unfold rk
    have : (t % 6 + 1) * (n * n) ≤ 6 * (n * n) :=
      Int.mul_le_mul_of_nonneg_right (by omega) (by omega)
    rw [Int.add_mul] at this
    omega

theorem rk_range (hj : 0 ≤ j) (hj2 : j < n) (hi : 0 ≤ i) (hi2 : i < n) :
    (0 ≤ rk n t j i ∧ rk n t j i < 6 * (n * n)) ↔ (0 ≤ t ∧ t < 6) := by
  have hb := jn_bounds hj hj2 hi hi2
  constructor
  · intro ⟨h0, h1⟩
    have hm := rk_mod_six (t := t) hj hj2 hi hi2
    rw [Int.emod_eq_of_lt h0 h1] at hm
    have := (rk_inj hj hj2 hi hi2 hj hj2 hi hi2 hm).1
    omega
  · intro ⟨h0, h1⟩
    have hm := rk_mod_six (t := t) hj hj2 hi hi2
    rw [Int.emod_eq_of_lt h0 h1] at hm
    have hT : 0 < 6 * (n * n) := by omega
    rw [← hm]
    exact ⟨Int.emod_nonneg _ (by omega), Int.emod_lt_of_pos _ hT⟩
end

/-- The square cube partitioner. -/
def cubeP (n : Int) : CubePart := ⟨⟨(n, n)⟩⟩

section
variable {n t j i : Int} (hj : 0 ≤ j) (hj2 : j < n) (hi : 0 ≤ i) (hi2 : i < n)
include hj hj2 hi hi2

theorem cube_subtileIndex : (cubeP n).tile.subtileIndex (rk n t j i) = (j, i) := by
  simp only [TilePart.subtileIndex, subtileIndex, TilePart.totalRanks, cubeP]
  rw [rk_mod hj hj2 hi hi2, radix_div hi hi2, radix_mod hi hi2]

theorem cube_tileIndex : (cubeP n).tileIndex (rk n t j i) = .ok t := by
  have h : (cubeP n).totalRanks = 6 * (n * n) := rfl
  unfold CubePart.tileIndex getTileIndex
  rw [h, if_neg (by omega), Int.mul_ediv_cancel_left _ (by omega), rk_div hj hj2 hi hi2]

theorem cube_root (d : Int) :
    (cubeP n).tileRootRank (rk n t j i + d * (n * n)) = (t + d) * (n * n) := by
  simp only [CubePart.tileRootRank, TilePart.totalRanks, cubeP]
  have : rk n t j i + d * (n * n) = rk n (t + d) j i := by
    unfold rk; rw [Int.add_mul]; omega
  rw [this, rk_div hj hj2 hi hi2, Int.mul_comm]

theorem cube_fliprot :
    ((cubeP n).tile.rotateRank (rk n t j i % (cubeP n).tile.totalRanks) 1 >>=
      fun r => (cubeP n).tile.fliplrRank r) = .ok ((n - 1 - i) * n + (n - 1 - j)) := by
  simp only [TilePart.rotateRank, TilePart.totalRanks, TilePart.fliplrRank, cubeP]
  rw [rk_mod hj hj2 hi hi2, rotateSubtileRank_one hj hj2 hi hi2]
  exact fliplrSubtileRank_eq (by omega) (by omega) hj hj2

theorem cube_left : (cubeP n).leftEdge (rk n t j i) = .ok
    { btype := .west, fromRank := rk n t j i,
      toRank := if i = 0 then
          (if t % 2 = 0 then rk n (t - 2) (n - 1) (n - 1 - j) else rk n (t - 1) j (n - 1))
        else rk n t j (i - 1),
      rot := if i = 0 ∧ t % 2 = 0 then 1 else 0 } := by
  have hsq : (cubeP n).ensureSquare = .ok () := by simp [CubePart.ensureSquare, cubeP]
  have hfr := cube_fliprot (t := t) hj hj2 hi hi2
  have hroot := cube_root (t := t) hj hj2 hi hi2 (-2)
  simp only [CubePart.leftEdge, hsq, TilePart.onLeft, onTileLeft,
    cube_subtileIndex hj hj2 hi hi2, cube_tileIndex hj hj2 hi hi2, isEven]
  by_cases h0 : i = 0
  · subst h0
    by_cases ht : t % 2 = 0
    · simp [ht, bind, Except.bind, pure, Except.pure] at hfr ⊢
      cases hr : (cubeP n).tile.rotateRank (rk n t j 0 % (cubeP n).tile.totalRanks) 1 with
      | error e => rw [hr] at hfr; simp at hfr
      | ok r =>
        rw [hr] at hfr
        simp only at hfr ⊢
        rw [hfr]
        simp only [Except.ok.injEq, Boundary.mk.injEq, true_and, and_true]
        have : rk n t j 0 - 2 * (cubeP n).tile.totalRanks = rk n t j 0 + (-2) * (n * n) := by
          simp only [TilePart.totalRanks, cubeP]; omega
        rw [this, hroot]
        unfold rk
        have : t + -2 = t - 2 := by omega
        rw [this]
    · simp [ht, bind, Except.bind, pure, Except.pure, TilePart.boundary, TilePart.leftEdge,
        TilePart.onLeft, onTileLeft, cube_subtileIndex hj hj2 hi hi2]
      simp only [TilePart.totalRanks, cubeP, rk, Int.sub_mul]
      omega
  · simp [h0, bind, Except.bind, pure, Except.pure, TilePart.boundary, TilePart.leftEdge,
        TilePart.onLeft, onTileLeft, cube_subtileIndex hj hj2 hi hi2]
    simp only [rk]; omega

theorem cube_right : (cubeP n).rightEdge (rk n t j i) = .ok
    { btype := .east, fromRank := rk n t j i,
      toRank := if i = n - 1 then
          (if t % 2 = 0 then rk n (t + 1) j 0 else rk n (t + 2) 0 (n - 1 - j))
        else rk n t j (i + 1),
      rot := if i = n - 1 ∧ t % 2 ≠ 0 then 1 else 0 } := by
  have hsq : (cubeP n).ensureSquare = .ok () := by simp [CubePart.ensureSquare, cubeP]
  have hfr := cube_fliprot (t := t) hj hj2 hi hi2
  have hroot := cube_root (t := t) hj hj2 hi hi2 2
  have hlay : (cubeP n).tile.layout = (n, n) := rfl
  simp only [CubePart.rightEdge, hsq, TilePart.onRight, onTileRight,
    cube_subtileIndex hj hj2 hi hi2, cube_tileIndex hj hj2 hi hi2, isEven, hlay]
  by_cases h0 : i = n - 1
  · by_cases ht : t % 2 = 0
    · simp [ht, h0, bind, Except.bind, pure, Except.pure, TilePart.boundary, TilePart.rightEdge,
        TilePart.onRight, onTileRight, cube_subtileIndex hj hj2 (show 0 ≤ n - 1 by omega)
          (show n - 1 < n by omega), hlay]
      simp only [TilePart.totalRanks, cubeP, rk, Int.add_mul]
      omega
    · simp [ht, h0, bind, Except.bind, pure, Except.pure] at hfr ⊢
      cases hr : (cubeP n).tile.rotateRank (rk n t j (n - 1) % (cubeP n).tile.totalRanks) 1 with
      | error e => rw [hr] at hfr; simp at hfr
      | ok r =>
        rw [hr] at hfr
        simp only at hfr ⊢
        rw [hfr]
        simp only [Except.ok.injEq, Boundary.mk.injEq, true_and, and_true]
        have : rk n t j (n - 1) + 2 * (cubeP n).tile.totalRanks
            = rk n t j i + 2 * (n * n) := by
          simp only [TilePart.totalRanks, cubeP, h0]
        rw [this, hroot]
        unfold rk
        omega
  · simp [h0, bind, Except.bind, pure, Except.pure, TilePart.boundary, TilePart.rightEdge,
        TilePart.onRight, onTileRight, cube_subtileIndex hj hj2 hi hi2, hlay]
    simp only [rk]; omega

theorem cube_top : (cubeP n).topEdge (rk n t j i) = .ok
    { btype := .north, fromRank := rk n t j i,
      toRank := if j = n - 1 then
          (if t % 2 = 0 then rk n (t + 2) (n - 1 - i) 0 else rk n (t + 1) 0 i)
        else rk n t (j + 1) i,
      rot := if j = n - 1 ∧ t % 2 = 0 then 3 else 0 } := by
  have hsq : (cubeP n).ensureSquare = .ok () := by simp [CubePart.ensureSquare, cubeP]
  have hfr := cube_fliprot (t := t) hj hj2 hi hi2
  have hlay : (cubeP n).tile.layout = (n, n) := rfl
  simp only [CubePart.topEdge, hsq, TilePart.onTop, onTileTop,
    cube_subtileIndex hj hj2 hi hi2, cube_tileIndex hj hj2 hi hi2, isEven, hlay]
  by_cases h0 : j = n - 1
  · by_cases ht : t % 2 = 0
    · simp [ht, h0, bind, Except.bind, pure, Except.pure] at hfr ⊢
      cases hr : (cubeP n).tile.rotateRank (rk n t (n - 1) i % (cubeP n).tile.totalRanks) 1 with
      | error e => rw [hr] at hfr; simp at hfr
      | ok r =>
        rw [hr] at hfr
        simp only at hfr ⊢
        rw [hfr]
        simp only [Except.ok.injEq, Boundary.mk.injEq, true_and, and_true]
        simp only [TilePart.totalRanks, cubeP]
        unfold rk
        omega
    · simp [ht, h0, bind, Except.bind, pure, Except.pure, TilePart.boundary, TilePart.topEdge,
        TilePart.onTop, onTileTop, cube_subtileIndex (show 0 ≤ n - 1 by omega)
          (show n - 1 < n by omega) hi hi2, hlay]
      simp only [TilePart.totalRanks, cubeP, rk, Int.add_mul]
      omega
  · simp [h0, bind, Except.bind, pure, Except.pure, TilePart.boundary, TilePart.topEdge,
        TilePart.onTop, onTileTop, cube_subtileIndex hj hj2 hi hi2, hlay]
    simp only [rk, Int.add_mul]; omega

theorem cube_bottom : (cubeP n).bottomEdge (rk n t j i) = .ok
    { btype := .south, fromRank := rk n t j i,
      toRank := if j = 0 then
          (if t % 2 = 0 then rk n (t - 1) (n - 1) i else rk n (t - 2) (n - 1 - i) (n - 1))
        else rk n t (j - 1) i,
      rot := if j = 0 ∧ t % 2 ≠ 0 then 3 else 0 } := by
  have hsq : (cubeP n).ensureSquare = .ok () := by simp [CubePart.ensureSquare, cubeP]
  have hfr := cube_fliprot (t := t) hj hj2 hi hi2
  have hlay : (cubeP n).tile.layout = (n, n) := rfl
  simp only [CubePart.bottomEdge, hsq, TilePart.onBottom, onTileBottom,
    cube_subtileIndex hj hj2 hi hi2, cube_tileIndex hj hj2 hi hi2, isEven]
  by_cases h0 : j = 0
  · by_cases ht : t % 2 = 0
    · simp [ht, h0, bind, Except.bind, pure, Except.pure, TilePart.boundary, TilePart.bottomEdge,
        TilePart.onBottom, onTileBottom, cube_subtileIndex (show 0 ≤ (0 : Int) by omega)
          (show 0 < n by omega) hi hi2, hlay]
      simp only [TilePart.totalRanks, cubeP, rk, Int.sub_mul]
      omega
    · simp [ht, h0, bind, Except.bind, pure, Except.pure] at hfr ⊢
      cases hr : (cubeP n).tile.rotateRank (rk n t 0 i % (cubeP n).tile.totalRanks) 1 with
      | error e => rw [hr] at hfr; simp at hfr
      | ok r =>
        rw [hr] at hfr
        simp only at hfr ⊢
        rw [hfr]
        simp only [Except.ok.injEq, Boundary.mk.injEq, true_and, and_true]
        simp only [TilePart.totalRanks, cubeP]
        unfold rk
        omega
  · simp [h0, bind, Except.bind, pure, Except.pure, TilePart.boundary, TilePart.bottomEdge,
        TilePart.onBottom, onTileBottom, cube_subtileIndex hj hj2 hi hi2, hlay]
    simp only [rk, Int.sub_mul]; omega

end

end NDSL
