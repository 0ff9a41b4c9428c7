import Verif.Lemmas.Partitioner
/-
C124: the rank that stands where a rank of a tile would be if the tile was flipped, transposed or rotated. A rank of a tile with layout
`(ly, lx)` at row `j` and column `i` is `j * lx + i` (C01).
-/
namespace NDSL.RankMoves

open NDSL

theorem firstWhere_none {rows cols : Nat} {f : Nat → Nat → Int} {v : Int} (h : ∀ a b, a < rows → b < cols → f a b ≠ v) : firstWhere rows cols f v = none := by
  unfold firstWhere
  rw [List.find?_eq_none]
  intro p hp
  simp [List.mem_flatMap] at hp
  obtain ⟨a, ha, b, hb, rfl⟩ := hp
  simpa using h a b ha hb

variable {ly lx j i : Int}

/-- C124: flipped left to right, the column is counted from the other end. -/
theorem C124_fliplr (hj : 0 ≤ j) (hj2 : j < ly) (hi : 0 ≤ i) (hi2 : i < lx) :
    fliplrSubtileRank (j * lx + i) (ly, lx) = .ok (j * lx + (lx - 1 - i)) := fliplrSubtileRank_eq hj hj2 hi hi2

/-- C124: flipped upside down, the row is counted from the other end. -/
theorem C124_flipud (hj : 0 ≤ j) (hj2 : j < ly) (hi : 0 ≤ i) (hi2 : i < lx) :
    flipudSubtileRank (j * lx + i) (ly, lx) = .ok ((ly - 1 - j) * lx + i) := by
  unfold flipudSubtileRank
  have : firstWhere ly.toNat lx.toNat (fun a b => rankArray (ly, lx) (ly.toNat - 1 - a) b) (j * lx + i) = some ((ly - 1 - j).toNat, i.toNat) := by
    apply firstWhere_eq
    · omega
    · omega
    · simp only [rankArray]
      have e1 : ((ly.toNat - 1 - (ly - 1 - j).toNat : Nat) : Int) = j := by omega
      have e2 : ((i.toNat : Nat) : Int) = i := by omega
      rw [e1, e2]
    · intro a' b' ha hb h
      simp only [rankArray] at h
      have := radix_unique (by omega) (by omega) hi hi2 h
      omega
  show rankArrayAt (ly, lx) (firstWhere ly.toNat lx.toNat (fun a b => rankArray (ly, lx) (ly.toNat - 1 - a) b) (j * lx + i)) = _
  rw [this]
  simp only [rankArrayAt, rankArray]
  have e1 : (((ly - 1 - j).toNat : Nat) : Int) = ly - 1 - j := by omega
  have e2 : ((i.toNat : Nat) : Int) = i := by omega
  simp only [e1, e2]
  rw [if_pos (by constructor <;> omega)]

/-- Transposing, on any layout: row and column change places, if the layout has such a place. -/
theorem transpose_eq (hj : 0 ≤ j) (hj2 : j < ly) (hi : 0 ≤ i) (hi2 : i < lx) :
    transposeSubtileRank (j * lx + i) (ly, lx) = if i < ly ∧ j < lx then .ok (i * lx + j) else .error .indexError := by
  unfold transposeSubtileRank
  have : firstWhere lx.toNat ly.toNat (fun a b => rankArray (ly, lx) b a) (j * lx + i) = some (i.toNat, j.toNat) := by
    apply firstWhere_eq
    · omega
    · omega
    · simp only [rankArray]
      have e1 : ((j.toNat : Nat) : Int) = j := by omega
      have e2 : ((i.toNat : Nat) : Int) = i := by omega
      rw [e1, e2]
    · intro a' b' ha hb h
      simp only [rankArray] at h
      have := radix_unique (by omega) (by omega) hi hi2 h
      omega
  show rankArrayAt (ly, lx) (firstWhere lx.toNat ly.toNat (fun a b => rankArray (ly, lx) b a) (j * lx + i)) = _
  rw [this]
  simp only [rankArrayAt, rankArray]
  have e1 : ((j.toNat : Nat) : Int) = j := by omega
  have e2 : ((i.toNat : Nat) : Int) = i := by omega
  simp only [e1, e2]

/-- Rotating, on any layout. -/
theorem rotate_eq (hj : 0 ≤ j) (hj2 : j < ly) (hi : 0 ≤ i) (hi2 : i < lx) :
    rotateSubtileRank (j * lx + i) (ly, lx) 1 = if lx - 1 - i < ly ∧ j < lx then .ok ((lx - 1 - i) * lx + j) else .error .indexError := by
  unfold rotateSubtileRank
  have : firstWhere lx.toNat ly.toNat (fun a b => rankArray (ly, lx) b (lx.toNat - 1 - a)) (j * lx + i) = some ((lx - 1 - i).toNat, j.toNat) := by
    apply firstWhere_eq
    · omega
    · omega
    · simp only [rankArray]
      have e1 : ((j.toNat : Nat) : Int) = j := by omega
      have e2 : ((lx.toNat - 1 - (lx - 1 - i).toNat : Nat) : Int) = i := by omega
      rw [e1, e2]
    · intro a' b' ha hb h
      simp only [rankArray] at h
      have := radix_unique (by omega) (by omega) hi hi2 h
      omega
  rw [if_neg (by decide), if_pos rfl]
  show rankArrayAt (ly, lx) (firstWhere lx.toNat ly.toNat (fun a b => rankArray (ly, lx) b (lx.toNat - 1 - a)) (j * lx + i)) = _
  rw [this]
  simp only [rankArrayAt, rankArray]
  have e1 : (((lx - 1 - i).toNat : Nat) : Int) = lx - 1 - i := by omega
  have e2 : ((j.toNat : Nat) : Int) = j := by omega
  simp only [e1, e2]

/-- C124: on a square layout, transposed, row and column change places. -/
theorem C124_transpose {n : Int} (hj : 0 ≤ j) (hj2 : j < n) (hi : 0 ≤ i) (hi2 : i < n) :
    transposeSubtileRank (j * n + i) (n, n) = .ok (i * n + j) := by
  rw [transpose_eq hj hj2 hi hi2, if_pos ⟨hi2, hj2⟩]

/-- C124: on a square layout a rotation takes row `j`, column `i` to row `n - 1 - i`, column `j`. -/
theorem C124_rotate {n : Int} (hj : 0 ≤ j) (hj2 : j < n) (hi : 0 ≤ i) (hi2 : i < n) :
    rotateSubtileRank (j * n + i) (n, n) 1 = .ok ((n - 1 - i) * n + j) := rotateSubtileRank_one hj hj2 hi hi2

/-- Every rank of a tile has a row and a column. -/
theorem row_column {ly lx r : Int} (hx : 0 < lx) (h0 : 0 ≤ r) (h1 : r < ly * lx) : ∃ j i, 0 ≤ j ∧ j < ly ∧ 0 ≤ i ∧ i < lx ∧ r = j * lx + i := by
  refine ⟨r / lx, r % lx, Int.ediv_nonneg h0 (by omega), ?_, Int.emod_nonneg _ (by omega), Int.emod_lt_of_pos _ hx, ?_⟩
  · exact Int.ediv_lt_of_lt_mul hx h1
  · rw [Int.mul_comm]; exact (Int.mul_ediv_add_emod r lx).symm

/-- C124: flipping twice is nothing, for every rank of every layout. -/
theorem C124_flips_undo (ly lx r : Int) (hx : 0 < lx) (h0 : 0 ≤ r) (h1 : r < ly * lx) :
    (do fliplrSubtileRank (← fliplrSubtileRank r (ly, lx)) (ly, lx)) = .ok r ∧
    (do flipudSubtileRank (← flipudSubtileRank r (ly, lx)) (ly, lx)) = .ok r := by
  obtain ⟨j, i, hj, hj2, hi, hi2, rfl⟩ := row_column hx h0 h1
  constructor
  · rw [C124_fliplr hj hj2 hi hi2]
    show fliplrSubtileRank _ _ = _
    rw [C124_fliplr hj hj2 (by omega) (by omega), show lx - 1 - (lx - 1 - i) = i by omega]
  · rw [C124_flipud hj hj2 hi hi2]
    show flipudSubtileRank _ _ = _
    rw [C124_flipud (by omega) (by omega) hi hi2, show ly - 1 - (ly - 1 - j) = j by omega]

/-- C124: on a square layout transposing twice is nothing, rotating four times is nothing, rotating twice is flipping both ways, and rotating and
then flipping upside down is transposing. -/
theorem C124_square (n r : Int) (hn : 0 < n) (h0 : 0 ≤ r) (h1 : r < n * n) :
    (do transposeSubtileRank (← transposeSubtileRank r (n, n)) (n, n)) = .ok r ∧
    (do rotateSubtileRank (← rotateSubtileRank (← rotateSubtileRank (← rotateSubtileRank r (n, n) 1) (n, n) 1) (n, n) 1) (n, n) 1) = .ok r ∧
    (do rotateSubtileRank (← rotateSubtileRank r (n, n) 1) (n, n) 1) = (do flipudSubtileRank (← fliplrSubtileRank r (n, n)) (n, n)) ∧
    (do flipudSubtileRank (← rotateSubtileRank r (n, n) 1) (n, n)) = transposeSubtileRank r (n, n) := by
  obtain ⟨j, i, hj, hj2, hi, hi2, rfl⟩ := row_column hn h0 h1
  refine ⟨?_, ?_, ?_, ?_⟩
  · rw [C124_transpose hj hj2 hi hi2]
    exact C124_transpose hi hi2 hj hj2
  · rw [C124_rotate hj hj2 hi hi2]
    simp only [bind, Except.bind]
    rw [C124_rotate (by omega) (by omega) hj hj2]
    simp only
    rw [C124_rotate (by omega) (by omega) (by omega) (by omega)]
    simp only
    rw [C124_rotate (by omega) (by omega) (by omega) (by omega)]
    rw [show n - 1 - (n - 1 - j) = j by omega, show n - 1 - (n - 1 - i) = i by omega]
  · rw [C124_rotate hj hj2 hi hi2, C124_fliplr hj hj2 hi hi2]
    simp only [bind, Except.bind]
    rw [C124_rotate (by omega) (by omega) hj hj2, C124_flipud hj hj2 (by omega) (by omega)]
  · rw [C124_rotate hj hj2 hi hi2, C124_transpose hj hj2 hi hi2]
    simp only [bind, Except.bind]
    rw [C124_flipud (by omega) (by omega) hj hj2, show n - 1 - (n - 1 - i) = i by omega]

/-- C124: each of the moves is one to one on the ranks of a tile (transposing and rotating for a square layout): no two ranks are sent to the same
place, and none out of the tile. -/
theorem C124_inside (n r : Int) (h0 : 0 ≤ r) (h1 : r < n * n) (hn : 0 < n) (f : Int → Except Err Int)
    (hf : f = (fliplrSubtileRank · (n, n)) ∨ f = (flipudSubtileRank · (n, n)) ∨ f = (transposeSubtileRank · (n, n)) ∨ f = (rotateSubtileRank · (n, n) 1)) :
    ∃ s, f r = .ok s ∧ 0 ≤ s ∧ s < n * n ∧ ∀ r', 0 ≤ r' → r' < n * n → f r' = .ok s → r' = r := by
  obtain ⟨j, i, hj, hj2, hi, hi2, rfl⟩ := row_column hn h0 h1
  rcases hf with rfl | rfl | rfl | rfl
  · refine ⟨_, C124_fliplr hj hj2 hi hi2, (jn_bounds hj hj2 (by omega) (by omega)).1, (jn_bounds hj hj2 (by omega) (by omega)).2, ?_⟩
    intro r' h0' h1' h
    obtain ⟨j', i', hj', hj2', hi', hi2', rfl⟩ := row_column hn h0' h1'
    simp only [C124_fliplr hj' hj2' hi' hi2'] at h
    have := radix_unique (by omega) (by omega) (by omega) (by omega) (Except.ok.inj h)
    rw [this.1, show i' = i by omega]
  · refine ⟨_, C124_flipud hj hj2 hi hi2, (jn_bounds (ly := n) (j := n - 1 - j) (by omega) (by omega) hi hi2).1, (jn_bounds (ly := n) (j := n - 1 - j) (by omega) (by omega) hi hi2).2, ?_⟩
    intro r' h0' h1' h
    obtain ⟨j', i', hj', hj2', hi', hi2', rfl⟩ := row_column hn h0' h1'
    simp only [C124_flipud hj' hj2' hi' hi2'] at h
    have := radix_unique (by omega) (by omega) (by omega) (by omega) (Except.ok.inj h)
    rw [this.2, show j' = j by omega]
  · refine ⟨_, C124_transpose hj hj2 hi hi2, (jn_bounds hi hi2 hj hj2).1, (jn_bounds hi hi2 hj hj2).2, ?_⟩
    intro r' h0' h1' h
    obtain ⟨j', i', hj', hj2', hi', hi2', rfl⟩ := row_column hn h0' h1'
    simp only [C124_transpose hj' hj2' hi' hi2'] at h
    have := radix_unique (by omega) (by omega) (by omega) (by omega) (Except.ok.inj h)
    rw [this.2, show i' = i by omega]
  · refine ⟨_, C124_rotate hj hj2 hi hi2, (jn_bounds (ly := n) (j := n - 1 - i) (by omega) (by omega) hj hj2).1, (jn_bounds (ly := n) (j := n - 1 - i) (by omega) (by omega) hj hj2).2, ?_⟩
    intro r' h0' h1' h
    obtain ⟨j', i', hj', hj2', hi', hi2', rfl⟩ := row_column hn h0' h1'
    simp only [C124_rotate hj' hj2' hi' hi2'] at h
    have := radix_unique (by omega) (by omega) (by omega) (by omega) (Except.ok.inj h)
    rw [this.2, show i' = i by omega]

/-- C124: a number that is no rank of the tile is refused by the flips, the transposition and the rotation; other rotations than none and one are
refused; no rotation leaves every number as it is. -/
theorem C124_refused (ly lx r : Int) (h : r < 0 ∨ ly * lx ≤ r) (hy : 0 < ly) (hx : 0 < lx) :
    fliplrSubtileRank r (ly, lx) = .error .indexError ∧ flipudSubtileRank r (ly, lx) = .error .indexError ∧
    transposeSubtileRank r (ly, lx) = .error .indexError ∧ rotateSubtileRank r (ly, lx) 1 = .error .indexError := by
  have key : ∀ a b : Nat, (a : Int) < ly → (b : Int) < lx → rankArray (ly, lx) a b ≠ r := by
    intro a b ha hb e
    have := jn_bounds (ly := ly) (lx := lx) (j := a) (i := b) (by omega) ha (by omega) hb
    simp only [rankArray] at e
    omega
  refine ⟨?_, ?_, ?_, ?_⟩
  · unfold fliplrSubtileRank
    rw [firstWhere_none]; · rfl
    intro a b ha hb; exact key _ _ (by omega) (by simp only; omega)
  · unfold flipudSubtileRank
    rw [firstWhere_none]; · rfl
    intro a b ha hb; exact key _ _ (by simp only; omega) (by simp only at hb; omega)
  · unfold transposeSubtileRank
    rw [firstWhere_none]; · rfl
    intro a b ha hb; exact key _ _ (by simp only at hb; omega) (by simp only at ha; omega)
  · unfold rotateSubtileRank
    rw [if_neg (by decide), if_pos rfl, firstWhere_none]; · rfl
    intro a b ha hb; exact key _ _ (by simp only at hb; omega) (by simp only at ha ⊢; omega)

theorem C124_turns (layout : Int × Int) (r k : Int) : rotateSubtileRank r layout 0 = .ok r ∧ (k ≠ 0 → k ≠ 1 → rotateSubtileRank r layout k = .error .notImplemented) := by
  refine ⟨by simp [rotateSubtileRank], fun h0 h1 => by simp [rotateSubtileRank, h0, h1]⟩

/-- C124: on a layout that is not square the transposed (or rotated) tile has another layout; the position is looked up in the old one. On a
layout of 2 rows and 3 columns rank 1 (row 0, column 1) goes to row 1, column 0, which is rank 2 of 3 rows and 2 columns; found is rank 3. Rank 2
(column 2) is an error. -/
theorem C124_layout_violated : transposeSubtileRank 1 (2, 3) = .ok 3 ∧ transposeSubtileRank 2 (2, 3) = .error .indexError ∧
    rotateSubtileRank 1 (2, 3) 1 = .ok 3 ∧ rotateSubtileRank 0 (2, 3) 1 = .error .indexError := by decide +kernel

/-! ### Cases that meet the hypotheses -/

example : fliplrSubtileRank 1 (2, 3) = .ok 1 ∧ fliplrSubtileRank 3 (2, 3) = .ok 5 ∧ flipudSubtileRank 1 (2, 3) = .ok 4 := by decide +kernel

example : transposeSubtileRank 1 (3, 3) = .ok 3 ∧ rotateSubtileRank 1 (3, 3) 1 = .ok 3 ∧ rotateSubtileRank 2 (3, 3) 1 = .ok 0 ∧
    rotateSubtileRank 9 (3, 3) 1 = .error .indexError := by decide +kernel

end NDSL.RankMoves
