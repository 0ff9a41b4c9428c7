import Verif.Lemmas.Decomposition

/-! The enumeration of `_valid_edge_tile_sizes`: which sizes it visits. -/
namespace NDSL

def esInit : EdgeSearch := { sizes := [], offset := 0, factor := -1 }

theorem edgeStep_mono (top start : Int) (s : EdgeSearch) (x : Int) (h : x ∈ s.sizes) :
    x ∈ (edgeStep top start s).sizes := by
  simp only [edgeStep]
  split <;> split <;> simp [h]

theorem repeat_mono (top start : Int) (k l : Nat) (hkl : k ≤ l) (x : Int)
    (h : x ∈ (Nat.repeat (edgeStep top start) k esInit).sizes) :
    x ∈ (Nat.repeat (edgeStep top start) l esInit).sizes := by
  induction l with
  | zero => have : k = 0 := by omega
            subst this; exact h
  | succ l ih =>
    by_cases hk : k = l + 1
    · rw [← hk]; exact h
    · exact edgeStep_mono _ _ _ _ (ih (by omega))

theorem edgeStep_adds (top start : Int) (s : EdgeSearch)
    (h : 1 ≤ start + s.factor * s.offset ∧ start + s.factor * s.offset < top) :
    start + s.factor * s.offset ∈ (edgeStep top start s).sizes := by
  simp only [edgeStep]
  by_cases hm : start + s.factor * s.offset ∈ s.sizes <;> simp only [h, hm] <;> split <;> simp
    <;> exact hm

/-- counting down -/
theorem phase_down (top start : Int) (k : Nat) (hk : (k : Int) < start) :
    (Nat.repeat (edgeStep top start) k esInit).offset = k ∧
    (Nat.repeat (edgeStep top start) k esInit).factor = -1 := by
  induction k with
  | zero => simp [Nat.repeat, esInit]
  | succ k ih =>
    obtain ⟨h1, h2⟩ := ih (by omega)
    show (edgeStep top start (Nat.repeat (edgeStep top start) k esInit)).offset = _ ∧
      (edgeStep top start (Nat.repeat (edgeStep top start) k esInit)).factor = _
    simp only [edgeStep, h1, h2]
    rw [if_neg (by push_cast at hk; omega)]
    simp

/-- counting up -/
theorem phase_up (top start : Int) (hs : 2 ≤ start) (k : Nat) :
    (Nat.repeat (edgeStep top start) (start.toNat + k) esInit).offset = k ∧
    (Nat.repeat (edgeStep top start) (start.toNat + k) esInit).factor = 1 := by
  induction k with
  | zero =>
    obtain ⟨h1, h2⟩ := phase_down top start (start.toNat - 1) (by omega)
    rw [show start.toNat + 0 = (start.toNat - 1) + 1 by omega]
    show (edgeStep top start (Nat.repeat (edgeStep top start) (start.toNat - 1) esInit)).offset = _ ∧
      (edgeStep top start (Nat.repeat (edgeStep top start) (start.toNat - 1) esInit)).factor = _
    simp only [edgeStep, h1, h2]
    rw [if_pos (by omega)]
    simp
  | succ k ih =>
    obtain ⟨h1, h2⟩ := ih
    show (edgeStep top start (Nat.repeat (edgeStep top start) (start.toNat + k) esInit)).offset = _ ∧
      (edgeStep top start (Nat.repeat (edgeStep top start) (start.toNat + k) esInit)).factor = _
    simp only [edgeStep, h1, h2]
    rw [if_neg (by omega)]
    simp

/-- With a start in `[2, top]` every size of `[1, top)` is visited. -/
theorem validEdgeSizes_complete (n c start x : Int) (h2 : 2 ≤ start) (ht : start ≤ edgeTop n c)
    (hx : 1 ≤ x) (hxt : x < edgeTop n c) : x ∈ validEdgeSizes n c start := by
  show x ∈ (Nat.repeat (edgeStep (edgeTop n c) start) ((edgeTop n c - 1).toNat + 1) esInit).sizes
  generalize edgeTop n c = top at *
  by_cases hd : x ≤ start
  · have hp := phase_down top start (start - x).toNat (by omega)
    refine repeat_mono top start ((start - x).toNat + 1) _ (by omega) x ?_
    have ha := edgeStep_adds top start (Nat.repeat (edgeStep top start) (start - x).toNat esInit)
    rw [hp.1, hp.2] at ha
    have e : start + -1 * ((start - x).toNat : Int) = x := by omega
    rw [e] at ha
    exact ha ⟨hx, hxt⟩
  · have hp := phase_up top start h2 (x - start).toNat
    refine repeat_mono top start (start.toNat + (x - start).toNat + 1) _ (by omega) x ?_
    have ha := edgeStep_adds top start
      (Nat.repeat (edgeStep top start) (start.toNat + (x - start).toNat) esInit)
    rw [hp.1, hp.2] at ha
    have e : start + 1 * ((x - start).toNat : Int) = x := by omega
    rw [e] at ha
    exact ha ⟨hx, hxt⟩

/-- With start 1 only size 1 is ever visited. -/
theorem validEdgeSizes_stuck (n c x : Int) (h : x ∈ validEdgeSizes n c 1) : x = 1 := by
  have key : ∀ k, (Nat.repeat (edgeStep (edgeTop n c) 1) k esInit).offset = 0 ∧
      ∀ y ∈ (Nat.repeat (edgeStep (edgeTop n c) 1) k esInit).sizes, y = 1 := by
    intro k
    induction k with
    | zero => simp [Nat.repeat, esInit]
    | succ k ih =>
      obtain ⟨h1, h2⟩ := ih
      show (edgeStep (edgeTop n c) 1 (Nat.repeat (edgeStep (edgeTop n c) 1) k esInit)).offset = _ ∧
        ∀ y ∈ (edgeStep (edgeTop n c) 1 (Nat.repeat (edgeStep (edgeTop n c) 1) k esInit)).sizes, _
      simp only [edgeStep, h1, Int.mul_zero, Int.add_zero, if_true, true_and]
      intro y hy
      split at hy
      · rcases List.mem_append.1 hy with hy | hy
        · exact h2 y hy
        · exact List.mem_singleton.1 hy
      · exact h2 y hy
  exact (key _).2 x h

/-- While counting down only sizes passed on the way are collected. -/
theorem down_sizes (top start : Int) (k : Nat) (hk : (k : Int) < start ∨ start ≤ 0) :
    ((Nat.repeat (edgeStep top start) k esInit).offset = k ∧ (Nat.repeat (edgeStep top start) k esInit).factor = -1) ∧
    ∀ y ∈ (Nat.repeat (edgeStep top start) k esInit).sizes, 1 ≤ y ∧ start - k < y ∧ y ≤ start := by
  induction k with
  | zero => simp [Nat.repeat, esInit]
  | succ k ih =>
    obtain ⟨⟨h1, h2⟩, h3⟩ := ih (by omega)
    show ((edgeStep top start (Nat.repeat (edgeStep top start) k esInit)).offset = _ ∧
      (edgeStep top start (Nat.repeat (edgeStep top start) k esInit)).factor = _) ∧
      ∀ y ∈ (edgeStep top start (Nat.repeat (edgeStep top start) k esInit)).sizes, _
    simp only [edgeStep, h1, h2]
    rw [if_neg (by push_cast at hk; omega)]
    refine ⟨by simp, ?_⟩
    intro y hy
    simp only at hy
    split at hy
    · rename_i hc
      rcases List.mem_append.1 hy with hy | hy
      · have := h3 y hy; push_cast; omega
      · rw [List.mem_singleton.1 hy]; push_cast; omega
    · have := h3 y hy; push_cast; omega

/-- Exactly the sizes that are tried: all from a start in range, only 1 from start 1, none from lower, and from higher those reached on the way down. -/
theorem mem_validEdgeSizes (n c start x : Int) : x ∈ validEdgeSizes n c start ↔ (1 ≤ x ∧ x < edgeTop n c) ∧
    ((start = 1 ∧ x = 1) ∨ (2 ≤ start ∧ start ≤ edgeTop n c) ∨ (edgeTop n c < start ∧ start - edgeTop n c < x)) := by
  constructor
  · intro h
    have hr := validEdgeSizes_range n c start x h
    refine ⟨hr, ?_⟩
    by_cases h1 : start = 1
    · subst h1; exact Or.inl ⟨rfl, validEdgeSizes_stuck n c x h⟩
    · by_cases h2 : 2 ≤ start ∧ start ≤ edgeTop n c
      · exact Or.inr (Or.inl h2)
      · have h' : x ∈ (Nat.repeat (edgeStep (edgeTop n c) start) ((edgeTop n c - 1).toNat + 1) esInit).sizes := h
        have := (down_sizes (edgeTop n c) start ((edgeTop n c - 1).toNat + 1) (by push_cast; omega)).2 x h'
        push_cast at this
        omega
  · rintro ⟨⟨h1, h2⟩, h3 | h3 | h3⟩
    · obtain ⟨rfl, rfl⟩ := h3
      show (1 : Int) ∈ (Nat.repeat (edgeStep (edgeTop n c) 1) ((edgeTop n c - 1).toNat + 1) esInit).sizes
      refine repeat_mono _ _ 1 _ (by omega) 1 ?_
      have ha := edgeStep_adds (edgeTop n c) 1 (Nat.repeat (edgeStep (edgeTop n c) 1) 0 esInit)
      simp only [Nat.repeat, esInit, Int.mul_zero, Int.add_zero] at ha
      exact ha ⟨Int.le_refl _, h2⟩
    · exact validEdgeSizes_complete n c start x h3.1 h3.2 h1 h2
    · show x ∈ (Nat.repeat (edgeStep (edgeTop n c) start) ((edgeTop n c - 1).toNat + 1) esInit).sizes
      have hp := phase_down (edgeTop n c) start (start - x).toNat (by omega)
      refine repeat_mono _ _ ((start - x).toNat + 1) _ (by omega) x ?_
      have ha := edgeStep_adds (edgeTop n c) start (Nat.repeat (edgeStep (edgeTop n c) start) (start - x).toNat esInit)
      rw [hp.1, hp.2] at ha
      have e : start + -1 * ((start - x).toNat : Int) = x := by omega
      rw [e] at ha
      exact ha ⟨h1, h2⟩

end NDSL
