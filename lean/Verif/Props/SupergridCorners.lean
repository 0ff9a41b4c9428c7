import Verif.Spec.SupergridCorners
import Mathlib.Tactic.NormNum
import Mathlib.Tactic.Ring
/-
C85: ghost cells at tile corners, for the sines and cosines of the grid angles.
-/
namespace NDSL.Supergrid

/-- The whole treatment of one corner. -/
def stage {α : Type} (c : Corner) (h n0 n1 : Int) (v : α) (s : SG α) : SG α :=
  match c with
  | ⟨false, false⟩ => rotate (swClockwise h) 0 3 (rotate (swCounterclockwise h) 1 2 (fillSw h v s))
  | ⟨false, true⟩ => rotate (nwClockwise h n1) 3 2 (rotate (nwCounterclockwise h n1) 0 1 (fillNw h n1 v s))
  | ⟨true, false⟩ => rotate (seCounterclockwise h n0) 2 3 (rotate (seClockwise h n0) 1 0 (fillSe h n0 v s))
  | ⟨true, true⟩ => rotate (neClockwise h n0 n1) 2 1 (rotate (neCounterclockwise h n0 n1) 3 0 (fillNe h n0 n1 v s))

theorem cornerFix_stages {α : Type} (r : OnTile) (h n0 n1 : Int) (v : α) (sg : SG α) :
    cornerFix r h n0 n1 v sg = onlyIf (Corner.on ⟨true, true⟩ r) (stage ⟨true, true⟩ h n0 n1 v)
      (onlyIf (Corner.on ⟨true, false⟩ r) (stage ⟨true, false⟩ h n0 n1 v)
        (onlyIf (Corner.on ⟨false, true⟩ r) (stage ⟨false, true⟩ h n0 n1 v)
          (onlyIf (Corner.on ⟨false, false⟩ r) (stage ⟨false, false⟩ h n0 n1 v) sg))) := rfl

/-- The value of a ghost cell. -/
def ghostValue {α : Type} (c : Corner) (h n0 n1 : Int) (v : α) (s : SG α) (k : Nat) (i j : Int) : α :=
  if k = c.inX ∧ c.x n0 i = h - 1 then c.acrossX s h n0 n1 j
  else if k = c.inY ∧ c.y n1 j = h - 1 then c.acrossY s h n0 n1 i else v

theorem stage_eq {α : Type} (c : Corner) (h n0 n1 : Int) (v : α) (s : SG α) (h0 : 2 * h < n0)
    (h1 : 2 * h < n1) (k : Nat) (i j : Int) (hi : 0 ≤ i ∧ i < n0) (hj : 0 ≤ j ∧ j < n1) :
    (c.ghost h n0 n1 i j → stage c h n0 n1 v s k i j = ghostValue c h n0 n1 v s k i j) ∧
    (¬ c.ghost h n0 n1 i j → stage c h n0 n1 v s k i j = s k i j) := by
  rcases c with ⟨_ | _, _ | _⟩
  all_goals
    simp only [stage, ghostValue, Corner.ghost, Corner.acrossX, Corner.acrossY, Corner.x, Corner.y, Corner.inX,
      Corner.inY, Corner.outX, Corner.outY, rotate, setPoint, swClockwise, swCounterclockwise, nwClockwise,
      nwCounterclockwise, seClockwise, seCounterclockwise, neClockwise, neCounterclockwise, flip0, flip1, fillSw,
      fillNw, fillSe, fillNe, first, last, if_true, Bool.false_eq_true, if_false]
    refine ⟨fun hg => ?_, fun hg => ?_⟩
    all_goals grind

/-- Inside the array, and no ghost cell of any corner. -/
def plain (h n0 n1 i j : Int) : Prop := (0 ≤ i ∧ i < n0) ∧ (0 ≤ j ∧ j < n1) ∧ ∀ c : Corner, ¬ c.ghost h n0 n1 i j

theorem ghostValue_congr {α : Type} (c : Corner) (h n0 n1 : Int) (v : α) (s s' : SG α) (h0 : 2 * h < n0)
    (h1 : 2 * h < n1) (hs : ∀ k i j, plain h n0 n1 i j → s k i j = s' k i j) (k : Nat) (i j : Int)
    (hi : 0 ≤ i ∧ i < n0) (hj : 0 ≤ j ∧ j < n1) (hg : c.ghost h n0 n1 i j) :
    ghostValue c h n0 n1 v s k i j = ghostValue c h n0 n1 v s' k i j := by
  have e1 : c.acrossX s h n0 n1 j = c.acrossX s' h n0 n1 j := by
    apply hs
    refine ⟨?_, ?_, ?_⟩
    · rcases c with ⟨_ | _, _ | _⟩ <;> simp [Corner.ghost, Corner.x, Corner.y] at * <;> omega
    · rcases c with ⟨_ | _, _ | _⟩ <;> simp [Corner.ghost, Corner.x, Corner.y] at * <;> omega
    · intro c'
      rcases c with ⟨_ | _, _ | _⟩ <;> rcases c' with ⟨_ | _, _ | _⟩ <;> simp [Corner.ghost, Corner.x, Corner.y] at * <;> omega
  have e2 : c.acrossY s h n0 n1 i = c.acrossY s' h n0 n1 i := by
    apply hs
    refine ⟨?_, ?_, ?_⟩
    · rcases c with ⟨_ | _, _ | _⟩ <;> simp [Corner.ghost, Corner.x, Corner.y] at * <;> omega
    · rcases c with ⟨_ | _, _ | _⟩ <;> simp [Corner.ghost, Corner.x, Corner.y] at * <;> omega
    · intro c'
      rcases c with ⟨_ | _, _ | _⟩ <;> rcases c' with ⟨_ | _, _ | _⟩ <;> simp [Corner.ghost, Corner.x, Corner.y] at * <;> omega
  unfold ghostValue
  rw [e1, e2]

theorem ghost_one {h n0 n1 i j : Int} (h0 : 2 * h < n0) (h1 : 2 * h < n1) {c c' : Corner} (hg : c.ghost h n0 n1 i j)
    (hne : c' ≠ c) : ¬ c'.ghost h n0 n1 i j := by
  intro hg'
  apply hne
  rcases c with ⟨_ | _, _ | _⟩ <;> rcases c' with ⟨_ | _, _ | _⟩ <;>
    simp [Corner.ghost, Corner.x, Corner.y] at * <;> omega

theorem only_other {α : Type} (b : Bool) (c : Corner) (h n0 n1 : Int) (v : α) (s : SG α) (h0 : 2 * h < n0)
    (h1 : 2 * h < n1) (k : Nat) (i j : Int) (hi : 0 ≤ i ∧ i < n0) (hj : 0 ≤ j ∧ j < n1)
    (hg : b = true → ¬ c.ghost h n0 n1 i j) : onlyIf b (stage c h n0 n1 v) s k i j = s k i j := by
  cases b
  · rfl
  · exact (stage_eq c h n0 n1 v s h0 h1 k i j hi hj).2 (hg rfl)

theorem only_this {α : Type} (b : Bool) (c : Corner) (h n0 n1 : Int) (v : α) (s sg : SG α) (h0 : 2 * h < n0)
    (h1 : 2 * h < n1) (k : Nat) (i j : Int) (hi : 0 ≤ i ∧ i < n0) (hj : 0 ≤ j ∧ j < n1) (hb : b = true)
    (hg : c.ghost h n0 n1 i j) (hs : ∀ k i j, plain h n0 n1 i j → s k i j = sg k i j) :
    onlyIf b (stage c h n0 n1 v) s k i j = ghostValue c h n0 n1 v sg k i j := by
  subst hb
  rw [← ghostValue_congr c h n0 n1 v s sg h0 h1 hs k i j hi hj hg]
  exact (stage_eq c h n0 n1 v s h0 h1 k i j hi hj).1 hg

theorem only_plain {α : Type} (b : Bool) (c : Corner) (h n0 n1 : Int) (v : α) (s sg : SG α) (h0 : 2 * h < n0)
    (h1 : 2 * h < n1) (hs : ∀ k i j, plain h n0 n1 i j → s k i j = sg k i j) :
    ∀ k i j, plain h n0 n1 i j → onlyIf b (stage c h n0 n1 v) s k i j = sg k i j := by
  intro k i j hp
  rw [only_other b c h n0 n1 v s h0 h1 k i j hp.1 hp.2.1 (fun _ => hp.2.2 c)]
  exact hs k i j hp

theorem cornerFix_ghost {α : Type} (r : OnTile) (h n0 n1 : Int) (v : α) (sg : SG α) (h0 : 2 * h < n0)
    (h1 : 2 * h < n1) (c : Corner) (hc : c.on r = true) (k : Nat) (i j : Int) (hi : 0 ≤ i ∧ i < n0)
    (hj : 0 ≤ j ∧ j < n1) (hg : c.ghost h n0 n1 i j) :
    cornerFix r h n0 n1 v sg k i j = ghostValue c h n0 n1 v sg k i j := by
  rw [cornerFix_stages]
  have q0 : ∀ k i j, plain h n0 n1 i j → sg k i j = sg k i j := fun _ _ _ _ => rfl
  have q1 := only_plain (Corner.on ⟨false, false⟩ r) ⟨false, false⟩ h n0 n1 v sg sg h0 h1 q0
  have q2 := only_plain (Corner.on ⟨false, true⟩ r) ⟨false, true⟩ h n0 n1 v _ sg h0 h1 q1
  have q3 := only_plain (Corner.on ⟨true, false⟩ r) ⟨true, false⟩ h n0 n1 v _ sg h0 h1 q2
  have ot : ∀ (c' : Corner) (s : SG α), c' ≠ c → onlyIf (c'.on r) (stage c' h n0 n1 v) s k i j = s k i j :=
    fun c' s hne => only_other _ c' h n0 n1 v s h0 h1 k i j hi hj (fun _ => ghost_one h0 h1 hg hne)
  rcases c with ⟨_ | _, _ | _⟩
  · rw [ot _ _ (by decide), ot _ _ (by decide), ot _ _ (by decide)]
    exact only_this _ _ h n0 n1 v _ sg h0 h1 k i j hi hj hc hg q0
  · rw [ot _ _ (by decide), ot _ _ (by decide)]
    exact only_this _ _ h n0 n1 v _ sg h0 h1 k i j hi hj hc hg q1
  · rw [ot _ _ (by decide)]
    exact only_this _ _ h n0 n1 v _ sg h0 h1 k i j hi hj hc hg q2
  · exact only_this _ _ h n0 n1 v _ sg h0 h1 k i j hi hj hc hg q3

/-- **C85** (ghost cells): after the correction, for every halo size and every array with at least one
cell inside, the ghost cells at each corner of the tile a rank lies on hold the fill value, except on the
sides that face the two halo strips: there they hold the value at the side of the cell that really lies
across, on the other neighbour. -/
theorem C85_ghost {α : Type} (r : OnTile) (h n0 n1 : Int) (v : α) (sg : SG α) (h0 : 2 * h < n0)
    (h1 : 2 * h < n1) (c : Corner) (hc : c.on r = true) (k : Nat) (i j : Int) (hi : 0 ≤ i ∧ i < n0)
    (hj : 0 ≤ j ∧ j < n1) (hg : c.ghost h n0 n1 i j) :
    (k = c.inX → c.x n0 i = h - 1 → cornerFix r h n0 n1 v sg k i j = c.acrossX sg h n0 n1 j) ∧
    (k = c.inY → c.y n1 j = h - 1 → cornerFix r h n0 n1 v sg k i j = c.acrossY sg h n0 n1 i) ∧
    (¬ (k = c.inX ∧ c.x n0 i = h - 1) → ¬ (k = c.inY ∧ c.y n1 j = h - 1) →
      cornerFix r h n0 n1 v sg k i j = v) := by
  rw [cornerFix_ghost r h n0 n1 v sg h0 h1 c hc k i j hi hj hg]
  unfold ghostValue
  refine ⟨fun a b => if_pos ⟨a, b⟩, fun a b => ?_, fun a b => ?_⟩
  · rw [if_neg, if_pos ⟨a, b⟩]
    rintro ⟨a', _⟩
    rw [a] at a'
    rcases c with ⟨_ | _, _ | _⟩ <;> simp [Corner.inX, Corner.inY] at a'
  · rw [if_neg a, if_neg b]

/-- **C85** (all other cells): nothing else changes. -/
theorem C85_rest {α : Type} (r : OnTile) (h n0 n1 : Int) (v : α) (sg : SG α) (h0 : 2 * h < n0) (h1 : 2 * h < n1)
    (k : Nat) (i j : Int) (hi : 0 ≤ i ∧ i < n0) (hj : 0 ≤ j ∧ j < n1)
    (hn : ∀ c : Corner, c.on r = true → ¬ c.ghost h n0 n1 i j) :
    cornerFix r h n0 n1 v sg k i j = sg k i j := by
  rw [cornerFix_stages]
  rw [only_other _ _ h n0 n1 v _ h0 h1 k i j hi hj (hn _), only_other _ _ h n0 n1 v _ h0 h1 k i j hi hj (hn _),
    only_other _ _ h n0 n1 v _ h0 h1 k i j hi hj (hn _), only_other _ _ h n0 n1 v _ h0 h1 k i j hi hj (hn _)]

/-- A rank that covers a whole tile. -/
def wholeTile : OnTile := ⟨true, true, true, true⟩

/-- Values that tell where they come from. -/
def label : SG ℚ := fun k i j => 10000 * k + 100 * i + j

example : (Corner.mk false true).on wholeTile = true ∧ (Corner.mk false true).ghost 3 10 10 2 8 ∧
    cornerFix wholeTile 3 10 10 0 label 2 2 8 = label 3 1 6 := by
  refine ⟨rfl, ?_, ?_⟩
  · unfold Corner.ghost Corner.x Corner.y
    decide
  · decide +kernel

/-! ### The first adjustment -/

/-- The first adjustment of one corner. -/
def adjStage {α : Type} (c : Corner) (n0 n1 : Int) (s : SG α) : SG α :=
  match c with
  | ⟨false, false⟩ => adjustSw 3 s
  | ⟨false, true⟩ => adjustNw 3 n1 s
  | ⟨true, false⟩ => adjustSe 3 n0 s
  | ⟨true, true⟩ => adjustNe 3 n0 n1 s

theorem adjustSin_stages {α : Type} (r : OnTile) (n0 n1 : Int) (sg : SG α) :
    adjustSin r 3 n0 n1 sg = some (onlyIf (Corner.on ⟨true, true⟩ r) (adjStage ⟨true, true⟩ n0 n1)
      (onlyIf (Corner.on ⟨true, false⟩ r) (adjStage ⟨true, false⟩ n0 n1)
        (onlyIf (Corner.on ⟨false, true⟩ r) (adjStage ⟨false, true⟩ n0 n1)
          (onlyIf (Corner.on ⟨false, false⟩ r) (adjStage ⟨false, false⟩ n0 n1) sg)))) := by
  have hc : (r.left && r.top && (3 : Int) != 3) = false := by simp
  unfold adjustSin
  simp only [hc, Bool.false_eq_true, if_false]
  rfl

/-- What the first adjustment puts into a ghost cell. -/
def adjValue {α : Type} (c : Corner) (n0 n1 : Int) (s : SG α) (k : Nat) (i j : Int) (o : α) : α :=
  if k = c.inX ∧ c.x n0 i = 2 then c.acrossX s 3 n0 n1 j
  else if k = c.inY ∧ c.y n1 j = 2 then
    if c = ⟨false, true⟩ then s 0 3 (n1 - 5 + i) else c.acrossY s 3 n0 n1 i
  else o

theorem adjStage_eq {α : Type} (c : Corner) (n0 n1 : Int) (s : SG α) (h0 : 6 < n0)
    (h1 : 6 < n1) (k : Nat) (i j : Int) (hi : 0 ≤ i ∧ i < n0) (hj : 0 ≤ j ∧ j < n1) :
    (c.ghost 3 n0 n1 i j → adjStage c n0 n1 s k i j = adjValue c n0 n1 s k i j (s k i j)) ∧
    (¬ c.ghost 3 n0 n1 i j → adjStage c n0 n1 s k i j = s k i j) := by
  rcases c with ⟨_ | _, _ | _⟩
  all_goals
    simp only [adjStage, adjValue, Corner.ghost, Corner.acrossX, Corner.acrossY, Corner.x, Corner.y, Corner.inX,
      Corner.inY, Corner.outX, Corner.outY, adjustSw, adjustNw, adjustSe, adjustNe, assign, setPoint,
      if_true, Bool.false_eq_true, if_false, decide_eq_true_eq]
    refine ⟨fun hg => ?_, fun hg => ?_⟩
    all_goals grind

theorem adjValue_congr {α : Type} (c : Corner) (n0 n1 : Int) (s s' : SG α) (h0 : 6 < n0)
    (h1 : 6 < n1) (hs : ∀ k i j, plain 3 n0 n1 i j → s k i j = s' k i j) (k : Nat) (i j : Int) (o : α)
    (hi : 0 ≤ i ∧ i < n0) (hj : 0 ≤ j ∧ j < n1) (hg : c.ghost 3 n0 n1 i j) :
    adjValue c n0 n1 s k i j o = adjValue c n0 n1 s' k i j o := by
  have e1 : c.acrossX s 3 n0 n1 j = c.acrossX s' 3 n0 n1 j := by
    apply hs
    refine ⟨?_, ?_, ?_⟩
    · rcases c with ⟨_ | _, _ | _⟩ <;> simp [Corner.ghost, Corner.x, Corner.y] at * <;> omega
    · rcases c with ⟨_ | _, _ | _⟩ <;> simp [Corner.ghost, Corner.x, Corner.y] at * <;> omega
    · intro c'
      rcases c with ⟨_ | _, _ | _⟩ <;> rcases c' with ⟨_ | _, _ | _⟩ <;> simp [Corner.ghost, Corner.x, Corner.y] at * <;> omega
  have e2 : c.acrossY s 3 n0 n1 i = c.acrossY s' 3 n0 n1 i := by
    apply hs
    refine ⟨?_, ?_, ?_⟩
    · rcases c with ⟨_ | _, _ | _⟩ <;> simp [Corner.ghost, Corner.x, Corner.y] at * <;> omega
    · rcases c with ⟨_ | _, _ | _⟩ <;> simp [Corner.ghost, Corner.x, Corner.y] at * <;> omega
    · intro c'
      rcases c with ⟨_ | _, _ | _⟩ <;> rcases c' with ⟨_ | _, _ | _⟩ <;> simp [Corner.ghost, Corner.x, Corner.y] at * <;> omega
  unfold adjValue
  rw [e1, e2]
  by_cases hc : c = ⟨false, true⟩
  · subst hc
    have e3 : s 0 3 (n1 - 5 + i) = s' 0 3 (n1 - 5 + i) := by
      apply hs
      simp [Corner.ghost, Corner.x, Corner.y] at hg
      refine ⟨by omega, by omega, ?_⟩
      intro c'
      rcases c' with ⟨_ | _, _ | _⟩ <;> simp [Corner.ghost, Corner.x, Corner.y] <;> omega
    rw [e3]
  · simp only [if_neg hc]

theorem adj_other {α : Type} (b : Bool) (c : Corner) (n0 n1 : Int) (s : SG α) (h0 : 6 < n0)
    (h1 : 6 < n1) (k : Nat) (i j : Int) (hi : 0 ≤ i ∧ i < n0) (hj : 0 ≤ j ∧ j < n1)
    (hg : b = true → ¬ c.ghost 3 n0 n1 i j) : onlyIf b (adjStage c n0 n1) s k i j = s k i j := by
  cases b
  · rfl
  · exact (adjStage_eq c n0 n1 s h0 h1 k i j hi hj).2 (hg rfl)

theorem adj_this {α : Type} (b : Bool) (c : Corner) (n0 n1 : Int) (s sg : SG α) (h0 : 6 < n0)
    (h1 : 6 < n1) (k : Nat) (i j : Int) (hi : 0 ≤ i ∧ i < n0) (hj : 0 ≤ j ∧ j < n1) (hb : b = true)
    (hg : c.ghost 3 n0 n1 i j) (hs : ∀ k i j, plain 3 n0 n1 i j → s k i j = sg k i j) (ho : s k i j = sg k i j) :
    onlyIf b (adjStage c n0 n1) s k i j = adjValue c n0 n1 sg k i j (sg k i j) := by
  subst hb
  rw [← adjValue_congr c n0 n1 s sg h0 h1 hs k i j _ hi hj hg, ← ho]
  exact (adjStage_eq c n0 n1 s h0 h1 k i j hi hj).1 hg

theorem adj_plain {α : Type} (b : Bool) (c : Corner) (n0 n1 : Int) (s sg : SG α) (h0 : 6 < n0)
    (h1 : 6 < n1) (hs : ∀ k i j, plain 3 n0 n1 i j → s k i j = sg k i j) :
    ∀ k i j, plain 3 n0 n1 i j → onlyIf b (adjStage c n0 n1) s k i j = sg k i j := by
  intro k i j hp
  rw [adj_other b c n0 n1 s h0 h1 k i j hp.1 hp.2.1 (fun _ => hp.2.2 c)]
  exact hs k i j hp

theorem adjust_ghost {α : Type} (r : OnTile) (n0 n1 : Int) (sg s : SG α) (h0 : 6 < n0)
    (h1 : 6 < n1) (hs : adjustSin r 3 n0 n1 sg = some s) (c : Corner) (hc : c.on r = true) (k : Nat) (i j : Int)
    (hi : 0 ≤ i ∧ i < n0) (hj : 0 ≤ j ∧ j < n1) (hg : c.ghost 3 n0 n1 i j) :
    s k i j = adjValue c n0 n1 sg k i j (sg k i j) := by
  rw [adjustSin_stages] at hs
  have hs := Option.some.inj hs
  rw [← hs]
  have q0 : ∀ k i j, plain 3 n0 n1 i j → sg k i j = sg k i j := fun _ _ _ _ => rfl
  have q1 := adj_plain (Corner.on ⟨false, false⟩ r) ⟨false, false⟩ n0 n1 sg sg h0 h1 q0
  have q2 := adj_plain (Corner.on ⟨false, true⟩ r) ⟨false, true⟩ n0 n1 _ sg h0 h1 q1
  have q3 := adj_plain (Corner.on ⟨true, false⟩ r) ⟨true, false⟩ n0 n1 _ sg h0 h1 q2
  have ot : ∀ (c' : Corner) (s : SG α), c' ≠ c → onlyIf (c'.on r) (adjStage c' n0 n1) s k i j = s k i j :=
    fun c' s hne => adj_other _ c' n0 n1 s h0 h1 k i j hi hj
      (fun _ => ghost_one (h := 3) (by omega) (by omega) hg hne)
  rcases c with ⟨_ | _, _ | _⟩
  · rw [ot _ _ (by decide), ot _ _ (by decide), ot _ _ (by decide)]
    exact adj_this _ _ n0 n1 _ sg h0 h1 k i j hi hj hc hg q0 rfl
  · rw [ot _ _ (by decide), ot _ _ (by decide)]
    exact adj_this _ _ n0 n1 _ sg h0 h1 k i j hi hj hc hg q1 (ot _ _ (by decide))
  · rw [ot _ _ (by decide)]
    exact adj_this _ _ n0 n1 _ sg h0 h1 k i j hi hj hc hg q2 (by rw [ot _ _ (by decide), ot _ _ (by decide)])
  · exact adj_this _ _ n0 n1 _ sg h0 h1 k i j hi hj hc hg q3
      (by rw [ot _ _ (by decide), ot _ _ (by decide), ot _ _ (by decide)])

theorem adjust_rest {α : Type} (r : OnTile) (n0 n1 : Int) (sg s : SG α) (h0 : 6 < n0) (h1 : 6 < n1)
    (hs : adjustSin r 3 n0 n1 sg = some s) (k : Nat) (i j : Int) (hi : 0 ≤ i ∧ i < n0) (hj : 0 ≤ j ∧ j < n1)
    (hn : ∀ c : Corner, c.on r = true → ¬ c.ghost 3 n0 n1 i j) : s k i j = sg k i j := by
  rw [adjustSin_stages] at hs
  have hs := Option.some.inj hs
  rw [← hs]
  rw [adj_other _ _ n0 n1 _ h0 h1 k i j hi hj (hn _), adj_other _ _ n0 n1 _ h0 h1 k i j hi hj (hn _),
    adj_other _ _ n0 n1 _ h0 h1 k i j hi hj (hn _), adj_other _ _ n0 n1 _ h0 h1 k i j hi hj (hn _)]

/-- **C85** (sines at the sides of cells): with the usual halo of three cells, the sines used for the means
at the cell sides are adjusted before.  On the side of a ghost cell that faces a halo strip, each corner of
the tile except the north-west one gets the value of the side that really lies across; the north-west one
does on one of its two sides.  All other values stay. -/
theorem C85_first {α : Type} (r : OnTile) (n0 n1 : Int) (sg : SG α) (h0 : 6 < n0) (h1 : 6 < n1) :
    ∃ s, adjustSin r 3 n0 n1 sg = some s ∧
    ∀ (k : Nat) (i j : Int), 0 ≤ i → i < n0 → 0 ≤ j → j < n1 →
      (∀ c : Corner, c.on r = true → c.ghost 3 n0 n1 i j →
        (k = c.inX → c.x n0 i = 2 → s k i j = c.acrossX sg 3 n0 n1 j) ∧
        (k = c.inY → c.y n1 j = 2 → c ≠ ⟨false, true⟩ → s k i j = c.acrossY sg 3 n0 n1 i) ∧
        (¬ (k = c.inX ∧ c.x n0 i = 2) → ¬ (k = c.inY ∧ c.y n1 j = 2) → s k i j = sg k i j)) ∧
      ((∀ c : Corner, c.on r = true → ¬ c.ghost 3 n0 n1 i j) → s k i j = sg k i j) := by
  refine ⟨_, adjustSin_stages r n0 n1 sg, ?_⟩
  intro k i j i0 i1 j0 j1
  refine ⟨?_, fun hn => adjust_rest r n0 n1 sg _ h0 h1 (adjustSin_stages r n0 n1 sg) k i j ⟨i0, i1⟩ ⟨j0, j1⟩ hn⟩
  intro c hc hg
  rw [adjust_ghost r n0 n1 sg _ h0 h1 (adjustSin_stages r n0 n1 sg) c hc k i j ⟨i0, i1⟩ ⟨j0, j1⟩ hg]
  unfold adjValue
  refine ⟨fun a b => if_pos ⟨a, b⟩, fun a b d => ?_, fun a b => ?_⟩
  · rw [if_neg, if_pos ⟨a, b⟩, if_neg d]
    rintro ⟨a', _⟩
    rw [a] at a'
    rcases c with ⟨_ | _, _ | _⟩ <;> simp [Corner.inX, Corner.inY] at a'
  · rw [if_neg a, if_neg b]

/-- **C85** (false at the north-west corner): the other side there gets values of other cells.  A tile that
is its own mirror image about its middle row gets means of sines that are not: at the south-west corner the
mean is that of the two sides that meet, and at the north-west corner it is not. -/
theorem C85_northwest_violated :
    (∀ (r : OnTile) (n0 n1 : Int) (sg s : SG ℚ), 6 < n0 → 6 < n1 → r.left = true → r.top = true →
      adjustSin r 3 n0 n1 sg = some s → ∀ i, 0 ≤ i → i < 3 → s 1 i (n1 - 3) = sg 0 3 (n1 - 5 + i)) ∧
    (∃ sg s : SG ℚ, (∀ k i j, 0 ≤ j → j < 10 → mirrored 10 sg k i j = sg k i j) ∧
      adjustSin wholeTile 3 10 10 sg = some s ∧
      sinaV s 0 3 = 1 / 2 * (sg 1 0 3 + sg 0 3 0) ∧ sinaU s 3 0 = 1 / 2 * (sg 1 0 3 + sg 0 3 0) ∧ sinaV s 0 7 ≠ 1 / 2 * (sg 3 0 6 + sg 0 3 9) ∧
      sinaV s 0 7 ≠ sinaV s 0 3) := by
  constructor
  · intro r n0 n1 sg s h0 h1 hl ht hs i i0 i3
    have hg : Corner.ghost ⟨false, true⟩ 3 n0 n1 i (n1 - 3) := by
      simp [Corner.ghost, Corner.x, Corner.y]
      omega
    rw [adjust_ghost r n0 n1 sg s h0 h1 hs ⟨false, true⟩ (by simp [Corner.on, hl, ht]) 1 i (n1 - 3) (by omega) (by omega) hg]
    unfold adjValue
    rw [if_neg (by simp [Corner.inX]), if_pos, if_pos rfl]
    simp [Corner.inY, Corner.y]
  · refine ⟨fun k _ j => if k = 0 then (if 5 ≤ j then j else 9 - j) else 0, _, ?_, adjustSin_stages wholeTile 10 10 _, ?_, ?_, ?_, ?_⟩
    · intro k i j j0 j1
      have : ∀ x : Nat, mirrorPoint x = 0 ↔ x = 0 := by
        intro x
        unfold mirrorPoint
        split <;> simp
      unfold mirrored
      simp only [this]
      by_cases hk : k = 0
      · simp only [if_pos hk]
        by_cases h5 : 5 ≤ j
        · rw [if_neg (by omega), if_pos h5]
          push_cast
          ring
        · rw [if_pos (by omega), if_neg h5]
          push_cast
          ring
      · simp only [if_neg hk]
    · decide +kernel
    · decide +kernel
    · decide +kernel
    · decide +kernel

/-- **C85** (false for other halo sizes): a rank at the north-west corner of its tile fails. -/
theorem C85_halo_violated {α : Type} (r : OnTile) (h n0 n1 : Int) (sg : SG α) (hl : r.left = true)
    (ht : r.top = true) (hh : h ≠ 3) : adjustSin r h n0 n1 sg = none := by
  have hc : (r.left && r.top && h != 3) = true := by simp [hl, ht, hh]
  unfold adjustSin
  simp only [hc, if_true]

example : (Corner.mk true true).on wholeTile = true ∧ (Corner.mk true true).ghost 3 10 10 7 9 ∧
    ((adjustSin wholeTile 3 10 10 label).map (fun s => s 0 7 9)) = some (label 3 9 6) := by
  refine ⟨rfl, ?_, ?_⟩
  · unfold Corner.ghost Corner.x Corner.y
    decide
  · decide +kernel

end NDSL.Supergrid
