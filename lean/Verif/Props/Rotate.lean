import Verif.Lemmas.Rotate

/-
Property theorems C15 and C16: rotation of halo data.
-/
namespace NDSL
open NArr

/-! ## C15 -/

/-- C15: for arrays with one x and one y dimension in any position (or none at all), rotating `a`
times and then `b` times is rotating `a + b` times, for all integers `a`, `b`. -/
theorem C15_rotation_group {α : Type} (dims : List Dim)
    (h : HasXY dims ∨ ∀ d ∈ dims, d.isHorizontal = false)
    (m : NArr α) (hm : m.shape.length = dims.length) (a b : Int) :
    (rotateScalar dims b (rotateScalar dims a m)).Same (rotateScalar dims (a + b) m) := by
  rcases h with h | h
  · obtain ⟨x, y, hxy⟩ := h.at
    have e := rotate_rotate hxy a b m hm
    refine ⟨e.1, fun idx hi => e.2 idx ?_⟩
    rw [inShape_len hi, e.1, rotate_shape_len hxy _ m hm]
  · have e1 := rotate_none h a m hm
    have e2 := rotate_none h b (rotateScalar dims a m) (by rw [e1.1, hm])
    have e3 := rotate_none h (a + b) m hm
    refine ⟨by rw [e2.1, e1.1, e3.1], fun idx hi => ?_⟩
    have hl : idx.length = dims.length := by rw [inShape_len hi, e2.1, e1.1, hm]
    rw [e2.2 idx hl, e1.2 idx hl, e3.2 idx hl]

/-- C15: rotating by `a` and then by `-a` restores shape and data. -/
theorem C15_rotation_inverse {α : Type} (dims : List Dim)
    (h : HasXY dims ∨ ∀ d ∈ dims, d.isHorizontal = false)
    (m : NArr α) (hm : m.shape.length = dims.length) (a : Int) :
    (rotateScalar dims (-a) (rotateScalar dims a m)).Same m := by
  have := C15_rotation_group dims h m hm a (-a)
  rw [show a + -a = 0 by omega] at this
  exact this

/-- C15: `k` rotations turn the array clockwise by `k` quarter turns about its centre (x to the right,
y upwards) and leave all other axes alone: the value at `idx` comes from the index `src` which the
quarter turns carry to `idx`. -/
theorem C15_quarter_turns {α : Type} (dims : List Dim) (x y : Nat) (h : XYAt dims x y)
    (m : NArr α) (hm : m.shape.length = dims.length) (k : Int) (idx : List Int)
    (hi : InShape (rotateScalar dims k m).shape idx) :
    ∃ src, InShape m.shape src ∧ (rotateScalar dims k m).get idx = m.get src ∧
      (∀ p, p ≠ x → p ≠ y → ent src p = ent idx p) ∧
      (centred (ent (rotateScalar dims k m).shape x) (ent idx x),
       centred (ent (rotateScalar dims k m).shape y) (ent idx y)) =
        turnsCW k (centred (ent m.shape x) (ent src x), centred (ent m.shape y) (ent src y)) := by
  have hnf := rotate_nf h k m hm
  have hx : x < m.shape.length := hm ▸ h.lx
  have hy : y < m.shape.length := hm ▸ h.ly
  rw [hnf.1] at hi
  have hil : idx.length = dims.length := by rw [inShape_len hi, put_len, hm]
  have hpk := inShape_pick h.ne hx hy hi
  have hr := rmap_range (k := k) (W := ent m.shape x) (H := ent m.shape y) (v := pick idx x y)
    hpk.1 hpk.2
  refine ⟨_, inShape_put h.ne hx hy _ _ hi hr.1 hr.2, hnf.2 idx hil, ?_, ?_⟩
  · intro p h1 h2; exact put_get h1 h2 _
  · have hpp := pick_put (hil ▸ h.lx : x < idx.length) (hil ▸ h.ly : y < idx.length) h.ne
      (rmap k (ent m.shape x) (ent m.shape y) (pick idx x y))
    have e1 := congrArg Prod.fst hpp
    have e2 := congrArg Prod.snd hpp
    have hps := pick_put hx hy h.ne (rdim k (pick m.shape x y))
    have s1 := congrArg Prod.fst hps
    have s2 := congrArg Prod.snd hps
    simp only [pick] at e1 e2 s1 s2 ⊢
    rw [hnf.1]
    simp only [pick]
    rw [e1, e2, s1, s2]
    unfold rmap rdim turnsCW turnCW centred
    have hk : k % 4 = 0 ∨ k % 4 = 1 ∨ k % 4 = 2 ∨ k % 4 = 3 := by omega
    rcases hk with hk | hk | hk | hk
    · have h2 : k % 2 = 0 := by omega
      simp [hk, h2]
    · have h2 : k % 2 = 1 := by omega
      simp [hk, h2]; omega
    · have h2 : k % 2 = 0 := by omega
      simp [hk, h2]; omega
    · have h2 : k % 2 = 1 := by omega
      simp [hk, h2]; omega

/-- a 2 × 3 array (x, y) holding `10*x + y` -/
def exArr : NArr Int := ⟨[2, 3], fun idx => 10 * ent idx 0 + ent idx 1⟩

example : HasXY [Dim.i, Dim.j] ∧ XYAt [Dim.i, Dim.j] 0 1 ∧
    exArr.flatten = [0, 1, 2, 10, 11, 12] ∧
    (rotateScalar [.i, .j] 1 exArr).flatten = [10, 0, 11, 1, 12, 2] ∧
    (rotateScalar [.i, .j] (-1) (rotateScalar [.i, .j] 1 exArr)).flatten = exArr.flatten := by
  refine ⟨⟨by decide, by decide⟩, ⟨?_, ?_, by decide, by decide⟩, by decide, by decide, by decide⟩
  · intro p hp; match p, hp with
    | 0, _ => simp [Dim.isI]
    | 1, _ => simp [Dim.isI]
  · intro p hp; match p, hp with
    | 0, _ => simp [Dim.isJ]
    | 1, _ => simp [Dim.isJ]

/-- C15 fails for data with only one horizontal dimension (as used for shared interface edges):
two quarter turns are not a half turn. -/
theorem C15_single_dim_violated :
    ∃ m : NArr Int, m.shape.length = 1 ∧
      ¬ (rotateScalar [.i] 1 (rotateScalar [.i] 1 m)).Same (rotateScalar [.i] 2 m) := by
  refine ⟨⟨[2], fun idx => ent idx 0⟩, rfl, ?_⟩
  rintro ⟨_, h⟩
  have := h [0] (by unfold InShape; exact .cons (by decide) .nil)
  revert this; decide

/-! ## C16 -/

/-- C16: at every index, the rotated component pair is the pair of rotated components, turned by the
same number of quarter turns. -/
theorem C16_components_turn {α : Type} [Neg α] (dims : List Dim) (k : Int) (u v : NArr α)
    (idx : List Int) :
    ((rotateVector dims k u v).1.get idx, (rotateVector dims k u v).2.get idx) =
      turnV k ((rotateScalar dims k u).get idx, (rotateScalar dims k v).get idx) := by
  unfold rotateVector turnV
  have hk : k % 4 = 0 ∨ k % 4 = 1 ∨ k % 4 = 2 ∨ k % 4 = 3 := by omega
  rcases hk with hk | hk | hk | hk <;> simp [hk, NArr.map]

/-- C16, shapes: for odd `k` the components exchange their (rotated) shapes, as staggered components
must. -/
theorem C16_shapes {α : Type} [Neg α] (dims : List Dim) (k : Int) (u v : NArr α) :
    ((rotateVector dims k u v).1.shape, (rotateVector dims k u v).2.shape) =
      if k % 2 = 0 then ((rotateScalar dims k u).shape, (rotateScalar dims k v).shape)
      else ((rotateScalar dims k v).shape, (rotateScalar dims k u).shape) := by
  unfold rotateVector
  have hk : k % 4 = 0 ∨ k % 4 = 1 ∨ k % 4 = 2 ∨ k % 4 = 3 := by omega
  rcases hk with hk | hk | hk | hk
  · rw [if_pos (by omega : k % 2 = 0)]; simp [hk]
  · rw [if_neg (by omega : ¬ k % 2 = 0)]; simp [hk, NArr.map]
  · rw [if_pos (by omega : k % 2 = 0)]; simp [hk, NArr.map]
  · rw [if_neg (by omega : ¬ k % 2 = 0)]; simp [hk, NArr.map]

theorem rotate_map {α β : Type} (f : α → β) (dims : List Dim) (k : Int) (m : NArr α) :
    rotateScalar dims k (m.map f) = (rotateScalar dims k m).map f := by
  unfold rotateScalar
  simp only
  split
  · rfl
  · split
    · rfl
    · split <;> first | rfl | (split <;> rfl)

/-- C16: rotating a vector field by `a` and then by `-a` restores both components. -/
theorem C16_vector_inverse {α : Type} [Neg α] (hneg : ∀ c : α, - -c = c) (dims : List Dim)
    (h : HasXY dims) (u v : NArr α) (hu : u.shape.length = dims.length)
    (hv : v.shape.length = dims.length) (a : Int) :
    let r := rotateVector dims a u v
    let s := rotateVector dims (-a) r.1 r.2
    s.1.Same u ∧ s.2.Same v := by
  intro r s
  have iu := C15_rotation_inverse dims (.inl h) u hu a
  have iv := C15_rotation_inverse dims (.inl h) v hv a
  have ha : a % 4 = 0 ∨ a % 4 = 1 ∨ a % 4 = 2 ∨ a % 4 = 3 := by omega
  rcases ha with ha | ha | ha | ha
  · have hb : (-a) % 4 = 0 := by omega
    have e : s = (rotateScalar dims (-a) (rotateScalar dims a u),
        rotateScalar dims (-a) (rotateScalar dims a v)) := by simp [s, r, rotateVector, ha, hb]
    rw [e]; exact ⟨iu, iv⟩
  · have hb : (-a) % 4 = 3 := by omega
    have e : s = ((rotateScalar dims (-a) ((rotateScalar dims a u).map (- ·))).map (- ·),
        rotateScalar dims (-a) (rotateScalar dims a v)) := by simp [s, r, rotateVector, ha, hb]
    rw [e, rotate_map]
    refine ⟨⟨iu.1, fun idx hi => ?_⟩, iv⟩
    simp only [NArr.map, hneg]
    exact iu.2 idx hi
  · have hb : (-a) % 4 = 2 := by omega
    have e : s = ((rotateScalar dims (-a) ((rotateScalar dims a u).map (- ·))).map (- ·),
        (rotateScalar dims (-a) ((rotateScalar dims a v).map (- ·))).map (- ·)) := by
      simp [s, r, rotateVector, ha, hb]
    rw [e, rotate_map, rotate_map]
    refine ⟨⟨iu.1, fun idx hi => ?_⟩, ⟨iv.1, fun idx hi => ?_⟩⟩
    · simp only [NArr.map, hneg]; exact iu.2 idx hi
    · simp only [NArr.map, hneg]; exact iv.2 idx hi
  · have hb : (-a) % 4 = 1 := by omega
    have e : s = (rotateScalar dims (-a) (rotateScalar dims a u),
        (rotateScalar dims (-a) ((rotateScalar dims a v).map (- ·))).map (- ·)) := by
      simp [s, r, rotateVector, ha, hb]
    rw [e, rotate_map]
    refine ⟨iu, ⟨iv.1, fun idx hi => ?_⟩⟩
    simp only [NArr.map, hneg]
    exact iv.2 idx hi

example : HasXY [Dim.k, Dim.j, Dim.iInterface] ∧ (∀ c : Int, - -c = c) ∧
    (rotateVector [.i, .j] 1 exArr exArr).2.flatten = [-10, 0, -11, -1, -12, -2] := by
  refine ⟨⟨by decide, by decide⟩, fun c => by omega, by decide⟩

end NDSL
