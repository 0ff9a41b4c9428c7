import Verif.Spec.NDArray

/-! Normal form of the rotations. -/
namespace NDSL
open NArr

/-- `idx` with entries `x`, `y` replaced -/
def put (idx : List Int) (x y : Nat) (v : Int × Int) : List Int := (idx.set x v.1).set y v.2

/-- entries `x`, `y` of `idx` -/
def pick (idx : List Int) (x y : Nat) : Int × Int := (ent idx x, ent idx y)

theorem put_len (idx x y v) : (put idx x y v).length = idx.length := by simp [put]

theorem pick_put {idx : List Int} {x y : Nat} (hx : x < idx.length) (hy : y < idx.length)
    (hne : x ≠ y) (v : Int × Int) : pick (put idx x y v) x y = v := by
  obtain ⟨a, b⟩ := v
  simp [pick, put, ent, List.getD_eq_getElem?_getD, hx, hy, Ne.symm hne]

theorem put_put {idx : List Int} {x y : Nat} (v w : Int × Int) :
    put (put idx x y v) x y w = put idx x y w := by
  unfold put
  apply List.ext_getElem?
  intro p
  simp only [List.getElem?_set, List.length_set]
  split <;> split <;> simp_all

theorem put_pick {idx : List Int} {x y : Nat} (hx : x < idx.length) (hy : y < idx.length) :
    put idx x y (pick idx x y) = idx := by
  unfold put pick ent
  apply List.ext_getElem?
  intro p
  simp only [List.getElem?_set, List.length_set, List.getD_eq_getElem?_getD]
  split
  · next h => subst h; simp [hy]
  · split
    · next h => subst h; simp [hx]
    · rfl

theorem put_get {idx : List Int} {x y p : Nat} (hx : p ≠ x) (hy : p ≠ y) (v : Int × Int) :
    ent (put idx x y v) p = ent idx p := by
  simp [put, ent, List.getD_eq_getElem?_getD, Ne.symm hx, Ne.symm hy]

/-- index map of `k` clockwise quarter turns of a `W × H` region: position in the source of the
element at position `v` of the result -/
def rmap (k W H : Int) (v : Int × Int) : Int × Int :=
  if k % 4 = 0 then v
  else if k % 4 = 1 then (W - 1 - v.2, v.1)
  else if k % 4 = 2 then (W - 1 - v.1, H - 1 - v.2)
  else (v.2, H - 1 - v.1)

/-- extents after `k` quarter turns -/
def rdim (k : Int) (v : Int × Int) : Int × Int := if k % 2 = 0 then v else (v.2, v.1)

theorem rmap_rmap (a b W H : Int) (v : Int × Int) :
    rmap a W H (rmap b (rdim a (W, H)).1 (rdim a (W, H)).2 v) = rmap (a + b) W H v := by
  have ha : a % 4 = 0 ∨ a % 4 = 1 ∨ a % 4 = 2 ∨ a % 4 = 3 := by omega
  have hb : b % 4 = 0 ∨ b % 4 = 1 ∨ b % 4 = 2 ∨ b % 4 = 3 := by omega
  obtain ⟨p, q⟩ := v
  rcases ha with ha | ha | ha | ha <;> rcases hb with hb | hb | hb | hb <;>
    first
    | (have hab : (a + b) % 4 = 0 := by omega
       have h2 : a % 2 = 0 := by omega
       simp [rmap, rdim, ha, hb, hab, h2]; done)
    | (have hab : (a + b) % 4 = 0 := by omega
       have h2 : a % 2 = 1 := by omega
       simp [rmap, rdim, ha, hb, hab, h2] ; omega)
    | (have hab : (a + b) % 4 = 0 := by omega
       have h2 : a % 2 = 0 := by omega
       simp [rmap, rdim, ha, hb, hab, h2] ; omega)
    | (have hab : (a + b) % 4 = 1 := by omega
       have h2 : a % 2 = 1 := by omega
       simp [rmap, rdim, ha, hb, hab, h2]; try omega)
    | (have hab : (a + b) % 4 = 1 := by omega
       have h2 : a % 2 = 0 := by omega
       simp [rmap, rdim, ha, hb, hab, h2]; try omega)
    | (have hab : (a + b) % 4 = 2 := by omega
       have h2 : a % 2 = 1 := by omega
       simp [rmap, rdim, ha, hb, hab, h2]; try omega)
    | (have hab : (a + b) % 4 = 2 := by omega
       have h2 : a % 2 = 0 := by omega
       simp [rmap, rdim, ha, hb, hab, h2]; try omega)
    | (have hab : (a + b) % 4 = 3 := by omega
       have h2 : a % 2 = 1 := by omega
       simp [rmap, rdim, ha, hb, hab, h2]; try omega)
    | (have hab : (a + b) % 4 = 3 := by omega
       have h2 : a % 2 = 0 := by omega
       simp [rmap, rdim, ha, hb, hab, h2]; try omega)

theorem rdim_rdim (a b : Int) (v : Int × Int) : rdim b (rdim a v) = rdim (a + b) v := by
  unfold rdim
  split <;> split <;> split <;> first | rfl | omega

/-- positions of the horizontal dims found by the loop -/
theorem lastPos_spec (p : Dim → Bool) : ∀ (ds : List Dim) (k : Nat) (acc : Option Nat),
    (∀ d ∈ ds, p d = false) → lastPos p ds k acc = acc
  | [], _, _, _ => rfl
  | d :: ds, k, acc, h => by
    unfold lastPos
    rw [lastPos_spec p ds _ _ (fun e he => h e (List.mem_cons_of_mem _ he)),
      h d List.mem_cons_self]
    rfl

theorem lastPos_at (p : Dim → Bool) : ∀ (ds : List Dim) (k : Nat) (acc : Option Nat) (x : Nat)
    (_ : x < ds.length) (_ : ∀ q (h : q < ds.length), p ds[q] = true ↔ q = x),
    lastPos p ds k acc = some (k + x)
  | [], _, _, _, hx, _ => by simp at hx
  | d :: ds, k, acc, 0, _, h => by
    unfold lastPos
    have h0 : p d = true := (h 0 (by simp)).2 rfl
    rw [h0]
    apply lastPos_spec
    intro e he
    obtain ⟨q, hq, rfl⟩ := List.getElem_of_mem he
    have := h (q + 1) (by simpa using hq)
    simp only [List.getElem_cons_succ] at this
    cases hp : p ds[q] with
    | false => rfl
    | true => have := this.1 hp; omega
  | d :: ds, k, acc, x + 1, hx, h => by
    unfold lastPos
    rw [lastPos_at p ds (k + 1) _ x (by simpa using hx)]
    · congr 1; omega
    · intro q hq
      have := h (q + 1) (by simpa using hq)
      simp only [List.getElem_cons_succ] at this
      rw [this]; omega

theorem isI_not_isJ (d : Dim) (h : d.isI = true) : d.isJ = false := by
  cases d <;> first | rfl | cases h

theorem XYAt.ne {dims x y} (h : XYAt dims x y) : x ≠ y := by
  rintro rfl
  have h1 := (h.hx x h.lx).2 rfl
  have h2 := (h.hy x h.lx).2 rfl
  rw [isI_not_isJ _ h1] at h2; cases h2

theorem XYAt.xDim {dims x y} (h : XYAt dims x y) : xDim dims = some x := by
  have := lastPos_at Dim.isI dims 0 none x h.lx h.hx
  simpa [NDSL.xDim] using this

theorem XYAt.yDim {dims x y} (h : XYAt dims x y) : yDim dims = some y := by
  have := lastPos_at (fun d => !d.isI && d.isJ) dims 0 none y h.ly (by
    intro q hq
    rw [← h.hy q hq]
    cases hI : dims[q].isI with
    | true => simp [isI_not_isJ _ hI]
    | false => simp)
  simpa [NDSL.yDim] using this

theorem one_pos {p : Dim → Bool} : ∀ {ds : List Dim}, (ds.filter p).length = 1 →
    ∃ x, x < ds.length ∧ ∀ q (h : q < ds.length), p ds[q] = true ↔ q = x
  | [], h => by simp at h
  | d :: ds, h => by
    rw [List.filter_cons] at h
    split at h
    · next hd =>
      simp only [List.length_cons, Nat.add_eq_right, List.length_eq_zero_iff,
        List.filter_eq_nil_iff, Bool.not_eq_true] at h
      refine ⟨0, by simp, fun q hq => ?_⟩
      cases q with
      | zero => simpa using hd
      | succ q =>
        simp only [List.getElem_cons_succ, Nat.add_eq_zero_iff, Nat.one_ne_zero, and_false,
          iff_false, Bool.not_eq_true]
        exact h _ (List.getElem_mem _)
    · next hd =>
      obtain ⟨x, hx, hq⟩ := one_pos h
      refine ⟨x + 1, by simpa using hx, fun q hq' => ?_⟩
      cases q with
      | zero => simpa using hd
      | succ q =>
        simp only [List.getElem_cons_succ]
        rw [hq q (by simpa using hq')]; omega

theorem HasXY.at {dims} (h : HasXY dims) : ∃ x y, XYAt dims x y := by
  obtain ⟨x, lx, hx⟩ := one_pos h.oneI
  obtain ⟨y, ly, hy⟩ := one_pos h.oneJ
  exact ⟨x, y, hx, hy, lx, ly⟩

theorem swapEnt_put {l : List Int} {x y : Nat} (hne : x ≠ y) :
    swapEnt l x y = put l x y (ent l y, ent l x) ∧
    swapEnt l y x = put l x y (ent l y, ent l x) := by
  refine ⟨rfl, ?_⟩
  unfold swapEnt put
  rw [List.set_comm _ _ (Ne.symm hne)]

/-- normal form of a rotation -/
theorem rotate_nf {α : Type} {dims : List Dim} {x y : Nat} (h : XYAt dims x y) (k : Int)
    (m : NArr α) (hm : m.shape.length = dims.length) :
    (rotateScalar dims k m).shape = put m.shape x y (rdim k (pick m.shape x y)) ∧
    ∀ idx : List Int, idx.length = dims.length →
      (rotateScalar dims k m).get idx =
        m.get (put idx x y (rmap k (ent m.shape x) (ent m.shape y) (pick idx x y))) := by
  have hk : k % 4 = 0 ∨ k % 4 = 1 ∨ k % 4 = 2 ∨ k % 4 = 3 := by omega
  have hne := h.ne
  have lx := h.lx
  have ly := h.ly
  rcases hk with hk | hk | hk | hk
  · have h2 : k % 2 = 0 := by omega
    constructor
    · simp only [rotateScalar, hk, if_true, rdim, h2]
      rw [put_pick (hm ▸ lx) (hm ▸ ly)]
    · intro idx hi
      simp only [rotateScalar, hk, if_true, rmap]
      rw [put_pick (hi ▸ lx) (hi ▸ ly)]
  · have h2 : k % 2 ≠ 0 := by omega
    have e0 : rotateScalar dims k m = m.rot90 y x := by simp [rotateScalar, hk, h.xDim, h.yDim]
    have e1 : ∀ W H v, rmap k W H v = (W - 1 - v.2, v.1) := by intros; simp [rmap, hk]
    rw [e0]
    constructor
    · simp only [rdim, if_neg h2]
      simp only [rot90, swapAxes, NArr.flip, (swapEnt_put hne).2]
      rfl
    · intro idx hi
      rw [e1]
      simp only [rot90, swapAxes, NArr.flip, (swapEnt_put hne).2]
      have e : ent (put idx x y (ent idx y, ent idx x)) x = ent idx y :=
        congrArg Prod.fst (pick_put (hi ▸ lx) (hi ▸ ly) hne (ent idx y, ent idx x))
      rw [e]
      show m.get _ = m.get _
      congr 1
      unfold put pick
      apply List.ext_getElem?
      intro p
      simp only [List.getElem?_set, List.length_set]
      split <;> split <;> simp_all
      intro hh; exact absurd hh.symm hne
  · have h2 : k % 2 = 0 := by omega
    have e0 : rotateScalar dims k m = flipHorizontal dims m := by simp [rotateScalar, hk]
    have e1 : ∀ W H v, rmap k W H v = (W - 1 - v.1, H - 1 - v.2) := by intros; simp [rmap, hk]
    rw [e0]
    constructor
    · simp only [rdim, h2, if_true]
      rw [put_pick (hm ▸ lx) (hm ▸ ly)]
      rfl
    · intro idx hi
      rw [e1]
      show m.get _ = m.get _
      congr 1
      apply List.ext_getElem
      · simp [put, hm, hi]
      · intro p hp1 hp2
        have hpd : p < dims.length := by
          simp [hm, hi] at hp1; exact hp1
        simp only [List.getElem_map, List.getElem_zip]
        simp only [put, pick, ent, List.getElem_set]
        have e1 := h.hx p hpd
        have e2 := h.hy p hpd
        have e3 : m.shape[p]'(hm ▸ hpd) = m.shape.getD p 0 := by
          rw [List.getD_eq_getElem?_getD, List.getElem?_eq_getElem (hm ▸ hpd)]; rfl
        have e4 : idx[p]'(hi ▸ hpd) = idx.getD p 0 := by
          rw [List.getD_eq_getElem?_getD, List.getElem?_eq_getElem (hi ▸ hpd)]; rfl
        by_cases q1 : y = p
        · subst q1
          rw [if_pos (by simp [Dim.isHorizontal, e2.2 rfl]), if_pos rfl, e3, e4]
        · by_cases q2 : x = p
          · subst q2
            rw [if_pos (by simp [Dim.isHorizontal, e1.2 rfl]), if_neg q1, if_pos rfl, e3, e4]
          · have f1 : dims[p].isI = false := by
              cases hh : dims[p].isI with
              | false => rfl
              | true => exact absurd (e1.1 hh).symm q2
            have f2 : dims[p].isJ = false := by
              cases hh : dims[p].isJ with
              | false => rfl
              | true => exact absurd (e2.1 hh).symm q1
            rw [if_neg (by simp [Dim.isHorizontal, f1, f2]), if_neg q1, if_neg q2]
  · have h2 : k % 2 ≠ 0 := by omega
    have e0 : rotateScalar dims k m = m.rot90 x y := by simp [rotateScalar, hk, h.xDim, h.yDim]
    have e1 : ∀ W H v, rmap k W H v = (v.2, H - 1 - v.1) := by intros; simp [rmap, hk]
    rw [e0]
    constructor
    · simp only [rdim, if_neg h2]
      simp only [rot90, swapAxes, NArr.flip, (swapEnt_put hne).1]
      rfl
    · intro idx hi
      rw [e1]
      simp only [rot90, swapAxes, NArr.flip, (swapEnt_put hne).1]
      have e : ent (put idx x y (ent idx y, ent idx x)) y = ent idx x :=
        congrArg Prod.snd (pick_put (hi ▸ lx) (hi ▸ ly) hne (ent idx y, ent idx x))
      rw [e]
      show m.get _ = m.get _
      congr 1
      unfold put pick
      apply List.ext_getElem?
      intro p
      simp only [List.getElem?_set, List.length_set]
      split <;> split <;> simp_all

theorem inShape_len {s idx : List Int} (h : InShape s idx) : idx.length = s.length :=
  (List.Forall₂.length_eq h).symm

end NDSL

namespace NDSL
open NArr

theorem inShape_iff : ∀ {s idx : List Int}, InShape s idx ↔
    idx.length = s.length ∧ ∀ p, p < s.length → 0 ≤ ent idx p ∧ ent idx p < ent s p
  | [], [] => by simp [InShape]
  | [], _ :: _ => by simp [InShape]
  | _ :: _, [] => by simp [InShape]
  | n :: s, i :: idx => by
    unfold InShape
    rw [List.forall₂_cons]
    have ih := inShape_iff (s := s) (idx := idx)
    unfold InShape at ih
    rw [ih]
    constructor
    · rintro ⟨h0, hl, h⟩
      refine ⟨by simp [hl], fun p hp => ?_⟩
      cases p with
      | zero => simpa using h0
      | succ p => simpa using h p (by simpa using hp)
    · rintro ⟨hl, h⟩
      refine ⟨by simpa using h 0 (by simp), by simpa using hl, fun p hp => ?_⟩
      simpa using h (p + 1) (by simpa using hp)

theorem inShape_put {s idx : List Int} {x y : Nat} (hxy : x ≠ y) (hx : x < s.length)
    (hy : y < s.length) (w v : Int × Int) :
    InShape (put s x y w) idx → 0 ≤ v.1 ∧ v.1 < ent s x → 0 ≤ v.2 ∧ v.2 < ent s y →
      InShape s (put idx x y v) := by
  intro h h1 h2
  rw [inShape_iff] at h ⊢
  rw [put_len] at h
  refine ⟨by rw [put_len]; exact h.1, fun p hp => ?_⟩
  have hpp := pick_put (h.1 ▸ hx) (h.1 ▸ hy) hxy v
  have e1 : ent (put idx x y v) x = v.1 := congrArg Prod.fst hpp
  have e2 : ent (put idx x y v) y = v.2 := congrArg Prod.snd hpp
  by_cases q1 : p = x
  · subst q1; rw [e1]; exact h1
  · by_cases q2 : p = y
    · subst q2; rw [e2]; exact h2
    · rw [put_get q1 q2]
      have := h.2 p hp
      rwa [put_get q1 q2] at this

theorem inShape_pick {s idx : List Int} {x y : Nat} (hxy : x ≠ y) (hx : x < s.length)
    (hy : y < s.length) {w : Int × Int} (h : InShape (put s x y w) idx) :
    (0 ≤ ent idx x ∧ ent idx x < w.1) ∧ 0 ≤ ent idx y ∧ ent idx y < w.2 := by
  rw [inShape_iff, put_len] at h
  have hpp := pick_put hx hy hxy w
  have e1 : ent (put s x y w) x = w.1 := congrArg Prod.fst hpp
  have e2 : ent (put s x y w) y = w.2 := congrArg Prod.snd hpp
  have h1 := h.2 x hx
  have h2 := h.2 y hy
  rw [e1] at h1
  rw [e2] at h2
  exact ⟨h1, h2⟩

theorem rmap_range {k W H : Int} {v : Int × Int} (h1 : 0 ≤ v.1 ∧ v.1 < (rdim k (W, H)).1)
    (h2 : 0 ≤ v.2 ∧ v.2 < (rdim k (W, H)).2) :
    (0 ≤ (rmap k W H v).1 ∧ (rmap k W H v).1 < W) ∧
    (0 ≤ (rmap k W H v).2 ∧ (rmap k W H v).2 < H) := by
  unfold rmap
  unfold rdim at h1 h2
  have hk : k % 4 = 0 ∨ k % 4 = 1 ∨ k % 4 = 2 ∨ k % 4 = 3 := by omega
  rcases hk with hk | hk | hk | hk
  · rw [if_pos (by omega : k % 2 = 0)] at h1 h2
    simp only [hk, if_true]; exact ⟨h1, h2⟩
  · rw [if_neg (by omega : ¬ k % 2 = 0)] at h1 h2
    simp only [hk]; simp; simp at h1 h2; omega
  · rw [if_pos (by omega : k % 2 = 0)] at h1 h2
    simp only [hk]; simp; simp at h1 h2; omega
  · rw [if_neg (by omega : ¬ k % 2 = 0)] at h1 h2
    simp only [hk]; simp; simp at h1 h2; omega

theorem rotate_shape_len {α : Type} {dims : List Dim} {x y : Nat} (h : XYAt dims x y) (k : Int)
    (m : NArr α) (hm : m.shape.length = dims.length) :
    (rotateScalar dims k m).shape.length = dims.length := by
  rw [(rotate_nf h k m hm).1, put_len, hm]

theorem rotate_rotate {α : Type} {dims : List Dim} {x y : Nat} (h : XYAt dims x y) (a b : Int)
    (m : NArr α) (hm : m.shape.length = dims.length) :
    (rotateScalar dims b (rotateScalar dims a m)).shape = (rotateScalar dims (a + b) m).shape ∧
    ∀ idx : List Int, idx.length = dims.length →
      (rotateScalar dims b (rotateScalar dims a m)).get idx =
        (rotateScalar dims (a + b) m).get idx := by
  have h1 := rotate_nf h a m hm
  have h2 := rotate_nf h b (rotateScalar dims a m) (rotate_shape_len h a m hm)
  have h3 := rotate_nf h (a + b) m hm
  have hx : x < m.shape.length := hm ▸ h.lx
  have hy : y < m.shape.length := hm ▸ h.ly
  have hp : pick (rotateScalar dims a m).shape x y = rdim a (pick m.shape x y) := by
    rw [h1.1, pick_put hx hy h.ne]
  constructor
  · rw [h2.1, h3.1, hp, h1.1, put_put, rdim_rdim]
  · intro idx hi
    have hix : x < idx.length := hi ▸ h.lx
    have hiy : y < idx.length := hi ▸ h.ly
    rw [h2.2 idx hi, h3.2 idx hi, h1.2 _ (by rw [put_len, hi]), put_put, pick_put hix hiy h.ne]
    have e1 : ent (rotateScalar dims a m).shape x = (rdim a (ent m.shape x, ent m.shape y)).1 :=
      congrArg Prod.fst hp
    have e2 : ent (rotateScalar dims a m).shape y = (rdim a (ent m.shape x, ent m.shape y)).2 :=
      congrArg Prod.snd hp
    rw [e1, e2, rmap_rmap]

/-- without horizontal dims a rotation does nothing -/
theorem rotate_none {α : Type} {dims : List Dim} (h : ∀ d ∈ dims, d.isHorizontal = false) (k : Int)
    (m : NArr α) (hm : m.shape.length = dims.length) :
    (rotateScalar dims k m).shape = m.shape ∧
    ∀ idx : List Int, idx.length = dims.length → (rotateScalar dims k m).get idx = m.get idx := by
  have hI : ∀ d ∈ dims, d.isI = false := by
    intro d hd; have := h d hd; unfold Dim.isHorizontal at this; grind
  have hJ : ∀ d ∈ dims, d.isJ = false := by
    intro d hd; have := h d hd; unfold Dim.isHorizontal at this; grind
  have ex : xDim dims = none := lastPos_spec _ _ _ _ hI
  have ey : yDim dims = none := lastPos_spec _ _ _ _ (by intro d hd; simp [hJ d hd])
  unfold rotateScalar
  simp only [ex, ey]
  split
  · exact ⟨rfl, fun _ _ => rfl⟩
  · split
    · refine ⟨rfl, fun idx hi => ?_⟩
      show m.get _ = m.get _
      congr 1
      apply List.ext_getElem
      · simp [hm, hi]
      · intro p hp1 hp2
        have hpd : p < dims.length := by simp [hm, hi] at hp1; exact hp1
        simp only [List.getElem_map, List.getElem_zip]
        rw [if_neg (by simp [h _ (List.getElem_mem hpd)])]
    · exact ⟨rfl, fun _ _ => rfl⟩

end NDSL
