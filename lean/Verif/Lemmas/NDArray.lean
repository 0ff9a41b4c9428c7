import Verif.Lemmas.Rotate
import Verif.Model.Transformer
import Mathlib.Tactic.Ring

/-! Row-major flattening, sizes. -/
namespace NDSL
open NArr

/-- all entries nonnegative -/
def NonNeg (s : List Int) : Prop := ∀ n ∈ s, 0 ≤ n

theorem size_nonneg {s : List Int} (h : NonNeg s) : 0 ≤ size s := by
  induction s with
  | nil => simp [size]
  | cons n s ih =>
    unfold size
    exact Int.mul_nonneg (h n List.mem_cons_self) (ih fun m hm => h m (List.mem_cons_of_mem _ hm))

theorem indices_length {s : List Int} (h : NonNeg s) : (indices s).length = (size s).toNat := by
  induction s with
  | nil => rfl
  | cons n s ih =>
    have hs : NonNeg s := fun m hm => h m (List.mem_cons_of_mem _ hm)
    have hn : 0 ≤ n := h n List.mem_cons_self
    unfold indices size
    rw [List.length_flatMap]
    simp only [List.length_map, ih hs]
    rw [Int.toNat_mul hn (size_nonneg hs)]
    simp

theorem flatten_length {α : Type} {m : NArr α} (h : NonNeg m.shape) :
    m.flatten.length = (size m.shape).toNat := by
  unfold flatten; rw [List.length_map, indices_length h]

theorem flatMap_range_get {β : Type} (f : Nat → List β) (L : Nat) (hL : ∀ i, (f i).length = L) :
    ∀ (n i j : Nat), i < n → j < L →
      ((List.range n).flatMap f)[i * L + j]? = (f i)[j]? := by
  intro n
  induction n with
  | zero => intro i j h; omega
  | succ n ih =>
    intro i j hi hj
    rw [List.range_succ, List.flatMap_append]
    have hlen : ((List.range n).flatMap f).length = n * L := by
      rw [List.length_flatMap]; simp [hL]
    by_cases hin : i < n
    · have h1 : i * L + j < n * L := by
        have : (i + 1) * L ≤ n * L := Nat.mul_le_mul_right _ hin
        rw [Nat.add_mul] at this; omega
      rw [List.getElem?_append_left (by rw [hlen]; exact h1), ih i j hin hj]
    · have : i = n := by omega
      subst this
      rw [List.getElem?_append_right (by rw [hlen]; omega), hlen]
      simp

theorem flatIndex_range : ∀ {s idx : List Int}, InShape s idx →
    0 ≤ flatIndex s idx ∧ flatIndex s idx < size s
  | [], [], _ => by simp [flatIndex, size]
  | n :: s, i :: idx, h => by
    unfold InShape at h
    rw [List.forall₂_cons] at h
    have ih := flatIndex_range (s := s) (idx := idx) h.2
    obtain ⟨⟨h0, h1⟩, _⟩ := h
    show 0 ≤ i * size s + flatIndex s idx ∧ i * size s + flatIndex s idx < n * size s
    have hs : 0 ≤ size s := by omega
    constructor
    · have := Int.mul_nonneg h0 hs; omega
    · have : (i + 1) * size s ≤ n * size s := Int.mul_le_mul_of_nonneg_right (by omega) hs
      rw [Int.add_mul] at this; omega
  | [], _ :: _, h => by cases h
  | _ :: _, [], h => by cases h

theorem inShape_nonneg {s idx : List Int} (h : InShape s idx) : NonNeg s := by
  induction h with
  | nil => intro n hn; cases hn
  | cons h _ ih =>
    intro n hn
    rcases List.mem_cons.1 hn with rfl | hn
    · omega
    · exact ih n hn

theorem indices_get : ∀ {s idx : List Int}, InShape s idx →
    (indices s)[(flatIndex s idx).toNat]? = some idx
  | [], [], _ => by simp [flatIndex, indices]
  | n :: s, i :: idx, h => by
    have hnn := inShape_nonneg h
    have hns : NonNeg s := fun m hm => hnn m (List.mem_cons_of_mem _ hm)
    unfold InShape at h
    rw [List.forall₂_cons] at h
    obtain ⟨⟨h0, h1⟩, h2⟩ := h
    have ih := indices_get (s := s) (idx := idx) h2
    have hr := flatIndex_range (s := s) (idx := idx) h2
    have hs0 : 0 ≤ size s := by omega
    unfold flatIndex indices
    have e : (i * size s + flatIndex s idx).toNat =
        i.toNat * (size s).toNat + (flatIndex s idx).toNat := by
      rw [Int.toNat_add (Int.mul_nonneg h0 hs0) hr.1, Int.toNat_mul h0 hs0]
    rw [e, flatMap_range_get _ (size s).toNat (fun k => by rw [List.length_map, indices_length hns])
      _ _ _ (by omega) (by omega), List.getElem?_map, ih]
    simp only [Option.map_some, Option.some.injEq, List.cons.injEq, and_true]
    omega
  | [], _ :: _, h => by cases h
  | _ :: _, [], h => by cases h

theorem indices_mem {s idx : List Int} (h : NonNeg s) : idx ∈ indices s ↔ InShape s idx := by
  constructor
  · intro hm
    induction s generalizing idx with
    | nil => simp [indices] at hm; subst hm; exact .nil
    | cons n s ih =>
      unfold indices at hm
      simp only [List.mem_flatMap, List.mem_range, List.mem_map] at hm
      obtain ⟨i, hi, t, ht, rfl⟩ := hm
      exact .cons ⟨by omega, by omega⟩ (ih (fun m hm => h m (List.mem_cons_of_mem _ hm)) ht)
  · intro hm
    exact List.mem_of_getElem? (indices_get hm)

/-- reading back an element of a flattened array -/
theorem flatten_getD {α : Type} [Inhabited α] {m : NArr α} {idx : List Int}
    (h : InShape m.shape idx) :
    m.flatten.getD (flatIndex m.shape idx).toNat default = m.get idx := by
  unfold flatten
  rw [List.getD_eq_getElem?_getD, List.getElem?_map, indices_get h]
  rfl

theorem reshape_flatten {α : Type} [Inhabited α] {m : NArr α} (h : NonNeg m.shape) :
    ∃ v, reshape m.flatten m.shape = .ok v ∧ v.Same m := by
  unfold reshape
  have hl : (m.flatten.length : Int) = size m.shape := by
    rw [flatten_length h]; have := size_nonneg h; omega
  rw [if_pos hl]
  exact ⟨_, rfl, rfl, fun idx hi => flatten_getD hi⟩

/-! sizes of slices -/

/-- slices with `start ≤ stop` -/
def Fwd (sl : List Slice) : Prop := ∀ s ∈ sl, s.start ≤ s.stop

/-- shape of a region -/
abbrev shapeOf (sl : List Slice) : List Int := sl.map fun s => max 0 (s.stop - s.start)

theorem shapeOf_nonneg (sl : List Slice) : NonNeg (shapeOf sl) := by
  intro n hn
  obtain ⟨s, _, rfl⟩ := List.mem_map.1 hn
  omega

theorem slicesSize_eq {sl : List Slice} (h : Fwd sl) : slicesSize sl = size (shapeOf sl) := by
  have gen : ∀ (sl : List Slice) (a : Int), Fwd sl →
      sl.foldl (fun n s => n * ((s.start - s.stop).natAbs : Int)) a = a * size (shapeOf sl) := by
    intro sl
    induction sl with
    | nil => intro a _; simp [size]
    | cons s sl ih =>
      intro a hf
      rw [List.foldl_cons, ih _ (fun t ht => hf t (List.mem_cons_of_mem _ ht))]
      have h0 := hf s List.mem_cons_self
      have e : ((s.start - s.stop).natAbs : Int) = max 0 (s.stop - s.start) := by omega
      simp only [List.map_cons, size, e]
      ring
  have := gen sl 1 h
  unfold slicesSize
  rw [this]; ring

theorem size_perm {a b : List Int} (h : a.Perm b) : size a = size b := by
  induction h with
  | nil => rfl
  | cons x _ ih => simp only [size, ih]
  | swap x y l => simp only [size]; ring
  | trans _ _ ih1 ih2 => rw [ih1, ih2]

theorem lastPos_lt (p : Dim → Bool) : ∀ (ds : List Dim) (k : Nat) (acc : Option Nat) (x : Nat),
    lastPos p ds k acc = some x → (∀ a, acc = some a → a < k) → x < k + ds.length
  | [], k, acc, x, h, ha => by
    unfold lastPos at h; have := ha x h; simp; exact this
  | d :: ds, k, acc, x, h, ha => by
    unfold lastPos at h
    have := lastPos_lt p ds (k + 1) _ x h (by
      intro a hh
      split at hh
      · cases hh; omega
      · have := ha a hh; omega)
    simp; omega

theorem xDim_lt {dims x} (h : xDim dims = some x) : x < dims.length := by
  have := lastPos_lt _ _ _ _ _ h (by simp); omega
theorem yDim_lt {dims x} (h : yDim dims = some x) : x < dims.length := by
  have := lastPos_lt _ _ _ _ _ h (by simp); omega

theorem swapEnt_perm {s : List Int} {a b : Nat} (ha : a < s.length) (hb : b < s.length) :
    (swapEnt s a b).Perm s := by
  unfold swapEnt ent
  rw [List.getD_eq_getElem?_getD, List.getD_eq_getElem?_getD, List.getElem?_eq_getElem ha,
    List.getElem?_eq_getElem hb]
  exact List.set_set_perm ha hb

/-- a rotation permutes the shape -/
theorem rotate_perm {α : Type} (dims : List Dim) (k : Int) (m : NArr α)
    (hm : m.shape.length = dims.length) : (rotateScalar dims k m).shape.Perm m.shape := by
  unfold rotateScalar
  simp only
  split
  · exact .refl _
  · split
    · exact .refl _
    · split
      · next hx hy =>
        have h1 := xDim_lt hx
        have h2 := yDim_lt hy
        split
        · exact swapEnt_perm (hm.symm ▸ h2 : _ < m.shape.length) (hm.symm ▸ h1 : _ < m.shape.length)
        · exact swapEnt_perm (hm.symm ▸ h1 : _ < m.shape.length) (hm.symm ▸ h2 : _ < m.shape.length)
      · split <;> exact .refl _
      · split <;> exact .refl _
      · exact .refl _

theorem nonneg_perm {a b : List Int} (h : a.Perm b) (hb : NonNeg b) : NonNeg a :=
  fun n hn => hb n (h.mem_iff.1 hn)

theorem rotateVector_shapes {α : Type} [Neg α] (dims : List Dim) (k : Int) (u v : NArr α)
    (hu : u.shape.length = dims.length) (hv : v.shape.length = dims.length)
    (nu : NonNeg u.shape) (nv : NonNeg v.shape) :
    NonNeg (rotateVector dims k u v).1.shape ∧ NonNeg (rotateVector dims k u v).2.shape ∧
    size (rotateVector dims k u v).1.shape + size (rotateVector dims k u v).2.shape =
      size u.shape + size v.shape := by
  have pu := rotate_perm dims k u hu
  have pv := rotate_perm dims k v hv
  have a := nonneg_perm pu nu
  have b := nonneg_perm pv nv
  have c := size_perm pu
  have d := size_perm pv
  unfold rotateVector
  simp only
  split
  · exact ⟨a, b, by rw [c, d]⟩
  · split
    · exact ⟨b, a, by simp only [NArr.map]; rw [c, d]; ring⟩
    · split
      · exact ⟨a, b, by simp only [NArr.map]; rw [c, d]⟩
      · exact ⟨b, a, by simp only [NArr.map]; rw [c, d]; ring⟩

end NDSL
