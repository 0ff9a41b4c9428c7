import Verif.Model.StorageShape
import Verif.Props.StorageData
/-
C135: empty storages, and arrays that are stretched, reshaped and split.
-/
namespace NDSL.StorageShape

open NDSL.Storage

variable {V : Type}

/-- The storage has this shape, is `z` everywhere and has these dimensions and this aligned index. -/
def IsEmpty (z : V) (shape : List Nat) (dims : List SDim) (aligned : List Nat) (m : Made V) : Prop :=
  m.array.shape = shape ∧ (∀ idx, m.array.get idx = z) ∧ m.dims = dims ∧ m.aligned = aligned

/-- Without a mask one size makes a column, two sizes a plane and three sizes a volume of zeros. From an origin of three
entries those of the axes are taken; an origin with as many entries as sizes is used as it is. -/
theorem C135_from_shape (z : V) (n0 n1 n2 o0 o1 o2 p q r : Nat) :
    (∃ m, fromShape z [n2] [o0, o1, o2] = .ok m ∧ IsEmpty z [n2] [.K] [o2] m) ∧
    (∃ m, fromShape z [n2] [p] = .ok m ∧ IsEmpty z [n2] [.K] [p] m) ∧
    (∃ m, fromShape z [n0, n1] [o0, o1, o2] = .ok m ∧ IsEmpty z [n0, n1] [.I, .J] [o0, o1] m) ∧
    (∃ m, fromShape z [n0, n1] [q, r] = .ok m ∧ IsEmpty z [n0, n1] [.I, .J] [q, r] m) ∧
    (∃ m, fromShape z [n0, n1, n2] [o0, o1, o2] = .ok m ∧ IsEmpty z [n0, n1, n2] [.I, .J, .K] [o0, o1, o2] m) :=
  ⟨⟨_, rfl, rfl, fun _ => rfl, rfl, rfl⟩, ⟨_, rfl, rfl, fun _ => rfl, rfl, rfl⟩, ⟨_, rfl, rfl, fun _ => rfl, rfl, rfl⟩,
    ⟨_, rfl, rfl, fun _ => rfl, rfl, rfl⟩, ⟨_, rfl, rfl, fun _ => rfl, rfl, rfl⟩⟩

/-- A mask of three entries names the axes of the storage, in order; the aligned index has the entries of the origin for
those axes. The sizes are taken as given. -/
theorem C135_masked (z : V) (shape : List Nat) (o0 o1 o2 : Nat) (i j k : Bool) :
    ∃ m, fromShape z shape [o0, o1, o2] (some [i, j, k]) = .ok m ∧
      IsEmpty z shape ((if i then [.I] else []) ++ (if j then [.J] else []) ++ (if k then [.K] else []))
        ((if i then [o0] else []) ++ (if j then [o1] else []) ++ (if k then [o2] else [])) m := by
  cases i <;> cases j <;> cases k <;> exact ⟨_, rfl, rfl, fun _ => rfl, rfl, rfl⟩

/-- With more than three sizes the further ones become data dimensions, if the origin has an entry for every size. -/
theorem C135_data_dims (z : V) (n0 n1 n2 n3 : Nat) (more : List Nat) (origin : List Nat)
    (ho : origin.length = more.length + 4) :
    ∃ m, fromShape z (n0 :: n1 :: n2 :: n3 :: more) origin = .ok m ∧
      IsEmpty z (n0 :: n1 :: n2 :: n3 :: more) ([.I, .J, .K] ++ (n3 :: more).map .data) origin m := by
  have hm := maskToDims_full (n0 :: n1 :: n2 :: n3 :: more) (by simp)
  have hs : shapeMask (n0 :: n1 :: n2 :: n3 :: more) = .ok (List.replicate (n0 :: n1 :: n2 :: n3 :: more).length true) := by
    simp [shapeMask]
  have ht : translateOrigin origin (List.replicate (n0 :: n1 :: n2 :: n3 :: more).length true) = .ok origin := by
    simp [translateOrigin, ho]
  refine ⟨⟨zeros z (n0 :: n1 :: n2 :: n3 :: more), origin, _⟩, ?_, rfl, fun _ => rfl, rfl, rfl⟩
  simp only [fromShape, hs, bind, Except.bind, ht, hm]
  rfl

/-- Not so: a storage with more than three sizes cannot be made with the default origin, or any origin of three entries. -/
theorem C135_data_dims_violated (z : V) (n0 n1 n2 n3 o0 o1 o2 : Nat) (more : List Nat) :
    fromShape z (n0 :: n1 :: n2 :: n3 :: more) [o0, o1, o2] = .error .runtimeError := by
  have hs : shapeMask (n0 :: n1 :: n2 :: n3 :: more) = .ok (List.replicate (n0 :: n1 :: n2 :: n3 :: more).length true) := by
    simp [shapeMask]
  have ht : translateOrigin [o0, o1, o2] (List.replicate (n0 :: n1 :: n2 :: n3 :: more).length true) = .error .runtimeError := by
    simp [translateOrigin]
  simp only [fromShape, hs, bind, Except.bind, ht]

/-- A storage without sizes is refused, with any origin. -/
theorem C135_no_sizes (z : V) (origin : List Nat) : fromShape z [] origin = .error .notImplemented := rfl

/-- A dictionary of storages: every given name is an empty volume, every other name is as before. -/
theorem C135_dict (z : V) (n0 n1 n2 o0 o1 o2 : Nat) (names : List String) :
    ∀ d : List (String × Made V), ∃ d', storageDict z [n0, n1, n2] [o0, o1, o2] names d = (d', none) ∧
      (∀ s ∈ names, ∃ m, dictGet d' s = some m ∧ IsEmpty z [n0, n1, n2] [.I, .J, .K] [o0, o1, o2] m) ∧
      ∀ s, s ∉ names → dictGet d' s = dictGet d s := by
  obtain ⟨m, hm, he⟩ := (C135_from_shape z n0 n1 n2 o0 o1 o2 0 0 0).2.2.2.2
  induction names with
  | nil => exact fun d => ⟨d, rfl, fun s hs => absurd hs List.not_mem_nil, fun _ _ => rfl⟩
  | cons n names ih =>
    intro d
    obtain ⟨d', h1, h2, h3⟩ := ih (dictSet d n m)
    refine ⟨d', by simp only [storageDict, hm, h1], fun s hs => ?_, fun s hs => ?_⟩
    · by_cases h : s ∈ names
      · exact h2 s h
      · obtain rfl : s = n := by
          rcases List.mem_cons.1 hs with h' | h'
          · exact h'
          · exact absurd h' h
        exact ⟨m, by rw [h3 s h, dictGet_set, if_pos rfl], he⟩
    · simp only [List.mem_cons, not_or] at hs
      rw [h3 s hs.2, dictGet_set, if_neg hs.1]

/-- An array that has the wanted shape is returned unchanged. -/
theorem C135_reshape_same (a : Nd V) : reshapeTo a a.shape = .ok a := by simp [reshapeTo]

/-- A plane is repeated on every level. -/
theorem C135_reshape_plane (a : Nd V) (n0 n1 n2 : Nat) (ha : a.shape = [n0, n1]) :
    ∃ b, reshapeTo a [n0, n1, n2] = .ok b ∧ b.shape = [n0, n1, n2] ∧
      ∀ i j k, k < n2 → b.get [i, j, k] = a.get [i, j] := by
  refine ⟨repeatAxis (newaxis a 2) n2 2, by simp [reshapeTo, ha, fromOpt, bind, Except.bind, pure, Except.pure],
    by simp [repeatAxis, newaxis, ha], fun i j k _ => by simp [repeatAxis, newaxis]⟩

/-- Not so: the first sizes wanted are not looked at, so the result has other sizes if the plane has. -/
theorem C135_reshape_plane_violated (a : Nd V) (p q n0 n1 n2 : Nat) (ha : a.shape = [p, q]) (h : [p, q] ≠ [n0, n1]) :
    ∃ b, reshapeTo a [n0, n1, n2] = .ok b ∧ b.shape = [p, q, n2] ∧ b.shape ≠ [n0, n1, n2] := by
  refine ⟨repeatAxis (newaxis a 2) n2 2, by simp [reshapeTo, ha, fromOpt, bind, Except.bind, pure, Except.pure],
    by simp [repeatAxis, newaxis, ha], ?_⟩
  have hs : (repeatAxis (newaxis a 2) n2 2).shape = [p, q, n2] := by simp [repeatAxis, newaxis, ha]
  rw [hs]
  intro he
  apply h
  simp only [List.cons.injEq, and_true] at he
  rw [he.1, he.2]

/-- Not so: a column is not repeated at every place of the plane, it is laid along the first axis: the result has the
length of the column as its first size, and a value that depends on the first index only. -/
theorem C135_reshape_column_violated (a : Nd V) (n n0 n1 n2 : Nat) (ha : a.shape = [n]) :
    ∃ b, reshapeTo a [n0, n1, n2] = .ok b ∧ b.shape = [n, n1, n2] ∧
      ∀ i j k, j < n1 → k < n2 → b.get [i, j, k] = a.get [i] := by
  refine ⟨repeatAxis (newaxis (repeatAxis (newaxis a 1) n1 1) 2) n2 2,
    by simp [reshapeTo, ha, fromOpt, bind, Except.bind, pure, Except.pure],
    by simp [repeatAxis, newaxis, ha], fun i j k _ _ => by simp [repeatAxis, newaxis]⟩

/-- So a column with two different values differs from the column repeated at every place, even if all sizes agree. -/
theorem C135_reshape_column_wrong (a : Nd V) (n : Nat) (ha : a.shape = [n]) (i k : Nat) (_ : i < n) (hk : k < n)
    (h : a.get [i] ≠ a.get [k]) :
    ∃ b, reshapeTo a [n, n, n] = .ok b ∧ b.shape = [n, n, n] ∧ b.get [i, k, k] ≠ a.get [k] := by
  obtain ⟨b, h1, h2, h3⟩ := C135_reshape_column_violated a n n n n ha
  exact ⟨b, h1, h2, by rw [h3 i k k hk hk]; exact h⟩

/-- How many places of the array come before this one, row by row. -/
def before : List Nat → List Nat → Nat
  | _ :: ns, i :: is => i * ns.prod + before ns is
  | _, _ => 0

theorem before_lt : ∀ ns is : List Nat, isIndex ns is → before ns is < ns.prod
  | [], [], _ => by simp [before]
  | n :: ns, i :: is, h => by
    have := before_lt ns is h.2
    rw [List.prod_cons, before]
    calc i * ns.prod + before ns is < i * ns.prod + ns.prod := by omega
      _ = (i + 1) * ns.prod := by rw [Nat.add_mul, Nat.one_mul]
      _ ≤ n * ns.prod := Nat.mul_le_mul_right _ h.1
  | [], _ :: _, h => h.elim
  | _ :: _, [], h => h.elim

theorem unflat_before : ∀ ns is : List Nat, isIndex ns is → unflat ns (before ns is) = is
  | [], [], _ => rfl
  | n :: ns, i :: is, h => by
    have hb := before_lt ns is h.2
    have hp : 0 < ns.prod := by omega
    rw [before, unflat, Nat.add_comm, Nat.add_mul_div_right _ _ hp, Nat.div_eq_of_lt hb, Nat.zero_add,
      Nat.add_mul_mod_self_right, Nat.mod_eq_of_lt hb, unflat_before ns is h.2]
  | [], _ :: _, h => h.elim
  | _ :: _, [], h => h.elim

theorem flat_before : ∀ ns is : List Nat, flat ns is = before ns is
  | [], [] => rfl
  | [], _ :: _ => rfl
  | _ :: _, [] => rfl
  | n :: ns, i :: is => by rw [flat, before, flat_before ns is]

/-- To a shape with no more axes and as many places, the values keep their order row by row. -/
theorem C135_reshape_down (a : Nd V) (new : List Nat) (hl : new.length ≤ a.shape.length) (hp : a.shape.prod = new.prod) :
    ∃ b, reshapeTo a new = .ok b ∧ b.shape = new ∧
      ∀ is js, isIndex a.shape is → isIndex new js → before a.shape is = before new js → b.get js = a.get is := by
  by_cases hs : a.shape = new
  · refine ⟨a, by rw [reshapeTo, if_neg (by simpa using hs)], hs, fun is js hi hj hb => ?_⟩
    rw [← unflat_before _ _ hi, hb, hs, unflat_before _ _ hj]
  · refine ⟨⟨new, fun idx => a.get (unflat a.shape (flat new idx))⟩, ?_, rfl, fun is js hi hj hb => ?_⟩
    · rw [reshapeTo, if_pos hs, if_neg (by omega), reshape, if_pos hp]
    · show a.get (unflat a.shape (flat new js)) = a.get is
      rw [flat_before, ← hb, unflat_before _ _ hi]

/-- It is refused for another number of places. -/
theorem C135_reshape_refused (a : Nd V) (new : List Nat) (hl : new.length ≤ a.shape.length) (hp : a.shape.prod ≠ new.prod) :
    reshapeTo a new = .error .valueError := by
  rw [reshapeTo, if_pos (fun h => hp (by rw [h])), if_neg (by omega), reshape, if_neg hp]

/-- A field of vectors is split into one plane for each of the first three components. -/
theorem C135_split (a : Nd V) (n0 n1 n : Nat) (ha : a.shape = [n0, n1, n]) (hn : 3 ≤ n) :
    ∃ x y w, splitCartesian a = .ok [x, y, w] ∧ x.shape = [n0, n1] ∧ y.shape = [n0, n1] ∧ w.shape = [n0, n1] ∧
      ∀ i j, x.get [i, j] = a.get [i, j, 0] ∧ y.get [i, j] = a.get [i, j, 1] ∧ w.get [i, j] = a.get [i, j, 2] := by
  have ht : ∀ c, c < 3 → third a c = .ok ⟨[n0, n1], fun idx => a.get (idx.take 2 ++ c :: idx.drop 2)⟩ := by
    intro c hc
    simp [third, ha, show c < n by omega]
  refine ⟨⟨[n0, n1], fun idx => a.get (idx.take 2 ++ 0 :: idx.drop 2)⟩, ⟨[n0, n1], fun idx => a.get (idx.take 2 ++ 1 :: idx.drop 2)⟩,
    ⟨[n0, n1], fun idx => a.get (idx.take 2 ++ 2 :: idx.drop 2)⟩, ?_, rfl, rfl, rfl, fun i j => ⟨rfl, rfl, rfl⟩⟩
  rw [splitCartesian, show List.range 3 = [0, 1, 2] from rfl]
  rw [mapM_ok (third a) (fun c => ⟨[n0, n1], fun idx => a.get (idx.take 2 ++ c :: idx.drop 2)⟩)]
  · rfl
  · intro c hc
    exact ht c (by simp at hc; omega)

/-- Fewer than three components are refused. -/
theorem C135_split_refused (a : Nd V) (n0 n1 n : Nat) (ha : a.shape = [n0, n1, n]) (hn : n < 3) :
    splitCartesian a = .error .indexError := by
  rcases n with _ | _ | _ | n
  · simp [splitCartesian, third, ha, show List.range 3 = [0, 1, 2] from rfl, List.mapM_cons, bind, Except.bind]
  · simp [splitCartesian, third, ha, show List.range 3 = [0, 1, 2] from rfl, List.mapM_cons, bind, Except.bind]
  · simp [splitCartesian, third, ha, show List.range 3 = [0, 1, 2] from rfl, List.mapM_cons, bind, Except.bind]
  · omega

/-! Examples. -/

/-- A plane of two by three places with a value for every place. -/
def plane : Nd Nat := ⟨[2, 3], fun idx => 10 * idx.getD 0 0 + idx.getD 1 0⟩

example : ((reshapeTo plane [2, 3, 4]).toOption.map fun b => (b.shape, b.get [1, 2, 3])) = some ([2, 3, 4], 12) := by decide +kernel
example : ((reshapeTo plane [6]).toOption.map fun b => (b.shape, b.get [4])) = some ([6], 11) := by decide +kernel
example : isIndex [2, 3] [1, 1] ∧ isIndex [6] [4] ∧ before [2, 3] [1, 1] = before [6] [4] := by simp [isIndex, before]
example : (⟨[2], fun idx => idx.getD 0 0⟩ : Nd Nat).get [0] ≠ (⟨[2], fun idx => idx.getD 0 0⟩ : Nd Nat).get [1] := by decide
example : ((splitCartesian (⟨[1, 1, 3], fun idx => idx.getD 2 0⟩ : Nd Nat)).toOption.map fun l => l.map fun b => b.get [0, 0]) =
    some [0, 1, 2] := by decide +kernel
example : ((fromShape 0 [4, 5, 6, 7] [3, 3, 0, 0]).toOption.map fun m => m.dims) = some [.I, .J, .K, .data 7] := by decide +kernel

end NDSL.StorageShape
