import Verif.Model.ArrayLib

/-! C139: the array helpers give the same values with numpy and with CuPy, on the device that is asked for. -/
namespace NDSL.ArrayLib

open NDSL.Storage

variable {V : Type}

/-! ### Specification -/

/-- without CuPy there is nothing on a GPU -/
def Possible (cp : Bool) (o : Obj V) : Prop := cp = false → o.arr'.device = .cpu

/-- the same values in the same shape -/
def Same (a b : Nd V) : Prop := a.shape = b.shape ∧ ∀ i, a.get i = b.get i

/-- the values are those of `b`, converted to the data type `t` -/
def Cast (cast : Nat → V → V) (t : Nat) (a b : Nd V) : Prop :=
  a.shape = b.shape ∧ ∀ i, a.get i = cast t (b.get i)

/-! ### `asarray` -/

/-- **C139**: `asarray` with no data type asked for gives, of every object, an array in main memory with its values and its type -/
theorem C139_to_numpy (cp : Bool) (cast : Nat → V → V) (o : Obj V) (hp : Possible cp o) :
    ∃ a, asarray cp cast o .numpy none = .ok a ∧ a.device = .cpu ∧ a.dtype = o.arr'.dtype ∧
      Same a.data o.arr'.data := by
  cases cp
  · have h := hp rfl
    cases o <;> (simp only [Obj.arr'] at h; simp [asarray, npAsarray, convert, Same, Obj.arr', *])
  · rcases o with ⟨t, d⟩ | ⟨t, d⟩ | ⟨dev, t, d⟩ | ⟨dev, t, d⟩ <;> try cases dev
    all_goals simp [asarray, npAsarray, convert, Same, Obj.arr', cpAsnumpy, Obj.onDevice]

/-- **C139**: with CuPy every object can be made an array on the GPU, of the data type asked for -/
theorem C139_to_cupy (cast : Nat → V → V) (o : Obj V) (dtype : Option Nat) :
    ∃ a, asarray true cast o .other dtype = .ok a ∧ a.device = .gpu ∧ a.dtype = dtype.getD o.arr'.dtype ∧
      (dtype = none → Same a.data o.arr'.data) ∧ (∀ t, dtype = some t → Cast cast t a.data o.arr'.data) := by
  have : asarray true cast o .other dtype = .ok (convert cast dtype .gpu o.arr') := by
    rcases o with ⟨t, d⟩ | ⟨t, d⟩ | ⟨dev, t, d⟩ | ⟨dev, t, d⟩ <;> try cases dev
    all_goals simp [asarray, cpAsarray, Obj.onDevice]
  refine ⟨_, this, ?_⟩
  cases dtype with
  | none => exact ⟨rfl, rfl, fun _ => ⟨rfl, fun _ => rfl⟩, fun t h => by cases h⟩
  | some t => exact ⟨rfl, rfl, (fun h => by cases h), (fun t' h => by cases h; exact ⟨rfl, fun _ => rfl⟩)⟩

/-- **C139**: without CuPy a request for anything but a numpy array is an error, whatever the object -/
theorem C139_no_cupy (cast : Nat → V → V) (o : Obj V) (dtype : Option Nat) :
    asarray false cast o .other dtype = .error .attribute := by
  cases o <;> rfl

/-- **C139**: without CuPy, and for arrays in main memory and objects holding one also with it, the data type asked for is given -/
theorem C139_dtype (cp : Bool) (cast : Nat → V → V) (o : Obj V) (t : Nat) (hp : Possible cp o)
    (h : cp = false ∨ ∃ a : Arr V, a.device = .cpu ∧ (o = .arr a ∨ o = .holder a)) :
    ∃ a, asarray cp cast o .numpy (some t) = .ok a ∧ a.device = .cpu ∧ a.dtype = t ∧ Cast cast t a.data o.arr'.data := by
  rcases h with h | ⟨a, ha, h⟩
  · subst h
    have h := hp rfl
    cases o <;> (simp only [Obj.arr'] at h; simp [asarray, npAsarray, convert, Cast, Obj.arr', *])
  · rcases h with h | h <;> subst h <;>
      simp [asarray, npAsarray, convert, Cast, Obj.arr', Obj.onDevice, ha]

/-- **C139**, what does not hold: with CuPy, the data type asked for is ignored for each list, memoryview and array on the GPU that
is to be a numpy array -/
theorem C139_dtype_violated (cast : Nat → V → V) (o : Obj V) (t : Nat)
    (h : (∃ t d, o = .list t d ∨ o = .view t d) ∨ o.arr'.device = .gpu) :
    ∃ a, asarray true cast o .numpy (some t) = .ok a ∧ a.dtype = o.arr'.dtype ∧ Same a.data o.arr'.data := by
  refine ⟨cpAsnumpy o, ?_, rfl, rfl, fun _ => rfl⟩
  rcases h with ⟨t, d, h | h⟩ | h
  · subst h; rfl
  · subst h; rfl
  · rcases o with ⟨t, d⟩ | ⟨t, d⟩ | ⟨dev, t, d⟩ | ⟨dev, t, d⟩
    · cases h
    · cases h
    · simp only [Obj.arr'] at h; subst h; rfl
    · simp only [Obj.arr'] at h; subst h; rfl

/-! ### `sum`, `repeat`, `moveaxis`, `tile`, `squeeze`, `unique` -/

/-- **C139**: each of these acts on an array as its operation does, and leaves the result on the array's device -/
theorem C139_library (cp : Bool) (op : Nat → Nd V → Except Fault (Nat × Nd V)) (a : Arr V) (hp : Possible cp (.arr a)) :
    viaLibrary cp op a = (op a.dtype a.data).map fun r => ⟨a.device, r.1, r.2⟩ := by
  rcases a with ⟨dev, t, d⟩
  cases dev
  · cases cp <;> rfl
  · cases cp
    · cases hp rfl
    · rfl

/-! ### `index` -/

/-- **C139**: with an array of indices inside the first axis, `index` gives on the device of the indices the entries they name, whatever
the device of the array -/
theorem C139_index (cp : Bool) (cast : Nat → V → V) (o : Obj V) (dev : Device) (ks : List Nat) (n : Nat) (rest : List Nat)
    (hp : Possible cp o) (hc : dev = .gpu → cp = true) (hs : o.arr'.data.shape = n :: rest) (hk : ∀ k ∈ ks, k < n) :
    ∃ r, index cp cast o (.array dev ks) = .ok r ∧ r.device = dev ∧ r.data.shape = ks.length :: rest ∧
      ∀ (j k : Nat) (i : List Nat), ks[j]? = some k → r.data.get (j :: i) = o.arr'.data.get (k :: i) := by
  cases dev
  · obtain ⟨a, ha, hd, _, hsh, hg⟩ := C139_to_numpy cp cast o hp
    have hall : ks.all (· < n) = true := List.all_eq_true.2 fun k hk' => decide_eq_true (hk k hk')
    refine ⟨⟨.cpu, a.dtype, ⟨ks.length :: rest, fun i => a.data.get ((ks[i.headD 0]?).getD 0 :: i.tail)⟩⟩, ?_, ?_⟩
    · show (asarray cp cast o .numpy none >>= fun a => take a ks) = _
      rw [ha]
      simp only [bind, Except.bind, take, hsh, hs, hd, hall, if_true]
    · refine ⟨rfl, rfl, fun j k i hj => ?_⟩
      simp only [List.headD_cons, List.tail_cons, hj, Option.getD_some]
      exact hg _
  · have hcp := hc rfl
    subst hcp
    obtain ⟨a, ha, hd, _, hsame, _⟩ := C139_to_cupy cast o none
    obtain ⟨hsh, hg⟩ := hsame rfl
    refine ⟨⟨.gpu, a.dtype, ⟨ks.length :: rest, fun i => a.data.get ((ks[i.headD 0]?).getD 0 % n :: i.tail)⟩⟩, ?_, ?_⟩
    · show (asarray true cast o .other none >>= fun a => take a ks) = _
      rw [ha]
      simp only [bind, Except.bind, take, hsh, hs, hd]
    · refine ⟨rfl, rfl, fun j k i hj => ?_⟩
      simp only [List.headD_cons, List.tail_cons, hj, Option.getD_some]
      rw [hg, Nat.mod_eq_of_lt (hk k (List.mem_of_getElem? hj))]

/-- **C139**, what does not hold: without CuPy, `index` with one number fails for every array -/
theorem C139_index_violated (cast : Nat → V → V) (o : Obj V) (k : Nat) :
    index false cast o (.one k) = .error .attribute := by
  show (asarray false cast o .other none >>= fun a => takeOne a k) = _
  rw [C139_no_cupy]; rfl

/-! ### `stack` -/

theorem any_false {α : Type} {l : List α} {p : α → Bool} (h : ∀ x ∈ l, p x = false) : l.any p = false := by
  cases e : l.any p with
  | false => rfl
  | true =>
    obtain ⟨x, hx, hp⟩ := List.any_eq_true.1 e
    rw [h x hx] at hp; cases hp

/-- **C139**: arrays of one shape on one device are stacked on it: the new axis, in any place, counts the arrays, and at number `k` along
it are the values of array `k` -/
theorem C139_stack (cp : Bool) (l : List (Arr V)) (dev : Device) (shape : List Nat) (axis : Nat) (hne : l ≠ [])
    (hd : ∀ a ∈ l, a.device = dev) (hs : ∀ a ∈ l, a.data.shape = shape) (hc : dev = .gpu → cp = true)
    (hax : axis ≤ shape.length) :
    ∃ r, stack cp l axis = .ok r ∧ r.device = dev ∧ r.data.shape = shape.insertIdx axis l.length ∧
      ∀ (k : Nat) (a : Arr V) (i : List Nat), l[k]? = some a → i.length = shape.length →
        r.data.get (i.insertIdx axis k) = a.data.get i := by
  cases l with
  | nil => exact absurd rfl hne
  | cons a l =>
    have ha := hd a List.mem_cons_self
    have hsa := hs a List.mem_cons_self
    have hdev : (if (cp && a.device == Device.gpu) = true then Device.gpu else Device.cpu) = dev := by
      rw [ha]
      cases dev
      · cases cp <;> rfl
      · rw [hc rfl]; rfl
    have h1 : (a :: l).any (fun b => b.device != dev) = false :=
      any_false fun b hb => by rw [hd b hb]; simp
    have h2 : (a :: l).any (fun b => b.data.shape != a.data.shape) = false :=
      any_false fun b hb => by rw [hs b hb, hsa]; simp
    have h3 : ¬ axis > a.data.shape.length := by rw [hsa]; omega
    refine ⟨⟨dev, a.dtype, ⟨a.data.shape.insertIdx axis (a :: l).length, fun i =>
        match (a :: l)[(i[axis]?).getD 0]? with
        | some b => b.data.get (i.eraseIdx axis)
        | none => a.data.get (i.eraseIdx axis)⟩⟩, ?_, ?_⟩
    · simp only [stack]
      rw [hdev]
      simp only [libStack, h1, h2, h3, if_false, Bool.false_eq_true]
      rfl
    · refine ⟨rfl, by rw [hsa], fun k b i hk hi => ?_⟩
      have e1 : (i.insertIdx axis k)[axis]? = some k := by
        rw [List.getElem?_insertIdx_self, if_pos (by omega)]
      have e2 : (i.insertIdx axis k).eraseIdx axis = i := List.eraseIdx_insertIdx_self _
      simp only [e1, Option.getD_some, hk, e2]

/-- **C139**: arrays of both devices are not stacked -/
theorem C139_stack_mixed (cp : Bool) (l : List (Arr V)) (axis : Nat) (h1 : ∃ a ∈ l, a.device = .cpu)
    (h2 : ∃ a ∈ l, a.device = .gpu) : stack cp l axis = .error .type := by
  obtain ⟨a1, m1, d1⟩ := h1
  obtain ⟨a2, m2, d2⟩ := h2
  cases l with
  | nil => cases m1
  | cons a l =>
    have : ∀ dev, (a :: l).any (fun b => b.device != dev) = true := by
      intro dev
      cases dev
      · exact List.any_eq_true.2 ⟨a2, m2, by rw [d2]; rfl⟩
      · exact List.any_eq_true.2 ⟨a1, m1, by rw [d1]; rfl⟩
    simp only [stack, libStack, this, if_true]

/-! ### `pad_field_in_j` -/

/-- **C139**: a field with at least one row is padded to `nj` rows, each a copy of the first, on the same device -/
theorem C139_pad (cp : Bool) (f : Arr V) (nj ni m nk : Nat) (hp : Possible cp (.arr f)) (hs : f.data.shape = [ni, m, nk])
    (hm : 0 < m) : ∃ r, padField cp f nj = .ok r ∧ r.device = f.device ∧ r.dtype = f.dtype ∧ r.data.shape = [ni, nj, nk] ∧
      ∀ i j k, i < ni → j < nj → k < nk → r.data.get [i, j, k] = f.data.get [i, 0, k] := by
  have hm' : m ≠ 0 := by omega
  unfold padField
  simp only [firstRow, hs, List.cons_ne_nil, hm', if_false, bind, Except.bind]
  have hp' : ∀ d, Possible cp (.arr ⟨f.device, f.dtype, d⟩) := fun _ h => hp h
  rw [C139_library cp _ _ (hp' _)]
  simp only [Except.map, tile, transpose102, pure, Except.pure, List.length_cons, List.length_nil, List.replicate, List.zipWith,
    List.append, Nat.reduceAdd, Nat.reduceSub, List.cons_append, List.nil_append]
  refine ⟨_, rfl, rfl, rfl, ?_, ?_⟩
  · simp
  · intro i j k hi _ hk
    simp [Nat.mod_eq_of_lt hi, Nat.mod_eq_of_lt hk]

/-! ### `as_numpy` -/

/-- **C139**: `as_numpy` brings an array from either device to main memory, refuses what is neither array nor quantity, and returns a
quantity's whole array -/
theorem C139_as_numpy (cp : Bool) :
    (∀ a : Arr V, Possible cp (.arr a) → ∃ r, toNumpy cp (.array a) = .ok r ∧ r.device = .cpu ∧ r.dtype = a.dtype ∧
      Same r.data a.data) ∧
    (∀ a : Arr V, toNumpy cp (.quantity a) = .ok a) ∧ toNumpy cp (.thing : Val V) = .error .type := by
  refine ⟨fun a hp => ?_, fun _ => rfl, rfl⟩
  rcases a with ⟨dev, t, d⟩
  cases dev
  · exact ⟨_, rfl, rfl, rfl, rfl, fun _ => rfl⟩
  · cases cp
    · cases hp rfl
    · exact ⟨_, rfl, rfl, rfl, rfl, fun _ => rfl⟩

/-- **C139**: a dictionary keeps its names in their order, and each entry is converted; one that cannot be makes the whole fail -/
theorem C139_as_numpy_dict (cp : Bool) (l : List (String × Val V)) :
    (∀ r, dictToNumpy cp l = .ok r → r.map (·.1) = l.map (·.1) ∧
      ∀ (k : Nat) (e : String × Val V), l[k]? = some e → ∃ a, toNumpy cp e.2 = .ok a ∧ r[k]? = some (e.1, a)) ∧
    ((∃ e ∈ l, toNumpy cp e.2 = .error .type) → ∃ x, dictToNumpy cp l = .error x) := by
  induction l with
  | nil =>
    refine ⟨fun r h => ?_, fun ⟨e, he, _⟩ => by cases he⟩
    cases h
    exact ⟨rfl, fun k e h => by simp at h⟩
  | cons e l ih =>
    have hcons : dictToNumpy cp (e :: l) = (do
        let a ← (toNumpy cp e.2).map fun a => (e.1, a)
        let r ← dictToNumpy cp l
        return a :: r) := by
      unfold dictToNumpy
      rw [List.mapM_cons]
    cases ha : toNumpy cp e.2 with
    | error x =>
      have : dictToNumpy cp (e :: l) = .error x := by rw [hcons, ha]; rfl
      exact ⟨(fun r h => by rw [this] at h; cases h), fun _ => ⟨x, this⟩⟩
    | ok a =>
      cases hr : dictToNumpy cp l with
      | error x =>
        have : dictToNumpy cp (e :: l) = .error x := by rw [hcons, ha, hr]; rfl
        exact ⟨(fun r h => by rw [this] at h; cases h), fun _ => ⟨x, this⟩⟩
      | ok r =>
        have : dictToNumpy cp (e :: l) = .ok ((e.1, a) :: r) := by rw [hcons, ha, hr]; rfl
        refine ⟨fun r' h => ?_, fun ⟨y, hy, hye⟩ => ?_⟩
        · rw [this] at h
          cases h
          obtain ⟨h1, h2⟩ := ih.1 r hr
          refine ⟨by simp [h1], fun k y hk => ?_⟩
          cases k with
          | zero => simp only [List.getElem?_cons_zero, Option.some.injEq] at hk; subst hk; exact ⟨a, ha, rfl⟩
          | succ k => exact h2 k y hk
        · rcases List.mem_cons.1 hy with h | h
          · subst h; rw [ha] at hye; cases hye
          · obtain ⟨x, hx⟩ := ih.2 ⟨y, h, hye⟩
            rw [hr] at hx; cases hx

/-- **C139**, what does not hold: a quantity on a GPU stays there -/
theorem C139_as_numpy_violated (a : Arr V) (h : a.device = .gpu) :
    ∃ r, toNumpy true (.quantity a) = .ok r ∧ r.device ≠ .cpu :=
  ⟨a, rfl, by rw [h]; decide⟩

/-! ### `read_serialized_data` -/

theorem prod_one : ∀ (l : List Nat) (k : Nat), l.foldl (· * ·) k = k * l.foldl (· * ·) 1
  | [], k => by simp
  | a :: l, k => by
    simp only [List.foldl_cons]
    rw [prod_one l (k * a), prod_one l (1 * a), Nat.one_mul, Nat.mul_assoc]

/-- **C139**: data of one entry along one axis is read as that value, and data that has not exactly one entry as it is -/
theorem C139_read (d : Nd V) :
    (d.shape = [1] → ∃ r, readSerialized d = .ok r ∧ r.shape = [] ∧ r.get [] = d.get [0]) ∧
    ((∃ n ∈ d.shape, n ≠ 1) → readSerialized d = .ok d) := by
  constructor
  · intro h
    exact ⟨⟨[], fun i => d.get (0 :: i)⟩, by simp [readSerialized, h], rfl, rfl⟩
  · intro ⟨n, hn, h1⟩
    have : d.shape.foldl (· * ·) 1 ≠ 1 := by
      generalize d.shape = l at hn
      induction l with
      | nil => cases hn
      | cons a l ih =>
        rw [List.foldl_cons, prod_one]
        intro e
        have e' := Nat.eq_one_of_mul_eq_one_right (by simpa using e)
        rcases List.mem_cons.1 hn with h | h
        · subst h; exact h1 e'
        · apply ih h
          rw [Nat.one_mul, e', Nat.one_mul] at e
          exact e
    simp [readSerialized, this]

/-- **C139**, what does not hold: one entry along two axes or more is no value but an array, and one along no axis is an error -/
theorem C139_read_violated (x : V) :
    (∀ n : Nat, ∃ r, readSerialized (⟨List.replicate (n + 2) 1, fun _ => x⟩ : Nd V) = .ok r ∧ r.shape ≠ []) ∧
    readSerialized (⟨[], fun _ => x⟩ : Nd V) = .error .index := by
  refine ⟨fun n => ?_, rfl⟩
  have hp : ∀ m, (List.replicate m 1).foldl (· * ·) 1 = 1 := by
    intro m
    induction m with
    | zero => rfl
    | succ m ih => rw [List.replicate_succ, List.foldl_cons]; exact ih
  refine ⟨⟨List.replicate (n + 1) 1, fun _ => x⟩, ?_, by simp [List.replicate_succ]⟩
  unfold readSerialized
  simp only [hp, if_true]
  rfl

/-! A case: a field of two rows in main memory and on a GPU. -/

def field (dev : Device) : Arr Nat := ⟨dev, 8, ⟨[2, 2, 3], fun i => 100 * i.getD 0 0 + 10 * i.getD 1 0 + i.getD 2 0⟩⟩

example : Possible false (.arr (field .cpu)) ∧ Possible true (.arr (field .gpu)) := ⟨fun _ => rfl, fun h => by cases h⟩

example : (match padField true (field .gpu) 4 with
    | .ok r => (r.device, r.data.shape, r.data.get [1, 3, 2])
    | .error _ => (.cpu, [], 0)) = (.gpu, [2, 4, 3], 102) := by decide

example : (match stack false [field .cpu, field .cpu, field .cpu] 1 with
    | .ok r => (r.data.shape, r.data.get [1, 2, 1, 2])
    | .error _ => ([], 0)) = ([2, 3, 2, 3], 112) := by decide

example : (match index true (fun _ x => x) (.arr (field .cpu)) (.array .gpu [1, 0, 1]) with
    | .ok r => (r.device, r.data.shape, r.data.get [2, 1, 1])
    | .error _ => (.cpu, [], 0)) = (.gpu, [3, 2, 3], 111) := by decide

end NDSL.ArrayLib
