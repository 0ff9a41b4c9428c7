import Verif.Spec.MakeQuantity
import Verif.Props.StorageData
import Verif.Props.Sizer
/-! C120: making quantities. -/
namespace NDSL.MakeQuantity

open NDSL.Storage

variable {V : Type}

theorem precise_iff (env : Env V) (dtype : String) (allow : Bool) :
    (!allow && env.floats.contains dtype && dtype != env.Float) = false ↔ Precise env dtype allow := by
  unfold Precise
  cases allow
  · by_cases h1 : dtype ∈ env.floats <;> by_cases h2 : dtype = env.Float <;> simp [h1, h2]
  · simp

/-- C120: a quantity made from an array has its values. Nothing in memory changes. The quantity shares the array exactly when
the memory order is right for the backend and the array is on the backend's device; otherwise it has a new copy. Dimensions, units,
backend, origin, extent and halo are the ones given. -/
theorem C120_create (env : Env V) (heap : List (Obj V)) (ref : Nat) (a : Args) (o : Obj V) (ho : heap[ref]? = some o)
    (hp : Precise env o.dtype a.allow) (hlib : o.lib ≠ .other) (hd : a.dims.length = o.arr.shape.length)
    (horg : ∀ l, a.origin = some l → l.length = o.arr.shape.length) (hext : ∀ l, a.extent = some l → l.length = o.arr.shape.length) :
    ∃ heap' q o', create env heap ref a = .ok (heap', q) ∧ Keeps heap heap' ∧ heap'[q.ref]? = some o' ∧ o'.arr = o.arr ∧
      o'.dtype = o.dtype ∧ q.dtype = o.dtype ∧ q.dims = a.dims ∧ q.units = a.units ∧ q.backend = a.backend ∧ q.halo = a.halo ∧
      (∀ l, a.origin = some l → q.origin = l) ∧ (∀ l, a.extent = some l → q.extent = l) ∧
      (a.origin = none → q.origin = List.replicate a.dims.length 0) ∧
      (a.extent = none → q.extent = List.zipWith (fun (n : Nat) (s : Int) => (n : Int) - s) o.arr.shape q.origin) ∧
      (q.ref = ref ∨ q.ref = heap.length) ∧
      (q.ref = ref ↔ env.optimal ref a.backend (labels a.dims o.arr.shape) = true ∧ o.lib = backendLib env a.backend) := by
  have hlt : ref < heap.length := by
    by_contra hc
    rw [List.getElem?_eq_none (by omega)] at ho; cases ho
  have h1 : (a.origin.getD (List.replicate a.dims.length 0)).length = o.arr.shape.length := by
    cases hc : a.origin with
    | none => simp [hd]
    | some l => exact horg l hc
  have h2 : (a.extent.getD (List.zipWith (fun (length : Nat) (start : Int) => (length : Int) - start) o.arr.shape
      (a.origin.getD (List.replicate a.dims.length 0)))).length = o.arr.shape.length := by
    cases hc : a.extent with
    | none => rw [Option.getD_none, List.length_zipWith, h1, Nat.min_self]
    | some l => exact hext l hc
  have hc : create env heap ref a =
      (if env.optimal ref a.backend (labels a.dims o.arr.shape) && (o.lib == backendLib env a.backend) then
        .ok (heap, ⟨ref, a.dims, a.units, a.backend, a.origin.getD (List.replicate a.dims.length 0), a.extent.getD
          (List.zipWith (fun (length : Nat) (start : Int) => (length : Int) - start) o.arr.shape
            (a.origin.getD (List.replicate a.dims.length 0))), a.halo, o.dtype⟩)
      else .ok (heap ++ [⟨o.arr, o.dtype, backendLib env a.backend⟩],
        ⟨heap.length, a.dims, a.units, a.backend, a.origin.getD (List.replicate a.dims.length 0), a.extent.getD
          (List.zipWith (fun (length : Nat) (start : Int) => (length : Int) - start) o.arr.shape
            (a.origin.getD (List.replicate a.dims.length 0))), a.halo, o.dtype⟩)) := by
    unfold create
    rw [ho]
    simp only
    rw [(precise_iff env o.dtype a.allow).2 hp]
    simp only [Bool.false_eq_true, if_false]
    rw [if_neg hlib, if_neg (by rw [h1, h2, hd]; simp)]
  rw [hc]
  by_cases hs : (env.optimal ref a.backend (labels a.dims o.arr.shape) && (o.lib == backendLib env a.backend)) = true
  · rw [if_pos hs]
    have hs' : env.optimal ref a.backend (labels a.dims o.arr.shape) = true ∧ o.lib = backendLib env a.backend := by
      simpa using hs
    refine ⟨_, _, o, rfl, fun k _ => rfl, ho, rfl, rfl, rfl, rfl, rfl, rfl, rfl, ?_, ?_, ?_, ?_, Or.inl rfl, fun _ => hs', fun _ => rfl⟩
    · intro l hl; simp [hl]
    · intro l hl; simp [hl]
    · intro hl; simp [hl]
    · intro hl; simp [hl]
  · rw [if_neg hs]
    refine ⟨_, _, ⟨o.arr, o.dtype, backendLib env a.backend⟩, rfl, ?_, ?_, rfl, rfl, rfl, rfl, rfl, rfl, rfl, ?_, ?_, ?_, ?_,
      Or.inr rfl, ?_, ?_⟩
    · intro k hk
      rw [List.getElem?_append_left hk]
    · simp
    · intro l hl; simp [hl]
    · intro l hl; simp [hl]
    · intro hl; simp [hl]
    · intro hl; simp [hl]
    · intro h; exact absurd h (by show heap.length ≠ ref; omega)
    · intro h; exact absurd (by simpa using h) hs

/-- C120: without origin and extent the compute domain is the whole array. -/
theorem C120_default_extent (env : Env V) (heap heap' : List (Obj V)) (ref : Nat) (a : Args) (o : Obj V) (q : Qty)
    (ho : heap[ref]? = some o) (h1 : a.origin = none) (h2 : a.extent = none) (h : create env heap ref a = .ok (heap', q)) :
    q.origin = o.arr.shape.map (fun _ => 0) ∧ q.extent = o.arr.shape.map Int.ofNat := by
  unfold create at h
  rw [ho, h1, h2] at h
  simp only [Option.getD_none] at h
  have gen : ∀ (l : List Nat) (n : Nat), n = l.length →
      List.zipWith (fun (length : Nat) (start : Int) => (length : Int) - start) l (List.replicate n 0) = l.map Int.ofNat ∧
      List.replicate n (0 : Int) = l.map fun _ => 0 := by
    intro l
    induction l with
    | nil => intro n hn; subst hn; exact ⟨rfl, rfl⟩
    | cons x l ih =>
      intro n hn
      subst hn
      obtain ⟨i1, i2⟩ := ih l.length rfl
      simp only [List.length_cons, List.replicate_succ, List.zipWith_cons_cons, List.map_cons, i1]
      exact ⟨by simp, by rw [i2]⟩
  split at h
  · cases h
  · split at h
    · cases h
    · split at h
      · cases h
      · rename_i hl
        have hl : a.dims.length = o.arr.shape.length := by
          by_contra hc; exact hl (Or.inl hc)
        obtain ⟨g1, g2⟩ := gen o.arr.shape a.dims.length hl
        split at h <;>
        · cases h
          exact ⟨g2, g1⟩

/-- C120: the constructor refuses exactly a floating point type of another precision, something that is no array, and a number of
dimension names, origins or extents other than the number of axes. -/
theorem C120_refused (env : Env V) (heap : List (Obj V)) (ref : Nat) (a : Args) (o : Obj V) (ho : heap[ref]? = some o) :
    ((create env heap ref a).toOption = none ↔ ¬ Precise env o.dtype a.allow ∨ o.lib = .other ∨ a.dims.length ≠ o.arr.shape.length ∨
      (∃ l, a.origin = some l ∧ l.length ≠ o.arr.shape.length) ∨ ∃ l, a.extent = some l ∧ l.length ≠ o.arr.shape.length) := by
  constructor
  · intro h
    by_contra hc
    simp only [not_or, not_exists, not_and, Classical.not_not] at hc
    obtain ⟨c1, c2, c3, c4, c5⟩ := hc
    obtain ⟨heap', q, o', e, -⟩ := C120_create env heap ref a o ho c1 c2 c3 c4 c5
    rw [e] at h; cases h
  · intro h
    unfold create
    rw [ho]
    simp only
    by_cases hp : (!a.allow && env.floats.contains o.dtype && o.dtype != env.Float) = true
    · rw [if_pos hp]; rfl
    · rw [if_neg hp]
      have hp' : Precise env o.dtype a.allow := (precise_iff env o.dtype a.allow).1 (by simpa using hp)
      by_cases hl : o.lib = .other
      · rw [if_pos hl]; rfl
      · rw [if_neg hl, if_pos]
        · rfl
        · rcases h with h | h | h | ⟨l, h1, h2⟩ | ⟨l, h1, h2⟩
          · exact absurd hp' h
          · exact absurd h hl
          · exact Or.inl h
          · exact Or.inr (Or.inl (by rw [h1]; exact h2))
          · exact Or.inr (Or.inr (by rw [h1]; exact h2))

/-! The compute domain. -/

theorem add_box : ∀ (st ns shape idx : List Nat), fitsAt st ns shape →
    List.zipWith (fun i (r : Nat × Nat) => r.1 + i) idx (List.zipWith (fun s n => (s, n)) st ns) = List.zipWith (fun s i => s + i) st idx
  | [], [], [], idx, _ => by simp
  | s :: ss, n :: ns, m :: ms, idx, h => by
    cases idx with
    | nil => rfl
    | cons i is => simp [add_box ss ns ms is h.2]
  | [], _ :: _, _, _, h => by cases h
  | [], [], _ :: _, _, h => by cases h
  | _ :: _, [], _, _, h => by cases h
  | _ :: _, _ :: _, [], _, h => by cases h

theorem slices_eq : ∀ (og ex : List Int), (∀ x ∈ og, 0 ≤ x) → (∀ x ∈ ex, 0 ≤ x) →
    List.zipWith (fun o e => (o.toNat, (o + e).toNat)) og ex =
      List.zipWith (fun s n => (s, s + n)) (og.map Int.toNat) (ex.map Int.toNat)
  | [], _, _, _ => by simp
  | _ :: _, [], _, _ => by simp
  | o :: og, e :: ex, h1, h2 => by
    have a1 := h1 o List.mem_cons_self
    have a2 := h2 e List.mem_cons_self
    simp only [List.zipWith_cons_cons, List.map_cons]
    rw [slices_eq og ex (fun x hx => h1 x (List.mem_cons_of_mem _ hx)) (fun x hx => h2 x (List.mem_cons_of_mem _ hx))]
    congr 2
    omega

/-- C120: the compute domain of a quantity whose extents lie in its array shows the array from the origin on, with the shape of the
extents. -/
theorem C120_field (heap : List (Obj V)) (q : Qty) (o : Obj V) (ho : heap[q.ref]? = some o) (h1 : ∀ x ∈ q.origin, 0 ≤ x)
    (h2 : ∀ x ∈ q.extent, 0 ≤ x) (hf : fitsAt (q.origin.map Int.toNat) (q.extent.map Int.toNat) o.arr.shape) :
    ∃ f, q.field heap = .ok f ∧ f.shape = q.extent.map Int.toNat ∧
      ∀ idx, f.get idx = o.arr.get (List.zipWith (fun s i => s + i) (q.origin.map Int.toNat) idx) := by
  have hr := regions_ok (q.origin.map Int.toNat) (q.extent.map Int.toNat) o.arr.shape 0 (by simpa using hf)
    (by
      obtain ⟨l1, l2⟩ := fitsAt_len _ _ _ hf
      rw [List.drop_eq_nil_of_le (by omega), List.drop_eq_nil_of_le (by omega)])
  simp only [List.replicate_zero, List.append_nil] at hr
  let rs := List.zipWith (fun s n => (s, n)) (q.origin.map Int.toNat) (q.extent.map Int.toNat)
  refine ⟨⟨rs.map (·.2), fun idx => o.arr.get (List.zipWith (fun i (r : Nat × Nat) => r.1 + i) idx rs)⟩, ?_, ?_, ?_⟩
  · unfold Qty.field
    rw [ho]
    simp only
    unfold readSlices Qty.slices
    rw [slices_eq _ _ h1 h2, hr]
  · exact zip_lens _ _ _ hf
  · intro idx
    show o.arr.get _ = _
    rw [add_box _ _ _ _ hf]

/-! Factories. -/

/-- C120: what a factory allocates is new memory of the size its sizer gives, filled by the allocator, and nothing else changes. -/
theorem C120_allocated (env : Env V) (f : Factory) (heap : List (Obj V)) (values : List Nat → V) (dims : List Dim) (units dtype : String)
    (allow : Bool) (a : Alloc) (ha : allocate f.sizer dims = .ok a) (hn : ∀ n ∈ a.shape, 0 ≤ n) (hp : Precise env dtype allow) :
    ∃ heap' q o, allocateQty env f heap values dims units dtype allow = .ok (heap', q) ∧ Keeps heap heap' ∧ heap.length ≤ q.ref ∧
      heap'[q.ref]? = some o ∧ o.arr = ⟨a.shape.map Int.toNat, values⟩ ∧ o.dtype = dtype ∧ q.dims = dims ∧ q.units = units ∧
      q.backend = f.backend ∧ q.origin = a.origin ∧ q.extent = a.extent ∧ q.halo = f.sizer.nHalo ∧ q.dtype = dtype := by
  obtain ⟨h1, h2, h3, h4⟩ := allocate_ok ha
  have l3 := (mapM_get h3).1
  have l4 := (mapM_get h4).1
  have hneg : (a.shape.any (decide <| · < 0)) = false := by
    rw [List.any_eq_false]
    intro n hn'
    have := hn n hn'
    simpa using this
  let heap1 : List (Obj V) := heap ++ [⟨⟨a.shape.map Int.toNat, values⟩, dtype, backendLib env f.backend⟩]
  have hget : heap1[heap.length]? = some ⟨⟨a.shape.map Int.toNat, values⟩, dtype, backendLib env f.backend⟩ := by
    show (heap ++ _)[heap.length]? = _
    simp
  have hlib : backendLib env f.backend ≠ .other := by
    unfold backendLib; split <;> decide
  obtain ⟨heap', q, o, e1, e2, e3, e4, e5, e6, e7, e8, e9, e10, e11, e12, -, -, e13, -⟩ :=
    C120_create env heap1 heap.length
      { dims := dims, units := units, backend := f.backend, origin := some a.origin, extent := some a.extent, allow := allow,
        halo := f.sizer.nHalo } _ hget hp hlib (by simp only [List.length_map]; exact l4.symm)
      (by
        intro l hl
        cases hl
        rw [h2, List.length_map, l4]
        simp [Sizer.getOrigin])
      (by
        intro l hl
        cases hl
        rw [List.length_map, l3, l4])
  refine ⟨heap', q, o, ?_, ?_, ?_, e3, e4, e5, e7, e8, e9, e11 _ rfl, e12 _ rfl, e10, e6⟩
  · unfold allocateQty
    rw [ha]
    show (if (a.shape.any (decide <| · < 0)) = true then _ else _) = _
    rw [hneg]
    exact e1
  · intro k hk
    rw [e2 k (by show k < (heap ++ _).length; simp; omega)]
    exact List.getElem?_append_left hk
  · have : heap1.length = heap.length + 1 := by simp [heap1]
    omega

/-- C120: `zeros` is zero everywhere, halo and padding included. -/
theorem C120_zeros (env : Env V) (f : Factory) (heap : List (Obj V)) (dims : List Dim) (units dtype : String) (allow : Bool) (a : Alloc)
    (ha : allocate f.sizer dims = .ok a) (hn : ∀ n ∈ a.shape, 0 ≤ n) (hp : Precise env dtype allow) :
    ∃ heap' q o, zeros env f heap dims units dtype allow = .ok (heap', q) ∧ Keeps heap heap' ∧ heap.length ≤ q.ref ∧
      heap'[q.ref]? = some o ∧ o.arr.shape = a.shape.map Int.toNat ∧ q.origin = a.origin ∧ q.extent = a.extent ∧
      ∀ idx, o.arr.get idx = env.zero := by
  obtain ⟨heap', q, o, e1, e2, e3, e4, e5, -, -, -, -, e6, e7, -⟩ :=
    C120_allocated env f heap (fun _ => env.zero) dims units dtype allow a ha hn hp
  exact ⟨heap', q, o, e1, e2, e3, e4, by rw [e5], e6, e7, fun idx => by rw [e5]⟩

/-- C120: `ones` is one everywhere. -/
theorem C120_ones (env : Env V) (f : Factory) (heap : List (Obj V)) (dims : List Dim) (units dtype : String) (allow : Bool) (a : Alloc)
    (ha : allocate f.sizer dims = .ok a) (hn : ∀ n ∈ a.shape, 0 ≤ n) (hp : Precise env dtype allow) :
    ∃ heap' q o, ones env f heap dims units dtype allow = .ok (heap', q) ∧ Keeps heap heap' ∧ heap.length ≤ q.ref ∧
      heap'[q.ref]? = some o ∧ o.arr.shape = a.shape.map Int.toNat ∧ q.origin = a.origin ∧ q.extent = a.extent ∧
      ∀ idx, o.arr.get idx = env.one := by
  obtain ⟨heap', q, o, e1, e2, e3, e4, e5, -, -, -, -, e6, e7, -⟩ :=
    C120_allocated env f heap (fun _ => env.one) dims units dtype allow a ha hn hp
  exact ⟨heap', q, o, e1, e2, e3, e4, by rw [e5], e6, e7, fun idx => by rw [e5]⟩

/-- C120: a factory refuses a dimension it does not know, and a floating point type of another precision, whichever way. -/
theorem C120_factory_refused (env : Env V) (f : Factory) (heap : List (Obj V)) (values : List Nat → V) (dims : List Dim)
    (units dtype : String) (allow : Bool) :
    ((∃ d ∈ dims, extentOf f.sizer d = none) → allocateQty env f heap values dims units dtype allow = .error .keyError) ∧
    (¬ Precise env dtype allow → (allocateQty env f heap values dims units dtype allow).toOption = none) := by
  constructor
  · intro h
    unfold allocateQty
    rw [(C35_known_dims f.sizer dims).2 h]
    rfl
  · intro h
    unfold allocateQty
    cases ha : allocate f.sizer dims with
    | error e => rfl
    | ok a =>
      show Except.toOption (if (a.shape.any (decide <| · < 0)) = true then _ else _) = none
      by_cases hneg : (a.shape.any (decide <| · < 0)) = true
      · rw [if_pos hneg]; rfl
      · rw [if_neg hneg]
        refine (C120_refused env _ heap.length _ ⟨⟨a.shape.map Int.toNat, values⟩, dtype, backendLib env f.backend⟩ ?_).2 (Or.inl h)
        simp

/-! Writing values. -/

theorem fits_iff : ∀ (s t : List Nat), fits s t = true ↔ List.Forall₂ (fun a b => a = b ∨ a = 1) s t
  | [], [] => by simp [fits]
  | [], _ :: _ => by simp [fits]
  | _ :: _, [] => by simp [fits]
  | a :: s, b :: t => by simp [fits, fits_iff s t]

/-- The condition of an assignment is that of NumPy. -/
theorem assign_iff (s t : List Nat) :
    ((s.take (s.length - t.length)).all (· == 1) && fits (s.drop (s.length - t.length))
      (t.drop (t.length - (s.drop (s.length - t.length)).length))) = true ↔ Broadcasts s t := by
  rw [Bool.and_eq_true, fits_iff, List.all_eq_true]
  constructor
  · rintro ⟨h1, h2⟩
    refine ⟨s.length - t.length, t.take (t.length - (s.drop (s.length - t.length)).length), s.drop (s.length - t.length),
      t.drop (t.length - (s.drop (s.length - t.length)).length), ?_, (List.take_append_drop _ _).symm, h2, ?_⟩
    · have : s.take (s.length - t.length) = List.replicate (s.length - t.length) 1 := by
        rw [List.eq_replicate_iff]
        refine ⟨by rw [List.length_take]; omega, ?_⟩
        intro b hb
        simpa using h1 b hb
      rw [← this, List.take_append_drop]
    · by_cases hc : s.length ≤ t.length
      · left; omega
      · right
        rw [List.length_drop, show t.length - (s.length - (s.length - t.length)) = 0 by omega, List.take_zero]
  · rintro ⟨lead, extra, core, rest, rfl, rfl, h3, h4⟩
    have hlen := h3.length_eq
    rcases h4 with rfl | rfl
    · simp only [List.replicate_zero, List.nil_append, List.length_append]
      rw [show core.length - (extra.length + rest.length) = 0 by omega]
      simp only [List.take_zero, List.not_mem_nil, false_imp_iff, implies_true, List.drop_zero, true_and]
      rw [show extra.length + rest.length - core.length = extra.length by omega, List.drop_left']
      · exact h3
      · rfl
    · simp only [List.length_append, List.length_replicate, List.nil_append]
      rw [show lead + core.length - rest.length = lead by omega, List.take_left' (by simp), List.drop_left' (by simp), hlen, Nat.sub_self,
        List.drop_zero]
      refine ⟨?_, h3⟩
      intro x hx
      simp [List.eq_of_mem_replicate hx]

theorem write_ok {heap : List (Obj V)} {q : Qty} {o : Obj V} {slices : List (Nat × Nat)} {value b : Nd V} (ho : heap[q.ref]? = some o)
    (hs : o.arr.shape ≠ []) (ha : assign o.arr slices value = .ok b) :
    write heap q slices value = .ok (heap.set q.ref { o with arr := b }) := by
  unfold write
  rw [ho]
  simp only
  rw [if_neg hs, ha]; rfl

theorem regions_all (shape : List Nat) : regions shape [] = some (shape.map fun n => (0, n)) := by
  cases shape <;> rfl

theorem map_lens (shape : List Nat) : (shape.map fun n => ((0 : Nat), n)).map (·.2) = shape := by
  rw [List.map_map]; exact List.map_id' _

/-- The outcome of `a[:] = d`. -/
theorem assign_all (a d : Nd V) :
    (Broadcasts d.shape a.shape → ∃ b, assign a [] d = .ok b ∧ b.shape = a.shape ∧
      ∀ idx, isIndex a.shape idx → b.get idx = d.get (List.replicate (d.shape.length - a.shape.length) 0 ++
        List.zipWith (fun i s => if s = 1 then 0 else i) (idx.drop (a.shape.length - (d.shape.drop (d.shape.length - a.shape.length)).length))
          (d.shape.drop (d.shape.length - a.shape.length)))) ∧
    (¬ Broadcasts d.shape a.shape → assign a [] d = .error .valueError) := by
  have hw : ∀ (shape idx : List Nat), isIndex shape idx → within (shape.map fun n => ((0 : Nat), n)) idx = true ∧
      List.zipWith (fun i (r : Nat × Nat) => i - r.1) idx (shape.map fun n => ((0 : Nat), n)) = idx := by
    intro shape
    induction shape with
    | nil => intro idx h; cases idx with
      | nil => exact ⟨rfl, rfl⟩
      | cons _ _ => cases h
    | cons n shape ih =>
      intro idx h
      cases idx with
      | nil => cases h
      | cons i is =>
        obtain ⟨i1, i2⟩ := ih is h.2
        have := h.1
        refine ⟨?_, ?_⟩
        · simp only [List.map_cons, within, i1, Bool.and_true, Bool.and_eq_true, decide_eq_true_eq]; omega
        · simp only [List.map_cons, List.zipWith_cons_cons, i2]; rfl
  constructor
  · intro hb
    have hc := (assign_iff d.shape a.shape).2 hb
    unfold assign
    rw [regions_all]
    simp only
    rw [map_lens, if_pos hc]
    refine ⟨_, rfl, rfl, ?_⟩
    intro idx hidx
    obtain ⟨w1, w2⟩ := hw a.shape idx hidx
    simp only
    rw [if_pos w1, w2]
  · intro hb
    have hc : ¬ _ := fun h => hb ((assign_iff d.shape a.shape).1 h)
    unfold assign
    rw [regions_all]
    simp only
    rw [map_lens, if_neg hc]

/-- A list of numbers broadcast to itself. -/
theorem broadcasts_self (s : List Nat) : Broadcasts s s :=
  ⟨0, [], s, s, by simp, by simp, List.forall₂_same.2 fun _ _ => Or.inl rfl, Or.inl rfl⟩

theorem self_index : ∀ (s idx : List Nat), isIndex s idx → List.zipWith (fun i s => if s = 1 then 0 else i) idx s = idx
  | [], [], _ => rfl
  | n :: s, i :: idx, h => by
    simp only [List.zipWith_cons_cons, self_index s idx h.2]
    have := h.1
    congr 1
    split <;> omega
  | [], _ :: _, h => by cases h
  | _ :: _, [], h => by cases h

theorem shape_ne {f : Factory} {dims : List Dim} {a : Alloc} (ha : allocate f.sizer dims = .ok a) (hd : dims ≠ []) :
    a.shape.map Int.toNat ≠ [] := by
  obtain ⟨-, -, -, h4⟩ := allocate_ok ha
  have l4 := (mapM_get h4).1
  intro h
  rw [List.map_eq_nil_iff] at h
  rw [h] at l4
  exact hd (List.length_eq_zero_iff.1 l4.symm)

/-- C120: a quantity with axes made full of a value has it everywhere. -/
theorem C120_full (env : Env V) (f : Factory) (heap : List (Obj V)) (dims : List Dim) (hd : dims ≠ []) (units dtype : String)
    (allow : Bool) (a : Alloc) (ha : allocate f.sizer dims = .ok a) (hn : ∀ n ∈ a.shape, 0 ≤ n) (hp : Precise env dtype allow) (v : V) :
    ∃ heap' q o, full env f heap dims units ⟨[], fun _ => v⟩ dtype allow = .ok (heap', q) ∧ Keeps heap heap' ∧ heap.length ≤ q.ref ∧
      heap'[q.ref]? = some o ∧ o.arr.shape = a.shape.map Int.toNat ∧ q.origin = a.origin ∧ q.extent = a.extent ∧
      ∀ idx, isIndex o.arr.shape idx → o.arr.get idx = v := by
  obtain ⟨heap1, q, o, e1, e2, e3, e4, e5, e6, -, -, -, e7, e8, -⟩ := C120_allocated env f heap env.junk dims units dtype allow a ha hn hp
  have hsh : o.arr.shape = a.shape.map Int.toNat := by rw [e5]
  have hb : Broadcasts [] o.arr.shape := ⟨0, o.arr.shape, [], [], by simp, by simp, List.Forall₂.nil, Or.inl rfl⟩
  obtain ⟨b, b1, b2, b3⟩ := (assign_all o.arr ⟨[], fun _ => v⟩).1 hb
  have hw := write_ok e4 (by rw [hsh]; exact shape_ne ha hd) b1
  have hlt : q.ref < heap1.length := by
    by_contra hc; rw [List.getElem?_eq_none (by omega)] at e4; cases e4
  refine ⟨heap1.set q.ref { o with arr := b }, q, { o with arr := b }, ?_, ?_, e3, ?_, by rw [← hsh]; exact b2, e7, e8, ?_⟩
  · unfold full
    rw [e1]
    show (do let heap ← write heap1 q [] _; pure (heap, q)) = _
    rw [hw]; rfl
  · intro k hk
    rw [List.getElem?_set_ne (by omega)]
    exact e2 k hk
  · rw [List.getElem?_set_self hlt]
  · intro idx hidx
    exact b3 idx (b2 ▸ hidx)

/-- What `from_array` does, for all arrays. -/
theorem fromArray_ok (env : Env V) (f : Factory) (heap : List (Obj V)) (data : Nat) (d : Obj V) (hdata : heap[data]? = some d)
    (dims : List Dim) (hd : dims ≠ []) (units : String) (allow : Bool) (a : Alloc) (ha : allocate f.sizer dims = .ok a)
    (hn : ∀ n ∈ a.shape, 0 ≤ n) (hp : Precise env d.dtype allow) :
    (Broadcasts d.arr.shape (a.shape.map Int.toNat) →
      ∃ heap' q o, fromArray env f heap data dims units allow = .ok (heap', q) ∧ Keeps heap heap' ∧ heap.length ≤ q.ref ∧
        heap'[q.ref]? = some o ∧ o.arr.shape = a.shape.map Int.toNat ∧ o.dtype = d.dtype ∧ q.origin = a.origin ∧ q.extent = a.extent ∧
        ∀ idx, isIndex o.arr.shape idx → o.arr.get idx = d.arr.get (List.replicate (d.arr.shape.length - o.arr.shape.length) 0 ++
          List.zipWith (fun i s => if s = 1 then 0 else i)
            (idx.drop (o.arr.shape.length - (d.arr.shape.drop (d.arr.shape.length - o.arr.shape.length)).length))
            (d.arr.shape.drop (d.arr.shape.length - o.arr.shape.length)))) ∧
    (¬ Broadcasts d.arr.shape (a.shape.map Int.toNat) → fromArray env f heap data dims units allow = .error .valueError) := by
  obtain ⟨heap1, q, o, e1, e2, e3, e4, e5, e6, -, -, -, e7, e8, -⟩ :=
    C120_allocated env f heap (fun _ => env.zero) dims units d.dtype allow a ha hn hp
  have hsh : o.arr.shape = a.shape.map Int.toNat := by rw [e5]
  have hlt : q.ref < heap1.length := by
    by_contra hc; rw [List.getElem?_eq_none (by omega)] at e4; cases e4
  have hu : fromArray env f heap data dims units allow = (do let heap ← write heap1 q [] d.arr; pure (heap, q)) := by
    unfold fromArray
    rw [hdata]
    show (do let r ← zeros env f heap dims units d.dtype allow; _) = _
    unfold zeros
    rw [e1]; rfl
  rw [← hsh]
  constructor
  · intro hb
    obtain ⟨b, b1, b2, b3⟩ := (assign_all o.arr d.arr).1 hb
    have hw := write_ok e4 (by rw [hsh]; exact shape_ne ha hd) b1
    refine ⟨heap1.set q.ref { o with arr := b }, q, { o with arr := b }, ?_, ?_, e3, ?_, b2, e6, e7, e8, ?_⟩
    · rw [hu, hw]; rfl
    · intro k hk
      rw [List.getElem?_set_ne (by omega)]
      exact e2 k hk
    · rw [List.getElem?_set_self hlt]
    · intro idx hidx
      simp only [b2] at hidx ⊢
      exact b3 idx hidx
  · intro hb
    rw [hu]
    have : write heap1 q [] d.arr = .error .valueError := by
      unfold write
      rw [e4]
      simp only
      rw [if_neg (by rw [hsh]; exact shape_ne ha hd), (assign_all o.arr d.arr).2 hb]; rfl
    rw [this]; rfl

/-- C120: a quantity made from an array of its size holds a copy of its values; the array stays as it is and is not shared. -/
theorem C120_from_array (env : Env V) (f : Factory) (heap : List (Obj V)) (data : Nat) (d : Obj V) (hdata : heap[data]? = some d)
    (dims : List Dim) (hd : dims ≠ []) (units : String) (allow : Bool) (a : Alloc) (ha : allocate f.sizer dims = .ok a)
    (hn : ∀ n ∈ a.shape, 0 ≤ n) (hp : Precise env d.dtype allow) (hs : d.arr.shape = a.shape.map Int.toNat) :
    ∃ heap' q o, fromArray env f heap data dims units allow = .ok (heap', q) ∧ Keeps heap heap' ∧ heap.length ≤ q.ref ∧
      heap'[q.ref]? = some o ∧ o.arr.shape = d.arr.shape ∧ o.dtype = d.dtype ∧ q.origin = a.origin ∧ q.extent = a.extent ∧
      ∀ idx, isIndex d.arr.shape idx → o.arr.get idx = d.arr.get idx := by
  obtain ⟨heap', q, o, e1, e2, e3, e4, e5, e6, e7, e8, e9⟩ :=
    (fromArray_ok env f heap data d hdata dims hd units allow a ha hn hp).1 (by rw [hs]; exact broadcasts_self _)
  refine ⟨heap', q, o, e1, e2, e3, e4, e5.trans hs.symm, e6, e7, e8, ?_⟩
  intro idx hidx
  have ho : o.arr.shape = d.arr.shape := e5.trans hs.symm
  rw [e9 idx (by rw [ho]; exact hidx), ho, Nat.sub_self, List.replicate_zero, List.drop_zero, Nat.sub_self, List.drop_zero,
    List.nil_append, self_index _ _ hidx]

/-- C120: exactly the arrays NumPy can stretch to the size of the quantity are taken, all others are refused. -/
theorem C120_from_array_accepts (env : Env V) (f : Factory) (heap : List (Obj V)) (data : Nat) (d : Obj V) (hdata : heap[data]? = some d)
    (dims : List Dim) (hd : dims ≠ []) (units : String) (allow : Bool) (a : Alloc) (ha : allocate f.sizer dims = .ok a)
    (hn : ∀ n ∈ a.shape, 0 ≤ n) (hp : Precise env d.dtype allow) :
    (∃ r, fromArray env f heap data dims units allow = .ok r) ↔ Broadcasts d.arr.shape (a.shape.map Int.toNat) := by
  have h := fromArray_ok env f heap data d hdata dims hd units allow a ha hn hp
  constructor
  · rintro ⟨r, hr⟩
    by_contra hc
    rw [h.2 hc] at hr; cases hr
  · intro hb
    obtain ⟨heap', q, o, e1, -⟩ := h.1 hb
    exact ⟨_, e1⟩

/-- The compute domain of an allocated quantity fits in its array. -/
theorem alloc_fits {s : Sizer} (hx : 0 ≤ s.nx) (hy : 0 ≤ s.ny) (hz : 0 ≤ s.nz) (hh : 0 ≤ s.nHalo) (hdata : ∀ e ∈ s.data, 0 ≤ e.2)
    {dims : List Dim} {a : Alloc} (ha : allocate s dims = .ok a) :
    fitsAt (a.origin.map Int.toNat) (a.extent.map Int.toNat) (a.shape.map Int.toNat) ∧ (∀ x ∈ a.origin, 0 ≤ x) ∧
      (∀ x ∈ a.extent, 0 ≤ x) ∧ ∀ x ∈ a.shape, 0 ≤ x := by
  obtain ⟨-, l1, l2, l3, h⟩ := C35_fit s hx hy hz hh hdata dims a ha
  have gen : ∀ (og ex sh : List Int), og.length = ex.length → sh.length = ex.length →
      (∀ k, k < ex.length → ∃ o e n : Int, og[k]? = some o ∧ ex[k]? = some e ∧ sh[k]? = some n ∧ 0 ≤ o ∧ 0 ≤ e ∧ o + e ≤ n) →
      fitsAt (og.map Int.toNat) (ex.map Int.toNat) (sh.map Int.toNat) ∧ (∀ x ∈ og, 0 ≤ x) ∧ (∀ x ∈ ex, 0 ≤ x) ∧ ∀ x ∈ sh, 0 ≤ x := by
    intro og
    induction og with
    | nil =>
      intro ex sh h1 h2 _
      have : ex = [] := List.length_eq_zero_iff.1 h1.symm
      subst this
      have : sh = [] := List.length_eq_zero_iff.1 h2
      subst this
      exact ⟨trivial, by simp, by simp, by simp⟩
    | cons o og ih =>
      intro ex sh h1 h2 hk
      cases ex with
      | nil => cases h1
      | cons e ex =>
        cases sh with
        | nil => cases h2
        | cons n sh =>
          obtain ⟨o', e', n', a1, a2, a3, a4, a5, a6⟩ := hk 0 (by simp)
          cases a1; cases a2; cases a3
          obtain ⟨i1, i2, i3, i4⟩ := ih ex sh (by simpa using h1) (by simpa using h2) (fun k hk' => by
            obtain ⟨o', e', n', b⟩ := hk (k + 1) (by simp; omega)
            exact ⟨o', e', n', by simpa using b⟩)
          refine ⟨⟨by omega, i1⟩, ?_, ?_, ?_⟩ <;> intro x hx
          · rcases List.mem_cons.1 hx with rfl | hx
            · exact a4
            · exact i2 x hx
          · rcases List.mem_cons.1 hx with rfl | hx
            · exact a5
            · exact i3 x hx
          · rcases List.mem_cons.1 hx with rfl | hx
            · omega
            · exact i4 x hx
  refine gen _ _ _ (l1.trans l2.symm) (l3.trans l2.symm) ?_
  intro k hk
  have hkd : k < dims.length := by omega
  obtain ⟨o, e, n, a1, a2, a3, -, a4, a5, a6, -⟩ := h k dims[k] (List.getElem?_eq_getElem hkd)
  exact ⟨o, e, n, a1, a2, a3, a4, a5, a6⟩

/-- C120: a quantity made from an array of the size of its compute domain holds it there and zeros in the halo and the padding; the
array is copied. -/
theorem C120_from_compute_array (env : Env V) (f : Factory) (heap : List (Obj V)) (data : Nat) (d : Obj V) (hdata : heap[data]? = some d)
    (hx : 0 ≤ f.sizer.nx) (hy : 0 ≤ f.sizer.ny) (hz : 0 ≤ f.sizer.nz) (hh : 0 ≤ f.sizer.nHalo) (hdd : ∀ e ∈ f.sizer.data, 0 ≤ e.2)
    (dims : List Dim) (hd : dims ≠ []) (units : String) (allow : Bool) (a : Alloc) (ha : allocate f.sizer dims = .ok a)
    (hp : Precise env d.dtype allow) (hs : d.arr.shape = a.extent.map Int.toNat) :
    ∃ heap' q o g, fromComputeArray env f heap data dims units allow = .ok (heap', q) ∧ Keeps heap heap' ∧ heap.length ≤ q.ref ∧
      heap'[q.ref]? = some o ∧ o.arr.shape = a.shape.map Int.toNat ∧ q.origin = a.origin ∧ q.extent = a.extent ∧
      (∀ idx, o.arr.get idx = placed env.zero d.arr (a.origin.map Int.toNat) idx) ∧
      q.field heap' = .ok g ∧ g.shape = d.arr.shape ∧ ∀ idx, isIndex d.arr.shape idx → g.get idx = d.arr.get idx := by
  obtain ⟨f1, f2, f3, f4⟩ := alloc_fits hx hy hz hh hdd ha
  obtain ⟨heap1, q, o, e1, e2, e3, e4, e5, e6, -, -, -, e7, e8, -⟩ :=
    C120_allocated env f heap (fun _ => env.zero) dims units d.dtype allow a ha f4 hp
  have hsh : o.arr.shape = a.shape.map Int.toNat := by rw [e5]
  have hlt : q.ref < heap1.length := by
    by_contra hc; rw [List.getElem?_eq_none (by omega)] at e4; cases e4
  obtain ⟨b, b1, b2, b3⟩ := assign_ok env.zero d.arr (a.origin.map Int.toNat) (a.shape.map Int.toNat) 0
    (by rw [List.replicate_zero, List.append_nil, hs]; exact f1)
    (by
      obtain ⟨l1, l2⟩ := fitsAt_len _ _ _ f1
      rw [hs, List.drop_eq_nil_of_le (by omega), List.drop_eq_nil_of_le (by omega)])
  have hsl : q.slices = List.zipWith (fun s n => (s, s + n)) (a.origin.map Int.toNat) d.arr.shape := by
    unfold Qty.slices
    rw [e7, e8, slices_eq _ _ f2 f3, hs]
  have ho : o.arr = Storage.zeros env.zero (a.shape.map Int.toNat) := e5
  have hw := write_ok (slices := q.slices) (value := d.arr) e4 (by rw [hsh]; exact shape_ne ha hd) (by rw [ho, hsl]; exact b1)
  have hget : (heap1.set q.ref { o with arr := b })[q.ref]? = some { o with arr := b } := List.getElem?_set_self hlt
  obtain ⟨g, g1, g2, g3⟩ := C120_field (heap1.set q.ref { o with arr := b }) q { o with arr := b } hget (by rw [e7]; exact f2)
    (by rw [e8]; exact f3) (by rw [e7, e8]; show fitsAt _ _ b.shape; rw [b2]; exact f1)
  refine ⟨heap1.set q.ref { o with arr := b }, q, { o with arr := b }, g, ?_, ?_, e3, hget, b2, e7, e8, ?_, g1, ?_, ?_⟩
  · unfold fromComputeArray
    rw [hdata]
    show (do let r ← zeros env f heap dims units d.dtype allow; _) = _
    unfold zeros
    rw [e1]
    show (do let heap ← write heap1 q q.slices d.arr; pure (heap, q)) = _
    rw [hw]; rfl
  · intro k hk
    rw [List.getElem?_set_ne (by omega)]
    exact e2 k hk
  · intro idx
    rw [show ({ o with arr := b } : Obj V).arr.get idx = b.get idx from rfl, b3, List.replicate_zero, List.append_nil]
  · rw [g2, e8, hs]
  · intro idx hidx
    rw [g3, show ({ o with arr := b } : Obj V).arr = b from rfl, b3, List.replicate_zero, List.append_nil, e7]
    have hbox : ∀ (st ns idx : List Nat), st.length = ns.length → isIndex ns idx →
        inBox st ns (List.zipWith (fun s i => s + i) st idx) = true ∧
        List.zipWith (· - ·) (List.zipWith (fun s i => s + i) st idx) st = idx := by
      intro st
      induction st with
      | nil =>
        intro ns idx hl hi
        have : ns = [] := List.length_eq_zero_iff.1 hl.symm
        subst this
        cases idx with
        | nil => exact ⟨rfl, rfl⟩
        | cons _ _ => cases hi
      | cons s st ih =>
        intro ns idx hl hi
        cases ns with
        | nil => cases hl
        | cons n ns =>
          cases idx with
          | nil => cases hi
          | cons i idx =>
            obtain ⟨i1, i2⟩ := ih ns idx (by simpa using hl) hi.2
            have := hi.1
            refine ⟨?_, ?_⟩
            · simp only [List.zipWith_cons_cons, inBox, i1, Bool.and_true, decide_eq_true_eq]; omega
            · simp only [List.zipWith_cons_cons, i2]; congr 1; omega
    obtain ⟨c1, c2⟩ := hbox (a.origin.map Int.toNat) d.arr.shape idx (by
      rw [hs]; exact (fitsAt_len _ _ _ f1).1.symm) hidx
    unfold placed
    rw [if_pos c1, c2]

/-- C120: the specification of a halo update made by a factory is that of every quantity it makes with these dimensions and numbers; no more points
than the halo has are allowed. -/
theorem C120_halo_spec (env : Env V) (f : Factory) (heap : List (Obj V)) (values : List Nat → V) (dims : List Dim) (units dtype : String)
    (allow : Bool) (a : Alloc) (ha : allocate f.sizer dims = .ok a) (hn : ∀ n ∈ a.shape, 0 ≤ n) (hp : Precise env dtype false)
    (points : Option Int) :
    ∃ heap' q, allocateQty env f heap values dims units dtype allow = .ok (heap', q) ∧
      haloSpec env f heap dims points dtype = q.haloSpec heap' (points.getD f.sizer.nHalo) ∧
      (∀ s, haloSpec env f heap dims points dtype = .ok s → s.points = (match points with | some n => n | none => f.sizer.nHalo) ∧
        s.shape = a.shape.map Int.toNat ∧ s.origin = a.origin ∧ s.extent = a.extent ∧ s.dims = dims ∧ s.dtype = dtype) ∧
      ((∃ s, haloSpec env f heap dims points dtype = .ok s) ↔ points.getD f.sizer.nHalo ≤ f.sizer.nHalo) := by
  have hp' : Precise env dtype allow := by
    rcases hp with h | h
    · cases h
    · exact Or.inr h
  obtain ⟨heap1, q, o, e1, -, -, e4, e5, e6, e7, -, -, e8, e9, e10, e11⟩ := C120_allocated env f heap values dims units dtype allow a ha hn hp'
  obtain ⟨heap2, t, p, k1, -, -, k4, k5, k6, k7, -, -, k8, k9, k10, k11⟩ :=
    C120_allocated env f heap (fun _ => env.zero) dims "" dtype false a ha hn hp
  have h1 : haloSpec env f heap dims points dtype = t.haloSpec heap2 (points.getD f.sizer.nHalo) := by
    unfold haloSpec zeros
    rw [k1]; rfl
  refine ⟨heap1, q, e1, ?_, ?_, ?_⟩
  rotate_left
  · intro s hs
    rw [h1] at hs
    unfold Qty.haloSpec at hs
    rw [k4] at hs
    simp only at hs
    split at hs
    · cases hs
    · cases hs
      refine ⟨by cases points <;> rfl, by rw [k5], k8, k9, k7, k11⟩
  rotate_left
  · rw [h1]
    unfold Qty.haloSpec
    rw [k4, e4]
    simp only
    rw [k10, e10, k5, e5, k8, e8, k9, e9, k7, e7, k11, e11]
  · rw [h1]
    unfold Qty.haloSpec
    rw [k4]
    simp only
    rw [k10]
    by_cases hc : points.getD f.sizer.nHalo > f.sizer.nHalo
    · rw [if_pos hc]
      constructor
      · rintro ⟨s, hs⟩; cases hs
      · intro h; omega
    · rw [if_neg hc]
      exact ⟨fun _ => by omega, fun _ => ⟨_, rfl⟩⟩

/-! ### What does not hold -/

/-- Small numbers: nothing is in a good memory order but what the factory allocated, no GPU, double precision. -/
def exEnv : Env Nat := ⟨fun r _ _ => r == 1, fun b => b == "gpu", "float64", ["float32", "float64"], 0, 1, fun _ => 77⟩

/-- A 2 x 2 tile with 3 levels, 1 halo point and no padding -/
def exFactory : Factory := ⟨⟨2, 2, 3, 1, [(.other "face", 2), (.other "tracer", 9)], false⟩, "numpy"⟩

/-- C120 (not so: an array of the wrong size is refused): a single level is repeated on all levels, and a vector along the last axis is
repeated along all others. -/
theorem C120_stretched_violated :
    ((fromArray exEnv exFactory [⟨⟨[4, 4, 1], fun i => i.getD 0 0 * 10 + i.getD 1 0⟩, "float64", .numpy⟩] 0 [.i, .j, .k] "K"
      false).toOption.map fun r => ([[1, 2, 0], [1, 2, 2]].map ((r.1.getD 1 ⟨⟨[], fun _ => 0⟩, "", .other⟩).arr.get))) = some [12, 12] ∧
    ((fromArray exEnv exFactory [⟨⟨[4], fun i => i.getD 0 0⟩, "float64", .numpy⟩] 0 [.i, .j] "K" false).toOption.map fun r =>
      ([[0, 2], [3, 2]].map ((r.1.getD 1 ⟨⟨[], fun _ => 0⟩, "", .other⟩).arr.get))) = some [2, 2] := by
  decide +kernel

/-- C120 (not so: the compute domain lies in the array): an extent beyond the end of the array is taken, and the compute domain is then smaller
than the extent says. -/
theorem C120_extent_violated :
    ((create exEnv [⟨⟨[4], fun _ => 5⟩, "float64", .numpy⟩] 0
      { dims := [.i], units := "K", backend := "numpy", origin := some [1], extent := some [10] }).toOption.bind fun r =>
        (r.2.field r.1).toOption.map fun g => (r.2.extent, g.shape)) = some ([10], [3]) := by
  decide +kernel

/-- C120 (not so: axes are announced to GT4Py by what they are): the labels go by position. A vertical column is announced as a row along
I; a data dimension called "face" is announced as the fourth axis without length because its name is part of "i_interface", where "tracer" is announced by its
length; a vertical axis in fourth position has no name. -/
theorem C120_labels_violated :
    labels [.k] [3] = [.axis (some "I")] ∧
    labels [.i, .j, .k, .other "face"] [4, 4, 3, 2] = [.axis (some "I"), .axis (some "J"), .axis (some "K"), .axis none] ∧
    labels [.i, .j, .k, .other "tracer"] [4, 4, 3, 9] = [.axis (some "I"), .axis (some "J"), .axis (some "K"), .size 9] ∧
    labels [.other "tracer", .i, .j, .k] [9, 4, 4, 3] = [.size 9, .axis (some "J"), .axis (some "K"), .axis none] := by
  decide +kernel

/-- C120 (not so: every quantity can be filled): `empty` makes a quantity without axes, `full` raises for it whatever the value. -/
theorem C120_no_axes_violated (env : Env V) (f : Factory) (heap : List (Obj V)) (units dtype : String) (allow : Bool)
    (hp : Precise env dtype allow) (v : Nd V) :
    (∃ r, empty env f heap [] units dtype allow = .ok r) ∧ full env f heap [] units v dtype allow = .error .indexError := by
  have ha : allocate f.sizer [] = .ok ⟨[], [], [], []⟩ := rfl
  obtain ⟨heap', q, o, e1, -, -, e4, e5, -⟩ := C120_allocated env f heap env.junk [] units dtype allow _ ha (by simp) hp
  refine ⟨⟨_, e1⟩, ?_⟩
  unfold full
  rw [e1]
  show (do let heap ← write heap' q [] v; pure (heap, q)) = _
  unfold write
  rw [e4]
  simp only
  rw [if_pos (by rw [e5]; rfl)]; rfl

/-! ### Examples -/

example : allocate exFactory.sizer [.i, .jInterface, .k, .other "tracer"] =
    .ok ⟨[.i, .jInterface, .k, .other "tracer"], [1, 1, 0, 0], [2, 3, 3, 9], [4, 5, 3, 9]⟩ ∧
    Precise exEnv "float64" false ∧ Precise exEnv "int64" false ∧ Precise exEnv "float32" true ∧ ¬ Precise exEnv "float32" false := by
  refine ⟨by decide +kernel, ?_⟩
  unfold Precise; decide

example : Broadcasts [4, 1] [3, 4, 5] ∧ Broadcasts [1, 1, 4] [4] :=
  ⟨⟨0, [3], [4, 1], [4, 5], rfl, rfl, by simp, by simp⟩, ⟨2, [], [4], [4], rfl, rfl, by simp, by simp⟩⟩

/-- The array is copied into the compute domain, with zeros around. -/
example : ((fromComputeArray exEnv exFactory [⟨⟨[2, 2], fun i => 10 + i.getD 0 0 * 2 + i.getD 1 0⟩, "float64", .numpy⟩] 0 [.i, .j] "K"
    false).toOption.map fun r => (r.2.ref, [[0, 0], [1, 1], [1, 2], [2, 2], [3, 2]].map
      ((r.1.getD 1 ⟨⟨[], fun _ => 0⟩, "", .other⟩).arr.get))) = some (1, [0, 10, 11, 13, 0]) := by
  decide +kernel

/-- An array in a memory order good for the backend is shared; for the GPU it is copied. -/
example : ((create exEnv [⟨⟨[4], fun _ => 5⟩, "float64", .numpy⟩, ⟨⟨[4], fun _ => 6⟩, "float64", .numpy⟩] 1
      { dims := [.i], units := "K", backend := "numpy" }).toOption.map fun r => (r.2.ref, r.1.length, r.2.extent)) = some (1, 2, [4]) ∧
    ((create exEnv [⟨⟨[4], fun _ => 5⟩, "float64", .numpy⟩, ⟨⟨[4], fun _ => 6⟩, "float64", .numpy⟩] 1
      { dims := [.i], units := "K", backend := "gpu" }).toOption.map fun r => (r.2.ref, r.1.length, r.2.extent)) = some (2, 3, [4]) := by
  decide +kernel

/-- The halo specification for two points is refused when the halo has one. -/
example : (haloSpec exEnv exFactory [] [.i, .j] none "float64").toOption = some ⟨1, [4, 4], [1, 1], [2, 2], [.i, .j], "float64"⟩ ∧
    (haloSpec exEnv exFactory [] [.i, .j] (some 2) "float64").toOption = none := by
  decide +kernel

end NDSL.MakeQuantity
