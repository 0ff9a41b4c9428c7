import Verif.Model.TestGridData
import Verif.Props.GridStorage
/-
C134: the grid data of a test is the reference data.
-/
namespace NDSL.TestGridData
open NDSL.Storage NDSL.GridStorage

variable {V : Type}

/-! ### One field -/

theorem fitsAt_zero : ∀ shape : List Nat, fitsAt (List.replicate shape.length 0) shape shape
  | [] => trivial
  | n :: ns => ⟨by simp, fitsAt_zero ns⟩

theorem inBox_zero : ∀ shape idx : List Nat, isIndex shape idx → inBox (List.replicate shape.length 0) shape idx = true
  | [], [], _ => rfl
  | n :: ns, i :: is, h => by
    have := inBox_zero ns is h.2
    simp [inBox, List.replicate_succ, h.1, this]
  | [], _ :: _, h => by cases h
  | _ :: _, [], h => by cases h

theorem sub_zero : ∀ shape idx : List Nat, isIndex shape idx →
    List.zipWith (· - ·) idx (List.replicate shape.length 0) = idx
  | [], [], _ => rfl
  | n :: ns, i :: is, h => by
    have := sub_zero ns is h.2
    simp [List.replicate_succ, this]
  | [], _ :: _, h => by cases h
  | _ :: _, [], h => by cases h

/-- Data of the shape of the quantity. -/
theorem setAll_same (z : V) (shape : List Nat) (a : Nd V) (ha : a.shape = shape) :
    ∃ r, setAll z shape a = .ok r ∧ r.shape = shape ∧ ∀ idx, isIndex shape idx → r.get idx = a.get idx := by
  subst ha
  obtain ⟨b, h1, h2, h3⟩ := assign_ok z a [] a.shape a.shape.length (by simpa using fitsAt_zero a.shape) (by simp)
  simp only [List.zipWith_nil_left, List.nil_append] at h1 h3
  refine ⟨b, by simp only [setAll, h1], h2, fun idx h => ?_⟩
  rw [h3, placed, if_pos (inBox_zero _ _ h), sub_zero _ _ h]

/-- A row. -/
theorem setAll_row (z : V) (n0 n1 : Nat) (h1 : n1 ≠ 1) (a : Nd V) (ha : a.shape = [1, n1]) :
    ∃ r, setAll z [n0, n1] a = .ok r ∧ r.shape = [n0, n1] ∧ ∀ i j, i < n0 → j < n1 → r.get [i, j] = a.get [0, j] := by
  refine ⟨⟨[n0, n1], fun idx => if within [(0, n0), (0, n1)] idx then
      a.get (List.zipWith (fun i s => if s = 1 then 0 else i)
        (List.zipWith (fun i (r : Nat × Nat) => i - r.1) idx [(0, n0), (0, n1)]) [1, n1]) else z⟩, ?_, rfl, fun i j hi hj => ?_⟩
  · simp [setAll, assign, zeros, regions, ha, fits]
  · simp [within, hi, hj, h1]

/-- Data too large along one axis, of at least two points, cannot be stored. -/
theorem setAll_error (z : V) (n0 n1 m0 m1 : Nat) (a : Nd V) (ha : a.shape = [m0, m1]) (h : m0 ≠ n0) (h1 : m0 ≠ 1) :
    setAll z [n0, n1] a = .error .value := by
  simp [setAll, assign, zeros, regions, ha, fits, h, h1]

/-! ### All fields -/

theorem fields_get (z : V) (s : Sizes) (attrs : Attrs V) (c : Bool) (l : List Field) (hl : (l.map (·.name)).Nodup)
    {r : List (String × Nd V)} (h : fields z s attrs c l = .ok r) :
    r.map (·.1) = l.map (·.name) ∧ ∀ f ∈ l, ∃ a b, attrs f.source = some a ∧
      (if c then clip else setAll) z (f.dims.map s.size) a = .ok b ∧ dictGet r f.name = some b := by
  induction l generalizing r with
  | nil =>
    unfold fields at h
    injection h with h
    subst h
    exact ⟨rfl, by simp⟩
  | cons f l ih =>
    unfold fields at h
    simp only [List.map_cons, List.nodup_cons] at hl
    split at h
    · cases h
    rename_i x hx
    split at h
    · cases h
    rename_i r' hr
    injection h with h
    subst h
    obtain ⟨i1, i2⟩ := ih hl.2 hr
    unfold field at hx
    split at hx
    · cases hx
    rename_i a ha
    split at hx
    on_goal 2 => cases hx
    rename_i b hb
    injection hx with hx
    subst hx
    refine ⟨by simp [i1], fun g hg => ?_⟩
    rcases List.mem_cons.1 hg with rfl | hg
    · exact ⟨a, b, ha, hb, by simp [dictGet]⟩
    · obtain ⟨a', b', j1, j2, j3⟩ := i2 g hg
      refine ⟨a', b', j1, j2, ?_⟩
      have hne : (f.name == g.name) = false := by
        have : f.name ≠ g.name := fun e => hl.1 (by rw [e]; exact List.mem_map_of_mem hg)
        simpa using this
      simp only [dictGet, List.find?_cons, hne]
      exact j3

theorem dictGet_append_left {A : Type} (c p : List (String × A)) (n : String) (v : A) (h : dictGet c n = some v) :
    dictGet (c ++ p) n = some v := by
  unfold dictGet at h ⊢
  rw [List.find?_append]
  cases hc : c.find? fun e => e.1 == n with
  | none => rw [hc] at h; cases h
  | some x => rw [hc] at h; exact h

theorem dictGet_append_right {A : Type} (c p : List (String × A)) (n : String) (h : n ∉ c.map (·.1)) :
    dictGet (c ++ p) n = dictGet p n := by
  unfold dictGet
  rw [List.find?_append]
  have : c.find? (fun e => e.1 == n) = none := by
    rw [List.find?_eq_none]
    intro x hx hn
    exact h (by rw [← eq_of_beq hn]; exact List.mem_map_of_mem hx)
  rw [this]
  rfl

theorem make_get (z : V) (s : Sizes) (attrs : Attrs V) {gd : List (String × Nd V)} (h : make z s attrs = .ok gd) :
    (∀ f ∈ clippedFields, ∃ a b, attrs f.source = some a ∧ clip z (f.dims.map s.size) a = .ok b ∧ dictGet gd f.name = some b) ∧
    (∀ f ∈ plainFields, ∃ a b, attrs f.source = some a ∧ setAll z (f.dims.map s.size) a = .ok b ∧ dictGet gd f.name = some b) := by
  unfold make at h
  split at h
  · cases h
  rename_i c hc
  split at h
  · cases h
  rename_i p hp
  injection h with h
  subst h
  obtain ⟨c1, c2⟩ := fields_get z s attrs true clippedFields (by decide) hc
  obtain ⟨p1, p2⟩ := fields_get z s attrs false plainFields (by decide) hp
  constructor
  · intro f hf
    obtain ⟨a, b, x1, x2, x3⟩ := c2 f hf
    exact ⟨a, b, x1, x2, dictGet_append_left _ _ _ _ x3⟩
  · intro f hf
    obtain ⟨a, b, x1, x2, x3⟩ := p2 f hf
    refine ⟨a, b, x1, x2, ?_⟩
    rw [dictGet_append_right _ _ _ (by
      rw [c1]
      have : ∀ f ∈ plainFields, f.name ∉ clippedFields.map (·.name) := by decide
      exact this f hf)]
    exact x3

/-! ### C134 -/

/-- C134: every field that is not cut has, at every point, the value of the variable it is made from. -/
theorem C134_fields {z : V} {s : Sizes} {attrs : Attrs V} {gd : List (String × Nd V)} (h : make z s attrs = .ok gd)
    {f : Field} (hf : f ∈ plainFields) {a : Nd V} (ha : attrs f.source = some a) (hs : a.shape = f.dims.map s.size) :
    ∃ r, dictGet gd f.name = some r ∧ r.shape = a.shape ∧ ∀ idx, isIndex a.shape idx → r.get idx = a.get idx := by
  obtain ⟨a', b, x1, x2, x3⟩ := (make_get z s attrs h).2 f hf
  rw [ha] at x1
  injection x1 with x1
  subst x1
  obtain ⟨r, r1, r2, r3⟩ := setAll_same z _ a hs
  rw [r1] at x2
  injection x2 with x2
  subst x2
  exact ⟨r, x3, by rw [r2, hs], by rw [hs]; exact r3⟩

/-- Where a field is given: at the middle of cells, at their corners, at their western or southern sides, or at interfaces of levels. -/
inductive Place where
  | middle | corner | west | south | level
  deriving DecidableEq

/-- The sizes of a field, with a halo of three. Only with memory as Fortran has are there as many middles as cells; otherwise a row and a
column are added. -/
def Place.sizes (s : Sizes) : Place → List Nat
  | .middle => if s.fortran then [s.nic + 6, s.njc + 6] else [s.nic + 7, s.njc + 7]
  | .corner => [s.nic + 7, s.njc + 7]
  | .west => if s.fortran then [s.nic + 7, s.njc + 6] else [s.nic + 7, s.njc + 7]
  | .south => if s.fortran then [s.nic + 6, s.njc + 7] else [s.nic + 7, s.njc + 7]
  | .level => [s.npz + 1]

/-- The fields by place: name and variable. -/
def given : List (String × String × Place) :=
  [("lon", "bgrid1", .corner), ("lat", "bgrid2", .corner), ("lon_agrid", "agrid1", .middle), ("lat_agrid", "agrid2", .middle)] ++
  (["rarea_c", "cosa", "rsina"].map fun n => (n, n, .corner)) ++
  (["area", "area_64", "rarea", "dxa", "dya", "rdxa", "rdya", "a11", "a12", "a21", "a22", "cosa_s", "rsin2", "sin_sg1", "sin_sg2", "sin_sg3",
    "sin_sg4", "sin_sg5", "sin_sg6", "sin_sg7", "sin_sg8", "sin_sg9", "cos_sg1", "cos_sg2", "cos_sg3", "cos_sg4", "cos_sg5", "cos_sg6",
    "cos_sg7", "cos_sg8", "cos_sg9"].map fun n => (n, n, .middle)) ++
  (["dy", "dxc", "rdy", "rdxc", "cosa_u", "sina_u", "rsin_u"].map fun n => (n, n, .west)) ++
  (["dx", "dyc", "rdx", "rdyc", "cosa_v", "sina_v", "rsin_v"].map fun n => (n, n, .south)) ++
  (["ak", "bk"].map fun n => (n, n, .level))

def Place.dims : Place → List D
  | .middle => [.I, .J]
  | .corner => [.IInt, .JInt]
  | .west => [.IInt, .J]
  | .south => [.I, .JInt]
  | .level => [.KInt]

/-- C134: each field by its name and place: data of the variable it is made from with the sizes of that place is found at every point. -/
theorem C134_named {z : V} {s : Sizes} {attrs : Attrs V} {gd : List (String × Nd V)} (h : make z s attrs = .ok gd)
    {name source : String} {p : Place} (hg : (name, source, p) ∈ given) {a : Nd V} (ha : attrs source = some a)
    (hs : a.shape = p.sizes s) :
    ∃ r, dictGet gd name = some r ∧ r.shape = p.sizes s ∧ ∀ idx, isIndex (p.sizes s) idx → r.get idx = a.get idx := by
  have all : ∀ e ∈ given, (⟨e.1, e.2.1, e.2.2.dims⟩ : Field) ∈ plainFields := by decide +kernel
  have hd : p.sizes s = p.dims.map s.size := by
    obtain ⟨nic, njc, npz, c⟩ := s
    cases p <;> cases c <;> rfl
  obtain ⟨r, h1, h2, h3⟩ := C134_fields h (all _ hg) ha (by rw [hs, hd])
  exact ⟨r, h1, by rw [h2, hs], fun idx hi => h3 idx (by rw [hs]; exact hi)⟩

/-- C134: there are no other fields but the unit vectors and the factors along the edges. -/
theorem C134_all {z : V} {s : Sizes} {attrs : Attrs V} {gd : List (String × Nd V)} (h : make z s attrs = .ok gd) (name : String) :
    name ∈ gd.map (·.1) ↔ name ∈ given.map (·.1) ∨ name ∈ ["ee1", "ee2", "es1", "ew2", "edge_w", "edge_e", "edge_s", "edge_n"] := by
  unfold make at h
  split at h
  · cases h
  rename_i c hc
  split at h
  · cases h
  rename_i p hp
  injection h with h
  subst h
  obtain ⟨c1, -⟩ := fields_get z s attrs true clippedFields (by decide) hc
  obtain ⟨p1, -⟩ := fields_get z s attrs false plainFields (by decide +kernel) hp
  have e1 : clippedFields.map (·.name) = ["ee1", "ee2", "es1", "ew2", "edge_w", "edge_e", "edge_s", "edge_n"] := rfl
  have e2 : ∀ x ∈ plainFields.map (·.name), x ∈ given.map (·.1) := by decide +kernel
  have e3 : ∀ x ∈ given.map (·.1), x ∈ plainFields.map (·.name) := by decide +kernel
  rw [List.map_append, List.mem_append, c1, p1, e1, or_comm]
  exact or_congr ⟨e2 name, e3 name⟩ Iff.rfl

/-- C134: of the unit vectors the three directions are taken, whatever follows them. -/
theorem C134_unit_vectors {z : V} {s : Sizes} {attrs : Attrs V} {gd : List (String × Nd V)} (h : make z s attrs = .ok gd)
    (hc : s.fortran = false) {n : String} (hn : n ∈ ["ee1", "ee2", "es1", "ew2"]) {a : Nd V} (ha : attrs n = some a) {m : Nat}
    (hs : a.shape = [s.nic + 7, s.njc + 7, m]) (hm : 3 ≤ m) :
    ∃ r, dictGet gd n = some r ∧ r.shape = [s.nic + 7, s.njc + 7, 3] ∧
      ∀ i j l, i < s.nic + 7 → j < s.njc + 7 → l < 3 → r.get [i, j, l] = a.get [i, j, l] := by
  have hf : ∃ f ∈ clippedFields, f.name = n ∧ f.source = n ∧ f.dims.map s.size = [s.nic + 7, s.njc + 7, 3] := by
    simp only [List.mem_cons, List.not_mem_nil, or_false] at hn
    rcases hn with rfl | rfl | rfl | rfl
    · exact ⟨⟨"ee1", "ee1", [.IInt, .JInt, .xyz]⟩, by decide, rfl, rfl, by simp [Sizes.size]⟩
    · exact ⟨⟨"ee2", "ee2", [.IInt, .JInt, .xyz]⟩, by decide, rfl, rfl, by simp [Sizes.size]⟩
    · exact ⟨⟨"es1", "es1", [.I, .JInt, .xyz]⟩, by decide, rfl, rfl, by simp [Sizes.size, hc]⟩
    · exact ⟨⟨"ew2", "ew2", [.IInt, .JInt, .xyz]⟩, by decide, rfl, rfl, by simp [Sizes.size]⟩
  obtain ⟨f, f1, f2, f3, f4⟩ := hf
  obtain ⟨a', b, x1, x2, x3⟩ := (make_get z s attrs h).1 f f1
  rw [f3, ha] at x1
  injection x1 with x1
  subst x1
  rw [f4] at x2
  rw [f2] at x3
  have hu : (upTo a 2 3).shape = [s.nic + 7, s.njc + 7, 3] := by simp [upTo, hs, List.modify, hm]
  obtain ⟨r, r1, r2, r3⟩ := setAll_same z _ _ hu
  simp only [clip, List.length_cons, List.length_nil, hs, Nat.reduceAdd, Nat.reduceSub, List.getD_cons_succ, List.getD_cons_zero,
    r1] at x2
  rw [if_neg (by omega)] at x2
  injection x2 with x2
  subst x2
  exact ⟨r, x3, r2, fun i j l hi hj hl => r3 [i, j, l] ⟨hi, hj, hl, trivial⟩⟩

/-- C134: of the factors along the southern and northern edges as many are taken as there are corners in a row. -/
theorem C134_edge_lines {z : V} {s : Sizes} {attrs : Attrs V} {gd : List (String × Nd V)} (h : make z s attrs = .ok gd)
    {n : String} (hn : n = "edge_s" ∨ n = "edge_n") {a : Nd V} (ha : attrs n = some a) {m : Nat}
    (hs : a.shape = [m]) (hm : s.nic + 7 ≤ m) :
    ∃ r, dictGet gd n = some r ∧ r.shape = [s.nic + 7] ∧ ∀ i, i < s.nic + 7 → r.get [i] = a.get [i] := by
  have hf : (⟨n, n, [.IInt]⟩ : Field) ∈ clippedFields := by rcases hn with rfl | rfl <;> decide
  obtain ⟨a', b, x1, x2, x3⟩ := (make_get z s attrs h).1 _ hf
  rw [ha] at x1
  injection x1 with x1
  subst x1
  have hu : (upTo a 0 (s.nic + 7)).shape = [s.nic + 7] := by simp [upTo, hs, List.modify]; omega
  obtain ⟨r, r1, r2, r3⟩ := setAll_same z _ _ hu
  have e : [D.IInt].map s.size = [s.nic + 7] := by simp [Sizes.size]
  simp only [e] at x2
  simp only [clip, List.length_cons, List.length_nil, hs, Nat.reduceAdd, Nat.reduceSub, List.getD_cons_zero, r1] at x2
  rw [if_neg (by omega)] at x2
  injection x2 with x2
  subst x2
  exact ⟨r, x3, r2, fun i hi => r3 [i] ⟨hi, trivial⟩⟩

/-- What becomes of the factors along the western and eastern edges, for a plane and for a row. -/
theorem edge_planes {z : V} {s : Sizes} {attrs : Attrs V} {gd : List (String × Nd V)} (h : make z s attrs = .ok gd)
    (hc : s.fortran = false) {n : String} (hn : n = "edge_w" ∨ n = "edge_e") {a : Nd V} (ha : attrs n = some a) :
    (a.shape = [s.nic + 7, s.njc + 7] → ∃ r, dictGet gd n = some r ∧ r.shape = [s.nic + 7, s.njc + 7] ∧
      ∀ i j, i < s.nic + 7 → j < s.njc + 7 → r.get [i, j] = a.get [i, j]) ∧
    (a.shape = [1, s.njc + 7] → ∃ r, dictGet gd n = some r ∧ r.shape = [s.nic + 7, s.njc + 7] ∧
      ∀ i j, i < s.nic + 7 → j < s.njc + 7 → r.get [i, j] = a.get [0, j]) := by
  have hf : (⟨n, n, [.I, .JInt]⟩ : Field) ∈ clippedFields := by rcases hn with rfl | rfl <;> decide
  obtain ⟨a', b, x1, x2, x3⟩ := (make_get z s attrs h).1 _ hf
  rw [ha] at x1
  injection x1 with x1
  subst x1
  have e : [D.I, D.JInt].map s.size = [s.nic + 7, s.njc + 7] := by simp [Sizes.size, hc]
  simp only [e] at x2
  constructor
  · intro hs
    have hu : (upTo a 1 (s.njc + 7)).shape = [s.nic + 7, s.njc + 7] := by simp [upTo, hs, List.modify]
    obtain ⟨r, r1, r2, r3⟩ := setAll_same z _ _ hu
    simp only [clip, List.length_cons, List.length_nil, hs, Nat.reduceAdd, Nat.reduceSub, List.getD_cons_zero,
      List.getD_cons_succ, r1] at x2
    rw [if_neg (by omega)] at x2
    injection x2 with x2
    subst x2
    exact ⟨r, x3, r2, fun i j hi hj => r3 [i, j] ⟨hi, hj, trivial⟩⟩
  · intro hs
    have hu : (upTo a 1 (s.njc + 7)).shape = [1, s.njc + 7] := by simp [upTo, hs, List.modify]
    obtain ⟨r, r1, r2, r3⟩ := setAll_row z (s.nic + 7) (s.njc + 7) (by omega) _ hu
    simp only [clip, List.length_cons, List.length_nil, hs, Nat.reduceAdd, Nat.reduceSub, List.getD_cons_zero,
      List.getD_cons_succ, r1] at x2
    rw [if_neg (by omega)] at x2
    injection x2 with x2
    subst x2
    exact ⟨r, x3, r2, r3⟩

/-- The attributes of the object made from stored reference data: `Grid(..., data_fields=self.data)`. -/
def ofStorage (d : Data V) : Attrs V := fun n => match dictGet d n with
  | some (.array a _) => some a
  | _ => none

/-- C134: on a GPU the factors along the western and eastern edges are, for every `i`, those of the reference data, after the
halo. -/
theorem C134_edges_gpu {z : V} {g : Translate.Grid} {s : Sizes} {n : Nat} {d d' : Data V} {gd : List (String × Nd V)}
    (hg : IsLocal g s.nic s.njc s.npz) (hc : s.fortran = false) (h : makeGridStorage z false g d = .ok d')
    (hm : make z s (ofStorage d') = .ok gd) {key : String} (hk : key = "edge_w" ∨ key = "edge_e") {a : Nd V} {b : Bool}
    (hv : dictGet d key = some (.array a b)) (ha : a.shape = [n]) (hn : 3 + n ≤ s.njc + 7) :
    ∃ r, dictGet gd key = some r ∧ r.shape = [s.nic + 7, s.njc + 7] ∧
      ∀ i j, i < s.nic + 7 → j < s.njc + 7 → r.get [i, j] = if 3 ≤ j ∧ j < 3 + n then a.get [j - 3] else z := by
  obtain ⟨r, r1, r2, r3⟩ := (C133_edges h hg hv ha).1 hk hn
  obtain ⟨q, q1, q2, q3⟩ := (edge_planes hm hc hk (a := r) (by simp [ofStorage, r1])).2 r2
  exact ⟨q, q1, q2, fun i j hi hj => by rw [q3 i j hi hj, r3 j hj]⟩

/-- C134, not so: on a CPU they are zero at all points but those of the first line of the halo. -/
theorem C134_edges_cpu_violated {z : V} {g : Translate.Grid} {s : Sizes} {n : Nat} {d d' : Data V} {gd : List (String × Nd V)}
    (hg : IsLocal g s.nic s.njc s.npz) (hc : s.fortran = false) (h : makeGridStorage z true g d = .ok d')
    (hm : make z s (ofStorage d') = .ok gd) {key : String} (hk : key = "edge_w" ∨ key = "edge_e") {a : Nd V} {b : Bool}
    (hv : dictGet d key = some (.array a b)) (ha : a.shape = [n]) (hn : 3 + n ≤ s.njc + 7) :
    ∃ r, dictGet gd key = some r ∧ r.shape = [s.nic + 7, s.njc + 7] ∧
      ∀ i j, 0 < i → i < s.nic + 7 → j < s.njc + 7 → r.get [i, j] = z := by
  obtain ⟨r, r1, r2, r3⟩ := C133_edge_row_violated h hg hk hv ha hn
  obtain ⟨q, q1, q2, q3⟩ := (edge_planes hm hc hk (a := r) (by simp [ofStorage, r1])).1 r2
  exact ⟨q, q1, q2, fun i j h0 hi hj => by rw [q3 i j hi hj, r3 i j hi hj, if_neg (by omega)]⟩

/-- C134, not so: with a backend that has memory as Fortran has, the stored reference data does not fit and there is no grid
data. -/
theorem C134_fortran_violated (z : V) (s : Sizes) (hc : s.fortran = true) (attrs : Attrs V) {a : Nd V}
    (ha : attrs "area" = some a) (hs : a.shape = [s.nic + 7, s.njc + 7]) (gd : List (String × Nd V)) :
    make z s attrs ≠ .ok gd := by
  intro h
  obtain ⟨a', b, x1, x2, -⟩ := (make_get z s attrs h).2 ⟨"area", "area", [.I, .J]⟩ (by decide)
  rw [ha] at x1
  injection x1 with x1
  subst x1
  have e : [D.I, D.J].map s.size = [s.nic + 6, s.njc + 6] := by simp [Sizes.size, hc]
  simp only [e] at x2
  rw [setAll_error z _ _ _ _ a hs (by omega) (by omega)] at x2
  cases x2

/-- C134: all later readings give what the first gave, whatever data is added in between, until other grid data is set. -/
theorem C134_kept {z : V} {s : Sizes} {o : Obj V} {gd : List (String × Nd V)}
    (h : (step z s o .read).2 = some (.ok gd)) (ops : List (Op V)) (hops : ∀ op ∈ ops, ∀ x, op ≠ .set x) :
    (step z s (run z s ops (step z s o .read).1) .read).2 = some (.ok gd) := by
  have h0 : (step z s o .read).1.cache = some gd := by
    unfold step at h ⊢
    cases hc : o.cache with
    | some x => simp only [hc, Option.some.injEq, Except.ok.injEq] at h ⊢; exact h
    | none =>
      simp only [hc] at h ⊢
      cases hm : make z s o.attrs with
      | ok x => simp only [hm, Option.some.injEq, Except.ok.injEq] at h ⊢; exact h
      | error e => simp [hm] at h
  have h1 : ∀ (ops : List (Op V)) (o : Obj V), o.cache = some gd → (∀ op ∈ ops, ∀ x, op ≠ .set x) →
      (run z s ops o).cache = some gd := by
    intro ops
    induction ops with
    | nil => exact fun o ho _ => ho
    | cons op ops ih =>
      intro o ho hop
      refine ih _ ?_ fun op' h' => hop op' (List.mem_cons_of_mem _ h')
      cases op with
      | add d => exact ho
      | set x => exact absurd rfl (hop (.set x) (List.mem_cons_self ..) x)
      | read => simp [step, ho]
  generalize (step z s o .read).1 = o1 at h0 ⊢
  have h2 := h1 ops o1 h0 hops
  generalize run z s ops o1 = o2 at h2 ⊢
  simp [step, h2]

/-- C134: grid data that is set is what is read. -/
theorem C134_set (z : V) (s : Sizes) (o : Obj V) (gd : List (String × Nd V)) :
    (step z s (step z s o (.set gd)).1 .read).2 = some (.ok gd) := rfl

/-- C134: the first reading gives the data added last under each name. -/
theorem C134_first (z : V) (s : Sizes) (ds : List (List (String × Nd V))) (hn : ∀ d ∈ ds, (d.map (·.1)).Nodup) :
    (step z s (run z s (ds.map .add) ⟨fun _ => none, none⟩) .read).2 =
      some (make z s fun n => ds.foldl (fun r d => match dictGet d n with | some a => some a | none => r) none) := by
  have one : ∀ (d : List (String × Nd V)) (t : Attrs V), (d.map (·.1)).Nodup →
      d.foldl (fun t e n => if n = e.1 then some e.2 else t n) t =
        fun n => match dictGet d n with | some a => some a | none => t n := by
    intro d
    induction d with
    | nil => intro t _; rfl
    | cons e d ih =>
      intro t hd
      simp only [List.map_cons, List.nodup_cons] at hd
      rw [List.foldl_cons, ih _ hd.2]
      funext n
      by_cases hne : n = e.1
      · subst hne
        have : dictGet d e.1 = none := by
          unfold dictGet
          rw [Option.map_eq_none_iff, List.find?_eq_none]
          intro x hx hb
          exact hd.1 (by rw [← eq_of_beq hb]; exact List.mem_map_of_mem hx)
        simp [this]
        simp [dictGet]
      · have hb : (e.1 == n) = false := by simpa using fun h => hne h.symm
        simp only [hne, if_false]
        have : dictGet (e :: d) n = dictGet d n := by simp [dictGet, hb]
        rw [this]
  have all : ∀ (ds : List (List (String × Nd V))) (o : Obj V), (∀ d ∈ ds, (d.map (·.1)).Nodup) →
      run z s (ds.map .add) o = ⟨fun n => ds.foldl (fun r d => match dictGet d n with | some a => some a | none => r) (o.attrs n),
        o.cache⟩ := by
    intro ds
    induction ds with
    | nil => intro o _; rfl
    | cons d ds ih =>
      intro o h
      have e1 : run z s ((d :: ds).map .add) o = run z s (ds.map .add) (step z s o (.add d)).1 := rfl
      rw [e1, ih _ fun x hx => h x (List.mem_cons_of_mem _ hx)]
      simp only [step, one d o.attrs (h d (List.mem_cons_self ..)), List.foldl_cons]
  rw [all ds _ hn]
  simp only [step]
  cases make z s fun n => ds.foldl (fun r d => match dictGet d n with | some a => some a | none => r) none <;> rfl

/-! ### Concrete cases -/

/-- Data on all points for every attribute the grid data needs. -/
def exAttrs : Attrs Int := fun n =>
  if n ∈ ["ee1", "ee2", "es1", "ew2"] then some ⟨[9, 9, 20], fun i => (i.getD 2 0 : Nat)⟩
  else if n ∈ ["edge_w", "edge_e"] then some ⟨[1, 9], fun i => (i.getD 1 0 : Nat)⟩
  else if n ∈ ["edge_s", "edge_n", "ak", "bk"] then some ⟨[20], fun i => (i.getD 0 0 : Nat)⟩
  else some ⟨[9, 9], fun i => 10 * (i.getD 0 0 : Nat) + (i.getD 1 0 : Nat)⟩

def peek (r : Except Fault (List (String × Nd Int))) (n : String) (idx : List Nat) : Option (List Nat × Int) :=
  match r with
  | .ok d => (dictGet d n).map fun a => (a.shape, a.get idx)
  | .error _ => none

example : let r := make 0 ⟨2, 2, 19, false⟩ exAttrs
    peek r "lon" [8, 7] = some ([9, 9], 87) ∧ peek r "ee1" [8, 8, 2] = some ([9, 9, 3], 2) ∧ peek r "edge_s" [5] = some ([9], 5) ∧
    peek r "edge_w" [5, 6] = some ([9, 9], 6) ∧ peek r "ak" [19] = some ([20], 19) := by
  refine ⟨?_, ?_, ?_, ?_, ?_⟩ <;> decide +kernel

end NDSL.TestGridData
