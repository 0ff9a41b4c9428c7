import Verif.Model.Sizer
import Verif.Lemmas.Slices
import Verif.Lemmas.Exchange
import Verif.Lemmas.ScatterGather
import Verif.Props.Decomposition

/-! C35 and C67: what the factory allocates. -/
namespace NDSL

/-- extent of a dimension: `nx` cells, `nx + 1` interfaces, and so on -/
def extentOf (s : Sizer) (d : Dim) : Option Int :=
  match d with
  | .i => some s.nx
  | .iInterface => some (s.nx + 1)
  | .j => some s.ny
  | .jInterface => some (s.ny + 1)
  | .k => some s.nz
  | .kInterface => some (s.nz + 1)
  | d => (s.data.find? fun e => decide (e.1 = d)).map (·.2)

/-- cell dimension on the same axis -/
def toCell : Dim → Dim
  | .iInterface => .i
  | .jInterface => .j
  | .kInterface => .k
  | d => d

theorem extentOf_eq (s : Sizer) (d : Dim) : s.dimExtent d = extentOf s d := by
  cases d <;> rfl

theorem shape_known (s : Sizer) (d : Dim) : (s.dimShape d).isSome = (s.dimExtent d).isSome := by
  cases d <;> rfl

theorem mapM_error {β γ : Type} {f : β → Except Err γ} {l : List β} {e : Err} (x : β) (hx : x ∈ l)
    (h : ∀ y ∈ l, ∀ e', f y = .error e' → e' = e) (he : f x = .error e) : l.mapM f = .error e := by
  induction l with
  | nil => cases hx
  | cons a l ih =>
    rw [List.mapM_cons]
    cases ha : f a with
    | error e' =>
      have := h a List.mem_cons_self e' ha
      subst this; rfl
    | ok y =>
      rcases List.mem_cons.1 hx with rfl | hx
      · rw [ha] at he; cases he
      · rw [ih hx (fun y hy => h y (List.mem_cons_of_mem _ hy))]; rfl

/-- C35. Allocation succeeds exactly when every dimension is spatial or a data dimension of the factory
(otherwise it raises `KeyError`). -/
theorem C35_known_dims (s : Sizer) (dims : List Dim) :
    ((∃ q, allocate s dims = .ok q) ↔ ∀ d ∈ dims, extentOf s d ≠ none) ∧
    ((∃ d ∈ dims, extentOf s d = none) → allocate s dims = .error .keyError) := by
  have hbad : (∃ d ∈ dims, extentOf s d = none) → allocate s dims = .error .keyError := by
    rintro ⟨d, hd, hn⟩
    unfold allocate
    have : s.getExtent dims = .error .keyError := by
      apply mapM_error d hd
      · intro y _ e' he
        unfold Sizer.orKey at he
        split at he <;> cases he
        rfl
      · rw [extentOf_eq, hn]; rfl
    rw [this]; rfl
  refine ⟨⟨?_, ?_⟩, hbad⟩
  · rintro ⟨q, hq⟩ d hd hn
    rw [hbad ⟨d, hd, hn⟩] at hq; cases hq
  · intro h
    have h1 : s.getExtent dims = .ok (dims.map fun d => (s.dimExtent d).getD 0) := by
      apply mapM_ok
      intro d hd
      have := h d hd
      rw [← extentOf_eq] at this
      cases hx : s.dimExtent d with
      | none => exact absurd hx this
      | some n => rfl
    have h2 : s.getShape dims = .ok (dims.map fun d => (s.dimShape d).getD 0) := by
      apply mapM_ok
      intro d hd
      have := h d hd
      rw [← extentOf_eq] at this
      have hs := shape_known s d
      cases hx : s.dimShape d with
      | none => rw [hx] at hs; cases hy : s.dimExtent d with
        | none => exact absurd hy this
        | some n => rw [hy] at hs; cases hs
      | some n => rfl
    refine ⟨⟨dims, s.getOrigin dims, dims.map fun d => (s.dimExtent d).getD 0,
      dims.map fun d => (s.dimShape d).getD 0⟩, ?_⟩
    unfold allocate
    rw [h1, h2]
    simp [bind, Except.bind, Sizer.getOrigin, pure, Except.pure]

theorem allocate_ok {s : Sizer} {dims : List Dim} {q : Alloc} (h : allocate s dims = .ok q) :
    q.dims = dims ∧ q.origin = s.getOrigin dims ∧ s.getExtent dims = .ok q.extent ∧
      s.getShape dims = .ok q.shape := by
  unfold allocate at h
  cases h1 : s.getExtent dims with
  | error e => rw [h1] at h; cases h
  | ok e =>
    cases h2 : s.getShape dims with
    | error e' => rw [h1, h2] at h; cases h
    | ok sh =>
      rw [h1, h2] at h
      simp only [bind, Except.bind] at h
      split at h
      · cases h
      · cases h; exact ⟨rfl, rfl, rfl, rfl⟩

/-- C35. For every factory with non-negative sizes and every dims list it can allocate, along every axis of
the allocated quantity: the compute domain lies inside the array; it has the extent of the dimension;
horizontal dimensions leave `n_halo` points before it and at least `n_halo` after it, exactly `n_halo` for
interface dimensions, and one more for cell dimensions when padding is on; other dimensions start at 0 and
interface and data dimensions fill the array. -/
theorem C35_fit (s : Sizer) (hx : 0 ≤ s.nx) (hy : 0 ≤ s.ny) (hz : 0 ≤ s.nz) (hh : 0 ≤ s.nHalo)
    (hdata : ∀ e ∈ s.data, 0 ≤ e.2) (dims : List Dim) (q : Alloc) (h : allocate s dims = .ok q) :
    q.dims = dims ∧ q.origin.length = dims.length ∧ q.extent.length = dims.length ∧
    q.shape.length = dims.length ∧
    ∀ (a : Nat) (d : Dim), dims[a]? = some d → ∃ o e n : Int, q.origin[a]? = some o ∧ q.extent[a]? = some e ∧
      q.shape[a]? = some n ∧ extentOf s d = some e ∧ 0 ≤ o ∧ 0 ≤ e ∧ o + e ≤ n ∧
      (d.isHorizontal = true → o = s.nHalo ∧ s.nHalo ≤ n - (o + e)) ∧
      (d.isHorizontal = false → o = 0) ∧
      n - (o + e) = (if d.isHorizontal then s.nHalo else 0) +
        (if s.pad ∧ (d = .i ∨ d = .j ∨ d = .k) then 1 else 0) := by
  obtain ⟨h1, h2, h3, h4⟩ := allocate_ok h
  have m3 := mapM_get h3
  have m4 := mapM_get h4
  refine ⟨h1, by rw [h2]; simp [Sizer.getOrigin], m3.1, m4.1, ?_⟩
  intro a d hd
  obtain ⟨e, he, he'⟩ := m3.2 a d hd
  obtain ⟨n, hn, hn'⟩ := m4.2 a d hd
  have ho : q.origin[a]? = some (if d.isHorizontal then s.nHalo else 0) := by
    rw [h2]; unfold Sizer.getOrigin; rw [List.getElem?_map, hd]; rfl
  have hee : s.dimExtent d = some e := by
    unfold Sizer.orKey at he'
    cases hx : s.dimExtent d with
    | none => rw [hx] at he'; cases he'
    | some m => rw [hx] at he'; cases he'; rfl
  have hnn : s.dimShape d = some n := by
    unfold Sizer.orKey at hn'
    cases hx : s.dimShape d with
    | none => rw [hx] at hn'; cases hn'
    | some m => rw [hx] at hn'; cases hn'; rfl
  refine ⟨_, e, n, ho, he, hn, by rw [← extentOf_eq]; exact hee, ?_⟩
  have hother : ∀ {k : Dim} {m : Int}, dimGet s.data k = some m → 0 ≤ m := by
    intro k m hm
    unfold dimGet at hm
    cases hf : s.data.find? fun e => decide (e.1 = k) with
    | none => rw [hf] at hm; cases hm
    | some e =>
      rw [hf] at hm
      cases hm
      exact hdata e (List.mem_of_find?_eq_some hf)
  cases d <;> simp only [Sizer.dimExtent, Sizer.dimShape, Option.some.injEq] at hee hnn <;>
    simp only [Dim.isHorizontal, Dim.isI, Dim.isJ, Bool.or_false, Bool.false_or, if_true, Bool.or_self,
      reduceCtorEq, or_false, and_false, if_false, and_true, or_true, true_or, false_or, Bool.false_eq_true,
      false_implies, true_and, implies_true, forall_const, Bool.true_eq_false]
  case i => cases hp : s.pad <;> simp only [hp, if_true, if_false, Bool.false_eq_true] at hnn ⊢ <;> omega
  case j => cases hp : s.pad <;> simp only [hp, if_true, if_false, Bool.false_eq_true] at hnn ⊢ <;> omega
  case k => cases hp : s.pad <;> simp only [hp, if_true, if_false, Bool.false_eq_true] at hnn ⊢ <;> omega
  case iInterface => omega
  case jInterface => omega
  case kInterface => omega
  case kSoil => have := hother hee; rw [hee] at hnn; cases hnn; omega
  case tile => have := hother hee; rw [hee] at hnn; cases hnn; omega
  case other => have := hother hee; rw [hee] at hnn; cases hnn; omega

/-- C35. Variables on cells and on interfaces share their origin, and with padding on also their shape. -/
theorem C35_interface_cell (s : Sizer) (dims : List Dim) (q p : Alloc) (hq : allocate s dims = .ok q)
    (hp : allocate s (dims.map toCell) = .ok p) :
    q.origin = p.origin ∧ (s.pad = true → q.shape = p.shape) := by
  obtain ⟨-, h2, -, h4⟩ := allocate_ok hq
  obtain ⟨-, k2, -, k4⟩ := allocate_ok hp
  refine ⟨?_, ?_⟩
  · rw [h2, k2]
    unfold Sizer.getOrigin
    rw [List.map_map]
    apply List.map_congr_left
    intro d _
    cases d <;> rfl
  · intro hpad
    have : s.getShape (dims.map toCell) = s.getShape dims := by
      unfold Sizer.getShape
      rw [List.mapM_map]
      congr 1
      funext d
      cases d <;> simp [Function.comp, toCell, Sizer.dimShape, hpad]
    rw [this, h4] at k4
    exact Except.ok.inj k4

/-! ### C67 -/

/-- extents of a quantity on the whole tile -/
def tileExtentOf (nxTile nyTile nz : Int) (data : List (Dim × Int)) (d : Dim) : Option Int :=
  match d with
  | .i => some nxTile
  | .iInterface => some (nxTile + 1)
  | .j => some nyTile
  | .jInterface => some (nyTile + 1)
  | .k => some nz
  | .kInterface => some (nz + 1)
  | d => (data.find? fun e => decide (e.1 = d)).map (·.2)

theorem dimExtents_interface (fl : FloatOps) (c n : Int) :
    dimExtents fl .iInterface c (n + 1) = dimExtents fl .i c n ∧
    dimExtents fl .jInterface c (n + 1) = dimExtents fl .j c n := by
  constructor <;> simp [dimExtents, Dim.isInterface, Dim.isHorizontal, Dim.isI, Dim.isJ]

theorem dimExtents_one (fl : FloatOps) (d : Dim) (hd : d.isHorizontal = false) (n : Int) :
    dimExtents fl d 1 n = .ok (cells d n, cells d n) := by
  unfold dimExtents cells
  simp [hd]

/-- C67. The sizes a rank's factory is given agree with the partitioner: a quantity the rank allocates for any
dims has exactly the extent of the rank's part of a tile quantity with these dims. -/
theorem C67_allocated_extent (fl : FloatOps) (nxTile nyTile nz nHalo : Int) (layout : Int × Int)
    (data : List (Dim × Int)) (pad : Bool) (rank : Int) (s : Sizer)
    (hs : Sizer.fromTileParams fl nxTile nyTile nz nHalo layout data pad rank = .ok s) (dims : List Dim)
    (ht : Dim.tile ∉ dims) (ext : List Int)
    (hext : dims.map (tileExtentOf nxTile nyTile nz data) = ext.map some) (q : Alloc)
    (hq : allocate s dims = .ok q) :
    (TilePart.mk layout).subtileExtent fl rank dims ext = .ok q.extent := by
  -- sizes of the sizer
  unfold Sizer.fromTileParams at hs
  cases hsl : (TilePart.mk layout).subtileSlice fl rank [.j, .i] [nyTile, nxTile] true with
  | error e => rw [hsl] at hs; cases hs
  | ok sl =>
    rw [hsl] at hs
    obtain ⟨exts, hacc, hsle⟩ := (rankSlice_eq fl [.j, .i] [nyTile, nxTile] layout _ true (by decide) rfl sl).1 hsl
    match exts, hacc with
    | [xj, xi], hacc =>
    obtain ⟨hj, hi, -⟩ := hacc
    set sub := (TilePart.mk layout).subtileIndex rank with hsub
    have e0 : slices layout sub true [.j, .i] [xj, xi] =
        [dimSlice layout sub true .j xj.1 xj.2, dimSlice layout sub true .i xi.1 xi.2] := rfl
    rw [hsle] at hs
    simp only [bind, Except.bind] at hs
    rw [show slices layout (TilePart.subtileIndex ⟨layout⟩ rank) true [.j, .i] [xj, xi] = _ from e0] at hs
    simp only at hs
    split at hs
    · cases hs
    · split at hs
      · cases hs
      · have hs := Except.ok.inj hs
        -- per dimension
        have key : ∀ (d : Dim) (n m : Int), d ≠ .tile → tileExtentOf nxTile nyTile nz data d = some n →
            s.dimExtent d = some m → ∃ x, dimExtents fl d (cnt layout d) n = .ok x ∧
              (dimSlice layout sub true d x.1 x.2).stop - (dimSlice layout sub true d x.1 x.2).start = m := by
          intro d n m hd hn hm
          subst hs
          cases d with
          | i =>
            cases hn; cases hm
            exact ⟨xi, hi, rfl⟩
          | j =>
            cases hn; cases hm
            exact ⟨xj, hj, rfl⟩
          | iInterface =>
            cases hn; cases hm
            refine ⟨xi, ?_, ?_⟩
            · rw [(dimExtents_interface fl _ _).1]; exact hi
            · simp only [dimSlice, Dim.isHorizontal, Dim.isI, Dim.isJ, Dim.isInterface, Bool.or_false, Bool.true_or,
                Bool.and_self, if_true, Bool.false_and, Bool.false_eq_true, if_false]
              omega
          | jInterface =>
            cases hn; cases hm
            refine ⟨xj, ?_, ?_⟩
            · rw [(dimExtents_interface fl _ _).2]; exact hj
            · simp only [dimSlice, Dim.isHorizontal, Dim.isI, Dim.isJ, Dim.isInterface, Bool.or_true, Bool.true_or,
                Bool.and_self, if_true, Bool.false_and, Bool.false_eq_true, if_false]
              omega
          | k =>
            cases hn; cases hm
            refine ⟨_, dimExtents_one fl .k rfl _, ?_⟩
            simp [dimSlice, Dim.isHorizontal, Dim.isI, Dim.isJ, Dim.isInterface, cells]
          | kInterface =>
            cases hn; cases hm
            refine ⟨_, dimExtents_one fl .kInterface rfl _, ?_⟩
            simp [dimSlice, Dim.isHorizontal, Dim.isI, Dim.isJ, Dim.isInterface, cells]
          | kSoil =>
            have : some n = some m := hn.symm.trans hm
            cases this
            refine ⟨_, dimExtents_one fl .kSoil rfl _, ?_⟩
            simp [dimSlice, Dim.isHorizontal, Dim.isI, Dim.isJ, Dim.isInterface, cells]
          | tile => exact absurd rfl hd
          | other nm =>
            have : some n = some m := hn.symm.trans hm
            cases this
            refine ⟨_, dimExtents_one fl (.other nm) rfl _, ?_⟩
            simp [dimSlice, Dim.isHorizontal, Dim.isI, Dim.isJ, Dim.isInterface, cells]
        obtain ⟨-, -, h3, -⟩ := allocate_ok hq
        -- all dimensions
        have all : ∀ (dims : List Dim) (ext out : List Int), Dim.tile ∉ dims →
            dims.map (tileExtentOf nxTile nyTile nz data) = ext.map some → s.getExtent dims = .ok out →
            ∃ xs, Accepted fl layout dims ext xs ∧
              (slices layout sub true dims xs).map (fun x => x.stop - x.start) = out := by
          intro dims
          induction dims with
          | nil =>
            intro ext out _ he ho
            cases ext with
            | nil => cases ho; exact ⟨[], trivial, rfl⟩
            | cons a l => simp at he
          | cons d dims ih =>
            intro ext out ht he ho
            simp only [List.mem_cons, not_or] at ht
            cases ext with
            | nil => simp at he
            | cons n ns =>
              simp only [List.map_cons, List.cons.injEq] at he
              unfold Sizer.getExtent at ho
              rw [List.mapM_cons] at ho
              cases hm : s.dimExtent d with
              | none => rw [hm] at ho; cases ho
              | some m =>
                rw [hm] at ho
                simp only [Sizer.orKey, bind, Except.bind] at ho
                cases hr : s.getExtent dims with
                | error e =>
                  unfold Sizer.getExtent Sizer.orKey at hr
                  rw [hr] at ho; cases ho
                | ok out' =>
                  obtain ⟨xs, hx1, hx2⟩ := ih ns out' ht.2 he.2 hr
                  unfold Sizer.getExtent Sizer.orKey at hr
                  rw [hr] at ho
                  cases ho
                  obtain ⟨x, hk1, hk2⟩ := key d n m (fun e => ht.1 e.symm) he.1 hm
                  refine ⟨x :: xs, ⟨hk1, hx1⟩, ?_⟩
                  rw [slices_cons, List.map_cons, hx2, hk2]
        obtain ⟨xs, ha, hw⟩ := all dims ext q.extent ht hext h3
        have hl : dims.length = ext.length := by
          have := congrArg List.length hext
          simpa using this
        unfold TilePart.subtileExtent
        have : rankSlice fl dims ext (TilePart.mk layout).layout ((TilePart.mk layout).subtileIndex rank) true =
            .ok (slices layout sub true dims xs) := (rankSlice_eq fl dims ext layout sub true ht hl _).2 ⟨xs, ha, rfl⟩
        rw [this]
        simp only [bind, Except.bind, pure, Except.pure, hw]

/-! ### Examples -/

/-- a 12 x 12 tile with 79 levels on a 2 x 2 layout, 9 tracers -/
def exSizer : Sizer := ⟨6, 6, 79, 3, [(.other "tracer", 9)], true⟩

example : (match Sizer.fromTileParams exactOps 12 12 79 3 (2, 2) [(.other "tracer", 9)] true 3 with
    | .ok s => some (s.nx, s.ny, s.nz, s.nHalo)
    | .error _ => none) = some (6, 6, 79, 3) := by decide +kernel

example : allocate exSizer [.i, .jInterface, .k, .other "tracer"] =
    .ok ⟨[.i, .jInterface, .k, .other "tracer"], [3, 3, 0, 0], [6, 7, 79, 9], [13, 13, 80, 9]⟩ := by
  decide +kernel

example : ([.i, .jInterface, .k, .other "tracer"] : List Dim).map
    (tileExtentOf 12 12 79 [(.other "tracer", 9)]) = [12, 13, 79, 9].map some := by decide +kernel

end NDSL
