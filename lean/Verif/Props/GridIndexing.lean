import Verif.Model.GridIndexing
import Verif.Props.StateTransfer

/-! Properties C47 (grid indexing), C70 (axis offsets), C71 (field origins). -/
namespace NDSL.Indexing

/-! ### Specification -/

/-- First index, and number of points without halo, of a dimension on a grid; `none` for
dimensions that are not spatial. -/
def startOf (g : GridIndexing) : Dim → Option Int
  | .i | .iInterface | .j | .jInterface => some g.nHalo
  | .k | .kInterface => some g.kStart
  | _ => none

def sizeOf (g : GridIndexing) : Dim → Option Int
  | .i => some g.domain.1
  | .iInterface => some (g.domain.1 + 1)
  | .j => some g.domain.2.1
  | .jInterface => some (g.domain.2.1 + 1)
  | .k => some g.domain.2.2
  | .kInterface => some (g.domain.2.2 + 1)
  | _ => none

def Spatial (d : Dim) : Prop := (d.isI || d.isJ || d.isK) = true

/-! ### Lemmas -/

theorem addHalos_ok {c : Int} {xs hs : List Int} (h : hs.length ≤ xs.length) :
    ∃ r, addHalos c xs hs = .ok r ∧ r.length = xs.length ∧
      ∀ (i : Nat) (x : Int), xs[i]? = some x → r[i]? = some (x + c * hs.getD i 0) := by
  induction xs generalizing hs with
  | nil =>
    cases hs with
    | nil => exact ⟨[], by simp [addHalos], rfl, by simp⟩
    | cons => simp at h
  | cons x xs ih =>
    cases hs with
    | nil => exact ⟨x :: xs, by simp [addHalos], rfl, by intro i y hy; simp [hy]⟩
    | cons n ns =>
      obtain ⟨r, h1, h2, h3⟩ := ih (hs := ns) (by simpa using h)
      refine ⟨(x + c * n) :: r, by simp [addHalos, h1, bind, Except.bind], by simp [h2], ?_⟩
      intro i y hy
      cases i with
      | zero => simp at hy; simp [hy]
      | succ i => simpa using h3 i y (by simpa using hy)

theorem addHalos_error {c : Int} {xs hs : List Int} (h : xs.length < hs.length) :
    addHalos c xs hs = .error .indexError := by
  induction xs generalizing hs with
  | nil =>
    cases hs with
    | nil => simp at h
    | cons => rfl
  | cons x xs ih =>
    cases hs with
    | nil => simp at h
    | cons n ns => simp [addHalos, ih (hs := ns) (by simpa using h), bind, Except.bind]

theorem addNHalo_ok {n : Int} {ds : List Dim} {xs : List Int} (h : ds.length = xs.length) :
    ∃ r, addNHalo n ds xs = .ok r ∧ r.length = xs.length ∧
      ∀ (i : Nat) (x : Int) (d : Dim), xs[i]? = some x → ds[i]? = some d →
        r[i]? = some (if d.isHorizontal then x + n else x) := by
  induction ds generalizing xs with
  | nil =>
    cases xs with
    | nil => exact ⟨[], by simp [addNHalo], rfl, by simp⟩
    | cons => simp at h
  | cons d ds ih =>
    cases xs with
    | nil => simp at h
    | cons x xs =>
      obtain ⟨r, h1, h2, h3⟩ := ih (xs := xs) (by simpa using h)
      refine ⟨(if d.isHorizontal then x + n else x) :: r, by simp [addNHalo, h1, bind, Except.bind],
        by simp [h2], ?_⟩
      intro i y e hy he
      cases i with
      | zero => simp at hy he; simp [hy, he]
      | succ i => simpa using h3 i y e (by simpa using hy) (by simpa using he)

theorem originFromDims_spec (g : GridIndexing) {dims : List Dim} (h : ∀ d ∈ dims, Spatial d) :
    (g.originFromDims dims).length = dims.length ∧
      ∀ (i : Nat) (d : Dim), dims[i]? = some d → (g.originFromDims dims)[i]? = startOf g d := by
  induction dims with
  | nil => simp [GridIndexing.originFromDims]
  | cons d ds ih =>
    obtain ⟨h1, h2⟩ := ih (fun e he => h e (List.mem_cons_of_mem _ he))
    have hd := h d (by simp)
    have key : ∃ v, g.originFromDims (d :: ds) = v :: g.originFromDims ds
        ∧ startOf g d = some v := by
      cases d <;> simp_all [Spatial, GridIndexing.originFromDims, Dim.isI, Dim.isJ, Dim.isK, startOf,
        GridIndexing.origin]
    obtain ⟨v, hv, hs⟩ := key
    rw [hv]
    refine ⟨by simp [h1], ?_⟩
    intro i e he
    cases i with
    | zero => simp at he; subst he; simp [hs]
    | succ i => simpa using h2 i e (by simpa using he)

theorem domainFromDims_spec (g : GridIndexing) {dims : List Dim} (h : ∀ d ∈ dims, Spatial d) :
    (g.domainFromDims dims).length = dims.length ∧
      ∀ (i : Nat) (d : Dim), dims[i]? = some d → (g.domainFromDims dims)[i]? = sizeOf g d := by
  induction dims with
  | nil => simp [GridIndexing.domainFromDims]
  | cons d ds ih =>
    obtain ⟨h1, h2⟩ := ih (fun e he => h e (List.mem_cons_of_mem _ he))
    have hd := h d (by simp)
    have key : ∃ v, g.domainFromDims (d :: ds) = v :: g.domainFromDims ds
        ∧ sizeOf g d = some v := by
      cases d <;> simp_all [Spatial, GridIndexing.domainFromDims, Dim.isI, Dim.isJ, Dim.isK, sizeOf]
    obtain ⟨v, hv, hs⟩ := key
    rw [hv]
    refine ⟨by simp [h1], ?_⟩
    intro i e he
    cases i with
    | zero => simp at he; subst he; simp [hs]
    | succ i => simpa using h2 i e (by simpa using he)

/-! ### C47 -/

/-- **C47** (what a computation covers): for spatial dimensions and at most as many halos, the
origin is the first index of the dimension minus the halo, and the domain its size plus two
halos. -/
theorem C47_origin_domain (g : GridIndexing) (dims : List Dim) (halos : List Int)
    (hd : ∀ d ∈ dims, Spatial d) (hl : halos.length ≤ dims.length) :
    ∃ o s, g.getOriginDomain dims halos = .ok (o, s) ∧ o.length = dims.length ∧
      s.length = dims.length ∧
      ∀ (i : Nat) (d : Dim), dims[i]? = some d →
        o[i]? = (startOf g d).map (· - halos.getD i 0) ∧
        s[i]? = (sizeOf g d).map (· + 2 * halos.getD i 0) := by
  obtain ⟨l1, v1⟩ := originFromDims_spec g hd
  obtain ⟨l2, v2⟩ := domainFromDims_spec g hd
  obtain ⟨o, ho, lo, vo⟩ := addHalos_ok (c := -1) (xs := g.originFromDims dims) (hs := halos)
    (by omega)
  obtain ⟨s, hs, ls, vs⟩ := addHalos_ok (c := 2) (xs := g.domainFromDims dims) (hs := halos)
    (by omega)
  refine ⟨o, s, by simp [GridIndexing.getOriginDomain, ho, hs, bind, Except.bind], by omega,
    by omega, ?_⟩
  intro i d hi
  constructor
  · cases h : startOf g d with
    | none =>
      have := v1 i d hi
      have hlt := (List.getElem?_eq_some_iff.1 hi).1
      rw [h, List.getElem?_eq_none_iff] at this
      omega
    | some v =>
      rw [vo i v (by rw [v1 i d hi, h])]
      simp only [Option.map_some]
      congr 1
      omega
  · cases h : sizeOf g d with
    | none =>
      have := v2 i d hi
      have hlt := (List.getElem?_eq_some_iff.1 hi).1
      rw [h, List.getElem?_eq_none_iff] at this
      omega
    | some v =>
      rw [vs i v (by rw [v2 i d hi, h])]
      rfl

/-- the storage shape: size, plus `n_halo` on horizontal dimensions, plus the halo -/
theorem getShape_spec (g : GridIndexing) (dims : List Dim) (halos : List Int)
    (hd : ∀ d ∈ dims, Spatial d) (hl : halos.length ≤ dims.length) :
    ∃ s, g.getShape dims halos = .ok s ∧ s.length = dims.length ∧
      ∀ (i : Nat) (d : Dim), dims[i]? = some d →
        s[i]? = (sizeOf g d).map
          fun z => (if d.isHorizontal then z + g.nHalo else z) + halos.getD i 0 := by
  obtain ⟨l2, v2⟩ := domainFromDims_spec g hd
  obtain ⟨t, ht, lt, vt⟩ := addNHalo_ok (n := g.nHalo) (ds := dims) (xs := g.domainFromDims dims)
    (by omega)
  obtain ⟨s, hs, ls, vs⟩ := addHalos_ok (c := 1) (xs := t) (hs := halos) (by omega)
  refine ⟨s, by simp [GridIndexing.getShape, ht, hs, bind, Except.bind], by omega, ?_⟩
  intro i d hi
  cases h : sizeOf g d with
  | none =>
    have := v2 i d hi
    have hlt := (List.getElem?_eq_some_iff.1 hi).1
    rw [h, List.getElem?_eq_none_iff] at this
    omega
  | some v =>
    rw [vs i _ (vt i v d (by rw [v2 i d hi, h]) hi)]
    simp only [Option.map_some]
    congr 1
    omega

/-- **C47**: for every grid starting at level zero, all spatial dimensions and all halos up to
`n_halo` in the horizontal and zero in the vertical, the window of the computation lies inside
the storage shape. -/
theorem C47_inside (g : GridIndexing) (hk : g.kStart = 0) (dims : List Dim)
    (halos : List Int) (hd : ∀ d ∈ dims, Spatial d) (hl : halos.length ≤ dims.length)
    (hh : ∀ (i : Nat) (d : Dim), dims[i]? = some d → 0 ≤ halos.getD i 0 ∧ halos.getD i 0 ≤ g.nHalo ∧
      (d.isHorizontal = false → halos.getD i 0 = 0)) :
    ∃ o s t, g.getOriginDomain dims halos = .ok (o, s) ∧ g.getShape dims halos = .ok t ∧
      ∀ i : Nat, i < dims.length → ∃ a b z, o[i]? = some a ∧ s[i]? = some b ∧ t[i]? = some z ∧
        0 ≤ a ∧ a + b ≤ z := by
  obtain ⟨o, s, h1, -, -, h4⟩ := C47_origin_domain g dims halos hd hl
  obtain ⟨t, h5, -, h7⟩ := getShape_spec g dims halos hd hl
  refine ⟨o, s, t, h1, h5, ?_⟩
  intro i hi
  have hi' : dims[i]? = some dims[i] := List.getElem?_eq_getElem hi
  obtain ⟨b1, b2, b3⟩ := hh i _ hi'
  obtain ⟨e1, e2⟩ := h4 i _ hi'
  have e3 := h7 i _ hi'
  have hsp := hd _ (List.getElem_mem hi)
  generalize dims[i] = d at *
  generalize halos.getD i 0 = n at *
  cases d <;> simp [Spatial, Dim.isI, Dim.isJ, Dim.isK] at hsp <;>
    simp [startOf, sizeOf, Dim.isHorizontal, Dim.isI, Dim.isJ] at e1 e2 e3 b3 <;>
    exact ⟨_, _, _, e1, e2, e3, by omega, by omega⟩

/-- **C47** fails for vertically restricted grids: the storage shape does not count the levels
below the new start. -/
theorem C47_restricted_violated :
    ∃ g g' : GridIndexing, g.kStart = 0 ∧ g.restrictVertical 2 none = .ok g' ∧
      g'.getOriginDomain [.i, .j, .k] [] = .ok ([3, 3, 2], [4, 4, 8]) ∧
      g'.getShape [.i, .j, .k] [] = .ok [7, 7, 8] := by
  refine ⟨⟨(4, 4, 10), 3, true, true, true, true, 0⟩,
    ⟨(4, 4, 8), 3, true, true, true, true, 2⟩, rfl, ?_, ?_, ?_⟩ <;> decide +kernel

/-- ... and for vertical halos, whose origin is negative. -/
theorem C47_vertical_halo_violated :
    GridIndexing.getOriginDomain ⟨(4, 4, 10), 3, true, true, true, true, 0⟩ [.i, .j, .k] [1, 1, 1]
      = .ok ([2, 2, -1], [6, 6, 12]) := by decide +kernel

/-- **C47** (maximum shape): on any grid, restricted or not, the window of any computation on a
horizontal dimension with a halo up to `n_halo`, or on a vertical dimension without halo, lies
inside `max_shape` along its axis. -/
theorem C47_max_shape (g : GridIndexing) (hk : 0 ≤ g.kStart) (d : Dim) (h : Int) (h0 : 0 ≤ h)
    (h1 : h ≤ g.nHalo) (hv : d.isHorizontal = false → h = 0) (a z : Int)
    (ha : startOf g d = some a) (hz : sizeOf g d = some z) :
    0 ≤ a - h ∧ (a - h) + (z + 2 * h) ≤
      (if d.isI then g.maxShape.1 else if d.isJ then g.maxShape.2.1 else g.maxShape.2.2) := by
  cases d <;> simp [startOf, sizeOf] at ha hz <;>
    simp [Dim.isHorizontal, Dim.isI, Dim.isJ, GridIndexing.maxShape, GridIndexing.domainFull,
      GridIndexing.ied, GridIndexing.jed, GridIndexing.isd, GridIndexing.jsd,
      GridIndexing.origin] at hv ⊢ <;> omega

/-- **C47** (restriction): restricting the vertical succeeds exactly for a start inside the
column and a count that fits, and then gives that window, inside the old one, with nothing else
changed. -/
theorem C47_restrict (g : GridIndexing) (k : Int) (nk : Option Int) :
    (0 ≤ k ∧ k ≤ g.domain.2.2 ∧ (∀ n, nk = some n → 0 ≤ n ∧ n ≤ g.domain.2.2 - k) →
      ∃ g', g.restrictVertical k nk = .ok g' ∧ g'.kStart = g.kStart + k ∧
        g'.domain.2.2 = nk.getD (g.domain.2.2 - k) ∧
        g.kStart ≤ g'.kStart ∧ 0 ≤ g'.domain.2.2 ∧
        g'.kStart + g'.domain.2.2 ≤ g.kStart + g.domain.2.2 ∧
        g'.domain.1 = g.domain.1 ∧ g'.domain.2.1 = g.domain.2.1 ∧ g'.nHalo = g.nHalo ∧
        g'.southEdge = g.southEdge ∧ g'.northEdge = g.northEdge ∧ g'.westEdge = g.westEdge ∧
        g'.eastEdge = g.eastEdge) ∧
    (¬ (0 ≤ k ∧ k ≤ g.domain.2.2 ∧ ∀ n, nk = some n → 0 ≤ n ∧ n ≤ g.domain.2.2 - k) →
      g.restrictVertical k nk = .error .valueError) := by
  constructor
  · rintro ⟨h1, h2, h3⟩
    cases nk with
    | none =>
      refine ⟨{ g with domain := (g.domain.1, g.domain.2.1, g.domain.2.2 - k),
                       kStart := g.kStart + k },
        by simp only [GridIndexing.restrictVertical]; rw [if_neg (by omega), if_neg (by omega)],
        rfl, rfl, ?_, ?_, ?_, rfl, rfl, rfl, rfl, rfl, rfl, rfl⟩ <;> simp <;> omega
    | some n =>
      have := h3 n rfl
      refine ⟨{ g with domain := (g.domain.1, g.domain.2.1, n), kStart := g.kStart + k },
        by simp only [GridIndexing.restrictVertical]; rw [if_neg (by omega), if_neg (by omega),
        if_neg (by omega), if_neg (by omega)],
        rfl, rfl, ?_, ?_, ?_, rfl, rfl, rfl, rfl, rfl, rfl, rfl⟩ <;> simp <;> omega
  · intro h
    simp only [GridIndexing.restrictVertical]
    split
    · rfl
    · split
      · rfl
      · cases nk with
        | none => exact absurd ⟨by omega, by omega, by simp⟩ h
        | some n =>
          simp only
          split
          · rfl
          · split
            · rfl
            · exact absurd ⟨by omega, by omega, by intro m hm; cases hm; omega⟩ h

/-- **C47** (nesting): restricting twice is restricting once by the sum of the starts. -/
theorem C47_restrict_compose (g g₁ g₂ : GridIndexing) (a b : Int) (na nb : Option Int)
    (h₁ : g.restrictVertical a na = .ok g₁) (h₂ : g₁.restrictVertical b nb = .ok g₂) :
    g.restrictVertical (a + b) (some (nb.getD (g₁.domain.2.2 - b))) = .ok g₂ := by
  simp only [GridIndexing.restrictVertical] at h₁ h₂ ⊢
  split at h₁
  · cases h₁
  split at h₁
  · cases h₁
  split at h₂
  · cases h₂
  split at h₂
  · cases h₂
  have hg1 : g₁ = ⟨(g.domain.1, g.domain.2.1, g₁.domain.2.2), g.nHalo, g.southEdge, g.northEdge,
      g.westEdge, g.eastEdge, g.kStart + a⟩ ∧ 0 ≤ g₁.domain.2.2 ∧ g₁.domain.2.2 ≤ g.domain.2.2 - a := by
    cases na with
    | none => simp only [Except.ok.injEq] at h₁; subst h₁; simp; omega
    | some n =>
      simp only at h₁
      split at h₁
      · cases h₁
      split at h₁
      · cases h₁
      simp only [Except.ok.injEq] at h₁; subst h₁; simp; omega
  obtain ⟨e1, e2, e3⟩ := hg1
  generalize g₁.domain.2.2 = z at *
  subst e1
  cases nb with
  | none =>
    simp only [Except.ok.injEq] at h₂
    subst h₂
    simp only [Option.getD_none]
    rw [if_neg (by omega), if_neg (by omega), if_neg (by omega), if_neg (by omega)]
    simp only [Except.ok.injEq, GridIndexing.mk.injEq, true_and, and_true]
    omega
  | some n =>
    simp only at h₂
    split at h₂
    · cases h₂
    split at h₂
    · cases h₂
    simp only [Except.ok.injEq] at h₂
    subst h₂
    simp only [Option.getD_some]
    rw [if_neg (by omega), if_neg (by omega), if_neg (by omega), if_neg (by omega)]
    simp only [Except.ok.injEq, GridIndexing.mk.injEq, true_and, and_true]
    omega

def exGrid : GridIndexing := ⟨(4, 5, 10), 3, true, false, true, false, 0⟩

example : ∃ o s t, exGrid.getOriginDomain [.i, .jInterface, .k] [2, 3] = .ok (o, s) ∧
    exGrid.getShape [.i, .jInterface, .k] [2, 3] = .ok t ∧ o = [1, 0, 0] ∧ s = [8, 12, 10] ∧
    t = [9, 12, 10] :=
  ⟨[1, 0, 0], [8, 12, 10], [9, 12, 10], by decide +kernel, by decide +kernel, rfl, rfl, rfl⟩
example : ∀ (i : Nat) (d : Dim), [Dim.i, .jInterface, .k][i]? = some d →
    0 ≤ ([2, 3] : List Int).getD i 0 ∧ ([2, 3] : List Int).getD i 0 ≤ exGrid.nHalo ∧
      (d.isHorizontal = false → ([2, 3] : List Int).getD i 0 = 0) := by
  intro i d h
  match i with
  | 0 => simp at h; subst h; decide
  | 1 => simp at h; subst h; decide
  | 2 => simp at h; subst h; decide
  | n + 3 => simp at h

/-! ### C70 -/

/-- The absolute index an axis index denotes in a computation that covers
`start, ..., start + size - 1` along that axis. -/
def AxisIndex.absolute (start size : Int) : AxisIndex → Int
  | .fromStart off => start + off
  | .fromEnd off => start + size - 1 + off

/-- **C70** (compute domain): whatever the origin and the size of the computation,
`local_is`, `local_ie`, `local_js`, `local_je` denote the first and last point of the compute
domain, `k_start` and `k_end` the first and last level computed. -/
theorem C70_local_bounds (g : GridIndexing) (origin domain : Index3) :
    let a := axisOffsets g origin domain
    a.localIs.absolute origin.1 domain.1 = g.nHalo ∧
    a.localIe.absolute origin.1 domain.1 = g.nHalo + g.domain.1 - 1 ∧
    a.localJs.absolute origin.2.1 domain.2.1 = g.nHalo ∧
    a.localJe.absolute origin.2.1 domain.2.1 = g.nHalo + g.domain.2.1 - 1 ∧
    a.kStart = origin.2.2 ∧ a.kEnd = origin.2.2 + domain.2.2 - 1 := by
  simp only [axisOffsets, AxisIndex.absolute, GridIndexing.isc, GridIndexing.iec,
    GridIndexing.jsc, GridIndexing.jec, GridIndexing.origin]
  refine ⟨by omega, by omega, by omega, by omega, trivial, by omega⟩

/-- **C70** (tile edges): on a rank at the edge of a tile, `i_start`, `i_end`, `j_start`,
`j_end` denote the first and last cell of the tile at that edge, whatever the origin and the
size of the computation. -/
theorem C70_edges (g : GridIndexing) (origin domain : Index3) :
    let a := axisOffsets g origin domain
    (g.westEdge = true → a.iStart.absolute origin.1 domain.1 = g.nHalo) ∧
    (g.eastEdge = true → a.iEnd.absolute origin.1 domain.1 = g.nHalo + g.domain.1 - 1) ∧
    (g.southEdge = true → a.jStart.absolute origin.2.1 domain.2.1 = g.nHalo) ∧
    (g.northEdge = true → a.jEnd.absolute origin.2.1 domain.2.1 = g.nHalo + g.domain.2.1 - 1) := by
  simp only [axisOffsets, GridIndexing.origin]
  refine ⟨?_, ?_, ?_, ?_⟩ <;> intro h <;> rw [if_pos h] <;> simp only [AxisIndex.absolute] <;> omega

/-- **C70** (interior ranks): on a rank that is not at an edge, no point of the computation is
within `32766` points of that edge index, so that regions written relative to it are empty. -/
theorem C70_no_edge (g : GridIndexing) (origin domain : Index3) (off p : Int)
    (h : -32767 < off ∧ off < 32767) :
    let a := axisOffsets g origin domain
    (g.westEdge = false → origin.1 ≤ p → p < origin.1 + domain.1 →
      (a.iStart.plus off).absolute origin.1 domain.1 ≠ p) ∧
    (g.eastEdge = false → origin.1 ≤ p → p < origin.1 + domain.1 →
      (a.iEnd.plus off).absolute origin.1 domain.1 ≠ p) ∧
    (g.southEdge = false → origin.2.1 ≤ p → p < origin.2.1 + domain.2.1 →
      (a.jStart.plus off).absolute origin.2.1 domain.2.1 ≠ p) ∧
    (g.northEdge = false → origin.2.1 ≤ p → p < origin.2.1 + domain.2.1 →
      (a.jEnd.plus off).absolute origin.2.1 domain.2.1 ≠ p) := by
  simp only [axisOffsets]
  refine ⟨?_, ?_, ?_, ?_⟩ <;> intro hf h1 h2 <;> rw [hf] <;>
    simp only [Bool.false_eq_true, if_false, AxisIndex.plus, AxisIndex.absolute, int16Max] <;> omega

example : let a := axisOffsets exGrid (2, 2, 0) (6, 7, 10)
    a.iStart.absolute 2 6 = 3 ∧ a.localIe.absolute 2 6 = 6 ∧ (a.iEnd.plus (-3)).absolute 2 6 ≠ 6 := by
  decide

/-! ### C71 -/

/-- The origins by field with an explicit start dictionary. -/
theorem foldl_origins (o : Index3) (fields : List (String × Option FieldInfo))
    (d : List (String × List Int)) (f : String) :
    dictGet (fields.foldl (fun d f =>
        if (dictGet d f.1).isSome then d else dictSet d f.1 (fieldOrigin o f.2)) d) f
      = match dictGet d f with
        | some v => some v
        | none => (dictGet fields f).map (fieldOrigin o) := by
  induction fields generalizing d with
  | nil => simp [dictGet]; cases List.find? (fun e => e.1 == f) d <;> rfl
  | cons e es ih =>
    rw [List.foldl_cons, ih]
    by_cases hs : (dictGet d e.1).isSome = true
    · rw [if_pos hs]
      cases hf : dictGet d f with
      | some v => rfl
      | none =>
        have hne : e.1 ≠ f := by rintro rfl; rw [hf] at hs; simp at hs
        simp only [dictGet, List.find?_cons]
        rw [beq_false_of_ne hne]
    · rw [if_neg hs, dictGet_set]
      by_cases hef : f = e.1
      · subst hef
        have : dictGet d e.1 = none := by simpa using hs
        rw [if_pos rfl, this]
        simp [dictGet]
      · rw [if_neg hef]
        cases hf : dictGet d f with
        | some v => rfl
        | none =>
          simp only [dictGet, List.find?_cons]
          rw [beq_false_of_ne (fun h => hef h.symm)]

/-- The origin of a field of given axes: the stencil's origin along each of its axes, in the
order of its axes, then zeros for its data dimensions. -/
def Projects (o : Index3) (fi : FieldInfo) (l : List Int) : Prop :=
  l.length = fi.axes.length + (fi.dataMask.filter id).length ∧
    (∀ (i : Nat) (a : Axis), fi.axes[i]? = some a →
      l[i]? = some (match a with | .I => o.1 | .J => o.2.1 | .K => o.2.2)) ∧
    ∀ i : Nat, fi.axes.length ≤ i → i < l.length → l[i]? = some 0

theorem fieldOrigin_projects (o : Index3) (fi : FieldInfo) :
    Projects o fi (fieldOrigin o (some fi)) := by
  refine ⟨by simp [fieldOrigin], ?_, ?_⟩
  · intro i a h
    have hlt := (List.getElem?_eq_some_iff.1 h).1
    simp only [fieldOrigin]
    rw [List.getElem?_append_left (by simpa using hlt), List.getElem?_map, h]
    cases a <;> rfl
  · intro i h1 h2
    simp only [fieldOrigin] at h2 ⊢
    rw [List.getElem?_append_right (by simpa using h1), List.getElem?_map]
    simp at h2
    rw [List.getElem?_eq_getElem (by simp; omega)]
    rfl

/-- **C71**: with a single origin, every field's origin is the stencil's origin projected to
its axes with zero for data dimensions. -/
theorem C71_single_origin (fields : List (String × Option FieldInfo)) (o : Index3) (f : String)
    (fi : FieldInfo) (h : dictGet fields f = some (some fi)) :
    ∃ l, dictGet (computeFieldOrigins fields (.index o)) f = some l ∧ Projects o fi l := by
  refine ⟨fieldOrigin o (some fi), ?_, fieldOrigin_projects o fi⟩
  simp only [computeFieldOrigins]
  rw [foldl_origins]
  simp [dictGet] at h ⊢
  obtain ⟨a, ha⟩ := h
  exact ⟨a, _, ha, rfl⟩

/-- **C71**: with a mapping, a field given an origin keeps it and every other field gets the
projection of the common origin. -/
theorem C71_mapping (fields : List (String × Option FieldInfo)) (o : Index3)
    (m : List (String × List Int)) (f : String) :
    (∀ l, dictGet m f = some l → dictGet (computeFieldOrigins fields (.mapping o m)) f = some l) ∧
    (dictGet m f = none → ∀ fi, dictGet fields f = some (some fi) →
      ∃ l, dictGet (computeFieldOrigins fields (.mapping o m)) f = some l ∧ Projects o fi l) := by
  refine ⟨?_, ?_⟩
  · intro l hl
    simp only [computeFieldOrigins]
    rw [foldl_origins, hl]
  · intro hn fi h
    refine ⟨fieldOrigin o (some fi), ?_, fieldOrigin_projects o fi⟩
    simp only [computeFieldOrigins]
    rw [foldl_origins, hn, h]
    rfl

example : computeFieldOrigins [("q", some ⟨[.I, .J, .K], []⟩), ("ps", some ⟨[.I, .J], [true]⟩),
    ("dt", none)] (.mapping (3, 3, 1) [("q", [0, 0, 0])])
    = [("q", [0, 0, 0]), ("ps", [3, 3, 0]), ("dt", [3, 3, 1])] := by decide +kernel

end NDSL.Indexing
