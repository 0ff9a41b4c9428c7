import Verif.Lemmas.BoundarySlice

/-
Property theorems C11-C13: send and receive regions of the halo exchange.
-/
namespace NDSL

/-! ## C11 -/

/-- C11: `ds` is any list of dimensions, `b` any of the eight directions, `n` the number of points,
not more than the compute domain can provide along the dimensions of the direction (excluding a
shared interface line).
The send region is inside the compute domain and contains no point of a line shared with the
neighbour; the receive region is inside the array and, if the direction is along some dimension of
the quantity and `n` is positive, outside the compute domain; both have the same shape. -/
theorem C11_send_recv_regions (b : BType) (n : Int) (ds : List DimSpec) (send recv : List Slice)
    (hs : boundarySlice b n true ds = .ok send) (hr : boundarySlice b n false ds = .ok recv)
    (hfit : ∀ d ∈ ds, b.along d.dim ≠ 0 →
      n + (if d.dim.isInterface then 1 else 0) ≤ d.extent) :
    (∀ g, Selects send g → InCompute ds g ∧ ∀ (m : Nat) (d : DimSpec) (x : Int), ds[m]? = some d →
      g[m]? = some x → ¬ OnSharedLine b d x) ∧
    (∀ g, Selects recv g → InArray ds g ∧ (Aligned b ds → ¬ InCompute ds g)) ∧
    send.map Slice.len = recv.map Slice.len := by
  obtain ⟨rfl, hs2⟩ := (boundarySlice_ok b n true ds send).1 hs
  obtain ⟨rfl, hr2⟩ := (boundarySlice_ok b n false ds recv).1 hr
  have hin : ∀ d ∈ ds, ∀ x, (win b n true d).Has x →
      (d.origin ≤ x ∧ x < d.origin + d.extent) ∧ ¬ OnSharedLine b d x := by
    intro d hd x hx
    have hf := hfit d hd
    unfold OnSharedLine
    rcases along_cases b d.dim with h | h | h
    · rw [win_zero h] at hx
      simp only [Slice.Has] at hx
      exact ⟨hx, fun h' => by omega⟩
    · rw [win_start h] at hx
      simp only [Slice.Has, if_true] at hx
      have := hf (by omega)
      by_cases hi : d.dim.isInterface = true
      · rw [if_pos hi] at hx this
        exact ⟨by omega, by omega⟩
      · rw [if_neg hi] at hx this
        exact ⟨by omega, fun h' => hi h'.1⟩
    · rw [win_end h] at hx
      simp only [Slice.Has, if_true] at hx
      have := hf (by omega)
      by_cases hi : d.dim.isInterface = true
      · rw [if_pos hi] at hx this
        exact ⟨by omega, by omega⟩
      · rw [if_neg hi] at hx this
        exact ⟨by omega, fun h' => hi h'.1⟩
  refine ⟨?_, ?_, ?_⟩
  · intro g hg
    rw [selects_map] at hg
    have hg' := List.forall₂_iff_get.1 hg
    refine ⟨List.forall₂_iff_get.2 ⟨hg'.1, fun i h1 h2 =>
      (hin _ (List.get_mem _ _) _ (hg'.2 i h1 h2)).1⟩, ?_⟩
    intro m d x hd hx
    obtain ⟨h1, rfl⟩ := List.getElem?_eq_some_iff.1 hd
    obtain ⟨h2, rfl⟩ := List.getElem?_eq_some_iff.1 hx
    exact (hin _ (List.getElem_mem _) _ (hg'.2 m h1 h2)).2
  · intro g hg
    rw [selects_map] at hg
    have hg' := List.forall₂_iff_get.1 hg
    constructor
    · refine List.forall₂_iff_get.2 ⟨hg'.1, fun i h1 h2 => ?_⟩
      have hq := hr2 _ (List.get_mem ds ⟨i, h1⟩)
      have hx := hg'.2 i h1 h2
      unfold Slice.Has at hx
      omega
    · rintro ⟨d, hd, hal⟩ hc
      have hc' := List.forall₂_iff_get.1 hc
      obtain ⟨⟨i, h1⟩, rfl⟩ := List.mem_iff_get.1 hd
      have h2 : i < g.length := by rw [← hg'.1]; exact h1
      have hx := hg'.2 i h1 h2
      have hcx := hc'.2 i h1 h2
      rcases along_cases b (ds.get ⟨i, h1⟩).dim with h | h | h
      · exact hal h
      · rw [win_start h] at hx
        simp only [Slice.Has, Bool.false_eq_true, if_false] at hx
        omega
      · rw [win_end h] at hx
        simp only [Slice.Has, Bool.false_eq_true, if_false] at hx
        omega
  · simp only [List.map_map]
    apply List.map_congr_left
    intro d _
    simp only [Function.comp, win_len]

/-- a quantity with 3 halo points, x interface dimension, 3 levels -/
def sampleDims : List DimSpec :=
  [⟨.k, 0, 3, 3⟩, ⟨.j, 3, 4, 10⟩, ⟨.iInterface, 3, 5, 11⟩]

example : boundarySlice .northwest 2 true sampleDims = .ok [⟨0, 3⟩, ⟨5, 7⟩, ⟨4, 6⟩] ∧
    boundarySlice .northwest 2 false sampleDims = .ok [⟨0, 3⟩, ⟨7, 9⟩, ⟨1, 3⟩] := by decide

/-- Without the fitting hypothesis the statement fails: with one compute point and two requested
points the send region reaches into the halo, and no error is raised. -/
theorem C11_wide_send_violated :
    boundarySlice .east 2 true [⟨.i, 3, 1, 7⟩] = .ok [⟨2, 4⟩] ∧
    Selects [⟨2, 4⟩] [2] ∧ ¬ InCompute [⟨.i, 3, 1, 7⟩] [2] := by
  refine ⟨by decide, .cons (by decide) .nil, ?_⟩
  intro h
  cases h with
  | cons h _ => revert h; decide

/-! ## C12 -/

/-- sign of the side of the compute domain on which `x` lies -/
def side (d : DimSpec) (x : Int) : Int :=
  if x < d.origin then -1 else if x < d.origin + d.extent then 0 else 1

theorem recv_has_iff (b : BType) (n : Int) (d : DimSpec) (hn : 0 ≤ n) (he : 0 ≤ d.extent) (x : Int) :
    (win b n false d).Has x ↔
      (d.origin - (if d.dim.isHorizontal then n else 0) ≤ x ∧
        x < d.origin + d.extent + (if d.dim.isHorizontal then n else 0)) ∧
      side d x = b.along d.dim := by
  have hs : side d x = -1 ∧ x < d.origin ∨ side d x = 0 ∧ d.origin ≤ x ∧ x < d.origin + d.extent ∨
      side d x = 1 ∧ d.origin + d.extent ≤ x ∧ d.origin ≤ x := by
    unfold side
    split
    · left; omega
    · split <;> [(right; left; omega); (right; right; omega)]
  by_cases hh : d.dim.isHorizontal = true
  · simp only [hh, if_true]
    rcases along_cases b d.dim with h | h | h
    · rw [win_zero h, h]; simp only [Slice.Has]; omega
    · rw [win_start h, h]; simp only [Slice.Has, Bool.false_eq_true, if_false]; omega
    · rw [win_end h, h]; simp only [Slice.Has, Bool.false_eq_true, if_false]; omega
  · have h := along_not_horizontal b d.dim (by simpa using hh)
    rw [if_neg hh, win_zero h, h]; simp only [Slice.Has]; omega

/-- the boundary type with a given direction -/
theorem exists_dir (dx dy : Int) (hx : dx = -1 ∨ dx = 0 ∨ dx = 1) (hy : dy = -1 ∨ dy = 0 ∨ dy = 1)
    (h : ¬ (dx = 0 ∧ dy = 0)) : ∃ b : BType, b.dir = (dx, dy) := by
  rcases hx with rfl | rfl | rfl <;> rcases hy with rfl | rfl | rfl
  · exact ⟨.southwest, rfl⟩
  · exact ⟨.west, rfl⟩
  · exact ⟨.northwest, rfl⟩
  · exact ⟨.south, rfl⟩
  · exact absurd ⟨rfl, rfl⟩ h
  · exact ⟨.north, rfl⟩
  · exact ⟨.southeast, rfl⟩
  · exact ⟨.east, rfl⟩
  · exact ⟨.northeast, rfl⟩

theorem dir_inj (b b' : BType) (h : b.dir = b'.dir) : b = b' := by
  cases b <;> cases b' <;> first | rfl | exact absurd h (by decide)

theorem filter_one_get {p : DimSpec → Bool} {ds : List DimSpec} (h : (ds.filter p).length = 1) :
    ∃ (m : Nat) (hm : m < ds.length), p ds[m] = true ∧
      ∀ (m' : Nat) (hm' : m' < ds.length), p ds[m'] = true → m' = m := by
  induction ds with
  | nil => simp at h
  | cons d ds ih =>
    by_cases hp : p d = true
    · rw [List.filter_cons_of_pos hp] at h
      simp only [List.length_cons, Nat.add_eq_right] at h
      have h0 := List.length_eq_zero_iff.1 h
      refine ⟨0, by simp, by simpa using hp, ?_⟩
      intro m' hm' hpm
      cases m' with
      | zero => rfl
      | succ m' =>
        simp only [List.getElem_cons_succ] at hpm
        have : ds[m']'(by simpa using hm') ∈ ds.filter p := List.mem_filter.2 ⟨List.getElem_mem _, hpm⟩
        rw [h0] at this; simp at this
    · rw [List.filter_cons_of_neg hp] at h
      obtain ⟨m, hm, h1, h2⟩ := ih h
      refine ⟨m + 1, by simpa using hm, by simpa using h1, ?_⟩
      intro m' hm' hpm
      cases m' with
      | zero => simp only [List.getElem_cons_zero] at hpm; exact absurd hpm hp
      | succ m' =>
        simp only [List.getElem_cons_succ] at hpm
        rw [h2 m' (by simpa using hm') hpm]

theorem filter_map_dim (p : Dim → Bool) (ds : List DimSpec) :
    ((ds.map DimSpec.dim).filter p).length = (ds.filter fun d => p d.dim).length := by
  rw [List.filter_map, List.length_map]; rfl

/-- C12: for a quantity with one x and one y dimension (any other dimensions, any order), `n` halo
points that fit in the array: a point is in one of the eight receive regions exactly if it is within
`n` points of the compute domain (horizontally) and not in it, and then it is in exactly one. -/
theorem C12_recv_regions_tile_ring (n : Int) (hn : 0 ≤ n) (ds : List DimSpec)
    (hxy : HasXY (ds.map DimSpec.dim)) (hext : ∀ d ∈ ds, 0 ≤ d.extent)
    (R : BType → List Slice) (hR : ∀ b, boundarySlice b n false ds = .ok (R b)) (g : List Int) :
    ((∃ b, Selects (R b) g) ↔ (InWidened n ds g ∧ ¬ InCompute ds g)) ∧
    (∀ b b', Selects (R b) g → Selects (R b') g → b = b') := by
  have hRb : ∀ b, R b = ds.map (win b n false) := fun b => ((boundarySlice_ok b n false ds _).1 (hR b)).1
  obtain ⟨mj, hmj, hj1, hj2⟩ := filter_one_get (by rw [← filter_map_dim]; exact hxy.oneJ)
  obtain ⟨mi, hmi, hi1, hi2⟩ := filter_one_get (by rw [← filter_map_dim]; exact hxy.oneI)
  have hsel : ∀ b, Selects (R b) g ↔ InWidened n ds g ∧
      ∀ (m : Nat) (h1 : m < ds.length) (h2 : m < g.length),
        side ds[m] g[m] = b.along ds[m].dim := by
    intro b
    rw [hRb, selects_map]
    unfold InWidened
    rw [List.forall₂_iff_get, List.forall₂_iff_get]
    constructor
    · rintro ⟨h1, h2⟩
      refine ⟨⟨h1, fun i a b => ?_⟩, fun m a b => ?_⟩
      · exact ((recv_has_iff _ n _ hn (hext _ (List.get_mem _ _)) _).1 (h2 i a b)).1
      · exact ((recv_has_iff _ n _ hn (hext _ (List.getElem_mem _)) _).1 (h2 m a b)).2
    · rintro ⟨⟨h1, h2⟩, h3⟩
      exact ⟨h1, fun i a b => (recv_has_iff _ n _ hn (hext _ (List.get_mem _ _)) _).2
        ⟨h2 i a b, h3 i a b⟩⟩
  constructor
  · constructor
    · rintro ⟨b, hb⟩
      have hb' := (hsel b).1 hb
      refine ⟨hb'.1, fun hc => ?_⟩
      have hlen := List.Forall₂.length_eq hc
      have hc' := (List.forall₂_iff_get.1 hc).2
      have hz : ∀ (m : Nat) (h1 : m < ds.length), b.along ds[m].dim = 0 := by
        intro m h1
        have h2 : m < g.length := by omega
        rw [← hb'.2 m h1 h2]
        have := hc' m h1 h2
        simp only [List.get_eq_getElem] at this
        unfold side
        rw [if_neg (by omega), if_pos (by omega)]
      have e1 := hz mj hmj
      have e2 := hz mi hmi
      have hnotI : ds[mj].dim.isI = false := by
        cases hd : ds[mj].dim <;> simp_all [Dim.isI, Dim.isJ]
      simp only [BType.along, hnotI, hj1, if_true] at e1
      simp only [BType.along, hi1, if_true] at e2
      cases b <;> simp [BType.dir] at e1 e2
    · rintro ⟨hw, hc⟩
      have hlen := List.Forall₂.length_eq hw
      have hw' := (List.forall₂_iff_get.1 hw).2
      have hgj : mj < g.length := by omega
      have hgi : mi < g.length := by omega
      have hnotI : ds[mj].dim.isI = false := by
        cases hd : ds[mj].dim <;> simp_all [Dim.isI, Dim.isJ]
      have hsv : ∀ d x, side d x = -1 ∨ side d x = 0 ∨ side d x = 1 := by
        intro d x; unfold side; split <;> [simp; split <;> simp]
      -- other dimensions are in their range
      have hother : ∀ (m : Nat) (h1 : m < ds.length) (h2 : m < g.length), m ≠ mj → m ≠ mi →
          side ds[m] g[m] = 0 ∧ ds[m].dim.isI = false ∧ ds[m].dim.isJ = false := by
        intro m h1 h2 n1 n2
        have a : ds[m].dim.isI = false := by
          by_contra hne; exact n2 (hi2 m h1 (by simpa using hne))
        have b : ds[m].dim.isJ = false := by
          by_contra hne; exact n1 (hj2 m h1 (by simpa using hne))
        refine ⟨?_, a, b⟩
        have := hw' m h1 h2
        simp only [List.get_eq_getElem, Dim.isHorizontal, a, b] at this
        unfold side
        simp at this
        rw [if_neg (by omega), if_pos (by omega)]
      have hne : ¬ (side ds[mi] g[mi] = 0 ∧ side ds[mj] g[mj] = 0) := by
        rintro ⟨z1, z2⟩
        apply hc
        refine List.forall₂_iff_get.2 ⟨hlen, fun m h1 h2 => ?_⟩
        have hz : side ds[m] g[m] = 0 := by
          by_cases c1 : m = mj
          · subst c1; exact z2
          · by_cases c2 : m = mi
            · subst c2; exact z1
            · exact (hother m h1 h2 c1 c2).1
        simp only [List.get_eq_getElem]
        unfold side at hz
        split at hz
        · omega
        · split at hz <;> omega
      obtain ⟨b, hb⟩ := exists_dir _ _ (hsv ds[mi] g[mi]) (hsv ds[mj] g[mj]) hne
      refine ⟨b, (hsel b).2 ⟨hw, fun m h1 h2 => ?_⟩⟩
      by_cases c1 : m = mj
      · subst c1; simp [BType.along, hnotI, hj1, hb]
      · by_cases c2 : m = mi
        · subst c2; simp [BType.along, hi1, hb]
        · obtain ⟨z, a1, a2⟩ := hother m h1 h2 c1 c2
          simp [BType.along, a1, a2, z]
  · intro b b' hb hb'
    have h1 := (hsel b).1 hb
    have h2 := (hsel b').1 hb'
    have hlen := List.Forall₂.length_eq h1.1
    have hgj : mj < g.length := by omega
    have hgi : mi < g.length := by omega
    have hnotI : ds[mj].dim.isI = false := by
      cases hd : ds[mj].dim <;> simp_all [Dim.isI, Dim.isJ]
    have ej := (h1.2 mj hmj hgj).symm.trans (h2.2 mj hmj hgj)
    have ei := (h1.2 mi hmi hgi).symm.trans (h2.2 mi hmi hgi)
    simp only [BType.along, hnotI, hj1, if_true, Bool.false_eq_true, if_false] at ej
    simp only [BType.along, hi1, if_true] at ei
    exact dir_inj b b' (Prod.ext ei ej)

/-- the ring of `sampleDims` for 3 points exists (all eight regions are accepted) -/
example : HasXY (sampleDims.map DimSpec.dim) ∧ (∀ d ∈ sampleDims, 0 ≤ d.extent) ∧
    ∀ b, ∃ r, boundarySlice b 3 false sampleDims = .ok r := by
  refine ⟨⟨by decide, by decide⟩, by decide, fun b => ?_⟩
  cases b <;> exact ⟨_, rfl⟩

/-! ## C13 -/

/-- C13: the width requested from the boundary slices is never silently reduced. If the receive
region (the `n` points next to the compute domain on the side of the boundary) leaves the array, an
`IndexError` is raised; if a slice is returned, it is inside the array, has `n` points along the
dimensions of the boundary and the full compute extent along the others. -/
theorem C13_no_truncation (b : BType) (n : Int) (interior : Bool) (ds : List DimSpec) :
    ((∃ d ∈ ds, (b.along d.dim = -1 ∧ d.origin - n < 0) ∨
        (b.along d.dim = 1 ∧ d.shape < d.origin + d.extent + n)) →
      boundarySlice b n false ds = .error .indexError) ∧
    (∀ s, boundarySlice b n interior ds = .ok s →
      s.map Slice.len = (ds.map fun d => if b.along d.dim = 0 then d.extent else n) ∧
      List.Forall₂ (fun d sl => 0 ≤ sl.start ∧ sl.stop ≤ d.shape) ds s) := by
  constructor
  · rintro ⟨d, hd, h⟩
    cases hc : boundarySlice b n false ds with
    | error e => rw [boundarySlice_error _ _ _ _ _ hc]
    | ok s =>
      exfalso
      have := ((boundarySlice_ok _ _ _ _ _).1 hc).2 d hd
      rcases h with ⟨h1, h2⟩ | ⟨h1, h2⟩
      · rw [win_start h1] at this; simp at this; omega
      · rw [win_end h1] at this; simp at this; omega
  · intro s hs
    obtain ⟨rfl, h2⟩ := (boundarySlice_ok _ _ _ _ _).1 hs
    constructor
    · simp only [List.map_map]
      apply List.map_congr_left
      intro d _
      simp only [Function.comp, win_len]
    · rw [List.forall₂_map_right_iff]
      exact List.forall₂_same.2 h2

/-- C13, `halo_spec`: more points than the quantity's halo are refused, otherwise the specification
asks for exactly the requested number. -/
theorem C13_halo_spec (available requested : Int) :
    (available < requested → haloSpecPoints available requested = .error .valueError) ∧
    (requested ≤ available → haloSpecPoints available requested = .ok requested) := by
  unfold haloSpecPoints
  constructor <;> intro h
  · rw [if_pos (by omega)]
  · rw [if_neg (by omega)]

example : boundarySlice .west 4 false sampleDims = .error .indexError ∧
    boundarySlice .east 3 false sampleDims = .ok [⟨0, 3⟩, ⟨3, 7⟩, ⟨8, 11⟩] ∧
    boundarySlice .east 4 false sampleDims = .error .indexError := by decide

end NDSL
