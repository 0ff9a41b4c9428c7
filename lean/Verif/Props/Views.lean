import Verif.Spec.Halo

/-
Property theorem C14: indexing a quantity's views.
-/
namespace NDSL

/-! ### Specification -/

/-- Reference point of a view along a dimension, for start and stop of slices (and integers use the
first): the start of the compute domain, except that corner views refer to the corner they are named
after and `interior` stops refer to the end of the compute domain. `none` is the plain view. -/
def viewRef (v : Option ViewKind) (d : DimSpec) : Int × Int :=
  match v with
  | none => (d.origin, d.origin)
  | some .interior => (d.origin, d.origin + d.extent)
  | some (.corner b) =>
    if b.along d.dim = 1 then (d.origin + d.extent, d.origin + d.extent) else (d.origin, d.origin)

/-- The positions meant by an entry of the index: `reference + i`, or from `reference + start` to
`reference + stop`, the compute domain's ends being the defaults. -/
def meant (v : Option ViewKind) (d : DimSpec) : Entry → Slice
  | .int i => ⟨(viewRef v d).1 + i, (viewRef v d).1 + i + 1⟩
  | .sl a b => ⟨(a.map ((viewRef v d).1 + ·)).getD d.origin,
      (b.map ((viewRef v d).2 + ·)).getD (d.origin + d.extent)⟩

/-- The entry stays inside the array. -/
def Inside (v : Option ViewKind) (d : DimSpec) (e : Entry) : Prop :=
  0 ≤ (meant v d e).start ∧ (meant v d e).start ≤ d.shape ∧
  0 ≤ (meant v d e).stop ∧ (meant v d e).stop ≤ d.shape

/-- What the views do: plain view `__getitem__` or a corner/interior view's, then numpy. -/
def viewRegion (v : Option ViewKind) (ds : List DimSpec) (index : List Entry) :
    Except Err (List Slice) :=
  match v with
  | none => addressed ds (computeIndex ds index)
  | some k => addressed ds (boundaryIndex k ds index)

/-! ### Proofs -/

def shiftEntry (v : Option ViewKind) (d : DimSpec) (e : Entry) : Entry :=
  match v with
  | none => computeEntry d e
  | some k => boundaryEntry k d e

theorem npBound_id {n i : Int} (h0 : 0 ≤ i) (h1 : i ≤ n) : npBound n i = i := by
  unfold npBound
  rw [if_neg (by omega)]
  show max 0 (min i n) = i
  omega

theorem npInt_id {n i : Int} (h0 : 0 ≤ i) (h1 : i < n) : npInt n i = .ok i := by
  unfold npInt
  have h : (if i < 0 then n + i else i) = i := if_neg (by omega)
  simp only [h]
  rw [if_pos ⟨h0, h1⟩]

theorem viewOffset_ref (k : ViewKind) (d : DimSpec) : viewOffset k d = viewRef (some k) d := by
  cases k with
  | interior => rfl
  | corner b =>
    cases b <;> cases hd : d.dim <;>
      simp [viewOffset, viewRef, atStart, BType.along, BType.dir, Dim.isI, Dim.isJ, hd]

theorem npEntry_shift (v : Option ViewKind) (d : DimSpec) (e : Entry) (h : Inside v d e) :
    npEntry d.shape (shiftEntry v d e) = .ok (meant v d e) := by
  cases v with
  | none =>
    cases e with
    | int i =>
      obtain ⟨h1, h2, h3, h4⟩ := h
      simp only [meant, viewRef] at h1 h2 h3 h4 ⊢
      simp only [shiftEntry, computeEntry, npEntry]
      rw [npInt_id (by omega) (by omega)]
      simp only [Except.map, Except.ok.injEq, Slice.mk.injEq]; omega
    | sl a b =>
      obtain ⟨h1, h2, h3, h4⟩ := h
      simp only [meant, viewRef] at h1 h2 h3 h4 ⊢
      simp only [shiftEntry, computeEntry, npEntry, Option.getD_some]
      have key : ∀ (c : Option Int) (dflt : Int), 0 ≤ (c.map (d.origin + ·)).getD dflt →
          (shiftIndex c d.origin d.extent).getD dflt = (c.map (d.origin + ·)).getD dflt := by
        intro c dflt hc
        cases c with
        | none => rfl
        | some x =>
          simp only [shiftIndex, Option.map_some, Option.getD_some] at hc ⊢
          rw [if_neg (by omega)]; omega
      rw [key a _ h1, key b _ h3, npBound_id h1 h2, npBound_id h3 h4]
  | some k =>
    cases e with
    | int i =>
      obtain ⟨h1, h2, h3, h4⟩ := h
      simp only [meant] at h1 h2 h3 h4 ⊢
      simp only [shiftEntry, boundaryEntry, npEntry, viewOffset_ref]
      rw [npInt_id (by omega) (by omega)]
      simp only [Except.map, Except.ok.injEq, Slice.mk.injEq]; omega
    | sl a b =>
      obtain ⟨h1, h2, h3, h4⟩ := h
      simp only [meant] at h1 h2 h3 h4 ⊢
      simp only [shiftEntry, boundaryEntry, npEntry, Option.getD_some, viewOffset_ref]
      have key : ∀ (c : Option Int) (dflt r : Int),
          (c.map (· + r)).getD dflt = (c.map (r + ·)).getD dflt := by
        intro c dflt r
        cases c with
        | none => rfl
        | some x => simp only [Option.map_some, Option.getD_some]; omega
      rw [key a, key b, npBound_id h1 h2, npBound_id h3 h4]

theorem mapM_entries (v : Option ViewKind) : ∀ (ds : List DimSpec) (es : List Entry),
    List.Forall₂ (Inside v) ds es →
    ((ds.zip ((ds.zip es).map fun (d, e) => shiftEntry v d e)).mapM
      fun (d, e) => npEntry d.shape e) = .ok ((ds.zip es).map fun (d, e) => meant v d e)
  | [], _, _ => rfl
  | d :: ds, e :: es, h => by
    cases h with
    | cons h1 h2 =>
      have ih := mapM_entries v ds es h2
      simp only [List.zip_cons_cons, List.map_cons, List.mapM_cons, npEntry_shift v d e h1, ih]
      rfl

theorem viewRegion_eq (v : Option ViewKind) (ds : List DimSpec) (index : List Entry)
    (hl : index.length ≤ ds.length) :
    viewRegion v ds index =
      ((ds.zip ((ds.zip (fillIndex index ds.length)).map fun (d, e) => shiftEntry v d e)).mapM
        fun (d, e) => npEntry d.shape e) := by
  cases v with
  | none => simp only [viewRegion, addressed, computeIndex, if_neg (Nat.not_lt.2 hl)]; rfl
  | some k => simp only [viewRegion, addressed, boundaryIndex, if_neg (Nat.not_lt.2 hl)]; rfl

/-! ## C14 -/

/-- C14: an index tuple (padded with full slices) whose entries, taken relative to the view's
reference point, stay inside the array addresses exactly those elements; too many entries raise. This
covers the plain view (`none`), the corner views and `interior`. -/
theorem C14_view_addresses (v : Option ViewKind) (ds : List DimSpec) (index : List Entry) :
    (ds.length < index.length → viewRegion v ds index = .error .indexError) ∧
    (List.Forall₂ (Inside v) ds (fillIndex index ds.length) →
      viewRegion v ds index =
        .ok ((ds.zip (fillIndex index ds.length)).map fun (d, e) => meant v d e)) := by
  constructor
  · intro h
    cases v <;> simp only [viewRegion, computeIndex, boundaryIndex, if_pos h, addressed] <;> rfl
  · intro h
    have hl : index.length ≤ ds.length := by
      have := List.Forall₂.length_eq h
      simp only [fillIndex, List.length_append, List.length_replicate] at this
      omega
    rw [viewRegion_eq v ds index hl, mapM_entries v ds _ h]

/-- C14: `view[:]` is exactly the compute domain. -/
theorem C14_full_view_is_compute_domain (ds : List DimSpec)
    (hv : ∀ d ∈ ds, 0 ≤ d.origin ∧ 0 ≤ d.extent ∧ d.origin + d.extent ≤ d.shape) :
    ∃ r, viewRegion none ds [] = .ok r ∧ ∀ g, Selects r g ↔ InCompute ds g := by
  have hf : fillIndex [] ds.length = List.replicate ds.length (.sl none none) := rfl
  have hin : List.Forall₂ (Inside none) ds (fillIndex [] ds.length) := by
    rw [hf]
    refine List.forall₂_iff_get.2 ⟨by simp, fun i h1 h2 => ?_⟩
    have := hv _ (List.get_mem ds ⟨i, h1⟩)
    simp [Inside, meant]
    simp only [List.get_eq_getElem] at this
    omega
  refine ⟨_, (C14_view_addresses none ds []).2 hin, ?_⟩
  intro g
  have hmap : (ds.zip (fillIndex [] ds.length)).map (fun (d, e) => meant none d e) =
      ds.map fun d => (⟨d.origin, d.origin + d.extent⟩ : Slice) := by
    rw [hf]
    apply List.ext_getElem
    · simp
    · intro i h1 h2; simp [meant]
  rw [hmap]
  unfold Selects InCompute
  rw [List.forall₂_map_left_iff]
  rfl

/-- 3 halo points around 5 x 4 cells, 2 levels -/
def viewEx : List DimSpec := [⟨.i, 3, 5, 11⟩, ⟨.j, 3, 4, 10⟩, ⟨.k, 0, 2, 2⟩]

example : viewRegion none viewEx [.int 1, .sl (some (-2)) (some 6)] =
    .ok [⟨4, 5⟩, ⟨1, 9⟩, ⟨0, 2⟩] := by decide
example : List.Forall₂ (Inside none) viewEx (fillIndex [.int 1, .sl (some (-2)) (some 6)] 3) := by
  refine .cons ?_ (.cons ?_ (.cons ?_ .nil)) <;> simp [Inside, meant, viewRef]
example : viewRegion (some (.corner .northeast)) viewEx [.int (-1), .sl (some 0) (some 3), .int 1] =
    .ok [⟨7, 8⟩, ⟨7, 10⟩, ⟨1, 2⟩] := by decide
example : viewRegion (some .interior) viewEx [.sl (some (-1)) (some 1), .sl (some 0) (some 0)] =
    .ok [⟨2, 9⟩, ⟨3, 7⟩, ⟨0, 2⟩] := by decide

/-- Outside the range covered by `C14_view_addresses` the plain view does not raise but wraps, and
what a negative bound means depends on the halo: with 3 halo points `view[:-1]` is empty, without halo
it is the domain but for the last point, and `view[-4]` on 3 halo points is the last array element. -/
theorem C14_negative_index_violated :
    viewRegion none [⟨.i, 3, 5, 11⟩] [.sl none (some (-1))] = .ok [⟨3, 2⟩] ∧
    viewRegion none [⟨.i, 0, 5, 5⟩] [.sl none (some (-1))] = .ok [⟨0, 4⟩] ∧
    viewRegion none [⟨.i, 3, 5, 11⟩] [.int (-4)] = .ok [⟨10, 11⟩] := by decide

end NDSL
