import Verif.Model.QuantityOps
import Verif.Spec.NDArray
import Mathlib.Data.List.Nodup
import Mathlib.Data.List.Perm.Basic

/-! C36: transposing quantities. C37: swapping buffers. -/
namespace NDSL
variable {α : Type}

/-- what every quantity satisfies by construction, with distinct dimension names -/
structure TQty.Valid (q : TQty α) : Prop where
  dims : q.dims.length = q.data.shape.length
  origin : q.origin.length = q.data.shape.length
  extent : q.extent.length = q.data.shape.length
  nodup : q.dims.Nodup
  precision : q.precisionOk = true

/-- the entry of a list of numbers that belongs to a dimension -/
def entryOf (dims : List Dim) (l : List Int) (d : Dim) : Int := NArr.ent l (dims.idxOf d)

theorem order_dims (dims td : List Dim) (h : ∀ d ∈ td, d ∈ dims) :
    (td.map fun d => dims.idxOf d).map (fun a => dims.getD a .i) = td := by
  rw [List.map_map]
  conv_rhs => rw [← List.map_id td]
  apply List.map_congr_left
  intro d hd
  show dims.getD (dims.idxOf d) Dim.i = d
  have hl : dims.idxOf d < dims.length := List.idxOf_lt_length_of_mem (h d hd)
  rw [List.getD_eq_getElem?_getD, List.getElem?_eq_getElem hl, Option.getD_some]
  exact List.getElem_idxOf hl

theorem collapse_mem {targets : List Target} {dims td : List Dim} (h : collapseDims targets dims = .ok td) :
    ∀ d ∈ td, d ∈ dims := by
  induction targets generalizing td with
  | nil => cases h; intro d hd; cases hd
  | cons t ts ih =>
    unfold collapseDims at h
    rw [List.mapM_cons] at h
    cases ht : collapseOne dims t with
    | error e => rw [ht] at h; cases h
    | ok d0 =>
      rw [ht] at h
      cases hr : collapseDims ts dims with
      | error e => unfold collapseDims at hr; simp only [bind, Except.bind, hr] at h; cases h
      | ok rest =>
        have hr' := hr
        unfold collapseDims at hr'
        simp only [bind, Except.bind, hr'] at h
        cases h
        intro d hd
        rcases List.mem_cons.1 hd with rfl | hd
        · cases t with
          | name x =>
            simp only [collapseOne] at ht
            split at ht
            · cases ht; assumption
            · cases ht
          | any ds =>
            simp only [collapseOne] at ht
            split at ht
            · rename_i x hx
              cases ht
              have : d ∈ ds.filter (· ∈ dims) := by rw [hx]; exact List.mem_singleton.2 rfl
              simpa using (List.mem_filter.1 this).2
            · cases ht
        · exact ih hr d hd

theorem range_all {dims td : List Dim} (hn : dims.Nodup) (hp : td.Perm dims) :
    (List.range dims.length).all (fun a => decide (a ∈ td.map fun d => dims.idxOf d)) = true := by
  rw [List.all_eq_true]
  intro a ha
  have ha : a < dims.length := List.mem_range.1 ha
  simp only [decide_eq_true_eq, List.mem_map]
  refine ⟨dims[a], hp.mem_iff.2 (List.getElem_mem ha), ?_⟩
  exact hn.idxOf_getElem a ha

theorem perm_of_all {dims td : List Dim} (hn : dims.Nodup) (hl : td.length = dims.length)
    (hm : ∀ d ∈ td, d ∈ dims)
    (ha : (List.range dims.length).all (fun a => decide (a ∈ td.map fun d => dims.idxOf d)) = true) :
    td.Perm dims := by
  have hsub : dims ⊆ td := by
    intro d hd
    have hlt : dims.idxOf d < dims.length := List.idxOf_lt_length_of_mem hd
    have := List.all_eq_true.1 ha _ (List.mem_range.2 hlt)
    simp only [decide_eq_true_eq, List.mem_map] at this
    obtain ⟨e, he, hee⟩ := this
    have : e = d := (List.idxOf_inj (hm e he)).1 hee
    rw [← this]; exact he
  exact ((List.subperm_of_subset hn hsub).perm_of_length_le (by omega)).symm

/-- C36. Transposing succeeds exactly when the targets name (directly or as the only match of a list of
alternatives) every dimension of the quantity once. -/
theorem C36_transpose_iff (q : TQty α) (hv : q.Valid) (targets : List Target) (allow : Bool) :
    (∃ r, q.transpose targets allow = .ok r) ↔
      ∃ td, collapseDims targets q.dims = .ok td ∧ td.Perm q.dims := by
  unfold TQty.transpose
  cases hc : collapseDims targets q.dims with
  | error e => simp [bind, Except.bind]
  | ok td =>
    simp only [bind, Except.bind]
    have hm := collapse_mem hc
    constructor
    · rintro ⟨r, hr⟩
      refine ⟨td, rfl, ?_⟩
      unfold npTranspose at hr
      split at hr
      · cases hr
      · rename_i x hx
        split at hx
        · rename_i hcond
          obtain ⟨h1, h2⟩ := hcond
          rw [← hv.dims] at h1 h2
          exact perm_of_all hv.nodup (by simpa using h1) hm h2
        · cases hx
    · rintro ⟨td', h, hp⟩
      cases h
      unfold npTranspose
      have hcond : (td.map fun d => q.dims.idxOf d).length = q.data.shape.length ∧
          (List.range q.data.shape.length).all (fun a => decide (a ∈ td.map fun d => q.dims.idxOf d)) = true := by
        rw [← hv.dims]
        exact ⟨by rw [List.length_map]; exact hp.length_eq, range_all hv.nodup hp⟩
      rw [if_pos hcond]
      simp only
      unfold TQty.mk'
      rw [if_neg (by simp [hv.precision]), if_neg]
      · exact ⟨_, rfl⟩
      · simp [transposeSeq]

theorem transpose_ok {q : TQty α} (hv : q.Valid) {targets : List Target} {allow : Bool} {r : TQty α}
    (h : q.transpose targets allow = .ok r) : ∃ td, collapseDims targets q.dims = .ok td ∧ td.Perm q.dims ∧
      r.dims = td ∧ r.units = q.units ∧ r.origin = transposeSeq q.origin (td.map fun d => q.dims.idxOf d) ∧
      r.extent = transposeSeq q.extent (td.map fun d => q.dims.idxOf d) ∧
      r.data.shape = transposeSeq q.data.shape (td.map fun d => q.dims.idxOf d) ∧
      (∀ idx, r.data.get idx = q.data.get ((List.range q.data.shape.length).map fun a =>
        NArr.ent idx ((td.map fun d => q.dims.idxOf d).idxOf a))) ∧ r.nHalo = 0 ∧ r.precisionOk = q.precisionOk := by
  obtain ⟨td, hc, hp⟩ := (C36_transpose_iff q hv targets allow).1 ⟨r, h⟩
  refine ⟨td, hc, hp, ?_⟩
  unfold TQty.transpose at h
  rw [hc] at h
  simp only [bind, Except.bind] at h
  unfold npTranspose at h
  have hcond : (td.map fun d => q.dims.idxOf d).length = q.data.shape.length ∧
      (List.range q.data.shape.length).all (fun a => decide (a ∈ td.map fun d => q.dims.idxOf d)) = true := by
    rw [← hv.dims]
    exact ⟨by rw [List.length_map]; exact hp.length_eq, range_all hv.nodup hp⟩
  rw [if_pos hcond] at h
  simp only at h
  unfold TQty.mk' at h
  rw [order_dims q.dims td fun d hd => hp.mem_iff.1 hd] at h
  split at h
  · cases h
  · split at h
    · cases h
    · cases h
      exact ⟨rfl, rfl, rfl, rfl, rfl, fun _ => rfl, rfl, rfl⟩

theorem entryOf_transpose (dims td : List Dim) (hp : td.Perm dims) (l : List Int) (d : Dim) (hd : d ∈ td) :
    entryOf td (transposeSeq l (td.map fun d => dims.idxOf d)) d = entryOf dims l d := by
  have hlt : td.idxOf d < td.length := List.idxOf_lt_length_of_mem hd
  unfold entryOf NArr.ent transposeSeq
  rw [List.map_map, List.getD_eq_getElem?_getD, List.getElem?_map, List.getElem?_eq_getElem hlt]
  simp only [Option.map_some, Option.getD_some, Function.comp, List.getElem_idxOf hlt]

/-- C36. The transposed quantity has the dims asked for, the same units, and, dimension by dimension, the same
shape, origin and extent; its element at an index is the original's element at the index with the same entry
for every dimension. -/
theorem C36_transpose_values (q : TQty α) (hv : q.Valid) (targets : List Target) (allow : Bool) (r : TQty α)
    (h : q.transpose targets allow = .ok r) :
    collapseDims targets q.dims = .ok r.dims ∧ r.dims.Perm q.dims ∧ r.units = q.units ∧
    (∀ d ∈ q.dims, entryOf r.dims r.data.shape d = entryOf q.dims q.data.shape d ∧
      entryOf r.dims r.origin d = entryOf q.dims q.origin d ∧
      entryOf r.dims r.extent d = entryOf q.dims q.extent d) ∧
    (∀ ri qi : List Int, ri.length = r.dims.length → qi.length = q.dims.length →
      (∀ d ∈ q.dims, entryOf r.dims ri d = entryOf q.dims qi d) → r.data.get ri = q.data.get qi) := by
  obtain ⟨td, hc, hp, h1, h2, h3, h4, h5, h6, -, -⟩ := transpose_ok hv h
  subst h1
  refine ⟨hc, hp, h2, ?_, ?_⟩
  · intro d hd
    have hd' := hp.mem_iff.2 hd
    rw [h3, h4, h5]
    exact ⟨entryOf_transpose _ _ hp _ d hd', entryOf_transpose _ _ hp _ d hd', entryOf_transpose _ _ hp _ d hd'⟩
  · intro ri qi hr hq he
    rw [h6]
    congr 1
    apply List.ext_getElem
    · rw [List.length_map, List.length_range, ← hv.dims, hq]
    · intro a ha1 ha2
      rw [List.getElem_map, List.getElem_range]
      have ha : a < q.dims.length := by rw [← hq]; exact ha2
      have hmem : q.dims[a] ∈ r.dims := hp.mem_iff.2 (List.getElem_mem ha)
      have hidx : (r.dims.map fun d => q.dims.idxOf d).idxOf a = r.dims.idxOf q.dims[a] := by
        have hk : r.dims.idxOf q.dims[a] < r.dims.length := List.idxOf_lt_length_of_mem hmem
        have hnd : (r.dims.map fun d => q.dims.idxOf d).Nodup := by
          apply List.Nodup.map_on _ (hp.nodup_iff.2 hv.nodup)
          intro x hx y hy hxy
          exact (List.idxOf_inj (hp.mem_iff.1 hx)).1 hxy
        have hg : (r.dims.map fun d => q.dims.idxOf d)[r.dims.idxOf q.dims[a]]'(by simpa using hk) = a := by
          rw [List.getElem_map, List.getElem_idxOf hk]
          exact hv.nodup.idxOf_getElem a ha
        have := hnd.idxOf_getElem _ (by simpa using hk)
        rw [hg] at this
        exact this
      rw [hidx]
      have := he q.dims[a] (List.getElem_mem ha)
      unfold entryOf at this
      rw [this, hv.nodup.idxOf_getElem a ha]
      unfold NArr.ent
      rw [List.getD_eq_getElem?_getD, List.getElem?_eq_getElem ha2, Option.getD_some]

/-- C36. Transposing back to the original order restores everything but the halo width. -/
theorem C36_round_trip (q : TQty α) (hv : q.Valid) (targets : List Target) (allow allow' : Bool) (r b : TQty α)
    (h : q.transpose targets allow = .ok r) (hb : r.transpose (q.dims.map .name) allow' = .ok b) :
    b.dims = q.dims ∧ b.units = q.units ∧ b.origin = q.origin ∧ b.extent = q.extent ∧ b.data.Same q.data := by
  obtain ⟨td, -, hp, h1, h2, h3, h4, h5, h6, -, h8⟩ := transpose_ok hv h
  subst h1
  have hvr : r.Valid := by
    refine ⟨?_, ?_, ?_, hp.nodup_iff.2 hv.nodup, by rw [h8]; exact hv.precision⟩
    · rw [h5]; simp [transposeSeq]
    · rw [h3, h5]; simp [transposeSeq]
    · rw [h4, h5]; simp [transposeSeq]
  obtain ⟨-, g2, g3, g4, g5⟩ := C36_transpose_values r hvr _ _ b hb
  obtain ⟨-, k2, k3, k4, k5⟩ := C36_transpose_values q hv _ _ r h
  obtain ⟨td, hc, hpb, b1, -, c3, c4, c5, c6, -, -⟩ := transpose_ok hvr hb
  have hbd : b.dims = q.dims := by
    have key : ∀ l : List Dim, (∀ d ∈ l, d ∈ r.dims) → collapseDims (l.map .name) r.dims = .ok l := by
      intro l
      induction l with
      | nil => intro _; rfl
      | cons d l ih =>
        intro hm
        have := ih fun x hx => hm x (List.mem_cons_of_mem _ hx)
        unfold collapseDims at this ⊢
        rw [List.map_cons, List.mapM_cons, this]
        simp only [collapseOne, if_pos (hm d List.mem_cons_self)]
        rfl
    have := key q.dims fun d hd => hp.mem_iff.2 hd
    rw [hc] at this
    rw [b1]; exact Except.ok.inj this
  have ext : ∀ (l m : List Int), l.length = q.dims.length → m.length = q.dims.length →
      (∀ d ∈ q.dims, entryOf q.dims l d = entryOf q.dims m d) → l = m := by
    intro l m hl hm he
    apply List.ext_getElem (by omega)
    intro a ha1 ha2
    have ha : a < q.dims.length := by omega
    have := he q.dims[a] (List.getElem_mem ha)
    unfold entryOf NArr.ent at this
    rw [hv.nodup.idxOf_getElem a ha, List.getD_eq_getElem?_getD, List.getD_eq_getElem?_getD,
      List.getElem?_eq_getElem ha1, List.getElem?_eq_getElem ha2] at this
    exact this
  subst b1
  have hl : b.dims.length = q.dims.length := by rw [hbd]
  have e1 : ∀ d ∈ q.dims, entryOf q.dims b.data.shape d = entryOf q.dims q.data.shape d ∧
      entryOf q.dims b.origin d = entryOf q.dims q.origin d ∧
      entryOf q.dims b.extent d = entryOf q.dims q.extent d := by
    intro d hd
    have a := g4 d (hp.mem_iff.2 hd)
    have b := k4 d hd
    rw [hbd] at a
    exact ⟨a.1.trans b.1, a.2.1.trans b.2.1, a.2.2.trans b.2.2⟩
  have hshape : b.data.shape = q.data.shape := by
    apply ext
    · rw [c5]; simp [transposeSeq, hl]
    · exact hv.dims.symm
    · intro d hd; exact (e1 d hd).1
  refine ⟨hbd, g3.trans k3, ?_, ?_, hshape, ?_⟩
  · apply ext
    · rw [c3]; simp [transposeSeq, hl]
    · rw [hv.origin, hv.dims]
    · intro d hd; exact (e1 d hd).2.1
  · apply ext
    · rw [c4]; simp [transposeSeq, hl]
    · rw [hv.extent, hv.dims]
    · intro d hd; exact (e1 d hd).2.2
  · intro idx hidx
    have hlen : idx.length = q.dims.length := by
      rw [hshape] at hidx
      have := List.Forall₂.length_eq hidx
      rw [← this, ← hv.dims]
    -- the index of the quantity in between
    let mid : List Int := r.dims.map fun d => entryOf q.dims idx d
    have hmid : ∀ d ∈ r.dims, entryOf r.dims mid d = entryOf q.dims idx d := by
      intro d hd
      have hlt : r.dims.idxOf d < r.dims.length := List.idxOf_lt_length_of_mem hd
      show NArr.ent (r.dims.map _) _ = _
      unfold NArr.ent
      rw [List.getD_eq_getElem?_getD, List.getElem?_map, List.getElem?_eq_getElem hlt, Option.map_some,
        Option.getD_some, List.getElem_idxOf hlt]
    have m1 := g5 idx mid (by rw [hlen, hl]) (by simp [mid]) (by
      intro d hd
      rw [hbd, hmid d hd])
    have m2 := k5 mid idx (by simp [mid]) hlen (by
      intro d hd
      exact hmid d (hp.mem_iff.2 hd))
    rw [m1, m2]

/-! ### C37 -/

/-- C37, as the code decides: a buffer is refused exactly when its shape comes before the extent in
lexicographic order. For quantities with one axis these are exactly the buffers smaller than the extent. -/
theorem C37_one_axis_partial (q : TQty α) (n e : Int) (he : q.extent = [e]) (b : NArr α) (hb : b.shape = [n]) :
    ((∃ r, q.swapBuffer b = .ok r) ↔ e ≤ n) ∧
    (∀ r, q.swapBuffer b = .ok r → r.data = b ∧ r.origin = q.origin ∧ r.extent = q.extent ∧ r.dims = q.dims) := by
  constructor
  · have ht : tupleLt b.shape q.extent = decide (n < e) := by
      rw [he, hb]
      by_cases h : n = e
      · subst h; simp [tupleLt]
      · simp [tupleLt, h]
    unfold TQty.swapBuffer
    rw [ht]
    by_cases h2 : n < e
    · simp [h2]
    · simp [h2]; omega
  · intro r h
    unfold TQty.swapBuffer at h
    split at h
    · cases h
    · cases h; exact ⟨rfl, rfl, rfl, rfl⟩

/-- C37: an accepted buffer is large enough along the first axis. -/
theorem C37_first_axis_partial (q : TQty α) (b : NArr α) (r : TQty α) (h : q.swapBuffer b = .ok r)
    (e : Int) (es : List Int) (he : q.extent = e :: es) : ∃ n ns, b.shape = n :: ns ∧ e ≤ n := by
  unfold TQty.swapBuffer at h
  rw [he] at h
  cases hb : b.shape with
  | nil => rw [hb] at h; simp [tupleLt] at h
  | cons n ns =>
    refine ⟨n, ns, rfl, ?_⟩
    rw [hb] at h
    by_cases h2 : n < e
    · have ht : tupleLt (n :: ns) (e :: es) = true := by
        have : n ≠ e := by omega
        simp [tupleLt, this, h2]
      simp [ht] at h
    · omega

theorem tupleLt_iff : ∀ (s e : List Int), s.length = e.length →
    (tupleLt s e = true ↔ ∃ k : Nat, k < e.length ∧ NArr.ent s k < NArr.ent e k ∧
      ∀ m : Nat, m < k → NArr.ent s m = NArr.ent e m)
  | [], [], _ => by simp [tupleLt]
  | [], _ :: _, h => by simp at h
  | _ :: _, [], h => by simp at h
  | a :: s, b :: e, h => by
    have ih := tupleLt_iff s e (by simpa using h)
    by_cases hab : a = b
    · subst hab
      have : tupleLt (a :: s) (a :: e) = tupleLt s e := by simp [tupleLt]
      rw [this, ih]
      constructor
      · rintro ⟨k, hk, h1, h2⟩
        refine ⟨k + 1, by simpa using hk, by simpa [NArr.ent] using h1, ?_⟩
        intro m hm
        cases m with
        | zero => rfl
        | succ m => have := h2 m (by omega); simpa [NArr.ent] using this
      · rintro ⟨k, hk, h1, h2⟩
        cases k with
        | zero => simp [NArr.ent] at h1
        | succ k =>
          refine ⟨k, by simpa using hk, by simpa [NArr.ent] using h1, ?_⟩
          intro m hm
          have := h2 (m + 1) (by omega)
          simpa [NArr.ent] using this
    · have : tupleLt (a :: s) (b :: e) = decide (a < b) := by simp [tupleLt, hab]
      rw [this, decide_eq_true_eq]
      constructor
      · intro hlt
        exact ⟨0, by simp, by simpa [NArr.ent] using hlt, fun m hm => by omega⟩
      · rintro ⟨k, hk, h1, h2⟩
        cases k with
        | zero => simpa [NArr.ent] using h1
        | succ k => have := h2 0 (by omega); simp [NArr.ent] at this; omega

/-- C37, what the code decides for any number of axes: a buffer is refused exactly when it is smaller than the
extent along some axis and agrees with the extent along all axes before. -/
theorem C37_refused_iff_partial (q : TQty α) (b : NArr α) (hl : b.shape.length = q.extent.length) :
    (∃ e, q.swapBuffer b = .error e) ↔
      ∃ k : Nat, k < q.extent.length ∧ NArr.ent b.shape k < NArr.ent q.extent k ∧
        ∀ m : Nat, m < k → NArr.ent b.shape m = NArr.ent q.extent m := by
  rw [← tupleLt_iff _ _ hl]
  unfold TQty.swapBuffer
  by_cases h : tupleLt b.shape q.extent = true
  · simp [h]
  · simp [h]

/-- C37 for buffers that differ from the extent along one axis only (any number of axes): refused exactly when
smaller along that axis. -/
theorem C37_single_difference_partial (q : TQty α) (b : NArr α) (hl : b.shape.length = q.extent.length)
    (k : Nat) (hk : k < q.extent.length)
    (hs : ∀ m : Nat, m ≠ k → NArr.ent b.shape m = NArr.ent q.extent m) :
    (∃ e, q.swapBuffer b = .error e) ↔ NArr.ent b.shape k < NArr.ent q.extent k := by
  rw [C37_refused_iff_partial q b hl]
  constructor
  · rintro ⟨k', -, h1, -⟩
    by_cases hkk : k' = k
    · subst hkk; exact h1
    · rw [hs k' hkk] at h1; omega
  · intro h
    exact ⟨k, hk, h, fun m hm => hs m (by omega)⟩

/-! ### Examples and violations -/

example : ∃ e, (⟨[.i, .j], "m", [0, 0], [4, 4], 0, ⟨[4, 4], fun _ => 0⟩, true⟩ : TQty Int).swapBuffer
    ⟨[4, 3], fun _ => 1⟩ = .error e :=
  (C37_single_difference_partial _ _ rfl 1 (by decide) (by
    intro m hm
    match m, hm with
    | 0, _ => rfl
    | m + 2, _ => rfl)).2 (by decide)

/-- a 2 x 3 x 4 quantity with a halo of 1 in its first axis -/
def exTQty : TQty Int :=
  ⟨[.i, .j, .k], "m", [1, 0, 0], [1, 3, 4], 1, ⟨[2, 3, 4], fun x => 100 * NArr.ent x 0 + 10 * NArr.ent x 1 + NArr.ent x 2⟩,
    true⟩

example : exTQty.Valid := ⟨rfl, rfl, rfl, by decide, rfl⟩

example : (match exTQty.transpose [.name .k, .any [.i, .iInterface], .name .j] false with
    | .ok r => some (r.dims, r.origin, r.extent, r.data.shape, r.data.get [3, 1, 2])
    | .error _ => none) = some ([.k, .i, .j], [0, 1, 0], [4, 1, 3], [4, 2, 3], 123) := by decide +kernel

/-- C36, "nothing else": the halo width is lost, so the transposed quantity cannot take part in a halo
update. -/
theorem C36_halo_lost_violated :
    (match exTQty.transpose [.name .k, .name .i, .name .j] false with
    | .ok r => some (exTQty.nHalo, r.nHalo)
    | .error _ => none) = some (1, 0) := by decide +kernel

/-- C37 is false of the code: a 5 x 1 buffer is accepted for a compute domain of 4 x 4. -/
theorem C37_small_accepted_violated :
    (match (⟨[.i, .j], "m", [0, 0], [4, 4], 0, ⟨[4, 4], fun _ => 0⟩, true⟩ : TQty Int).swapBuffer
        ⟨[5, 1], fun _ => 1⟩ with
    | .ok r => some (r.extent, r.data.shape)
    | .error _ => none) = some ([4, 4], [5, 1]) := by decide +kernel

/-- The origin is not considered: a buffer of 4 points is accepted for a compute domain of 4 points starting
at point 3. -/
theorem C37_origin_violated :
    (match (⟨[.i], "m", [3], [4], 3, ⟨[10], fun _ => 0⟩, true⟩ : TQty Int).swapBuffer ⟨[4], fun _ => 1⟩ with
    | .ok r => some (r.origin, r.extent, r.data.shape)
    | .error _ => none) = some ([3], [4], [4]) := by decide +kernel

end NDSL
