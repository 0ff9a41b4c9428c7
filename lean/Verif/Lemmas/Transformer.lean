import Verif.Lemmas.NDArray

/-! The packed message and its unpacking. -/
namespace NDSL
open NArr

theorem inSlices_iff : ∀ {sl : List Slice} {g : List Int}, inSlices sl g = true ↔ Selects sl g
  | [], [] => by simp [inSlices, Selects]
  | [], _ :: _ => by simp [inSlices, Selects]
  | _ :: _, [] => by simp [inSlices, Selects]
  | s :: sl, i :: g => by
    unfold inSlices
    have ih := inSlices_iff (sl := sl) (g := g)
    unfold Selects at ih ⊢
    rw [Bool.and_eq_true, ih, List.forall₂_cons, decide_eq_true_eq]
    rfl

/-- relative position in a region -/
def relIdx (sl : List Slice) (g : List Int) : List Int :=
  List.zipWith (fun s i => i - s.start) sl g

/-- absolute position of a relative one -/
def absIdx (sl : List Slice) (g : List Int) : List Int :=
  List.zipWith (fun s i => s.start + i) sl g

theorem selects_rel : ∀ {sl : List Slice} {g : List Int}, Selects sl g →
    InShape (shapeOf sl) (relIdx sl g) ∧ absIdx sl (relIdx sl g) = g
  | [], [], _ => ⟨.nil, rfl⟩
  | s :: sl, i :: g, h => by
    unfold Selects at h
    rw [List.forall₂_cons] at h
    have ih := selects_rel (sl := sl) (g := g) h.2
    have h0 : s.start ≤ i ∧ i < s.stop := h.1
    constructor
    · exact .cons (show 0 ≤ i - s.start ∧ i - s.start < max 0 (s.stop - s.start) by omega) ih.1
    · show (s.start + (i - s.start)) :: absIdx sl (relIdx sl g) = _
      rw [ih.2]; congr 1; omega
  | [], _ :: _, h => by cases h
  | _ :: _, [], h => by cases h

theorem rel_selects : ∀ {sl : List Slice} {r : List Int}, InShape (shapeOf sl) r →
    Selects sl (absIdx sl r) ∧ relIdx sl (absIdx sl r) = r
  | [], [], _ => ⟨.nil, rfl⟩
  | s :: sl, i :: g, h => by
    have h' : List.Forall₂ _ (_ :: shapeOf sl) (i :: g) := h
    rw [List.forall₂_cons] at h'
    have ih := rel_selects (sl := sl) (r := g) h'.2
    have h0 : 0 ≤ i ∧ i < max 0 (s.stop - s.start) := h'.1
    constructor
    · exact .cons (show s.start ≤ s.start + i ∧ s.start + i < s.stop by omega) ih.1
    · show (s.start + i - s.start) :: relIdx sl (absIdx sl g) = _
      rw [ih.2]; congr 1; omega
  | [], _ :: _, h => by cases h
  | _ :: _, [], h => by cases h

/-- the array a quantity sends -/
def sentView {α : Type} (s : Qty α × ExSpec) : NArr α :=
  rotateScalar s.1.dims (-s.2.rot) (s.1.data.slice s.2.packSlices)

/-- a sender whose slices fit its dimensions -/
def WfPack (ds : List DimSpec) (sl : List Slice) : Prop := sl.length = ds.length ∧ Fwd sl

theorem slice_shape_len {α : Type} (q : Qty α) {sl : List Slice} (h : WfPack q.ds sl) :
    (q.data.slice sl).shape.length = q.dims.length := by
  simp [NArr.slice, h.1]

theorem sentView_perm {α : Type} {s : Qty α × ExSpec} (h : WfPack s.1.ds s.2.packSlices) :
    (sentView s).shape.Perm (shapeOf s.2.packSlices) :=
  rotate_perm _ _ _ (slice_shape_len s.1 h)

theorem sentView_len {α : Type} {s : Qty α × ExSpec} (h : WfPack s.1.ds s.2.packSlices) :
    (sentView s).flatten.length = (slicesSize s.2.packSlices).toNat := by
  have hp := sentView_perm h
  rw [flatten_length (nonneg_perm hp (shapeOf_nonneg _)), size_perm hp, slicesSize_eq h.2]

theorem writeAt_mid {α : Type} (pre src rest : List α) (h : src.length ≤ rest.length) :
    writeAt (pre ++ rest) pre.length src.length src = .ok (pre ++ src ++ rest.drop src.length) := by
  unfold writeAt
  have e : min (pre.length + src.length) (pre ++ rest).length - min pre.length (pre ++ rest).length
      = src.length := by
    rw [List.length_append]; omega
  simp only [e, if_true]
  rw [List.take_left, List.drop_append, List.drop_eq_nil_of_le (by omega), List.nil_append,
    show pre.length + src.length - pre.length = src.length by omega]

/-- the packed message: the flattened views one after the other -/
def message {α : Type} (snd : List (Qty α × ExSpec)) : List α :=
  snd.flatMap fun s => (sentView s).flatten

theorem packScalarLoop_eq {α : Type} : ∀ (snd : List (Qty α × ExSpec)) (pre rest : List α),
    (∀ s ∈ snd, WfPack s.1.ds s.2.packSlices) → rest.length = (message snd).length →
    packScalarLoop snd pre.length (pre ++ rest) = .ok (pre ++ message snd)
  | [], pre, rest, _, hl => by
    have : rest = [] := List.eq_nil_of_length_eq_zero (by simpa [message] using hl)
    subst this; simp [packScalarLoop, message]
  | (q, info) :: snd, pre, rest, hw, hl => by
    have h0 : WfPack q.ds info.packSlices := hw (q, info) List.mem_cons_self
    have hlen := sentView_len (s := (q, info)) h0
    have hm : message ((q, info) :: snd) = (sentView (q, info)).flatten ++ message snd := rfl
    rw [hm, List.length_append] at hl
    unfold packScalarLoop
    have hv : rotateScalar q.dims (-info.rot) (q.data.slice info.packSlices)
      = sentView (q, info) := rfl
    simp only [hv]
    rw [← hlen, writeAt_mid _ _ _ (by omega)]
    simp only [bind, Except.bind]
    have := packScalarLoop_eq snd (pre ++ (sentView (q, info)).flatten)
      (rest.drop (sentView (q, info)).flatten.length)
      (fun s hs => hw s (List.mem_cons_of_mem _ hs)) (by rw [List.length_drop]; omega)
    rw [List.length_append] at this
    rw [this, hm, List.append_assoc]

theorem message_length {α : Type} : ∀ (snd : List (Qty α × ExSpec)),
    (∀ s ∈ snd, WfPack s.1.ds s.2.packSlices) →
    ((message snd).length : Int) = packBufferSize (snd.map Prod.snd) := by
  have gen : ∀ (snd : List (Qty α × ExSpec)) (a : Int),
      (∀ s ∈ snd, WfPack s.1.ds s.2.packSlices) →
      (snd.map Prod.snd).foldl (fun n i => n + slicesSize i.packSlices) a =
        a + ((message snd).length : Int) := by
    intro snd
    induction snd with
    | nil => intro a _; simp [message]
    | cons s snd ih =>
      intro a hw
      rw [List.map_cons, List.foldl_cons, ih _ (fun s hs => hw s (List.mem_cons_of_mem _ hs))]
      have h0 := hw s List.mem_cons_self
      have hm : message (s :: snd) = (sentView s).flatten ++ message snd := rfl
      rw [hm, List.length_append, sentView_len h0]
      have : 0 ≤ slicesSize s.2.packSlices := by
        rw [slicesSize_eq h0.2]; exact size_nonneg (shapeOf_nonneg _)
      push_cast
      omega
  intro snd hw
  have := gen snd 0 hw
  unfold packBufferSize
  rw [this]; omega

theorem packScalar_eq {α : Type} (snd : List (Qty α × ExSpec)) (buf : List α)
    (hw : ∀ s ∈ snd, WfPack s.1.ds s.2.packSlices)
    (hb : (buf.length : Int) = packBufferSize (snd.map Prod.snd)) :
    packScalar (snd.map Prod.fst) (snd.map Prod.snd) buf = .ok (message snd) := by
  unfold packScalar
  rw [if_neg (by simp)]
  have hz : (snd.map Prod.fst).zip (snd.map Prod.snd) = snd := by
    rw [List.zip_map']; simp
  rw [hz]
  have := packScalarLoop_eq snd [] buf hw (by have := message_length snd hw; omega)
  simpa using this

/-- result of unpacking an array into a region -/
structure Delivered {α : Type} (q0 q : Qty α) (sl : List Slice) (v : NArr α) : Prop where
  ds : q.ds = q0.ds
  shape : q.data.shape = q0.data.shape
  inside : ∀ g, Selects sl g → q.data.get g = v.get (relIdx sl g)
  outside : ∀ g, ¬ Selects sl g → q.data.get g = q0.data.get g

theorem unpackOne_eq {α : Type} [Inhabited α] (q : Qty α) (sl : List Slice) (hf : Fwd sl)
    (v : NArr α) (hv : v.shape = shapeOf sl) (pre suf : List α) :
    ∃ q', unpackOne q sl (pre ++ (v.flatten ++ suf)) pre.length = .ok q' ∧
      Delivered q q' sl v := by
  have hlen : v.flatten.length = (slicesSize sl).toNat := by
    rw [flatten_length (by rw [hv]; exact shapeOf_nonneg _), hv, slicesSize_eq hf]
  have hread : readAt (pre ++ (v.flatten ++ suf)) pre.length (slicesSize sl).toNat = v.flatten := by
    unfold readAt
    rw [List.drop_left, ← hlen, List.take_left]
  unfold unpackOne
  simp only [hread]
  have hs : (q.data.slice sl).shape = v.shape := by rw [hv]; rfl
  rw [hs]
  obtain ⟨w, hw, hsame⟩ := reshape_flatten (m := v) (by rw [hv]; exact shapeOf_nonneg _)
  rw [hw]
  refine ⟨_, rfl, rfl, rfl, ?_, ?_⟩
  · intro g hg
    show (if inSlices sl g then w.get (relIdx sl g) else q.data.get g) = _
    rw [if_pos (inSlices_iff.2 hg)]
    apply hsame.2
    rw [hsame.1, hv]
    exact (selects_rel hg).1
  · intro g hg
    show (if inSlices sl g then w.get (relIdx sl g) else q.data.get g) = _
    rw [if_neg (fun h => hg (inSlices_iff.1 h))]

/-- unpacking a message made of matching views -/
theorem unpackScalarLoop_eq {α : Type} [Inhabited α] :
    ∀ (vs : List (NArr α)) (rcv : List (Qty α × ExSpec)) (pre suf : List α),
    List.Forall₂ (fun (v : NArr α) r => v.shape = shapeOf r.2.unpackSlices) vs rcv →
    (∀ r ∈ rcv, Fwd r.2.unpackSlices) →
    ∃ out, unpackScalarLoop rcv pre.length (pre ++ (vs.flatMap NArr.flatten ++ suf)) = .ok out ∧
      List.Forall₂ (fun (vr : NArr α × Qty α × ExSpec) q =>
        Delivered vr.2.1 q vr.2.2.unpackSlices vr.1) (vs.zip rcv) out
  | [], [], pre, suf, _, _ => ⟨[], rfl, .nil⟩
  | v :: vs, (q, info) :: rcv, pre, suf, hm, hf => by
    rw [List.forall₂_cons] at hm
    obtain ⟨hv, hm⟩ := hm
    have hf0 := hf (q, info) List.mem_cons_self
    obtain ⟨q', hq', hd⟩ := unpackOne_eq q info.unpackSlices hf0 v hv pre
      (vs.flatMap NArr.flatten ++ suf)
    have hlen : v.flatten.length = (slicesSize info.unpackSlices).toNat := by
      rw [flatten_length (by rw [hv]; exact shapeOf_nonneg _), hv, slicesSize_eq hf0]
    obtain ⟨out, ho, hD⟩ := unpackScalarLoop_eq vs rcv (pre ++ v.flatten) suf hm
      (fun r hr => hf r (List.mem_cons_of_mem _ hr))
    refine ⟨q' :: out, ?_, ?_⟩
    · unfold unpackScalarLoop
      rw [List.flatMap_cons, List.append_assoc, hq']
      rw [List.length_append, List.append_assoc] at ho
      simp only [bind, Except.bind, ← hlen, ho, pure, Except.pure]
    · exact .cons hd hD
  | [], _ :: _, _, _, h, _ => by cases h
  | _ :: _, [], _, _, h, _ => by cases h

theorem unpackScalar_eq {α : Type} [Inhabited α] (vs : List (NArr α))
    (rcv : List (Qty α × ExSpec))
    (hm : List.Forall₂ (fun (v : NArr α) r => v.shape = shapeOf r.2.unpackSlices) vs rcv)
    (hf : ∀ r ∈ rcv, Fwd r.2.unpackSlices) :
    ∃ out, unpackScalar (rcv.map Prod.fst) (rcv.map Prod.snd) (vs.flatMap NArr.flatten) = .ok out ∧
      List.Forall₂ (fun (vr : NArr α × Qty α × ExSpec) q =>
        Delivered vr.2.1 q vr.2.2.unpackSlices vr.1) (vs.zip rcv) out := by
  unfold unpackScalar
  rw [if_neg (by simp)]
  have hz : (rcv.map Prod.fst).zip (rcv.map Prod.snd) = rcv := by
    rw [List.zip_map']; simp
  rw [hz]
  have := unpackScalarLoop_eq vs rcv [] [] hm hf
  simpa using this

/-! vectors -/

/-- the arrays a vector item sends -/
def sentVec {α : Type} [Neg α] (it : VecItem α) : NArr α × NArr α :=
  rotateVector it.qx.dims (-it.ix.rot) (it.qx.data.slice it.ix.packSlices)
    (it.qy.data.slice it.iy.packSlices)

def messageVec {α : Type} [Neg α] (snd : List (VecItem α)) : List α :=
  snd.flatMap fun s => (sentVec s).1.flatten ++ (sentVec s).2.flatten

theorem packVectorLoop_eq {α : Type} [Neg α] : ∀ (snd : List (VecItem α)) (pre rest : List α),
    rest.length = (messageVec snd).length →
    packVectorLoop snd pre.length (pre ++ rest) = .ok (pre ++ messageVec snd)
  | [], pre, rest, hl => by
    have : rest = [] := List.eq_nil_of_length_eq_zero (by simpa [messageVec] using hl)
    subst this; simp [packVectorLoop, messageVec]
  | it :: snd, pre, rest, hl => by
    have hm : messageVec (it :: snd) =
      ((sentVec it).1.flatten ++ (sentVec it).2.flatten) ++ messageVec snd := rfl
    rw [hm, List.length_append, List.length_append] at hl
    unfold packVectorLoop
    have hv : rotateVector it.qx.dims (-it.ix.rot) (it.qx.data.slice it.ix.packSlices)
      (it.qy.data.slice it.iy.packSlices) = sentVec it := rfl
    simp only [hv]
    rw [writeAt_mid _ _ _ (by omega)]
    simp only [bind, Except.bind]
    have h2 := writeAt_mid (pre ++ (sentVec it).1.flatten) (sentVec it).2.flatten
      (rest.drop (sentVec it).1.flatten.length) (by rw [List.length_drop]; omega)
    rw [List.length_append] at h2
    rw [h2]
    simp only
    have := packVectorLoop_eq snd (pre ++ (sentVec it).1.flatten ++ (sentVec it).2.flatten)
      ((rest.drop (sentVec it).1.flatten.length).drop (sentVec it).2.flatten.length)
      (by rw [List.length_drop, List.length_drop]; omega)
    rw [List.length_append, List.length_append] at this
    rw [this, hm]
    simp only [List.append_assoc]

theorem messageVec_length {α : Type} [Neg α] (snd : List (VecItem α))
    (hw : ∀ s ∈ snd, WfPack s.qx.ds s.ix.packSlices ∧ WfPack s.qy.ds s.iy.packSlices ∧
      s.qx.ds.length = s.qy.ds.length) :
    ((messageVec snd).length : Int) =
      packBufferSize (snd.map (·.ix)) + packBufferSize (snd.map (·.iy)) := by
  have gen : ∀ (snd : List (VecItem α)) (a b : Int),
      (∀ s ∈ snd, WfPack s.qx.ds s.ix.packSlices ∧ WfPack s.qy.ds s.iy.packSlices ∧
        s.qx.ds.length = s.qy.ds.length) →
      (snd.map (·.ix)).foldl (fun n i => n + slicesSize i.packSlices) a +
      (snd.map (·.iy)).foldl (fun n i => n + slicesSize i.packSlices) b =
        a + b + ((messageVec snd).length : Int) := by
    intro snd
    induction snd with
    | nil => intro a b _; simp [messageVec]
    | cons s snd ih =>
      intro a b hw
      simp only [List.map_cons, List.foldl_cons]
      rw [ih _ _ (fun s hs => hw s (List.mem_cons_of_mem _ hs))]
      obtain ⟨hx, hy, hxy⟩ := hw s List.mem_cons_self
      have hm : messageVec (s :: snd) =
        ((sentVec s).1.flatten ++ (sentVec s).2.flatten) ++ messageVec snd := rfl
      have hsh := rotateVector_shapes s.qx.dims (-s.ix.rot) (s.qx.data.slice s.ix.packSlices)
        (s.qy.data.slice s.iy.packSlices) (slice_shape_len _ hx)
        (by rw [slice_shape_len _ hy]; simp [Qty.dims, hxy]) (shapeOf_nonneg _) (shapeOf_nonneg _)
      rw [hm, List.length_append, List.length_append, slicesSize_eq hx.2, slicesSize_eq hy.2]
      have e1 : (sentVec s).1.flatten.length = (size (sentVec s).1.shape).toNat :=
        flatten_length hsh.1
      have e2 : (sentVec s).2.flatten.length = (size (sentVec s).2.shape).toNat :=
        flatten_length hsh.2.1
      have n1 : 0 ≤ size (sentVec s).1.shape := size_nonneg hsh.1
      have n2 : 0 ≤ size (sentVec s).2.shape := size_nonneg hsh.2.1
      have e3 : size (sentVec s).1.shape + size (sentVec s).2.shape =
        size (shapeOf s.ix.packSlices) + size (shapeOf s.iy.packSlices) := hsh.2.2
      rw [e1, e2]
      push_cast
      omega
  have := gen snd 0 0 hw
  unfold packBufferSize
  rw [this]; omega

theorem unpackVectorLoop_eq {α : Type} [Inhabited α] :
    ∀ (vs : List (NArr α × NArr α)) (rcv : List (VecItem α)) (pre suf : List α),
    List.Forall₂ (fun (v : NArr α × NArr α) (r : VecItem α) =>
      v.1.shape = shapeOf r.ix.unpackSlices ∧ v.2.shape = shapeOf r.iy.unpackSlices) vs rcv →
    (∀ r ∈ rcv, Fwd r.ix.unpackSlices ∧ Fwd r.iy.unpackSlices) →
    ∃ out, unpackVectorLoop rcv pre.length
        (pre ++ (vs.flatMap (fun v => v.1.flatten ++ v.2.flatten) ++ suf)) = .ok out ∧
      List.Forall₂ (fun (vr : (NArr α × NArr α) × VecItem α) q =>
        Delivered vr.2.qx q.1 vr.2.ix.unpackSlices vr.1.1 ∧
        Delivered vr.2.qy q.2 vr.2.iy.unpackSlices vr.1.2) (vs.zip rcv) out
  | [], [], pre, suf, _, _ => ⟨[], rfl, .nil⟩
  | v :: vs, it :: rcv, pre, suf, hm, hf => by
    rw [List.forall₂_cons] at hm
    obtain ⟨⟨hv1, hv2⟩, hm⟩ := hm
    obtain ⟨hf1, hf2⟩ := hf it List.mem_cons_self
    obtain ⟨q1, hq1, hd1⟩ := unpackOne_eq it.qx it.ix.unpackSlices hf1 v.1 hv1 pre
      (v.2.flatten ++ (vs.flatMap (fun v => v.1.flatten ++ v.2.flatten) ++ suf))
    obtain ⟨q2, hq2, hd2⟩ := unpackOne_eq it.qy it.iy.unpackSlices hf2 v.2 hv2
      (pre ++ v.1.flatten) (vs.flatMap (fun v => v.1.flatten ++ v.2.flatten) ++ suf)
    have hlen1 : v.1.flatten.length = (slicesSize it.ix.unpackSlices).toNat := by
      rw [flatten_length (by rw [hv1]; exact shapeOf_nonneg _), hv1, slicesSize_eq hf1]
    have hlen2 : v.2.flatten.length = (slicesSize it.iy.unpackSlices).toNat := by
      rw [flatten_length (by rw [hv2]; exact shapeOf_nonneg _), hv2, slicesSize_eq hf2]
    obtain ⟨out, ho, hD⟩ := unpackVectorLoop_eq vs rcv (pre ++ v.1.flatten ++ v.2.flatten) suf hm
      (fun r hr => hf r (List.mem_cons_of_mem _ hr))
    refine ⟨(q1, q2) :: out, ?_, .cons ⟨hd1, hd2⟩ hD⟩
    unfold unpackVectorLoop
    have hbuf : pre ++ (((v :: vs).flatMap fun v => v.1.flatten ++ v.2.flatten) ++ suf) =
        pre ++ (v.1.flatten ++ (v.2.flatten ++
          ((vs.flatMap fun v => v.1.flatten ++ v.2.flatten) ++ suf))) := by
      simp [List.flatMap_cons, List.append_assoc]
    rw [hbuf, hq1]
    simp only [List.length_append, List.append_assoc] at hq2 ho
    simp only [bind, Except.bind, ← hlen1, ← hlen2]
    rw [hq2]
    simp only
    rw [show pre.length + v.1.flatten.length + v.2.flatten.length =
      pre.length + (v.1.flatten.length + v.2.flatten.length) by omega]
    first
      | rw [ho]
      | (rw [show pre.length + (v.1.flatten.length + v.2.flatten.length) =
          pre.length + v.1.flatten.length + v.2.flatten.length by omega, ho])
    rfl
  | [], _ :: _, _, _, h, _ => by cases h
  | _ :: _, [], _, _, h, _ => by cases h

end NDSL
