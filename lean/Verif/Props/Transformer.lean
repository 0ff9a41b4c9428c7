import Verif.Lemmas.Transformer

/-
Property theorem C17: packing and unpacking.
-/
namespace NDSL
open NArr

/-- C17, scalars: pack the regions of any list of quantities (any number, dims, shapes, rotations)
into a recycled buffer of the computed size, and unpack the buffer into regions of matching shapes.
Neither raises, and the `k`-th receiving quantity holds exactly the `k`-th sent (rotated) region
inside its receive region and is unchanged elsewhere. -/
theorem C17_scalar_round_trip {α : Type} [Inhabited α] (snd rcv : List (Qty α × ExSpec))
    (buf : List α)
    (hsnd : ∀ s ∈ snd, s.2.packSlices.length = s.1.ds.length ∧
      ∀ sl ∈ s.2.packSlices, sl.start ≤ sl.stop)
    (hrcv : ∀ r ∈ rcv, ∀ sl ∈ r.2.unpackSlices, sl.start ≤ sl.stop)
    (hmatch : List.Forall₂ (fun s r =>
      (rotateScalar s.1.dims (-s.2.rot) (s.1.data.slice s.2.packSlices)).shape =
        r.2.unpackSlices.map fun sl => max 0 (sl.stop - sl.start)) snd rcv)
    (hbuf : (buf.length : Int) = packBufferSize (snd.map Prod.snd)) :
    ∃ msg out,
      packScalar (snd.map Prod.fst) (snd.map Prod.snd) buf = .ok msg ∧
      unpackScalar (rcv.map Prod.fst) (rcv.map Prod.snd) msg = .ok out ∧
      out.length = rcv.length ∧
      ∀ (k : Nat) s r q, snd[k]? = some s → rcv[k]? = some r → out[k]? = some q →
        q.ds = r.1.ds ∧ q.data.shape = r.1.data.shape ∧
        (∀ g, Selects r.2.unpackSlices g → q.data.get g =
          (rotateScalar s.1.dims (-s.2.rot) (s.1.data.slice s.2.packSlices)).get
            (List.zipWith (fun sl i => i - sl.start) r.2.unpackSlices g)) ∧
        (∀ g, ¬ Selects r.2.unpackSlices g → q.data.get g = r.1.data.get g) := by
  have h1 := packScalar_eq snd buf hsnd hbuf
  have hm : List.Forall₂ (fun (v : NArr α) r => v.shape = shapeOf r.2.unpackSlices)
      (snd.map sentView) rcv := by
    rw [List.forall₂_map_left_iff]; exact hmatch
  obtain ⟨out, ho, hD⟩ := unpackScalar_eq (snd.map sentView) rcv hm hrcv
  have hmsg : (snd.map sentView).flatMap NArr.flatten = message snd := by
    unfold message; rw [List.flatMap_map]
  rw [hmsg] at ho
  have hlen : out.length = rcv.length := by
    have := hD.length_eq
    have h2 := hmatch.length_eq
    simp only [List.length_zip, List.length_map] at this
    omega
  refine ⟨_, out, h1, ho, hlen, ?_⟩
  intro k s r q hs hr hq
  have hz : ((snd.map sentView).zip rcv)[k]? = some (sentView s, r) := by
    rw [List.getElem?_zip_eq_some]
    exact ⟨by rw [List.getElem?_map, hs]; rfl, hr⟩
  have : Delivered r.1 q r.2.unpackSlices (sentView s) := by
    have := List.forall₂_iff_get.1 hD
    have hk1 := (List.getElem?_eq_some_iff.1 hz)
    have hk2 := (List.getElem?_eq_some_iff.1 hq)
    obtain ⟨l1, e1⟩ := hk1
    obtain ⟨l2, e2⟩ := hk2
    have h3 := this.2 k l1 l2
    simp only [List.get_eq_getElem, e1, e2] at h3
    exact h3
  exact ⟨this.ds, this.shape, this.inside, this.outside⟩

/-- a 3 × 3 quantity with one halo point -/
def exQty (c : Int) : Qty Int :=
  ⟨[⟨.j, 1, 2, 4⟩, ⟨.i, 1, 2, 4⟩], ⟨[4, 4], fun g => c + 10 * ent g 0 + ent g 1⟩⟩

/-- an exchange: send the eastern compute columns, receive into the northern halo -/
def exSpecs : ExSpec := ⟨[⟨1, 3⟩, ⟨2, 3⟩], 1, [⟨3, 4⟩, ⟨1, 3⟩]⟩

example : packScalar [exQty 0, exQty 100] [exSpecs, exSpecs] (List.replicate 4 7) =
      .ok [22, 12, 122, 112] ∧
    (rotateScalar (exQty 0).dims (-exSpecs.rot) ((exQty 0).data.slice exSpecs.packSlices)).shape =
      exSpecs.unpackSlices.map fun sl => max 0 (sl.stop - sl.start) := by decide

/-- C17, vectors: the same for lists of vector quantities (component pairs), where both components
are rotated together. -/
theorem C17_vector_round_trip {α : Type} [Inhabited α] [Neg α] (snd rcv : List (VecItem α))
    (buf : List α)
    (hsnd : ∀ s ∈ snd, (s.ix.packSlices.length = s.qx.ds.length ∧
      ∀ sl ∈ s.ix.packSlices, sl.start ≤ sl.stop) ∧ (s.iy.packSlices.length = s.qy.ds.length ∧
      ∀ sl ∈ s.iy.packSlices, sl.start ≤ sl.stop) ∧ s.qx.ds.length = s.qy.ds.length)
    (hrcv : ∀ r ∈ rcv, (∀ sl ∈ r.ix.unpackSlices, sl.start ≤ sl.stop) ∧
      ∀ sl ∈ r.iy.unpackSlices, sl.start ≤ sl.stop)
    (hmatch : List.Forall₂ (fun s r =>
      let v := rotateVector s.qx.dims (-s.ix.rot) (s.qx.data.slice s.ix.packSlices)
        (s.qy.data.slice s.iy.packSlices)
      v.1.shape = (r.ix.unpackSlices.map fun sl => max 0 (sl.stop - sl.start)) ∧
      v.2.shape = r.iy.unpackSlices.map fun sl => max 0 (sl.stop - sl.start)) snd rcv)
    (hbuf : (buf.length : Int) =
      packBufferSize (snd.map (·.ix)) + packBufferSize (snd.map (·.iy))) :
    ∃ msg out,
      packVectorLoop snd 0 buf = .ok msg ∧
      unpackVectorLoop rcv 0 msg = .ok out ∧
      out.length = rcv.length ∧
      ∀ (k : Nat) s r q, snd[k]? = some s → rcv[k]? = some r → out[k]? = some q →
        let v := rotateVector s.qx.dims (-s.ix.rot) (s.qx.data.slice s.ix.packSlices)
          (s.qy.data.slice s.iy.packSlices)
        (∀ g, Selects r.ix.unpackSlices g → q.1.data.get g =
          v.1.get (List.zipWith (fun sl i => i - sl.start) r.ix.unpackSlices g)) ∧
        (∀ g, Selects r.iy.unpackSlices g → q.2.data.get g =
          v.2.get (List.zipWith (fun sl i => i - sl.start) r.iy.unpackSlices g)) ∧
        (∀ g, ¬ Selects r.ix.unpackSlices g → q.1.data.get g = r.qx.data.get g) ∧
        (∀ g, ¬ Selects r.iy.unpackSlices g → q.2.data.get g = r.qy.data.get g) ∧
        q.1.ds = r.qx.ds ∧ q.2.ds = r.qy.ds := by
  have h1 := packVectorLoop_eq snd [] buf (by have := messageVec_length snd hsnd; omega)
  have hm : List.Forall₂ (fun (v : NArr α × NArr α) (r : VecItem α) =>
      v.1.shape = shapeOf r.ix.unpackSlices ∧ v.2.shape = shapeOf r.iy.unpackSlices)
      (snd.map sentVec) rcv := by
    rw [List.forall₂_map_left_iff]; exact hmatch
  obtain ⟨out, ho, hD⟩ := unpackVectorLoop_eq (snd.map sentVec) rcv [] [] hm hrcv
  have hmsg : (snd.map sentVec).flatMap (fun v => v.1.flatten ++ v.2.flatten) = messageVec snd := by
    unfold messageVec; rw [List.flatMap_map]
  rw [hmsg] at ho
  have hlen : out.length = rcv.length := by
    have := hD.length_eq
    have h2 := hmatch.length_eq
    simp only [List.length_zip, List.length_map] at this
    omega
  simp only [List.nil_append, List.length_nil, List.append_nil] at h1 ho
  refine ⟨_, out, h1, ho, hlen, ?_⟩
  intro k s r q hs hr hq
  have hz : ((snd.map sentVec).zip rcv)[k]? = some (sentVec s, r) := by
    rw [List.getElem?_zip_eq_some]
    exact ⟨by rw [List.getElem?_map, hs]; rfl, hr⟩
  have : Delivered r.qx q.1 r.ix.unpackSlices (sentVec s).1 ∧
      Delivered r.qy q.2 r.iy.unpackSlices (sentVec s).2 := by
    have := List.forall₂_iff_get.1 hD
    obtain ⟨l1, e1⟩ := List.getElem?_eq_some_iff.1 hz
    obtain ⟨l2, e2⟩ := List.getElem?_eq_some_iff.1 hq
    have h3 := this.2 k l1 l2
    simp only [List.get_eq_getElem, e1, e2] at h3
    exact h3
  exact ⟨this.1.inside, this.2.inside, this.1.outside, this.2.outside, this.1.ds, this.2.ds⟩

example : packVectorLoop [⟨exQty 0, exQty 100, exSpecs, exSpecs⟩] 0 (List.replicate 4 7) =
      .ok [-122, -112, 22, 12] := by decide

/-- A wrong number of quantities is refused, so quantities are never paired with the wrong region. -/
theorem C17_count_mismatch_refused {α : Type} [Inhabited α] (qs : List (Qty α))
    (infos : List ExSpec) (buf : List α) (h : qs.length ≠ infos.length) :
    packScalar qs infos buf = .error .runtimeError ∧
    unpackScalar qs infos buf = .error .runtimeError := by
  simp [packScalar, unpackScalar, h]

example : [exQty 0].length ≠ [exSpecs, exSpecs].length := by decide

end NDSL
