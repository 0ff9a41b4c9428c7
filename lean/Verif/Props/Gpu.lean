import Verif.Lemmas.Gpu
import Verif.Model.IndexCache

/-
Property theorems C23 and C24: GPU packing agrees with CPU packing, and the cache of GPU index maps.
-/
namespace NDSL
open NArr

/-- C23, packing scalars: for any list of quantities held in device memory with any strides, any dims,
regions and rotations, and any order in which the GPU threads run, the threads never access memory
outside of the arrays and leave in the buffer exactly what the CPU transformer packs. -/
theorem C23_pack_scalar {α : Type} (items : List (GQty α × ExSpec)) (buf : List α)
    (h : ∀ it ∈ items, InMemory it.1 ∧ InsideArr it.1.q.ds it.2.packSlices)
    (hbuf : (buf.length : Int) = packBufferSize (items.map Prod.snd)) :
    ∃ msg, packScalar (items.map (·.1.q)) (items.map Prod.snd) buf = .ok msg ∧
      ∀ sched : List (Thread α), sched.Perm (gpuPackScalar items 0) →
        runThreads sched buf = some msg := by
  have hw : ∀ s ∈ items.map (fun it => (it.1.q, it.2)), WfPack s.1.ds s.2.packSlices := by
    intro s hs
    obtain ⟨it, hit, rfl⟩ := List.mem_map.1 hs
    exact (h it hit).2.wf
  have e1 : (items.map fun it => (it.1.q, it.2)).map Prod.snd = items.map Prod.snd := by
    rw [List.map_map]; rfl
  have e2 : (items.map fun it => (it.1.q, it.2)).map Prod.fst = items.map (·.1.q) := by
    rw [List.map_map]; rfl
  have hb' := hbuf
  rw [← e1] at hbuf
  have hp := packScalar_eq _ buf hw hbuf
  rw [e1, e2] at hp
  refine ⟨_, hp, fun sched hs => ?_⟩
  have hl := message_length _ hw
  exact (gpuPackScalar_writes items 0 h).run hs (by omega)

/-- C23, packing vectors: the same for pairs of components whose x- and y-type dimensions are at the same
positions. -/
theorem C23_pack_vector {α : Type} [Neg α] (items : List (GVec α)) (buf : List α)
    (h : ∀ v ∈ items, InMemory v.x ∧ InMemory v.y ∧ InsideArr v.x.q.ds v.ix.packSlices ∧
      InsideArr v.y.q.ds v.iy.packSlices ∧ SameAxes v.x.q.dims v.y.q.dims ∧ v.iy.rot = v.ix.rot)
    (hbuf : (buf.length : Int) = packBufferSize (items.map (·.ix)) + packBufferSize (items.map (·.iy))) :
    ∃ msg, packVectorLoop (items.map GVec.item) 0 buf = .ok msg ∧
      ∀ sched : List (Thread α), sched.Perm (gpuPackVector items 0) →
        runThreads sched buf = some msg := by
  have hw : ∀ s ∈ items.map GVec.item, WfPack s.qx.ds s.ix.packSlices ∧ WfPack s.qy.ds s.iy.packSlices ∧
      s.qx.ds.length = s.qy.ds.length := by
    intro s hs
    obtain ⟨it, hit, rfl⟩ := List.mem_map.1 hs
    obtain ⟨_, _, h3, h4, h5, _⟩ := h it hit
    refine ⟨h3.wf, h4.wf, ?_⟩
    have := congrArg List.length h5.1
    show it.x.q.ds.length = it.y.q.ds.length
    simpa using this
  have hl := messageVec_length _ hw
  have e1 : (items.map GVec.item).map (·.ix) = items.map (·.ix) := by rw [List.map_map]; rfl
  have e2 : (items.map GVec.item).map (·.iy) = items.map (·.iy) := by rw [List.map_map]; rfl
  rw [e1, e2] at hl
  have hp := packVectorLoop_eq (items.map GVec.item) [] buf (by omega)
  refine ⟨_, hp, fun sched hs => ?_⟩
  refine (gpuPackVector_writes items 0 fun v hv => ?_).run hs (by omega)
  obtain ⟨h1, h2, h3, h4, h5, h6⟩ := h v hv
  exact ⟨h1, h2, h3, h4, h5, h6⟩

/-- C23, unpacking scalars: from a received buffer that is large enough, whatever the order of the threads,
each receiving quantity's device memory holds exactly what the CPU transformer unpacks, and the memory
around it is untouched. -/
theorem C23_unpack_scalar {α : Type} [Inhabited α] (items : List (GQty α × ExSpec)) (buf : List α)
    (h : ∀ it ∈ items, InMemory it.1 ∧ NoOverlap it.1 ∧ InsideArr it.1.q.ds it.2.unpackSlices)
    (hbuf : (items.map fun it => (slicesSize it.2.unpackSlices).toNat).sum ≤ buf.length) :
    ∃ out, unpackScalar (items.map (·.1.q)) (items.map Prod.snd) buf = .ok out ∧
      out.length = items.length ∧ (gpuUnpackScalar buf items 0).length = items.length ∧
      ∀ (k : Nat) it ts q, items[k]? = some it → (gpuUnpackScalar buf items 0)[k]? = some ts →
        out[k]? = some q → ∀ sched : List (Thread α), sched.Perm ts → DeviceHolds it.1 q sched := by
  obtain ⟨out, ho, h1, h2, h3⟩ := gpuUnpackScalar_holds buf items 0
    (fun it hit => ⟨(h it hit).1, (h it hit).2.1, (h it hit).2.2⟩) (by omega)
  refine ⟨out, ?_, h1, h2, h3⟩
  unfold unpackScalar
  rw [if_neg (by simp)]
  have : (items.map (·.1.q)).zip (items.map Prod.snd) = items.map fun it => (it.1.q, it.2) := by
    rw [List.zip_map']
  rw [this]
  exact ho

/-- C23, unpacking vectors. -/
theorem C23_unpack_vector {α : Type} [Inhabited α] (items : List (GVec α)) (buf : List α)
    (h : ∀ v ∈ items, (InMemory v.x ∧ NoOverlap v.x ∧ InsideArr v.x.q.ds v.ix.unpackSlices) ∧
      (InMemory v.y ∧ NoOverlap v.y ∧ InsideArr v.y.q.ds v.iy.unpackSlices))
    (hbuf : (items.map fun v => (slicesSize v.ix.unpackSlices).toNat +
      (slicesSize v.iy.unpackSlices).toNat).sum ≤ buf.length) :
    ∃ out, unpackVectorLoop (items.map GVec.item) 0 buf = .ok out ∧
      out.length = items.length ∧ (gpuUnpackVector buf items 0).length = items.length ∧
      ∀ (k : Nat) v ts q, items[k]? = some v → (gpuUnpackVector buf items 0)[k]? = some ts →
        out[k]? = some q →
        (∀ sched : List (Thread α), sched.Perm ts.1 → DeviceHolds v.x q.1 sched) ∧
        (∀ sched : List (Thread α), sched.Perm ts.2 → DeviceHolds v.y q.2 sched) :=
  gpuUnpackVector_holds buf items 0 (fun v hv =>
    ⟨⟨(h v hv).1.1, (h v hv).1.2.1, (h v hv).1.2.2⟩, ⟨(h v hv).2.1, (h v hv).2.2.1, (h v hv).2.2.2⟩⟩)
    (by omega)

/-- every quantity stored contiguously in C order meets the hypotheses on memory -/
theorem C23_c_order {α : Type} [Inhabited α] (q : Qty α) (hs : q.data.shape = q.ds.map DimSpec.shape)
    {z : Int} (hz : 0 < z) :
    InMemory ⟨q, q.data.flatten, cStrides z q.data.shape, z⟩ ∧
    NoOverlap ⟨q, q.data.flatten, cStrides z q.data.shape, z⟩ := cOrder q hs hz

/-- a 4 × 4 quantity of 8-byte elements in C order, sending a rotated column -/
def gExQty (c : Int) : GQty Int :=
  ⟨⟨[⟨.j, 1, 2, 4⟩, ⟨.i, 1, 2, 4⟩], ⟨[4, 4], fun g => c + 10 * ent g 0 + ent g 1⟩⟩,
    (⟨[4, 4], fun g => c + 10 * ent g 0 + ent g 1⟩ : NArr Int).flatten, cStrides 8 [4, 4], 8⟩

def gExSpec : ExSpec := ⟨[⟨1, 3⟩, ⟨2, 3⟩], 1, [⟨3, 4⟩, ⟨1, 3⟩]⟩

example : InsideArr (gExQty 0).q.ds gExSpec.packSlices ∧ InsideArr (gExQty 0).q.ds gExSpec.unpackSlices ∧
    (gExQty 0).q.data.shape = (gExQty 0).q.ds.map DimSpec.shape ∧
    SameAxes (gExQty 0).q.dims [.jInterface, .i] := by
  unfold InsideArr SameAxes
  decide

example : runThreads (gpuPackScalar [(gExQty 0, gExSpec), (gExQty 100, gExSpec)] 0).reverse
    [7, 7, 7, 7] = some [22, 12, 122, 112] := by decide +kernel

example : (gpuUnpackScalar [5, 6] [(gExQty 0, gExSpec)] 0).map (fun ts => runThreads ts (gExQty 0).mem) =
    [some [0, 1, 2, 3, 10, 11, 12, 13, 20, 21, 22, 23, 30, 5, 6, 33]] := by decide +kernel

/-! ### C24 -/

theorem lookup_hist : ∀ (hist : List IxReq) (c : IxCache) (k : IxKey),
    (hist.foldl (fun c r => (flattenIndices c r).2) c).lookup k =
      (c.lookup k).or ((hist.find? fun r => r.key == k).map IxReq.build)
  | [], c, k => by simp
  | r :: hist, c, k => by
    rw [List.foldl_cons, lookup_hist hist, List.find?_cons]
    unfold flattenIndices
    cases hc : c.lookup r.key with
    | some m =>
      simp only
      by_cases hk : r.key = k
      · subst hk; rw [hc]; rfl
      · rw [show (r.key == k) = false from beq_false_of_ne hk]
    | none =>
      simp only [List.lookup_cons]
      by_cases hk : r.key = k
      · subst hk
        rw [hc]
        simp
      · rw [show (k == r.key) = false from beq_false_of_ne (Ne.symm hk),
          show (r.key == k) = false from beq_false_of_ne hk]

/-- C24 fails: after a quantity with dims (x, y) has been exchanged, a quantity of the same shape, strides,
region and rotation with dims (y, x) is given the index map of the first, which is not its own. -/
theorem C24_dims_violated :
    ∃ r r' : IxReq, r.rotate = true ∧ r'.rotate = true ∧
      (flattenIndices (cacheAfter [r]) r').1 ≠
        buildIndices r'.dims r'.slices r'.strides r'.itemsize r'.rotate r'.rot :=
  ⟨⟨[.i, .j], [4, 4], [32, 8], 8, 1, [⟨1, 3⟩, ⟨1, 3⟩], true⟩,
    ⟨[.j, .i], [4, 4], [32, 8], 8, 1, [⟨1, 3⟩, ⟨1, 3⟩], true⟩, by decide +kernel⟩

/-- C24 also fails when the same region was requested before for receiving instead of sending. -/
theorem C24_direction_violated :
    ∃ r r' : IxReq, r.dims = r'.dims ∧
      (flattenIndices (cacheAfter [r]) r').1 ≠
        buildIndices r'.dims r'.slices r'.strides r'.itemsize r'.rotate r'.rot :=
  ⟨⟨[.j, .i], [4, 4], [32, 8], 8, 1, [⟨1, 3⟩, ⟨1, 3⟩], false⟩,
    ⟨[.j, .i], [4, 4], [32, 8], 8, 1, [⟨1, 3⟩, ⟨1, 3⟩], true⟩, by decide +kernel⟩

/-- C24, the part that holds: after any history, the map returned is the one built for the request,
provided each earlier request for the same region of the same memory layout with the same rotation had its
x- and y-type dimensions at the same positions and was in the same direction (send or receive).
Missing from the full property: requests that differ only in their dims or direction share an entry
(see `C24_dims_violated`, `C24_direction_violated`). -/
theorem C24_cache_partial (hist : List IxReq) (r : IxReq)
    (h : ∀ r' ∈ hist, r'.slices = r.slices → r'.rot = r.rot → r'.shape = r.shape →
      r'.strides = r.strides → r'.itemsize = r.itemsize →
      SameAxes r'.dims r.dims ∧ r'.rotate = r.rotate) :
    (flattenIndices (cacheAfter hist) r).1 =
      buildIndices r.dims r.slices r.strides r.itemsize r.rotate r.rot := by
  unfold flattenIndices cacheAfter
  rw [lookup_hist]
  cases hf : hist.find? fun r' => r'.key == r.key with
  | none => simp [IxReq.build]
  | some r' =>
    have hm := List.mem_of_find?_eq_some hf
    have hk := List.find?_some hf
    have hk := eq_of_beq hk
    unfold IxReq.key at hk
    injection hk with k1 k2 k3 k4 k5
    obtain ⟨a, b⟩ := h r' hm k1 k2 k3 k4 k5
    simp only [List.lookup_nil, Option.none_or, Option.map_some, IxReq.build]
    rw [k1, k2, k4, k5, b]
    unfold buildIndices
    simp only
    rw [rotate_same a]

/-- a history with a repeated pattern, another region, and the y-staggered quantity of the same shape -/
example : ∃ (hist : List IxReq) (r : IxReq), hist.length = 3 ∧
    (∀ r' ∈ hist, r'.slices = r.slices → r'.rot = r.rot → r'.shape = r.shape →
      r'.strides = r.strides → r'.itemsize = r.itemsize →
      SameAxes r'.dims r.dims ∧ r'.rotate = r.rotate) ∧ r ∈ hist :=
  ⟨[⟨[.j, .i], [4, 4], [32, 8], 8, 1, [⟨1, 3⟩, ⟨1, 3⟩], true⟩,
    ⟨[.jInterface, .i], [4, 4], [32, 8], 8, 1, [⟨1, 3⟩, ⟨1, 3⟩], true⟩,
    ⟨[.j, .i], [4, 4], [32, 8], 8, 1, [⟨0, 1⟩, ⟨1, 3⟩], false⟩],
    ⟨[.j, .i], [4, 4], [32, 8], 8, 1, [⟨1, 3⟩, ⟨1, 3⟩], true⟩, by
      unfold SameAxes
      decide⟩

end NDSL
