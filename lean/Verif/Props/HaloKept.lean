import Verif.Lemmas.HaloOutside
import Verif.Lemmas.HaloFields

/-
Property theorem C20: what a halo update leaves unchanged.
-/
namespace NDSL
open NArr

variable {α : Type} [Inhabited α]

/-- one receive region is in the ring of `n` points around the compute domain -/
theorem recv_in_ring {n : Int} (hn : 0 ≤ n) {ds : List DimSpec} (hxy : HasXY (ds.map DimSpec.dim))
    (hext : ∀ d ∈ ds, 0 ≤ d.extent) {b : BType} {g : List Int}
    (h : Selects (ds.map (win b n false)) g) : InWidened n ds g ∧ ¬ InCompute ds g := by
  rw [selects_map] at h
  constructor
  · unfold InWidened
    rw [List.forall₂_iff_get] at h ⊢
    exact ⟨h.1, fun i a c => ((recv_has_iff _ n _ hn (hext _ (List.get_mem _ _)) _).1 (h.2 i a c)).1⟩
  · intro hc
    obtain ⟨x, y, XX⟩ := hxy.at
    have X := XX.at
    rw [← selects_map] at h
    rw [selects_iff] at h
    rw [inCompute_iff] at hc
    have a := h.2 x (by simpa using X.lx)
    have b' := h.2 y (by simpa using X.ly)
    rw [sAt_map X.lx] at a
    rw [sAt_map X.ly] at b'
    have a' := ((recv_has_iff b n _ hn (hext _ (dAt_mem X.lx)) _).1 a).2
    have b'' := ((recv_has_iff b n _ hn (hext _ (dAt_mem X.ly)) _).1 b').2
    have cx := hc.2 x X.lx
    have cy := hc.2 y X.ly
    rw [X.alongX] at a'
    rw [X.alongY] at b''
    unfold side at a' b''
    rw [if_neg (by omega), if_pos (by omega)] at a' b''
    cases b <;> simp [BType.dir] at a' b''

/-- C20, scalar: for every topology (any list of boundaries), any contents of buffers and any messages,
if a halo update of `n` points succeeds, each quantity with one x and one y dimension keeps its metadata
and its values at all points of the compute domain and at all points farther than `n` points from it. -/
theorem C20_halo_update_keeps (topo : Int → Except Err (List Boundary)) (junk : Nat → α) (n : Int)
    (hn : 0 ≤ n) (st : Int → List (Qty α)) (r : Int) (out : List (Qty α))
    (h : haloUpdate topo junk n st r = .ok out) :
    out.length = (st r).length ∧
    ∀ (k : Nat) (q q' : Qty α), (st r)[k]? = some q → out[k]? = some q' →
      q'.ds = q.ds ∧ q'.data.shape = q.data.shape ∧
      (HasXY (q.ds.map DimSpec.dim) → (∀ d ∈ q.ds, 0 ≤ d.extent) →
        ∀ g, (InCompute q.ds g ∨ ¬ InWidened n q.ds g) → q'.data.get g = q.data.get g) := by
  have hbs : ∃ bs, topo r = .ok bs := by
    unfold haloUpdate at h
    split at h
    · cases h
    · split at h
      · cases h
      · unfold exchange at h
        cases ht : topo r with
        | error e => simp [ht, bind, Except.bind] at h
        | ok bs => exact ⟨bs, rfl⟩
  obtain ⟨bs, hbs⟩ := hbs
  have K := haloUpdate_kept topo junk n st r out bs hbs h
  refine ⟨K.length_eq.symm, ?_⟩
  rw [List.forall₂_iff_get] at K
  intro k q q' hq hq'
  obtain ⟨k1, hq⟩ := List.getElem?_eq_some_iff.1 hq
  obtain ⟨k2, hq'⟩ := List.getElem?_eq_some_iff.1 hq'
  have D := K.2 k k1 k2
  simp only [List.get_eq_getElem, hq, hq'] at D
  refine ⟨D.ds, D.shape, ?_⟩
  intro hxy hext g hg
  apply D.same
  rintro ⟨b, _, hsel⟩
  have := recv_in_ring hn hxy hext hsel
  rcases hg with hg | hg
  · exact this.2 hg
  · exact hg this.1

/-- the components of the `k`-th vector, one after the other -/
theorem flat2_get {β : Type} : ∀ (l : List (β × β)) (k : Nat),
    (flat2 l)[2 * k]? = l[k]?.map (·.1) ∧ (flat2 l)[2 * k + 1]? = l[k]?.map (·.2)
  | [], k => by simp [flat2]
  | a :: l, 0 => by simp [flat2_cons]
  | a :: l, k + 1 => by
    have := flat2_get l k
    rw [flat2_cons, show 2 * (k + 1) = 2 * k + 1 + 1 by omega]
    simpa using this

/-- C20, vector: the same for both components of each vector. -/
theorem C20_vector_halo_update_keeps [Neg α] (topo : Int → Except Err (List Boundary))
    (junk : Nat → α) (n : Int)
    (hn : 0 ≤ n) (st : Int → List (Qty α × Qty α)) (r : Int) (out : List (Qty α × Qty α))
    (h : vectorHaloUpdate topo junk n st r = .ok out) :
    out.length = (st r).length ∧
    ∀ (k : Nat) (v v' : Qty α × Qty α), (st r)[k]? = some v → out[k]? = some v' →
      ∀ q q', (q = v.1 ∧ q' = v'.1) ∨ (q = v.2 ∧ q' = v'.2) →
        q'.ds = q.ds ∧ q'.data.shape = q.data.shape ∧
        (HasXY (q.ds.map DimSpec.dim) → (∀ d ∈ q.ds, 0 ≤ d.extent) →
          ∀ g, (InCompute q.ds g ∨ ¬ InWidened n q.ds g) → q'.data.get g = q.data.get g) := by
  have hbs : ∃ bs, topo r = .ok bs := by
    unfold vectorHaloUpdate at h
    split at h
    · cases h
    · split at h
      · cases h
      · unfold exchange at h
        cases ht : topo r with
        | error e => simp [ht, bind, Except.bind] at h
        | ok bs => exact ⟨bs, rfl⟩
  obtain ⟨bs, hbs⟩ := hbs
  have K := vectorHaloUpdate_kept topo junk n st r out bs hbs h
  have hl := K.length_eq
  rw [flat2_len, flat2_len] at hl
  refine ⟨by omega, ?_⟩
  rw [List.forall₂_iff_get] at K
  intro k v v' hv hv' q q' hc
  have key : ∀ m : Nat, (flat2 (st r))[m]? = some q → (flat2 out)[m]? = some q' →
      Kept (Hit n bs q.ds) q q' := by
    intro m h1 h2
    obtain ⟨k1, h1⟩ := List.getElem?_eq_some_iff.1 h1
    obtain ⟨k2, h2⟩ := List.getElem?_eq_some_iff.1 h2
    have D := K.2 m k1 k2
    simpa only [List.get_eq_getElem, h1, h2] using D
  have D : Kept (Hit n bs q.ds) q q' := by
    rcases hc with ⟨rfl, rfl⟩ | ⟨rfl, rfl⟩
    · exact key (2 * k) (by rw [(flat2_get _ k).1, hv]; rfl) (by rw [(flat2_get _ k).1, hv']; rfl)
    · exact key (2 * k + 1) (by rw [(flat2_get _ k).2, hv]; rfl) (by rw [(flat2_get _ k).2, hv']; rfl)
  refine ⟨D.ds, D.shape, ?_⟩
  intro hxy hext g hg
  apply D.same
  rintro ⟨b, _, hsel⟩
  have := recv_in_ring hn hxy hext hsel
  rcases hg with hg | hg
  · exact this.2 hg
  · exact hg this.1

/-- C20 fails without an x dimension: for a quantity on `(j)` only, the receive region of a west
boundary is the compute domain itself, so a tile update overwrites it. (3 × 3 ranks; rank 0 holds 0s and
all others hold 1s; after the update rank 0 holds 1 in its compute domain.) -/
def jOnly (r : Int) : List (Qty Int) := [⟨[⟨.j, 1, 4, 6⟩], ⟨[6], fun _ => if r = 0 then 0 else 1⟩⟩]

theorem C20_missing_dimension_violated :
    InCompute [⟨.j, 1, 4, 6⟩] [2] ∧
    ((TilePart.mk (3, 3)).haloUpdate (fun _ => 0) 1 jOnly 0).map
      (fun out => out.map fun q => q.data.get [2]) = .ok [1] ∧
    (jOnly 0).map (fun q => q.data.get [2]) = [0] := by
  refine ⟨.cons (by decide) .nil, by decide +kernel, by decide⟩

end NDSL
