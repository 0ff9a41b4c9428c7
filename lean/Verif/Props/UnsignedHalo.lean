import Verif.Model.UnsignedHalo
import Verif.Props.HaloVector
import Verif.Props.HaloExtension
import Mathlib.Algebra.Order.Group.Abs

/-! C142: lengths and coefficients exchanged as vectors, without their signs. -/
namespace NDSL
open NArr

variable {K : Type} [Inhabited K] [AddCommGroup K] [LinearOrder K] [IsOrderedAddMonoid K]

theorem unsigned_get (q : Qty K) (g : List Int) : q.unsigned.data.get g = |q.data.get g| := by
  unfold Qty.unsigned
  simp only
  split
  · rw [abs_of_neg ‹_›]
  · rw [abs_of_nonneg (not_lt.mp ‹_›)]

theorem part_unsigned (v : Qty K × Qty K) (c : Bool) : part c (v.1.unsigned, v.2.unsigned) = (part c v).unsigned := by
  cases c <;> rfl

/-- **C142**: two fields whose values in the compute domains are not negative, exchanged as the components of a vector
with the signs taken away afterwards: every point of the halo of a field gets the value that the owner of the point,
reached by continuing the sheet over the edge of the cube, holds for the field whose direction is along that of the
receiver's field, in either sense. The compute domain is as before, and so is, up to its sign, a point beyond a corner. -/
theorem C142_fill (n h L : Int) (hn : 0 < n) (hh : 0 < h) (off : Int → Int)
    (A : Axis n L off) (hw : ∀ i, 0 ≤ i → i < n → h ≤ off (i + 1) - off i) (junk : Nat → K)
    (st : Int → List (Qty K × Qty K))
    (F : ∀ c, CubeFields n h off fun s => (st s).map fun v => (part c v).ds)
    (hv : ∀ s, 0 ≤ s → s < (squareCube n).totalRanks → ∀ v ∈ st s, VectorPair v.1.ds v.2.ds)
    (hp : ∀ s, 0 ≤ s → s < (squareCube n).totalRanks → ∀ v ∈ st s, ∀ c g, InCompute (part c v).ds g → 0 ≤ (part c v).data.get g)
    (r t j i : Int) (h0 : 0 ≤ r) (h1 : r < (squareCube n).totalRanks)
    (hpos : (squareCube n).At r t j i) (hne : st r ≠ []) :
    ∃ out, (squareCube n).unsignedHaloUpdate junk h st r = .ok out ∧ out.length = (st r).length ∧
      ∀ (k : Nat) (v v' : Qty K × Qty K), (st r)[k]? = some v → out[k]? = some v' → ∀ c : Bool,
        (part c v').ds = (part c v).ds ∧ (part c v').data.shape = (part c v).data.shape ∧
        (∀ g, InCompute (part c v).ds g → (part c v').data.get g = (part c v).data.get g) ∧
        ∀ g, InWidened h (part c v).ds g → ¬ InCompute (part c v).ds g →
          match fold L t (coordI L (off i) (part c v).ds g) (coordJ L (off j) (part c v).ds g) with
          | none => (part c v').data.get g = |(part c v).data.get g|
          | some P => ∃ s t' j' i' vs gs, ∃ c' : Bool, 0 ≤ s ∧ s < (squareCube n).totalRanks ∧
              (squareCube n).At s t' j' i' ∧ (st s)[k]? = some vs ∧
              InCompute (part c' vs).ds gs ∧
              onCube L t' (coordI L (off i') (part c' vs).ds gs) (coordJ L (off j') (part c' vs).ds gs) = P ∧
              levels (part c' vs).ds gs = levels (part c v).ds g ∧
              (part c (foldAxes L t (coordI L (off i) (part c v).ds g) (coordJ L (off j) (part c v).ds g)) =
                  part c' ((frame t').ex, (frame t').ey) ∨
                part c (foldAxes L t (coordI L (off i) (part c v).ds g) (coordJ L (off j) (part c v).ds g)) =
                  (part c' ((frame t').ex, (frame t').ey)).neg) ∧
              (part c v').data.get g = (part c' vs).data.get gs := by
  obtain ⟨out, ho, hl, H⟩ := C21_cube_vector_halo_fill n h L hn hh off A hw junk st F hv r t j i h0 h1 hpos hne
  have KP := C20_vector_halo_update_keeps _ junk h (by omega) st r out ho
  refine ⟨out.map fun v => (v.1.unsigned, v.2.unsigned), ?_, by simpa using hl, ?_⟩
  · unfold CubePart.unsignedHaloUpdate
    rw [ho]; rfl
  · intro k v w hk hw' c
    rw [List.getElem?_map, Option.map_eq_some_iff] at hw'
    obtain ⟨v', hv', rfl⟩ := hw'
    obtain ⟨a, b, f⟩ := H k v v' hk hv' c
    have hmem : v ∈ st r := List.mem_of_getElem? hk
    have hf : HaloField h _ _ (part c v).ds :=
      (F c).fields r t j i h0 h1 hpos _ (List.mem_map_of_mem (f := fun v => (part c v).ds) hmem)
    have kept := (KP.2 k v v' hk hv' (part c v) (part c v') (by cases c <;> simp [part])).2.2 hf.xy hf.ext
    rw [part_unsigned]
    refine ⟨a, b, fun g hg => ?_, fun g h1' h2' => ?_⟩
    · rw [unsigned_get, kept g (.inl hg), abs_of_nonneg (hp r h0 h1 v hmem c g hg)]
    · have f := f g h1' h2'
      split at f
      · rename_i e
        rw [e]
        simp only
        rw [unsigned_get, f]
      · rename_i P e
        rw [e]
        simp only
        obtain ⟨s, t', j', i', vs, gs, c', neg, s0, s1, at', hs, inn, on, lv, dir, val⟩ := f
        refine ⟨s, t', j', i', vs, gs, c', s0, s1, at', hs, inn, on, lv, ?_, ?_⟩
        · cases neg
          · exact .inl dir
          · exact .inr dir
        · have nn := hp s s0 s1 vs (List.mem_of_getElem? hs) c' gs inn
          rw [unsigned_get, val]
          cases neg
          · exact abs_of_nonneg nn
          · exact (abs_neg _).trans (abs_of_nonneg nn)

/-- **C142**: nothing is negative afterwards, on either component, whatever was there. -/
theorem C142_sign (p : CubePart) (junk : Nat → K) (n : Int) (st : Int → List (Qty K × Qty K)) (r : Int) {out : List (Qty K × Qty K)}
    (h : p.unsignedHaloUpdate junk n st r = .ok out) : ∀ v ∈ out, ∀ c g, 0 ≤ (part c v).data.get g := by
  unfold CubePart.unsignedHaloUpdate at h
  cases hu : p.vectorHaloUpdate junk n st r with
  | error e => rw [hu] at h; cases h
  | ok o =>
    rw [hu] at h
    cases Except.ok.inj h
    intro v hv c g
    obtain ⟨w, -, rfl⟩ := List.mem_map.mp hv
    rw [part_unsigned, unsigned_get]
    exact abs_nonneg _

/-- C142, what does not hold: without that hypothesis, a negative value in the compute domain changes its sign. -/
theorem C142_negative_violated : ((squareCube 1).unsignedHaloUpdate (fun _ => 7) 1 (fun r => (windState r).map fun v =>
      (v.1, { v.2 with data := { v.2.data with get := fun g => v.2.data.get g - 2000 } })) 0).map
    (fun out => out.map fun v => v.2.data.get [1, 1]) = .ok [989] := by decide +kernel

/-- **C142**: the four pairs of fields exchanged so have the dimensions of a vector, for a rank with any number of points:
the lengths of the edges, of the cells, those across the edges, and the coefficients. -/
theorem C142_pairs (n o s : Int) :
    VectorPair [⟨.i, o, n, s⟩, ⟨.jInterface, o, n + 1, s⟩] [⟨.iInterface, o, n + 1, s⟩, ⟨.j, o, n, s⟩] ∧
    VectorPair [⟨.i, o, n, s⟩, ⟨.j, o, n, s⟩] [⟨.i, o, n, s⟩, ⟨.j, o, n, s⟩] ∧
    VectorPair [⟨.iInterface, o, n + 1, s⟩, ⟨.j, o, n, s⟩] [⟨.i, o, n, s⟩, ⟨.jInterface, o, n + 1, s⟩] := by
  refine ⟨⟨.cons ?_ (.cons ?_ .nil), ?_, ?_⟩, ⟨.cons ?_ (.cons ?_ .nil), ?_, ?_⟩, ⟨.cons ?_ (.cons ?_ .nil), ?_, ?_⟩⟩ <;>
    simp [Dim.isI, Dim.isJ, Dim.isHorizontal, DimSpec.stag, Dim.isInterface]

/-! ### Lengths of cell edges of one rank in each tile -/

/-- The values in the state are not negative. -/
example : ∀ s, 0 ≤ s → s < (squareCube 1).totalRanks → ∀ v ∈ windState s, ∀ c g, InCompute (part c v).ds g → 0 ≤ (part c v).data.get g := by
  intro s s0 _ v hv c g hg
  rw [windState, List.mem_singleton] at hv
  subst hv
  cases c
  · cases hg with
    | cons a hg => cases hg with
      | cons b hg => cases hg; simp only [part] at *; simp at a b ⊢; omega
  · cases hg with
    | cons a hg => cases hg with
      | cons b hg => cases hg; simp only [part] at *; simp at a b ⊢; omega

/-- The y component in the west halo of tile 0 is the x component of tile 4, without the sign it had in
`C21`. -/
example : ((squareCube 1).unsignedHaloUpdate (fun _ => 7) 1 windState 0).map
    (fun out => out.map fun v => [v.1.data.get [1, 0], v.2.data.get [1, 0]]) = .ok [[1423, 422]] := by decide +kernel

end NDSL
