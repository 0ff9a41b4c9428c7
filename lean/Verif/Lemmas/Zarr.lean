import Verif.Spec.Zarr
import Verif.Props.Decomposition
/-
Lemmas for C59.
-/
namespace NDSL.Zarr

/-- the two floating point results for an evenly divided tile -/
abbrev EvenOps (fl : FloatOps) : Prop :=
  ∀ c w, 3 ≤ c → 1 ≤ w → fl.startSize (c * w) c = w ∧ fl.interior w (c * w) c = w

theorem tileShape_eq (e : Dim → Int) (layout : Int × Int) :
    ∀ dims : List Dim, tileExtentFromRank dims (dims.map e) layout = tileShape e layout dims
  | [] => rfl
  | d :: ds => by
    have ih := tileShape_eq e layout ds
    simp only [tileExtentFromRank, tileShape, listByDims, List.map_cons, List.zip_cons_cons] at ih ⊢
    rw [ih]
    congr 1
    unfold dimTileExtent cellsOf along
    cases d <;> simp [Dim.isHorizontal, Dim.isJ, Dim.isI, Dim.isInterface] <;> omega

theorem accepted (fl : FloatOps) (hfl : EvenOps fl) (ly lx : Int) (hy : 0 < ly) (hx : 0 < lx)
    (dims : List Dim) (e : Dim → Int) (hg : GoodExtents dims e) :
    Accepted fl (ly, lx) dims (tileShape e (ly, lx) dims)
      (dims.map fun d => (cellsOf d (e d), cellsOf d (e d))) := by
  have hv : ValidExtents dims (dims.map e) := by
    unfold ValidExtents
    rw [List.forall₂_map_right_iff, List.forall₂_same]
    intro d hd
    have := (hg d hd).2
    unfold cellsOf at this
    constructor
    · split at this <;> omega
    · intro h; rw [if_pos h] at this; omega
  have hp : List.Forall₂ (fun d n => d.isHorizontal = true → 1 ≤ cells d n) dims (dims.map e) := by
    rw [List.forall₂_map_right_iff, List.forall₂_same]
    intro d hd h
    exact (hg d hd).1 h
  have := round_trip_accepted fl (ly, lx) hy hx hfl dims (dims.map e) hv hp
  rw [tileShape_eq] at this
  have h2 : ((dims.zip (dims.map e)).map fun (d, n) => (cells d n, cells d n)) =
      dims.map fun d => (cellsOf d (e d), cellsOf d (e d)) := by
    clear this hp hv hg
    induction dims with
    | nil => rfl
    | cons d ds ih => simp only [List.map_cons, List.zip_cons_cons, ih]; rfl
  rw [h2] at this
  exact this

/-- the slice of a rank along a dimension -/
def sliceOf (e : Dim → Int) (layout pos : Int × Int) (d : Dim) : Slice :=
  dimSlice layout pos false d (cellsOf d (e d)) (cellsOf d (e d))

theorem bnd_even (w c : Int) : ∀ k : Nat, bnd w w c k = k * w
  | 0 => by rw [bnd_zero]; simp
  | k + 1 => by
    rw [bnd_succ, bnd_even w c k, ite_self]
    push_cast
    rw [Int.add_mul]; omega

theorem sliceOf_start (e : Dim → Int) (layout pos : Int × Int) (d : Dim)
    (hp : d.isHorizontal = true → 0 ≤ along pos d) :
    (sliceOf e layout pos d).start = origin e pos d := by
  unfold sliceOf origin
  by_cases h : d.isHorizontal = true
  · rw [if_pos h, dimSlice_horizontal _ _ _ _ _ _ h (hp h)]
    simp only [bnd_even]
    have : idx pos d = along pos d := rfl
    rw [this, Int.toNat_of_nonneg (hp h)]
  · rw [if_neg h]
    unfold dimSlice
    rw [if_neg h]
    split <;> rfl

theorem sliceOf_has (e : Dim → Int) (layout pos : Int × Int) (d : Dim) (x : Int)
    (hp : d.isHorizontal = true → 0 ≤ along pos d) :
    ((sliceOf e layout pos d).start ≤ x ∧ x < (sliceOf e layout pos d).stop) ↔
      OwnsDim e layout pos d x := by
  rw [sliceOf_start _ _ _ _ hp]
  unfold OwnsDim
  by_cases h : d.isHorizontal = true
  · rw [if_pos h]
    have hc : cnt layout d = along layout d := by
      rw [cnt_eq_ranks h]; rfl
    have : (sliceOf e layout pos d).stop = origin e pos d + cellsOf d (e d) +
        (if d.isInterface = true ∧ along pos d = along layout d - 1 then 1 else 0) := by
      unfold sliceOf
      rw [dimSlice_horizontal _ _ _ _ _ _ h (hp h), hc]
      simp only [bnd_even, Bool.false_eq_true, false_or]
      have h3 : idx pos d = along pos d := rfl
      unfold origin
      rw [if_pos h, h3]
      push_cast
      rw [Int.toNat_of_nonneg (hp h), Int.add_mul]
      omega
    rw [this]
    split
    · rename_i h2
      constructor
      · rintro ⟨a, b⟩
        refine ⟨a, ?_⟩
        by_cases hlt : x < origin e pos d + cellsOf d (e d)
        · exact Or.inl hlt
        · exact Or.inr ⟨h2.1, h2.2, by omega⟩
      · rintro ⟨a, b | b⟩
        · exact ⟨a, by omega⟩
        · exact ⟨a, by omega⟩
    · rename_i h2
      constructor
      · rintro ⟨a, b⟩
        exact ⟨a, Or.inl (by omega)⟩
      · rintro ⟨a, b | b⟩
        · exact ⟨a, by omega⟩
        · exact absurd ⟨b.1, b.2.1⟩ h2
  · rw [if_neg h]
    unfold origin sliceOf dimSlice cellsOf
    simp only [h, if_false, Bool.false_eq_true]
    split <;> simp

theorem sliceOf_len (e : Dim → Int) (layout pos : Int × Int) (d : Dim)
    (hp : d.isHorizontal = true → 0 ≤ along pos d) :
    (sliceOf e layout pos d).stop - (sliceOf e layout pos d).start ≤ e d := by
  unfold sliceOf
  by_cases h : d.isHorizontal = true
  · rw [dimSlice_horizontal _ _ _ _ _ _ h (hp h)]
    simp only [bnd_even]
    push_cast
    rw [Int.add_mul]
    unfold cellsOf
    by_cases h1 : d.isInterface = true
    · simp only [h1, if_true, true_and]; split <;> omega
    · simp only [h1, Bool.false_eq_true, if_false, false_and]; omega
  · unfold dimSlice cellsOf
    simp only [h, if_false, Bool.false_eq_true]
    split <;> simp

theorem slices_map (e : Dim → Int) (layout pos : Int × Int) :
    ∀ dims : List Dim, slices layout pos false dims
      (dims.map fun d => (cellsOf d (e d), cellsOf d (e d))) = dims.map (sliceOf e layout pos)
  | [] => rfl
  | d :: ds => by
    rw [List.map_cons, slices_cons, slices_map e layout pos ds]; rfl

theorem along_pos {ly lx j i : Int} (hj : 0 ≤ j ∧ j < ly) (hi : 0 ≤ i ∧ i < lx) (d : Dim) :
    0 ≤ along (j, i) d ∧ along (j, i) d < along (ly, lx) d := by
  unfold along
  split <;> simp_all

theorem inSlices_iff (e : Dim → Int) (layout pos : Int × Int)
    (hp : ∀ d, 0 ≤ along pos d) :
    ∀ (dims : List Dim) (g : List Int), inSlices (dims.map (sliceOf e layout pos)) g = true ↔
      Owns e layout pos dims g
  | [], [] => by simp [inSlices, Owns]
  | [], _ :: _ => by simp [inSlices, Owns]
  | _ :: _, [] => by simp [inSlices, Owns]
  | d :: ds, x :: xs => by
    simp only [List.map_cons, inSlices, Bool.and_eq_true, decide_eq_true_eq,
      inSlices_iff e layout pos hp ds xs, sliceOf_has e layout pos d x (fun _ => hp d), Owns,
      List.forall₂_cons]

theorem local_eq (e : Dim → Int) (layout pos : Int × Int) (hp : ∀ d, 0 ≤ along pos d) :
    ∀ (dims : List Dim) (g : List Int),
      (g.zip (dims.map (sliceOf e layout pos))).map (fun (x, s) => x - s.start) =
        localIndex e pos dims g
  | [], g => by simp [localIndex]
  | _ :: _, [] => by simp [localIndex]
  | d :: ds, x :: xs => by
    have ih := local_eq e layout pos hp ds xs
    unfold localIndex at ih ⊢
    simp only [List.map_cons, List.zip_cons_cons, ih, sliceOf_start e layout pos d (fun _ => hp d)]

theorem lens_ok (e : Dim → Int) (layout pos : Int × Int) (hp : ∀ d, 0 ≤ along pos d) :
    ∀ dims : List Dim, ((dims.map (sliceOf e layout pos)).zip (dims.map e)).all
      (fun (s, n) => decide (s.stop - s.start ≤ n)) = true
  | [] => rfl
  | d :: ds => by
    have ih := lens_ok e layout pos hp ds
    simp only [List.map_cons, List.zip_cons_cons, List.all_cons, ih, Bool.and_true,
      decide_eq_true_eq]
    exact sliceOf_len e layout pos d (fun _ => hp d)

theorem inShape_iff : ∀ (s g : List Int), inShape s g = true ↔ InExtent s g
  | [], [] => by simp [inShape, InExtent]
  | [], _ :: _ => by simp [inShape, InExtent]
  | _ :: _, [] => by simp [inShape, InExtent]
  | n :: s, x :: g => by
    simp only [inShape, Bool.and_eq_true, decide_eq_true_eq, inShape_iff s g, InExtent,
      List.forall₂_cons]

theorem valid_tileShape (ly lx : Int) (hy : 0 < ly) (hx : 0 < lx)
    (dims : List Dim) (e : Dim → Int) (hg : GoodExtents dims e) :
    ValidExtents dims (tileShape e (ly, lx) dims) := by
  unfold ValidExtents tileShape
  rw [List.forall₂_map_right_iff, List.forall₂_same]
  intro d hd
  have h0 := (hg d hd).2
  have ha : 0 ≤ along (ly, lx) d := by unfold along; split <;> simp <;> omega
  have hm := Int.mul_nonneg h0 ha
  simp only
  constructor
  · split <;> split <;> omega
  · intro h; simp only [h, if_true]; split <;> omega

/-- every point of a tile has exactly one owner -/
theorem owner (fl : FloatOps) (hfl : EvenOps fl) (ly lx : Int) (hy : 0 < ly) (hx : 0 < lx)
    (dims : List Dim) (hd : TileDims dims) (e : Dim → Int) (hg : GoodExtents dims e)
    (hJ : ∃ d ∈ dims, d.isJ = true) (hI : ∃ d ∈ dims, d.isI = true) (t : Int) (g : List Int)
    (ht : 0 ≤ t ∧ t < 6) (hin : InExtent (tileShape e (ly, lx) dims) g) :
    let p : CubePart := ⟨⟨(ly, lx)⟩⟩
    ∃ r j i, IsRank p r ∧ p.At r t j i ∧ Owns e (ly, lx) (j, i) dims g := by
  intro p
  have ha := accepted fl hfl ly lx hy hx dims e hg
  obtain ⟨⟨j, i⟩, hj, hi, hs⟩ := slices_exists fl (ly, lx) hy hx dims _ _ g hd.oneJ hd.oneI
    (valid_tileShape ly lx hy hx dims e hg) ha hin
  obtain ⟨r, ⟨h0, h1, hat⟩, _⟩ := (C01_cube_positions ly lx hy hx).2 t j i ht.1 ht.2 hj.1 hj.2
    hi.1 hi.2
  refine ⟨r, j, i, ⟨h0, h1⟩, hat, ?_⟩
  rw [slices_map] at hs
  rw [← inSlices_iff e (ly, lx) (j, i) (fun d => (along_pos hj hi d).1)]
  clear ha hin hg hJ hI hd
  unfold Selects at hs
  revert hs
  induction dims generalizing g with
  | nil => intro hs; cases hs; rfl
  | cons d ds ih =>
    intro hs
    cases g with
    | nil => cases hs
    | cons x xs =>
      cases hs with
      | cons a b =>
        simp only [List.map_cons, inSlices, Bool.and_eq_true, decide_eq_true_eq]
        exact ⟨a, ih xs b⟩

theorem owner_unique (ly lx : Int) (hy : 0 < ly) (hx : 0 < lx)
    (dims : List Dim) (e : Dim → Int) (hg : GoodExtents dims e)
    (hJ : ∃ d ∈ dims, d.isJ = true) (hI : ∃ d ∈ dims, d.isI = true) (t : Int) (g : List Int)
    (r r' j i j' i' : Int) :
    let p : CubePart := ⟨⟨(ly, lx)⟩⟩
    IsRank p r → p.At r t j i → Owns e (ly, lx) (j, i) dims g →
    IsRank p r' → p.At r' t j' i' → Owns e (ly, lx) (j', i') dims g → r = r' := by
  intro p hr hat ho hr' hat' ho'
  obtain ⟨t1, j1, i1, hat1, b0, b1, b2, b3, b4, b5, _⟩ := (C01_cube_positions ly lx hy hx).1 r hr.1 hr.2
  obtain ⟨t2, j2, i2, hat2, c0, c1, c2, c3, c4, c5, _⟩ := (C01_cube_positions ly lx hy hx).1 r' hr'.1 hr'.2
  obtain ⟨rfl, rfl, rfl⟩ : t1 = t ∧ j1 = j ∧ i1 = i := by
    have h1 := hat1.1.symm.trans hat.1
    have h2 := hat1.2.symm.trans hat.2
    exact ⟨Except.ok.inj h1, congrArg Prod.fst h2, congrArg Prod.snd h2⟩
  obtain ⟨rfl, rfl, rfl⟩ : t2 = t1 ∧ j2 = j' ∧ i2 = i' := by
    have h1 := hat2.1.symm.trans hat'.1
    have h2 := hat2.2.symm.trans hat'.2
    exact ⟨Except.ok.inj h1, congrArg Prod.fst h2, congrArg Prod.snd h2⟩
  have key : ∀ d ∈ dims, d.isHorizontal = true → along (j1, i1) d = along (j2, i2) d := by
    intro d hd hh
    have hex : ∃ x, OwnsDim e (ly, lx) (j1, i1) d x ∧ OwnsDim e (ly, lx) (j2, i2) d x := by
      clear hg hJ hI
      induction dims generalizing g with
      | nil => cases hd
      | cons d' ds ih =>
        cases g with
        | nil => cases ho
        | cons x xs =>
          cases ho with
          | cons a b =>
            cases ho' with
            | cons a' b' =>
              rcases List.mem_cons.1 hd with rfl | h
              · exact ⟨x, a, a'⟩
              · exact ih xs b b' h
    obtain ⟨x, h1, h2⟩ := hex
    have hw := (hg d hd).1 hh
    unfold OwnsDim at h1 h2
    rw [if_pos hh] at h1 h2
    unfold origin at h1 h2
    rw [if_pos hh] at h1 h2
    have ra := along_pos (ly := ly) (lx := lx) ⟨b2, b3⟩ ⟨b4, b5⟩ d
    have rb := along_pos (ly := ly) (lx := lx) ⟨c2, c3⟩ ⟨c4, c5⟩ d
    generalize along (j1, i1) d = A at *
    generalize along (j2, i2) d = B at *
    generalize cellsOf d (e d) = w at *
    generalize along (ly, lx) d = C at *
    rcases Int.lt_trichotomy A B with h | h | h
    · exfalso
      have : (A + 1) * w ≤ B * w := Int.mul_le_mul_of_nonneg_right (by omega) (by omega)
      rw [Int.add_mul] at this
      rcases h1.2 with h3 | h3
      · omega
      · omega
    · exact h
    · exfalso
      have : (B + 1) * w ≤ A * w := Int.mul_le_mul_of_nonneg_right (by omega) (by omega)
      rw [Int.add_mul] at this
      rcases h2.2 with h3 | h3
      · omega
      · omega
  have hjj : j1 = j2 := by
    obtain ⟨d, hd, hdj⟩ := hJ
    have := key d hd (by simp [Dim.isHorizontal, hdj])
    simpa [along, hdj] using this
  have hii : i1 = i2 := by
    obtain ⟨d, hd, hdi⟩ := hI
    have := key d hd (by simp [Dim.isHorizontal, hdi])
    have hnj : d.isJ = false := not_isJ hdi
    simpa [along, hnj] using this
  subst hjj; subst hii
  obtain ⟨r0, _, hu⟩ := (C01_cube_positions ly lx hy hx).2 t2 j1 i1 b0 b1 b2 b3 b4 b5
  rw [hu r hr.1 hr.2 hat, hu r' hr'.1 hr'.2 hat']

end NDSL.Zarr
