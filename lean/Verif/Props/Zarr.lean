import Verif.Lemmas.Zarr
/-
Property theorems C59: the Zarr monitor.
-/
namespace NDSL.Zarr

/-- the value at point `g` of the tile, as given by the rank at position `pos` -/
def given {V : Type} (e : Dim → Int) (pos : Int × Int) (dims : List Dim) (q : Fld V)
    (g : List Int) : V := q.val (byName dims (localIndex e pos dims g))

theorem lookup_zip_map (e : Dim → Int) (d : Dim) :
    ∀ dims : List Dim, d ∈ dims → ((dims.zip (dims.map e)).lookup d) = some (e d)
  | d' :: ds, h => by
    simp only [List.map_cons, List.zip_cons_cons, List.lookup_cons]
    by_cases hd : d = d'
    · subst hd; simp
    · have : (d == d') = false := by simpa using hd
      rw [this]
      exact lookup_zip_map e d ds ((List.mem_cons.1 h).resolve_left hd)

section
variable {V : Type} (fl : FloatOps) (hfl : EvenOps fl) (ly lx : Int) (hy : 0 < ly) (hx : 0 < lx)
  (dims : List Dim) (hd : TileDims dims) (e : Dim → Int) (hg : GoodExtents dims e)

theorem matchDims_eq {p : CubePart} {u : String} {q : Int → Fld V} (hq : Fits p dims e u q) (r : Int)
    (hr : IsRank p r) : (matchDims dims (q r)).dims = dims ∧
      (matchDims dims (q r)).extent = dims.map e ∧ (matchDims dims (q r)).val = (q r).val := by
  unfold matchDims
  by_cases h : dims = (q r).dims
  · rw [if_neg (fun h' => h' h)]
    exact ⟨h.symm, by rw [hq.extent_eq r hr, ← h], rfl⟩
  · rw [if_pos h]
    refine ⟨rfl, ?_, rfl⟩
    apply List.map_congr_left
    intro d hd
    rw [hq.extent_eq r hr, lookup_zip_map e d _ ((hq.dims_eq r hr d).2 hd)]
    rfl

include hfl hy hx hd hg in
theorem writeRank_eq (iTime : Nat) (r t j i : Int) (hr : IsRank ⟨⟨(ly, lx)⟩⟩ r)
    (hat : (CubePart.mk ⟨(ly, lx)⟩).At r t j i) (q : Fld V) (hqd : q.dims = dims)
    (hqe : q.extent = dims.map e) (a : ZArray V) (ha : a.shape = tileShape e (ly, lx) dims) :
    ∃ f, writeRank ⟨⟨(ly, lx)⟩⟩ fl iTime r q a = .ok { a with data := f } ∧
      ∀ k t' g, (k = iTime ∧ t' = t ∧ Owns e (ly, lx) (j, i) dims g →
          f k t' g = some (given e (j, i) dims q g)) ∧
        (¬ (k = iTime ∧ t' = t ∧ Owns e (ly, lx) (j, i) dims g) → f k t' g = a.data k t' g) := by
  obtain ⟨t1, j1, i1, hat1, b0, b1, b2, b3, b4, b5, _⟩ :=
    (C01_cube_positions ly lx hy hx).1 r hr.1 hr.2
  obtain ⟨rfl, rfl⟩ : j1 = j ∧ i1 = i := by
    have h2 := hat1.2.symm.trans hat.2
    exact ⟨congrArg Prod.fst h2, congrArg Prod.snd h2⟩
  have hp : ∀ d, 0 ≤ along (j1, i1) d := fun d => (along_pos (ly := ly) (lx := lx) ⟨b2, b3⟩ ⟨b4, b5⟩ d).1
  have hsl := (rankSlice_eq fl dims (tileShape e (ly, lx) dims) (ly, lx) (j1, i1) false hd.noTile
    (by simp [tileShape]) _).2 ⟨_, accepted fl hfl ly lx hy hx dims e hg, rfl⟩
  rw [slices_map] at hsl
  have h1 : (CubePart.mk ⟨(ly, lx)⟩).tileIndex r = .ok t := hat.1
  have h2 : (CubePart.mk ⟨(ly, lx)⟩).tile.subtileIndex r = (j1, i1) := hat.2
  refine ⟨fun k t' g => if k = iTime ∧ t' = t ∧
      inSlices (dims.map (sliceOf e (ly, lx) (j1, i1))) g = true then
        some (q.val (byName q.dims ((g.zip (dims.map (sliceOf e (ly, lx) (j1, i1)))).map
          fun (x, s) => x - s.start))) else a.data k t' g, ?_, ?_⟩
  · unfold writeRank
    rw [h1, h2, hqd, ha]
    simp only [bind, Except.bind]
    rw [show rankSlice fl dims (tileShape e (ly, lx) dims) (ly, lx) (j1, i1) false = _ from hsl]
    simp only [hqe, lens_ok e (ly, lx) (j1, i1) hp dims, if_true]
    rfl
  · intro k t' g
    have hio := inSlices_iff e (ly, lx) (j1, i1) hp dims g
    simp only [local_eq e (ly, lx) (j1, i1) hp, hqd]
    exact ⟨fun h => if_pos ⟨h.1, h.2.1, hio.2 h.2.2⟩,
      fun h => if_neg (fun h' => h ⟨h'.1, h'.2.1, hio.1 h'.2.2⟩)⟩

include hfl hy hx hd hg in
theorem writes_eq (hJ : ∃ d ∈ dims, d.isJ = true) (hI : ∃ d ∈ dims, d.isI = true)
    (iTime : Nat) (u : String) (q : Int → Fld V) (hq : Fits ⟨⟨(ly, lx)⟩⟩ dims e u q) :
    ∀ (order : List Int) (_ : ∀ r ∈ order, IsRank ⟨⟨(ly, lx)⟩⟩ r) (a : ZArray V)
      (_ : a.dims = dims) (_ : a.shape = tileShape e (ly, lx) dims),
    ∃ f, order.foldlM (fun a r => writeRank ⟨⟨(ly, lx)⟩⟩ fl iTime r (matchDims a.dims (q r)) a) a =
        .ok { a with data := f } ∧
      (∀ k t g, k ≠ iTime → f k t g = a.data k t g) ∧
      (∀ t g r j i, r ∈ order → (CubePart.mk ⟨(ly, lx)⟩).At r t j i →
        Owns e (ly, lx) (j, i) dims g → f iTime t g = some (given e (j, i) dims (q r) g)) ∧
      (∀ t g, (∀ r j i, r ∈ order → (CubePart.mk ⟨(ly, lx)⟩).At r t j i →
        ¬ Owns e (ly, lx) (j, i) dims g) → f iTime t g = a.data iTime t g)
  | [], _, a, _, _ => ⟨a.data, rfl, fun _ _ _ _ => rfl, (fun _ _ _ _ _ h => absurd h (List.not_mem_nil)),
      fun _ _ _ => rfl⟩
  | r :: order, ho, a, had, ha => by
    have hr := ho r (List.mem_cons_self ..)
    obtain ⟨t0, j0, i0, hat0, _⟩ := (C01_cube_positions ly lx hy hx).1 r hr.1 hr.2
    obtain ⟨m1, m2, m3⟩ := matchDims_eq dims e hq r hr
    obtain ⟨f1, hw, hf1⟩ := writeRank_eq fl hfl ly lx hy hx dims hd e hg iTime r t0 j0 i0 hr hat0
      (matchDims dims (q r)) m1 m2 a ha
    obtain ⟨f, hrun, c1, c2, c3⟩ := writes_eq hJ hI iTime u q hq order
      (fun r' h => ho r' (List.mem_cons_of_mem _ h)) { a with data := f1 } had ha
    have hgv : ∀ pos g, given e pos dims (matchDims dims (q r)) g = given e pos dims (q r) g := by
      intro pos g; unfold given; rw [m3]
    refine ⟨f, ?_, ?_, ?_, ?_⟩
    · have hw' : writeRank ⟨⟨(ly, lx)⟩⟩ fl iTime r (matchDims a.dims (q r)) a =
          .ok { a with data := f1 } :=
        (congrArg (fun x => writeRank ⟨⟨(ly, lx)⟩⟩ fl iTime r (matchDims x (q r)) a) had).trans hw
      rw [List.foldlM_cons]
      simp only [hw', bind, Except.bind]
      exact hrun
    · intro k t g hk
      rw [c1 k t g hk]
      exact (hf1 k t g).2 (fun h => hk h.1)
    · intro t g r' j i hr' hat how
      by_cases hlater : r' ∈ order
      · exact c2 t g r' j i hlater hat how
      · have heq : r' = r := (List.mem_cons.1 hr').resolve_right hlater
        subst heq
        have e1 : t0 = t := Except.ok.inj (hat0.1.symm.trans hat.1)
        have e2 : (j0, i0) = (j, i) := hat0.2.symm.trans hat.2
        obtain ⟨e3, e4⟩ := Prod.mk.inj e2
        subst e1; subst e3; subst e4
        have hno : ∀ r'' j i, r'' ∈ order → (CubePart.mk ⟨(ly, lx)⟩).At r'' t0 j i →
            ¬ Owns e (ly, lx) (j, i) dims g := by
          intro r'' j' i' h'' hat'' ho''
          have := owner_unique ly lx hy hx dims e hg hJ hI t0 g r' r'' j0 i0 j' i' hr hat how
            (ho r'' (List.mem_cons_of_mem _ h'')) hat'' ho''
          subst this
          exact hlater h''
        rw [c3 t0 g hno]
        show f1 iTime t0 g = _
        rw [(hf1 iTime t0 g).1 ⟨rfl, rfl, how⟩, hgv]
    · intro t g hno
      rw [c3 t g (fun r' j i h => hno r' j i (List.mem_cons_of_mem _ h))]
      refine (hf1 iTime t g).2 ?_
      rintro ⟨_, rfl, h⟩
      exact hno r j0 i0 (List.mem_cons_self ..) hat0 h

/-- what the array holds after the fields of `qs` -/
def Holds (dims : List Dim) (e : Dim → Int) (u : String)
    (qs : List (Int → Fld V)) (a : ZArray V) : Prop :=
  a.dims = dims ∧ a.units = u ∧ a.nTime = qs.length ∧
  a.shape = tileShape e (ly, lx) dims ∧
  a.chunks = arrayChunks (ly, lx) (tileShape e (ly, lx) dims) dims ∧
  ∀ (k : Nat) (q : Int → Fld V), qs[k]? = some q → ∀ t g r j i, 0 ≤ t → t < 6 →
    InExtent (tileShape e (ly, lx) dims) g → IsRank ⟨⟨(ly, lx)⟩⟩ r →
    (CubePart.mk ⟨(ly, lx)⟩).At r t j i → Owns e (ly, lx) (j, i) dims g →
    a.data k t g = some (given e (j, i) dims (q r) g)

theorem checks_ok {p : CubePart} {u : String} {q : Int → Fld V} (hq : Fits p dims e u q) (a : ZArray V)
    (had : a.dims = dims) (hau : a.units = u) :
    ∀ (order : List Int), (∀ r ∈ order, IsRank p r) →
      (order.forM fun r => check a (q r)) = (.ok () : Except Err Unit)
  | [], _ => rfl
  | r :: order, ho => by
    have hr := ho r (List.mem_cons_self ..)
    have hc : check a (q r) = .ok () := by
      unfold check
      rw [if_neg (fun h => h fun d hd => had ▸ (hq.dims_eq r hr d).1 hd),
        if_neg (fun h => h fun d hd => (hq.dims_eq r hr d).2 (had ▸ hd)),
        if_neg (fun h => h (by rw [hau, hq.units_eq r hr]))]
    show (do check a (q r); order.forM fun r => check a (q r)) = _
    simp only [hc, bind, Except.bind]
    exact checks_ok hq a had hau order (fun r' h => ho r' (List.mem_cons_of_mem _ h))

include hfl hy hx hd hg in
theorem append_step (hJ : ∃ d ∈ dims, d.isJ = true) (hI : ∃ d ∈ dims, d.isI = true) (u : String)
    (w : Writer V) (qs : List (Int → Fld V)) (hi : w.iTime = qs.length)
    (hw : (qs = [] ∧ w.arr = none) ∨ ∃ a, w.arr = some a ∧ Holds ly lx dims e u qs a)
    (order : List Int) (ho : ∀ r, r ∈ order ↔ IsRank ⟨⟨(ly, lx)⟩⟩ r) (q : Int → Fld V)
    (hq : Fits ⟨⟨(ly, lx)⟩⟩ dims e u q) (h0 : qs = [] → (q 0).dims = dims) :
    ∃ a, w.append ⟨⟨(ly, lx)⟩⟩ fl order q = .ok ⟨qs.length + 1, some a⟩ ∧
      Holds ly lx dims e u (qs ++ [q]) a := by
  have hr0 : IsRank ⟨⟨(ly, lx)⟩⟩ 0 := by
    constructor
    · omega
    · have : 0 < ly * lx := Int.mul_pos hy hx
      show 0 < 6 * (ly * lx)
      omega
  -- the array before writing
  have hpre : ∃ a0 a1 : ZArray V, w.start ⟨⟨(ly, lx)⟩⟩ (q 0) = a0 ∧
      a0.dims = dims ∧ a0.units = u ∧
      w.grow ⟨⟨(ly, lx)⟩⟩ (q 0) = a1 ∧
      a1.dims = dims ∧ a1.units = u ∧ a1.nTime = qs.length + 1 ∧
      a1.shape = tileShape e (ly, lx) dims ∧
      a1.chunks = arrayChunks (ly, lx) (tileShape e (ly, lx) dims) dims ∧
      ∀ (k : Nat) (q : Int → Fld V), qs[k]? = some q → ∀ t g r j i, 0 ≤ t → t < 6 →
        InExtent (tileShape e (ly, lx) dims) g → IsRank ⟨⟨(ly, lx)⟩⟩ r →
        (CubePart.mk ⟨(ly, lx)⟩).At r t j i → Owns e (ly, lx) (j, i) dims g →
        a1.data k t g = some (given e (j, i) dims (q r) g) := by
    rcases hw with ⟨hnil, hn⟩ | ⟨a, ha, hH⟩
    · subst hnil
      have hsh : tileExtentFromRank (q 0).dims (q 0).extent (ly, lx) = tileShape e (ly, lx) dims := by
        rw [hq.extent_eq 0 hr0, h0 rfl, tileShape_eq]
      have hst : w.start ⟨⟨(ly, lx)⟩⟩ (q 0) = initZarr ⟨⟨(ly, lx)⟩⟩ (q 0) := by
        unfold Writer.start; rw [hn]
      refine ⟨_, _, hst, h0 rfl, hq.units_eq 0 hr0, rfl, ?_⟩
      · unfold Writer.grow
        rw [hst]
        have : ¬ (initZarr (V := V) ⟨⟨(ly, lx)⟩⟩ (q 0)).nTime ≤ w.iTime := by
          rw [hi]; show ¬ 1 ≤ 0; omega
        rw [if_neg this]
        refine ⟨h0 rfl, hq.units_eq 0 hr0, rfl, hsh, ?_, ?_⟩
        · show arrayChunks (ly, lx) (tileExtentFromRank (q 0).dims (q 0).extent (ly, lx)) (q 0).dims = _
          rw [hsh, h0 rfl]
        · intro k q' h; simp at h
    · obtain ⟨c1, c2, c3, c4, c5, c6⟩ := hH
      obtain ⟨m1, m2, _⟩ := matchDims_eq dims e hq 0 hr0
      have hst : w.start ⟨⟨(ly, lx)⟩⟩ (q 0) = a := by
        unfold Writer.start; rw [ha]
      refine ⟨_, _, hst, c1, c2, rfl, ?_⟩
      · unfold Writer.grow
        rw [hst, if_pos (by omega), c1]
        have hsh : tileExtentFromRank (matchDims dims (q 0)).dims (matchDims dims (q 0)).extent (ly, lx) =
            tileShape e (ly, lx) dims := by rw [m1, m2, tileShape_eq]
        refine ⟨c1, c2, by rw [← hi]; rfl, hsh, c5, ?_⟩
        intro k q' hk t g r j i ht0 ht1 hin hr hat how
        have hkl : k < qs.length := by
          rcases Nat.lt_or_ge k qs.length with h | h
          · exact h
          · rw [List.getElem?_eq_none h] at hk; cases hk
        show (if k < w.iTime + 1 ∧ inShape (tileExtentFromRank (matchDims dims (q 0)).dims
          (matchDims dims (q 0)).extent (ly, lx)) g = true then a.data k t g else none) = _
        rw [hsh, if_pos ⟨by omega, (inShape_iff _ _).2 hin⟩]
        exact c6 k q' hk t g r j i ht0 ht1 hin hr hat how
  obtain ⟨a0, a1, e0, d1, d2, e1, f1, f2, f3, f4, f5, f6⟩ := hpre
  obtain ⟨f, hrun, g1, g2, _⟩ := writes_eq fl hfl ly lx hy hx dims hd e hg hJ hI w.iTime u q hq order
    (fun r h => (ho r).1 h) a1 f1 f4
  refine ⟨{ a1 with data := f }, ?_, f1, f2, by rw [List.length_append]; exact f3, f4, f5, ?_⟩
  · unfold Writer.append
    rw [e0, checks_ok dims e hq a0 d1 d2 order (fun r h => (ho r).1 h)]
    simp only [bind, Except.bind]
    simp only [e1, hrun]
    rw [hi]
    rfl
  · intro k q' hk t g r j i ht0 ht1 hin hr hat how
    by_cases hkl : k < qs.length
    · rw [List.getElem?_append_left hkl] at hk
      show f k t g = _
      rw [g1 k t g (by omega)]
      exact f6 k q' hk t g r j i ht0 ht1 hin hr hat how
    · rw [List.getElem?_append_right (by omega)] at hk
      have hk0 : k - qs.length = 0 := by
        rcases Nat.eq_zero_or_pos (k - qs.length) with h | h
        · exact h
        · rw [List.getElem?_eq_none (by simp only [List.length_singleton]; omega)] at hk; cases hk
      rw [hk0] at hk
      have : q = q' := by simpa using hk
      subst this
      have hkt : k = w.iTime := by omega
      subst hkt
      exact g2 t g r j i ((ho r).2 hr) hat how

include hfl hy hx hd hg in
/-- C59: after any number of stores of a field by all ranks, in any order of the ranks, the array has
one time index for every store, and at each time index, tile and point it holds the value given, in
that store, by the one rank the point belongs to. The order of the dimensions may differ between
stores and ranks. -/
theorem C59_stored (hJ : ∃ d ∈ dims, d.isJ = true) (hI : ∃ d ∈ dims, d.isI = true) (u : String)
    (qs : List (List Int × (Int → Fld V))) (hne : qs ≠ [])
    (hord : ∀ s ∈ qs, ∀ r, r ∈ s.1 ↔ IsRank ⟨⟨(ly, lx)⟩⟩ r)
    (hq : ∀ s ∈ qs, Fits ⟨⟨(ly, lx)⟩⟩ dims e u s.2)
    (h0 : ∀ s, qs.head? = some s → (s.2 0).dims = dims) :
    ∃ a, (Writer.new : Writer V).run ⟨⟨(ly, lx)⟩⟩ fl qs = .ok ⟨qs.length, some a⟩ ∧
      a.dims = dims ∧ a.units = u ∧ a.nTime = qs.length ∧ a.shape = tileShape e (ly, lx) dims ∧
      ∀ (k : Nat) (s : List Int × (Int → Fld V)), qs[k]? = some s →
        ∀ t g, 0 ≤ t → t < 6 → InExtent a.shape g →
          ∃ r j i, (IsRank ⟨⟨(ly, lx)⟩⟩ r ∧ (CubePart.mk ⟨(ly, lx)⟩).At r t j i ∧
              Owns e (ly, lx) (j, i) dims g) ∧
            (∀ r' j' i', IsRank ⟨⟨(ly, lx)⟩⟩ r' → (CubePart.mk ⟨(ly, lx)⟩).At r' t j' i' →
              Owns e (ly, lx) (j', i') dims g → r' = r) ∧
            a.data k t g = some ((s.2 r).val (byName dims (localIndex e (j, i) dims g))) := by
  have key : ∀ (rest done : List (List Int × (Int → Fld V))) (w : Writer V),
      qs = done ++ rest → w.iTime = done.length →
      ((done.map Prod.snd = [] ∧ w.arr = none) ∨
        ∃ a, w.arr = some a ∧ Holds ly lx dims e u (done.map Prod.snd) a) →
      ∃ w', w.run ⟨⟨(ly, lx)⟩⟩ fl rest = .ok w' ∧ w'.iTime = qs.length ∧
        ((qs.map Prod.snd = [] ∧ w'.arr = none) ∨
          ∃ a, w'.arr = some a ∧ Holds ly lx dims e u (qs.map Prod.snd) a) := by
    intro rest
    induction rest with
    | nil =>
      intro done w h1 h2 h3
      rw [List.append_nil] at h1
      subst h1
      exact ⟨w, rfl, h2, h3⟩
    | cons s rest ih =>
      intro done w h1 h2 h3
      have hs : s ∈ qs := by rw [h1]; simp
      obtain ⟨a, hap, hH⟩ := append_step fl hfl ly lx hy hx dims hd e hg hJ hI u w (done.map Prod.snd)
        (by rw [List.length_map]; exact h2) h3 s.1 (hord s hs) s.2 (hq s hs) (by
          intro hnil
          have : done = [] := by simpa using hnil
          subst this
          exact h0 s (by rw [h1]; rfl))
      obtain ⟨w', hr, h4, h5⟩ := ih (done ++ [s]) ⟨(done.map Prod.snd).length + 1, some a⟩
        (by rw [h1]; simp) (by simp) (Or.inr ⟨a, rfl, by
          rw [List.map_append]; exact hH⟩)
      refine ⟨w', ?_, h4, h5⟩
      unfold Writer.run at hr ⊢
      rw [List.foldlM_cons]
      simp only [hap, bind, Except.bind]
      exact hr
  obtain ⟨w', hr, h4, h5⟩ := key qs [] Writer.new rfl rfl (Or.inl ⟨rfl, rfl⟩)
  rcases h5 with ⟨h, _⟩ | ⟨a, ha, c1, c2, c3, c4, c5, c6⟩
  · exact absurd (by simpa using h) hne
  · refine ⟨a, ?_, c1, c2, by simpa using c3, c4, ?_⟩
    · rw [hr, ← h4, ← ha]
    · intro k s hk t g ht0 ht1 hin
      rw [c4] at hin
      obtain ⟨r, j, i, hrk, hat, how⟩ := owner fl hfl ly lx hy hx dims hd e hg hJ hI t g ⟨ht0, ht1⟩ hin
      refine ⟨r, j, i, ⟨hrk, hat, how⟩, ?_, ?_⟩
      · intro r' j' i' hr' hat' how'
        exact owner_unique ly lx hy hx dims e hg hJ hI t g r' r j' i' j i hr' hat' how' hrk hat how
      · exact c6 k s.2 (by rw [List.getElem?_map, hk]; rfl) t g r j i ht0 ht1 hin hrk hat how

include hfl hy hx hd hg in
/-- C59, as the user sees it: when the fields of the ranks are their parts of one field on the tiles,
the array holds that field at each time index. -/
theorem C59_global_field (hJ : ∃ d ∈ dims, d.isJ = true) (hI : ∃ d ∈ dims, d.isI = true) (u : String)
    (qs : List (List Int × (Int → Fld V))) (hne : qs ≠ [])
    (hord : ∀ s ∈ qs, ∀ r, r ∈ s.1 ↔ IsRank ⟨⟨(ly, lx)⟩⟩ r)
    (hq : ∀ s ∈ qs, Fits ⟨⟨(ly, lx)⟩⟩ dims e u s.2)
    (h0 : ∀ s, qs.head? = some s → (s.2 0).dims = dims)
    (G : Nat → Int → List Int → V)
    (hG : ∀ k s, qs[k]? = some s → ∀ r t j i, IsRank ⟨⟨(ly, lx)⟩⟩ r →
      (CubePart.mk ⟨(ly, lx)⟩).At r t j i → ∀ l, InExtent (dims.map e) l →
        (s.2 r).val (byName dims l) = G k t (List.zipWith (fun d x => x + origin e (j, i) d) dims l)) :
    ∃ a, (Writer.new : Writer V).run ⟨⟨(ly, lx)⟩⟩ fl qs = .ok ⟨qs.length, some a⟩ ∧
      a.nTime = qs.length ∧ a.shape = tileShape e (ly, lx) dims ∧
      ∀ k t g, k < qs.length → 0 ≤ t → t < 6 → InExtent a.shape g →
        a.data k t g = some (G k t g) := by
  obtain ⟨a, hr, z1, _, c3, c4, c5⟩ := C59_stored fl hfl ly lx hy hx dims hd e hg hJ hI u qs hne hord hq h0
  refine ⟨a, hr, c3, c4, ?_⟩
  intro k t g hk ht0 ht1 hin
  obtain ⟨r, j, i, ⟨hrk, hat, how⟩, z2, hval⟩ := c5 k qs[k] (List.getElem?_eq_getElem hk) t g ht0 ht1 hin
  rw [hval, hG k qs[k] (List.getElem?_eq_getElem hk) r t j i hrk hat]
  · congr 2
    clear hval hin hG hJ hI hg hd c5 c4 hq h0 z1 z2
    induction dims generalizing g with
    | nil => cases how; rfl
    | cons d ds ih =>
      cases how with
      | cons a b =>
        have := ih _ b
        unfold localIndex at this ⊢
        simp only [List.zip_cons_cons, List.map_cons, List.zipWith_cons_cons, this]
        congr 1
        omega
  · clear hval hin hG hJ hI hd c5 c4 hq h0 z1 z2
    unfold InExtent
    induction dims generalizing g with
    | nil => cases how; exact .nil
    | cons d ds ih =>
      cases how with
      | @cons _ x _ _ a b =>
        refine .cons ?_ (ih (fun d' h => hg d' (List.mem_cons_of_mem _ h)) _ b)
        show 0 ≤ x - origin e (j, i) d ∧ x - origin e (j, i) d < e d
        unfold OwnsDim at a
        split at a
        · rename_i h
          have hc : (cellsOf d (e d) = e d - 1 ∧ d.isInterface = true) ∨
              (cellsOf d (e d) = e d ∧ ¬ d.isInterface = true) := by
            unfold cellsOf; split
            · exact Or.inl ⟨rfl, ‹_›⟩
            · exact Or.inr ⟨rfl, ‹_›⟩
          rcases hc with ⟨h1, h2⟩ | ⟨h1, h2⟩ <;> rcases a with ⟨a, b | b⟩ <;> first | omega | skip
          exact absurd b.1 h2
        · rename_i h
          unfold origin
          rw [if_neg h]
          omega

end

/-- index of the chunk a point lies in -/
def chunkOf (chunks g : List Int) : List Int := (g.zip chunks).map fun (x, c) => x / c

theorem arrayChunks_eq (e : Dim → Int) (ly lx : Int) (hy : 0 < ly) (hx : 0 < lx) :
    ∀ dims : List Dim, arrayChunks (ly, lx) (tileShape e (ly, lx) dims) dims =
      dims.map fun d => cellsOf d (e d)
  | [] => rfl
  | d :: ds => by
    have ih := arrayChunks_eq e ly lx hy hx ds
    simp only [arrayChunks, tileShape, listByDims, List.map_cons, List.zip_cons_cons] at ih ⊢
    rw [ih]
    congr 1
    unfold along
    generalize cellsOf d (e d) = w
    have h1 : w * ly / ly = w := Int.mul_ediv_cancel _ (by omega)
    have h2 : w * lx / lx = w := Int.mul_ediv_cancel _ (by omega)
    cases d <;> simp [Dim.isHorizontal, Dim.isJ, Dim.isI, Dim.isInterface, h1, h2]

/-- C59, chunks: the array is divided into chunks of the size of the ranks, so that no two ranks of a
tile write to the same chunk. -/
theorem C59_chunks (ly lx : Int) (hy : 0 < ly) (hx : 0 < lx) (dims : List Dim) (e : Dim → Int)
    (hg : GoodExtents dims e) (hJ : ∃ d ∈ dims, d.isJ = true) (hI : ∃ d ∈ dims, d.isI = true)
    {V : Type} (q : Fld V) (hqd : q.dims = dims) (hqe : q.extent = dims.map e)
    (t r r' j i j' i' : Int) (g g' : List Int) :
    let p : CubePart := ⟨⟨(ly, lx)⟩⟩
    IsRank p r → p.At r t j i → Owns e (ly, lx) (j, i) dims g →
    IsRank p r' → p.At r' t j' i' → Owns e (ly, lx) (j', i') dims g' →
    chunkOf (initZarr p q).chunks g = chunkOf (initZarr p q).chunks g' → r = r' := by
  intro p hr hat ho hr' hat' ho' hch
  have hc : (initZarr p q).chunks = dims.map fun d => cellsOf d (e d) := by
    show arrayChunks (ly, lx) (tileExtentFromRank q.dims q.extent (ly, lx)) q.dims = _
    rw [hqd, hqe, tileShape_eq, arrayChunks_eq e ly lx hy hx]
  rw [hc] at hch
  obtain ⟨t1, j1, i1, hat1, b0, b1, b2, b3, b4, b5, _⟩ := (C01_cube_positions ly lx hy hx).1 r hr.1 hr.2
  obtain ⟨t2, j2, i2, hat2, c0, c1, c2, c3, c4, c5, _⟩ := (C01_cube_positions ly lx hy hx).1 r' hr'.1 hr'.2
  obtain ⟨rfl, rfl, rfl⟩ : t1 = t ∧ j1 = j ∧ i1 = i := by
    have h1 := hat1.1.symm.trans hat.1
    have h2 := hat1.2.symm.trans hat.2
    exact ⟨Except.ok.inj h1, congrArg Prod.fst h2, congrArg Prod.snd h2⟩
  obtain ⟨rfl, rfl, rfl⟩ : t2 = t1 ∧ j2 = j' ∧ i2 = i' := by
    have h1 := hat2.1.symm.trans hat'.1
    have h2 := hat2.2.symm.trans hat'.2
    exact ⟨Except.ok.inj h1, congrArg Prod.fst h2, congrArg Prod.snd h2⟩
  have key : ∀ d ∈ dims, d.isHorizontal = true → along (j1, i1) d = along (j2, i2) d := by
    intro d hd hh
    have hex : ∃ x x', OwnsDim e (ly, lx) (j1, i1) d x ∧ OwnsDim e (ly, lx) (j2, i2) d x' ∧
        x / cellsOf d (e d) = x' / cellsOf d (e d) := by
      clear hg hJ hI hqd hqe hc
      induction dims generalizing g g' with
      | nil => cases hd
      | cons d' ds ih =>
        cases ho with
        | cons a b =>
          cases ho' with
          | cons a' b' =>
            simp only [chunkOf, List.map_cons, List.zip_cons_cons, List.cons.injEq] at hch
            rcases List.mem_cons.1 hd with rfl | h
            · exact ⟨_, _, a, a', hch.1⟩
            · exact ih _ _ hch.2 b b' h
    obtain ⟨x, x', h1, h2, h3⟩ := hex
    have hw := (hg d hd).1 hh
    unfold OwnsDim at h1 h2
    rw [if_pos hh] at h1 h2
    unfold origin at h1 h2
    rw [if_pos hh] at h1 h2
    have ra := along_pos (ly := ly) (lx := lx) ⟨b2, b3⟩ ⟨b4, b5⟩ d
    have rb := along_pos (ly := ly) (lx := lx) ⟨c2, c3⟩ ⟨c4, c5⟩ d
    generalize along (j1, i1) d = A at *
    generalize along (j2, i2) d = B at *
    generalize cellsOf d (e d) = w at *
    generalize along (ly, lx) d = C at *
    have div : ∀ (A y : Int), A * w ≤ y → y < A * w + w → y / w = A := by
      intro A y k1 k2
      rw [Int.ediv_eq_iff_of_pos (by omega)]
      exact ⟨k1, k2⟩
    have div2 : ∀ (A y : Int), y = A * w + w → y / w = A + 1 := by
      intro A y k
      rw [k]
      have : A * w + w = (A + 1) * w := by rw [Int.add_mul, Int.one_mul]
      rw [this, Int.mul_ediv_cancel _ (by omega)]
    rcases h1 with ⟨u1, v1 | v1⟩ <;> rcases h2 with ⟨u2, v2 | v2⟩
    · rw [div A x u1 v1, div B x' u2 v2] at h3; exact h3
    · rw [div A x u1 v1, div2 B x' v2.2.2] at h3; omega
    · rw [div2 A x v1.2.2, div B x' u2 v2] at h3; omega
    · omega
  have hjj : j1 = j2 := by
    obtain ⟨d, hd, hdj⟩ := hJ
    have := key d hd (by simp [Dim.isHorizontal, hdj])
    simpa [along, hdj] using this
  have hii : i1 = i2 := by
    obtain ⟨d, hd, hdi⟩ := hI
    have := key d hd (by simp [Dim.isHorizontal, hdi])
    have hnj : d.isJ = false := not_isJ hdi
    simpa [along, hnj] using this
  subst hjj; subst hii
  obtain ⟨r0, _, hu⟩ := (C01_cube_positions ly lx hy hx).2 t2 j1 i1 b0 b1 b2 b3 b4 b5
  rw [hu r hr.1 hr.2 hat, hu r' hr'.1 hr'.2 hat']

/-- C59: a field with other dimensions, or other units, than the first, on some rank, is rejected. -/
theorem C59_rejects {V : Type} (p : CubePart) (fl : FloatOps) (order : List Int) (w : Writer V)
    (a : ZArray V) (hw : w.arr = some a) (q : Int → Fld V) (r : Int) (hr : r ∈ order)
    (hbad : (∃ d, ¬ (d ∈ (q r).dims ↔ d ∈ a.dims)) ∨ (q r).units ≠ a.units) :
    w.append p fl order q = .error .valueError := by
  have hall : ∀ r, check a (q r) = .ok () ∨ check a (q r) = .error .valueError := by
    intro r; unfold check
    split
    · exact Or.inr rfl
    · split
      · exact Or.inr rfl
      · split
        · exact Or.inr rfl
        · exact Or.inl rfl
  have hone : check a (q r) = .error .valueError := by
    unfold check
    split
    · rfl
    · rename_i h1
      split
      · rfl
      · rename_i h2
        rw [if_pos]
        rcases hbad with ⟨d, hd⟩ | h
        · exfalso
          have h1' := Classical.not_not.1 h1
          have h2' := Classical.not_not.1 h2
          exact hd ⟨h1' d, h2' d⟩
        · exact fun h' => h h'.symm
  have hfor : ∀ order : List Int, r ∈ order →
      (order.forM fun r => check a (q r)) = (.error .valueError : Except Err Unit) := by
    intro order
    induction order with
    | nil => intro h; cases h
    | cons r' rest ih =>
      intro h
      show (do check a (q r'); rest.forM fun r => check a (q r)) = _
      rcases hall r' with h' | h'
      · rw [h']
        simp only [bind, Except.bind]
        rcases List.mem_cons.1 h with rfl | h2
        · rw [hone] at h'; cases h'
        · exact ih h2
      · rw [h']; rfl
  unfold Writer.append
  have : w.start p (q 0) = a := by unfold Writer.start; rw [hw]
  rw [this, hfor order hr]
  rfl

/-- C59: after the first store a state must have the same names, "time" among them. -/
theorem C59_names (keys : List String) (w : List String) (h : ensureWriters none keys = .ok w)
    (keys' : List String) :
    (ensureWriters (some w) keys' = .ok w ↔ ∀ k, k ∈ keys' ↔ (k ∈ keys ∨ k = "time")) ∧
    (ensureWriters (some w) keys' ≠ .ok w → ensureWriters (some w) keys' = .error .valueError) := by
  have hw : ∀ k, k ∈ w ↔ (k ∈ keys ∨ k = "time") := by
    intro k
    have := Except.ok.inj h
    rw [← this]
    by_cases hk : k = "time" <;> simp [hk]
  unfold ensureWriters
  simp only
  split
  · rename_i h1
    refine ⟨⟨(fun h => by cases h), fun h => absurd ?_ h1⟩, fun _ => rfl⟩
    intro k hk; exact (hw k).2 ((h k).1 hk)
  · split
    · rename_i h2
      refine ⟨⟨(fun h => by cases h), fun h => absurd ?_ h2⟩, fun _ => rfl⟩
      intro k hk; exact (h k).2 ((hw k).1 hk)
    · rename_i h1 h2
      have h1' := Classical.not_not.1 h1
      have h2' := Classical.not_not.1 h2
      refine ⟨⟨fun _ k => ?_, fun _ => rfl⟩, fun h => absurd rfl h⟩
      rw [← hw k]
      exact ⟨h1' k, h2' k⟩

/-- Not so for a state without time: it is accepted at first and rejected when stored again. -/
theorem C59_time_violated :
    ensureWriters none ["u"] = .ok ["u", "time"] ∧
    ensureWriters (some ["u", "time"]) ["u"] = .error .valueError := by decide

/-- C59: constants are written once: a list of names is accepted if and only if no name occurs twice
or was written before. -/
theorem C59_constants (cs names : List String) :
    storeConstant cs names =
      if names.Nodup ∧ ∀ n ∈ names, n ∉ cs then .ok (cs ++ names) else .error .runtimeError := by
  induction names generalizing cs with
  | nil => simp [storeConstant]; rfl
  | cons n ns ih =>
    unfold storeConstant at ih ⊢
    rw [List.foldlM_cons]
    by_cases hn : n ∈ cs
    · simp only [hn, if_true, bind, Except.bind]
      rw [if_neg]
      rintro ⟨_, h⟩
      exact h n (List.mem_cons_self ..) hn
    · simp only [hn, if_false, bind, Except.bind]
      rw [ih]
      have : (ns.Nodup ∧ ∀ m ∈ ns, m ∉ cs ++ [n]) ↔ ((n :: ns).Nodup ∧ ∀ m ∈ n :: ns, m ∉ cs) := by
        simp only [List.nodup_cons, List.mem_append, List.mem_cons, List.not_mem_nil, or_false]
        constructor
        · rintro ⟨h1, h2⟩
          refine ⟨⟨fun h => h2 n h (Or.inr rfl), h1⟩, ?_⟩
          rintro m (rfl | h)
          · exact hn
          · exact fun h' => h2 m h (Or.inl h')
        · rintro ⟨⟨h1, h2⟩, h3⟩
          refine ⟨h2, ?_⟩
          rintro m h (h' | h')
          · exact h3 m (Or.inr h) h'
          · subst h'; exact h1 h
      by_cases hc : (n :: ns).Nodup ∧ ∀ m ∈ n :: ns, m ∉ cs
      · rw [if_pos (this.2 hc), if_pos hc]; simp
      · rw [if_neg (fun h => hc (this.1 h)), if_neg hc]

/-- one tile per rank, `n` points each way -/
def demoFld (n : Int) (r : Int) : Fld Int :=
  ⟨[.j, .i], [n, n], "m", fun f => 100 * r + 10 * f .j + f .i⟩

/-- The extents of later fields are not checked: a smaller one cuts the array, and with it what was
stored before. -/
theorem C59_extents_violated :
    let o : List Int := [0, 1, 2, 3, 4, 5]
    let p : CubePart := ⟨⟨(1, 1)⟩⟩
    (((Writer.new : Writer Int).run p exactOps [(o, demoFld 2)]).map fun w =>
      w.arr.map fun a => (a.shape, a.data 0 3 [1, 0])) = .ok (some ([2, 2], some 310)) ∧
    (((Writer.new : Writer Int).run p exactOps [(o, demoFld 2), (o, demoFld 1)]).map fun w =>
      w.arr.map fun a => (a.shape, a.data 0 3 [1, 0])) = .ok (some ([1, 1], none)) := by
  decide +kernel

/-- two ranks along y: 24 values per tile, the middle line from the upper rank; the ranks write in
reverse order; the second store has its dimensions in another order -/
example :
    let o : List Int := (List.range 12).map fun (n : Nat) => (n : Int)
    let p : CubePart := ⟨⟨(2, 1)⟩⟩
    let f : Int → Fld Int := fun r =>
      ⟨[.jInterface, .i], [3, 4], "m", fun f => 100 * r + 10 * f .jInterface + f .i⟩
    let f' : Int → Fld Int := fun r =>
      ⟨[.i, .jInterface], [4, 3], "m", fun f => 1000 + 100 * r + 10 * f .jInterface + f .i⟩
    (((Writer.new : Writer Int).run p exactOps [(o, f), (o.reverse, f')]).map fun w =>
      w.arr.map fun a => (a.shape, a.chunks, [a.data 0 2 [1, 3], a.data 0 2 [2, 0],
        a.data 1 2 [2, 0], a.data 1 2 [4, 3]])) =
      .ok (some ([5, 4], [2, 4], [some 413, some 500, some 1500, some 1523])) := by
  decide +kernel

/-- such fields meet the hypotheses of `C59_stored` -/
example : let f : Int → Fld Int := fun r =>
      ⟨[.jInterface, .i], [3, 4], "m", fun f => 100 * r + 10 * f .jInterface + f .i⟩
    let e : Dim → Int := fun d => if d = .i then 4 else 3
    Fits ⟨⟨(2, 1)⟩⟩ [.jInterface, .i] e "m" f ∧ GoodExtents [.jInterface, .i] e ∧
      TileDims [.jInterface, .i] ∧ EvenOps exactOps := by
  refine ⟨⟨fun _ _ _ => Iff.rfl, fun _ _ => rfl, fun _ _ => rfl⟩, by unfold GoodExtents; decide,
    ⟨by decide, by decide, by decide⟩, ?_⟩
  intro c w hc _
  simp only [exactOps]
  constructor
  · rw [show 2 * (c * w) + c = c + w * (2 * c) by ring, Int.add_mul_ediv_right _ _ (by omega),
      Int.ediv_eq_zero_of_lt (by omega) (by omega)]; omega
  · rw [show c * w - 2 * w = w * (c - 2) by ring, Int.mul_ediv_cancel _ (by omega)]

end NDSL.Zarr
