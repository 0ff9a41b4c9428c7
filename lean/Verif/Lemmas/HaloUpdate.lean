import Verif.Lemmas.Exchange

/-! A whole scalar or vector update as successive deliveries. -/
namespace NDSL
open NArr

/-- regions of a boundary -/
abbrev recvR (n : Int) (b : Boundary) (ds : List DimSpec) : List Slice := ds.map (win b.btype n false)
abbrev sendR (n : Int) (b : Boundary) (ds : List DimSpec) : List Slice := ds.map (win b.btype n true)

/-- exchange specification of a boundary -/
abbrev info (n : Int) (b : Boundary) (ds : List DimSpec) : ExSpec := ⟨sendR n b ds, b.rot, recvR n b ds⟩

/-- the array of the quantity has room for `n` halo points, and the compute domain has enough points
to send them -/
def Room (n : Int) (ds : List DimSpec) : Prop := ∀ d ∈ ds,
  (if d.dim.isHorizontal then n else 0) ≤ d.origin ∧
  d.origin + d.extent + (if d.dim.isHorizontal then n else 0) ≤ d.shape ∧
  (if d.dim.isHorizontal then n + (if d.dim.isInterface then 1 else 0) else 0) ≤ d.extent

theorem Room.win {n : Int} (hn : 0 ≤ n) {ds : List DimSpec} (h : Room n ds) {d : DimSpec}
    (hd : d ∈ ds) (b : BType) (i : Bool) :
    0 ≤ (win b n i d).start ∧ (NDSL.win b n i d).stop ≤ d.shape ∧
      (NDSL.win b n i d).start ≤ (NDSL.win b n i d).stop := by
  obtain ⟨h1, h2, h3⟩ := h d hd
  by_cases hh : d.dim.isHorizontal = true
  · simp only [hh, if_true] at h1 h2 h3
    have hov : (if d.dim.isInterface = true then (1 : Int) else 0) = 0 ∨
      (if d.dim.isInterface = true then (1 : Int) else 0) = 1 := by split <;> simp
    generalize ho : (if d.dim.isInterface = true then (1 : Int) else 0) = ov at h3 hov
    rcases along_cases b d.dim with h | h | h
    · rw [win_zero h]; simp only; omega
    · rw [win_start h, ho]; cases i <;> simp <;> omega
    · rw [win_end h, ho]; cases i <;> simp <;> omega
  · have hh' : d.dim.isHorizontal = false := by simpa using hh
    simp only [hh'] at h1 h2 h3
    rw [win_zero (along_not_horizontal b d.dim hh')]
    simp at h1 h2 h3 ⊢
    omega

theorem Room.fwd {n : Int} (hn : 0 ≤ n) {ds : List DimSpec} (h : Room n ds) (b : BType) (i : Bool) :
    Fwd (ds.map (NDSL.win b n i)) := by
  intro s hs
  obtain ⟨d, hd, rfl⟩ := List.mem_map.1 hs
  exact (h.win hn hd b i).2.2

theorem exSpec_ok {n : Int} (hn : 0 ≤ n) {ds : List DimSpec} (h : Room n ds) (b : Boundary) :
    exSpec b n ds = .ok (info n b ds) := by
  unfold exSpec
  have h1 := (boundarySlice_ok b.btype n true ds (sendR n b ds)).2
    ⟨rfl, fun d hd => ⟨(h.win hn hd _ _).1, (h.win hn hd _ _).2.1⟩⟩
  have h2 := (boundarySlice_ok b.btype n false ds (recvR n b ds)).2
    ⟨rfl, fun d hd => ⟨(h.win hn hd _ _).1, (h.win hn hd _ _).2.1⟩⟩
  rw [h1, h2]
  rfl

/-- send and receive regions have the same shape -/
theorem shape_send_recv (n : Int) (b : BType) (ds : List DimSpec) :
    shapeOf (ds.map (win b n true)) = shapeOf (ds.map (win b n false)) := by
  simp only [shapeOf, List.map_map]
  apply List.map_congr_left
  intro d _
  have h1 := win_len b n true d
  have h2 := win_len b n false d
  unfold Slice.len at h1 h2
  simp only [Function.comp]
  rw [h1, h2]

theorem packBufferSize_sum (infos : List ExSpec) :
    packBufferSize infos = (infos.map fun i => slicesSize i.packSlices).sum := by
  have gen : ∀ (l : List ExSpec) (a : Int), l.foldl (fun n i => n + slicesSize i.packSlices) a =
      a + (l.map fun i => slicesSize i.packSlices).sum := by
    intro l
    induction l with
    | nil => intro a; simp
    | cons x l ih => intro a; rw [List.foldl_cons, ih]; simp; omega
  unfold packBufferSize
  rw [gen]; omega

theorem flatMap_len {α : Type} : ∀ (vs : List (NArr α)) (sls : List (List Slice)),
    List.Forall₂ (fun (v : NArr α) sl => v.shape = shapeOf sl) vs sls →
    ((vs.flatMap NArr.flatten).length : Int) = (sls.map fun sl => size (shapeOf sl)).sum
  | [], [], _ => by simp
  | v :: vs, sl :: sls, h => by
    cases h with
    | cons h0 h =>
      have hn : NonNeg v.shape := h0 ▸ shapeOf_nonneg sl
      have h1 := flatten_length hn
      have h2 := size_nonneg hn
      have ih := flatMap_len vs sls h
      rw [List.flatMap_cons, List.length_append, List.map_cons, List.sum_cons]
      push_cast
      rw [ih, h1, ← h0]
      omega
  | [], _ :: _, h => by cases h
  | _ :: _, [], h => by cases h

section
variable {α : Type} [Inhabited α]

/-- arrays received through boundary `b` whose sender uses boundary `b'` -/
def incoming (n : Int) (b' : Boundary) (qs : List (Qty α)) : List (NArr α) :=
  qs.map fun q => sentView (q, info n b' q.ds)

theorem message_incoming (n : Int) (b' : Boundary) (qs : List (Qty α)) :
    message (qs.zip (qs.map fun q => info n b' q.ds)) = (incoming n b' qs).flatMap NArr.flatten := by
  unfold message incoming
  induction qs with
  | nil => rfl
  | cons q qs ih =>
    simp only [List.map_cons, List.zip_cons_cons, List.flatMap_cons, ih]

structure Setting (topo : Int → Except Err (List Boundary)) (bnd : Int → List Boundary)
    (partner : Boundary → Boundary) (r : Int) : Prop where
  topo : ∀ s, (s = r ∨ ∃ b ∈ bnd r, b.toRank = s) → topo s = .ok (bnd s) ∧
    ((bnd s).map (·.toRank)).Nodup
  partner : ∀ b ∈ bnd r, partner b ∈ bnd b.toRank ∧ (partner b).toRank = r

theorem zip_fst {β γ : Type} : ∀ {l : List β} {m : List γ}, m.length = l.length →
    (l.zip m).map Prod.fst = l
  | [], [], _ => rfl
  | a :: l, b :: m, h => by simp [zip_fst (l := l) (m := m) (by simpa using h)]
  | [], _ :: _, h => by simp at h
  | _ :: _, [], h => by simp at h

theorem zip_snd {β γ : Type} : ∀ {l : List β} {m : List γ}, m.length = l.length →
    (l.zip m).map Prod.snd = m
  | [], [], _ => rfl
  | a :: l, b :: m, h => by simp [zip_snd (l := l) (m := m) (by simpa using h)]
  | [], _ :: _, h => by simp at h
  | _ :: _, [], h => by simp at h

theorem packScalar_ok {n : Int} (hn : 0 ≤ n) (qs : List (Qty α)) (b : Boundary)
    (hr : ∀ q ∈ qs, Room n q.ds) (junk : Nat → α) :
    (scalarCodec α).pack qs (qs.map fun q => info n b q.ds)
      (junkBuf junk ((scalarCodec α).size (qs.map fun q => info n b q.ds))) =
      .ok ((incoming n b qs).flatMap NArr.flatten) := by
  have hw : ∀ s ∈ qs.zip (qs.map fun q => info n b q.ds), WfPack s.1.ds s.2.packSlices := by
    intro s hs
    obtain ⟨k, hk, rfl⟩ := List.getElem_of_mem hs
    simp only [List.getElem_zip, List.getElem_map]
    exact ⟨by simp, (hr _ (List.getElem_mem _)).fwd hn _ _⟩
  have hl : (qs.map fun q => info n b q.ds).length = qs.length := by simp
  have hlen := message_length _ hw
  rw [zip_snd hl] at hlen
  have := packScalar_eq (qs.zip (qs.map fun q => info n b q.ds))
    (junkBuf junk ((scalarCodec α).size (qs.map fun q => info n b q.ds))) hw (by
      rw [zip_snd hl]
      unfold junkBuf
      show (((List.range (packBufferSize (qs.map fun q => info n b q.ds)).toNat).map junk).length : Int)
        = _
      rw [List.length_map, List.length_range]
      omega)
  rw [zip_fst hl, zip_snd hl, message_incoming] at this
  exact this

theorem recv_size {n : Int} (hn : 0 ≤ n) (qs : List (Qty α)) (b : Boundary)
    (hr : ∀ q ∈ qs, Room n q.ds) (vs : List (NArr α))
    (hv : List.Forall₂ (fun (v : NArr α) q => v.shape = shapeOf (recvR n b q.ds)) vs qs) :
    (vs.flatMap NArr.flatten).length = (scalarCodec α).size (qs.map fun q => info n b q.ds) := by
  have h1 := flatMap_len vs (qs.map fun q => recvR n b q.ds) (by
    rw [List.forall₂_map_right_iff]; exact hv)
  show _ = (packBufferSize _).toNat
  rw [packBufferSize_sum, List.map_map]
  rw [List.map_map] at h1
  have : (qs.map ((fun i => slicesSize i.packSlices) ∘ fun q => info n b q.ds)) =
      qs.map ((fun sl => size (shapeOf sl)) ∘ fun q => recvR n b q.ds) := by
    apply List.map_congr_left
    intro q hq
    simp only [Function.comp]
    rw [slicesSize_eq ((hr q hq).fwd hn _ _), shape_send_recv]
  rw [this]
  omega

/-- An exchange whose transformers pack `inc` and unpack like the scalar transformer on the flattened
state delivers, through every boundary, the arrays packed by the partner. -/
theorem exchange_deliver {S I : Type} (C : Codec S I α) (flatS : S → List (Qty α))
    (flatI : List I → List ExSpec) (mk : Boundary → S → List I) (inc : Boundary → S → List (NArr α))
    {topo : Int → Except Err (List Boundary)} {bnd : Int → List Boundary}
    {partner : Boundary → Boundary} {r : Int} (X : Setting topo bnd partner r) (junk : Nat → α)
    {n : Int} (hn : 0 < n) (trs : Int → Except Err (List (Int × List I))) (st : Int → S)
    (hC : ∀ s is buf out, unpackScalar (flatS s) (flatI is) buf = .ok out →
      ∃ s', C.unpack s is buf = .ok s' ∧ flatS s' = out)
    (hI : ∀ b s, flatI (mk b s) = (flatS s).map fun q => info n b q.ds)
    (htrs : ∀ s, (s = r ∨ ∃ b ∈ bnd r, b.toRank = s) →
      trs s = .ok ((bnd s).map fun b => (b.toRank, mk b (st s))))
    (hpack : ∀ s, (s = r ∨ ∃ b ∈ bnd r, b.toRank = s) → ∀ b,
      C.pack (st s) (mk b (st s)) (junkBuf junk (C.size (mk b (st s)))) =
        .ok ((inc b (st s)).flatMap NArr.flatten))
    (hsize : ∀ b ∈ bnd r, ((inc (partner b) (st b.toRank)).flatMap NArr.flatten).length ≤
      C.size (mk b (st r)))
    (hroom : ∀ q ∈ flatS (st r), Room n q.ds)
    (hshape : ∀ b ∈ bnd r, List.Forall₂ (fun (v : NArr α) q => v.shape = shapeOf (recvR n b q.ds))
      (inc (partner b) (st b.toRank)) (flatS (st r)))
    (hdisj : ∀ q ∈ flatS (st r), (bnd r).Pairwise fun b b' => ∀ g, Selects (recvR n b q.ds) g →
      ¬ Selects (recvR n b' q.ds) g) :
    ∃ out, exchange C junk trs st r = .ok out ∧ (flatS out).length = (flatS (st r)).length ∧
      ∀ k (hk : k < (flatS (st r)).length) (hk' : k < (flatS out).length),
        DeliveredAll (flatS (st r))[k] (flatS out)[k]
        ((bnd r).map fun b => (recvR n b (flatS (st r))[k].ds,
          (inc (partner b) (st b.toRank)).getD k default)) := by
  have hsent : ∀ s, (s = r ∨ ∃ b ∈ bnd r, b.toRank = s) →
      sentBy C junk ((bnd s).map fun b => (b.toRank, mk b (st s)))
        (st s) = .ok ((bnd s).map fun b =>
          (b.toRank, (inc b (st s)).flatMap NArr.flatten)) := by
    intro s hs
    unfold sentBy
    rw [List.mapM_map]
    apply mapM_ok
    intro b hb
    simp only [Function.comp]
    rw [hpack s hs b]
    rfl
  -- messages by source rank
  have hmsg : ∃ msg : Int → List α, ∀ b ∈ bnd r, msg b.toRank =
      (inc (partner b) (st b.toRank)).flatMap NArr.flatten := by
    refine ⟨fun s => match (bnd r).find? (fun b => b.toRank == s) with
      | some b => (inc (partner b) (st b.toRank)).flatMap NArr.flatten
      | none => [], ?_⟩
    intro b hb
    have hnd := (X.topo r (.inl rfl)).2
    have : (bnd r).find? (fun c => c.toRank == b.toRank) = some b := by
      revert hb hnd
      generalize bnd r = l
      intro hb hnd
      induction l with
      | nil => simp at hb
      | cons a l ih =>
        rw [List.find?_cons]
        simp only [List.map_cons, List.nodup_cons] at hnd
        rcases List.mem_cons.1 hb with rfl | hb
        · simp
        · have : a.toRank ≠ b.toRank := by
            intro h; exact hnd.1 (by rw [h]; exact List.mem_map_of_mem hb)
          rw [show (a.toRank == b.toRank) = false by simpa using this]
          exact ih hb hnd.2
    simp only [this]
  obtain ⟨msg, hmsg⟩ := hmsg
  have hex := exchange_eq C junk trs st r (htrs r (.inl rfl)) ⟨_, hsent r (.inl rfl)⟩ msg (by
      intro t ht
      obtain ⟨b, hb, rfl⟩ := List.mem_map.1 ht
      have hs : (b.toRank = r ∨ ∃ c ∈ bnd r, c.toRank = b.toRank) := .inr ⟨b, hb, rfl⟩
      refine ⟨_, _, htrs b.toRank hs, hsent b.toRank hs, ?_, ?_⟩
      · obtain ⟨p1, p2⟩ := X.partner b hb
        rw [hmsg b hb]
        exact find_key (·.toRank) (fun c => (inc c (st b.toRank)).flatMap NArr.flatten) r p1 p2
          (X.topo _ hs).2
      · simp only
        rw [hmsg b hb]
        exact hsize b hb)
  -- unpacking
  let task : Boundary → Task α := fun b =>
    ⟨flatI (mk b (st r)), inc (partner b) (st b.toRank),
      (junkBuf junk (C.size (mk b (st r)))).drop (msg b.toRank).length⟩
  have hat : ∀ b k (hk : k < (flatS (st r)).length), (task b).at k =
      (recvR n b (flatS (st r))[k].ds, (inc (partner b) (st b.toRank)).getD k default) := by
    intro b k hk
    unfold Task.at
    simp only [task, hI]
    rw [getD_eq (by simpa using hk)]
    simp
  have hlen : ∀ b ∈ bnd r, (inc (partner b) (st b.toRank)).length = (flatS (st r)).length :=
    fun b hb => (hshape b hb).length_eq
  have hok : ∀ t ∈ (bnd r).map task, t.Ok (flatS (st r)).length := by
    intro t ht
    obtain ⟨b, hb, rfl⟩ := List.mem_map.1 ht
    refine ⟨by simp [task, hI], hlen b hb, ?_, ?_⟩
    · intro k hk
      rw [hat b k hk]
      simp only
      have := hshape b hb
      rw [List.forall₂_iff_get] at this
      rw [getD_eq (by rw [hlen b hb]; exact hk)]
      exact this.2 k (by rw [hlen b hb]; exact hk) hk
    · intro k hk
      rw [hat b k hk]
      exact (hroom _ (List.getElem_mem _)).fwd (by omega) _ _
  obtain ⟨out, ho, hl, hd⟩ := unpack_seq ((bnd r).map task) (flatS (st r)) hok (by
    intro k hk
    rw [List.pairwise_map]
    have := hdisj _ (List.getElem_mem hk)
    refine this.imp ?_
    intro b b' h
    rw [hat b k hk, hat b' k hk]
    exact h)
  have gen : ∀ (l : List Boundary) (s : S) (o : List (Qty α)), (∀ b ∈ l, b ∈ bnd r) →
      l.foldlM (init := flatS s) (fun s b => unpackScalar s (task b).infos (task b).buf) = .ok o →
      ∃ s', l.foldlM (init := s) (fun s b => C.unpack s (mk b (st r)) (msg b.toRank ++
          (junkBuf junk (C.size (mk b (st r)))).drop (msg b.toRank).length)) = .ok s' ∧
        flatS s' = o := by
    intro l
    induction l with
    | nil =>
      intro s o _ h
      simp only [List.foldlM_nil, pure, Except.pure, Except.ok.injEq] at h
      exact ⟨s, rfl, h⟩
    | cons b l ih =>
      intro s o hl h
      rw [List.foldlM_cons] at h
      have hb := hmsg b (hl b List.mem_cons_self)
      cases hu : unpackScalar (flatS s) (task b).infos (task b).buf with
      | error e => rw [hu] at h; simp [bind, Except.bind] at h
      | ok o1 =>
        rw [hu] at h
        obtain ⟨s1, h1, h2⟩ := hC s (mk b (st r)) (task b).buf o1 hu
        have e : msg b.toRank ++ (junkBuf junk (C.size (mk b (st r)))).drop (msg b.toRank).length =
            (task b).buf := by
          unfold Task.buf
          simp only [task]
          rw [← hb]
        rw [List.foldlM_cons, e, h1]
        simp only [bind, Except.bind] at h ⊢
        rw [← h2] at h
        exact ih s1 o (fun c hc => hl c (List.mem_cons_of_mem _ hc)) h
  rw [List.foldlM_map] at ho
  obtain ⟨s', h1, h2⟩ := gen (bnd r) (st r) out (fun _ h => h) ho
  refine ⟨s', ?_, by rw [h2, hl], ?_⟩
  · rw [hex, List.foldlM_map]; exact h1
  · intro k hk hk'
    subst h2
    have := hd k hk hk'
    rw [List.map_map] at this
    have e : (bnd r).map ((fun t => t.at k) ∘ task) = (bnd r).map fun b =>
        (recvR n b (flatS (st r))[k].ds, (inc (partner b) (st b.toRank)).getD k default) := by
      apply List.map_congr_left
      intro b _
      exact hat b k hk
    rwa [e] at this

/-- A scalar update delivers, through every boundary, the partner's rotated send region. -/
theorem haloUpdate_deliver {topo : Int → Except Err (List Boundary)} {bnd : Int → List Boundary}
    {partner : Boundary → Boundary} {r : Int} (X : Setting topo bnd partner r) (junk : Nat → α)
    {n : Int} (hn : 0 < n) (st : Int → List (Qty α)) (hne : st r ≠ [])
    (hroom : ∀ s, (s = r ∨ ∃ b ∈ bnd r, b.toRank = s) → ∀ q ∈ st s, Room n q.ds)
    (hshape : ∀ b ∈ bnd r, List.Forall₂ (fun (v : NArr α) q => v.shape = shapeOf (recvR n b q.ds))
      (incoming n (partner b) (st b.toRank)) (st r))
    (hdisj : ∀ q ∈ st r, (bnd r).Pairwise fun b b' => ∀ g, Selects (recvR n b q.ds) g →
      ¬ Selects (recvR n b' q.ds) g) :
    ∃ out, haloUpdate topo junk n st r = .ok out ∧ out.length = (st r).length ∧
      ∀ k (hk : k < (st r).length) (hk' : k < out.length), DeliveredAll (st r)[k] out[k]
        ((bnd r).map fun b => (recvR n b (st r)[k].ds,
          (incoming n (partner b) (st b.toRank)).getD k default)) := by
  have := exchange_deliver (scalarCodec α) id id (fun b s => s.map fun q => info n b q.ds)
    (incoming n) X junk hn (fun s => do scalarInfos (← topo s) n ((st s).map (·.ds))) st
    (fun s is buf out h => ⟨out, h, rfl⟩) (fun _ _ => rfl) (by
      intro s hs
      obtain ⟨h1, h2⟩ := X.topo s hs
      rw [h1]
      show scalarInfos (bnd s) n _ = _
      unfold scalarInfos
      have := dict_fold (fun b => ((st s).map (·.ds)).mapM (exSpec b n))
        (fun b => (st s).map fun q => info n b q.ds) (bnd s) [] (by
          intro b _
          rw [mapM_ok (g := info n b)]
          · simp [List.map_map, Function.comp]
          · intro ds hds
            obtain ⟨q, hq, rfl⟩ := List.mem_map.1 hds
            exact exSpec_ok (by omega) (hroom s hs q hq) b) h2 (by simp)
      simpa using this)
    (fun s hs b => packScalar_ok (by omega) (st s) b (hroom s hs) junk)
    (fun b hb => by
      rw [recv_size (by omega) (st r) b (hroom r (.inl rfl)) _ (hshape b hb)])
    (hroom r (.inl rfl)) hshape hdisj
  obtain ⟨out, h1, h2⟩ := this
  refine ⟨out, ?_, h2⟩
  unfold haloUpdate
  rw [if_neg (by simpa using hne), if_neg (by omega), h1]

/-! vectors -/

/-- both components one after the other -/
def flat2 {β : Type} (l : List (β × β)) : List β := l.flatMap fun p => [p.1, p.2]

theorem flat2_cons {β : Type} (a : β × β) (l : List (β × β)) :
    flat2 (a :: l) = a.1 :: a.2 :: flat2 l := rfl

theorem flat2_len {β : Type} (l : List (β × β)) : (flat2 l).length = 2 * l.length := by
  induction l with
  | nil => rfl
  | cons a l ih => rw [flat2_cons]; simp [ih]; omega

theorem flat2_map {β γ : Type} (f : β → γ) (l : List (β × β)) :
    flat2 (l.map fun p => (f p.1, f p.2)) = (flat2 l).map f := by
  induction l with
  | nil => rfl
  | cons a l ih => rw [List.map_cons, flat2_cons, flat2_cons]; simp [ih]

/-- the vector unpacking is the scalar unpacking of the components one after the other -/
theorem unpackVector_flat : ∀ (qs : List (Qty α × Qty α)) (is : List (ExSpec × ExSpec))
    (offset : Nat) (buf : List α) (out : List (Qty α)), qs.length = is.length →
    unpackScalarLoop ((flat2 qs).zip (flat2 is)) offset buf = .ok out →
    ∃ o, unpackVectorLoop (vecItems qs is) offset buf = .ok o ∧ flat2 o = out
  | [], [], offset, buf, out, _, h => by
    simp only [flat2, List.flatMap_nil, List.zip_nil_left, unpackScalarLoop, Except.ok.injEq] at h
    exact ⟨[], rfl, h⟩
  | q :: qs, i :: is, offset, buf, out, hl, h => by
    rw [flat2_cons, flat2_cons, List.zip_cons_cons, List.zip_cons_cons] at h
    unfold unpackScalarLoop at h
    simp only [bind, Except.bind] at h
    cases h1 : unpackOne q.1 i.1.unpackSlices buf offset with
    | error e => rw [h1] at h; cases h
    | ok q1 =>
      rw [h1] at h
      simp only at h
      unfold unpackScalarLoop at h
      simp only [bind, Except.bind] at h
      cases h2 : unpackOne q.2 i.2.unpackSlices buf
          (offset + (slicesSize i.1.unpackSlices).toNat) with
      | error e => rw [h2] at h; cases h
      | ok q2 =>
        rw [h2] at h
        simp only at h
        cases h3 : unpackScalarLoop ((flat2 qs).zip (flat2 is)) (offset +
            (slicesSize i.1.unpackSlices).toNat + (slicesSize i.2.unpackSlices).toNat) buf with
        | error e => rw [h3] at h; cases h
        | ok rest =>
          rw [h3] at h
          simp only [pure, Except.pure, Except.ok.injEq] at h
          obtain ⟨o, ho, hf⟩ := unpackVector_flat qs is _ buf rest (by simpa using hl) h3
          refine ⟨(q1, q2) :: o, ?_, ?_⟩
          · show unpackVectorLoop (⟨q.1, q.2, i.1, i.2⟩ :: vecItems qs is) offset buf = _
            unfold unpackVectorLoop
            simp only [bind, Except.bind, h1, h2, ho]
            rfl
          · rw [flat2_cons, hf]; exact h
  | [], _ :: _, _, _, _, hl, _ => by simp at hl
  | _ :: _, [], _, _, _, hl, _ => by simp at hl

variable [Neg α]

/-- arrays received through a boundary whose sender uses boundary `b'` -/
def incomingVec (n : Int) (b' : Boundary) (qs : List (Qty α × Qty α)) : List (NArr α) :=
  qs.flatMap fun q =>
    let v := sentVec ⟨q.1, q.2, info n b' q.1.ds, info n b' q.2.ds⟩
    [v.1, v.2]

theorem messageVec_incoming (n : Int) (b' : Boundary) (qs : List (Qty α × Qty α)) :
    messageVec (vecItems qs (qs.map fun q => (info n b' q.1.ds, info n b' q.2.ds))) =
      (incomingVec n b' qs).flatMap NArr.flatten := by
  unfold messageVec incomingVec vecItems
  induction qs with
  | nil => rfl
  | cons q qs ih =>
    simp only [List.map_cons, List.zipWith_cons_cons, List.flatMap_cons, ih, List.flatMap_append,
      List.flatMap_nil, List.append_nil, List.append_assoc, List.cons_append, List.nil_append]

theorem packVector_ok {n : Int} (hn : 0 ≤ n) (qs : List (Qty α × Qty α)) (b : Boundary)
    (hr : ∀ q ∈ qs, Room n q.1.ds ∧ Room n q.2.ds ∧ q.1.ds.length = q.2.ds.length) (junk : Nat → α) :
    (vectorCodec α).pack qs (qs.map fun q => (info n b q.1.ds, info n b q.2.ds))
      (junkBuf junk ((vectorCodec α).size (qs.map fun q => (info n b q.1.ds, info n b q.2.ds)))) =
      .ok ((incomingVec n b qs).flatMap NArr.flatten) := by
  have hw : ∀ s ∈ vecItems qs (qs.map fun q => (info n b q.1.ds, info n b q.2.ds)),
      WfPack s.qx.ds s.ix.packSlices ∧ WfPack s.qy.ds s.iy.packSlices ∧
        s.qx.ds.length = s.qy.ds.length := by
    intro s hs
    obtain ⟨k, hk, rfl⟩ := List.getElem_of_mem hs
    have hk' : k < qs.length := by simpa [vecItems] using hk
    simp only [vecItems, List.getElem_zipWith, List.getElem_map]
    obtain ⟨h1, h2, h3⟩ := hr _ (List.getElem_mem hk')
    exact ⟨⟨by simp, h1.fwd hn _ _⟩, ⟨by simp, h2.fwd hn _ _⟩, h3⟩
  have hlen := messageVec_length _ hw
  have e1 : (vecItems qs (qs.map fun q => (info n b q.1.ds, info n b q.2.ds))).map (·.ix) =
      qs.map fun q => info n b q.1.ds := by
    unfold vecItems
    rw [List.zipWith_map_right, List.zipWith_self, List.map_map]; rfl
  have e2 : (vecItems qs (qs.map fun q => (info n b q.1.ds, info n b q.2.ds))).map (·.iy) =
      qs.map fun q => info n b q.2.ds := by
    unfold vecItems
    rw [List.zipWith_map_right, List.zipWith_self, List.map_map]; rfl
  rw [e1, e2] at hlen
  show (if qs.length ≠ (qs.map fun q => (info n b q.1.ds, info n b q.2.ds)).length then
    Except.error Err.runtimeError else packVectorLoop _ 0 _) = _
  rw [if_neg (by simp)]
  have := packVectorLoop_eq (vecItems qs (qs.map fun q => (info n b q.1.ds, info n b q.2.ds))) []
    (junkBuf junk ((vectorCodec α).size (qs.map fun q => (info n b q.1.ds, info n b q.2.ds)))) (by
      unfold junkBuf
      rw [List.length_map, List.length_range]
      show (packBufferSize _ + packBufferSize _).toNat = _
      rw [List.map_map, List.map_map]
      simp only [Function.comp_def]
      omega)
  rw [messageVec_incoming] at this
  exact this

/-- A vector update delivers, through every boundary, the partner's rotated send regions. -/
theorem vectorHaloUpdate_deliver {topo : Int → Except Err (List Boundary)}
    {bnd : Int → List Boundary}
    {partner : Boundary → Boundary} {r : Int} (X : Setting topo bnd partner r) (junk : Nat → α)
    {n : Int} (hn : 0 < n) (st : Int → List (Qty α × Qty α)) (hne : st r ≠ [])
    (hroom : ∀ s, (s = r ∨ ∃ b ∈ bnd r, b.toRank = s) → ∀ q ∈ st s, Room n q.1.ds ∧ Room n q.2.ds ∧
      q.1.ds.length = q.2.ds.length)
    (hshape : ∀ b ∈ bnd r, List.Forall₂ (fun (v : NArr α) q => v.shape = shapeOf (recvR n b q.ds))
      (incomingVec n (partner b) (st b.toRank)) (flat2 (st r)))
    (hdisj : ∀ q ∈ flat2 (st r), (bnd r).Pairwise fun b b' => ∀ g, Selects (recvR n b q.ds) g →
      ¬ Selects (recvR n b' q.ds) g) :
    ∃ out, vectorHaloUpdate topo junk n st r = .ok out ∧
      (flat2 out).length = (flat2 (st r)).length ∧
      ∀ k (hk : k < (flat2 (st r)).length) (hk' : k < (flat2 out).length),
        DeliveredAll (flat2 (st r))[k] (flat2 out)[k]
        ((bnd r).map fun b => (recvR n b (flat2 (st r))[k].ds,
          (incomingVec n (partner b) (st b.toRank)).getD k default)) := by
  have hroom' : ∀ q ∈ flat2 (st r), Room n q.ds := by
    intro q hq
    obtain ⟨p, hp, h⟩ := List.mem_flatMap.1 hq
    have := hroom r (.inl rfl) p hp
    simp only [List.mem_cons, List.not_mem_nil, or_false] at h
    rcases h with rfl | rfl
    · exact this.1
    · exact this.2.1
  have := exchange_deliver (vectorCodec α) flat2 flat2
    (fun b s => s.map fun q => (info n b q.1.ds, info n b q.2.ds))
    (incomingVec n) X junk hn
    (fun s => do vectorInfos (← topo s) n ((st s).map fun q => (q.1.ds, q.2.ds))) st
    (by
      intro s is buf out h
      unfold unpackScalar at h
      split at h
      · cases h
      · next hl =>
        have hl' : s.length = is.length := by
          rw [flat2_len, flat2_len] at hl; omega
        obtain ⟨o, h1, h2⟩ := unpackVector_flat s is 0 buf out hl' h
        refine ⟨o, ?_, h2⟩
        show (if s.length ≠ is.length then Except.error Err.runtimeError else
          unpackVectorLoop (vecItems s is) 0 buf) = _
        rw [if_neg (by omega)]
        exact h1)
    (by
      intro b s
      exact flat2_map (fun q : Qty α => info n b q.ds) s)
    (by
      intro s hs
      obtain ⟨h1, h2⟩ := X.topo s hs
      rw [h1]
      show vectorInfos (bnd s) n _ = _
      unfold vectorInfos
      have := dict_fold (fun b => ((st s).map fun q => (q.1.ds, q.2.ds)).mapM
          (fun s => do
            let x ← exSpec b n s.1
            let y ← exSpec b n s.2
            return (x, y)))
        (fun b => (st s).map fun q => (info n b q.1.ds, info n b q.2.ds)) (bnd s) [] (by
          intro b _
          rw [mapM_ok (g := fun d => (info n b d.1, info n b d.2))]
          · simp [List.map_map, Function.comp]
          · intro ds hds
            obtain ⟨q, hq, rfl⟩ := List.mem_map.1 hds
            simp only
            rw [exSpec_ok (by omega) (hroom s hs q hq).1 b,
              exSpec_ok (by omega) (hroom s hs q hq).2.1 b]
            rfl) h2 (by simp)
      simpa using this)
    (fun s hs b => packVector_ok (by omega) (st s) b (hroom s hs) junk)
    (fun b hb => by
      have h1 := recv_size (by omega) (flat2 (st r)) b hroom' _ (hshape b hb)
      rw [h1]
      apply Nat.le_of_eq
      show (packBufferSize _).toNat = (packBufferSize _ + packBufferSize _).toNat
      rw [packBufferSize_sum, packBufferSize_sum, packBufferSize_sum]
      congr 1
      generalize st r = l
      induction l with
      | nil => rfl
      | cons a l ih =>
        rw [flat2_cons]
        simp only [List.map_cons, List.sum_cons] at ih ⊢
        rw [ih]; omega)
    hroom' hshape hdisj
  obtain ⟨out, h1, h2⟩ := this
  refine ⟨out, ?_, h2⟩
  unfold vectorHaloUpdate
  rw [if_neg (by simpa using hne), if_neg (by omega), h1]

end
end NDSL
