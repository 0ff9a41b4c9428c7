import Verif.Lemmas.HaloUpdate

/-! What an update leaves alone, for any boundaries and any messages. -/
namespace NDSL
open NArr

section
variable {α : Type} [Inhabited α]

/-- unchanged outside a region -/
structure Kept (P : List Int → Prop) (q q' : Qty α) : Prop where
  ds : q'.ds = q.ds
  shape : q'.data.shape = q.data.shape
  same : ∀ g, ¬ P g → q'.data.get g = q.data.get g

theorem unpackOne_kept {q q' : Qty α} {sl : List Slice} {buf : List α} {off : Nat}
    (h : unpackOne q sl buf off = .ok q') : Kept (Selects sl) q q' := by
  unfold unpackOne at h
  simp only [bind, Except.bind] at h
  split at h
  · cases h
  · next v _ =>
    simp only [pure, Except.pure, Except.ok.injEq] at h
    subst h
    refine ⟨rfl, rfl, ?_⟩
    intro g hg
    have : inSlices sl g = false := by
      rw [← Bool.not_eq_true, inSlices_iff]; exact hg
    simp [NArr.assign, this]

theorem unpackLoop_kept : ∀ (l : List (Qty α × ExSpec)) (off : Nat) (buf : List α) (out : List (Qty α)),
    unpackScalarLoop l off buf = .ok out →
    List.Forall₂ (fun e q' => Kept (Selects e.2.unpackSlices) e.1 q') l out
  | [], off, buf, out, h => by
    simp only [unpackScalarLoop, Except.ok.injEq] at h
    subst h; exact .nil
  | (q, i) :: l, off, buf, out, h => by
    unfold unpackScalarLoop at h
    simp only [bind, Except.bind] at h
    cases h1 : unpackOne q i.unpackSlices buf off with
    | error e => rw [h1] at h; cases h
    | ok q1 =>
      rw [h1] at h
      simp only at h
      cases h2 : unpackScalarLoop l (off + (slicesSize i.unpackSlices).toNat) buf with
      | error e => rw [h2] at h; cases h
      | ok rest =>
        rw [h2] at h
        simp only [pure, Except.pure, Except.ok.injEq] at h
        subst h
        exact .cons (unpackOne_kept h1) (unpackLoop_kept l _ buf rest h2)

/-- the point is received through some boundary -/
def Hit (n : Int) (bs : List Boundary) (ds : List DimSpec) (g : List Int) : Prop :=
  ∃ b ∈ bs, Selects (recvR n b ds) g

theorem kept_refl (P : Qty α → List Int → Prop) : ∀ (qs : List (Qty α)),
    List.Forall₂ (fun q q' => Kept (P q) q q') qs qs
  | [] => .nil
  | _ :: qs => .cons ⟨rfl, rfl, fun _ _ => rfl⟩ (kept_refl P qs)

theorem kept_trans (P : List DimSpec → List Int → Prop) {a b c : List (Qty α)}
    (h1 : List.Forall₂ (fun q q' => Kept (P q.ds) q q') a b)
    (h2 : List.Forall₂ (fun q q' => Kept (P q.ds) q q') b c) :
    List.Forall₂ (fun q q' => Kept (P q.ds) q q') a c := by
  induction h1 generalizing c with
  | nil => exact h2
  | cons h0 _ ih =>
    cases h2 with
    | cons k0 k =>
      refine .cons ⟨k0.ds.trans h0.ds, k0.shape.trans h0.shape, fun g hg => ?_⟩ (ih k)
      rw [k0.same g (by rw [h0.ds]; exact hg), h0.same g hg]

theorem kept_ds (P : List DimSpec → List Int → Prop) {a b : List (Qty α)}
    (h : List.Forall₂ (fun q q' => Kept (P q.ds) q q') a b) : b.map Qty.ds = a.map Qty.ds := by
  induction h with
  | nil => rfl
  | cons h0 _ ih => rw [List.map_cons, List.map_cons, ih, h0.ds]

/-- entries of the dictionary: those appended to twice are too long -/
theorem dict_entries {β : Type} {N : Nat} (hN : 0 < N) (f : Boundary → Except Err (List β))
    (P : Boundary → List β → Prop) :
    ∀ (bs : List Boundary) (d out : List (Int × List β)),
    (∀ b ∈ bs, ∀ l, f b = .ok l → l.length = N ∧ P b l) →
    bs.foldlM (init := d) (fun d b => do
      let xs ← f b
      return dictAppend d b.toRank xs) = .ok out →
    (∀ e ∈ d, N ≤ e.2.length) →
    ∀ e ∈ out, e ∈ d ∨ N < e.2.length ∨ ∃ b ∈ bs, P b e.2
  | [], d, out, _, h, _ => by
    simp only [List.foldlM_nil, pure, Except.pure, Except.ok.injEq] at h
    subst h
    intro e he; exact .inl he
  | b :: bs, d, out, hf, h, hd => by
    rw [List.foldlM_cons] at h
    cases hb : f b with
    | error e => rw [hb] at h; cases h
    | ok xs =>
      rw [hb] at h
      simp only [bind, Except.bind, pure, Except.pure] at h
      obtain ⟨hx1, hx2⟩ := hf b List.mem_cons_self xs hb
      have app : ∀ (d : List (Int × List β)), (∀ e ∈ d, N ≤ e.2.length) →
          ∀ e ∈ dictAppend d b.toRank xs, N ≤ e.2.length ∧ (e ∈ d ∨ N < e.2.length ∨ P b e.2) := by
        intro d
        induction d with
        | nil =>
          intro _ e he
          simp only [dictAppend, List.mem_singleton] at he
          subst he
          exact ⟨by simp [hx1], .inr (.inr hx2)⟩
        | cons a d ih =>
          intro hd e he
          obtain ⟨k', ws⟩ := a
          unfold dictAppend at he
          split at he
          · rcases List.mem_cons.1 he with rfl | he
            · have := hd _ List.mem_cons_self
              simp only at this
              simp only [List.length_append]
              exact ⟨by omega, .inr (.inl (by omega))⟩
            · exact ⟨hd e (List.mem_cons_of_mem _ he), .inl (List.mem_cons_of_mem _ he)⟩
          · rcases List.mem_cons.1 he with rfl | he
            · exact ⟨hd _ List.mem_cons_self, .inl List.mem_cons_self⟩
            · obtain ⟨i1, i2⟩ := ih (fun e h => hd e (List.mem_cons_of_mem _ h)) e he
              refine ⟨i1, ?_⟩
              rcases i2 with i2 | i2
              · exact .inl (List.mem_cons_of_mem _ i2)
              · exact .inr i2
      have ap := app d hd
      intro e he
      have hrec := dict_entries hN f P bs _ out (fun c hc => hf c (List.mem_cons_of_mem _ hc)) h
        (fun e he => (ap e he).1) e he
      rcases hrec with r | r | ⟨c, hc, r⟩
      · rcases (ap e r).2 with a | a | a
        · exact .inl a
        · exact .inr (.inl a)
        · exact .inr (.inr ⟨b, List.mem_cons_self, a⟩)
      · exact .inr (.inl r)
      · exact .inr (.inr ⟨c, List.mem_cons_of_mem _ hc, r⟩)

theorem exSpec_ok_eq {b : Boundary} {n : Int} {ds : List DimSpec} {e : ExSpec}
    (h : exSpec b n ds = .ok e) : e = info n b ds := by
  unfold exSpec at h
  simp only [bind, Except.bind] at h
  cases h1 : boundarySlice b.btype n true ds with
  | error _ => rw [h1] at h; cases h
  | ok s =>
    rw [h1] at h
    simp only at h
    cases h2 : boundarySlice b.btype n false ds with
    | error _ => rw [h2] at h; cases h
    | ok r =>
      rw [h2] at h
      simp only [pure, Except.pure, Except.ok.injEq] at h
      rw [← h, ((boundarySlice_ok _ _ _ _ _).1 h1).1, ((boundarySlice_ok _ _ _ _ _).1 h2).1]

theorem mapM_eq_map {β γ : Type} {f : β → Except Err γ} {g : β → γ}
    (hf : ∀ a c, f a = .ok c → c = g a) : ∀ {l : List β} {out : List γ}, l.mapM f = .ok out →
    out = l.map g
  | [], out, h => by
    simp only [List.mapM_nil, pure, Except.pure, Except.ok.injEq] at h
    exact h.symm
  | a :: l, out, h => by
    rw [List.mapM_cons] at h
    simp only [bind, Except.bind] at h
    cases h1 : f a with
    | error _ => rw [h1] at h; cases h
    | ok c =>
      rw [h1] at h
      simp only at h
      cases h2 : l.mapM f with
      | error _ => rw [h2] at h; cases h
      | ok cs =>
        rw [h2] at h
        simp only [pure, Except.pure, Except.ok.injEq] at h
        rw [← h, hf a c h1, mapM_eq_map hf h2]; rfl

/-- an exchange changes nothing outside the receive regions -/
theorem exchange_kept {S I : Type} (C : Codec S I α) (flatS : S → List (Qty α))
    (flatI : List I → List ExSpec) {n : Int} (bs : List Boundary) (junk : Nat → α)
    (trs : Int → Except Err (List (Int × List I))) (st : Int → S) (r : Int) (out : S)
    (hC : ∀ s is buf s', C.unpack s is buf = .ok s' →
      unpackScalar (flatS s) (flatI is) buf = .ok (flatS s'))
    (htrs : ∀ ts, trs r = .ok ts → ∀ t ∈ ts, (flatI t.2).length = (flatS (st r)).length →
      ∃ b ∈ bs, flatI t.2 = (flatS (st r)).map fun q => info n b q.ds)
    (h : exchange C junk trs st r = .ok out) :
    List.Forall₂ (fun q q' => Kept (Hit n bs q.ds) q q') (flatS (st r)) (flatS out) := by
  unfold exchange at h
  simp only [bind, Except.bind] at h
  cases h1 : trs r with
  | error _ => rw [h1] at h; cases h
  | ok ts =>
    rw [h1] at h
    simp only at h
    cases h2 : sentBy C junk ts (st r) with
    | error _ => rw [h2] at h; cases h
    | ok sent =>
      rw [h2] at h
      simp only at h
      have gen : ∀ (l : List (Int × List I)) (s s' : S), (∀ t ∈ l, t ∈ ts) →
          List.Forall₂ (fun q q' => Kept (Hit n bs q.ds) q q') (flatS (st r)) (flatS s) →
          l.foldlM (init := s) (fun s t => do
            let ts' ← trs t.1
            let sent ← sentBy C junk ts' (st t.1)
            match sent.find? (fun (m : Int × List α) => m.1 == r) with
            | none => Except.error Err.runtimeError
            | some m => do
              let buf ← recvInto junk (C.size t.2) m.2
              C.unpack s t.2 buf) = .ok s' →
          List.Forall₂ (fun q q' => Kept (Hit n bs q.ds) q q') (flatS (st r)) (flatS s') := by
        intro l
        induction l with
        | nil =>
          intro s s' _ hk h
          simp only [List.foldlM_nil, pure, Except.pure, Except.ok.injEq] at h
          exact h ▸ hk
        | cons t l ih =>
          intro s s' hl hk h
          rw [List.foldlM_cons] at h
          simp only [bind, Except.bind] at h
          split at h
          · cases h
          · next s1 hs1 =>
            refine ih s1 s' (fun t ht => hl t (List.mem_cons_of_mem _ ht)) ?_ h
            split at hs1
            · cases hs1
            · next ts' _ =>
              split at hs1
              · cases hs1
              · next sent' _ =>
                split at hs1
                · cases hs1
                · next m _ =>
                  split at hs1
                  · cases hs1
                  · next buf _ =>
                    have hu := hC _ _ _ _ hs1
                    unfold unpackScalar at hu
                    split at hu
                    · cases hu
                    · next hlen =>
                      have hlen' : (flatI t.2).length = (flatS (st r)).length := by
                        have := hk.length_eq
                        omega
                      obtain ⟨b, hb, e⟩ := htrs ts h1 t (hl t List.mem_cons_self) hlen'
                      have hloop := unpackLoop_kept _ _ _ _ hu
                      refine kept_trans (Hit n bs) hk ?_
                      have eds : flatI t.2 = (flatS s).map fun q => info n b q.ds := by
                        rw [e]
                        have := kept_ds (Hit n bs) hk
                        have e1 : (flatS (st r)).map (fun q => info n b q.ds) =
                          ((flatS (st r)).map Qty.ds).map (info n b) := by rw [List.map_map]; rfl
                        rw [e1, ← this, List.map_map]; rfl
                      rw [eds] at hloop
                      generalize flatS s = a at hloop
                      generalize flatS s1 = c at hloop
                      clear hu hlen hlen' hk eds e h hs1
                      induction a generalizing c with
                      | nil => cases hloop; exact .nil
                      | cons q a iha =>
                        rw [List.map_cons, List.zip_cons_cons] at hloop
                        cases hloop with
                        | cons k0 k =>
                          refine .cons ⟨k0.ds, k0.shape, fun g hg => k0.same g ?_⟩ (iha _ k)
                          intro hsel
                          exact hg ⟨b, hb, hsel⟩
      exact gen ts (st r) out (fun _ h => h) (kept_refl _ _) h

/-- a scalar update changes nothing outside the receive regions -/
theorem haloUpdate_kept (topo : Int → Except Err (List Boundary)) (junk : Nat → α) (n : Int)
    (st : Int → List (Qty α)) (r : Int) (out : List (Qty α)) (bs : List Boundary)
    (hbs : topo r = .ok bs) (h : haloUpdate topo junk n st r = .ok out) :
    List.Forall₂ (fun q q' => Kept (Hit n bs q.ds) q q') (st r) out := by
  unfold haloUpdate at h
  split at h
  · cases h
  · next hne =>
    split at h
    · cases h
    · refine exchange_kept (scalarCodec α) id id bs junk _ st r out (fun _ _ _ _ h => h) ?_ h
      intro ts hts t ht hlen
      rw [hbs] at hts
      change scalarInfos bs n ((st r).map (·.ds)) = .ok ts at hts
      unfold scalarInfos at hts
      have hN : 0 < (st r).length := by
        cases hst : st r with
        | nil => rw [hst] at hne; simp at hne
        | cons a l => simp
      have := dict_entries hN (fun b => ((st r).map (·.ds)).mapM (exSpec b n))
        (fun b l => l = (st r).map fun q => info n b q.ds) bs [] ts (by
          intro b _ l hl
          have e := mapM_eq_map (fun a c h => exSpec_ok_eq h) hl
          rw [List.map_map] at e
          rw [e]
          exact ⟨by simp, rfl⟩) hts (by simp) t ht
      rcases this with h | h | ⟨b, hb, h⟩
      · simp at h
      · simp only [id] at hlen; omega
      · exact ⟨b, hb, h⟩

theorem unpackVector_flat' : ∀ (qs : List (Qty α × Qty α)) (is : List (ExSpec × ExSpec))
    (offset : Nat) (buf : List α) (o : List (Qty α × Qty α)), qs.length = is.length →
    unpackVectorLoop (vecItems qs is) offset buf = .ok o →
    unpackScalarLoop ((flat2 qs).zip (flat2 is)) offset buf = .ok (flat2 o)
  | [], [], offset, buf, o, _, h => by
    simp only [vecItems, List.zipWith_nil_left, unpackVectorLoop, Except.ok.injEq] at h
    subst h; rfl
  | q :: qs, i :: is, offset, buf, o, hl, h => by
    change unpackVectorLoop (⟨q.1, q.2, i.1, i.2⟩ :: vecItems qs is) offset buf = _ at h
    unfold unpackVectorLoop at h
    simp only [bind, Except.bind] at h
    cases h1 : unpackOne q.1 i.1.unpackSlices buf offset with
    | error e => rw [h1] at h; cases h
    | ok q1 =>
      rw [h1] at h
      simp only at h
      cases h2 : unpackOne q.2 i.2.unpackSlices buf
          (offset + (slicesSize i.1.unpackSlices).toNat) with
      | error e => rw [h2] at h; cases h
      | ok q2 =>
        rw [h2] at h
        simp only at h
        cases h3 : unpackVectorLoop (vecItems qs is) (offset +
            (slicesSize i.1.unpackSlices).toNat + (slicesSize i.2.unpackSlices).toNat) buf with
        | error e => rw [h3] at h; cases h
        | ok rest =>
          rw [h3] at h
          simp only [pure, Except.pure, Except.ok.injEq] at h
          have ih := unpackVector_flat' qs is _ buf rest (by simpa using hl) h3
          subst h
          rw [flat2_cons, flat2_cons, flat2_cons, List.zip_cons_cons, List.zip_cons_cons]
          unfold unpackScalarLoop
          simp only [bind, Except.bind, h1]
          unfold unpackScalarLoop
          simp only [bind, Except.bind, h2, ih]
          rfl
  | [], _ :: _, _, _, _, hl, _ => by simp at hl
  | _ :: _, [], _, _, _, hl, _ => by simp at hl

/-- a vector update changes nothing outside the receive regions -/
theorem vectorHaloUpdate_kept [Neg α] (topo : Int → Except Err (List Boundary)) (junk : Nat → α)
    (n : Int) (st : Int → List (Qty α × Qty α)) (r : Int) (out : List (Qty α × Qty α))
    (bs : List Boundary)
    (hbs : topo r = .ok bs) (h : vectorHaloUpdate topo junk n st r = .ok out) :
    List.Forall₂ (fun q q' => Kept (Hit n bs q.ds) q q') (flat2 (st r)) (flat2 out) := by
  unfold vectorHaloUpdate at h
  split at h
  · cases h
  · next hne =>
    split at h
    · cases h
    · refine exchange_kept (vectorCodec α) flat2 flat2 bs junk _ st r out ?_ ?_ h
      · intro s is buf s' h
        change (if s.length ≠ is.length then Except.error Err.runtimeError else
          unpackVectorLoop (vecItems s is) 0 buf) = _ at h
        split at h
        · cases h
        · next hl =>
          unfold unpackScalar
          rw [if_neg (by rw [flat2_len, flat2_len]; omega)]
          exact unpackVector_flat' s is 0 buf s' (by omega) h
      intro ts hts t ht hlen
      rw [hbs] at hts
      change vectorInfos bs n ((st r).map fun q => (q.1.ds, q.2.ds)) = .ok ts at hts
      unfold vectorInfos at hts
      have hN : 0 < (st r).length := by
        cases hst : st r with
        | nil => rw [hst] at hne; simp at hne
        | cons a l => simp
      have := dict_entries hN (fun b => ((st r).map fun q => (q.1.ds, q.2.ds)).mapM
          (fun s => do
            let x ← exSpec b n s.1
            let y ← exSpec b n s.2
            return (x, y)))
        (fun b l => l = (st r).map fun q => (info n b q.1.ds, info n b q.2.ds)) bs [] ts (by
          intro b _ l hl
          have e := mapM_eq_map (g := fun d => (info n b d.1, info n b d.2)) (fun a c h => by
            simp only [bind, Except.bind] at h
            cases h1 : exSpec b n a.1 with
            | error _ => rw [h1] at h; cases h
            | ok x =>
              rw [h1] at h
              simp only at h
              cases h2 : exSpec b n a.2 with
              | error _ => rw [h2] at h; cases h
              | ok y =>
                rw [h2] at h
                simp only [pure, Except.pure, Except.ok.injEq] at h
                rw [← h, exSpec_ok_eq h1, exSpec_ok_eq h2]) hl
          rw [List.map_map] at e
          rw [e]
          exact ⟨by simp, rfl⟩) hts (by simp) t ht
      rcases this with h | h | ⟨b, hb, h⟩
      · simp at h
      · rw [flat2_len, flat2_len] at hlen; omega
      · refine ⟨b, hb, ?_⟩
        rw [h]
        exact flat2_map (fun q : Qty α => info n b q.ds) (st r)

end
end NDSL
