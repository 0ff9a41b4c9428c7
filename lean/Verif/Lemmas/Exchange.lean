import Verif.Lemmas.Transformer
import Verif.Lemmas.BoundarySlice
import Verif.Model.HaloUpdate

/-! The exchange of one update in closed form. -/
namespace NDSL
open NArr

theorem mapM_ok {β γ : Type} {f : β → Except Err γ} {g : β → γ} : ∀ {l : List β},
    (∀ x ∈ l, f x = .ok (g x)) → l.mapM f = .ok (l.map g)
  | [], _ => rfl
  | a :: l, h => by
    rw [List.mapM_cons, h a List.mem_cons_self, mapM_ok fun x hx => h x (List.mem_cons_of_mem _ hx)]
    rfl

theorem dictAppend_new {β : Type} : ∀ {d : List (Int × List β)} {k : Int} {vs : List β},
    (∀ e ∈ d, e.1 ≠ k) → dictAppend d k vs = d ++ [(k, vs)]
  | [], _, _, _ => rfl
  | (k', ws) :: rest, k, vs, h => by
    unfold dictAppend
    rw [if_neg (h _ List.mem_cons_self),
      dictAppend_new fun e he => h e (List.mem_cons_of_mem _ he)]
    rfl

/-- one entry per boundary when the boundaries lead to different ranks -/
theorem dict_fold {β : Type} (f : Boundary → Except Err (List β)) (X : Boundary → List β) :
    ∀ (bs : List Boundary) (d : List (Int × List β)),
    (∀ b ∈ bs, f b = .ok (X b)) → (bs.map (·.toRank)).Nodup →
    (∀ e ∈ d, ∀ b ∈ bs, e.1 ≠ b.toRank) →
    bs.foldlM (init := d) (fun d b => do
      let xs ← f b
      return dictAppend d b.toRank xs) = (.ok (d ++ bs.map fun b => (b.toRank, X b)) : Except Err _)
  | [], d, _, _, _ => by simp [pure, Except.pure]
  | b :: bs, d, hf, hn, hd => by
    rw [List.foldlM_cons, hf b List.mem_cons_self]
    simp only [bind, Except.bind, pure, Except.pure]
    rw [dictAppend_new fun e he => hd e he b List.mem_cons_self]
    simp only [List.map_cons, List.nodup_cons] at hn
    have ih := dict_fold f X bs (d ++ [(b.toRank, X b)])
      (fun c hc => hf c (List.mem_cons_of_mem _ hc)) hn.2 (by
        intro e he c hc
        rcases List.mem_append.1 he with he | he
        · exact hd e he c (List.mem_cons_of_mem _ hc)
        · simp only [List.mem_singleton] at he
          subst he
          intro heq
          exact hn.1 (by rw [show b.toRank = c.toRank from heq]; exact List.mem_map_of_mem hc))
    simp only [bind, Except.bind, pure, Except.pure] at ih
    rw [ih]
    simp

section
variable {S I α : Type}

theorem sentBy_eq (C : Codec S I α) (junk : Nat → α) (ts : List (Int × List I)) (s : S)
    (M : Int × List I → List α)
    (h : ∀ t ∈ ts, C.pack s t.2 (junkBuf junk (C.size t.2)) = .ok (M t)) :
    sentBy C junk ts s = .ok (ts.map fun t => (t.1, M t)) := by
  unfold sentBy
  apply mapM_ok
  intro t ht
  rw [h t ht]
  rfl

theorem find_key {β γ : Type} (key : β → Int) (val : β → γ) (r : Int) : ∀ {l : List β} {b : β},
    b ∈ l → key b = r → (l.map key).Nodup →
    (l.map fun b => (key b, val b)).find? (fun m => m.1 == r) = some (r, val b)
  | a :: l, b, hb, hr, hn => by
    simp only [List.map_cons, List.nodup_cons] at hn
    rw [List.map_cons, List.find?_cons]
    rcases List.mem_cons.1 hb with rfl | hb
    · simp [hr]
    · have : key a ≠ r := by
        intro h
        exact hn.1 (by rw [h, ← hr]; exact List.mem_map_of_mem hb)
      simp only [this, beq_iff_eq]
      rw [show (key a == r) = false by simpa using this]
      exact find_key key val r hb hr hn.2

/-- the exchange once all messages are known -/
theorem exchange_eq (C : Codec S I α) (junk : Nat → α) (trs : Int → Except Err (List (Int × List I)))
    (st : Int → S) (r : Int) {ts : List (Int × List I)} (hts : trs r = .ok ts)
    (hown : ∃ m, sentBy C junk ts (st r) = .ok m) (msg : Int → List α)
    (h : ∀ t ∈ ts, ∃ ts' sent, trs t.1 = .ok ts' ∧ sentBy C junk ts' (st t.1) = .ok sent ∧
      sent.find? (fun m => m.1 == r) = some (r, msg t.1) ∧ (msg t.1).length ≤ C.size t.2) :
    exchange C junk trs st r = ts.foldlM (init := st r) fun s t =>
      C.unpack s t.2 (msg t.1 ++ (junkBuf junk (C.size t.2)).drop (msg t.1).length) := by
  obtain ⟨m, hm⟩ := hown
  unfold exchange
  rw [hts]
  simp only [bind, Except.bind]
  rw [hm]
  simp only []
  clear hm hts
  generalize st r = s0
  induction ts generalizing s0 with
  | nil => rfl
  | cons t ts ih =>
    obtain ⟨ts', sent, h1, h2, h3, h4⟩ := h t List.mem_cons_self
    rw [List.foldlM_cons, List.foldlM_cons]
    simp only [h1, h2, h3, bind, Except.bind]
    have hr : recvInto junk (C.size t.2) (msg t.1) =
        .ok (msg t.1 ++ (junkBuf junk (C.size t.2)).drop (msg t.1).length) := by
      unfold recvInto; rw [if_neg (by omega)]
    simp only [hr]
    cases C.unpack s0 t.2 (msg t.1 ++ (junkBuf junk (C.size t.2)).drop (msg t.1).length) with
    | error e => rfl
    | ok s1 => exact ih (fun t ht => h t (List.mem_cons_of_mem _ ht)) s1

end

/-! successive deliveries -/
section
variable {α : Type}

/-- result of unpacking several arrays into disjoint regions -/
structure DeliveredAll (q0 q : Qty α) (ts : List (List Slice × NArr α)) : Prop where
  ds : q.ds = q0.ds
  shape : q.data.shape = q0.data.shape
  inside : ∀ t ∈ ts, ∀ g, Selects t.1 g → q.data.get g = t.2.get (relIdx t.1 g)
  outside : ∀ g, (∀ t ∈ ts, ¬ Selects t.1 g) → q.data.get g = q0.data.get g

theorem DeliveredAll.cons {q0 q1 q : Qty α} {sl : List Slice} {v : NArr α}
    {ts : List (List Slice × NArr α)} (h1 : Delivered q0 q1 sl v) (h2 : DeliveredAll q1 q ts)
    (hd : ∀ t ∈ ts, ∀ g, Selects sl g → ¬ Selects t.1 g) : DeliveredAll q0 q ((sl, v) :: ts) where
  ds := h2.ds.trans h1.ds
  shape := h2.shape.trans h1.shape
  inside := by
    intro t ht g hg
    rcases List.mem_cons.1 ht with rfl | ht
    · rw [h2.outside g fun t ht => hd t ht g hg]; exact h1.inside g hg
    · exact h2.inside t ht g hg
  outside := by
    intro g hg
    rw [h2.outside g fun t ht => hg t (List.mem_cons_of_mem _ ht)]
    exact h1.outside g (hg _ List.mem_cons_self)

/-- one message to unpack: regions, arrays and the unread rest of the buffer -/
structure Task (α : Type) where
  infos : List ExSpec
  views : List (NArr α)
  suf : List α

def Task.buf (t : Task α) : List α := t.views.flatMap NArr.flatten ++ t.suf


variable [Inhabited α]

instance : Inhabited (NArr α) := ⟨⟨[], fun _ => default⟩⟩
instance : Inhabited ExSpec := ⟨⟨[], 0, []⟩⟩

/-- what task `t` means for quantity `k` -/
def Task.at (t : Task α) (k : Nat) : List Slice × NArr α :=
  ((t.infos.getD k default).unpackSlices, t.views.getD k default)

structure Task.Ok (t : Task α) (len : Nat) : Prop where
  li : t.infos.length = len
  lv : t.views.length = len
  shape : ∀ k, k < len → (t.at k).2.shape = shapeOf (t.at k).1
  fwd : ∀ k, k < len → Fwd (t.at k).1

theorem getD_eq {β : Type} {l : List β} {k : Nat} (h : k < l.length) (d : β) :
    l.getD k d = l[k] := by
  rw [List.getD_eq_getElem?_getD, List.getElem?_eq_getElem h]; rfl

theorem unpack_task (qs : List (Qty α)) (t : Task α) (h : t.Ok qs.length) :
    ∃ out, unpackScalar qs t.infos t.buf = .ok out ∧ out.length = qs.length ∧
      ∀ k (hk : k < qs.length) (hk' : k < out.length),
        Delivered qs[k] out[k] (t.at k).1 (t.at k).2 := by
  obtain ⟨li, lv, hs, hf⟩ := h
  have hm : List.Forall₂ (fun (v : NArr α) (r : Qty α × ExSpec) => v.shape = shapeOf r.2.unpackSlices)
      t.views (qs.zip t.infos) := by
    rw [List.forall₂_iff_get]
    refine ⟨by simp [lv, li], ?_⟩
    intro k h1 h2
    have hk : k < qs.length := by omega
    have := hs k hk
    unfold Task.at at this
    simp only at this
    rw [getD_eq h1, getD_eq (li ▸ hk)] at this
    simpa using this
  have hf' : ∀ r ∈ qs.zip t.infos, Fwd r.2.unpackSlices := by
    intro r hr
    obtain ⟨k, hk, rfl⟩ := List.getElem_of_mem hr
    have hk2 : k < qs.length := by simp at hk; omega
    have := hf k hk2
    unfold Task.at at this
    simp only at this
    rw [getD_eq (li ▸ hk2)] at this
    simpa using this
  obtain ⟨out, ho, hD⟩ := unpackScalarLoop_eq t.views (qs.zip t.infos) [] t.suf hm hf'
  have hl := hD.length_eq
  have hl' : out.length = qs.length := by
    rw [← hl]; simp [lv, li]
  refine ⟨out, ?_, hl', ?_⟩
  · unfold unpackScalar
    rw [if_neg (by simp [li])]
    exact ho
  · intro k hk hk'
    rw [List.forall₂_iff_get] at hD
    have := hD.2 k (by simp [lv, li]; exact hk) hk'
    simp only [List.get_eq_getElem, List.getElem_zip] at this
    unfold Task.at
    simp only
    rw [getD_eq (li ▸ hk), getD_eq (lv ▸ hk)]
    exact this

theorem unpack_seq : ∀ (tasks : List (Task α)) (qs : List (Qty α)),
    (∀ t ∈ tasks, t.Ok qs.length) →
    (∀ k, k < qs.length → tasks.Pairwise fun t t' => ∀ g, Selects (t.at k).1 g →
      ¬ Selects (t'.at k).1 g) →
    ∃ out, tasks.foldlM (init := qs) (fun s t => unpackScalar s t.infos t.buf) = .ok out ∧
      out.length = qs.length ∧ ∀ k (hk : k < qs.length) (hk' : k < out.length),
        DeliveredAll qs[k] out[k] (tasks.map (·.at k))
  | [], qs, _, _ => ⟨qs, rfl, rfl, fun k hk hk' =>
      ⟨rfl, rfl, by simp, fun _ _ => rfl⟩⟩
  | t :: tasks, qs, hok, hp => by
    obtain ⟨s1, h1, l1, d1⟩ := unpack_task qs t (hok t List.mem_cons_self)
    obtain ⟨out, h2, l2, d2⟩ := unpack_seq tasks s1
      (fun t ht => by rw [l1]; exact hok t (List.mem_cons_of_mem _ ht))
      (fun k hk => (List.pairwise_cons.1 (hp k (l1 ▸ hk))).2)
    refine ⟨out, ?_, l2.trans l1, ?_⟩
    · rw [List.foldlM_cons, h1]; exact h2
    · intro k hk hk'
      rw [List.map_cons]
      refine DeliveredAll.cons (d1 k hk (l1 ▸ hk)) (d2 k (l1 ▸ hk) hk') ?_
      intro t' ht' g hg
      obtain ⟨u, hu, rfl⟩ := List.mem_map.1 ht'
      exact (List.pairwise_cons.1 (hp k hk)).1 u hu g hg

end
end NDSL
