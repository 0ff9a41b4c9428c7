import Verif.Spec.Gpu
import Verif.Lemmas.Transformer
import Verif.Lemmas.Rotate

/-! Index maps and threads of the GPU transformer. -/
namespace NDSL
open NArr

/-! offsets -/

theorem foldl_add (l : List Int) (a : Int) : l.foldl (· + ·) a = a + l.foldl (· + ·) 0 := by
  induction l generalizing a with
  | nil => simp
  | cons x l ih => rw [List.foldl_cons, List.foldl_cons, ih, ih (0 + x)]; omega

theorem byteOffset_eq : ∀ (strides idx : List Int), byteOffset strides idx = bytes idx strides
  | strides, [] => by simp [byteOffset, bytes]
  | [], i :: is => by simp [byteOffset, bytes]
  | s :: ss, i :: is => by
    have := byteOffset_eq ss is
    unfold byteOffset at *
    rw [List.zipWith_cons_cons, List.foldl_cons, foldl_add, this, bytes]; omega

theorem bytes_whole {isz : Int} : ∀ {strides : List Int} (idx : List Int),
    (∀ s ∈ strides, ∃ e, s = e * isz) → ∃ e, bytes idx strides = e * isz
  | _, [], _ => ⟨0, by simp [bytes]⟩
  | [], i :: is, _ => ⟨0, by simp [bytes]⟩
  | s :: ss, i :: is, h => by
    obtain ⟨e, he⟩ := bytes_whole is fun x hx => h x (List.mem_cons_of_mem _ hx)
    obtain ⟨e', he'⟩ := h s List.mem_cons_self
    exact ⟨i * e' + e, by rw [bytes, he, he']; ring⟩

theorem bytes_add : ∀ (a b strides : List Int), a.length = strides.length → b.length = strides.length →
    bytes (List.zipWith (· + ·) a b) strides = bytes a strides + bytes b strides
  | [], [], [], _, _ => by simp [bytes]
  | x :: a, y :: b, s :: ss, h1, h2 => by
    rw [List.zipWith_cons_cons, bytes, bytes, bytes, bytes_add a b ss (by simpa using h1) (by simpa using h2)]
    ring
  | [], _ :: _, [], _, h => by simp at h
  | [], _, _ :: _, h, _ => by simp at h
  | _ :: _, _, [], h, _ => by simp at h
  | _ :: _, [], _ :: _, _, h => by simp at h

/-! rotations only permute -/

theorem inShape_set {s idx : List Int} {a : Nat} {v : Int} (h : InShape s idx)
    (hv : a < s.length → 0 ≤ v ∧ v < ent s a) : InShape s (idx.set a v) := by
  rw [inShape_iff] at *
  refine ⟨by simpa using h.1, ?_⟩
  intro p hp
  have h2 := h.2 p hp
  unfold ent at *
  by_cases e : p = a
  · subst e
    have := hv hp
    simp only [List.getD_eq_getElem?_getD] at *
    rw [List.getElem?_set_self (by omega)]
    simpa using this
  · simp only [List.getD_eq_getElem?_getD] at *
    rw [List.getElem?_set_ne (Ne.symm e)]
    exact h2

theorem flip_reads {β : Type} (m : NArr β) (a : Nat) {idx : List Int} (h : InShape m.shape idx) :
    InShape m.shape (idx.set a (ent m.shape a - 1 - ent idx a)) := by
  refine inShape_set h fun ha => ?_
  have := (inShape_iff.1 h).2 a ha
  omega

theorem swap_reads {s idx : List Int} {a b : Nat} (ha : a < s.length) (hb : b < s.length)
    (h : InShape (swapEnt s a b) idx) : InShape s (swapEnt idx a b) := by
  rw [inShape_iff] at *
  have hl : idx.length = s.length := by simpa [swapEnt] using h.1
  refine ⟨by simpa [swapEnt] using hl, ?_⟩
  intro p hp
  have ea := h.2 a (by simpa [swapEnt] using ha)
  have eb := h.2 b (by simpa [swapEnt] using hb)
  have ep := h.2 p (by simpa [swapEnt] using hp)
  have key : ∀ (l : List Int) q, a < l.length → b < l.length → ent (swapEnt l a b) q =
      if q = b then ent l a else if q = a then ent l b else ent l q := by
    intro l q la lb
    unfold swapEnt ent
    simp only [List.getD_eq_getElem?_getD, List.getElem?_set]
    by_cases e1 : q = b
    · subst e1; simp [lb]
    · rw [if_neg (Ne.symm e1), if_neg e1]
      by_cases e2 : q = a
      · subst e2; simp [la]
      · rw [if_neg (Ne.symm e2), if_neg e2]
  rw [key s a ha hb] at ea
  rw [key s b ha hb] at eb
  rw [key s p ha hb] at ep
  rw [key idx p (by omega) (by omega)]
  by_cases e1 : p = b
  · subst e1
    rw [if_pos rfl]
    by_cases e2 : a = p
    · subst e2; simpa using ea
    · rw [if_neg e2, if_pos rfl] at ea; exact ea
  · rw [if_neg e1] at ep ⊢
    by_cases e2 : p = a
    · subst e2
      rw [if_pos rfl]
      simpa using eb
    · rw [if_neg e2] at ep ⊢
      exact ep

theorem rot90_reads {β : Type} (m : NArr β) {a b : Nat} (ha : a < m.shape.length)
    (hb : b < m.shape.length) {idx : List Int} (h : InShape (m.rot90 a b).shape idx) :
    ∃ idx', InShape m.shape idx' ∧ ∀ {γ : Type} (m' : NArr γ), m'.shape = m.shape →
      (m'.rot90 a b).get idx = m'.get idx' := by
  have h1 := swap_reads (s := m.shape) ha hb h
  refine ⟨_, flip_reads m b h1, ?_⟩
  intro γ m' hm
  unfold NArr.rot90 NArr.swapAxes NArr.flip
  simp only [hm]

theorem flipH_reads : ∀ {dims : List Dim} {s idx : List Int}, dims.length = s.length → InShape s idx →
    InShape s (((dims.zip s).zip idx).map fun ((d, n), i) =>
      if d.isHorizontal then n - 1 - i else i)
  | [], [], [], _, _ => .nil
  | d :: dims, n :: s, i :: idx, hl, h => by
    cases h with
    | cons h1 h2 =>
      refine .cons ?_ (flipH_reads (by simpa using hl) h2)
      simp only
      split <;> omega

/-- a rotated array reads, at each index, the original array at an index that does not depend on the
contents -/
theorem rotate_reads {β : Type} (dims : List Dim) (k : Int) (m : NArr β)
    (hl : m.shape.length = dims.length) {idx : List Int}
    (h : InShape (rotateScalar dims k m).shape idx) :
    ∃ idx', InShape m.shape idx' ∧ ∀ {γ : Type} (m' : NArr γ), m'.shape = m.shape →
      (rotateScalar dims k m').get idx = m'.get idx' := by
  unfold rotateScalar at *
  by_cases k0 : k % 4 = 0
  · simp only [k0, if_true] at *
    exact ⟨idx, h, fun _ _ => rfl⟩
  · simp only [k0, if_false] at *
    by_cases k2 : k % 4 = 2
    · simp only [k2, if_true] at *
      refine ⟨_, flipH_reads hl.symm h, ?_⟩
      intro γ m' hm
      unfold flipHorizontal
      simp only [hm]
    · simp only [k2, if_false] at *
      cases hx : xDim dims with
      | none =>
        cases hy : yDim dims with
        | none =>
          simp only [hx, hy] at *
          exact ⟨idx, h, fun _ _ => rfl⟩
        | some y =>
          simp only [hx, hy] at *
          by_cases k3 : k % 4 = 3
          · simp only [k3, if_true] at *
            refine ⟨_, flip_reads m y h, ?_⟩
            intro γ m' hm
            unfold NArr.flip
            simp only [hm]
          · simp only [k3, if_false] at *
            exact ⟨idx, h, fun _ _ => rfl⟩
      | some x =>
        have hx' := xDim_lt hx
        cases hy : yDim dims with
        | none =>
          simp only [hx, hy] at *
          by_cases k3 : k % 4 = 1
          · simp only [k3, if_true] at *
            refine ⟨_, flip_reads m x h, ?_⟩
            intro γ m' hm
            unfold NArr.flip
            simp only [hm]
          · simp only [k3, if_false] at *
            exact ⟨idx, h, fun _ _ => rfl⟩
        | some y =>
          have hy' := yDim_lt hy
          simp only [hx, hy] at *
          by_cases k3 : k % 4 = 1
          · simp only [k3, if_true] at *
            exact rot90_reads m (by omega) (by omega) h
          · simp only [k3, if_false] at *
            exact rot90_reads m (by omega) (by omega) h

theorem rotate_shape {β γ : Type} (dims : List Dim) (k : Int) (m : NArr β) (m' : NArr γ)
    (h : m'.shape = m.shape) : (rotateScalar dims k m').shape = (rotateScalar dims k m).shape := by
  unfold rotateScalar flipHorizontal NArr.rot90 NArr.swapAxes NArr.flip
  by_cases k0 : k % 4 = 0
  · simp only [k0, if_true, h]
  · simp only [k0, if_false]
    by_cases k2 : k % 4 = 2
    · simp only [k2, if_true, h]
    · simp only [k2, if_false]
      cases xDim dims <;> cases yDim dims <;> simp only [h] <;> split <;> simp only [h]

/-! index maps -/

theorem InsideArr.wf {ds : List DimSpec} {sl : List Slice} (h : InsideArr ds sl) : WfPack ds sl := by
  refine ⟨h.length_eq.symm, ?_⟩
  unfold InsideArr at h
  induction h with
  | nil => intro s hs; cases hs
  | cons h _ ih =>
    intro s hs
    rcases List.mem_cons.1 hs with rfl | hs
    · exact h.2.1
    · exact ih s hs

theorem InsideArr.abs {ds : List DimSpec} {sl : List Slice} (h : InsideArr ds sl) {idx : List Int}
    (hi : InShape (shapeOf sl) idx) : InShape (ds.map DimSpec.shape) (absIdx sl idx) := by
  unfold InsideArr at h
  induction h generalizing idx with
  | nil => cases hi; exact .nil
  | cons h _ ih =>
    cases hi with
    | cons h1 h2 =>
      refine .cons ?_ (ih h2)
      simp only at h1 ⊢
      omega

theorem absIdx_add (sl : List Slice) : ∀ idx, absIdx sl idx =
    List.zipWith (· + ·) (sl.map Slice.start) idx := by
  intro idx
  unfold absIdx
  rw [List.zipWith_map_left]

theorem elem_abs {strides : List Int} {isz : Int} (hz : 0 < isz) (hw : ∀ s ∈ strides, ∃ e, s = e * isz)
    (sl : List Slice) (idx : List Int) (h1 : sl.length = strides.length)
    (h2 : idx.length = strides.length) {e : Int} (he : bytes (absIdx sl idx) strides = e * isz) :
    elemOffset strides isz (sl.map Slice.start) + elemOffset strides isz idx = e := by
  unfold elemOffset
  rw [byteOffset_eq, byteOffset_eq]
  rw [absIdx_add, bytes_add _ _ _ (by simpa using h1) h2] at he
  obtain ⟨a, ha⟩ := bytes_whole (sl.map Slice.start) hw
  obtain ⟨b, hb⟩ := bytes_whole idx hw
  have hz' : isz ≠ 0 := by omega
  rw [ha, hb] at he ⊢
  rw [Int.mul_ediv_cancel _ hz', Int.mul_ediv_cancel _ hz']
  exact Int.eq_of_mul_eq_mul_right hz' (by rw [← he]; ring)

/-- the index reads the value -/
def Reads {α : Type} (mem : List α) (ix : Int) (v : α) : Prop := ∃ e : Nat, ix = e ∧ mem[e]? = some v

theorem forall2_maps {β γ δ : Type} {R : β → γ → Prop} (l : List δ) (f : δ → β) (g : δ → γ)
    (h : ∀ x ∈ l, R (f x) (g x)) : List.Forall₂ R (l.map f) (l.map g) := by
  induction l with
  | nil => exact .nil
  | cons x l ih =>
    exact .cons (h x List.mem_cons_self) (ih fun y hy => h y (List.mem_cons_of_mem _ hy))

/-- the scratch array of `_build_flatten_indices` -/
def scratch (slices : List Slice) (strides : List Int) (itemsize : Int) : NArr Int :=
  ⟨shapeOf slices, fun idx => elemOffset strides itemsize (slices.map Slice.start) +
    elemOffset strides itemsize idx⟩

theorem buildIndices_true (dims : List Dim) (sl : List Slice) (st : List Int) (z r : Int) :
    buildIndices dims sl st z true r = (rotateScalar dims (-r) (scratch sl st z)).flatten := rfl
theorem buildIndices_false (dims : List Dim) (sl : List Slice) (st : List Int) (z r : Int) :
    buildIndices dims sl st z false r = (scratch sl st z).flatten := rfl

theorem scratch_reads {α : Type} {g : GQty α} (hg : InMemory g) {sl : List Slice}
    (hs : InsideArr g.q.ds sl) {idx : List Int} (hi : InShape (shapeOf sl) idx) :
    Reads g.mem ((scratch sl g.strides g.itemsize).get idx) ((g.q.data.slice sl).get idx) := by
  obtain ⟨e, he, hm⟩ := hg.holds (absIdx sl idx) (by rw [hg.shape]; exact hs.abs hi)
  refine ⟨e, ?_, hm⟩
  have h1 := hs.length_eq
  have h2 := hi.length_eq
  have h3 := hg.strides
  unfold shapeOf at h2
  rw [List.length_map] at h2
  exact elem_abs hg.item hg.whole sl idx (by omega) (by omega) he

theorem rotated_reads {α : Type} {g : GQty α} (hg : InMemory g) {sl : List Slice}
    (hs : InsideArr g.q.ds sl) (dims : List Dim) (hd : dims.length = g.q.ds.length) (k : Int) :
    List.Forall₂ (Reads g.mem) (rotateScalar dims k (scratch sl g.strides g.itemsize)).flatten
      (rotateScalar dims k (g.q.data.slice sl)).flatten := by
  have hsh := rotate_shape dims k (g.q.data.slice sl) (scratch sl g.strides g.itemsize) rfl
  have hl : (g.q.data.slice sl).shape.length = dims.length := by
    rw [hd, ← hs.wf.1]; simp [NArr.slice]
  unfold NArr.flatten
  rw [hsh]
  refine forall2_maps _ _ _ fun idx hidx => ?_
  have hnn : NonNeg (rotateScalar dims k (g.q.data.slice sl)).shape :=
    nonneg_perm (rotate_perm dims k _ hl) (shapeOf_nonneg sl)
  have hi := (indices_mem hnn).1 hidx
  obtain ⟨idx', h1, h2⟩ := rotate_reads dims k (g.q.data.slice sl) hl hi
  rw [h2 (g.q.data.slice sl) rfl, h2 (scratch sl g.strides g.itemsize) rfl]
  exact scratch_reads hg hs h1

/-! threads -/

theorem run_writes {α : Type} : ∀ (ts : List (Thread α)) (buf : List α),
    (∀ t ∈ ts, t = .skip ∨ ∃ (p : Nat) (v : α), t = .write p v ∧ p < buf.length) →
    (∀ p v v', .write p v ∈ ts → .write p v' ∈ ts → v = v') →
    ∃ out, runThreads ts buf = some out ∧ out.length = buf.length ∧
      (∀ (p : Nat) v, .write (p : Int) v ∈ ts → out[p]? = some v) ∧
      (∀ p : Nat, (∀ v, Thread.write (p : Int) v ∉ ts) → out[p]? = buf[p]?)
  | [], buf, _, _ => ⟨buf, rfl, rfl, by simp, by simp⟩
  | t :: ts, buf, h1, h2 => by
    have hstep : ∃ buf', Thread.step buf t = some buf' ∧ buf'.length = buf.length ∧
        (∀ (p : Nat) v, t = .write (p : Int) v → buf'[p]? = some v) ∧
        (∀ p : Nat, (∀ v, t ≠ .write (p : Int) v) → buf'[p]? = buf[p]?) := by
      rcases h1 t List.mem_cons_self with rfl | ⟨p, v, rfl, hp⟩
      · exact ⟨buf, rfl, rfl, by simp, by simp⟩
      · refine ⟨buf.set p v, ?_, by simp, ?_, ?_⟩
        · unfold Thread.step
          simp only [Int.toNat_natCast]
          rw [if_pos ⟨by omega, hp⟩]
        · intro p' v' e
          injection e with e1 e2
          have e1 : p = p' := by omega
          subst e1; subst e2
          exact List.getElem?_set_self hp
        · intro p' hne
          refine List.getElem?_set_ne ?_
          rintro rfl
          exact hne v rfl
    obtain ⟨buf', hs, hl, hw, hk⟩ := hstep
    obtain ⟨out, ho, hol, how, hok⟩ := run_writes ts buf'
      (by rw [hl]; exact fun t ht => h1 t (List.mem_cons_of_mem _ ht))
      (fun p v v' a b => h2 p v v' (List.mem_cons_of_mem _ a) (List.mem_cons_of_mem _ b))
    refine ⟨out, ?_, by omega, ?_, ?_⟩
    · unfold runThreads
      rw [List.foldlM_cons, hs]
      exact ho
    · intro p v hm
      rcases List.mem_cons.1 hm with hm | hm
      · by_cases hx : ∃ v', Thread.write (p : Int) v' ∈ ts
        · obtain ⟨v', hv'⟩ := hx
          rw [how p v' hv', h2 p v' v (List.mem_cons_of_mem _ hv') (hm ▸ List.mem_cons_self)]
        · rw [hok p (fun v' hv' => hx ⟨v', hv'⟩)]
          exact hw p v hm.symm
      · exact how p v hm
    · intro p hm
      rw [hok p (fun v hv => hm v (List.mem_cons_of_mem _ hv))]
      exact hk p fun v e => hm v (e ▸ List.mem_cons_self)

/-- threads that write a list at an offset and nothing else -/
structure Writes {α : Type} (ts : List (Thread α)) (offset : Nat) (msg : List α) : Prop where
  only : ∀ t ∈ ts, t = .skip ∨ ∃ (j : Nat) (v : α), msg[j]? = some v ∧
    t = .write ((offset + j : Nat) : Int) v
  all : ∀ (j : Nat) (v : α), msg[j]? = some v → .write ((offset + j : Nat) : Int) v ∈ ts

theorem Writes.append {α : Type} {t1 t2 : List (Thread α)} {o : Nat} {m1 m2 : List α}
    (h1 : Writes t1 o m1) (h2 : Writes t2 (o + m1.length) m2) : Writes (t1 ++ t2) o (m1 ++ m2) := by
  refine ⟨?_, ?_⟩
  · intro t ht
    rcases List.mem_append.1 ht with ht | ht
    · rcases h1.only t ht with h | ⟨j, v, hj, e⟩
      · exact .inl h
      · refine .inr ⟨j, v, ?_, e⟩
        rw [List.getElem?_append_left (List.getElem?_eq_some_iff.1 hj).1]
        exact hj
    · rcases h2.only t ht with h | ⟨j, v, hj, e⟩
      · exact .inl h
      · refine .inr ⟨m1.length + j, v, ?_, ?_⟩
        · rw [List.getElem?_append_right (by omega)]
          rw [show m1.length + j - m1.length = j by omega]; exact hj
        · rw [e, Nat.add_assoc]
  · intro j v hj
    by_cases hlt : j < m1.length
    · rw [List.getElem?_append_left hlt] at hj
      exact List.mem_append_left _ (h1.all j v hj)
    · rw [List.getElem?_append_right (by omega)] at hj
      have := h2.all _ v hj
      rw [show o + m1.length + (j - m1.length) = o + j by omega] at this
      exact List.mem_append_right _ this

theorem Writes.nil {α : Type} (o : Nat) : Writes ([] : List (Thread α)) o [] :=
  ⟨by simp, by simp⟩

theorem Writes.launch {α : Type} {f : Nat → Thread α} {n N o : Nat} {msg : List α}
    (hn : msg.length = n) (hN : n ≤ N) (hf : ∀ t v, msg[t]? = some v → f t = .write ((o + t : Nat) : Int) v)
    (hs : ∀ t, n ≤ t → f t = .skip) : Writes ((List.range N).map f) o msg := by
  refine ⟨?_, ?_⟩
  · intro t ht
    obtain ⟨i, _, rfl⟩ := List.mem_map.1 ht
    by_cases hi : i < n
    · have : i < msg.length := by omega
      refine .inr ⟨i, msg[i], List.getElem?_eq_getElem this, hf _ _ (List.getElem?_eq_getElem this)⟩
    · exact .inl (hs i (by omega))
  · intro j v hj
    have := (List.getElem?_eq_some_iff.1 hj).1
    rw [← hf j v hj]
    exact List.mem_map.2 ⟨j, List.mem_range.2 (by omega), rfl⟩

theorem Writes.run {α : Type} {ts sched : List (Thread α)} {msg buf : List α} (h : Writes ts 0 msg)
    (hp : sched.Perm ts) (hb : buf.length = msg.length) : runThreads sched buf = some msg := by
  have c1 : ∀ t ∈ sched, t = .skip ∨ ∃ (p : Nat) (v : α), t = .write p v ∧ p < buf.length := by
    intro t ht
    rcases h.only t (hp.mem_iff.1 ht) with h | ⟨j, v, hj, e⟩
    · exact .inl h
    · refine .inr ⟨j, v, by simpa using e, ?_⟩
      have := (List.getElem?_eq_some_iff.1 hj).1
      omega
  have c2 : ∀ p v v', .write p v ∈ sched → .write p v' ∈ sched → v = v' := by
    intro p v v' h1 h2
    rcases h.only _ (hp.mem_iff.1 h1) with h1 | ⟨j, w, hj, e⟩
    · cases h1
    · rcases h.only _ (hp.mem_iff.1 h2) with h2 | ⟨j', w', hj', e'⟩
      · cases h2
      · injection e with e1 e2
        injection e' with e1' e2'
        have : j = j' := by omega
        subst this; subst e2; subst e2'
        rw [hj] at hj'
        exact Option.some.inj hj'
  obtain ⟨out, ho, hl, hw, _⟩ := run_writes sched buf c1 c2
  rw [ho]
  congr 1
  apply List.ext_getElem?
  intro j
  by_cases hj : j < msg.length
  · have := h.all j msg[j] (List.getElem?_eq_getElem hj)
    rw [Nat.zero_add] at this
    rw [hw j _ (hp.mem_iff.2 this), List.getElem?_eq_getElem hj]
  · rw [List.getElem?_eq_none (by omega), List.getElem?_eq_none (by omega)]

theorem launch_ge (n : Nat) : n ≤ launchSize n := by unfold launchSize; omega

theorem gather_eq {α : Type} (f : α → α) {src : List α} {idxs : List Int} {flat : List α}
    (h : List.Forall₂ (Reads src) idxs flat) {tid : Nat} {v : α} (hv : flat[tid]? = some v)
    (pos : Int) : gatherThread f src idxs tid pos = .write pos (f v) := by
  have hl := h.length_eq
  obtain ⟨ht, he⟩ := List.getElem?_eq_some_iff.1 hv
  have hi : idxs[tid]? = some idxs[tid] := List.getElem?_eq_getElem (by omega)
  have := List.forall₂_iff_get.1 h |>.2 tid (by omega) ht
  obtain ⟨e, e1, e2⟩ := this
  simp only [List.get_eq_getElem] at e1 e2
  unfold gatherThread
  rw [hi]
  simp only [e1, Int.toNat_natCast, e2, he]
  rw [if_pos (by omega)]

theorem gpuPackScalar_writes {α : Type} : ∀ (items : List (GQty α × ExSpec)) (o : Nat),
    (∀ it ∈ items, InMemory it.1 ∧ InsideArr it.1.q.ds it.2.packSlices) →
    Writes (gpuPackScalar items o) o (message (items.map fun it => (it.1.q, it.2)))
  | [], o, _ => Writes.nil o
  | (g, info) :: rest, o, h => by
    obtain ⟨hg, hs⟩ := h _ List.mem_cons_self
    have hlen := sentView_len (s := (g.q, info)) hs.wf
    have ih := gpuPackScalar_writes rest (o + (slicesSize info.packSlices).toNat)
      fun it hit => h it (List.mem_cons_of_mem _ hit)
    unfold gpuPackScalar
    simp only
    have hm : message (((g, info) :: rest).map fun it => (it.1.q, it.2)) =
        (sentView (g.q, info)).flatten ++ message (rest.map fun it => (it.1.q, it.2)) := by
      simp [message]
    rw [hm]
    refine Writes.append (Writes.launch hlen (launch_ge _) ?_ ?_) (by rw [hlen]; exact ih)
    · intro t v hv
      unfold packThread
      have := (List.getElem?_eq_some_iff.1 hv).1
      simp only at hlen
      rw [if_neg (by omega), buildIndices_true,
        gather_eq id (rotated_reads hg hs g.q.dims (by simp) (-info.rot)) hv]
      rfl
    · intro t ht
      unfold packThread
      exact if_pos ht

/-! vectors -/

theorem lastPos_same (p : Dim → Bool) : ∀ (a b : List Dim) (k : Nat) (acc : Option Nat),
    a.map p = b.map p → lastPos p a k acc = lastPos p b k acc
  | [], [], _, _, _ => rfl
  | x :: a, y :: b, k, acc, h => by
    rw [List.map_cons, List.map_cons] at h
    injection h with h1 h2
    unfold lastPos
    rw [h1]
    exact lastPos_same p a b _ _ h2
  | [], _ :: _, _, _, h => by simp at h
  | _ :: _, [], _, _, h => by simp at h

theorem map_and_same {p q : Dim → Bool} (r : Bool → Bool → Bool) : ∀ {a b : List Dim},
    a.map p = b.map p → a.map q = b.map q →
    a.map (fun d => r (p d) (q d)) = b.map (fun d => r (p d) (q d))
  | [], [], _, _ => rfl
  | x :: a, y :: b, h, h' => by
    rw [List.map_cons, List.map_cons] at h h' ⊢
    injection h with h1 h2
    injection h' with h1' h2'
    rw [h1, h1', map_and_same r h2 h2']
  | [], _ :: _, h, _ => by simp at h
  | _ :: _, [], h, _ => by simp at h

theorem flipIdx_same : ∀ (a b : List Dim) (s idx : List Int),
    a.map Dim.isHorizontal = b.map Dim.isHorizontal →
    (((a.zip s).zip idx).map fun ((d, n), i) => if d.isHorizontal then n - 1 - i else i) =
      ((b.zip s).zip idx).map fun ((d, n), i) => if d.isHorizontal then n - 1 - i else i
  | [], [], _, _, _ => rfl
  | x :: a, y :: b, [], _, _ => by simp
  | x :: a, y :: b, _ :: _, [], _ => by simp
  | x :: a, y :: b, n :: s, i :: idx, h => by
    rw [List.map_cons, List.map_cons] at h
    injection h with h1 h2
    simp only [List.zip_cons_cons, List.map_cons, h1]
    rw [flipIdx_same a b s idx h2]
  | [], _ :: _, _, _, h => by simp at h
  | _ :: _, [], _, _, h => by simp at h

theorem rotate_same {α : Type} {dx dy : List Dim} (h : SameAxes dx dy) (k : Int) (m : NArr α) :
    rotateScalar dx k m = rotateScalar dy k m := by
  have hx : xDim dx = xDim dy := lastPos_same _ _ _ _ _ h.1
  have hy : yDim dx = yDim dy :=
    lastPos_same _ _ _ _ _ (map_and_same (fun a b => !a && b) h.1 h.2)
  have hh : dx.map Dim.isHorizontal = dy.map Dim.isHorizontal :=
    map_and_same (fun a b => a || b) h.1 h.2
  have hf : flipHorizontal dx m = flipHorizontal dy m := by
    unfold flipHorizontal
    congr 1
    funext idx
    rw [flipIdx_same dx dy _ _ hh]
  unfold rotateScalar
  rw [hx, hy, hf]

theorem flatten_neg {α : Type} [Neg α] (m : NArr α) : (m.map (- ·)).flatten = m.flatten.map (- ·) := by
  unfold NArr.flatten NArr.map
  simp

theorem two_parts {α : Type} {a b : List α} {t : Nat} {v : α} (h : (a ++ b)[t]? = some v) :
    (t < a.length ∧ a[t]? = some v) ∨ (a.length ≤ t ∧ b[t - a.length]? = some v) := by
  by_cases ht : t < a.length
  · rw [List.getElem?_append_left ht] at h; exact .inl ⟨ht, h⟩
  · rw [List.getElem?_append_right (by omega)] at h; exact .inr ⟨by omega, h⟩

theorem map_some {α : Type} {f : α → α} {l : List α} {t : Nat} {v : α} (h : (l.map f)[t]? = some v) :
    ∃ w, l[t]? = some w ∧ f w = v := by
  rw [List.getElem?_map] at h
  exact Option.map_eq_some_iff.1 h

/-- a vector quantity whose components are in memory, with slices inside the arrays and one rotation -/
structure GVec.Ok {α : Type} (v : GVec α) : Prop where
  memx : InMemory v.x
  memy : InMemory v.y
  inx : InsideArr v.x.q.ds v.ix.packSlices
  iny : InsideArr v.y.q.ds v.iy.packSlices
  axes : SameAxes v.x.q.dims v.y.q.dims
  rot : v.iy.rot = v.ix.rot

theorem gpuPackVector_writes {α : Type} [Neg α] : ∀ (items : List (GVec α)) (o : Nat),
    (∀ v ∈ items, v.Ok) →
    Writes (gpuPackVector items o) o (messageVec (items.map GVec.item))
  | [], o, _ => Writes.nil o
  | g :: rest, o, h => by
    obtain ⟨mx, my, sx, sy, ax, hr⟩ := h _ List.mem_cons_self
    have ih := fun o => gpuPackVector_writes rest o fun it hit => h it (List.mem_cons_of_mem _ hit)
    have hm : messageVec ((g :: rest).map GVec.item) =
        ((sentVec g.item).1.flatten ++ (sentVec g.item).2.flatten) ++
          messageVec (rest.map GVec.item) := by simp [messageVec]
    rw [hm]
    have rx := rotated_reads mx sx g.x.q.dims (by simp) (-g.ix.rot)
    have ry := rotated_reads my sy g.y.q.dims (by simp) (-g.ix.rot)
    have lx := sentView_len (s := (g.x.q, g.ix)) sx.wf
    have ly := sentView_len (s := (g.y.q, { g.iy with rot := g.ix.rot })) sy.wf
    unfold sentView at lx ly
    simp only at lx ly
    unfold gpuPackVector
    simp only
    rw [buildIndices_true, buildIndices_true, hr]
    have hsv : sentVec g.item = rotateVector g.x.q.dims (-g.ix.rot) (g.x.q.data.slice g.ix.packSlices)
      (g.y.q.data.slice g.iy.packSlices) := rfl
    have hv : sentVec g.item =
        (let u := rotateScalar g.x.q.dims (-g.ix.rot) (g.x.q.data.slice g.ix.packSlices)
         let v := rotateScalar g.y.q.dims (-g.ix.rot) (g.y.q.data.slice g.iy.packSlices)
         if (-g.ix.rot) % 4 = 0 then (u, v)
         else if (-g.ix.rot) % 4 = 1 then (v, u.map (- ·))
         else if (-g.ix.rot) % 4 = 2 then (u.map (- ·), v.map (- ·))
         else (v.map (- ·), u)) := by
      rw [hsv]
      unfold rotateVector
      rw [rotate_same ax (-g.ix.rot) (g.y.q.data.slice g.iy.packSlices)]
    generalize hk : (-g.ix.rot) % 4 = k at hv ⊢
    have hk4 : k = 0 ∨ k = 1 ∨ k = 2 ∨ k = 3 := by omega
    generalize rotateScalar g.x.q.dims (-g.ix.rot) (g.x.q.data.slice g.ix.packSlices) = u at *
    generalize rotateScalar g.y.q.dims (-g.ix.rot) (g.y.q.data.slice g.iy.packSlices) = w at *
    generalize rotateScalar g.x.q.dims (-g.ix.rot) (scratch g.ix.packSlices g.x.strides g.x.itemsize)
      = ux at *
    generalize rotateScalar g.y.q.dims (-g.ix.rot) (scratch g.iy.packSlices g.y.strides g.y.itemsize)
      = wx at *
    generalize (slicesSize g.ix.packSlices).toNat = nx at *
    generalize (slicesSize g.iy.packSlices).toNat = ny at *
    have hlen : ((sentVec g.item).1.flatten ++ (sentVec g.item).2.flatten).length = nx + ny := by
      rw [hv]
      rcases hk4 with rfl | rfl | rfl | rfl <;>
        simp [flatten_neg, lx, ly] <;> omega
    refine Writes.append (Writes.launch hlen (launch_ge _) ?_ ?_) (by rw [hlen]; exact ih _)
    · intro t z hz
      have hlt := (List.getElem?_eq_some_iff.1 hz).1
      rw [hv] at hz
      unfold packVectorThread
      rw [if_neg (by omega)]
      rcases hk4 with rfl | rfl | rfl | rfl
      · simp only [if_true] at hz ⊢
        rcases two_parts hz with ⟨h1, h2⟩ | ⟨h1, h2⟩
        · rw [if_pos (by omega), gather_eq id rx h2]; rfl
        · rw [if_neg (by omega), ← lx, gather_eq id ry h2]; rfl
      · simp only [if_true, if_neg (show ¬ ((1 : Int) = 0) by omega)] at hz ⊢
        rcases two_parts hz with ⟨h1, h2⟩ | ⟨h1, h2⟩
        · rw [if_pos (by omega), gather_eq id ry h2]; rfl
        · rw [flatten_neg] at h2
          obtain ⟨w', hw1, hw2⟩ := map_some h2
          rw [if_neg (by omega), ← ly, gather_eq _ rx hw1, hw2]; rfl
      · simp only [if_true, if_neg (show ¬ ((2 : Int) = 0) by omega),
          if_neg (show ¬ ((2 : Int) = 1) by omega)] at hz ⊢
        rw [flatten_neg, flatten_neg] at hz
        rcases two_parts hz with ⟨h1, h2⟩ | ⟨h1, h2⟩
        · rw [List.length_map] at h1
          obtain ⟨w', hw1, hw2⟩ := map_some h2
          rw [if_pos (by omega), gather_eq _ rx hw1, hw2]; rfl
        · rw [List.length_map] at h1 h2
          obtain ⟨w', hw1, hw2⟩ := map_some h2
          rw [if_neg (by omega), ← lx, gather_eq _ ry hw1, hw2]; rfl
      · simp only [if_true, if_neg (show ¬ ((3 : Int) = 0) by omega),
          if_neg (show ¬ ((3 : Int) = 1) by omega), if_neg (show ¬ ((3 : Int) = 2) by omega)] at hz ⊢
        rw [flatten_neg] at hz
        rcases two_parts hz with ⟨h1, h2⟩ | ⟨h1, h2⟩
        · rw [List.length_map] at h1
          obtain ⟨w', hw1, hw2⟩ := map_some h2
          rw [if_pos (by omega), gather_eq _ ry hw1, hw2]; rfl
        · rw [List.length_map] at h1 h2
          rw [if_neg (by omega), ← ly, gather_eq id rx h2]; rfl
    · intro t ht
      unfold packVectorThread
      exact if_pos ht

/-! unpacking -/

theorem flat_range (n m : Nat) :
    (List.range n).flatMap (fun i => (List.range m).map fun j => i * m + j) = List.range (n * m) := by
  induction n with
  | zero => simp
  | succ n ih =>
    rw [List.range_succ, List.flatMap_append, ih, Nat.succ_mul, List.range_add]
    simp

theorem indices_flat : ∀ {s : List Int}, NonNeg s →
    (indices s).map (fun idx => (flatIndex s idx).toNat) = List.range (size s).toNat
  | [], _ => by simp [indices, flatIndex, size]
  | n :: s, h => by
    have hs : NonNeg s := fun m hm => h m (List.mem_cons_of_mem _ hm)
    have hn : 0 ≤ n := h n List.mem_cons_self
    have h0 := size_nonneg hs
    have e : (size (n :: s)).toNat = n.toNat * (size s).toNat := by
      show (n * size s).toNat = _
      rw [Int.toNat_mul hn h0]
    rw [e, ← flat_range]
    unfold indices
    rw [List.map_flatMap]
    congr 1
    funext i
    rw [← indices_flat hs, List.map_map, List.map_map]
    apply List.map_congr_left
    intro idx hidx
    have := flatIndex_range ((indices_mem hs).1 hidx)
    simp only [Function.comp]
    rw [flatIndex]
    rw [Int.toNat_add (Int.mul_nonneg (by omega) h0) this.1, Int.toNat_mul (by omega) h0]
    simp

/-- threads that scatter a slice of a buffer through an index map -/
structure Scatters {α : Type} (ts : List (Thread α)) (idxs : List Int) (buf : List α) (off n : Nat) :
    Prop where
  only : ∀ t ∈ ts, t = .skip ∨ ∃ j ix v, j < n ∧ idxs[j]? = some ix ∧ buf[off + j]? = some v ∧
    t = .write ix v
  all : ∀ j ix v, j < n → idxs[j]? = some ix → buf[off + j]? = some v → .write ix v ∈ ts

theorem Scatters.perm {α : Type} {ts ts' : List (Thread α)} {idxs : List Int} {buf : List α} {off n : Nat}
    (h : Scatters ts idxs buf off n) (hp : ts'.Perm ts) : Scatters ts' idxs buf off n :=
  ⟨fun t ht => h.only t (hp.mem_iff.1 ht), fun j ix v a b c => hp.mem_iff.2 (h.all j ix v a b c)⟩

/-- the result of unpacking one quantity on the CPU -/
def unpackedQty {α : Type} [Inhabited α] (q : Qty α) (sl : List Slice) (buf : List α) (off : Nat) :
    Qty α :=
  { q with data := q.data.assign sl ⟨shapeOf sl, fun idx =>
      (readAt buf off (slicesSize sl).toNat).getD (flatIndex (shapeOf sl) idx).toNat default⟩ }

theorem unpackOne_ok {α : Type} [Inhabited α] (q : Qty α) (sl : List Slice) (hf : Fwd sl)
    (buf : List α) (off : Nat) (hl : off + (slicesSize sl).toNat ≤ buf.length) :
    unpackOne q sl buf off = .ok (unpackedQty q sl buf off) := by
  unfold unpackOne NArr.reshape
  have hs : (q.data.slice sl).shape = shapeOf sl := rfl
  have hn : 0 ≤ slicesSize sl := by rw [slicesSize_eq hf]; exact size_nonneg (shapeOf_nonneg sl)
  have hlen : ((readAt buf off (slicesSize sl).toNat).length : Int) = size (q.data.slice sl).shape := by
    rw [hs, ← slicesSize_eq hf]
    unfold readAt
    rw [List.length_take, List.length_drop]
    omega
  simp only [if_pos hlen]
  rfl

theorem scratch_pos {α : Type} {g : GQty α} (hg : InMemory g) {sl : List Slice}
    (hs : InsideArr g.q.ds sl) {idx : List Int} (hi : InShape (shapeOf sl) idx) :
    ∃ e : Nat, (scratch sl g.strides g.itemsize).get idx = e ∧
      bytes (absIdx sl idx) g.strides = e * g.itemsize ∧ e < g.mem.length := by
  obtain ⟨e, he, hm⟩ := hg.holds (absIdx sl idx) (by rw [hg.shape]; exact hs.abs hi)
  refine ⟨e, ?_, he, (List.getElem?_eq_some_iff.1 hm).1⟩
  have h1 := hs.length_eq
  have h2 := hi.length_eq
  have h3 := hg.strides
  unfold shapeOf at h2
  rw [List.length_map] at h2
  exact elem_abs hg.item hg.whole sl idx (by omega) (by omega) he

theorem scatter_holds {α : Type} [Inhabited α] {g : GQty α} (hg : InMemory g) (hno : NoOverlap g)
    {sl : List Slice} (hs : InsideArr g.q.ds sl) {buf : List α} {off : Nat}
    (hl : off + (slicesSize sl).toNat ≤ buf.length) {sched : List (Thread α)}
    (h : Scatters sched (scratch sl g.strides g.itemsize).flatten buf off (slicesSize sl).toNat) :
    DeviceHolds g (unpackedQty g.q sl buf off) sched := by
  have hz : g.itemsize ≠ 0 := by have := hg.item; omega
  have hn : (slicesSize sl).toNat = (size (shapeOf sl)).toNat := by rw [slicesSize_eq hs.wf.2]
  have hflat := indices_flat (shapeOf_nonneg sl)
  -- the j-th index of the map
  have hget : ∀ (j : Nat) ix, (scratch sl g.strides g.itemsize).flatten[j]? = some ix →
      ∃ idx, InShape (shapeOf sl) idx ∧ (flatIndex (shapeOf sl) idx).toNat = j ∧
        ix = (scratch sl g.strides g.itemsize).get idx := by
    intro j ix hj
    unfold NArr.flatten at hj
    rw [List.getElem?_map] at hj
    obtain ⟨idx, h1, h2⟩ := Option.map_eq_some_iff.1 hj
    have hmem := List.mem_of_getElem? h1
    refine ⟨idx, (indices_mem (shapeOf_nonneg sl)).1 hmem, ?_, h2.symm⟩
    have : ((indices (shapeOf sl)).map fun idx => (flatIndex (shapeOf sl) idx).toNat)[j]? =
        some (flatIndex (shapeOf sl) idx).toNat := by
      rw [List.getElem?_map]
      have h1' : (indices (shapeOf sl))[j]? = some idx := h1
      rw [h1']; rfl
    rw [hflat] at this
    have h3 := List.getElem?_eq_some_iff.1 this
    obtain ⟨h3, h4⟩ := h3
    rw [List.getElem_range] at h4
    exact h4.symm
  have hinj : ∀ idx idx', InShape (shapeOf sl) idx → InShape (shapeOf sl) idx' →
      (scratch sl g.strides g.itemsize).get idx = (scratch sl g.strides g.itemsize).get idx' →
      idx = idx' := by
    intro idx idx' h1 h2 he
    obtain ⟨e, a1, a2, _⟩ := scratch_pos hg hs h1
    obtain ⟨e', b1, b2, _⟩ := scratch_pos hg hs h2
    have : e = e' := by omega
    subst this
    have := hno _ _ (by rw [hg.shape]; exact hs.abs h1) (by rw [hg.shape]; exact hs.abs h2)
      (by rw [a2, b2])
    rw [← (rel_selects h1).2, this, (rel_selects h2).2]
  have c1 : ∀ t ∈ sched, t = .skip ∨ ∃ (p : Nat) (v : α), t = .write p v ∧ p < g.mem.length := by
    intro t ht
    rcases h.only t ht with h | ⟨j, ix, v, _, h2, _, rfl⟩
    · exact .inl h
    · obtain ⟨idx, i1, _, rfl⟩ := hget j ix h2
      obtain ⟨e, a1, _, a3⟩ := scratch_pos hg hs i1
      exact .inr ⟨e, v, by rw [a1], a3⟩
  have c2 : ∀ p v v', .write p v ∈ sched → .write p v' ∈ sched → v = v' := by
    intro p v v' h1 h2
    rcases h.only _ h1 with h1 | ⟨j, ix, w, _, j2, j3, e⟩
    · cases h1
    · rcases h.only _ h2 with h2 | ⟨j', ix', w', _, j2', j3', e'⟩
      · cases h2
      · injection e with e1 e2
        injection e' with e1' e2'
        obtain ⟨idx, i1, i2, i3⟩ := hget j ix j2
        obtain ⟨idx', i1', i2', i3'⟩ := hget j' ix' j2'
        have := hinj idx idx' i1 i1' (by rw [← i3, ← i3', ← e1, ← e1'])
        subst this
        have : j = j' := by omega
        subst this
        rw [j3] at j3'
        rw [e2, e2']
        exact Option.some.inj j3'
  obtain ⟨out, ho, hol, hw, hk⟩ := run_writes sched g.mem c1 c2
  refine ⟨out, ho, ⟨hg.item, hg.shape, hg.strides, hg.whole, ?_⟩, hol, ?_⟩
  · intro idx hidx
    have hidx' : InShape g.q.data.shape idx := hidx
    obtain ⟨e, he, hm⟩ := hg.holds idx hidx'
    refine ⟨e, he, ?_⟩
    by_cases hsel : Selects sl idx
    · have hrel := selects_rel hsel
      obtain ⟨e', a1, a2, a3⟩ := scratch_pos hg hs hrel.1
      rw [hrel.2] at a2
      have ee : e = e' := by
        have : (e : Int) = e' := Int.eq_of_mul_eq_mul_right hz (by rw [← he, ← a2])
        omega
      subst ee
      have hr := flatIndex_range hrel.1
      have hj : (flatIndex (shapeOf sl) (relIdx sl idx)).toNat < (slicesSize sl).toNat := by
        rw [hn]; omega
      have hbj : off + (flatIndex (shapeOf sl) (relIdx sl idx)).toNat < buf.length := by omega
      have hmem := h.all _ (e : Int) buf[off + (flatIndex (shapeOf sl) (relIdx sl idx)).toNat] hj
        (by
          unfold NArr.flatten
          rw [List.getElem?_map]
          have : (indices (scratch sl g.strides g.itemsize).shape)[(flatIndex (shapeOf sl)
            (relIdx sl idx)).toNat]? = some (relIdx sl idx) := indices_get hrel.1
          rw [this]
          simp [a1]) (List.getElem?_eq_getElem hbj)
      rw [hw e _ hmem]
      have hd : (unpackedQty g.q sl buf off).data.get idx =
          (readAt buf off (slicesSize sl).toNat).getD
            (flatIndex (shapeOf sl) (relIdx sl idx)).toNat default := by
        unfold unpackedQty NArr.assign
        simp only
        rw [if_pos (inSlices_iff.2 hsel)]
        rfl
      simp only [hd]
      unfold readAt
      rw [List.getD_eq_getElem?_getD, List.getElem?_take_of_lt hj, List.getElem?_drop,
        List.getElem?_eq_getElem hbj]
      rfl
    · have hd : (unpackedQty g.q sl buf off).data.get idx = g.q.data.get idx := by
        unfold unpackedQty NArr.assign
        simp only
        rw [if_neg]
        rw [inSlices_iff]; exact hsel
      simp only [hd]
      rw [hk e, hm]
      intro v hv
      rcases h.only _ hv with hv | ⟨j, ix, w, _, j2, _, e1⟩
      · cases hv
      · injection e1 with e1 _
        obtain ⟨idx', i1, _, i3⟩ := hget j ix j2
        obtain ⟨e', a1, a2, _⟩ := scratch_pos hg hs i1
        have : e = e' := by omega
        subst this
        have := hno _ _ (by rw [hg.shape]; exact hs.abs i1) hidx' (by rw [a2, he])
        exact hsel (this ▸ (rel_selects i1).1)
  · intro e he
    refine hk e fun v hv => ?_
    rcases h.only _ hv with hv | ⟨j, ix, w, _, j2, _, e1⟩
    · cases hv
    · injection e1 with e1 _
      obtain ⟨idx', i1, _, i3⟩ := hget j ix j2
      obtain ⟨e', a1, a2, _⟩ := scratch_pos hg hs i1
      have : e = e' := by omega
      subst this
      exact he _ (by rw [hg.shape]; exact hs.abs i1) a2

theorem scatter_some {α : Type} {src : List α} {idxs : List Int} {tid pos : Nat} {ix : Int} {v : α}
    (h1 : idxs[tid]? = some ix) (h2 : src[pos]? = some v) :
    scatterThread src idxs tid pos = .write ix v := by
  unfold scatterThread
  rw [h1, h2]

theorem scratch_length (sl : List Slice) (hf : Fwd sl) (st : List Int) (z : Int) :
    (scratch sl st z).flatten.length = (slicesSize sl).toNat := by
  rw [flatten_length (shapeOf_nonneg sl), slicesSize_eq hf]; rfl

/-- launches in which the threads `lo ≤ tid < lo + n` scatter -/
theorem Scatters.launch {α : Type} {f : Nat → Thread α} {idxs : List Int} {buf : List α}
    {lo n N off : Nat} (hi : idxs.length = n) (hb : off + lo + n ≤ buf.length) (hN : lo + n ≤ N)
    (hf : ∀ t, lo ≤ t → t < lo + n → f t = scatterThread buf idxs (t - lo) (off + t))
    (hs : ∀ t, ¬ (lo ≤ t ∧ t < lo + n) → f t = .skip) :
    Scatters ((List.range N).map f) idxs buf (off + lo) n := by
  refine ⟨?_, ?_⟩
  · intro t ht
    obtain ⟨i, _, rfl⟩ := List.mem_map.1 ht
    by_cases h : lo ≤ i ∧ i < lo + n
    · have h1 : i - lo < idxs.length := by omega
      have h2 : off + lo + (i - lo) < buf.length := by omega
      refine .inr ⟨i - lo, idxs[i - lo], buf[off + lo + (i - lo)], by omega,
        List.getElem?_eq_getElem h1, List.getElem?_eq_getElem h2, ?_⟩
      rw [hf i h.1 h.2]
      refine scatter_some (List.getElem?_eq_getElem h1) ?_
      rw [← List.getElem?_eq_getElem h2, show off + i = off + lo + (i - lo) by omega]
    · exact .inl (hs i h)
  · intro j ix v hj h1 h2
    refine List.mem_map.2 ⟨lo + j, List.mem_range.2 (by omega), ?_⟩
    rw [hf (lo + j) (by omega) (by omega)]
    refine scatter_some ?_ ?_
    · rw [show lo + j - lo = j by omega]; exact h1
    · rw [show off + (lo + j) = off + lo + j by omega]; exact h2

/-- what a receiver needs -/
structure RecvOk {α : Type} (g : GQty α) (sl : List Slice) : Prop where
  mem : InMemory g
  over : NoOverlap g
  ins : InsideArr g.q.ds sl

theorem gpuUnpackScalar_holds {α : Type} [Inhabited α] (buf : List α) :
    ∀ (items : List (GQty α × ExSpec)) (off : Nat),
    (∀ it ∈ items, RecvOk it.1 it.2.unpackSlices) →
    off + ((items.map fun it => (slicesSize it.2.unpackSlices).toNat).sum) ≤ buf.length →
    ∃ out, unpackScalarLoop (items.map fun it => (it.1.q, it.2)) off buf = .ok out ∧
      out.length = items.length ∧ (gpuUnpackScalar buf items off).length = items.length ∧
      ∀ (k : Nat) it ts q, items[k]? = some it → (gpuUnpackScalar buf items off)[k]? = some ts →
        out[k]? = some q → ∀ sched : List (Thread α), sched.Perm ts → DeviceHolds it.1 q sched
  | [], off, _, _ => ⟨[], rfl, rfl, rfl, by simp⟩
  | (g, info) :: rest, off, h, hl => by
    obtain ⟨hg, hno, hs⟩ := h _ List.mem_cons_self
    rw [List.map_cons, List.sum_cons] at hl
    simp only at hl hs hno hg
    obtain ⟨out, ho, l1, l2, hd⟩ := gpuUnpackScalar_holds buf rest
      (off + (slicesSize info.unpackSlices).toNat) (fun it hit => h it (List.mem_cons_of_mem _ hit))
      (by omega)
    refine ⟨unpackedQty g.q info.unpackSlices buf off :: out, ?_, by simp [l1], ?_, ?_⟩
    · rw [List.map_cons]
      unfold unpackScalarLoop
      rw [unpackOne_ok g.q info.unpackSlices hs.wf.2 buf off (by omega)]
      simp only [ho]
      rfl
    · unfold gpuUnpackScalar
      simp [l2]
    · intro k it ts q h1 h2 h3 sched hp
      unfold gpuUnpackScalar at h2
      cases k with
      | succ k =>
        rw [List.getElem?_cons_succ] at h1 h2 h3
        exact hd k it ts q h1 h2 h3 sched hp
      | zero =>
        rw [List.getElem?_cons_zero] at h1 h2 h3
        cases h1; cases h2; cases h3
        refine scatter_holds hg hno hs (by omega) (Scatters.perm ?_ hp)
        rw [buildIndices_false]
        refine Scatters.launch (lo := 0) (scratch_length _ hs.wf.2 _ _) (by omega)
          (by have := launch_ge (slicesSize info.unpackSlices).toNat; omega) ?_ ?_
        · intro t _ ht
          unfold unpackThread
          rw [if_neg (by omega)]
          rfl
        · intro t ht
          unfold unpackThread
          exact if_pos (by omega)

theorem gpuUnpackVector_holds {α : Type} [Inhabited α] (buf : List α) :
    ∀ (items : List (GVec α)) (off : Nat),
    (∀ v ∈ items, RecvOk v.x v.ix.unpackSlices ∧ RecvOk v.y v.iy.unpackSlices) →
    off + ((items.map fun v => (slicesSize v.ix.unpackSlices).toNat +
      (slicesSize v.iy.unpackSlices).toNat).sum) ≤ buf.length →
    ∃ out, unpackVectorLoop (items.map GVec.item) off buf = .ok out ∧
      out.length = items.length ∧ (gpuUnpackVector buf items off).length = items.length ∧
      ∀ (k : Nat) v ts q, items[k]? = some v → (gpuUnpackVector buf items off)[k]? = some ts →
        out[k]? = some q →
        (∀ sched : List (Thread α), sched.Perm ts.1 → DeviceHolds v.x q.1 sched) ∧
        (∀ sched : List (Thread α), sched.Perm ts.2 → DeviceHolds v.y q.2 sched)
  | [], off, _, _ => ⟨[], rfl, rfl, rfl, by simp⟩
  | v :: rest, off, h, hl => by
    obtain ⟨⟨hg, hno, hs⟩, hg', hno', hs'⟩ := h _ List.mem_cons_self
    rw [List.map_cons, List.sum_cons] at hl
    obtain ⟨out, ho, l1, l2, hd⟩ := gpuUnpackVector_holds buf rest
      (off + (slicesSize v.ix.unpackSlices).toNat + (slicesSize v.iy.unpackSlices).toNat)
      (fun it hit => h it (List.mem_cons_of_mem _ hit)) (by omega)
    have hoff : off + ((slicesSize v.ix.unpackSlices).toNat + (slicesSize v.iy.unpackSlices).toNat) =
      off + (slicesSize v.ix.unpackSlices).toNat + (slicesSize v.iy.unpackSlices).toNat := by omega
    refine ⟨(unpackedQty v.x.q v.ix.unpackSlices buf off,
      unpackedQty v.y.q v.iy.unpackSlices buf (off + (slicesSize v.ix.unpackSlices).toNat)) :: out,
      ?_, by simp [l1], ?_, ?_⟩
    · rw [List.map_cons]
      unfold unpackVectorLoop
      simp only [GVec.item]
      rw [unpackOne_ok v.x.q v.ix.unpackSlices hs.wf.2 buf off (by omega)]
      simp only [Except.bind, bind]
      rw [unpackOne_ok v.y.q v.iy.unpackSlices hs'.wf.2 buf _ (by omega)]
      simp only
      rw [ho]
      rfl
    · unfold gpuUnpackVector
      simp only [hoff]
      simp [l2]
    · intro k it ts q h1 h2 h3
      unfold gpuUnpackVector at h2
      simp only [hoff] at h2
      cases k with
      | succ k =>
        rw [List.getElem?_cons_succ] at h1 h2 h3
        exact hd k it ts q h1 h2 h3
      | zero =>
        rw [List.getElem?_cons_zero] at h1 h2 h3
        cases h1; cases h2; cases h3
        have hge := launch_ge ((slicesSize v.ix.unpackSlices).toNat +
          (slicesSize v.iy.unpackSlices).toNat)
        refine ⟨fun sched hp => scatter_holds hg hno hs (by omega) (Scatters.perm ?_ hp),
          fun sched hp => scatter_holds hg' hno' hs' (by omega) (Scatters.perm ?_ hp)⟩
        · rw [buildIndices_false]
          refine Scatters.launch (lo := 0) (scratch_length _ hs.wf.2 _ _) (by omega) (by omega) ?_ ?_
          · intro t _ ht
            unfold unpackVectorThreadX
            rw [if_pos (by omega)]
            rfl
          · intro t ht
            unfold unpackVectorThreadX
            exact if_neg (by omega)
        · rw [buildIndices_false]
          refine Scatters.launch (lo := (slicesSize v.ix.unpackSlices).toNat)
            (scratch_length _ hs'.wf.2 _ _) (by omega) (by omega) ?_ ?_
          · intro t h1 ht
            unfold unpackVectorThreadY
            rw [if_neg (by omega), if_pos (by omega), buildIndices_false]
          · intro t ht
            unfold unpackVectorThreadY
            by_cases h1 : t < (slicesSize v.ix.unpackSlices).toNat
            · exact if_pos h1
            · rw [if_neg h1, if_neg (by omega)]

/-! C order -/

/-- strides of a contiguous array in C order -/
def cStrides (z : Int) : List Int → List Int
  | [] => []
  | _ :: s => z * size s :: cStrides z s

theorem cStrides_length (z : Int) : ∀ s, (cStrides z s).length = s.length
  | [] => rfl
  | _ :: s => by simp [cStrides, cStrides_length z s]

theorem cStrides_bytes (z : Int) : ∀ {s idx : List Int}, InShape s idx →
    bytes idx (cStrides z s) = flatIndex s idx * z
  | [], [], _ => by simp [bytes, cStrides, flatIndex]
  | n :: s, i :: idx, h => by
    cases h with
    | cons _ h =>
      rw [cStrides, bytes, flatIndex, cStrides_bytes z h]; ring

/-- a quantity stored contiguously in C order is in memory, without overlap -/
theorem cOrder {α : Type} [Inhabited α] (q : Qty α) (hs : q.data.shape = q.ds.map DimSpec.shape)
    {z : Int} (hz : 0 < z) :
    InMemory ⟨q, q.data.flatten, cStrides z q.data.shape, z⟩ ∧
    NoOverlap ⟨q, q.data.flatten, cStrides z q.data.shape, z⟩ := by
  refine ⟨⟨hz, hs, ?_, ?_, ?_⟩, ?_⟩
  · simp only [cStrides_length, hs, List.length_map]
  · intro s hm
    simp only at hm ⊢
    generalize q.data.shape = sh at hm
    induction sh with
    | nil => cases hm
    | cons n sh ih =>
      rcases List.mem_cons.1 hm with rfl | hm
      · exact ⟨size sh, by ring⟩
      · exact ih hm
  · intro idx hi
    have hr := flatIndex_range hi
    refine ⟨(flatIndex q.data.shape idx).toNat, ?_, ?_⟩
    · simp only [cStrides_bytes z hi]
      rw [Int.toNat_of_nonneg hr.1]
    · unfold NArr.flatten
      simp only [List.getElem?_map]
      have hi' : InShape q.data.shape idx := hi
      rw [indices_get hi']; rfl
  · intro idx idx' h1 h2 he
    simp only [cStrides_bytes z h1, cStrides_bytes z h2] at he
    have he := Int.eq_of_mul_eq_mul_right (show z ≠ 0 by omega) he
    have e1 := indices_get h1
    have e2 := indices_get h2
    simp only at e1 e2 he
    rw [he, e2] at e1
    exact (Option.some.inj e1).symm

end NDSL
