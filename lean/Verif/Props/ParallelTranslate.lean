import Verif.Model.ParallelTranslate
import Verif.Props.StorageData
import Mathlib.Data.List.InsertIdx

/-! C140: serialized data of the parallel translate tests goes into quantities and comes back as it was. -/
namespace NDSL.ParallelTranslate

open NDSL.Storage

variable {V : Type}

/-! ### Specification -/

/-- the data with a halo fits: along each axis it begins the halo's width before the origin, not before the array, is as long as the
compute domain and twice the halo, and ends inside the array -/
def Fits (h : Halo) : List Axis → List Nat → List Nat → List Nat → List Nat → Prop
  | [], [], [], [], [] => True
  | d :: ds, o :: os, e :: es, m :: ms, n :: ns =>
    h.along d ≤ o ∧ (n : Int) = e + 2 * h.along d ∧ (o : Int) + e + h.along d ≤ m ∧ Fits h ds os es ms ns
  | _, _, _, _, _ => False

/-- where the data begins: the halo's width before the origin -/
def begins (h : Halo) (ds : List Axis) (os : List Nat) : List Nat :=
  List.zipWith (fun d (o : Nat) => ((o : Int) - h.along d).toNat) ds os

/-- `l'` is `l` with entry `k` moved to the end -/
def MovedLast {α : Type} (k : Nat) (l l' : List α) : Prop :=
  ∃ a x b, l = a ++ x :: b ∧ a.length = k ∧ l' = a ++ b ++ [x]

/-- the name in the state -/
def Var.key (v : Var) : String := v.std.getD v.name

/-- the data can be put into a quantity made for the variable -/
def Good (s : Sizer) (kaxis : String → Option Nat) (v : Var) (d : Nd V) : Prop :=
  v.dims = [] ∨ (Fits v.halo v.dims (s.origin v.dims) (s.extent v.dims) (s.shape v.dims) d.shape ∧
    ∀ k, kaxis v.name = some k → k < v.dims.length)

/-- what has been returned is the data -/
def Returned (v : Var) (d : Nd V) (r : Val V) : Prop :=
  ∃ a, r = .raw a ∧ a.shape = d.shape ∧ (v.dims = [] → a = d) ∧ ∀ i, isIndex d.shape i → a.get i = d.get i

/-! ### One variable -/

theorem moved {α : Type} {k : Nat} {l : List α} (h : k < l.length) :
    MovedLast k l (toEnd k l) ∧ fromEnd k (toEnd k l) = l := by
  have e : toEnd k l = l.eraseIdx k ++ [l[k]] := by
    unfold toEnd; rw [List.getElem?_eq_getElem h]; rfl
  constructor
  · refine ⟨l.take k, l[k], l.drop (k + 1), ?_, ?_, ?_⟩
    · rw [List.getElem_cons_drop, List.take_append_drop]
    · simp; omega
    · rw [e, List.eraseIdx_eq_take_drop_succ]
  · rw [e]
    unfold fromEnd
    simp only [List.getLast?_append, List.getLast?_singleton, Option.some_or, List.dropLast_concat]
    rw [if_pos (by rw [List.length_eraseIdx, if_pos h]; omega)]
    exact List.insertIdx_eraseIdx_getElem h

theorem fits_lengths {h : Halo} : ∀ {ds : List Axis} {os es ms ns : List Nat}, Fits h ds os es ms ns →
    os.length = ds.length ∧ es.length = ds.length ∧ ms.length = ds.length ∧ ns.length = ds.length
  | [], [], [], [], [], _ => ⟨rfl, rfl, rfl, rfl⟩
  | d :: ds, o :: os, e :: es, m :: ms, n :: ns, hf => by
    obtain ⟨a, b, c, d⟩ := fits_lengths hf.2.2.2
    simp [a, b, c, d]
  | [], _ :: _, _, _, _, hf => hf.elim
  | [], [], _ :: _, _, _, hf => hf.elim
  | [], [], [], _ :: _, _, hf => hf.elim
  | [], [], [], [], _ :: _, hf => hf.elim
  | _ :: _, [], _, _, _, hf => hf.elim
  | _ :: _, _ :: _, [], _, _, hf => hf.elim
  | _ :: _, _ :: _, _ :: _, [], _, hf => hf.elim
  | _ :: _, _ :: _, _ :: _, _ :: _, [], hf => hf.elim

theorem slices_fit {h : Halo} : ∀ {ds : List Axis} {os es ms ns : List Nat}, Fits h ds os es ms ns →
    slices h ds os es ms = List.zipWith (fun s n => (s, s + n)) (begins h ds os) ns ∧ fitsAt (begins h ds os) ns ms
  | [], [], [], [], [], _ => ⟨rfl, trivial⟩
  | d :: ds, o :: os, e :: es, m :: ms, n :: ns, hf => by
    obtain ⟨a, b⟩ := slices_fit hf.2.2.2
    obtain ⟨h1, h2, h3, _⟩ := hf
    refine ⟨?_, ?_, b⟩
    · simp only [slices, begins, List.zipWith_cons_cons]
      rw [a]
      unfold begins
      congr 2
      · unfold bound; rw [if_neg (by omega)]
      · unfold bound; rw [if_neg (by omega)]; omega
    · show ((o : Int) - h.along d).toNat + n ≤ m
      omega
  | [], _ :: _, _, _, _, hf => hf.elim
  | [], [], _ :: _, _, _, hf => hf.elim
  | [], [], [], _ :: _, _, hf => hf.elim
  | [], [], [], [], _ :: _, hf => hf.elim
  | _ :: _, [], _, _, _, hf => hf.elim
  | _ :: _, _ :: _, [], _, _, hf => hf.elim
  | _ :: _, _ :: _, _ :: _, [], _, hf => hf.elim
  | _ :: _, _ :: _, _ :: _, _ :: _, [], hf => hf.elim

theorem placed_at (z : V) (d : Nd V) (st : List Nat) : ∀ (i ns : List Nat) (ms : List Nat), fitsAt st ns ms → isIndex ns i →
    inBox st ns (List.zipWith (· + ·) st i) = true ∧ List.zipWith (· - ·) (List.zipWith (· + ·) st i) st = i := by
  induction st with
  | nil =>
    intro i ns ms hf hi
    cases ns with
    | nil => cases i with
      | nil => exact ⟨rfl, rfl⟩
      | cons _ _ => exact hi.elim
    | cons _ _ => cases ms <;> exact hf.elim
  | cons s st ih =>
    intro i ns ms hf hi
    cases ns with
    | nil => cases ms <;> exact hf.elim
    | cons n ns =>
      cases ms with
      | nil => exact hf.elim
      | cons m ms =>
        cases i with
        | nil => exact hi.elim
        | cons i is =>
          obtain ⟨a, b⟩ := ih is ns ms hf.2 hi.2
          have := hi.1
          simp only [List.zipWith_cons_cons, inBox, a, b, Bool.and_true, decide_eq_true_eq]
          refine ⟨by omega, ?_⟩
          congr 1
          omega

theorem zip_starts : ∀ (st ns shape : List Nat), fitsAt st ns shape →
    (List.zipWith (fun s n => (s, n)) st ns).map (·.1) = st
  | [], [], [], _ => rfl
  | s :: ss, n :: ns, m :: ms, h => by simp [zip_starts ss ns ms h.2]
  | [], _ :: _, _, h => by cases h
  | [], [], _ :: _, h => by cases h
  | _ :: _, [], _, h => by cases h
  | _ :: _, _ :: _, [], h => by cases h

/-- the quantity made for a variable, with the data in it -/
theorem assigned (z : V) (s : Sizer) (v : Var) (d : Nd V)
    (hf : Fits v.halo v.dims (s.origin v.dims) (s.extent v.dims) (s.shape v.dims) d.shape) :
    ∃ a, assign (zeros z (s.shape v.dims)) (slices v.halo v.dims (s.origin v.dims) (s.extent v.dims) (s.shape v.dims)) d = .ok a ∧
      a.shape = s.shape v.dims ∧ ∀ i, a.get i = placed z d (begins v.halo v.dims (s.origin v.dims)) i := by
  obtain ⟨h1, h2⟩ := slices_fit hf
  have hl := fits_lengths hf
  have hb : (begins v.halo v.dims (s.origin v.dims)).length = v.dims.length := by
    unfold begins; rw [List.length_zipWith, hl.1, Nat.min_self]
  have := assign_ok z d (begins v.halo v.dims (s.origin v.dims)) (s.shape v.dims) 0
    (by simpa using h2) (by rw [hb, List.drop_eq_nil_of_le (by omega), List.drop_eq_nil_of_le (by omega)])
  rw [h1]
  simpa using this

/-- reading what was placed -/
theorem read_placed (z : V) (d a : Nd V) (st : List Nat) (hf : fitsAt st d.shape a.shape) (hl : st.length = d.shape.length)
    (ha : ∀ i, a.get i = placed z d st i) :
    ∃ r, read a (List.zipWith (fun s n => (s, s + n)) st d.shape) = .ok r ∧ r.shape = d.shape ∧
      ∀ i, isIndex d.shape i → r.get i = d.get i := by
  have hlm : a.shape.length = d.shape.length := by
    clear ha hl
    generalize a.shape = ms at hf
    generalize d.shape = ns at hf
    induction st generalizing ns ms with
    | nil =>
      cases ns with
      | nil => cases ms with
        | nil => rfl
        | cons _ _ => exact hf.elim
      | cons _ _ => cases ms <;> exact hf.elim
    | cons s st ih =>
      cases ns with
      | nil => cases ms <;> exact hf.elim
      | cons n ns => cases ms with
        | nil => exact hf.elim
        | cons m ms => simp [ih ms ns hf.2]
  have hr := regions_ok st d.shape a.shape 0 (by simpa using hf)
    (by rw [List.drop_eq_nil_of_le (by omega), List.drop_eq_nil_of_le (by omega)])
  simp only [List.replicate_zero, List.append_nil] at hr
  unfold read
  rw [hr]
  simp only [zip_lens _ _ _ hf, zip_starts _ _ _ hf]
  refine ⟨_, rfl, rfl, fun i hi => ?_⟩
  obtain ⟨e1, e2⟩ := placed_at z d st i d.shape a.shape hf hi
  show a.get (List.zipWith (· + ·) st i) = d.get i
  rw [ha]
  unfold placed
  rw [if_pos e1, e2]

/-- **C140**: a variable with dims becomes a quantity with the origin and extent of the grid for its dims; the data lies in it with its
halo around the compute domain, and zeros elsewhere; if a vertical axis is named, it is moved to the end in all of these -/
theorem C140_input (z : V) (s : Sizer) (kaxis : String → Option Nat) (v : Var) (d : Nd V) (hd : v.dims ≠ [])
    (hg : Good s kaxis v d) :
    ∃ q a, inputValue z s kaxis v d = .ok (.qty q) ∧ a.shape = s.shape v.dims ∧
      (∀ i, a.get i = placed z d (begins v.halo v.dims (s.origin v.dims)) i) ∧
      (kaxis v.name = none → q = ⟨v.dims, s.origin v.dims, s.extent v.dims, a⟩) ∧
      ∀ k, kaxis v.name = some k → MovedLast k v.dims q.dims ∧ MovedLast k (s.origin v.dims) q.origin ∧
        MovedLast k (s.extent v.dims) q.extent ∧ MovedLast k a.shape q.data.shape ∧
        ∀ i, i.length = v.dims.length → ∀ i', MovedLast k i i' → q.data.get i' = a.get i := by
  rcases hg with h | ⟨hf, hk⟩
  · exact absurd h hd
  · obtain ⟨a, ha, hs, hv⟩ := assigned z s v d hf
    have hl := fits_lengths hf
    have hpos : v.dims.length > 0 := List.length_pos_iff.2 hd
    cases hkk : kaxis v.name with
    | none =>
      refine ⟨⟨v.dims, s.origin v.dims, s.extent v.dims, a⟩, a, ?_, hs, hv, fun _ => rfl, fun k h => by cases h⟩
      unfold inputValue
      rw [if_pos hpos]
      simp only [Qty.slices, zeros, bind, Except.bind] at ha ⊢
      rw [ha]
      simp only [hkk]
    | some k =>
      have hlt := hk k hkk
      refine ⟨⟨toEnd k v.dims, toEnd k (s.origin v.dims), toEnd k (s.extent v.dims),
        ⟨toEnd k a.shape, fun i => a.get (fromEnd k i)⟩⟩, a, ?_, hs, hv, (fun h => by cases h), fun k' h => ?_⟩
      · unfold inputValue
        rw [if_pos hpos]
        simp only [Qty.slices, zeros, bind, Except.bind] at ha ⊢
        rw [ha]
        simp only [hkk, Qty.kToEnd, if_pos hlt, Except.map]
      · cases h
        refine ⟨(moved hlt).1, (moved (by omega)).1, (moved (by omega)).1, (moved (by rw [hs]; omega)).1, ?_⟩
        intro i hi i' ⟨x, y, w, e1, e2, e3⟩
        have h3 := moved (k := k) (l := i) (by omega)
        have : i' = toEnd k i := by
          obtain ⟨⟨x', y', w', f1, f2, f3⟩, _⟩ := h3
          rw [e1] at f1
          obtain ⟨g1, g2⟩ := List.append_inj f1 (by omega)
          cases g1
          injection g2 with g2 g3
          rw [e3, f3, g2, g3]
        rw [this]
        show a.get (fromEnd k (toEnd k i)) = a.get i
        rw [h3.2]

/-- taking out what was put in -/
theorem output_ok (z : V) (s : Sizer) (kaxis : String → Option Nat) (v : Var) (d : Nd V) (hg : Good s kaxis v d)
    (hraw : v.dims = [] → kaxis v.name = none) :
    ∃ x, inputValue z s kaxis v d = .ok x ∧ ∀ (st : List (String × Val V)) (std : String), v.std = some std →
      dictGet st std = some x → ∃ r st', outputValue kaxis v st = .ok (r, st') ∧ Returned v d r ∧
        ∀ n, n ≠ std → dictGet st' n = dictGet st n := by
  by_cases hd : v.dims = []
  · refine ⟨.raw d, by unfold inputValue; rw [hd]; rfl, fun st std hs hx => ⟨.raw d, st, ?_, ⟨d, rfl, rfl, fun _ => rfl, fun _ _ => rfl⟩,
      fun _ _ => rfl⟩⟩
    unfold outputValue
    rw [hs]
    simp only [hx, hraw hd, hd]
    rfl
  · rcases hg with h | ⟨hf, hk⟩
    · exact absurd h hd
    · obtain ⟨a, ha, hs, hv⟩ := assigned z s v d hf
      have hl := fits_lengths hf
      have hpos : v.dims.length > 0 := List.length_pos_iff.2 hd
      obtain ⟨hsl, hfa⟩ := slices_fit hf
      have hb : (begins v.halo v.dims (s.origin v.dims)).length = d.shape.length := by
        unfold begins; rw [List.length_zipWith, hl.1, Nat.min_self, hl.2.2.2]
      -- whatever the quantity, if moving the axis back gives these, the data comes out
      have hout : ∀ (q' : Qty V), q'.dims = v.dims → q'.origin = s.origin v.dims → q'.extent = s.extent v.dims →
          q'.data.shape = a.shape → (∀ i, i.length = a.shape.length → q'.data.get i = a.get i) →
          ∃ r, read q'.data (q'.slices v.halo) = .ok r ∧ Returned v d (.raw r) := by
        intro q' e1 e2 e3 e4 e5
        unfold Qty.slices
        rw [e1, e2, e3, e4, hs, hsl]
        obtain ⟨r, hr, hsh, hget⟩ := read_placed z d a _ (by rw [hs]; exact hfa) hb hv
        have hm : regions q'.data.shape (List.zipWith (fun s n => (s, s + n)) (begins v.halo v.dims (s.origin v.dims)) d.shape)
            = regions a.shape (List.zipWith (fun s n => (s, s + n)) (begins v.halo v.dims (s.origin v.dims)) d.shape) := by rw [e4]
        have hreg := regions_ok (begins v.halo v.dims (s.origin v.dims)) d.shape a.shape 0 (by rw [hs]; simpa using hfa)
          (by rw [List.drop_eq_nil_of_le (by omega), List.drop_eq_nil_of_le (by rw [hs]; omega)])
        simp only [List.replicate_zero, List.append_nil] at hreg
        unfold read at hr ⊢
        rw [hm]
        rw [hreg] at hr ⊢
        simp only [Except.ok.injEq] at hr
        refine ⟨_, rfl, _, rfl, ?_, fun h => absurd h hd, fun i hi => ?_⟩
        · exact zip_lens _ _ _ hfa
        · rw [← hget i hi, ← hr]
          have hil : i.length = d.shape.length := by
            clear hget hr hsh
            generalize d.shape = ns at hi
            induction ns generalizing i with
            | nil => cases i with
              | nil => rfl
              | cons _ _ => exact hi.elim
            | cons n ns ih => cases i with
              | nil => exact hi.elim
              | cons j js => simp [ih js hi.2]
          refine e5 _ ?_
          rw [zip_starts _ _ _ hfa, List.length_zipWith, hb, hil, hs]
          omega
      cases hkk : kaxis v.name with
      | none =>
        refine ⟨.qty ⟨v.dims, s.origin v.dims, s.extent v.dims, a⟩, ?_, fun st std hstd hx => ?_⟩
        · unfold inputValue
          rw [if_pos hpos]
          simp only [Qty.slices, zeros, bind, Except.bind] at ha ⊢
          rw [ha]
          simp only [hkk]
        · obtain ⟨r, hr, hret⟩ := hout ⟨v.dims, s.origin v.dims, s.extent v.dims, a⟩ rfl rfl rfl rfl (fun _ _ => rfl)
          refine ⟨.raw r, st, ?_, hret, fun _ _ => rfl⟩
          unfold outputValue
          rw [hstd]
          simp only [hx, hkk, if_pos hpos, hr, Except.map]
      | some k =>
        have hlt := hk k hkk
        refine ⟨.qty ⟨toEnd k v.dims, toEnd k (s.origin v.dims), toEnd k (s.extent v.dims),
          ⟨toEnd k a.shape, fun i => a.get (fromEnd k i)⟩⟩, ?_, fun st std hstd hx => ?_⟩
        · unfold inputValue
          rw [if_pos hpos]
          simp only [Qty.slices, zeros, bind, Except.bind] at ha ⊢
          rw [ha]
          simp only [hkk, Qty.kToEnd, if_pos hlt, Except.map]
        · let q' : Qty V := Qty.kFromEnd k ⟨toEnd k v.dims, toEnd k (s.origin v.dims), toEnd k (s.extent v.dims),
            ⟨toEnd k a.shape, fun i => a.get (fromEnd k i)⟩⟩
          obtain ⟨r, hr, hret⟩ := hout q' (moved hlt).2 (moved (by omega)).2 (moved (by omega)).2 (moved (by rw [hs]; omega)).2
            (fun i hi => by
              show a.get (fromEnd k (toEnd k i)) = a.get i
              rw [(moved (by rw [hi, hs]; omega)).2])
          refine ⟨.raw r, dictSet st std (.qty q'), ?_, hret, fun n hn => ?_⟩
          · unfold outputValue
            rw [hstd]
            simp only [hx, hkk, if_pos hpos]
            show (read q'.data (q'.slices v.halo)).map _ = _
            rw [hr]
            rfl
          · rw [dictGet_set, if_neg hn]

/-! ### The whole state -/

theorem state_ok (z : V) (s : Sizer) (kaxis : String → Option Nat) (data : List (String × Nd V)) :
    ∀ (vs : List Var) (st : List (String × Val V)), (vs.map Var.key).Nodup →
    (∀ v ∈ vs, ∃ d x, dictGet data v.name = some d ∧ inputValue z s kaxis v d = .ok x) →
    ∃ st', stateFrom z s kaxis data vs st = .ok st' ∧
      (∀ v ∈ vs, ∀ d x, dictGet data v.name = some d → inputValue z s kaxis v d = .ok x → dictGet st' v.key = some x) ∧
      ∀ n, (∀ v ∈ vs, v.key ≠ n) → dictGet st' n = dictGet st n
  | [], st, _, _ => ⟨st, rfl, (fun v hv => by cases hv), fun _ _ => rfl⟩
  | v :: vs, st, hn, h => by
    rw [List.map_cons, List.nodup_cons] at hn
    obtain ⟨d, x, hd, hx⟩ := h v List.mem_cons_self
    obtain ⟨st', h1, h2, h3⟩ := state_ok z s kaxis data vs (dictSet st v.key x) hn.2
      (fun w hw => h w (List.mem_cons_of_mem _ hw))
    refine ⟨st', ?_, ?_, ?_⟩
    · unfold stateFrom
      rw [hd]
      simp only [bind, Except.bind, hx]
      exact h1
    · intro w hw d' x' hd' hx'
      rcases List.mem_cons.1 hw with e | hw
      · subst e
        rw [hd] at hd'; cases hd'
        rw [hx] at hx'; cases hx'
        rw [h3 w.key (fun u hu e => hn.1 (e ▸ List.mem_map_of_mem hu)), dictGet_set, if_pos rfl]
      · exact h2 w hw d' x' hd' hx'
    · intro n hne
      rw [h3 n (fun w hw => hne w (List.mem_cons_of_mem _ hw)), dictGet_set,
        if_neg (fun e => hne v List.mem_cons_self e.symm)]

theorem outputs_ok (kaxis : String → Option Nat) (want : Var → Val V → Prop) :
    ∀ (vs : List Var) (st : List (String × Val V)) (out : List (String × Val V)),
    (vs.map Var.key).Nodup → (vs.map (·.name)).Nodup →
    (∀ v ∈ vs, ∀ st2 : List (String × Val V), dictGet st2 v.key = dictGet st v.key → ∃ r st', outputValue kaxis v st2 = .ok (r, st') ∧
      want v r ∧ ∀ n, n ≠ v.key → dictGet st' n = dictGet st2 n) →
    ∃ out' st', outputsFrom kaxis vs st out = .ok (out', st') ∧ (∀ v ∈ vs, ∃ r, dictGet out' v.name = some r ∧ want v r) ∧
      ∀ n, (∀ v ∈ vs, v.name ≠ n) → dictGet out' n = dictGet out n
  | [], st, out, _, _, _ => ⟨out, st, rfl, (fun v hv => by cases hv), fun _ _ => rfl⟩
  | v :: vs, st, out, hk, hn, h => by
    rw [List.map_cons, List.nodup_cons] at hk hn
    obtain ⟨r, st1, h1, h2, h3⟩ := h v List.mem_cons_self st rfl
    obtain ⟨out', st', g1, g2, g3⟩ := outputs_ok kaxis want vs st1 (dictSet out v.name r) hk.2 hn.2
      (fun w hw st2 e => h w (List.mem_cons_of_mem _ hw) st2
        (by rw [e, h3 w.key (fun e' => hk.1 (e' ▸ List.mem_map_of_mem hw))]))
    refine ⟨out', st', ?_, ?_, ?_⟩
    · unfold outputsFrom
      simp only [bind, Except.bind, h1]
      exact g1
    · intro w hw
      rcases List.mem_cons.1 hw with e | hw
      · subst e
        exact ⟨r, by rw [g3 w.name (fun u hu e => hn.1 (e ▸ List.mem_map_of_mem (f := fun v : Var => v.name) hu)), dictGet_set, if_pos rfl], h2⟩
      · exact g2 w hw
    · intro n hne
      rw [g3 n (fun w hw => hne w (List.mem_cons_of_mem _ hw)), dictGet_set,
        if_neg (fun e => hne v List.mem_cons_self e.symm)]

/-- **C140**: all inputs together: with distinct names in the state, each is there as C140_input says; data without dims is there as it
was given -/
theorem C140_state (z : V) (s : Sizer) (kaxis : String → Option Nat) (data : List (String × Nd V)) (vs : List Var)
    (hk : (vs.map Var.key).Nodup)
    (hg : ∀ v ∈ vs, ∃ d, dictGet data v.name = some d ∧ Good s kaxis v d) :
    ∃ st, stateFrom z s kaxis data vs [] = .ok st ∧ ∀ v ∈ vs, ∀ d, dictGet data v.name = some d →
      (v.dims = [] → dictGet st v.key = some (.raw d)) ∧
      (v.dims ≠ [] → ∃ q, inputValue z s kaxis v d = .ok (.qty q) ∧ dictGet st v.key = some (.qty q)) := by
  have hin : ∀ v ∈ vs, ∀ d, Good s kaxis v d → ∃ x, inputValue z s kaxis v d = .ok x := by
    intro v _ d hgd
    by_cases h : v.dims = []
    · exact ⟨.raw d, by unfold inputValue; rw [h]; rfl⟩
    · obtain ⟨q, _, e, _⟩ := C140_input z s kaxis v d h hgd
      exact ⟨_, e⟩
  obtain ⟨st, h1, h2, _⟩ := state_ok z s kaxis data vs [] hk (fun v hv => by
    obtain ⟨d, hd, hgd⟩ := hg v hv
    obtain ⟨x, hx⟩ := hin v hv d hgd
    exact ⟨d, x, hd, hx⟩)
  refine ⟨st, h1, fun v hv d hd => ⟨fun h => ?_, fun h => ?_⟩⟩
  · exact h2 v hv d _ hd (by unfold inputValue; rw [h]; rfl)
  · obtain ⟨d', hd', hgd⟩ := hg v hv
    rw [hd] at hd'; cases hd'
    obtain ⟨q, _, e, _⟩ := C140_input z s kaxis v d h hgd
    exact ⟨q, e, h2 v hv d _ hd e⟩

/-- **C140**: inputs that are also the outputs come back as they were: for each name an array of the same shape with the same value at
every index -/
theorem C140_round_trip (z : V) (s : Sizer) (kaxis : String → Option Nat) (data : List (String × Nd V)) (vs : List Var)
    (hk : (vs.map Var.key).Nodup) (hn : (vs.map (·.name)).Nodup) (hstd : ∀ v ∈ vs, v.std.isSome)
    (hraw : ∀ v ∈ vs, v.dims = [] → kaxis v.name = none)
    (hg : ∀ v ∈ vs, ∃ d, dictGet data v.name = some d ∧ Good s kaxis v d) :
    ∃ st out st', stateFrom z s kaxis data vs [] = .ok st ∧ outputsFrom kaxis vs st [] = .ok (out, st') ∧
      ∀ v ∈ vs, ∃ d r, dictGet data v.name = some d ∧ dictGet out v.name = some r ∧ Returned v d r := by
  obtain ⟨st, h1, h2, _⟩ := state_ok z s kaxis data vs [] hk (fun v hv => by
    obtain ⟨d, hd, hgd⟩ := hg v hv
    obtain ⟨x, hx, _⟩ := output_ok z s kaxis v d hgd (hraw v hv)
    exact ⟨d, x, hd, hx⟩)
  obtain ⟨out, st', g1, g2, _⟩ := outputs_ok kaxis (fun v r => ∃ d, dictGet data v.name = some d ∧ Returned v d r) vs st [] hk hn
    (by
      intro v hv st2 e
      obtain ⟨d, hd, hgd⟩ := hg v hv
      obtain ⟨x, hx, ho⟩ := output_ok z s kaxis v d hgd (hraw v hv)
      obtain ⟨std, hs⟩ := Option.isSome_iff_exists.1 (hstd v hv)
      have hkey : v.key = std := by unfold Var.key; rw [hs]; rfl
      obtain ⟨r, st3, k1, k2, k3⟩ := ho st2 std hs (by rw [← hkey, e]; exact h2 v hv d x hd hx)
      exact ⟨r, st3, k1, ⟨d, hd, k2⟩, fun n hne => k3 n (by rw [← hkey]; exact hne)⟩)
  refine ⟨st, out, st', h1, g1, fun v hv => ?_⟩
  obtain ⟨r, hr, d, hd, hret⟩ := g2 v hv
  exact ⟨d, r, hd, hr, hret⟩

/-- **C140**, what does not hold: an output whose property `name` is not given is an error, whatever the state -/
theorem C140_name_violated (kaxis : String → Option Nat) (v : Var) (vs : List Var) (st out : List (String × Val V))
    (h : v.std = none) : outputsFrom kaxis (v :: vs) st out = .error .keyError := by
  unfold outputsFrom outputValue
  rw [h]
  rfl

/-! A case: winds with a vertical axis first in the serialized data, an interface field without halo along one axis, and a number. -/

def sizer : Sizer where
  origin l := l.map fun d => match d with | .other => 0 | _ => 3
  extent l := l.map fun d => match d with | .I => 4 | .J => 2 | .other => 5
  shape l := l.map fun d => match d with | .I => 10 | .J => 8 | .other => 5

def vars : List Var :=
  [⟨"u", some "x_wind", [.other, .I, .J], .one 3⟩, ⟨"ze", some "ze0", [.I, .J], .pair 1 0⟩, ⟨"dt", some "dt", [], .one 3⟩]

def fields : List (String × Nd Nat) :=
  [("u", ⟨[5, 10, 8], fun i => 100 * i.getD 0 0 + 10 * i.getD 1 0 + i.getD 2 0⟩),
   ("ze", ⟨[6, 2], fun i => 1000 + 10 * i.getD 0 0 + i.getD 1 0⟩), ("dt", ⟨[], fun _ => 225⟩)]

def kax : String → Option Nat := fun n => if n = "u" then some 0 else none

example : (vars.map Var.key).Nodup ∧ (vars.map (·.name)).Nodup ∧ (∀ v ∈ vars, v.std.isSome) ∧
    (∀ v ∈ vars, v.dims = [] → kax v.name = none) := by decide

example : ∀ v ∈ vars, ∃ d, dictGet fields v.name = some d ∧ Good sizer kax v d := by
  intro v hv
  simp only [vars, List.mem_cons, List.not_mem_nil, or_false] at hv
  rcases hv with rfl | rfl | rfl
  · exact ⟨_, rfl, .inr ⟨by simp [Fits, sizer, Halo.along], fun k h => by cases h; decide⟩⟩
  · exact ⟨_, rfl, .inr ⟨by simp [Fits, sizer, Halo.along], fun k h => by simp [kax] at h⟩⟩
  · exact ⟨_, rfl, .inl rfl⟩

def shown (r : Except Err (List (String × Val Nat) × List (String × Val Nat))) (n : String) (i : List Nat) : List Nat × Nat :=
  match r with
  | .ok (out, _) => match dictGet out n with
    | some (.raw d) => (d.shape, d.get i)
    | _ => ([], 0)
  | .error _ => ([], 0)

example : shown (stateFrom 0 sizer kax fields vars [] >>= fun st => outputsFrom kax vars st []) "u" [4, 9, 7] = ([5, 10, 8], 497) := by
  decide +kernel

/-- **C140**, what does not hold: taking the outputs out of one state twice need not give the same, since the moving of the vertical axis
changes the state -/
theorem C140_twice_violated : ∃ (s : Sizer) (kaxis : String → Option Nat) (data : List (String × Nd Nat)) (vs : List Var) (n : String)
    (i : List Nat), (∀ v ∈ vs, ∃ d, dictGet data v.name = some d ∧ Good s kaxis v d) ∧
    shown (stateFrom 0 s kaxis data vs [] >>= fun st => outputsFrom kaxis vs st []) n i ≠
    shown (stateFrom 0 s kaxis data vs [] >>= fun st => outputsFrom kaxis vs st [] >>= fun r => outputsFrom kaxis vs r.2 []) n i := by
  refine ⟨sizer, kax, [("u", ⟨[5, 10, 8], fun i => 100 * i.getD 0 0 + 10 * i.getD 1 0 + i.getD 2 0⟩)],
    [⟨"u", some "x_wind", [.other, .I, .J], .one 3⟩], "u", [0, 0, 0], ?_, by decide +kernel⟩
  intro v hv
  cases List.mem_singleton.1 hv
  exact ⟨_, rfl, .inr ⟨by simp [Fits, sizer, Halo.along], fun k h => by cases h; decide⟩⟩

/-! ### `ParallelTranslate.state_from_inputs` -/

/-- **C140**: if the name in the state of no variable is the name of the data of a later one, and the names in the state are distinct, each
variable is in the state as made from its own data -/
theorem C140_plain {D : Type} : ∀ (vs : List Var) (st : List (String × Entry D)),
    (vs.map Var.key).Nodup → vs.Pairwise (fun v w => v.key ≠ w.name) → (∀ v ∈ vs, ∃ x, dictGet st v.name = some x) →
    ∃ st', plainState vs st = .ok st' ∧
      (∀ v ∈ vs, ∀ x, dictGet st v.name = some x → dictGet st' v.key = some (if v.dims = [] then x else .quantity v.dims x)) ∧
      ∀ n, (∀ v ∈ vs, v.key ≠ n) → dictGet st' n = dictGet st n
  | [], st, _, _, _ => ⟨st, rfl, (fun v hv => by cases hv), fun _ _ => rfl⟩
  | v :: vs, st, hk, hp, h => by
    rw [List.map_cons, List.nodup_cons] at hk
    rw [List.pairwise_cons] at hp
    obtain ⟨x, hx⟩ := h v List.mem_cons_self
    have hval : (if v.dims.length > 0 then Entry.quantity v.dims x else x) = if v.dims = [] then x else .quantity v.dims x := by
      cases v.dims <;> simp
    have hkeep : ∀ w ∈ vs, dictGet (dictSet st v.key (if v.dims.length > 0 then Entry.quantity v.dims x else x)) w.name =
        dictGet st w.name := fun w hw => by
      rw [dictGet_set, if_neg (fun e => hp.1 w hw e.symm)]
    obtain ⟨st', h1, h2, h3⟩ := C140_plain vs _ hk.2 hp.2
      (fun w hw => by rw [hkeep w hw]; exact h w (List.mem_cons_of_mem _ hw))
    refine ⟨st', ?_, ?_, ?_⟩
    · unfold plainState
      rw [hx]
      exact h1
    · intro w hw y hy
      rcases List.mem_cons.1 hw with e | hw
      · subst e
        rw [hx] at hy; cases hy
        rw [h3 w.key (fun u hu e => hk.1 (e ▸ List.mem_map_of_mem hu)), dictGet_set, if_pos rfl, hval]
      · exact h2 w hw y (by rw [hkeep w hw]; exact hy)
    · intro n hne
      rw [h3 n (fun w hw => hne w (List.mem_cons_of_mem _ hw)), dictGet_set,
        if_neg (fun e => hne v List.mem_cons_self e.symm)]

/-- **C140**, what does not hold: of two variables where the first is kept under the name of the second's data, the second is made from the
quantity of the first, and its own data is lost -/
theorem C140_plain_violated {D : Type} (a b : String) (ds : List Axis) (hd : ds ≠ []) (x y : D) (hab : a ≠ b) :
    ∃ st', plainState [⟨a, some b, ds, .one 3⟩, ⟨b, some a, ds, .one 3⟩] [(a, .data x), (b, .data y)] = .ok st' ∧
      dictGet st' a = some (.quantity ds (.quantity ds (.data x))) ∧ dictGet st' b = some (.quantity ds (.data x)) := by
  have hpos : ds.length > 0 := List.length_pos_iff.2 hd
  refine ⟨[(a, .quantity ds (.quantity ds (.data x))), (b, .quantity ds (.data x))], ?_, ?_, ?_⟩
  · simp [plainState, dictGet, dictSet, hab, hpos]
  · simp [dictGet]
  · simp [dictGet, hab]

example : ([⟨"u", some "x_wind", [.I, .J], .one 3⟩, ⟨"dt", none, [], .one 3⟩] : List Var).Pairwise (fun v w => v.key ≠ w.name) := by
  simp [Var.key]

end NDSL.ParallelTranslate
