import Verif.Lemmas.StencilCall
/-
Lemmas about what ranks exchange: the sorted lists of both ranks agree name by name.
-/
namespace NDSL.StencilCall
variable {V : Type}

/-- The list before sorting and filtering. -/
def boxes (all : List (String × Arg V)) : List (String × Nat) := all.filterMap fun a => match a.2 with
  | .boxed b => some (a.1, b)
  | _ => none

theorem mem_boxes {all : List (String × Arg V)} {x : String × Nat} : x ∈ boxes all ↔ Boxed all x.1 x.2 := by
  unfold boxes Boxed
  rw [List.mem_filterMap]
  constructor
  · rintro ⟨⟨n, a⟩, ha, h⟩
    cases a with
    | boxed b => have : (n, b) = x := by simpa using h
                 rw [← this]; exact ha
    | quantity => cases h
    | array => cases h
    | real => cases h
  · intro h
    exact ⟨_, h, rfl⟩

theorem sent_eq (all : List (String × Arg V)) : sent all = boxes (all.mergeSort fun a b => decide (a.1 ≤ b.1)) := rfl

theorem mem_sent {all : List (String × Arg V)} {x : String × Nat} : x ∈ sent all ↔ Boxed all x.1 x.2 := by
  rw [sent_eq, mem_boxes]
  unfold Boxed
  rw [(List.mergeSort_perm all _).mem_iff]

theorem boxes_pairwise {all : List (String × Arg V)} {R : String → String → Prop} (h : all.Pairwise fun a b => R a.1 b.1) :
    (boxes all).Pairwise fun a b => R a.1 b.1 := by
  unfold boxes
  rw [List.pairwise_filterMap]
  refine h.imp ?_
  intro a a' hr b hb b' hb'
  have e1 : b.1 = a.1 := by
    cases h : a.2 <;> rw [h] at hb <;> simp at hb
    rw [← hb]
  have e2 : b'.1 = a'.1 := by
    cases h : a'.2 <;> rw [h] at hb' <;> simp at hb'
    rw [← hb']
  rw [e1, e2]; exact hr

theorem sent_sorted {all : List (String × Arg V)} (hn : (all.map fun a => a.1).Nodup) :
    ((sent all).map fun a => a.1).Pairwise (fun a b => a ≤ b) ∧ ((sent all).map fun a => a.1).Nodup := by
  have h1 := List.pairwise_mergeSort (le := fun a b : String × Arg V => decide (a.1 ≤ b.1))
    (fun a b c hab hbc => by simp only [decide_eq_true_eq] at *; exact String.le_trans hab hbc)
    (fun a b => by simp only [Bool.or_eq_true, decide_eq_true_eq]; exact String.le_total a.1 b.1) all
  have h2 : (all.mergeSort fun a b => decide (a.1 ≤ b.1)).Pairwise fun a b => a.1 ≠ b.1 := by
    have := ((List.mergeSort_perm all fun a b => decide (a.1 ≤ b.1)).map fun a => a.1).nodup_iff.mpr hn
    unfold List.Nodup at this
    rwa [List.pairwise_map] at this
  constructor
  · rw [List.pairwise_map]
    exact boxes_pairwise (R := fun a b => a ≤ b) (h1.imp fun h => by simpa using h)
  · unfold List.Nodup
    rw [List.pairwise_map]
    exact boxes_pairwise (R := fun a b => a ≠ b) h2

theorem sent_names {mine twin : List (String × Arg V)} (hm : (mine.map fun a => a.1).Nodup) (ht : (twin.map fun a => a.1).Nodup)
    (h : SameNames mine twin) : (sent mine).map (fun a => a.1) = (sent twin).map fun a => a.1 := by
  have hmem : ∀ n, n ∈ (sent mine).map (fun a => a.1) ↔ n ∈ (sent twin).map fun a => a.1 := by
    intro n
    simp only [List.mem_map]
    constructor
    · rintro ⟨x, hx, rfl⟩
      obtain ⟨b, hb⟩ := (h x.1).mp ⟨x.2, mem_sent.mp hx⟩
      exact ⟨(x.1, b), mem_sent.mpr hb, rfl⟩
    · rintro ⟨x, hx, rfl⟩
      obtain ⟨b, hb⟩ := (h x.1).mpr ⟨x.2, mem_sent.mp hx⟩
      exact ⟨(x.1, b), mem_sent.mpr hb, rfl⟩
  have hp : ((sent mine).map fun a => a.1).Perm ((sent twin).map fun a => a.1) :=
    (List.perm_ext_iff_of_nodup (sent_sorted hm).2 (sent_sorted ht).2).mpr hmem
  exact hp.eq_of_pairwise (fun a b _ _ h1 h2 => String.le_antisymm h1 h2) (sent_sorted hm).1 (sent_sorted ht).1

/-- What is found. -/
theorem compare_eq (diffs : V → V → Nat) {mine twin : List (String × Arg V)} (hm : (mine.map fun a => a.1).Nodup)
    (ht : (twin.map fun a => a.1).Nodup) (h : SameNames mine twin) (m mt : Mem V) :
    ∃ l, compareRanks diffs mine twin m mt = some l ∧
      ∀ n c, (n, c) ∈ l ↔ ∃ b b', Boxed mine n b ∧ Boxed twin n b' ∧ c = diffs (m.data b) (mt.data b') ∧ 0 < c := by
  have hnames := sent_names hm ht h
  have hlen : (sent mine).length = (sent twin).length := by simpa using congrArg List.length hnames
  unfold compareRanks
  rw [if_neg (by omega)]
  refine ⟨_, rfl, fun n c => ?_⟩
  rw [List.mem_filterMap]
  constructor
  · rintro ⟨⟨⟨x, b⟩, ⟨x', b'⟩⟩, hp, hf⟩
    simp only at hf
    by_cases hd : diffs (m.data b) (mt.data b') > 0
    · rw [if_pos hd] at hf
      injection hf with hf
      injection hf with h1 h2
      obtain ⟨i, hi⟩ := List.mem_iff_getElem?.mp hp
      rw [List.getElem?_zip_eq_some] at hi
      have e : x' = x := by
        have := congrArg (fun l => l[i]?) hnames
        simp only [List.getElem?_map, hi.1, hi.2, Option.map_some] at this
        injection this with this
        exact this.symm
      subst h1
      have hb := mem_sent.mp (List.mem_of_getElem? hi.1)
      have hb' := mem_sent.mp (List.mem_of_getElem? hi.2)
      rw [e] at hb'
      exact ⟨b, b', hb, hb', h2.symm, by omega⟩
    · rw [if_neg hd] at hf; cases hf
  · rintro ⟨b, b', hb, hb', hc, h0⟩
    obtain ⟨i, hi⟩ := List.mem_iff_getElem?.mp (mem_sent (x := (n, b)).mpr hb)
    obtain ⟨j, hj⟩ := List.mem_iff_getElem?.mp (mem_sent (x := (n, b')).mpr hb')
    have hij : i = j := by
      have h1 : ((sent mine).map fun a => a.1)[i]? = some n := by rw [List.getElem?_map, hi]; rfl
      have h2 : ((sent mine).map fun a => a.1)[j]? = some n := by rw [hnames, List.getElem?_map, hj]; rfl
      have hl := (List.getElem?_eq_some_iff.mp h1).1
      exact (List.getElem?_inj hl (sent_sorted hm).2).mp (h1.trans h2.symm)
    subst hij
    refine ⟨((n, b), (n, b')), List.mem_of_getElem? (i := i) (List.getElem?_zip_eq_some.mpr ⟨hi, hj⟩), ?_⟩
    simp only
    rw [if_pos (by omega), ← hc]

/-- What is passed by name is what the parameters are. -/
theorem mem_all {names : List String} (hn : names.Nodup) {args : List (Arg V)} {kwargs : Kwargs V} {params : List (Arg V)}
    (hk : (kwargs.map fun k => k.1).Nodup) (h : Binds names args kwargs params) (x : String × Arg V) :
    x ∈ names.zip args ++ kwargs ↔ x ∈ names.zip params := by
  have hparams : ∀ i : Nat, ∀ n, names[i]? = some n → params[i]? = (if i < args.length then args[i]? else dictGet kwargs n) := by
    intro i n hi
    by_cases hl : i < args.length
    · rw [if_pos hl, h.positional i hl]
    · rw [if_neg hl, h.named i n (by omega) hi]
  have hget : ∀ y ∈ kwargs, dictGet kwargs y.1 = some y.2 := by
    intro y hy
    clear hparams h
    induction kwargs with
    | nil => cases hy
    | cons e kw ih =>
      rw [List.map_cons, List.nodup_cons] at hk
      rcases List.mem_cons.mp hy with rfl | hy'
      · simp [dictGet]
      · have hne : ¬ e.1 = y.1 := fun e' => hk.1 (e' ▸ List.mem_map.mpr ⟨y, hy', rfl⟩)
        unfold dictGet
        rw [List.find?_cons_of_neg (by simpa using hne)]
        exact ih hk.2 hy'
  rw [List.mem_append]
  constructor
  · rintro (hx | hx)
    · obtain ⟨i, hi⟩ := List.mem_iff_getElem?.mp hx
      rw [List.getElem?_zip_eq_some] at hi
      refine List.mem_of_getElem? (i := i) (List.getElem?_zip_eq_some.mpr ⟨hi.1, ?_⟩)
      rw [hparams i _ hi.1, if_pos (List.getElem?_eq_some_iff.mp hi.2).1]
      exact hi.2
    · obtain ⟨j, hj⟩ := List.mem_iff_getElem?.mp (h.known x hx)
      rw [List.getElem?_drop] at hj
      refine List.mem_of_getElem? (i := args.length + j) (List.getElem?_zip_eq_some.mpr ⟨hj, ?_⟩)
      rw [hparams _ _ hj, if_neg (by omega)]
      exact hget x hx
  · intro hx
    obtain ⟨i, hi⟩ := List.mem_iff_getElem?.mp hx
    rw [List.getElem?_zip_eq_some] at hi
    have := hparams i _ hi.1
    by_cases hl : i < args.length
    · left
      rw [if_pos hl, hi.2] at this
      exact List.mem_of_getElem? (i := i) (List.getElem?_zip_eq_some.mpr ⟨hi.1, this.symm⟩)
    · right
      rw [if_neg hl, hi.2] at this
      unfold dictGet at this
      obtain ⟨y, hy, hy2⟩ := Option.map_eq_some_iff.mp this.symm
      have h1 := List.find?_some hy
      have h2 := List.mem_of_find?_eq_some hy
      have : y = x := Prod.ext (by simpa using h1) hy2
      exact this ▸ h2

end NDSL.StencilCall
