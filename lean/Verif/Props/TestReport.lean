import Verif.Model.TestReport
import Mathlib.Tactic.Linarith
import Mathlib.Tactic.Ring
import Mathlib.Tactic.NormNum
import Mathlib.Tactic.FieldSimp
import Mathlib.Algebra.Order.Field.Basic
/-
C130: data saved by failing tests, and measured thresholds.
-/
namespace NDSL.TestReport

open PlotPrep (DArr)

variable {V : Type} [Inhabited V] [Sub V]

/-! ### What the file should hold -/

/-- The data set `ds` holds what is known about the variable `name`: reference and computed values of every rank, their difference, and the inputs
when every rank has them. -/
structure Holds (inputs outs : List (String → Option (Arr V))) (ref : String → Option (List (Arr V))) (name : String) (ds : Dataset V) : Prop where
  reference : ∀ R, ref name = some R → ∀ r a, R[r]? = some a → ds.reference.shape = R.length :: a.shape ∧ ∀ pos, ds.reference.get (r :: pos) = a.get pos
  computed : ∀ r o a, outs[r]? = some o → o name = some a → ds.computed.shape = outs.length :: a.shape ∧ ∀ pos, ds.computed.get (r :: pos) = a.get pos
  error : ds.error.shape = ds.reference.shape ∧ ∀ pos, ds.error.get pos = ds.reference.get pos - ds.computed.get pos
  noInput : ds.input = none ↔ ∃ i ∈ inputs, i name = none
  input : ∀ d, ds.input = some d → ∀ r i a, inputs[r]? = some i → i name = some a → ∀ pos, d.get (r :: pos) = a.get pos

/-- The variable can be saved: on `n` ranks reference and results of one shape, dimensions for them, and inputs with as many dimensions or none on some rank. -/
structure Savable (n : Nat) (outputs : Option (String → Option (List String))) (inputs outs : List (String → Option (Arr V))) (ref : String → Option (List (Arr V)))
    (name : String) : Prop where
  ranks : 0 < n ∧ inputs.length = n ∧ outs.length = n
  known : ∃ s R, ref name = some R ∧ R.length = n ∧ (∀ a ∈ R, a.shape = s) ∧ (∀ o ∈ outs, ∃ a, o name = some a ∧ a.shape = s) ∧
    (∀ o, outputs = some o → ∃ dims, o name = some dims ∧ dims.length = s.length) ∧
    ((∃ i ∈ inputs, i name = none) ∨ ∃ s', s'.length = s.length ∧ ∀ i ∈ inputs, ∃ a, i name = some a ∧ a.shape = s')

/-! ### Proof -/

omit [Sub V] in
theorem stack_ok (l : List (Arr V)) (s : List Nat) (hl : l ≠ []) (hs : ∀ a ∈ l, a.shape = s) :
    ∃ a, stack l = .ok a ∧ a.shape = l.length :: s ∧ ∀ (r : Nat) (b : Arr V), l[r]? = some b → ∀ pos, a.get (r :: pos) = b.get pos := by
  cases l with
  | nil => exact absurd rfl hl
  | cons x t =>
    refine ⟨⟨(x :: t).length :: x.shape, fun pos => (((x :: t)[pos.headD 0]?).map fun b => b.get pos.tail).getD default⟩, ?_, ?_, ?_⟩
    · simp only [stack]
      rw [if_pos]
      rw [List.all_eq_true]
      intro b hb
      rw [hs b (List.mem_cons_of_mem _ hb), hs x (List.mem_cons_self ..)]
      simp
    · rw [hs x (List.mem_cons_self ..)]
    · intro r b hb pos
      simp only [List.headD_cons, List.tail_cons, hb, Option.map_some, Option.getD_some]

omit [Inhabited V] [Sub V] in
theorem ofRanks_some (l : List (String → Option (Arr V))) (name : String) (h : ∀ d ∈ l, ∃ a, d name = some a) :
    ∃ L, ofRanks l name = some L ∧ L.length = l.length ∧ ∀ (r : Nat) (d : String → Option (Arr V)), l[r]? = some d → d name = L[r]? := by
  induction l with
  | nil => exact ⟨[], rfl, rfl, by simp⟩
  | cons d l ih =>
    obtain ⟨a, ha⟩ := h d (List.mem_cons_self ..)
    obtain ⟨L, h1, h2, h3⟩ := ih fun d hd => h d (List.mem_cons_of_mem _ hd)
    unfold ofRanks at h1
    refine ⟨a :: L, ?_, by simp [h2], ?_⟩
    · unfold ofRanks
      rw [List.mapM_cons, ha, h1]
      rfl
    · intro r e he
      cases r with
      | zero => simp at he ⊢; rw [← he, ha]
      | succ r => simp at he ⊢; exact h3 r e he

omit [Inhabited V] [Sub V] in
theorem ofRanks_none (l : List (String → Option (Arr V))) (name : String) (h : ∃ d ∈ l, d name = none) : ofRanks l name = none := by
  induction l with
  | nil => obtain ⟨d, hd, _⟩ := h; cases hd
  | cons d l ih =>
    unfold ofRanks at ih ⊢
    rw [List.mapM_cons]
    cases hd : d name with
    | none => rfl
    | some a =>
      obtain ⟨e, he, hn⟩ := h
      rcases List.mem_cons.1 he with rfl | he
      · rw [hd] at hn; cases hn
      · rw [ih ⟨e, he, hn⟩]; rfl

omit [Inhabited V] [Sub V] in
theorem dimsOf_ok (text : Nat → String) (n : Nat) (outputs : Option (String → Option (List String))) (ref : String → Option (List (Arr V))) (index : Nat) (name : String)
    (s : List Nat) (R : List (Arr V)) (hR : ref name = some R) (hn : R.length = n) (h0 : 0 < n) (hs : ∀ a ∈ R, a.shape = s)
    (ho : ∀ o, outputs = some o → ∃ dims, o name = some dims ∧ dims.length = s.length) : ∃ dims, dimsOf text outputs ref index name = .ok dims ∧ dims.length = s.length := by
  unfold dimsOf
  cases outputs with
  | some o =>
    obtain ⟨dims, h1, h2⟩ := ho o rfl
    simp only [h1]
    exact ⟨_, rfl, by simp [h2]⟩
  | none =>
    simp only [hR]
    cases R with
    | nil => simp at hn; omega
    | cons a R => exact ⟨_, rfl, by simp [hs a (List.mem_cons_self ..)]⟩

theorem saveVar_ok (text : Nat → String) (n : Nat) (outputs : Option (String → Option (List String))) (inputs outs : List (String → Option (Arr V)))
    (ref : String → Option (List (Arr V))) (index : Nat) (name : String) (h : Savable n outputs inputs outs ref name) :
    ∃ ds, saveVar text outputs inputs outs ref index name = .ok ds ∧ Holds inputs outs ref name ds := by
  obtain ⟨⟨h0, hni, hno⟩, s, R, hR, hn, hs, hout, ho, hin⟩ := h
  obtain ⟨dims, d1, d2⟩ := dimsOf_ok text n outputs ref index name s R hR hn h0 hs ho
  obtain ⟨a, a1, a2, a3⟩ := stack_ok R s (by rintro rfl; simp at hn; omega) hs
  obtain ⟨L, l1, l2, l3⟩ := ofRanks_some outs name fun o ho => (hout o ho).imp fun _ h => h.1
  have hL : ∀ b ∈ L, b.shape = s := by
    intro b hb
    obtain ⟨r, hr⟩ := List.getElem?_of_mem hb
    have hlt : r < outs.length := l2 ▸ (List.getElem?_eq_some_iff.1 hr).1
    obtain ⟨c, c1, c2⟩ := hout outs[r] (List.getElem_mem hlt)
    have := l3 r outs[r] (List.getElem?_eq_getElem hlt)
    rw [c1, hr] at this
    cases this
    exact c2
  obtain ⟨c, c1, c2, c3⟩ := stack_ok L s (by rintro rfl; simp at l2; omega) hL
  have e1 : dataArray a ("rank" :: dims.map fun d => d ++ "_out") = .ok ⟨"rank" :: dims.map fun d => d ++ "_out", a.shape, a.get⟩ := by
    unfold dataArray; rw [if_pos (by simp [a2, d2])]
  have e2 : dataArray c ("rank" :: dims.map fun d => d ++ "_out") = .ok ⟨"rank" :: dims.map fun d => d ++ "_out", c.shape, c.get⟩ := by
    unfold dataArray; rw [if_pos (by simp [c2, d2])]
  have e3 : minus (⟨"rank" :: dims.map fun d => d ++ "_out", a.shape, a.get⟩ : DArr V) ⟨"rank" :: dims.map fun d => d ++ "_out", c.shape, c.get⟩ =
      .ok ⟨"rank" :: dims.map fun d => d ++ "_out", a.shape, fun pos => a.get pos - c.get pos⟩ := by
    unfold minus; rw [if_pos (by rw [a2, c2, hn, l2, hno])]
  have hcomp : ∀ r o b, outs[r]? = some o → o name = some b → c.shape = outs.length :: b.shape ∧ ∀ pos, c.get (r :: pos) = b.get pos := by
    intro r o b hr hb
    have hLr : L[r]? = some b := by rw [← l3 r o hr, hb]
    exact ⟨by rw [c2, l2, hL b (List.mem_of_getElem? hLr)], c3 r b hLr⟩
  have href : ∀ R', ref name = some R' → ∀ r b, R'[r]? = some b → a.shape = R'.length :: b.shape ∧ ∀ pos, a.get (r :: pos) = b.get pos := by
    intro R' hR' r b hb
    rw [hR] at hR'
    cases hR'
    exact ⟨by rw [a2, hs b (List.mem_of_getElem? hb)], a3 r b hb⟩
  rcases hin with hin | ⟨s', hs', hin⟩
  · refine ⟨⟨none, ⟨"rank" :: dims.map fun d => d ++ "_out", a.shape, a.get⟩, ⟨"rank" :: dims.map fun d => d ++ "_out", c.shape, c.get⟩,
      ⟨"rank" :: dims.map fun d => d ++ "_out", a.shape, fun pos => a.get pos - c.get pos⟩⟩, ?_, ⟨href, hcomp, ⟨rfl, fun _ => rfl⟩, ⟨fun _ => hin, fun _ => rfl⟩, fun d hd => (nomatch hd)⟩⟩
    unfold saveVar
    simp only [d1, ofRanks_none inputs name hin, hR, a1, e1, l1, c1, e2, e3, bind, Except.bind, pure, Except.pure]
  · obtain ⟨I, i1, i2, i3⟩ := ofRanks_some inputs name fun o ho => (hin o ho).imp fun _ h => h.1
    have hI : ∀ b ∈ I, b.shape = s' := by
      intro b hb
      obtain ⟨r, hr⟩ := List.getElem?_of_mem hb
      have hlt : r < inputs.length := i2 ▸ (List.getElem?_eq_some_iff.1 hr).1
      obtain ⟨c, c1, c2⟩ := hin inputs[r] (List.getElem_mem hlt)
      have := i3 r inputs[r] (List.getElem?_eq_getElem hlt)
      rw [c1, hr] at this
      cases this
      exact c2
    obtain ⟨j, j1, j2, j3⟩ := stack_ok I s' (by rintro rfl; simp at i2; omega) hI
    have e4 : dataArray j ("rank" :: dims.map fun d => d ++ "_in") = .ok ⟨"rank" :: dims.map fun d => d ++ "_in", j.shape, j.get⟩ := by
      unfold dataArray; rw [if_pos (by simp [j2, d2, hs'])]
    refine ⟨⟨some ⟨"rank" :: dims.map fun d => d ++ "_in", j.shape, j.get⟩, ⟨"rank" :: dims.map fun d => d ++ "_out", a.shape, a.get⟩,
      ⟨"rank" :: dims.map fun d => d ++ "_out", c.shape, c.get⟩,
      ⟨"rank" :: dims.map fun d => d ++ "_out", a.shape, fun pos => a.get pos - c.get pos⟩⟩, ?_, ⟨href, hcomp, ⟨rfl, fun _ => rfl⟩, ⟨fun h => (nomatch h), ?_⟩, ?_⟩⟩
    · unfold saveVar
      simp only [d1, i1, j1, e4, hR, a1, e1, l1, c1, e2, e3, bind, Except.bind, pure, Except.pure]
      rw [if_pos (by simp [j2, a2, i2, hni, hn])]
    · rintro ⟨i, hi, hno⟩
      obtain ⟨a, ha, _⟩ := hin i hi
      rw [ha] at hno
      cases hno
    · intro d hd r i b hr hb pos
      cases hd
      exact j3 r b (by rw [← i3 r i hr, hb]) pos

theorem saveTree_ok (text : Nat → String) (n : Nat) (outputs : Option (String → Option (List String))) (inputs outs : List (String → Option (Arr V)))
    (ref : String → Option (List (Arr V))) (names : List String) (h : ∀ name ∈ names, Savable n outputs inputs outs ref name) (l : List Nat) (hl : ∀ i ∈ l, i < names.length) :
    ∀ t : String → Option (Dataset V), ∃ t', saveTree text outputs inputs outs ref names l t = .ok t' ∧
      (∀ name, (∃ i ∈ l, names[i]? = some name) → ∃ ds, t' name = some ds ∧ Holds inputs outs ref name ds) ∧
      ∀ name, (¬ ∃ i ∈ l, names[i]? = some name) → t' name = t name := by
  induction l with
  | nil => intro t; exact ⟨t, rfl, fun name ⟨i, hi, _⟩ => (nomatch hi), fun _ _ => rfl⟩
  | cons i l ih =>
    intro t
    have hi := hl i (List.mem_cons_self ..)
    have e : names[i]? = some names[i] := List.getElem?_eq_getElem hi
    obtain ⟨ds, e1, e2⟩ := saveVar_ok text n outputs inputs outs ref i names[i] (h _ (List.getElem_mem hi))
    obtain ⟨t', f1, f2, f3⟩ := ih (fun j hj => hl j (List.mem_cons_of_mem _ hj)) fun m => if m = names[i] then some ds else t m
    refine ⟨t', ?_, ?_, ?_⟩
    · simp only [saveTree, e, e1, bind, Except.bind]; exact f1
    · intro name hname
      by_cases hn : ∃ i ∈ l, names[i]? = some name
      · exact f2 name hn
      · rw [f3 name hn]
        obtain ⟨j, hj, hjn⟩ := hname
        rcases List.mem_cons.1 hj with rfl | hj
        · rw [e] at hjn
          cases hjn
          exact ⟨ds, by rw [if_pos rfl], e2⟩
        · exact absurd ⟨j, hj, hjn⟩ hn
    · intro name hname
      rw [f3 name fun ⟨j, hj, hjn⟩ => hname ⟨j, List.mem_cons_of_mem _ hj, hjn⟩]
      rw [if_neg]
      rintro rfl
      exact hname ⟨i, List.mem_cons_self .., e⟩

/-- C130: when a variable failed, a file is written with exactly the failing variables in one group and exactly the passing ones in the other, and each is there with
the reference and the results of every rank, their difference, and the inputs when every rank has them. -/
theorem C130_saved (text : Nat → String) (order : List String → List Nat) (ho : ∀ l, (order l).Perm (List.range l.length)) (n : Nat)
    (outputs : Option (String → Option (List String))) (inputs outs : List (String → Option (Arr V))) (ref : String → Option (List (Arr V))) (failing passing : List String)
    (hf : failing ≠ []) (h : ∀ name ∈ failing ++ passing, Savable n outputs inputs outs ref name) :
    ∃ f p, saved text order outputs inputs outs ref failing passing = some (f, p) ∧
      (∀ name, name ∈ failing → ∃ ds, f name = some ds ∧ Holds inputs outs ref name ds) ∧ (∀ name, name ∉ failing → f name = none) ∧
      (∀ name, name ∈ passing → ∃ ds, p name = some ds ∧ Holds inputs outs ref name ds) ∧ ∀ name, name ∉ passing → p name = none := by
  have key : ∀ names : List String, (∀ name ∈ names, Savable n outputs inputs outs ref name) →
      ∃ t, saveTree text outputs inputs outs ref names (order names) (fun _ => none) = .ok t ∧
        (∀ name, name ∈ names → ∃ ds, t name = some ds ∧ Holds inputs outs ref name ds) ∧ ∀ name, name ∉ names → t name = none := by
    intro names hn
    obtain ⟨t, e, h1, h2⟩ := saveTree_ok text n outputs inputs outs ref names hn (order names) (fun i hi => by simpa using (ho names).mem_iff.1 hi) fun _ => none
    refine ⟨t, e, fun name hm => h1 name ?_, fun name hm => h2 name ?_⟩
    · obtain ⟨i, hi⟩ := List.getElem?_of_mem hm
      exact ⟨i, (ho names).mem_iff.2 (by simpa using (List.getElem?_eq_some_iff.1 hi).1), hi⟩
    · rintro ⟨i, _, hi⟩
      exact hm (List.mem_of_getElem? hi)
  obtain ⟨f, f1, f2, f3⟩ := key failing fun name hm => h name (List.mem_append_left _ hm)
  obtain ⟨p, p1, p2, p3⟩ := key passing fun name hm => h name (List.mem_append_right _ hm)
  refine ⟨f, p, ?_, f2, f3, p2, p3⟩
  unfold saved saveNetcdf
  rw [if_neg hf]
  simp only [f1, p1, bind, Except.bind, pure, Except.pure]

/-- C130: without a failing variable nothing is written. -/
theorem C130_passed (text : Nat → String) (order : List String → List Nat) (outputs : Option (String → Option (List String)))
    (inputs outs : List (String → Option (Arr V))) (ref : String → Option (List (Arr V))) (passing : List String) :
    saved text order outputs inputs outs ref [] passing = none := rfl

/-- C130 fails when one variable has inputs with another number of dimensions than its results: then there is no file, for no variable. -/
theorem C130_shape_violated (text : Nat → String) (order : List String → List Nat) (ho : ∀ l, (order l).Perm (List.range l.length))
    (o : String → Option (List String)) (inputs outs : List (String → Option (Arr V))) (ref : String → Option (List (Arr V))) (failing passing : List String)
    (name : String) (hm : name ∈ failing ++ passing) (dims : List String) (hd : o name = some dims) (hin : ∀ i ∈ inputs, ∃ a, i name = some a ∧ a.shape.length ≠ dims.length) :
    saved text order (some o) inputs outs ref failing passing = none := by
  have hv : ∀ index, ∃ e, saveVar text (some o) inputs outs ref index name = .error e := by
    intro index
    obtain ⟨I, i1, i2, i3⟩ := ofRanks_some inputs name fun i hi => (hin i hi).imp fun _ h => h.1
    unfold saveVar
    simp only [dimsOf, hd, i1, bind, Except.bind]
    cases hs : stack I with
    | error e => exact ⟨e, rfl⟩
    | ok a =>
      have hl : a.shape.length ≠ dims.length + 1 := by
        cases hI : I with
        | nil => rw [hI] at hs; cases hs
        | cons b t =>
          rw [hI] at hs
          simp only [stack] at hs
          split at hs
          · cases hs
            have hb : inputs[0]? ≠ none := by
              intro h0
              rw [List.getElem?_eq_none_iff] at h0
              rw [hI] at i2; simp at i2; omega
            cases h0 : inputs[0]? with
            | none => exact absurd h0 hb
            | some i =>
              obtain ⟨c, c1, c2⟩ := hin i (List.mem_of_getElem? h0)
              have := i3 0 i h0
              rw [c1, hI] at this
              simp at this
              subst this
              simpa using c2
          · cases hs
      simp only [dataArray]
      rw [if_neg (by simp; omega)]
      exact ⟨_, rfl⟩
  have ht : ∀ (names : List String), name ∈ names → ∃ e, saveTree text (some o) inputs outs ref names (order names) (fun _ => none) = .error e := by
    intro names hn
    obtain ⟨i, hi⟩ := List.getElem?_of_mem hn
    have him : i ∈ order names := (ho names).mem_iff.2 (by simpa using (List.getElem?_eq_some_iff.1 hi).1)
    generalize (fun _ => none : String → Option (Dataset V)) = t
    generalize order names = l at him
    induction l generalizing t with
    | nil => cases him
    | cons j l ih =>
      simp only [saveTree]
      cases hj : names[j]? with
      | none => exact ⟨_, rfl⟩
      | some nm =>
        by_cases hji : j = i
        · subst hji
          rw [hi] at hj
          cases hj
          obtain ⟨e, he⟩ := hv j
          exact ⟨e, by simp only [he, bind, Except.bind]⟩
        · simp only [bind, Except.bind]
          cases saveVar text (some o) inputs outs ref j nm with
          | error e => exact ⟨e, rfl⟩
          | ok d => exact ih _ ((List.mem_cons.1 him).resolve_left fun h => hji h.symm)
  unfold saved saveNetcdf
  split
  · rfl
  · rcases List.mem_append.1 hm with h | h
    · obtain ⟨e, he⟩ := ht failing h
      simp only [he, bind, Except.bind]
    · obtain ⟨e, he⟩ := ht passing h
      cases hf : saveTree text (some o) inputs outs ref failing (order failing) fun _ => none with
      | error e => rfl
      | ok f => simp only [he, bind, Except.bind]

/-- C130: what is saved as the absolute error has a sign. -/
theorem C130_absolute_violated : ∃ (f p : String → Option (Dataset ℚ)) (ds : Dataset ℚ),
    saved toString (fun l => List.range l.length) none [fun _ => none] [fun _ => some ⟨[1], fun _ => 1⟩] (fun _ => some [⟨[1], fun _ => 0⟩]) ["u"] [] = some (f, p) ∧
    f "u" = some ds ∧ ds.error.get [0, 0] = -1 := ⟨_, _, _, rfl, rfl, by show (0 : ℚ) - 1 = -1; norm_num⟩

/-! ### Files -/

/-- C130: the variables of a test on a rank have files of their own. -/
theorem C130_files (digits : Nat → List Char) (savepoint : List Char) (rank : Nat) (name name' : List Char)
    (h : detailFile digits savepoint name rank = detailFile digits savepoint name' rank) : name = name' := by
  unfold detailFile at h
  simpa using h

/-- C130 fails for the variables of two tests: with a hyphen in the names, their details may be in one file. -/
theorem C130_files_violated (digits : Nat → List Char) (rank : Nat) :
    detailFile digits "C".toList "SW-u".toList rank = detailFile digits "C-SW".toList "u".toList rank := rfl

/-! ### Thresholds -/

theorem maxOf_cons (x y : Option ℚ) (l : List (Option ℚ)) : maxOf (x :: y :: l) = x.bind fun a => (maxOf (y :: l)).bind fun b => some (max a b) := by
  conv_lhs => unfold maxOf
  rfl

theorem minOf_cons (x y : Option ℚ) (l : List (Option ℚ)) : minOf (x :: y :: l) = x.bind fun a => (minOf (y :: l)).bind fun b => some (min a b) := by
  conv_lhs => unfold minOf
  rfl

theorem maxOf_spec (l : List (Option ℚ)) : ∀ m, maxOf l = some m ↔ (some m ∈ l ∧ ∀ x ∈ l, ∃ q, x = some q ∧ q ≤ m) := by
  induction l with
  | nil => intro m; simp [maxOf]
  | cons x l ih =>
    intro m
    cases l with
    | nil => 
      simp only [maxOf, List.mem_singleton, forall_eq]
      constructor
      · rintro rfl; exact ⟨rfl, m, rfl, le_refl _⟩
      · rintro ⟨h, _⟩; exact h.symm
    | cons y l =>
      rw [maxOf_cons]
      cases x with
      | none => simp
      | some a =>
        simp only [Option.bind_some]
        cases hm : maxOf (y :: l) with
        | none =>
          simp only [Option.bind_none]
          constructor
          · intro h; cases h
          · rintro ⟨h1, h2⟩
            exfalso
            have all : ∀ z ∈ y :: l, ∃ q, z = some q := fun z hz => (h2 z (List.mem_cons_of_mem _ hz)).imp fun _ h => h.1
            have tot : ∀ l : List (Option ℚ), l ≠ [] → (∀ z ∈ l, ∃ q, z = some q) → maxOf l ≠ none := by
              intro l
              induction l with
              | nil => intro h; exact absurd rfl h
              | cons u l ih =>
                intro _ hz
                cases l with
                | nil => obtain ⟨q, rfl⟩ := hz u (List.mem_cons_self ..); simp [maxOf]
                | cons v l =>
                  rw [maxOf_cons]
                  obtain ⟨q, rfl⟩ := hz u (List.mem_cons_self ..)
                  cases hv : maxOf (v :: l) with
                  | none => exact absurd hv (ih (by simp) fun z h => hz z (List.mem_cons_of_mem _ h))
                  | some w => simp
            exact tot _ (by simp) all hm
        | some b =>
          obtain ⟨h1, h2⟩ := (ih b).1 hm
          simp only [Option.bind_some, Option.some.injEq]
          constructor
          · rintro rfl
            constructor
            · rcases le_total a b with h | h
              · rw [max_eq_right h]; exact List.mem_cons_of_mem _ h1
              · rw [max_eq_left h]; exact List.mem_cons_self ..
            · intro z hz
              rcases List.mem_cons.1 hz with rfl | hz
              · exact ⟨a, rfl, le_max_left _ _⟩
              · obtain ⟨q, rfl, hq⟩ := h2 z hz
                exact ⟨q, rfl, hq.trans (le_max_right _ _)⟩
          · rintro ⟨h3, h4⟩
            obtain ⟨q, hq, hq'⟩ := h4 _ (List.mem_cons_of_mem _ h1)
            cases hq
            obtain ⟨q, hq, hq''⟩ := h4 (some a) (List.mem_cons_self ..)
            cases hq
            apply le_antisymm (max_le hq'' hq')
            rcases List.mem_cons.1 h3 with h | h
            · cases h; exact le_max_left _ _
            · obtain ⟨q, hq, h5⟩ := h2 _ h
              cases hq
              exact h5.trans (le_max_right _ _)

theorem minOf_neg (l : List (Option ℚ)) : minOf l = (maxOf (l.map fun x => x.map fun q => -q)).map fun q => -q := by
  induction l with
  | nil => rfl
  | cons x l ih =>
    cases l with
    | nil => cases x <;> simp [minOf, maxOf]
    | cons y l =>
      rw [minOf_cons, List.map_cons, List.map_cons, maxOf_cons, ← List.map_cons (l := l), ih]
      cases x with
      | none => rfl
      | some a =>
        cases maxOf ((y :: l).map fun x => x.map fun q => -q) with
        | none => rfl
        | some b =>
          simp
          rcases le_total (-a) b with h | h
          · rw [max_eq_right h, min_eq_right (by linarith)]
          · rw [max_eq_left h, min_eq_left (by linarith), neg_neg]

theorem minOf_spec (l : List (Option ℚ)) (m : ℚ) : minOf l = some m ↔ (some m ∈ l ∧ ∀ x ∈ l, ∃ q, x = some q ∧ m ≤ q) := by
  rw [minOf_neg]
  have e : ((maxOf (l.map fun x => x.map fun q => -q)).map fun q => -q) = some m ↔ maxOf (l.map fun x => x.map fun q => -q) = some (-m) := by
    cases maxOf (l.map fun x => x.map fun q => -q) with
    | none => simp
    | some b =>
      simp only [Option.map_some, Option.some.injEq]
      constructor
      · intro h; linarith
      · intro h; linarith
  rw [e, maxOf_spec]
  constructor
  · rintro ⟨h1, h2⟩
    constructor
    · obtain ⟨x, hx, hx'⟩ := List.mem_map.1 h1
      cases x with
      | none => cases hx'
      | some q =>
        simp only [Option.map_some, Option.some.injEq] at hx'
        have : q = m := by linarith
        rw [← this]; exact hx
    · intro x hx
      obtain ⟨q, hq, hq'⟩ := h2 _ (List.mem_map_of_mem hx)
      cases x with
      | none => cases hq
      | some y =>
        simp only [Option.map_some, Option.some.injEq] at hq
        exact ⟨y, rfl, by linarith⟩
  · rintro ⟨h1, h2⟩
    constructor
    · exact List.mem_map.2 ⟨_, h1, rfl⟩
    · intro x hx
      obtain ⟨y, hy, rfl⟩ := List.mem_map.1 hx
      obtain ⟨q, rfl, hq⟩ := h2 y hy
      exact ⟨-q, rfl, by linarith⟩

theorem fold_spec (l : List Ext) : ∀ x, (l.foldl Ext.larger x = .inf ↔ .inf ∈ x :: l) ∧
    ∀ d, l.foldl Ext.larger x = .fin d → .fin d ∈ x :: l ∧ .inf ∉ x :: l ∧ ∀ q, .fin q ∈ x :: l → q ≤ d := by
  induction l with
  | nil =>
    intro x
    simp only [List.foldl_nil, List.mem_singleton]
    exact ⟨⟨Eq.symm, Eq.symm⟩, fun d h => by subst h; exact ⟨rfl, by simp, fun q hq => by cases hq; exact le_refl _⟩⟩
  | cons y l ih =>
    intro x
    rw [List.foldl_cons]
    obtain ⟨h1, h2⟩ := ih (x.larger y)
    constructor
    · rw [h1]
      simp only [List.mem_cons]
      cases x <;> cases y <;> simp [Ext.larger]
    · intro d hd
      obtain ⟨a1, a2, a3⟩ := h2 d hd
      simp only [List.mem_cons] at a1 a2 a3 ⊢
      cases x with
      | nan => 
        cases y with
        | nan => simp [Ext.larger] at a1 a2 a3 ⊢; exact ⟨a1, a2, a3⟩
        | inf => simp [Ext.larger] at a2
        | fin b => simp [Ext.larger] at a1 a2 a3 ⊢; exact ⟨a1, a2, a3⟩
      | inf => cases y <;> simp [Ext.larger] at a2
      | fin a =>
        cases y with
        | nan => simp [Ext.larger] at a1 a2 a3 ⊢; exact ⟨a1, a2, a3⟩
        | inf => simp [Ext.larger] at a2
        | fin b =>
          simp only [Ext.larger, Ext.fin.injEq, reduceCtorEq, false_or] at a1 a2 a3 ⊢
          refine ⟨?_, a2, ?_⟩
          · rcases a1 with h | h
            · rcases le_total a b with h' | h'
              · right; left; rw [max_eq_right h'] at h; exact h
              · left; rw [max_eq_left h'] at h; exact h
            · exact Or.inr (Or.inr h)
          · have hm := a3 (max a b) (Or.inl rfl)
            rintro q (rfl | rfl | h)
            · exact (le_max_left _ _).trans hm
            · exact (le_max_right _ _).trans hm
            · exact a3 q (Or.inr h)

theorem spread_spec (l : List (Option ℚ)) (d : ℚ) (h : spread l = some d) :
    (∀ x ∈ l, ∃ q, x = some q) ∧ (∃ p q, some p ∈ l ∧ some q ∈ l ∧ p - q = d) ∧ ∀ p q, some p ∈ l → some q ∈ l → |p - q| ≤ d := by
  unfold spread at h
  cases ha : maxOf l with
  | none => rw [ha] at h; cases h
  | some a =>
    cases hb : minOf l with
    | none => rw [ha, hb] at h; cases h
    | some b =>
      rw [ha, hb] at h
      have h : a - b = d := by simpa using h
      obtain ⟨a1, a2⟩ := (maxOf_spec l a).1 ha
      obtain ⟨b1, b2⟩ := (minOf_spec l b).1 hb
      refine ⟨fun x hx => (a2 x hx).imp fun _ h => h.1, ⟨a, b, a1, b1, h⟩, fun p q hp hq => ?_⟩
      obtain ⟨_, e, p1⟩ := a2 _ hp; cases e
      obtain ⟨_, e, p2⟩ := b2 _ hp; cases e
      obtain ⟨_, e, q1⟩ := a2 _ hq; cases e
      obtain ⟨_, e, q2⟩ := b2 _ hq; cases e
      rw [abs_le]
      constructor <;> linarith

theorem maxOf_total (l : List (Option ℚ)) (hl : l ≠ []) (h : ∀ x ∈ l, ∃ q, x = some q) : ∃ m, maxOf l = some m := by
  induction l with
  | nil => exact absurd rfl hl
  | cons u l ih =>
    obtain ⟨q, rfl⟩ := h u (List.mem_cons_self ..)
    cases l with
    | nil => exact ⟨q, rfl⟩
    | cons v l =>
      obtain ⟨m, hm⟩ := ih (by simp) fun z hz => h z (List.mem_cons_of_mem _ hz)
      exact ⟨max q m, by rw [maxOf_cons, hm]; rfl⟩

theorem minOf_total (l : List (Option ℚ)) (hl : l ≠ []) (h : ∀ x ∈ l, ∃ q, x = some q) : ∃ m, minOf l = some m := by
  rw [minOf_neg]
  obtain ⟨m, hm⟩ := maxOf_total (l.map fun x => x.map fun q => -q) (by simpa using hl) (by
    intro x hx
    obtain ⟨y, hy, rfl⟩ := List.mem_map.1 hx
    obtain ⟨q, rfl⟩ := h y hy
    exact ⟨-q, rfl⟩)
  exact ⟨-m, by rw [hm]; rfl⟩

theorem spread_total (l : List (Option ℚ)) (hl : l ≠ []) (h : ∀ x ∈ l, ∃ q, x = some q) : ∃ d, spread l = some d := by
  obtain ⟨a, ha⟩ := maxOf_total l hl h
  obtain ⟨b, hb⟩ := minOf_total l hl h
  exact ⟨a - b, by unfold spread; rw [ha, hb]; rfl⟩

/-- The values of all samples at a point are numbers. -/
def Numbers (samples : List (List (Option ℚ))) (i : Nat) : Prop := ∀ s ∈ samples, ∃ q, s[i]? = some (some q)

/-- `q` is the value of a sample at a point. -/
def At (samples : List (List (Option ℚ))) (i : Nat) (q : ℚ) : Prop := ∃ s ∈ samples, s[i]? = some (some q)

theorem at_iff (samples : List (List (Option ℚ))) (i : Nat) (q : ℚ) : some q ∈ atPoint samples i ↔ At samples i q := by
  unfold atPoint At
  rw [List.mem_map]
  constructor
  · rintro ⟨s, hs, h⟩
    refine ⟨s, hs, ?_⟩
    cases h' : s[i]? with
    | none => rw [h'] at h; cases h
    | some x => rw [h'] at h; simp at h; rw [h]
  · rintro ⟨s, hs, h⟩
    exact ⟨s, hs, by rw [h]; rfl⟩

theorem numbers_iff (samples : List (List (Option ℚ))) (i : Nat) : (∀ x ∈ atPoint samples i, ∃ q, x = some q) ↔ Numbers samples i := by
  unfold atPoint Numbers
  constructor
  · intro h s hs
    obtain ⟨q, hq⟩ := h _ (List.mem_map_of_mem hs)
    refine ⟨q, ?_⟩
    cases h' : s[i]? with
    | none => rw [h'] at hq; cases hq
    | some x => rw [h'] at hq; simp at hq; rw [hq]
  · intro h x hx
    obtain ⟨s, hs, rfl⟩ := List.mem_map.1 hx
    obtain ⟨q, hq⟩ := h s hs
    exact ⟨q, by rw [hq]; rfl⟩

theorem minAbs_spec (samples : List (List (Option ℚ))) (i : Nat) (m : ℚ) (h : minOf ((atPoint samples i).map fun x => x.map abs) = some m) :
    (∃ v, At samples i v ∧ |v| = m) ∧ ∀ v, At samples i v → m ≤ |v| := by
  obtain ⟨h1, h2⟩ := (minOf_spec _ m).1 h
  constructor
  · obtain ⟨x, hx, hx'⟩ := List.mem_map.1 h1
    cases x with
    | none => cases hx'
    | some v => exact ⟨v, (at_iff samples i v).1 hx, by simpa using hx'⟩
  · intro v hv
    obtain ⟨q, hq, hm⟩ := h2 (some |v|) (List.mem_map.2 ⟨some v, (at_iff samples i v).2 hv, rfl⟩)
    cases hq
    exact hm

theorem thresholds_ok {samples : List (List (Option ℚ))} {n : Nat} {rel dif : Ext} (h : thresholds samples n = .ok (rel, dif)) :
    nanmax ((List.range n).map fun i => relative (atPoint samples i)) = .ok rel ∧
    nanmax ((List.range n).map fun i => match spread (atPoint samples i) with
      | some d => .fin d
      | none => .nan) = .ok dif := by
  unfold thresholds at h
  cases h1 : nanmax ((List.range n).map fun i => relative (atPoint samples i)) with
  | error e => rw [h1] at h; cases h
  | ok r =>
    rw [h1] at h
    simp only [bind, Except.bind] at h
    split at h
    · cases h
    · rename_i v hv
      cases h
      exact ⟨rfl, hv⟩

theorem nanmax_spec {l : List Ext} {r : Ext} (h : nanmax l = .ok r) :
    (r = .inf ↔ .inf ∈ l) ∧ ∀ d, r = .fin d → .fin d ∈ l ∧ .inf ∉ l ∧ ∀ q, .fin q ∈ l → q ≤ d := by
  cases l with
  | nil => cases h
  | cons x l =>
    simp only [nanmax, Except.ok.injEq] at h
    subst h
    exact fold_spec l x

/-- C130: the absolute difference printed bounds the difference of any two samples at every point without NaN, and is one of them. -/
theorem C130_absolute (samples : List (List (Option ℚ))) (hs : samples ≠ []) (n : Nat) (rel : Ext) (d : ℚ) (h : thresholds samples n = .ok (rel, .fin d)) :
    (∀ i < n, Numbers samples i → ∀ p q, At samples i p → At samples i q → |p - q| ≤ d) ∧ ∃ i < n, Numbers samples i ∧ ∃ p q, At samples i p ∧ At samples i q ∧ p - q = d := by
  obtain ⟨h1, _, h2⟩ := (nanmax_spec (thresholds_ok h).2).2 d rfl
  constructor
  · intro i hi hn p q hp hq
    obtain ⟨e, he⟩ := spread_total (atPoint samples i) (by unfold atPoint; simpa using hs) ((numbers_iff samples i).2 hn)
    refine ((spread_spec _ e he).2.2 p q ((at_iff ..).2 hp) ((at_iff ..).2 hq)).trans (h2 e ?_)
    exact List.mem_map.2 ⟨i, by simpa using hi, by rw [he]⟩
  · obtain ⟨i, hi, he⟩ := List.mem_map.1 h1
    cases hsp : spread (atPoint samples i) with
    | none => rw [hsp] at he; cases he
    | some e =>
      rw [hsp] at he
      cases he
      obtain ⟨a1, ⟨p, q, a2, a3, a4⟩, _⟩ := spread_spec _ d hsp
      exact ⟨i, by simpa using hi, (numbers_iff samples i).1 a1, p, q, (at_iff ..).1 a2, (at_iff ..).1 a3, a4⟩

/-- C130: the relative difference printed bounds the difference of any two samples at every point without NaN, relative to any sample there, and is one of them;
it is infinite exactly when there is a point where one sample is zero and another is not. -/
theorem C130_relative (samples : List (List (Option ℚ))) (hs : samples ≠ []) (n : Nat) (rel dif : Ext) (h : thresholds samples n = .ok (rel, dif)) :
    (rel = .inf ↔ ∃ i < n, Numbers samples i ∧ At samples i 0 ∧ ∃ p, At samples i p ∧ p ≠ 0) ∧
    ∀ d, rel = .fin d → (∀ i < n, Numbers samples i → ∀ p q v, At samples i p → At samples i q → At samples i v → |p - q| ≤ d * |v|) ∧
      ∃ i < n, Numbers samples i ∧ ∃ p q v, At samples i p ∧ At samples i q ∧ At samples i v ∧ v ≠ 0 ∧ p - q = d * |v| := by
  have hne : ∀ i, atPoint samples i ≠ [] := fun i => by unfold atPoint; simpa using hs
  obtain ⟨r1, r2⟩ := nanmax_spec (thresholds_ok h).1
  -- the result at a point with numbers
  have point : ∀ i, Numbers samples i → ∃ d m, spread (atPoint samples i) = some d ∧ (∃ v, At samples i v ∧ |v| = m) ∧ (∀ v, At samples i v → m ≤ |v|) ∧
      relative (atPoint samples i) = if m = 0 then (if d = 0 then .nan else .inf) else .fin (d / m) := by
    intro i hi
    have hnum := (numbers_iff samples i).2 hi
    obtain ⟨d, hd⟩ := spread_total _ (hne i) hnum
    obtain ⟨m, hm⟩ := minOf_total ((atPoint samples i).map fun x => x.map abs) (by simpa using hne i) (by
      intro x hx
      obtain ⟨y, hy, rfl⟩ := List.mem_map.1 hx
      obtain ⟨q, rfl⟩ := hnum y hy
      exact ⟨|q|, rfl⟩)
    obtain ⟨m1, m2⟩ := minAbs_spec samples i m hm
    exact ⟨d, m, hd, m1, m2, by unfold relative; rw [hd, hm]⟩
  -- anything else is NaN
  have other : ∀ i, relative (atPoint samples i) ≠ .nan → Numbers samples i := by
    intro i hi
    cases hsp : spread (atPoint samples i) with
    | none => exact absurd (by unfold relative; rw [hsp]) hi
    | some d => exact (numbers_iff samples i).1 (spread_spec _ d hsp).1
  constructor
  · rw [r1, List.mem_map]
    constructor
    · rintro ⟨i, hi, he⟩
      have hn := other i (by rw [he]; decide)
      obtain ⟨d, m, hd, ⟨v, v1, v2⟩, hm, e⟩ := point i hn
      rw [he] at e
      split at e
      · rename_i h0
        split at e
        · cases e
        · rename_i hd0
          have hv : v = 0 := by rw [h0] at v2; exact abs_eq_zero.1 v2
          subst hv
          refine ⟨i, by simpa using hi, hn, v1, ?_⟩
          obtain ⟨_, ⟨p, q, p1, q1, hpq⟩, _⟩ := spread_spec _ d hd
          by_cases hp : p = 0
          · exact ⟨q, (at_iff ..).1 q1, fun hq => hd0 (by rw [← hpq, hp, hq]; norm_num)⟩
          · exact ⟨p, (at_iff ..).1 p1, hp⟩
      · cases e
    · rintro ⟨i, hi, hn, h0, p, hp, hp0⟩
      obtain ⟨d, m, hd, ⟨v, v1, v2⟩, hm, e⟩ := point i hn
      refine ⟨i, by simpa using hi, ?_⟩
      have m0 : m = 0 := by
        have := hm 0 h0
        rw [abs_zero] at this
        have := abs_nonneg v
        linarith
      have d0 : d ≠ 0 := by
        rintro rfl
        have := (spread_spec _ 0 hd).2.2 p 0 ((at_iff ..).2 hp) ((at_iff ..).2 h0)
        rw [sub_zero] at this
        exact hp0 (abs_eq_zero.1 (le_antisymm this (abs_nonneg _)))
      rw [e, if_pos m0, if_neg d0]
  · intro d hd
    obtain ⟨a1, a2, a3⟩ := r2 d hd
    have pos : 0 ≤ d := by
      obtain ⟨i, _, he⟩ := List.mem_map.1 a1
      obtain ⟨e, m, hsp, ⟨v, v1, v2⟩, hm, er⟩ := point i (other i (by rw [he]; exact fun h => (nomatch h)))
      rw [he] at er
      split at er
      · split at er <;> cases er
      · cases er
        have h1 := (spread_spec _ e hsp).2.2 v v ((at_iff ..).2 v1) ((at_iff ..).2 v1)
        rw [sub_self, abs_zero] at h1
        exact div_nonneg h1 (by rw [← v2]; exact abs_nonneg _)
    constructor
    · intro i hi hn p q v hp hq hv
      obtain ⟨e, m, hsp, ⟨w, w1, w2⟩, hm, er⟩ := point i hn
      have hle := (spread_spec _ e hsp).2.2 p q ((at_iff ..).2 hp) ((at_iff ..).2 hq)
      have hmem : relative (atPoint samples i) ∈ (List.range n).map fun i => relative (atPoint samples i) := List.mem_map.2 ⟨i, by simpa using hi, rfl⟩
      by_cases m0 : m = 0
      · rw [if_pos m0] at er
        by_cases e0 : e = 0
        · rw [e0] at hle
          exact hle.trans (mul_nonneg pos (abs_nonneg _))
        · rw [if_neg e0] at er
          rw [er] at hmem
          exact absurd hmem a2
      · rw [if_neg m0] at er
        rw [er] at hmem
        have h1 := a3 _ hmem
        have mpos : 0 < m := lt_of_le_of_ne (by rw [← w2]; exact abs_nonneg _) (Ne.symm m0)
        rw [div_le_iff₀ mpos] at h1
        have h2 := mul_le_mul_of_nonneg_left (hm v hv) pos
        linarith
    · obtain ⟨i, hi, he⟩ := List.mem_map.1 a1
      have hn := other i (by rw [he]; exact fun h => (nomatch h))
      obtain ⟨e, m, hsp, ⟨v, v1, v2⟩, hm, er⟩ := point i hn
      rw [he] at er
      split at er
      · split at er <;> cases er
      · rename_i m0
        cases er
        obtain ⟨_, ⟨p, q, p1, q1, hpq⟩, _⟩ := spread_spec _ e hsp
        refine ⟨i, by simpa using hi, hn, p, q, v, (at_iff ..).1 p1, (at_iff ..).1 q1, v1, ?_, ?_⟩
        · rintro rfl; rw [abs_zero] at v2; exact m0 v2.symm
        · rw [hpq, v2, div_mul_cancel₀ _ m0]

/-! ### Cases that meet the hypotheses -/

/-- Two ranks, one variable that fails, one that passes, with inputs for one of them. -/
example : ∀ name ∈ ["u"] ++ ["v"], Savable 2 (some fun _ => some ["x"]) [fun n => if n = "u" then some ⟨[3], fun _ => (1 : ℚ)⟩ else none, fun _ => some ⟨[3], fun _ => 2⟩]
    [fun _ => some ⟨[2], fun _ => 1⟩, fun _ => some ⟨[2], fun _ => 2⟩] (fun _ => some [⟨[2], fun _ => 1⟩, ⟨[2], fun _ => 3⟩]) name := by
  intro name hname
  refine ⟨⟨by decide, rfl, rfl⟩, [2], _, rfl, rfl, by simp, by simp, fun o ho => ⟨["x"], by cases ho; rfl, rfl⟩, ?_⟩
  simp only [List.cons_append, List.nil_append, List.mem_cons, List.not_mem_nil, or_false] at hname
  rcases hname with rfl | rfl
  · right; exact ⟨[3], rfl, by simp⟩
  · left; exact ⟨_, List.mem_cons_self .., rfl⟩

example : thresholds [[some 1, none, some 2], [some 2, some 1, some 2]] 3 = .ok (.fin 1, .fin 1) := by decide +kernel

example : thresholds [[some 0, none], [some 2, some 1]] 2 = .ok (.inf, .fin 2) := by decide +kernel

end NDSL.TestReport
