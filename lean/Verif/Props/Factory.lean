import Verif.Model.Factory
import Verif.Props.Sizer

/-! C38: adding and extending data dimensions. C41: temporary dimension swaps. -/
namespace NDSL.Factory

/-! ### dictionaries -/

theorem dimGet_cons (e : Dim × Int) (d : List (Dim × Int)) (k : Dim) :
    dimGet (e :: d) k = if e.1 = k then some e.2 else dimGet d k := by
  unfold dimGet
  rw [List.find?_cons]
  by_cases h : e.1 = k <;> simp [h]

theorem dimGet_setKey (d : List (Dim × Int)) (k : Dim) (v : Int) (x : Dim) :
    dimGet (setKey d k v) x = if k = x then some v else dimGet d x := by
  induction d with
  | nil => simp [setKey, dimGet_cons]
  | cons e d ih =>
    simp only [setKey]
    by_cases he : e.1 = k
    · rw [if_pos he, dimGet_cons, dimGet_cons]
      by_cases hx : k = x
      · simp [hx]
      · have : e.1 ≠ x := fun h => hx (he.symm.trans h)
        simp [hx, this]
    · rw [if_neg he, dimGet_cons, dimGet_cons, ih]
      by_cases hx : k = x
      · subst hx; simp [he]
      · simp [hx]

theorem dimGet_none {d : List (Dim × Int)} {k : Dim} : dimGet d k = none ↔ ∀ e ∈ d, e.1 ≠ k := by
  induction d with
  | nil => simp [dimGet]
  | cons e d ih =>
    rw [dimGet_cons]
    by_cases h : e.1 = k
    · simp [h]
    · simp [h, ih]

theorem dimGet_updateDict (d ds : List (Dim × Int)) (hn : (ds.map (·.1)).Nodup) (x : Dim) :
    dimGet (updateDict d ds) x = match dimGet ds x with
      | some v => some v
      | none => dimGet d x := by
  unfold updateDict
  induction ds generalizing d with
  | nil => rfl
  | cons e ds ih =>
    rw [List.map_cons, List.nodup_cons] at hn
    rw [List.foldl_cons, ih _ hn.2, dimGet_setKey, dimGet_cons]
    by_cases h : e.1 = x
    · have : dimGet ds x = none := by
        rw [dimGet_none]
        intro y hy he
        exact hn.1 (List.mem_map.2 ⟨y, hy, he.trans h.symm⟩)
      rw [this]
      simp [h]
    · simp [h]

/-! ### what programs can reach -/

/-- factories refer to sizers, and every sizer has its own dictionary -/
structure Inv (w : World) : Prop where
  fac : ∀ f < w.factories.length, w.factories.getD f 0 < w.sizers.length
  ref : ∀ s < w.sizers.length, (w.sizers.getD s noSizer).ref < w.dicts.length
  own : ∀ s < w.sizers.length, ∀ t < w.sizers.length,
    (w.sizers.getD s noSizer).ref = (w.sizers.getD t noSizer).ref → s = t

theorem getD_append_lt {β : Type} (l m : List β) (d : β) (i : Nat) (h : i < l.length) :
    (l ++ m).getD i d = l.getD i d := by
  simp [List.getD_eq_getElem?_getD, List.getElem?_append_left h]

theorem getD_append_len {β : Type} (l : List β) (x d : β) : (l ++ [x]).getD l.length d = x := by
  simp [List.getD_eq_getElem?_getD]

theorem getD_set {β : Type} (l : List β) (i j : Nat) (x d : β) (h : i < l.length) :
    (l.set i x).getD j d = if i = j then x else l.getD j d := by
  simp only [List.getD_eq_getElem?_getD, List.getElem?_set, h]
  by_cases hij : i = j
  · subst hij; simp
  · simp [hij]

theorem updateData_inv {w : World} (hi : Inv w) (f : Nat) (ds : List (Dim × Int)) : Inv (updateData w f ds) := by
  refine ⟨hi.fac, ?_, hi.own⟩
  intro s hs
  have := hi.ref s hs
  simpa [updateData] using this

theorem addData_inv {w : World} (hi : Inv w) (f : Nat) (ds : List (Dim × Int)) : Inv (addData w f ds).1 := by
  unfold addData
  split
  · exact hi
  · exact updateData_inv hi f ds

theorem again_inv {w : World} (hi : Inv w) {f : Nat} (hf : f < w.factories.length) :
    Inv { w with factories := w.factories ++ [w.factories.getD f 0] } := by
  refine ⟨?_, hi.ref, hi.own⟩
  intro g hg
  simp only [List.length_append, List.length_cons, List.length_nil] at hg
  by_cases h : g < w.factories.length
  · simp only [getD_append_lt _ _ _ _ h]; exact hi.fac g h
  · have : g = w.factories.length := by omega
    subst this
    simp only [getD_append_len]
    exact hi.fac f hf

theorem step_inv {w : World} (hi : Inv w) (o : Op) : Inv (step w o) := by
  cases o with
  | create s data =>
    refine ⟨?_, ?_, ?_⟩
    · intro g hg
      simp only [step, List.length_append, List.length_cons, List.length_nil] at hg ⊢
      by_cases h : g < w.factories.length
      · rw [getD_append_lt _ _ _ _ h]; have := hi.fac g h; omega
      · have : g = w.factories.length := by omega
        subst this
        rw [getD_append_len]; omega
    · intro t ht
      simp only [step, List.length_append, List.length_cons, List.length_nil] at ht ⊢
      by_cases h : t < w.sizers.length
      · rw [getD_append_lt _ _ _ _ h]; have := hi.ref t h; omega
      · have : t = w.sizers.length := by omega
        subst this
        rw [getD_append_len]; simp
    · intro t ht u hu
      simp only [step, List.length_append, List.length_cons, List.length_nil] at ht hu ⊢
      by_cases h : t < w.sizers.length <;> by_cases h' : u < w.sizers.length
      · rw [getD_append_lt _ _ _ _ h, getD_append_lt _ _ _ _ h']; exact hi.own t h u h'
      · have : u = w.sizers.length := by omega
        subst this
        rw [getD_append_lt _ _ _ _ h, getD_append_len]
        intro he
        have := hi.ref t h
        simp only at he
        omega
      · have : t = w.sizers.length := by omega
        subst this
        rw [getD_append_lt _ _ _ _ h', getD_append_len]
        intro he
        have := hi.ref u h'
        simp only at he
        omega
      · intro _; omega
  | again f =>
    simp only [step]
    split
    · rename_i h; exact again_inv hi h
    · exact hi
  | update f ds =>
    simp only [step]
    split
    · exact updateData_inv hi f ds
    · exact hi
  | add f ds =>
    simp only [step]
    split
    · exact addData_inv hi f ds
    · exact hi
  | extend f ds =>
    simp only [step]
    split
    · rename_i h
      unfold extend
      have := addData_inv (again_inv hi h) w.factories.length ds
      simp only
      split
      · rename_i w' heq
        rw [heq] at this
        exact this
      · exact hi
    · exact hi

theorem run_inv (h : List Op) : Inv (run h) := by
  unfold run
  have : ∀ (h : List Op) (w : World), Inv w → Inv (h.foldl step w) := by
    intro h
    induction h with
    | nil => intro w hw; exact hw
    | cons o h ih => intro w hw; exact ih _ (step_inv hw o)
  exact this h _ ⟨by simp, by simp, by simp⟩

theorem dims_updateData {w : World} (hi : Inv w) {f : Nat} (hf : f < w.factories.length) (ds : List (Dim × Int))
    {g : Nat} (hg : g < w.factories.length) :
    (updateData w f ds).dims g =
      if w.factories.getD f 0 = w.factories.getD g 0 then updateDict (w.dims f) ds else w.dims g := by
  have hfs := hi.fac f hf
  have hgs := hi.fac g hg
  have hrf : (w.sizerObj f).ref < w.dicts.length := hi.ref _ hfs
  show ((w.dicts.set (w.sizerObj f).ref _).getD (w.sizerObj g).ref []) = _
  rw [getD_set _ _ _ _ _ hrf]
  by_cases h : w.factories.getD f 0 = w.factories.getD g 0
  · have : (w.sizerObj f).ref = (w.sizerObj g).ref := by unfold World.sizerObj; rw [h]
    rw [if_pos h, if_pos this]
  · have : (w.sizerObj f).ref ≠ (w.sizerObj g).ref := fun he => h (hi.own _ hfs _ hgs he)
    rw [if_neg h, if_neg this]
    rfl

/-- C38. After any history, adding data dimensions (a dictionary) to a factory fails exactly when one of the names
already exists, and then changes nothing at all; otherwise the factory has afterwards the new dimensions, and
the old ones as before. -/
theorem C38_add_all_or_nothing (h : List Op) (f : Nat) (hf : f < (run h).factories.length)
    (ds : List (Dim × Int)) (hn : (ds.map (·.1)).Nodup) :
    ((∃ d, dimGet ds d ≠ none ∧ dimGet ((run h).dims f) d ≠ none) →
      addData (run h) f ds = (run h, .error .valueError)) ∧
    ((∀ d, dimGet ds d ≠ none → dimGet ((run h).dims f) d = none) →
      (addData (run h) f ds).2 = .ok () ∧
      ∀ d, dimGet ((addData (run h) f ds).1.dims f) d = match dimGet ds d with
        | some n => some n
        | none => dimGet ((run h).dims f) d) := by
  have hi := run_inv h
  generalize run h = w at *
  have hany : (ds.any (fun e => (w.dims f).any fun x => decide (x.1 = e.1))) = true ↔
      ∃ d, dimGet ds d ≠ none ∧ dimGet (w.dims f) d ≠ none := by
    simp only [List.any_eq_true, decide_eq_true_eq]
    constructor
    · rintro ⟨e, he, x, hx, hxe⟩
      refine ⟨e.1, ?_, ?_⟩
      · rw [Ne, dimGet_none]; intro hh; exact hh e he rfl
      · rw [Ne, dimGet_none]; intro hh; exact hh x hx hxe
    · rintro ⟨d, h1, h2⟩
      rw [Ne, dimGet_none] at h1 h2
      simp only [not_forall] at h1 h2
      obtain ⟨e, he, hed⟩ := h1
      obtain ⟨x, hx, hxd⟩ := h2
      simp only [Decidable.not_not, ne_eq] at hed hxd
      exact ⟨e, he, x, hx, hxd.trans hed.symm⟩
  refine ⟨fun hex => ?_, fun hfree => ?_⟩
  · unfold addData
    rw [if_pos (hany.2 hex)]
  · have hno : ¬ (ds.any (fun e => (w.dims f).any fun x => decide (x.1 = e.1))) = true := by
      rw [hany]
      rintro ⟨d, h1, h2⟩
      exact h2 (hfree d h1)
    unfold addData
    rw [if_neg hno]
    refine ⟨rfl, fun d => ?_⟩
    show dimGet ((updateData w f ds).dims f) d = _
    rw [dims_updateData hi hf ds hf, if_pos rfl]
    exact dimGet_updateDict _ _ hn d

/-- C38. Adding to or updating a factory leaves factories with another sizer as they were. -/
theorem C38_other_factories (h : List Op) (f g : Nat) (hf : f < (run h).factories.length)
    (hg : g < (run h).factories.length) (hne : (run h).factories.getD f 0 ≠ (run h).factories.getD g 0)
    (ds : List (Dim × Int)) :
    (addData (run h) f ds).1.dims g = (run h).dims g ∧ (updateData (run h) f ds).dims g = (run h).dims g ∧
    (Factory.extend (run h) f ds).1.dims g = (run h).dims g := by
  have hi := run_inv h
  generalize run h = w at *
  have hu : (updateData w f ds).dims g = w.dims g := by
    rw [dims_updateData hi hf ds hg, if_neg hne]
  refine ⟨?_, hu, ?_⟩
  · unfold addData
    split
    · rfl
    · exact hu
  · unfold Factory.extend
    have hgl : g < ({ w with factories := w.factories ++ [w.factories.getD f 0] } : World).factories.length := by
      simp; omega
    have hll : w.factories.length < ({ w with factories := w.factories ++ [w.factories.getD f 0] } : World).factories.length := by
      simp
    have hcd : ({ w with factories := w.factories ++ [w.factories.getD f 0] } : World).dims g = w.dims g := by
      unfold World.dims World.sizerObj
      simp only [getD_append_lt _ _ _ _ hg]
    have hcopy : (addData { w with factories := w.factories ++ [w.factories.getD f 0] } w.factories.length ds).1.dims g =
        w.dims g := by
      unfold addData
      split
      · exact hcd
      · rw [dims_updateData (again_inv hi hf) hll ds hgl, if_neg, hcd]
        simp only [getD_append_len, getD_append_lt _ _ _ _ hg]
        exact hne
    simp only
    split
    · rename_i w' heq
      rw [heq] at hcopy
      exact hcopy
    · rfl

/-- C38, the part about extending that holds: the new factory has the old dimensions and the new ones, and extending
fails, changing nothing, exactly when adding would. What the claim adds, "leaves the one given untouched", is
false: the factory given has the new dimensions as well, always. -/
theorem C38_extend_partial (h : List Op) (f : Nat) (hf : f < (run h).factories.length)
    (ds : List (Dim × Int)) (hn : (ds.map (·.1)).Nodup) :
    ((∃ d, dimGet ds d ≠ none ∧ dimGet ((run h).dims f) d ≠ none) →
      Factory.extend (run h) f ds = (run h, .error .valueError)) ∧
    ((∀ d, dimGet ds d ≠ none → dimGet ((run h).dims f) d = none) →
      ∃ new, (Factory.extend (run h) f ds).2 = .ok new ∧
      (∀ d, dimGet ((Factory.extend (run h) f ds).1.dims new) d = match dimGet ds d with
        | some n => some n
        | none => dimGet ((run h).dims f) d) ∧
      (Factory.extend (run h) f ds).1.dims f = (Factory.extend (run h) f ds).1.dims new) := by
  have hA := C38_add_all_or_nothing (h ++ [.again f]) (run h).factories.length
    (by simp [run, List.foldl_append, step]; have : f < (run h).factories.length := hf; unfold run at this; rw [if_pos this]; simp)
    ds hn
  have hrun : run (h ++ [.again f]) =
      { run h with factories := (run h).factories ++ [(run h).factories.getD f 0] } := by
    have : run (h ++ [.again f]) = step (run h) (.again f) := by simp [run, List.foldl_append]
    rw [this]
    simp only [step, if_pos hf]
  have hd : (run (h ++ [.again f])).dims (run h).factories.length = (run h).dims f := by
    rw [hrun]
    unfold World.dims World.sizerObj
    simp only [getD_append_len]
  rw [hd] at hA
  rw [hrun] at hA
  refine ⟨fun hex => ?_, fun hfree => ?_⟩
  · have := hA.1 hex
    unfold Factory.extend
    simp only [this]
  · obtain ⟨h2, h3⟩ := hA.2 hfree
    have hext : Factory.extend (run h) f ds =
        ((addData { run h with factories := (run h).factories ++ [(run h).factories.getD f 0] }
          (run h).factories.length ds).1, .ok (run h).factories.length) := by
      unfold Factory.extend
      simp only
      generalize addData _ _ ds = r at h2 ⊢
      obtain ⟨w', o⟩ := r
      simp only at h2
      subst h2
      rfl
    refine ⟨_, by rw [hext], by rw [hext]; exact h3, ?_⟩
    rw [hext]
    have hf' : ∀ d' : List (List (Dim × Int)), ∀ s' : List SizerObj,
        (⟨d', s', (run h).factories ++ [(run h).factories.getD f 0]⟩ : World).dims f =
        (⟨d', s', (run h).factories ++ [(run h).factories.getD f 0]⟩ : World).dims (run h).factories.length := by
      intro d' s'
      unfold World.dims World.sizerObj
      simp only [getD_append_len, getD_append_lt _ _ _ _ hf]
    unfold addData
    split
    · exact hf' _ _
    · exact hf' _ _

/-! ### C41 -/

/-- the fields a state class allocates, with their paths: all fields that take part in `__init__` -/
def initFields : Cls → List (List String × FType × Option (List Dim))
  | .nil => []
  | .field _ false _ _ rest => initFields rest
  | .field name true ty dims rest => ([name], ty, dims) :: initFields rest
  | .nested _ false _ rest => initFields rest
  | .nested name true sub rest => (initFields sub).map (fun e => (name :: e.1, e.2)) ++ initFields rest

theorem withSwap_world {β : Type} {w : World} (hi : Inv w) {f : Nat} (hf : f < w.factories.length)
    (dd : Option (List (Dim × Int))) (body : Sizer → Except Err β) :
    (withSwap w f dd body).1 = { w with dicts := w.dicts ++ [dd.getD []] } ∧
    (withSwap w f dd body).2 = body { w.sizer f with data := dd.getD [] } := by
  have hfs := hi.fac f hf
  constructor
  · simp only [withSwap, World.mk.injEq, true_and, and_true]
    rw [List.set_set]
    have : w.sizers.set (w.factories.getD f 0) (w.sizerObj f) = w.sizers := by
      apply List.ext_getElem (by simp)
      intro i h1 h2
      rw [List.getElem_set]
      split
      · rename_i hh
        subst hh
        unfold World.sizerObj
        rw [List.getD_eq_getElem?_getD, List.getElem?_eq_getElem hfs, Option.getD_some]
      · rfl
    conv_rhs => rw [← this]
    congr 1
    simp only [World.sizerObj, getD_set _ _ _ _ _ hfs, if_true]
  · simp only [withSwap, World.sizer, World.dims]
    congr 1
    simp only [World.sizerObj, getD_set _ _ _ _ _ hfs, if_true, getD_append_len]

theorem dims_append {w : World} (hi : Inv w) (x : List (Dim × Int)) {g : Nat} (hg : g < w.factories.length) :
    ({ w with dicts := w.dicts ++ [x] } : World).dims g = w.dims g ∧
    ({ w with dicts := w.dicts ++ [x] } : World).sizer g = w.sizer g := by
  have hd : ({ w with dicts := w.dicts ++ [x] } : World).dims g = w.dims g := by
    have : (w.sizerObj g).ref < w.dicts.length := hi.ref _ (hi.fac g hg)
    exact getD_append_lt _ _ _ _ this
  refine ⟨hd, ?_⟩
  unfold World.sizer
  rw [hd]
  rfl

/-- C41. Whatever the state class, the data dimensions asked for and the outcome (in particular when the
allocation raises part-way), afterwards every factory has the same sizer, the same data dimensions and computes
the same sizes as before. -/
theorem C41_restored (h : List Op) (f : Nat) (hf : f < (run h).factories.length) (cls : Cls)
    (dd : Option (List (Dim × Int))) (w' : World)
    (hw : w' = (stateAlloc (run h) f cls dd).1 ∨ w' = (makeLocals (run h) f cls dd).1 ∨
      w' = (makeAsState (run h) f cls dd).1) :
    w'.factories = (run h).factories ∧ w'.sizers = (run h).sizers ∧
    ∀ g < (run h).factories.length, w'.dims g = (run h).dims g ∧ w'.sizer g = (run h).sizer g := by
  have hi := run_inv h
  generalize run h = w at *
  have key : ∀ w'' : World, (w'' = w ∨ w'' = { w with dicts := w.dicts ++ [dd.getD []] }) →
      w''.factories = w.factories ∧ w''.sizers = w.sizers ∧
      ∀ g < w.factories.length, w''.dims g = w.dims g ∧ w''.sizer g = w.sizer g := by
    rintro w'' (rfl | rfl)
    · exact ⟨rfl, rfl, fun g _ => ⟨rfl, rfl⟩⟩
    · exact ⟨rfl, rfl, fun g hg => dims_append hi _ hg⟩
  apply key
  rcases hw with rfl | rfl | rfl
  · unfold stateAlloc
    split
    · exact .inl rfl
    · exact .inr (withSwap_world hi hf dd _).1
  · unfold makeLocals
    split
    · exact .inl rfl
    · exact .inr (withSwap_world hi hf dd _).1
  · unfold makeAsState
    split
    · exact .inl rfl
    · have := (withSwap_world hi hf dd cls.swapLocal.init).1
      simp only
      split <;> rename_i heq <;> rw [heq] at this <;> exact .inr this

/-- what allocating one field means: its type is a quantity of some kind, it has dims, and they are known -/
def Allocated (s : Sizer) (fd : List String × FType × Option (List Dim)) (e : List String × Alloc) : Prop :=
  e.1 = fd.1 ∧ fd.2.1 ≠ .other ∧ ∃ ds, fd.2.2 = some ds ∧ allocate s ds = .ok e.2

/-- no field of the class, nested or not, is a `Local` -/
def NoLocals : Cls → Prop
  | .nil => True
  | .field _ _ ty _ rest => ty ≠ .localField ∧ NoLocals rest
  | .nested _ _ sub rest => NoLocals sub ∧ NoLocals rest

/-- no field of the class, nested or not, is a `Quantity` -/
def NoQuantities : Cls → Prop
  | .nil => True
  | .field _ _ ty _ rest => ty ≠ .quantity ∧ NoQuantities rest
  | .nested _ _ sub rest => NoQuantities sub ∧ NoQuantities rest

theorem checkNoLocals_iff (c : Cls) : c.checkNoLocals = .ok () ↔ NoLocals c := by
  induction c with
  | nil => simp [Cls.checkNoLocals, NoLocals]
  | field n i ty d rest ih =>
    simp only [Cls.checkNoLocals, NoLocals]
    by_cases h : ty = .localField
    · simp [h]
    · simp [h, ih]
  | nested n i sub rest ih1 ih2 =>
    simp only [Cls.checkNoLocals, NoLocals, bind, Except.bind]
    cases h : sub.checkNoLocals with
    | error e =>
      rw [h] at ih1
      simp at ih1
      simp [ih1]
    | ok u => rw [h] at ih1; simp at ih1; simp [ih1, ih2]

theorem checkOnlyLocals_iff (c : Cls) : c.checkOnlyLocals = .ok () ↔ NoQuantities c := by
  induction c with
  | nil => simp [Cls.checkOnlyLocals, NoQuantities]
  | field n i ty d rest ih =>
    simp only [Cls.checkOnlyLocals, NoQuantities]
    by_cases h : ty = .quantity
    · simp [h]
    · simp [h, ih]
  | nested n i sub rest ih1 ih2 =>
    simp only [Cls.checkOnlyLocals, NoQuantities, bind, Except.bind]
    cases h : sub.checkOnlyLocals with
    | error e =>
      rw [h] at ih1
      simp at ih1
      simp [ih1]
    | ok u => rw [h] at ih1; simp at ih1; simp [ih1, ih2]

theorem forall₂_append_iff {β γ : Type} {R : β → γ → Prop} (a b : List β) (l : List γ) :
    List.Forall₂ R (a ++ b) l ↔ ∃ l1 l2, l = l1 ++ l2 ∧ List.Forall₂ R a l1 ∧ List.Forall₂ R b l2 := by
  induction a generalizing l with
  | nil =>
    constructor
    · intro h; exact ⟨[], l, rfl, .nil, h⟩
    · rintro ⟨l1, l2, rfl, h1, h2⟩; cases h1; exact h2
  | cons x a ih =>
    constructor
    · intro h
      cases h with
      | cons hx ht =>
        obtain ⟨l1, l2, rfl, h1, h2⟩ := (ih _).1 ht
        exact ⟨_ :: l1, l2, rfl, .cons hx h1, h2⟩
    · rintro ⟨l1, l2, rfl, h1, h2⟩
      cases h1 with
      | cons hx ht => exact .cons hx ((ih _).2 ⟨_, _, rfl, ht, h2⟩)

theorem forall₂_prefix (s : Sizer) (name : String) (a : List (List String × FType × Option (List Dim)))
    (l : List (List String × Alloc)) :
    List.Forall₂ (Allocated s) (a.map fun e => (name :: e.1, e.2)) l ↔
      ∃ l', l = l'.map (fun e => (name :: e.1, e.2)) ∧ List.Forall₂ (Allocated s) a l' := by
  induction a generalizing l with
  | nil =>
    constructor
    · intro h; cases h; exact ⟨[], rfl, .nil⟩
    · rintro ⟨l', rfl, h⟩; cases h; exact .nil
  | cons x a ih =>
    constructor
    · intro h
      rw [List.map_cons] at h
      cases h with
      | @cons _ y _ t hx ht =>
        obtain ⟨l', rfl, h'⟩ := (ih _).1 ht
        refine ⟨(x.1, y.2) :: l', ?_, .cons ⟨rfl, hx.2.1, hx.2.2⟩ h'⟩
        have : y.1 = name :: x.1 := hx.1
        rw [List.map_cons]
        congr 1
        exact Prod.ext this rfl
    · rintro ⟨l', rfl, h⟩
      cases h with
      | cons hx ht =>
        rw [List.map_cons, List.map_cons]
        refine .cons ⟨?_, hx.2.1, hx.2.2⟩ ((ih _).2 ⟨_, rfl, ht⟩)
        show name :: _ = name :: _
        rw [hx.1]

theorem init_ok (s : Sizer) (c : Cls) (l : List (List String × Alloc)) :
    c.init s = .ok l ↔ List.Forall₂ (Allocated s) (initFields c) l := by
  induction c generalizing l with
  | nil =>
    simp only [Cls.init, initFields]
    constructor
    · intro h; cases h; exact .nil
    · intro h; cases h; rfl
  | field n i ty d rest ih =>
    cases i with
    | false => simp only [Cls.init, initFields]; exact ih l
    | true =>
      simp only [Cls.init, initFields]
      by_cases hty : ty = .other
      · rw [if_pos hty]
        constructor
        · intro h; cases h
        · intro h; cases h with
          | cons hx _ => exact absurd hty hx.2.1
      · rw [if_neg hty]
        cases d with
        | none =>
          constructor
          · intro h; cases h
          · intro h; cases h with
            | cons hx _ => obtain ⟨ds, hd, -⟩ := hx.2.2; cases hd
        | some ds =>
          simp only [bind, Except.bind, pure, Except.pure]
          constructor
          · intro h
            cases hq : allocate s ds with
            | error e => rw [hq] at h; cases h
            | ok q =>
              rw [hq] at h
              cases hr : rest.init s with
              | error e => rw [hr] at h; cases h
              | ok r =>
                rw [hr] at h
                cases h
                exact .cons ⟨rfl, hty, ds, rfl, hq⟩ ((ih r).1 hr)
          · intro h
            cases h with
            | @cons _ y _ t hx ht =>
              obtain ⟨ds', hd, hq⟩ := hx.2.2
              cases hd
              rw [hq, (ih t).2 ht]
              have : y.1 = [n] := hx.1
              show Except.ok (([n], y.2) :: t) = _
              rw [← this]
  | nested n i sub rest ih1 ih2 =>
    cases i with
    | false => simp only [Cls.init, initFields]; exact ih2 l
    | true =>
      simp only [Cls.init, initFields, bind, Except.bind, pure, Except.pure, forall₂_append_iff]
      constructor
      · intro h
        cases hq : sub.init s with
        | error e => rw [hq] at h; cases h
        | ok q =>
          rw [hq] at h
          cases hr : rest.init s with
          | error e => rw [hr] at h; cases h
          | ok r =>
            rw [hr] at h
            cases h
            exact ⟨_, _, rfl, (forall₂_prefix _ _ _ _).2 ⟨q, rfl, (ih1 q).1 hq⟩, (ih2 r).1 hr⟩
      · rintro ⟨l1, l2, rfl, h1, h2⟩
        obtain ⟨l', rfl, h'⟩ := (forall₂_prefix _ _ _ _).1 h1
        rw [(ih1 _).2 h', (ih2 _).2 h2]

/-- C41. A state is allocated exactly when no field is a `Local`, every field of its constructor is a quantity with
dims, and every dim is a grid dimension or one of the data dimensions given; each field then has the shape,
origin and extent for these (the factory's own data dimensions play no part). -/
theorem C41_state_allocation (h : List Op) (f : Nat) (hf : f < (run h).factories.length) (cls : Cls)
    (dd : Option (List (Dim × Int))) (l : List (List String × Alloc)) :
    (stateAlloc (run h) f cls dd).2 = .ok l ↔
      NoLocals cls ∧
      List.Forall₂ (Allocated { (run h).sizer f with data := dd.getD [] }) (initFields cls) l := by
  have hi := run_inv h
  generalize run h = w at *
  unfold stateAlloc
  cases hc : cls.checkNoLocals with
  | error e =>
    have : ¬ NoLocals cls := by rw [← checkNoLocals_iff, hc]; simp
    simp [this]
  | ok u =>
    have : NoLocals cls := by rw [← checkNoLocals_iff, hc]
    simp only [(withSwap_world hi hf dd _).2, this, true_and]
    exact init_ok _ _ _

theorem restore_swap (c : Cls) (h : NoQuantities c) : c.swapLocal.restoreLocal = c := by
  induction c with
  | nil => rfl
  | field n i ty d rest ih =>
    simp only [Cls.swapLocal, Cls.restoreLocal, ih h.2]
    congr 1
    have := h.1
    cases ty <;> simp_all
  | nested n i sub rest ih1 ih2 => simp only [Cls.swapLocal, Cls.restoreLocal, ih1 h.1, ih2 h.2]

/-- C41. Allocating a local state as a state leaves its class as it was when the allocation succeeds (for a
failing allocation see the witness below). -/
theorem C41_class_restored_partial (w : World) (f : Nat) (cls : Cls) (dd : Option (List (Dim × Int)))
    (l : List (List String × Alloc)) (h : (makeAsState w f cls dd).2.2 = .ok l) :
    (makeAsState w f cls dd).2.1 = cls := by
  unfold makeAsState at h ⊢
  cases hc : cls.checkOnlyLocals with
  | error e => rfl
  | ok u =>
    have hq : NoQuantities cls := (checkOnlyLocals_iff cls).1 hc
    rw [hc] at h
    simp only at h ⊢
    split at h
    · cases h
    · rename_i heq
      exact restore_swap cls hq

/-! ### Examples and violations -/

/-- a factory for a 4 x 4 x 3 grid with 2 species -/
def exHist : List Op := [.create ⟨4, 4, 3, 1, true, 0⟩ [(.other "species", 2)], .create ⟨8, 8, 3, 1, true, 0⟩ []]

example : 0 < (run exHist).factories.length ∧ 1 < (run exHist).factories.length ∧
    (run exHist).factories.getD 0 0 ≠ (run exHist).factories.getD 1 0 := by decide

example : (addData (run exHist) 0 [(.other "bins", 7), (.other "species", 3)]).2 = .error .valueError := by decide

example : (addData (run exHist) 0 [(.other "bins", 7)]).1.dims 0 = [(.other "species", 2), (.other "bins", 7)] := by
  decide

/-- C38, "leaves the one given untouched", is false of the code: the factory given to
`extend_3D_quantity_factory` has the new dimension as well. -/
theorem C38_extend_mutates_violated :
    (run exHist).dims 0 = [(.other "species", 2)] ∧
    (Factory.extend (run exHist) 0 [(.other "tracers", 9)]).2 = .ok 2 ∧
    (Factory.extend (run exHist) 0 [(.other "tracers", 9)]).1.dims 0 = [(.other "species", 2), (.other "tracers", 9)] := by
  decide

/-- a state with a nested class and a data dimension -/
def exCls : Cls :=
  .field "a" true .quantity (some [.i, .j, .k])
    (.nested "inner" true (.field "b" true .optional (some [.i, .j, .other "bins"]) .nil)
      (.field "flag" false .other none .nil))

example : NoLocals exCls := by simp [exCls, NoLocals]

example : ((stateAlloc (run exHist) 0 exCls (some [(.other "bins", 5)])).2).map (List.map fun e => (e.1, e.2.extent)) =
    .ok [(["a"], [4, 4, 3]), (["inner", "b"], [4, 4, 5])] := by decide +kernel

/-- allocation raises part-way: the dims are restored (`C41_restored`) -/
example : (stateAlloc (run exHist) 0 exCls (some [(.other "species", 5)])).2 = .error .keyError ∧
    (stateAlloc (run exHist) 0 exCls (some [(.other "species", 5)])).1.dims 0 = [(.other "species", 2)] := by
  decide +kernel

/-- a local state with a data dimension -/
def exLocal : Cls := .field "a" true .localField (some [.i, .j, .other "bins"]) .nil

/-- The class is not restored when `make_as_state` raises: afterwards the class cannot be allocated as a local
state any more. -/
theorem C41_class_violated :
    (makeAsState (run exHist) 0 exLocal none).2.2 = .error .keyError ∧
    (makeLocals (run exHist) 0 exLocal (some [(.other "bins", 5)])).2.isOk = true ∧
    (makeLocals (run exHist) 0 (makeAsState (run exHist) 0 exLocal none).2.1 (some [(.other "bins", 5)])).2 =
      .error .typeError := by decide +kernel

end NDSL.Factory
