import Verif.Model.Orchestrate

/-! C143: orchestrating a method of one object. -/
namespace NDSL.Orchestrate

/-- Classes of objects and methods of classes exist. -/
structure Made (w : World) : Prop where
  cls : ∀ o, (w.obj o).cls < w.nCls
  fn : ∀ k, k < w.nCls → ∀ m f, (w.cls k).methods m = some f → f < w.nFn

theorem Made.find {w : World} (h : Made w) {o : Nat} {m : String} {f : Nat} (hf : w.find o m = some f) : f < w.nFn :=
  h.fn _ (h.cls o) m f hf

theorem bind_spec (w : World) (o f c : Nat) : (w.bind o f c).1.cls = w.cls ∧ (w.bind o f c).1.nCls = w.nCls ∧
    (w.bind o f c).1.fn = w.fn ∧ (w.bind o f c).1.nFn = w.nFn ∧ (w.bind o f c).1.obj = w.obj ∧
    (∀ p g, p ≠ o → (w.bind o f c).1.bound p g = w.bound p g) ∧
    (w.bound o f = none → (w.bind o f c).2 = ⟨o, f, c⟩) ∧ (∀ t, w.bound o f = some t → (w.bind o f c).2 = t) := by
  unfold World.bind
  cases h : w.bound o f with
  | some t => simp
  | none =>
    simp only [true_and, true_implies]
    refine ⟨fun p g hp => ?_, by simp⟩
    rw [if_neg (fun x => hp x.1)]

theorem orchestrate_ok {w w' : World} {on : Nat → Bool} {o : Nat} {m : String} {c : Nat} {args : List String}
    (h : w.orchestrate on o m c args = .ok w') : (on c = false ∧ w' = w) ∨
    (on c = true ∧ ∃ f, w.find o m = some f ∧ w' = if m = "__call__" then
      ((w.annotate f args).bind o f c).1.patch o ((w.annotate f args).bind o f c).2
      else ((w.annotate f args).bind o f c).1.setAttr o m ((w.annotate f args).bind o f c).2) := by
  unfold World.orchestrate at h
  cases hc : on c with
  | false => rw [if_pos hc] at h; exact .inl ⟨rfl, (Except.ok.inj h).symm⟩
  | true =>
    rw [if_neg (by simp [hc])] at h
    split at h
    · cases h
    · cases hf : w.find o m with
      | none => rw [hf] at h; cases h
      | some f =>
        rw [hf] at h
        exact .inr ⟨rfl, f, rfl, (Except.ok.inj h).symm⟩

/-- The call in terms of what it looks at. -/
theorem call_congr {w w' : World} {o : Nat} {m : String} (ha : m ≠ "__call__" → (w'.obj o).attrs m = (w.obj o).attrs m)
    (hf : w'.find o m = w.find o m) (hb : ∀ f, w.find o m = some f → (w'.fn f).body = (w.fn f).body) : w'.call o m = w.call o m := by
  have hc : w'.callClass o m = w.callClass o m := by
    unfold World.callClass
    rw [hf]
    cases h : w.find o m with
    | none => rfl
    | some f => simp only [hb f h]
  unfold World.call
  by_cases h : m = "__call__"
  · rw [if_pos h, if_pos h, hc]
  · rw [if_neg h, if_neg h, ha h, hc]

/-- What one orchestration changes. -/
theorem step_frame {w w' : World} {on : Nat → Bool} {o : Nat} {m : String} {c : Nat} {args : List String} (hw : Made w)
    (h : w.orchestrate on o m c args = .ok w') : Made w' ∧
      (∀ p n, p ≠ o ∨ n ≠ m → w'.call p n = w.call p n ∧ w'.find p n = w.find p n) ∧
      ∀ p g, p ≠ o → w'.bound p g = w.bound p g := by
  rcases orchestrate_ok h with ⟨_, rfl⟩ | ⟨_, f, hf, rfl⟩
  · exact ⟨hw, fun _ _ _ => ⟨rfl, rfl⟩, fun _ _ _ => rfl⟩
  · have body : ∀ g, ((w.annotate f args).fn g).body = (w.fn g).body := by
      intro g
      simp only [World.annotate]
      split
      · rename_i e; subst e; rfl
      · rfl
    obtain ⟨b1, b2, b3, b4, b5, b6, -, -⟩ := bind_spec (w.annotate f args) o f c
    have e1 : (w.annotate f args).cls = w.cls := rfl
    have e2 : (w.annotate f args).nCls = w.nCls := rfl
    have e3 : (w.annotate f args).nFn = w.nFn := rfl
    have e4 : (w.annotate f args).obj = w.obj := rfl
    have e5 : (w.annotate f args).bound = w.bound := rfl
    rw [e1] at b1; rw [e2] at b2; rw [e3] at b4; rw [e4] at b5; rw [e5] at b6
    generalize ((w.annotate f args).bind o f c).2 = t
    generalize ((w.annotate f args).bind o f c).1 = v at *
    have bodyv : ∀ g, (v.fn g).body = (w.fn g).body := fun g => by rw [b3]; exact body g
    by_cases hm : m = "__call__"
    · rw [if_pos hm]
      refine ⟨⟨fun p => ?_, fun k hk n g hg => ?_⟩, fun p n hpn => ?_, fun p g hp => b6 p g hp⟩
      · simp only [World.patch]
        split
        · exact Nat.lt_succ_self _
        · rw [b2, b5]; exact Nat.lt_succ_of_lt (hw.cls p)
      · simp only [World.patch] at hk hg ⊢
        rw [b4]
        split at hg
        · simp only at hg
          split at hg
          · cases Option.some.inj hg; rw [b4]; exact Nat.lt_succ_self _
          · rw [b1, b5] at hg
            exact Nat.lt_succ_of_lt (hw.fn _ (hw.cls o) _ _ hg)
        · rename_i hne
          rw [b1] at hg
          refine Nat.lt_succ_of_lt (hw.fn k ?_ _ _ hg)
          rw [b2] at hk hne
          omega
      · have hfind : (v.patch o t).find p n = w.find p n := by
          unfold World.find World.patch
          simp only
          by_cases hp : p = o
          · subst hp
            have hn : n ≠ "__call__" := by rcases hpn with h | h; exact absurd rfl h; rwa [hm] at h
            simp only [if_true, if_neg hn, b1, b5]
          · rw [if_neg hp, b5, b1, b2, if_neg (Nat.ne_of_lt (hw.cls p))]
        refine ⟨call_congr (fun hn => ?_) hfind (fun g hg => ?_), hfind⟩
        · simp only [World.patch]
          split
          · rename_i e; subst e; rw [b5]
          · rw [b5]
        · simp only [World.patch]
          rw [b4, if_neg (Nat.ne_of_lt (hw.find hg))]
          exact bodyv g
    · rw [if_neg hm]
      refine ⟨⟨fun p => ?_, fun k hk n g hg => ?_⟩, fun p n hpn => ?_, fun p g hp => b6 p g hp⟩
      · simp only [World.setAttr]
        rw [b2]
        split
        · rw [b5]; exact hw.cls o
        · rw [b5]; exact hw.cls p
      · simp only [World.setAttr] at hk hg ⊢
        rw [b4]; rw [b1] at hg; rw [b2] at hk
        exact hw.fn k hk n g hg
      · have hfind : (v.setAttr o m t).find p n = w.find p n := by
          unfold World.find World.setAttr
          simp only
          by_cases hp : p = o
          · subst hp; simp only [if_true, b1, b5]
          · rw [if_neg hp, b5, b1]
        refine ⟨call_congr (fun hn => ?_) hfind (fun g hg => bodyv g), hfind⟩
        simp only [World.setAttr]
        by_cases hp : p = o
        · subst hp
          have hn' : n ≠ m := by rcases hpn with h | h; exact absurd rfl h; exact h
          simp only [if_true, if_neg hn', b5]
        · rw [if_neg hp, b5]

/-- **C143**: a method of an object, not orchestrated before, is compiled when called from now on: from the function the
class of the object has under this name, for this object, under the given configuration. -/
theorem C143_compiled {w : World} {on : Nat → Bool} {o : Nat} {m : String} {c f : Nat} {args : List String} (hc : on c = true)
    (hf : w.find o m = some f) (hb : w.bound o f = none) :
    ∃ w', w.orchestrate on o m c args = .ok w' ∧ w'.call o m = .compiled f o c := by
  have hh : w.has o m = true := by simp [World.has, hf]
  obtain ⟨b1, b2, b3, b4, b5, -, b7, -⟩ := bind_spec (w.annotate f args) o f c
  have b7 := b7 hb
  refine ⟨_, by unfold World.orchestrate; rw [if_neg (by simp [hc]), if_neg (by simp [hh]), hf], ?_⟩
  generalize hv : (w.annotate f args).bind o f c = r at *
  obtain ⟨v, t⟩ := r
  simp only at b7 ⊢
  subst b7
  by_cases hm : m = "__call__"
  · rw [if_pos hm]
    simp [World.call, hm, World.callClass, World.find, World.patch, Wrapped.call]
  · rw [if_neg hm]
    simp [World.call, hm, World.setAttr, Wrapped.call]

/-- **C143**: other methods of the object, and all methods of other objects, also of the same class, do what they did. -/
theorem C143_others {w w' : World} {on : Nat → Bool} {o : Nat} {m : String} {c : Nat} {args : List String} (hw : Made w)
    (h : w.orchestrate on o m c args = .ok w') (p : Nat) (n : String) (hpn : p ≠ o ∨ n ≠ m) : w'.call p n = w.call p n :=
  ((step_frame hw h).2.1 p n hpn).1

theorem run_frame {w : World} {on : Nat → Bool} (hw : Made w) (ops : List Op) (p : Nat) (n : String)
    (h : ∀ op ∈ ops, op.obj ≠ p ∨ op.method ≠ n) :
    Made (w.run on ops) ∧ (w.run on ops).call p n = w.call p n ∧ (w.run on ops).find p n = w.find p n := by
  induction ops generalizing w with
  | nil => exact ⟨hw, rfl, rfl⟩
  | cons op ops ih =>
    unfold World.run
    cases hs : w.orchestrate on op.obj op.method op.config op.args with
    | error e => exact ih hw fun q hq => h q (List.mem_cons_of_mem _ hq)
    | ok w' =>
      obtain ⟨a, b, -⟩ := step_frame hw hs
      obtain ⟨x, y, z⟩ := ih a fun q hq => h q (List.mem_cons_of_mem _ hq)
      have := b p n ((h op List.mem_cons_self).imp Ne.symm Ne.symm)
      exact ⟨x, y.trans this.1, z.trans this.2⟩

theorem run_append (w : World) (on : Nat → Bool) (a b : List Op) : w.run on (a ++ b) = (w.run on a).run on b := by
  induction a generalizing w with
  | nil => rfl
  | cons op a ih =>
    simp only [List.cons_append, World.run]
    cases w.orchestrate on op.obj op.method op.config op.args <;> exact ih _

/-- **C143**: in a program that orchestrates any methods of any objects, a method that was never orchestrated does what
it did. -/
theorem C143_untouched {w : World} {on : Nat → Bool} (hw : Made w) (ops : List Op) (p : Nat) (n : String)
    (h : ∀ op ∈ ops, op.obj ≠ p ∨ op.method ≠ n) : (w.run on ops).call p n = w.call p n := (run_frame hw ops p n h).2.1

/-- One orchestration makes at most one bound method, of the function found. -/
theorem step_bound {w w' : World} {on : Nat → Bool} {o : Nat} {m : String} {c : Nat} {args : List String}
    (h : w.orchestrate on o m c args = .ok w') (p g : Nat) (hg : p ≠ o ∨ w.find o m ≠ some g) : w'.bound p g = w.bound p g := by
  rcases orchestrate_ok h with ⟨_, rfl⟩ | ⟨_, f, hf, rfl⟩
  · rfl
  · have : ((w.annotate f args).bind o f c).1.bound p g = w.bound p g := by
      unfold World.bind
      cases hb : (w.annotate f args).bound o f with
      | some t => rfl
      | none =>
        simp only
        rw [if_neg]
        · rfl
        · rintro ⟨e1, e2⟩
          rcases hg with h | h
          · exact h e1
          · exact h (hf.trans (congrArg some e2.symm))
    split
    · exact this
    · exact this

/-- Functions are never taken away, and a class of the object has, under any name, what it had or a new one. -/
theorem step_find {w w' : World} {on : Nat → Bool} {o : Nat} {m : String} {c : Nat} {args : List String} (hw : Made w)
    (h : w.orchestrate on o m c args = .ok w') : w.nFn ≤ w'.nFn ∧ ∀ p n, w'.find p n = w.find p n ∨ w'.find p n = some w.nFn := by
  have hfr := (step_frame hw h).2.1
  rcases orchestrate_ok h with ⟨_, rfl⟩ | ⟨_, f, hf, rfl⟩
  · exact ⟨Nat.le_refl _, fun _ _ => .inl rfl⟩
  · obtain ⟨b1, -, -, b4, b5, -, -, -⟩ := bind_spec (w.annotate f args) o f c
    have e3 : (w.annotate f args).nFn = w.nFn := rfl
    have e1 : (w.annotate f args).cls = w.cls := rfl
    have e4 : (w.annotate f args).obj = w.obj := rfl
    rw [e3] at b4; rw [e1] at b1; rw [e4] at b5
    generalize ((w.annotate f args).bind o f c).2 = t at *
    generalize ((w.annotate f args).bind o f c).1 = v at *
    constructor
    · split
      · simp only [World.patch, b4]; exact Nat.le_succ _
      · simp only [World.setAttr, b4]; exact Nat.le_refl _
    · intro p n
      by_cases hp : p ≠ o ∨ n ≠ m
      · exact .inl (hfr p n hp).2
      · have hp' : p = o := Classical.byContradiction fun h => hp (.inl h)
        have hn' : n = m := Classical.byContradiction fun h => hp (.inr h)
        subst hp' hn'
        split
        · rename_i hm
          right
          simp [World.find, World.patch, hm, b4]
        · left
          simp only [World.find, World.setAttr, if_true, b1, b5]

theorem run_bound_fn {w : World} {on : Nat → Bool} (hw : Made w) (ops : List Op) (p g : Nat) (hg : g < w.nFn)
    (find : String → Option Nat) (hfind : ∀ n, w.find p n = find n ∨ w.find p n ≠ some g)
    (h : ∀ op ∈ ops, op.obj ≠ p ∨ find op.method ≠ some g) :
    (w.run on ops).bound p g = w.bound p g := by
  induction ops generalizing w with
  | nil => rfl
  | cons op ops ih =>
    unfold World.run
    cases hs : w.orchestrate on op.obj op.method op.config op.args with
    | error e => exact ih hw hg hfind fun q hq => h q (List.mem_cons_of_mem _ hq)
    | ok w' =>
      obtain ⟨f1, f2⟩ := step_find hw hs
      have e := ih (step_frame hw hs).1 (Nat.lt_of_lt_of_le hg f1) (fun n => by
        rcases f2 p n with h | h
        · rw [h]; exact hfind n
        · right; rw [h]; intro e; cases Option.some.inj e; exact Nat.lt_irrefl _ hg) fun q hq => h q (List.mem_cons_of_mem _ hq)
      refine e.trans (step_bound hs p g ?_)
      by_cases hp : op.obj = p
      · right
        rcases h op List.mem_cons_self with h | h
        · exact absurd hp h
        · rw [hp]
          rcases hfind op.method with e | e
          · rw [e]; exact h
          · exact e
      · exact .inl (Ne.symm hp)

/-- **C143**: in such a program, a method that was orchestrated once is compiled from the function of its class under its
own configuration, whatever else is orchestrated before and after.  (Of the other methods orchestrated before, none may
be the same function under another name.) -/
theorem C143_history {w : World} {on : Nat → Bool} (hw : Made w) (hb : ∀ p g, w.bound p g = none) (pre post : List Op) (op : Op) {f : Nat}
    (hc : on op.config = true) (hf : w.find op.obj op.method = some f)
    (hpre : ∀ q ∈ pre, q.obj ≠ op.obj ∨ (q.method ≠ op.method ∧ w.find q.obj q.method ≠ some f))
    (hpost : ∀ q ∈ post, q.obj ≠ op.obj ∨ q.method ≠ op.method) :
    (w.run on (pre ++ op :: post)).call op.obj op.method = .compiled f op.obj op.config := by
  rw [run_append]
  obtain ⟨m1, -, f1⟩ := run_frame (on := on) hw pre op.obj op.method fun q hq => (hpre q hq).imp id fun h => h.1
  have b1 := (run_bound_fn (on := on) hw pre op.obj f (hw.find hf) (w.find op.obj) (fun _ => .inl rfl) (fun q hq => by
    rcases Classical.em (q.obj = op.obj) with e | e
    · right
      rcases hpre q hq with h | h
      · exact absurd e h
      · rw [← e]; exact h.2
    · exact .inl e)).trans (hb _ _)
  obtain ⟨w', ho, hcall⟩ := C143_compiled (args := op.args) hc (f1.trans hf) b1
  unfold World.run
  rw [ho]
  exact (run_frame (step_frame m1 ho).1 post op.obj op.method hpost).2.1.trans hcall

/-- **C143**: nothing happens if the configuration does not ask for orchestration; a method that does not exist is
refused. -/
theorem C143_off {w : World} {on : Nat → Bool} {o : Nat} {m : String} {c : Nat} {args : List String} :
    (on c = false → w.orchestrate on o m c args = .ok w) ∧
    (on c = true → w.has o m = false → w.orchestrate on o m c args = .error .runtime) := by
  constructor
  · intro h; simp [World.orchestrate, h]
  · intro h h'; simp [World.orchestrate, h, h']

/-- **C143**: the class of the object keeps its name and, if it is a new one, is derived from the old one; classes that
were there are not changed. -/
theorem C143_class {w w' : World} {on : Nat → Bool} {o : Nat} {m : String} {c : Nat} {args : List String} (hw : Made w)
    (h : w.orchestrate on o m c args = .ok w') :
    (w'.cls (w'.obj o).cls).name = (w.cls (w.obj o).cls).name ∧
    ((w'.obj o).cls = (w.obj o).cls ∨ (w.obj o).cls ∈ (w'.cls (w'.obj o).cls).bases) ∧
    (∀ k, k < w.nCls → w'.cls k = w.cls k) ∧ ∀ p, p ≠ o → w'.obj p = w.obj p := by
  rcases orchestrate_ok h with ⟨_, rfl⟩ | ⟨_, f, hf, rfl⟩
  · exact ⟨rfl, .inl rfl, fun _ _ => rfl, fun _ _ => rfl⟩
  · obtain ⟨b1, b2, b3, b4, b5, -, -, -⟩ := bind_spec (w.annotate f args) o f c
    have e1 : (w.annotate f args).cls = w.cls := rfl
    have e2 : (w.annotate f args).nCls = w.nCls := rfl
    have e4 : (w.annotate f args).obj = w.obj := rfl
    rw [e1] at b1; rw [e2] at b2; rw [e4] at b5
    generalize ((w.annotate f args).bind o f c).2 = t
    generalize ((w.annotate f args).bind o f c).1 = v at *
    split
    · simp only [World.patch, if_true, b1, b5, List.mem_cons, true_or, or_true, true_and]
      refine ⟨fun k hk => ?_, fun p hp => ?_⟩
      · rw [if_neg (by omega)]
      · rw [if_neg hp]
    · simp only [World.setAttr, if_true, b1, b5, true_or, true_and]
      refine ⟨fun _ _ => trivial, fun p hp => ?_⟩
      rw [if_neg hp]

/-- **C143**: afterwards the named arguments, and those declared as quantities or states, are compile-time arguments of
the function; the others, and those of other functions, are declared as before. -/
theorem C143_arguments {w w' : World} {on : Nat → Bool} {o : Nat} {m : String} {c f : Nat} {args : List String} (hw : Made w)
    (hc : on c = true) (hf : w.find o m = some f) (h : w.orchestrate on o m c args = .ok w') :
    (∀ a, (a ∈ args ∨ (w.fn f).ann a = some .quantity ∨ (w.fn f).ann a = some .state) → (w'.fn f).ann a = some .compiletime) ∧
    (∀ a, a ∉ args → (w.fn f).ann a ≠ some .quantity → (w.fn f).ann a ≠ some .state → (w'.fn f).ann a = (w.fn f).ann a) ∧
    ∀ g, g < w.nFn → g ≠ f → (w'.fn g).ann = (w.fn g).ann := by
  rcases orchestrate_ok h with ⟨h', -⟩ | ⟨_, f', hf', rfl⟩
  · rw [hc] at h'; cases h'
  · rw [hf] at hf'
    cases Option.some.inj hf'
    obtain ⟨-, -, b3, b4, -, -, -, -⟩ := bind_spec (w.annotate f args) o f c
    have e3 : (w.annotate f args).nFn = w.nFn := rfl
    rw [e3] at b4
    generalize ((w.annotate f args).bind o f c).2 = t
    generalize ((w.annotate f args).bind o f c).1 = v at *
    have key : ∀ g, g < w.nFn → ((if m = "__call__" then v.patch o t else v.setAttr o m t).fn g).ann = ((w.annotate f args).fn g).ann := by
      intro g hg
      split
      · simp only [World.patch]
        rw [if_neg (by omega), b3]
      · simp only [World.setAttr, b3]
    have hfn := hw.find hf
    refine ⟨fun a ha => ?_, fun a h1 h2 h3 => ?_, fun g hg hne => ?_⟩
    · rw [key f hfn]
      simp only [World.annotate, if_true, flag]
      by_cases hm : a ∈ args
      · rw [if_pos hm]
      · rw [if_neg hm]
        rcases ha with h | h | h
        · exact absurd h hm
        · rw [h]
        · rw [h]
    · rw [key f hfn]
      simp only [World.annotate, if_true, flag]
      rw [if_neg h1]
    · rw [key g hg]
      simp only [World.annotate, if_neg hne]

/-- **C143**: a function, not a method, is returned as it is if the configuration does not ask for orchestration, and
otherwise to be compiled under it, with the named arguments compile-time and all others as declared. -/
theorem C143_function (w : World) (on : Nat → Bool) (f c : Nat) (args : List String) :
    (on c = false → w.orchestrateFunction on f c args = (w, .same f)) ∧
    (on c = true → (w.orchestrateFunction on f c args).2 = .lazy f c ∧
      (∀ a ∈ args, ((w.orchestrateFunction on f c args).1.fn f).ann a = some .compiletime) ∧
      (∀ a, a ∉ args → ((w.orchestrateFunction on f c args).1.fn f).ann a = (w.fn f).ann a) ∧
      ∀ g, g ≠ f → (w.orchestrateFunction on f c args).1.fn g = w.fn g) := by
  constructor
  · intro h; simp [World.orchestrateFunction, h]
  · intro h
    simp only [World.orchestrateFunction, h, Bool.true_eq_false, if_false, if_true, true_and]
    refine ⟨fun a ha => by rw [if_pos ha], fun a ha => by rw [if_neg ha], fun g hg => by rw [if_neg hg]⟩

/-! ### Two objects of a class with a call and a method -/

/-- A class with `__call__` (function 0) and `run` (function 1), both with a state and a number as arguments. -/
def world : World where
  cls := fun _ => ⟨"Model", "Model", [], fun m => if m = "__call__" then some 0 else if m = "run" then some 1 else none⟩
  nCls := 1
  fn := fun _ => ⟨.own, fun a => if a = "state" then some .state else if a = "dt" then some (.other 7) else none⟩
  nFn := 2
  obj := fun _ => ⟨0, fun _ => none⟩
  bound := fun _ _ => none

theorem world_made : Made world := by
  refine ⟨fun _ => Nat.zero_lt_one, fun k _ m f h => ?_⟩
  simp only [world] at h ⊢
  split at h
  · cases h; decide
  · split at h
    · cases h; decide
    · cases h

def on : Nat → Bool := fun c => decide (0 < c)

example : (world.run on [⟨0, "run", 5, []⟩, ⟨1, "__call__", 6, ["dt"]⟩, ⟨0, "stop", 5, []⟩, ⟨2, "run", 0, []⟩]).call 1 "__call__" = .compiled 0 1 6 ∧
    (world.run on [⟨0, "run", 5, []⟩, ⟨1, "__call__", 6, ["dt"]⟩]).call 0 "run" = .compiled 1 0 5 ∧
    (world.run on [⟨0, "run", 5, []⟩, ⟨1, "__call__", 6, ["dt"]⟩]).call 0 "__call__" = .plain 0 0 ∧
    (world.run on [⟨1, "run", 5, []⟩, ⟨1, "__call__", 6, ["dt"]⟩, ⟨0, "stop", 5, []⟩]).call 1 "__call__" = .compiled 0 1 6 ∧
    (world.run on [⟨2, "run", 0, []⟩]).call 2 "run" = .plain 1 2 := by decide +kernel

/-- C143, what does not hold: if the call of an object is orchestrated twice, what is compiled the second time is the
function made by the first, number 2, and not that of the class. -/
theorem C143_twice_violated :
    (world.run on [⟨0, "__call__", 5, []⟩, ⟨0, "__call__", 5, []⟩]).call 0 "__call__" = .compiled 2 0 5 := by decide +kernel

/-- C143, what does not hold: a method orchestrated again under another configuration keeps the first. -/
theorem C143_config_violated :
    (world.run on [⟨0, "run", 5, []⟩, ⟨0, "run", 6, []⟩]).call 0 "run" = .compiled 1 0 5 := by decide +kernel

/-- C143, what does not hold: the arguments belong to the function, so that the one named for the first object is
compile-time for the second one, too, which did not ask for it. -/
theorem C143_shared_violated :
    ((world.run on [⟨0, "run", 5, ["dt"]⟩, ⟨1, "run", 5, []⟩]).fn 1).ann "dt" = some .compiletime ∧
    ((world.run on [⟨1, "run", 5, []⟩]).fn 1).ann "dt" = some (.other 7) := by decide +kernel

end NDSL.Orchestrate
