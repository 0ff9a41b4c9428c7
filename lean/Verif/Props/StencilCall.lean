import Verif.Lemmas.StencilTwin
/-
Property C107: calling a stencil. Arguments are bound by position or by name, the same on every call; only what is passed is
changed; comparison with a twin rank and with NumPy compares what it should.
-/
namespace NDSL.StencilCall
variable {V : Type} [Inhabited V]

/-! ### Binding -/

omit [Inhabited V] in
theorem checked_eq (f : Frozen V) : (if f.validate && !f.checked then { f with checked := true } else f) =
    { f with checked := f.checked || f.validate } := by
  obtain ⟨s, v, c, b⟩ := f
  cases v <;> cases c <;> rfl

omit [Inhabited V] in
theorem binds_take {names : List String} {args : List (Arg V)} {kwargs : Kwargs V} {params : List (Arg V)}
    (h : Binds names args kwargs params) : args.take names.length = args := List.take_of_length_le h.enough

/-- C107: whether it is the first call or a later one and whether arguments are validated or not, a call runs the stencil
with the parameters that Python's rule gives, quantities standing for their arrays. -/
theorem C107_call (diffs : V → V → Nat) (f : Frozen V) (hn : f.stencil.names.Nodup) (args : List (Arg V)) (kwargs : Kwargs V)
    (params : List (Arg V)) (h : Binds f.stencil.names args kwargs params) (m : Mem V) :
    call diffs f none args kwargs m =
      .ok (run f.stencil.body (params.map convert) m) { f with checked := f.checked || f.validate } := by
  have hb := binds_map convert h
  have h1 := (bindCall_iff hn).mpr hb
  have h2 : bindRun f.stencil.names (args.map convert) (kwargs.map fun k => (k.1, convert k.2)) = .ok (params.map convert) := by
    rw [bindRun_eq hn, binds_take hb]; exact h1
  rw [← checked_eq f]
  unfold call
  simp only [h1, h2]
  by_cases hc : (f.validate && !f.checked) = true
  · rw [if_pos hc, if_pos hc]
  · rw [if_neg hc, if_neg hc]

/-- C107: it does not matter which arguments are given by position and which by name. -/
theorem C107_keywords (diffs : V → V → Nat) (f : Frozen V) (hn : f.stencil.names.Nodup) (args args' : List (Arg V))
    (kwargs kwargs' : Kwargs V) (params : List (Arg V)) (h : Binds f.stencil.names args kwargs params)
    (h' : Binds f.stencil.names args' kwargs' params) (m : Mem V) :
    call diffs f none args kwargs m = call diffs f none args' kwargs' m := by
  rw [C107_call diffs f hn args kwargs params h m, C107_call diffs f hn args' kwargs' params h' m]

omit [Inhabited V] in
theorem bindCall_error {names : List String} {args : List (Arg V)} {kwargs : Kwargs V} {e : Err}
    (h : bindCall names args kwargs = .error e) : e = .typeError := by
  unfold bindCall at h
  by_cases h1 : args.length > names.length
  · rw [if_pos h1] at h; injection h with h; exact h.symm
  rw [if_neg h1] at h
  by_cases h2 : (kwargs.any fun k => (names.take args.length).contains k.1) = true
  · rw [if_pos h2] at h; injection h with h; exact h.symm
  rw [if_neg h2] at h
  by_cases h3 : (kwargs.any fun k => !names.contains k.1) = true
  · rw [if_pos h3] at h; injection h with h; exact h.symm
  rw [if_neg h3] at h
  cases hm : (names.drop args.length).mapM fun n => dictGet kwargs n with
  | none => rw [hm] at h; injection h with h; exact h.symm
  | some r => rw [hm] at h; cases h

omit [Inhabited V] in
theorem bindCall_none {names : List String} (hn : names.Nodup) {args : List (Arg V)} {kwargs : Kwargs V}
    (h : ¬ ∃ params, Binds names args kwargs params) : bindCall names args kwargs = .error .typeError := by
  cases hb : bindCall names args kwargs with
  | ok params => exact absurd ⟨params, (bindCall_iff hn).mp hb⟩ h
  | error e => rw [bindCall_error hb]

/-- C107: the first call with validation refuses arguments that do not fit, and nothing is run. -/
theorem C107_refused (diffs : V → V → Nat) (f : Frozen V) (hn : f.stencil.names.Nodup) (hv : f.validate = true)
    (hc : f.checked = false) (args : List (Arg V)) (kwargs : Kwargs V)
    (h : ¬ ∃ params, Binds f.stencil.names args kwargs params) (m : Mem V) :
    call diffs f none args kwargs m = .raised .typeError := by
  have h1 := bindCall_none hn (args := args.map convert) (kwargs := kwargs.map fun k => (k.1, convert k.2))
    (fun ⟨_, hp⟩ => h (binds_unmap convert hp))
  unfold call
  simp only [h1, hv, hc]
  rfl

/-- C107: the other calls refuse them as well, except that positional arguments beyond the last parameter are ignored. -/
theorem C107_later (diffs : V → V → Nat) (f : Frozen V) (hn : f.stencil.names.Nodup) (hc : (f.validate && !f.checked) = false)
    (args : List (Arg V)) (kwargs : Kwargs V) (m : Mem V) :
    (∀ params, Binds f.stencil.names (args.take f.stencil.names.length) kwargs params →
      call diffs f none args kwargs m = .ok (run f.stencil.body (params.map convert) m) f) ∧
    ((¬ ∃ params, Binds f.stencil.names (args.take f.stencil.names.length) kwargs params) →
      call diffs f none args kwargs m = .raised .typeError) := by
  have h2 := bindRun_eq hn (args.map convert) (kwargs.map fun k => (k.1, convert k.2))
  rw [← List.map_take] at h2
  constructor
  · intro params hp
    rw [(bindCall_iff hn).mpr (binds_map convert hp)] at h2
    unfold call
    simp only [h2, hc]
    rfl
  · intro hp
    rw [bindCall_none hn (fun ⟨_, hq⟩ => hp (binds_unmap convert hq))] at h2
    unfold call
    simp only [h2, hc]
    rfl

/-- Not so: one argument too many is refused by the first call and taken by the second. -/
theorem C107_extra_violated :
    ∃ (f : Frozen Nat) (args : List (Arg Nat)) (m : Mem Nat),
      (¬ ∃ params, Binds f.stencil.names args [] params) ∧
      call (fun _ _ => 0) f none args [] m = .raised .typeError ∧
      ∃ m', call (fun _ _ => 0) { f with checked := true } none args [] m = .ok m' { f with checked := true } ∧ m'.data 0 = 5 := by
  refine ⟨⟨⟨["a"], [(0, fun _ => 5)]⟩, true, false, false⟩, [.array 0, .array 1], ⟨fun _ => 0, 2⟩, ?_, rfl, _, rfl, rfl⟩
  rintro ⟨p, hp⟩
  have : 2 ≤ 1 := hp.enough
  omega

/-- C107: an assignment stores, in the array passed for its parameter, the value computed from the numbers passed and from the
contents of the arrays and quantities passed; nothing else changes. -/
theorem C107_assign (diffs : V → V → Nat) (f : Frozen V) (hn : f.stencil.names.Nodup) (args : List (Arg V)) (kwargs : Kwargs V)
    (params : List (Arg V)) (h : Binds f.stencil.names args kwargs params) (m : Mem V) (p b : Nat) (g : (Nat → V) → V)
    (hbody : f.stencil.body = [(p, g)]) (hp : (params[p]?).bind Arg.buf? = some b) (vals : Nat → V)
    (hvals : ∀ i, Reads params m i (vals i)) :
    ∃ m' f', call diffs f none args kwargs m = .ok m' f' ∧ m'.data b = g vals ∧ ∀ b', b' ≠ b → m'.data b' = m.data b' := by
  refine ⟨_, _, C107_call diffs f hn args kwargs params h m, ?_⟩
  have hv : value (params.map convert) m = vals := by
    funext i
    have hi := hvals i
    unfold value
    rw [List.getElem?_map]
    unfold Reads at hi
    cases hpi : params[i]? with
    | none => rw [hpi] at hi; exact hi.symm
    | some a =>
      rw [hpi] at hi
      cases a <;> exact hi.symm
  have hs : ((params.map convert)[p]?).bind Arg.storage? = some b := by
    rw [List.getElem?_map]
    cases hpp : params[p]? with
    | none => rw [hpp] at hp; cases hp
    | some a =>
      rw [hpp] at hp
      cases a <;> exact hp
  rw [hbody]
  simp only [run, List.foldl_cons, List.foldl_nil, hs, hv, write]
  exact ⟨if_pos trivial, fun b' hb => if_neg hb⟩

/-- C107: assignments run one after the other. -/
theorem C107_sequence (diffs : V → V → Nat) (names : List String) (hn : names.Nodup) (s t : List (Nat × ((Nat → V) → V)))
    (args : List (Arg V)) (kwargs : Kwargs V) (params : List (Arg V)) (h : Binds names args kwargs params) (m : Mem V) (v c : Bool) :
    ∃ m1 m2 f1 f2 f3, call diffs ⟨⟨names, s⟩, v, c, false⟩ none args kwargs m = .ok m1 f1 ∧
      call diffs ⟨⟨names, t⟩, v, c, false⟩ none args kwargs m1 = .ok m2 f2 ∧
      call diffs ⟨⟨names, s ++ t⟩, v, c, false⟩ none args kwargs m = .ok m2 f3 := by
  refine ⟨_, _, _, _, ⟨⟨names, s ++ t⟩, v, c || v, false⟩, C107_call diffs ⟨⟨names, s⟩, v, c, false⟩ hn args kwargs params h m,
    C107_call diffs ⟨⟨names, t⟩, v, c, false⟩ hn args kwargs params h _, ?_⟩
  rw [C107_call diffs ⟨⟨names, s ++ t⟩, v, c, false⟩ hn args kwargs params h m]
  simp only [run, List.foldl_append]

example : ∃ m' f', call (fun _ _ => 0) ⟨⟨["a", "b", "c"], [(0, fun v => v 1 + v 2)]⟩, true, false, false⟩ none
    [.quantity 4 [.i] [3] 1, .array 6] [("c", .real 5)] ⟨fun b => 10 * b, 9⟩ = .ok m' f' ∧ m'.data 4 = 65 := ⟨_, _, rfl, rfl⟩

/-- C107: only arrays passed to the call change. -/
theorem C107_effect (diffs : V → V → Nat) (f : Frozen V) (hn : f.stencil.names.Nodup) (args : List (Arg V)) (kwargs : Kwargs V)
    (m m' : Mem V) (f' : Frozen V) (h : call diffs f none args kwargs m = .ok m' f') (b : Nat)
    (hb : ¬ Passed (args ++ kwargs.map fun k => k.2) b) : m'.data b = m.data b ∧ m'.next = m.next := by
  have key : ∀ params args', (∀ a ∈ args', a ∈ args) → Binds f.stencil.names args' kwargs params →
      (run f.stencil.body (params.map convert) m).data b = m.data b ∧ (run f.stencil.body (params.map convert) m).next = m.next := by
    intro params args' hsub hp
    obtain ⟨h1, h2⟩ := run_other f.stencil.body (params.map convert) m
    refine ⟨h2 b ?_, h1⟩
    intro a ha hab
    obtain ⟨p, hpm, rfl⟩ := List.mem_map.mp ha
    rw [convert_buf] at hab
    apply hb
    refine ⟨p, ?_, hab⟩
    obtain ⟨i, hi⟩ := List.mem_iff_getElem?.mp hpm
    rw [List.mem_append]
    by_cases hl : i < args'.length
    · left
      apply hsub
      rw [hp.positional i hl] at hi
      exact List.mem_of_getElem? hi
    · right
      have hil : i < f.stencil.names.length := by rw [← hp.length]; exact (List.getElem?_eq_some_iff.mp hi).1
      rw [hp.named i _ (by omega) (List.getElem?_eq_getElem hil)] at hi
      unfold dictGet at hi
      obtain ⟨y, hy, rfl⟩ := Option.map_eq_some_iff.mp hi
      exact List.mem_map.mpr ⟨y, List.mem_of_find?_eq_some hy, rfl⟩
  by_cases hc : (f.validate && !f.checked) = true
  · by_cases hp : ∃ params, Binds f.stencil.names args kwargs params
    · obtain ⟨params, hp⟩ := hp
      rw [C107_call diffs f hn args kwargs params hp m] at h
      injection h with h _
      rw [← h]
      exact key params args (fun _ h => h) hp
    · rw [Bool.and_eq_true] at hc
      rw [C107_refused diffs f hn hc.1 (by simpa using hc.2) args kwargs hp m] at h
      cases h
  · have hc' : (f.validate && !f.checked) = false := by simpa using hc
    obtain ⟨h1, h2⟩ := C107_later diffs f hn hc' args kwargs m
    by_cases hp : ∃ params, Binds f.stencil.names (args.take f.stencil.names.length) kwargs params
    · obtain ⟨params, hp⟩ := hp
      rw [h1 params hp] at h
      injection h with h _
      rw [← h]
      exact key params _ (fun _ h => List.mem_of_mem_take h) hp
    · rw [h2 hp] at h; cases h

/-- Not so: a stencil that was only to be built (`RunMode.Build`) runs when it is called; only `stencil.__call__(...)` spelled
out does nothing. -/
theorem C107_build_violated :
    ∃ (f : Frozen Nat) (args : List (Arg Nat)) (m m' : Mem Nat) (f' : Frozen Nat), f.buildOnly = true ∧
      call (fun _ _ => 0) f none args [] m = .ok m' f' ∧ m'.data 0 ≠ m.data 0 ∧
      callAttribute (fun _ _ => 0) f none args [] m = .ok m f := by
  refine ⟨⟨⟨["a"], [(0, fun _ => 5)]⟩, false, false, true⟩, [.array 0], ⟨fun _ => 0, 2⟩, _, _, rfl, rfl, ?_, rfl⟩
  show (5 : Nat) ≠ 0
  decide

/-! ### The twin rank -/

omit [Inhabited V] in
theorem all_convert (names : List String) (args : List (Arg V)) (kwargs : Kwargs V) :
    names.zip (args.map convert) ++ (kwargs.map fun k => (k.1, convert k.2)) =
      (names.zip args ++ kwargs).map fun a => (a.1, convert a.2) := by
  rw [List.map_append, List.zip_map_right]
  rfl

omit [Inhabited V] in
theorem boxed_convert (l : List (String × Arg V)) (n : String) (b : Nat) :
    Boxed (l.map fun a => (a.1, convert a.2)) n b ↔ Boxed l n b := by
  unfold Boxed
  rw [List.mem_map]
  constructor
  · rintro ⟨⟨n', a⟩, ha, h⟩
    injection h with h1 h2
    cases a with
    | boxed b' =>
      injection h2 with h2
      simp only at h1
      rw [← h1, ← h2]; exact ha
    | quantity => cases h2
    | array => cases h2
    | real => cases h2
  · intro h
    exact ⟨_, h, rfl⟩

/-- C107: on two ranks that pass arrays under the same names, in whatever order, the call compares arrays of equal names
before and after running; it raises an error if some differ, and otherwise is the call without comparison. -/
theorem C107_twin (diffs : V → V → Nat) (f : Frozen V) (hn : f.stencil.names.Nodup) (args : List (Arg V)) (kwargs : Kwargs V)
    (params : List (Arg V)) (h : Binds f.stencil.names args kwargs params) (hk : (kwargs.map fun k => k.1).Nodup) (m : Mem V)
    (t : Twin V) (ht : (t.all.map fun a => a.1).Nodup) (hs : SameNames (f.stencil.names.zip params) t.all) :
    (Differ diffs (f.stencil.names.zip params) t.all m t.before →
      call diffs f (some t) args kwargs m = .raised .valueError) ∧
    (Differ diffs (f.stencil.names.zip params) t.all (run f.stencil.body (params.map convert) m) t.after →
      call diffs f (some t) args kwargs m = .raised .valueError) ∧
    (¬ Differ diffs (f.stencil.names.zip params) t.all m t.before →
      ¬ Differ diffs (f.stencil.names.zip params) t.all (run f.stencil.body (params.map convert) m) t.after →
      call diffs f (some t) args kwargs m = call diffs f none args kwargs m) := by
  have hb := binds_map convert h
  have h1 := (bindCall_iff hn).mpr hb
  have h2 : bindRun f.stencil.names (args.map convert) (kwargs.map fun k => (k.1, convert k.2)) = .ok (params.map convert) := by
    rw [bindRun_eq hn, binds_take hb]; exact h1
  have hboxed : ∀ n b, Boxed (f.stencil.names.zip (args.map convert) ++ (kwargs.map fun k => (k.1, convert k.2))) n b ↔
      Boxed (f.stencil.names.zip params) n b := by
    intro n b
    rw [all_convert, boxed_convert]
    exact mem_all hn hk h _
  have hnodup : ((f.stencil.names.zip (args.map convert) ++ (kwargs.map fun k => (k.1, convert k.2))).map fun a => a.1).Nodup := by
    rw [all_convert, List.map_map]
    show ((f.stencil.names.zip args ++ kwargs).map fun a => a.1).Nodup
    have hz : (f.stencil.names.zip args).map (fun a => a.1) = f.stencil.names.take args.length := by
      apply List.ext_getElem?
      intro i
      rw [List.getElem?_map]
      by_cases hi : i < args.length
      · have hi' : i < f.stencil.names.length := Nat.lt_of_lt_of_le hi h.enough
        have hz : (f.stencil.names.zip args)[i]? = some (f.stencil.names[i], args[i]) :=
          List.getElem?_zip_eq_some.mpr ⟨List.getElem?_eq_getElem hi', List.getElem?_eq_getElem hi⟩
        rw [List.getElem?_take_of_lt hi, List.getElem?_eq_getElem hi', hz]
        rfl
      · rw [List.getElem?_eq_none (by simp; omega), List.getElem?_eq_none (by simp; omega)]; rfl
    rw [List.map_append, hz, List.nodup_append]
    refine ⟨hn.sublist (List.take_sublist _ _), hk, ?_⟩
    rintro a ha b hb rfl
    obtain ⟨k, hk', rfl⟩ := List.mem_map.mp hb
    have := h.known k hk'
    rw [← List.take_append_drop args.length f.stencil.names, List.nodup_append] at hn
    exact hn.2.2 _ ha _ this rfl
  have hsame : SameNames (f.stencil.names.zip (args.map convert) ++ (kwargs.map fun k => (k.1, convert k.2))) t.all := by
    intro n
    rw [← hs n]
    simp only [hboxed]
  have found : ∀ mm mt : Mem V, ∃ l, compareRanks diffs
      (f.stencil.names.zip (args.map convert) ++ (kwargs.map fun k => (k.1, convert k.2))) t.all mm mt = some l ∧
      (l ≠ [] ↔ Differ diffs (f.stencil.names.zip params) t.all mm mt) := by
    intro mm mt
    obtain ⟨l, hl, hmem⟩ := compare_eq diffs hnodup ht hsame mm mt
    refine ⟨l, hl, ?_⟩
    constructor
    · intro hne
      obtain ⟨x, hx⟩ := List.exists_mem_of_ne_nil l hne
      obtain ⟨b, b', hb, hb', hc, h0⟩ := (hmem x.1 x.2).mp hx
      exact ⟨x.1, b, b', (hboxed _ _).mp hb, hb', hc ▸ h0⟩
    · rintro ⟨n, b, b', hb, hb', h0⟩ e
      have := (hmem n _).mpr ⟨b, b', (hboxed _ _).mpr hb, hb', rfl, h0⟩
      rw [e] at this; cases this
  obtain ⟨l, hl, hld⟩ := found m t.before
  obtain ⟨l', hl', hld'⟩ := found (run f.stencil.body (params.map convert) m) t.after
  have raise : Differ diffs (f.stencil.names.zip params) t.all m t.before →
      call diffs f (some t) args kwargs m = .raised .valueError := by
    intro hd
    have hne := hld.mpr hd
    unfold call
    simp only [hl]
    cases l with
    | nil => exact absurd rfl hne
    | cons x l => rfl
  refine ⟨raise, fun hd => ?_, fun hnd hnd' => ?_⟩
  · by_cases hd0 : Differ diffs (f.stencil.names.zip params) t.all m t.before
    · exact raise hd0
    · have e : l = [] := by
        by_cases e : l = []
        · exact e
        · exact absurd (hld.mp e) hd0
      have hne := hld'.mpr hd
      unfold call
      simp only [hl, e, h1, h2, hl']
      cases l' with
      | nil => exact absurd rfl hne
      | cons x l' => simp
  · have e : l = [] := by
      by_cases e : l = []
      · exact e
      · exact absurd (hld.mp e) hnd
    have e' : l' = [] := by
      by_cases e : l' = []
      · exact e
      · exact absurd (hld'.mp e) hnd'
    unfold call
    simp only [hl, e, h1, h2, hl', e']

/-- Not so: arrays of `Quantity` objects and plain arrays are never compared. Whatever the twin holds, a call with such
arguments alone is the call without comparison. -/
theorem C107_twin_violated (diffs : V → V → Nat) (f : Frozen V) (args : List (Arg V)) (kwargs : Kwargs V)
    (h : ∀ a ∈ args ++ kwargs.map (fun k => k.2), ∀ b, a ≠ .boxed b) (m : Mem V) (t : Twin V) :
    call diffs f (some t) args kwargs m = call diffs f none args kwargs m := by
  have hs : sent (f.stencil.names.zip (args.map convert) ++ (kwargs.map fun k => (k.1, convert k.2))) = [] := by
    rw [List.eq_nil_iff_forall_not_mem]
    rintro ⟨n, b⟩ hx
    have := mem_sent.mp hx
    rw [all_convert, boxed_convert] at this
    unfold Boxed at this
    rw [List.mem_append] at this
    rcases this with h' | h'
    · exact h _ (List.mem_append_left _ (List.of_mem_zip h').2) b rfl
    · exact h _ (List.mem_append_right _ (List.mem_map.mpr ⟨_, h', rfl⟩)) b rfl
  have hc : ∀ mm mt : Mem V, compareRanks diffs
      (f.stencil.names.zip (args.map convert) ++ (kwargs.map fun k => (k.1, convert k.2))) t.all mm mt = some [] := by
    intro mm mt
    unfold compareRanks
    rw [hs]
    rfl
  unfold call
  simp only [hc]

/-- The test of the code for numbers that may be missing (`none`): missing ones of this rank are not counted. -/
def nanDiffs (x y : Option Nat) : Nat := if x ≠ none ∧ x ≠ y then 1 else 0

/-- The stencil of the examples: `b = a + 1`. -/
def addOne : Stencil (Option Nat) := ⟨["a", "b"], [(1, fun v => (v 0).map (· + 1))]⟩

theorem binds_positional {names : List String} {args : List (Arg V)} (h : args.length = names.length) :
    Binds names args [] args :=
  ⟨by omega, h, fun _ _ => rfl, fun i n hi hn => by
    have := (List.getElem?_eq_some_iff.mp hn).1; omega, fun _ hk => by cases hk⟩

/-- Not so for a value that is missing on one rank only: this rank goes on and the other raises an error. -/
theorem C107_nan_violated :
    ∃ (f : Frozen (Option Nat)) (args : List (Arg (Option Nat))) (m mt : Mem (Option Nat)),
      call nanDiffs f (some ⟨f.stencil.names.zip args, mt, mt⟩) args [] m = call nanDiffs f none args [] m ∧
      call nanDiffs f (some ⟨f.stencil.names.zip args, m, m⟩) args [] mt = .raised .valueError := by
  have hb : Binds ["a"] [Arg.boxed (V := Option Nat) 0] [] [.boxed 0] := binds_positional rfl
  refine ⟨⟨⟨["a"], []⟩, false, false, false⟩, [.boxed 0], ⟨fun _ => none, 1⟩, ⟨fun _ => some 1, 1⟩, ?_, ?_⟩
  · refine (C107_twin nanDiffs _ (by decide) _ [] _ hb (by decide) _ ⟨_, _, _⟩ (by decide) (fun _ => Iff.rfl)).2.2 ?_ ?_
    · rintro ⟨n, b, b', _, _, h⟩
      exact absurd (show 0 < 0 from h) (by decide)
    · rintro ⟨n, b, b', _, _, h⟩
      exact absurd (show 0 < 0 from h) (by decide)
  · refine (C107_twin nanDiffs _ (by decide) _ [] _ hb (by decide) _ ⟨_, _, _⟩ (by decide) (fun _ => Iff.rfl)).1 ?_
    exact ⟨"a", 0, 0, List.mem_cons_self, List.mem_cons_self, by decide⟩

/-- C107: with an even number of ranks everyone has a partner, another rank, whose partner they are. -/
theorem C107_pair (rank size : Nat) (h : rank < size) (he : size % 2 = 0) :
    pairRank rank size < size ∧ pairRank rank size ≠ rank ∧ pairRank (pairRank rank size) size = rank := by
  unfold pairRank
  simp only
  by_cases h1 : rank < size / 2
  · rw [if_pos h1, if_neg (by omega)]
    omega
  · rw [if_neg h1, if_pos (by omega)]
    omega

/-- Not so for odd numbers: the partner of the last of three ranks has another. -/
theorem C107_pair_violated : pairRank 2 3 = 1 ∧ pairRank 1 3 = 0 ∧ pairRank 0 1 = 0 := by decide

/-! ### Comparison with NumPy -/

/-- The newName of all buffers at once. -/
def newName (args kargs : List (Arg V)) (m : Mem V) (b : Nat) : Nat :=
  if b ∈ buffers args then copyOf m (buffers args) b else copyOf (deepcopy args m).2 (buffers kargs) b

omit [Inhabited V] in
theorem rename_congr (r s : Nat → Nat) (args : List (Arg V)) (h : ∀ b ∈ buffers args, r b = s b) :
    args.map (Arg.rename r) = args.map (Arg.rename s) := by
  apply List.map_congr_left
  intro a ha
  have := fun b hb => h b (mem_buffers.mpr ⟨a, ha, hb⟩)
  cases a with
  | real x => rfl
  | quantity b d e n => simp only [Arg.rename, this b rfl]
  | array b => simp only [Arg.rename, this b rfl]
  | boxed b => simp only [Arg.rename, this b rfl]

omit [Inhabited V] in
/-- What a report contains. -/
theorem mem_report (args : List (Arg V)) (kwargs : Kwargs V) (r : Nat → Nat) (m : Mem V) (l : Label) (x y : V) :
    (l, x, y) ∈ report args (args.map (Arg.rename r)) kwargs (kwargs.map fun k => (k.1, k.2.rename r)) m ↔
      ∃ a b, ((∃ i, l = .pos i ∧ args[i]? = some a) ∨ (∃ n, l = .name n ∧ (n, a) ∈ kwargs)) ∧ (∀ b', a ≠ .boxed b') ∧
        a.buf? = some b ∧ x = m.data b ∧ y = m.data (r b) := by
  have hpair : ∀ (l' : Label) (a : Arg V), (match a, a.rename r with
      | .quantity b .., .quantity b' .. => some (l', m.data b, m.data b')
      | .array b, .array b' => some (l', m.data b, m.data b')
      | _, _ => none) = some (l, x, y) ↔
      l' = l ∧ ∃ b, (∀ b', a ≠ .boxed b') ∧ a.buf? = some b ∧ x = m.data b ∧ y = m.data (r b) := by
    intro l' a
    cases a with
    | quantity b d e n =>
      simp only [Arg.rename, Option.some.injEq, Prod.mk.injEq, Arg.buf?]
      constructor
      · rintro ⟨h1, h2, h3⟩; exact ⟨h1, b, (fun _ h => by cases h), rfl, h2.symm, h3.symm⟩
      · rintro ⟨h1, b', _, h2, h3, h4⟩; subst h2; exact ⟨h1, h3.symm, h4.symm⟩
    | array b =>
      simp only [Arg.rename, Option.some.injEq, Prod.mk.injEq, Arg.buf?]
      constructor
      · rintro ⟨h1, h2, h3⟩; exact ⟨h1, b, (fun _ h => by cases h), rfl, h2.symm, h3.symm⟩
      · rintro ⟨h1, b', _, h2, h3, h4⟩; subst h2; exact ⟨h1, h3.symm, h4.symm⟩
    | boxed b =>
      constructor
      · intro h; cases h
      · rintro ⟨_, b', h, _⟩; exact absurd rfl (h b)
    | real z =>
      constructor
      · intro h; cases h
      · rintro ⟨_, b', _, h, _⟩; cases h
  unfold report
  rw [List.mem_append, List.mem_filterMap, List.mem_filterMap]
  constructor
  · rintro (⟨⟨⟨a, c⟩, i⟩, hp, hf⟩ | ⟨⟨⟨n, a⟩, ⟨n', c⟩⟩, hp, hf⟩)
    · rw [List.mem_zipIdx_iff_getElem?, List.getElem?_zip_eq_some, List.getElem?_map] at hp
      obtain ⟨ha, hc⟩ := hp
      simp only at ha hc
      rw [ha] at hc
      injection hc with hc
      subst hc
      obtain ⟨rfl, b, hb⟩ := (hpair _ _).mp hf
      exact ⟨a, b, Or.inl ⟨i, rfl, ha⟩, hb⟩
    · obtain ⟨i, hi⟩ := List.mem_iff_getElem?.mp hp
      rw [List.getElem?_zip_eq_some, List.getElem?_map] at hi
      obtain ⟨ha, hc⟩ := hi
      simp only at ha hc
      rw [ha] at hc
      injection hc with hc
      injection hc with _ hc
      simp only at hc
      subst hc
      obtain ⟨rfl, b, hb⟩ := (hpair _ _).mp hf
      exact ⟨a, b, Or.inr ⟨n, rfl, List.mem_of_getElem? ha⟩, hb⟩
  · rintro ⟨a, b, ⟨i, rfl, hi⟩ | ⟨n, rfl, hn⟩, hb⟩
    · left
      refine ⟨((a, a.rename r), i), ?_, (hpair _ _).mpr ⟨rfl, b, hb⟩⟩
      rw [List.mem_zipIdx_iff_getElem?, List.getElem?_zip_eq_some, List.getElem?_map]
      simp only
      rw [hi]
      exact ⟨rfl, rfl⟩
    · right
      obtain ⟨i, hi⟩ := List.mem_iff_getElem?.mp hn
      refine ⟨((n, a), (n, a.rename r)), List.mem_of_getElem? (i := i) ?_, (hpair _ _).mpr ⟨rfl, b, hb⟩⟩
      rw [List.getElem?_zip_eq_some, List.getElem?_map, hi]
      exact ⟨rfl, rfl⟩

/-- C107: with no array passed both by position and by name, comparing with NumPy leaves the caller's arrays as the stencil
alone does, and what is compared for each array is its contents after the stencil and its contents after the NumPy version,
both run from the same inputs. -/
theorem C107_numpy (diffs : V → V → Nat) (actual numpy : Frozen V) (hnames : numpy.stencil.names = actual.stencil.names)
    (hn : actual.stencil.names.Nodup) (args : List (Arg V)) (kwargs : Kwargs V) (params : List (Arg V))
    (h : Binds actual.stencil.names args kwargs params) (hk : (kwargs.map fun k => k.1).Nodup) (m : Mem V)
    (hold : ∀ b, Passed (args ++ kwargs.map fun k => k.2) b → b < m.next)
    (hdis : ∀ b, Passed args b → ¬ Passed (kwargs.map fun k => k.2) b) :
    ∃ m' rep, callCompared diffs actual numpy args kwargs m = .ok (m', { actual with checked := actual.checked || actual.validate },
        { numpy with checked := numpy.checked || numpy.validate }, rep) ∧
      (∀ b, b < m.next → m'.data b = (run actual.stencil.body (params.map convert) m).data b) ∧
      (∀ l x y, (l, x, y) ∈ rep ↔ ∃ a b, ((∃ i, l = .pos i ∧ args[i]? = some a) ∨ (∃ n, l = .name n ∧ (n, a) ∈ kwargs)) ∧
        (∀ b', a ≠ .boxed b') ∧ a.buf? = some b ∧
        x = (run actual.stencil.body (params.map convert) m).data b ∧ y = (run numpy.stencil.body (params.map convert) m).data b) := by
  obtain ⟨kargs, hkargs⟩ : ∃ l, l = kwargs.map fun k => k.2 := ⟨_, rfl⟩
  rw [← hkargs] at hold hdis
  have hparams : ∀ a ∈ params, a ∈ args ∨ a ∈ kargs := by
    intro a ha
    obtain ⟨i, hi⟩ := List.mem_iff_getElem?.mp ha
    by_cases hl : i < args.length
    · left
      rw [h.positional i hl] at hi
      exact List.mem_of_getElem? hi
    · right
      have hil : i < actual.stencil.names.length := by rw [← h.length]; exact (List.getElem?_eq_some_iff.mp hi).1
      rw [h.named i _ (by omega) (List.getElem?_eq_getElem hil)] at hi
      unfold dictGet at hi
      obtain ⟨y, hy, rfl⟩ := Option.map_eq_some_iff.mp hi
      rw [hkargs]
      exact List.mem_map.mpr ⟨y, List.mem_of_find?_eq_some hy, rfl⟩
  have hlt : ∀ b, b ∈ buffers args ∨ b ∈ buffers kargs → b < m.next := by
    rintro b (hb | hb)
    · obtain ⟨a, ha, hab⟩ := mem_buffers.mp hb
      exact hold b ⟨a, List.mem_append_left _ ha, hab⟩
    · obtain ⟨a, ha, hab⟩ := mem_buffers.mp hb
      exact hold b ⟨a, List.mem_append_right _ ha, hab⟩
  have hdisj : ∀ b, b ∈ buffers args → b ∉ buffers kargs := by
    intro b hb hb'
    exact hdis b (mem_buffers.mp hb) (mem_buffers.mp hb')
  -- the memory after both copies
  obtain ⟨mk, hmk⟩ : ∃ x, x = (deepcopy kargs (deepcopy args m).2).2 := ⟨_, rfl⟩
  have hnext : (deepcopy args m).2.next = m.next + (buffers args).length := rfl
  have hmkold : ∀ b, b < m.next → mk.data b = m.data b := by
    intro b hb
    rw [hmk, deepcopy_old _ _ _ (by rw [hnext]; omega), deepcopy_old _ _ _ hb]
  obtain ⟨r, hr⟩ : ∃ x, x = newName args kargs m := ⟨_, rfl⟩
  have hrange : ∀ b, b ∈ buffers args ∨ b ∈ buffers kargs → m.next ≤ r b := by
    intro b hb
    rw [hr]; unfold newName
    by_cases hin : b ∈ buffers args
    · rw [if_pos hin]; exact (copy_range m _ b hin).1
    · rw [if_neg hin]
      have := (copy_range (deepcopy args m).2 (buffers kargs) b (hb.resolve_left hin)).1
      rw [hnext] at this; omega
  have hmkcopy : ∀ b, b ∈ buffers args ∨ b ∈ buffers kargs → mk.data (r b) = m.data b := by
    intro b hb
    rw [hr, hmk]; unfold newName
    by_cases hin : b ∈ buffers args
    · rw [if_pos hin, deepcopy_old _ _ _ (by rw [hnext]; exact (copy_range m _ b hin).2), deepcopy_new _ _ _ hin]
    · rw [if_neg hin, deepcopy_new _ _ _ (hb.resolve_left hin), deepcopy_old _ _ _ (hlt b hb)]
  have hinj : ∀ b b', (b ∈ buffers args ∨ b ∈ buffers kargs) → (b' ∈ buffers args ∨ b' ∈ buffers kargs) → r b = r b' → b = b' := by
    intro b b' hb hb' e
    rw [hr] at e; unfold newName at e
    by_cases hin : b ∈ buffers args <;> by_cases hin' : b' ∈ buffers args
    · rw [if_pos hin, if_pos hin'] at e; exact copy_inj _ _ _ _ hin hin' e
    · rw [if_pos hin, if_neg hin'] at e
      have h1 := (copy_range m _ b hin).2
      have h2 := (copy_range (deepcopy args m).2 (buffers kargs) b' (hb'.resolve_left hin')).1
      rw [hnext] at h2; omega
    · rw [if_neg hin, if_pos hin'] at e
      have h1 := (copy_range m _ b' hin').2
      have h2 := (copy_range (deepcopy args m).2 (buffers kargs) b (hb.resolve_left hin)).1
      rw [hnext] at h2; omega
    · rw [if_neg hin, if_neg hin'] at e; exact copy_inj _ _ _ _ (hb.resolve_left hin) (hb'.resolve_left hin') e
  -- the copies are renamed arguments
  have hcargs : (deepcopy args m).1 = args.map (Arg.rename r) := by
    show args.map (Arg.rename (copyOf m (buffers args))) = _
    apply rename_congr
    intro b hb
    rw [hr]; unfold newName; rw [if_pos hb]
  have hckargs : (deepcopy kargs (deepcopy args m).2).1 = kargs.map (Arg.rename r) := by
    show kargs.map (Arg.rename (copyOf (deepcopy args m).2 (buffers kargs))) = _
    apply rename_congr
    intro b hb
    rw [hr]; unfold newName; rw [if_neg fun hc => hdisj b hc hb]
  have hkcopies : (kwargs.map fun k => k.1).zip (kargs.map (Arg.rename r)) = kwargs.map fun k => (k.1, k.2.rename r) := by
    rw [hkargs, List.map_map, List.zip_map']
    rfl
  have hpb : ∀ a ∈ params.map convert, ∀ b, a.buf? = some b → b ∈ buffers args ∨ b ∈ buffers kargs := by
    intro a ha b hab
    obtain ⟨p, hp, rfl⟩ := List.mem_map.mp ha
    rw [convert_buf] at hab
    rcases hparams p hp with hp | hp
    · exact Or.inl (mem_buffers.mpr ⟨p, hp, hab⟩)
    · exact Or.inr (mem_buffers.mpr ⟨p, hp, hab⟩)
  -- the first run
  obtain ⟨m1, hm1⟩ : ∃ x, x = run actual.stencil.body (params.map convert) mk := ⟨_, rfl⟩
  have hid : (params.map convert).map (Arg.rename id) = params.map convert := by
    conv => rhs; rw [← List.map_id (params.map convert)]
    apply List.map_congr_left
    intro a _
    cases a <;> rfl
  have hm1old : ∀ b, b < m.next → m1.data b = (run actual.stencil.body (params.map convert) m).data b := by
    intro b hb
    by_cases hin : ∃ a ∈ params.map convert, a.buf? = some b
    · obtain ⟨a, ha, hab⟩ := hin
      have := run_rename id (params.map convert) (fun _ _ _ _ _ _ _ _ e => e) actual.stencil.body m mk
        (fun a ha b hab => hmkold b (hlt b (hpb a ha b hab))) a ha b hab
      rw [hid] at this
      rw [hm1]; exact this
    · have hno : ∀ a ∈ params.map convert, a.buf? ≠ some b := fun a ha hab => hin ⟨a, ha, hab⟩
      rw [hm1, (run_other _ _ _).2 b hno, (run_other _ _ _).2 b hno, hmkold b hb]
  have hm1copy : ∀ b, b ∈ buffers args ∨ b ∈ buffers kargs → m1.data (r b) = m.data b := by
    intro b hb
    rw [hm1, (run_other _ _ _).2, hmkcopy b hb]
    intro a ha hab
    have := hlt _ (hpb a ha _ hab)
    have := hrange b hb
    omega
  -- the second run
  obtain ⟨m2, hm2⟩ : ∃ x, x = run numpy.stencil.body ((params.map (Arg.rename r)).map convert) m1 := ⟨_, rfl⟩
  have hcomm : (params.map (Arg.rename r)).map convert = (params.map convert).map (Arg.rename r) := by
    rw [List.map_map, List.map_map]
    apply List.map_congr_left
    intro a _
    exact convert_rename r a
  have hm2copy : ∀ a ∈ params.map convert, ∀ b, a.buf? = some b →
      m2.data (r b) = (run numpy.stencil.body (params.map convert) m).data b := by
    rw [hm2, hcomm]
    exact run_rename r _ (fun a ha b hab a' ha' b' hab' e => hinj b b' (hpb a ha b hab) (hpb a' ha' b' hab') e) _ m m1
      (fun a ha b hab => hm1copy b (hpb a ha b hab))
  have hm2old : ∀ b, b < m.next → m2.data b = m1.data b := by
    intro b hb
    rw [hm2, hcomm]
    apply (run_other _ _ _).2
    intro a ha hab
    obtain ⟨p, hp, rfl⟩ := List.mem_map.mp ha
    rw [rename_buf, Option.map_eq_some_iff] at hab
    obtain ⟨b0, hb0, e⟩ := hab
    have := hrange b0 (hpb p hp b0 hb0)
    omega
  have hc1 := C107_call diffs actual hn args kwargs params h mk
  rw [← hm1] at hc1
  have hb2 := binds_map (Arg.rename r) h
  rw [← hnames] at hb2
  have hc2 := C107_call diffs numpy (hnames ▸ hn) _ _ _ hb2 m1
  rw [← hm2] at hc2
  refine ⟨m2, report args (args.map (Arg.rename r)) kwargs (kwargs.map fun k => (k.1, k.2.rename r)) m2, ?_, ?_, ?_⟩
  · unfold callCompared
    simp only
    rw [← hkargs, hcargs, hckargs, hkcopies, ← hmk, hc1]
    simp only
    rw [hc2]
  · intro b hb
    rw [hm2old b hb, hm1old b hb]
  · -- every argument reaches a parameter
    have hreach : ∀ a, a ∈ args ∨ a ∈ kargs → ∀ b, a.buf? = some b → ∃ p ∈ params.map convert, p.buf? = some b := by
      intro a ha b hab
      have : ∃ n, (n, a) ∈ actual.stencil.names.zip args ++ kwargs := by
        rcases ha with ha | ha
        · obtain ⟨i, hi⟩ := List.mem_iff_getElem?.mp ha
          have hil : i < actual.stencil.names.length := Nat.lt_of_lt_of_le (List.getElem?_eq_some_iff.mp hi).1 h.enough
          exact ⟨_, List.mem_append_left _ (List.mem_of_getElem? (i := i)
            (List.getElem?_zip_eq_some.mpr ⟨List.getElem?_eq_getElem hil, hi⟩))⟩
        · rw [hkargs] at ha
          obtain ⟨k, hk', rfl⟩ := List.mem_map.mp ha
          exact ⟨k.1, List.mem_append_right _ hk'⟩
      obtain ⟨n, hna⟩ := this
      have := (List.of_mem_zip ((mem_all hn hk h _).mp hna)).2
      exact ⟨convert a, List.mem_map.mpr ⟨a, this, rfl⟩, by rw [convert_buf]; exact hab⟩
    have hx : ∀ a, a ∈ args ∨ a ∈ kargs → ∀ b, a.buf? = some b →
        m2.data b = (run actual.stencil.body (params.map convert) m).data b ∧
        m2.data (r b) = (run numpy.stencil.body (params.map convert) m).data b := by
      intro a ha b hab
      obtain ⟨p, hp, hpb'⟩ := hreach a ha b hab
      have hb := hlt b (hpb p hp b hpb')
      exact ⟨by rw [hm2old b hb, hm1old b hb], hm2copy p hp b hpb'⟩
    intro l x y
    rw [mem_report]
    constructor
    · rintro ⟨a, b, hl, hbox, hab, rfl, rfl⟩
      have ha : a ∈ args ∨ a ∈ kargs := by
        rcases hl with ⟨i, -, hi⟩ | ⟨n, -, hn'⟩
        · exact Or.inl (List.mem_of_getElem? hi)
        · exact Or.inr (hkargs ▸ List.mem_map.mpr ⟨_, hn', rfl⟩)
      exact ⟨a, b, hl, hbox, hab, (hx a ha b hab).1, (hx a ha b hab).2⟩
    · rintro ⟨a, b, hl, hbox, hab, rfl, rfl⟩
      have ha : a ∈ args ∨ a ∈ kargs := by
        rcases hl with ⟨i, -, hi⟩ | ⟨n, -, hn'⟩
        · exact Or.inl (List.mem_of_getElem? hi)
        · exact Or.inr (hkargs ▸ List.mem_map.mpr ⟨_, hn', rfl⟩)
      exact ⟨a, b, hl, hbox, hab, (hx a ha b hab).1.symm, (hx a ha b hab).2.symm⟩

/-- C107: with the same stencil on both sides no difference is reported. -/
theorem C107_same (diffs : V → V → Nat) (actual numpy : Frozen V) (hsame : numpy.stencil = actual.stencil)
    (hn : actual.stencil.names.Nodup) (args : List (Arg V)) (kwargs : Kwargs V) (params : List (Arg V))
    (h : Binds actual.stencil.names args kwargs params) (hk : (kwargs.map fun k => k.1).Nodup) (m : Mem V)
    (hold : ∀ b, Passed (args ++ kwargs.map fun k => k.2) b → b < m.next)
    (hdis : ∀ b, Passed args b → ¬ Passed (kwargs.map fun k => k.2) b) :
    ∃ m' a n rep, callCompared diffs actual numpy args kwargs m = .ok (m', a, n, rep) ∧ ∀ l x y, (l, x, y) ∈ rep → x = y := by
  obtain ⟨m', rep, h1, -, h3⟩ := C107_numpy diffs actual numpy (by rw [hsame]) hn args kwargs params h hk m hold hdis
  refine ⟨m', _, _, rep, h1, fun l x y hl => ?_⟩
  obtain ⟨a, b, -, -, -, hx, hy⟩ := (h3 l x y).mp hl
  rw [hx, hy, hsame]

/-- Not so for an array passed by position and by name: it is copied twice, and the same stencil differs from itself. -/
theorem C107_alias_violated :
    ∃ (f : Frozen Nat) (a : Arg Nat) (m : Mem Nat),
      Binds f.stencil.names [a] [("b", a)] [a, a] ∧
      (callCompared (fun _ _ => 0) f f [a] [("b", a)] m).toOption.map (fun x => x.2.2.2) =
        some [(.pos 0, 2, 1), (.name "b", 2, 2)] := by
  refine ⟨⟨⟨["a", "b"], [(0, fun _ => 1), (1, fun v => v 0 + 1)]⟩, false, false, false⟩, .array 0, ⟨fun _ => 0, 1⟩, ?_, ?_⟩
  · refine ⟨by decide, rfl, fun i hi => ?_, fun i n hi hn => ?_, fun k hk => ?_⟩
    · have : i = 0 := by simp at hi; omega
      subst this; rfl
    · have hl := (List.getElem?_eq_some_iff.mp hn).1
      have : i = 1 := by simp at hi hl; omega
      subst this
      have : "b" = n := by simpa using hn
      subst this
      decide
    · have : k = ("b", .array 0) := by simpa using hk
      subst this; decide
  · decide +kernel

/-! ### Sizes -/

omit [Inhabited V] in
/-- C107: a quantity with one extent for each dimension is warned about exactly for the dimensions along which its points, with
the halo on both sides of horizontal dimensions, are fewer than those of the domain. -/
theorem C107_sizes (domain : Int × Int × Int) (b : Nat) (dims : List Dim) (extent : List Int) (nHalo : Int) (d : Dim) :
    d ∈ tooSmall domain (.quantity (V := V) b dims extent nHalo) ↔
      ∃ (i : Nat) (e n : Int), dims[i]? = some d ∧ extent[i]? = some e ∧
        ((d = .i ∨ d = .iInterface) ∧ n = domain.1 ∧ e + 2 * nHalo < n ∨
         (d = .j ∨ d = .jInterface) ∧ n = domain.2.1 ∧ e + 2 * nHalo < n ∨
         (d = .k ∨ d = .kInterface) ∧ n = domain.2.2 ∧ e < n) := by
  unfold tooSmall
  rw [List.mem_filterMap]
  constructor
  · rintro ⟨⟨d', e⟩, hp, hf⟩
    obtain ⟨i, hi⟩ := List.mem_iff_getElem?.mp hp
    rw [List.getElem?_zip_eq_some] at hi
    simp only at hf hi
    cases hd : domainSize domain d' with
    | none => rw [hd] at hf; cases hf
    | some n =>
      rw [hd] at hf
      simp only at hf
      by_cases hlt : e + (if isHorizontal d' = true then 2 * nHalo else 0) < n
      · rw [if_pos hlt] at hf
        injection hf with hf
        subst hf
        refine ⟨i, e, n, hi.1, hi.2, ?_⟩
        cases d' <;> simp [domainSize, isHorizontal] at hd hlt <;> subst hd <;> simp <;> omega
      · rw [if_neg hlt] at hf; cases hf
  · rintro ⟨i, e, n, hd, he, hcase⟩
    refine ⟨(d, e), List.mem_of_getElem? (i := i) (List.getElem?_zip_eq_some.mpr ⟨hd, he⟩), ?_⟩
    rcases hcase with ⟨rfl | rfl, rfl, hlt⟩ | ⟨rfl | rfl, rfl, hlt⟩ | ⟨rfl | rfl, rfl, hlt⟩ <;>
      simp [domainSize, isHorizontal] <;> omega

/-- Not so that no warning means that the points are there: the origin of the domain is not considered. Three points and no halo
hold no three points from the second on. -/
theorem C107_sizes_violated :
    tooSmall (3, 3, 3) (.quantity (V := Nat) 0 [.k] [3] 0) = [] ∧ ¬ (1 + 3 ≤ 3) := by decide
/-! ### Examples -/

/-- `b` given by name, `a` by position: the hypotheses of `C107_call`, and the result. -/
theorem binds_example (a b : Arg (Option Nat)) : Binds addOne.names [a] [("b", b)] [a, b] := by
  refine ⟨by simp [addOne], rfl, fun i hi => ?_, fun i n hi hn => ?_, fun k hk => ?_⟩
  · have : i = 0 := by simp at hi; omega
    subst this; rfl
  · have hl := (List.getElem?_eq_some_iff.mp hn).1
    have : i = 1 := by simp [addOne] at hi hl; omega
    subst this
    have : "b" = n := by simpa [addOne] using hn
    subst this
    simp [dictGet]
  · have : k = ("b", b) := by simpa using hk
    subst this; simp [addOne]

example (m : Mem (Option Nat)) : ∃ m' f', call nanDiffs ⟨addOne, true, false, false⟩ none
    [.quantity 0 [.i] [3] 1] [("b", .array 1)] m = .ok m' f' ∧ f'.checked = true ∧
    m'.data 1 = (m.data 0).map (· + 1) ∧ m'.data 0 = m.data 0 :=
  ⟨_, _, C107_call nanDiffs _ (by decide) _ _ _ (binds_example _ _) m, rfl, rfl, rfl⟩

/-- By position or by name: `C107_keywords`. -/
example (m : Mem (Option Nat)) : call nanDiffs ⟨addOne, true, false, false⟩ none [.array 0] [("b", .array 1)] m =
    call nanDiffs ⟨addOne, true, false, false⟩ none [.array 0, .array 1] [] m :=
  C107_keywords nanDiffs _ (by decide) _ _ _ _ _ (binds_example _ _) (binds_positional rfl) m

/-- A missing argument: `C107_refused`. -/
example (m : Mem (Option Nat)) : call nanDiffs ⟨addOne, true, false, false⟩ none [.array 0] [] m = .raised .typeError := rfl

/-- `C107_numpy`, `C107_same`: the report of the comparison. -/
example : (callCompared nanDiffs ⟨addOne, true, false, false⟩ ⟨addOne, true, false, false⟩ [.quantity 0 [.i] [3] 1]
    [("b", .array 1)] ⟨fun b => some (10 * b), 2⟩).toOption.map (fun x => x.2.2.2) =
    some [(.pos 0, some 0, some 0), (.name "b", some 1, some 1)] := by decide +kernel

example : pairRank 1 6 = 4 ∧ pairRank 4 6 = 1 := by decide
example : tooSmall (4, 4, 4) (.quantity (V := Nat) 0 [.i, .j, .k] [2, 1, 4] 1) = [.j] := by decide

end NDSL.StencilCall
