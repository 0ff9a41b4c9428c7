import Verif.Model.Instrument

/-! Property C148: the debugger sees the arguments of an instrumented method, and the method does not see the debugger. -/
namespace NDSL.Instrument

variable {V R E : Type}

/-! ### Specification -/

/-- Kinds of parameters that can be given by position, one argument each. -/
def Kind.takesPosition (k : Kind) : Bool := k = .positionalOnly ∨ k = .positionalOrKeyword

/-- Python's rule for positional arguments: the `i`-th argument after `self` goes to the `i`-th parameter after `self` that
takes positional arguments. -/
def ByPosition (params : List Param) (args : List V) (name : String) (v : V) : Prop :=
  ∃ (i : Nat) (p : Param), ((params.filter fun p => p.kind.takesPosition).drop 1)[i]? = some p ∧ p.name = name ∧ args[i]? = some v

/-- Kinds of parameters that can be given by their name. -/
def Kind.takesName : Kind → Prop
  | .positionalOrKeyword | .keywordOnly => True
  | _ => False

/-- Python's rule for keyword arguments: they go to the parameter of this name that can be given by its name. -/
def ByName (params : List Param) (kwargs : List (String × V)) (name : String) (v : V) : Prop :=
  (∃ p ∈ params, p.name = name ∧ p.kind.takesName) ∧ (name, v) ∈ kwargs

/-- A call that Python accepts, with no name used for two things: no parameter or keyword is there twice, no parameter is given
in both ways, and the keywords that go to a `**more` are not names of parameters. -/
structure Accepted (params : List Param) (args : List V) (kwargs : List (String × V)) : Prop where
  names : (params.map Param.name).Nodup
  keys : (kwargs.map Prod.fst).Nodup
  once : ∀ name v w, ByPosition params args name v → (name, w) ∉ kwargs
  more : ∀ p ∈ params, ∀ w, (p.name, w) ∈ kwargs → p.kind.takesName

/-! ### Positional arguments -/

theorem positional_eq (k : Kind) : k.positional = k.takesPosition := by cases k <;> rfl

theorem positionals_other (args : List V) (name : String) : ∀ (ps : List Param) (count : Nat) (d : Dict V),
    name ∉ ps.map Param.name → positionals args ps count d name = d name := by
  intro ps
  induction ps with
  | nil => intro count d _; rfl
  | cons p ps ih =>
    intro count d hn
    simp only [List.map_cons, List.mem_cons, not_or] at hn
    unfold positionals
    split
    · split
      · exact ih _ _ hn.2
      · split
        · cases args[count - 1]? with
          | some v => exact (ih _ _ hn.2).trans (by simp [Dict.set, hn.1])
          | none => exact ih _ _ hn.2
        · exact ih _ _ hn.2
    · exact ih _ _ hn.2

theorem positionals_spec (args : List V) (name : String) (v : V) : ∀ (ps : List Param) (k : Nat) (d : Dict V),
    (ps.map Param.name).Nodup → k ≤ args.length → (name ∈ ps.map Param.name → d name = none) →
    (positionals args ps (k + 1) d name = some v ↔
      d name = some v ∨ ∃ i p, (ps.filter fun p => p.kind.positional)[i]? = some p ∧ p.name = name ∧ args[k + i]? = some v) := by
  intro ps
  induction ps with
  | nil => intro k d _ _ _; simp [positionals]
  | cons p ps ih =>
    intro k d hnd hk hd
    simp only [List.map_cons, List.nodup_cons] at hnd
    unfold positionals
    by_cases hp : p.kind.positional = true
    · rw [if_pos hp, if_neg (by omega), List.filter_cons_of_pos (p := fun p : Param => p.kind.positional) hp]
      by_cases hlt : k < args.length
      · rw [if_pos (by omega)]
        have e : args[k + 1 - 1]? = some args[k] := by simp [hlt]
        rw [e]
        simp only
        by_cases hname : p.name = name
        · have hnot : name ∉ ps.map Param.name := hname ▸ hnd.1
          rw [positionals_other args name ps _ _ hnot]
          have hdn : d name = none := hd (by simp [hname])
          constructor
          · intro h
            simp only [Dict.set, hname, if_true] at h
            exact .inr ⟨0, p, by simp, hname, by simp [hlt]; exact Option.some.inj h⟩
          · rintro (h | ⟨i, q, h1, h2, h3⟩)
            · rw [hdn] at h; cases h
            · cases i with
              | zero =>
                simp only [Nat.add_zero] at h3
                simp only [Dict.set, hname, if_true]
                rw [← h3]; simp [hlt]
              | succ i =>
                simp only [List.getElem?_cons_succ] at h1
                have := (List.mem_filter.mp (List.mem_of_getElem? h1)).1
                exact absurd (List.mem_map.mpr ⟨q, this, h2⟩) hnot
        · have hs : (d.set p.name args[k]) name = d name := by
            simp only [Dict.set]; rw [if_neg (fun h => hname h.symm)]
          rw [ih (k + 1) _ hnd.2 (by omega) (fun hm => by rw [hs]; exact hd (by simp at hm ⊢; exact .inr hm)), hs]
          constructor
          · rintro (h | ⟨i, q, h1, h2, h3⟩)
            · exact .inl h
            · exact .inr ⟨i + 1, q, by simpa using h1, h2, by rw [← h3]; congr 1; omega⟩
          · rintro (h | ⟨i, q, h1, h2, h3⟩)
            · exact .inl h
            · cases i with
              | zero =>
                simp only [List.getElem?_cons_zero, Option.some.injEq] at h1
                subst h1
                exact absurd h2 hname
              | succ i =>
                exact .inr ⟨i, q, by simpa using h1, h2, by rw [← h3]; congr 1; omega⟩
      · rw [if_neg (by omega)]
        rw [ih k d hnd.2 hk (fun hm => hd (by simp at hm ⊢; exact .inr hm))]
        have none' : ∀ i, args[k + i]? = (none : Option V) := fun i => List.getElem?_eq_none (by omega)
        constructor
        · rintro (h | ⟨i, q, _, _, h3⟩)
          · exact .inl h
          · rw [none'] at h3; cases h3
        · rintro (h | ⟨i, q, _, _, h3⟩)
          · exact .inl h
          · rw [none'] at h3; cases h3
    · rw [if_neg hp, List.filter_cons_of_neg (p := fun p : Param => p.kind.positional) hp]
      exact ih k d hnd.2 hk (fun hm => hd (by simp at hm ⊢; exact .inr hm))

/-! ### Keyword arguments -/

/-- Given by a keyword that is the name of a parameter. -/
def ByKeyword (params : List Param) (kwargs : List (String × V)) (name : String) (v : V) : Prop :=
  (∃ p ∈ params, p.name = name) ∧ (name, v) ∈ kwargs

theorem keywords_spec (params : List Param) (name : String) (v : V) : ∀ (kwargs : List (String × V)) (d : Dict V),
    (kwargs.map Prod.fst).Nodup → (keywords params kwargs d name = some v ↔
      ByKeyword params kwargs name v ∨ (d name = some v ∧ ∀ w, ¬ ByKeyword params kwargs name w)) := by
  intro kwargs
  induction kwargs with
  | nil => intro d _; simp [keywords, ByKeyword]
  | cons a kwargs ih =>
    intro d hnd
    simp only [List.map_cons, List.nodup_cons] at hnd
    have step : keywords params (a :: kwargs) d =
        keywords params kwargs (if params.any (fun p => p.name == a.1) then d.set a.1 a.2 else d) := rfl
    have hany : params.any (fun p => p.name == a.1) = true ↔ ∃ p ∈ params, p.name = a.1 := by simp
    rw [step, ih _ hnd.2]
    have hno : ∀ w, (a.1, w) ∉ kwargs := fun w h => hnd.1 (List.mem_map.mpr ⟨_, h, rfl⟩)
    by_cases hname : name = a.1
    · subst hname
      by_cases hp : ∃ p ∈ params, p.name = a.1
      · rw [if_pos (hany.2 hp)]
        have k1 : ∀ w, ¬ ByKeyword params kwargs a.1 w := fun w h => hno w h.2
        have k2 : ∀ w, ByKeyword params (a :: kwargs) a.1 w ↔ w = a.2 := by
          intro w
          constructor
          · intro h
            rcases List.mem_cons.mp h.2 with e | e
            · exact (congrArg Prod.snd e)
            · exact absurd e (hno w)
          · rintro rfl; exact ⟨hp, by simp⟩
        constructor
        · rintro (h | ⟨h, -⟩)
          · exact absurd h (k1 v)
          · simp only [Dict.set, if_true, Option.some.injEq] at h
            exact .inl ((k2 v).2 h.symm)
        · rintro (h | ⟨-, h⟩)
          · exact .inr ⟨by simp [Dict.set, (k2 v).1 h], k1⟩
          · exact absurd ((k2 a.2).2 rfl) (h a.2)
      · rw [if_neg (fun h => hp (hany.1 h))]
        have k1 : ∀ (l : List (String × V)) w, ¬ ByKeyword params l a.1 w := fun l w h => hp h.1
        simp [k1]
    · have hb : ∀ w, ByKeyword params (a :: kwargs) name w ↔ ByKeyword params kwargs name w := by
        intro w
        unfold ByKeyword
        constructor
        · rintro ⟨h1, h2⟩
          rcases List.mem_cons.mp h2 with e | e
          · exact absurd (congrArg Prod.fst e) hname
          · exact ⟨h1, e⟩
        · rintro ⟨h1, h2⟩; exact ⟨h1, List.mem_cons_of_mem _ h2⟩
      have hd : (if params.any (fun p => p.name == a.1) then d.set a.1 a.2 else d) name = d name := by
        split
        · simp [Dict.set, hname]
        · rfl
      rw [hd]
      simp only [hb]

/-! ### The theorems -/

/-- **C148**: for every signature that begins with `self`, and every call that Python accepts, what the debugger is given holds
a value under a name exactly if the call gave this value to the parameter of this name, by position or by keyword. -/
theorem C148_data (self : Param) (hself : self.kind.takesPosition = true) (ps : List Param) (args : List V) (kwargs : List (String × V))
    (h : Accepted (self :: ps) args kwargs) (name : String) (v : V) :
    dataOf (self :: ps) args kwargs name = some v ↔
      ByPosition (self :: ps) args name v ∨ ByName (self :: ps) kwargs name v := by
  have hk : ByName (self :: ps) kwargs name v ↔ ByKeyword (self :: ps) kwargs name v := by
    constructor
    · rintro ⟨⟨p, hp, e, -⟩, hm⟩
      exact ⟨⟨p, hp, e⟩, hm⟩
    · rintro ⟨⟨p, hp, e⟩, hm⟩
      exact ⟨⟨p, hp, e, h.more p hp v (e ▸ hm)⟩, hm⟩
  rw [← positional_eq] at hself
  rw [hk]
  unfold dataOf
  rw [keywords_spec _ _ _ _ _ h.keys]
  have hp : positionals args (self :: ps) 0 (fun _ => none) name = some v ↔ ByPosition (self :: ps) args name v := by
    rw [positionals, if_pos hself, if_pos rfl, positionals_spec args name v ps 0 (fun _ => none) (List.nodup_cons.mp h.names).2
      (by omega) (fun _ => rfl)]
    unfold ByPosition
    simp only [← positional_eq]
    rw [List.filter_cons_of_pos (p := fun p : Param => p.kind.positional) hself]
    simp
  rw [hp]
  constructor
  · rintro (g | g)
    · exact .inr g
    · exact .inl g.1
  · rintro (g | g)
    · exact .inr ⟨g, fun w k => h.once name v w g k.2⟩
    · exact .inl g

/-- **C148**: with a debugger or without, the method is called once, with the arguments of the call, and the caller gets what
it returns or raises. -/
theorem C148_transparent (debugger : Bool) (qualname : String) (params : List Param)
    (func : List V → List (String × V) → Except E R) (args : List V) (kwargs : List (String × V)) :
    (wrapper debugger qualname params func args kwargs).2 = func args kwargs ∧
    ((wrapper debugger qualname params func args kwargs).1.filterMap fun e => match e with
      | .call a k => some (a, k)
      | _ => none) = [(args, kwargs)] := by
  unfold wrapper
  cases debugger
  · exact ⟨rfl, rfl⟩
  · simp only [Bool.not_true, Bool.false_eq_true, if_false]
    cases func args kwargs <;> exact ⟨rfl, rfl⟩

/-- **C148**: a call that returns is saved once before and once after, and counted after both; one that raises is saved before
only, and not counted. Without a debugger nothing is saved. -/
theorem C148_saves (debugger : Bool) (qualname : String) (params : List Param)
    (func : List V → List (String × V) → Except E R) (args : List V) (kwargs : List (String × V)) :
    (wrapper debugger qualname params func args kwargs).1.filterMap (fun e => match e with
      | .save d n b => some (some (d, n, b))
      | .count _ => some none
      | _ => none) =
    if debugger then
      match func args kwargs with
      | .ok _ => [some (dataOf params args kwargs, qualname, true), some (dataOf params args kwargs, qualname, false), none]
      | .error _ => [some (dataOf params args kwargs, qualname, true)]
    else [] := by
  unfold wrapper
  cases debugger
  · rfl
  · simp only [Bool.not_true, Bool.false_eq_true, if_false, if_true]
    cases func args kwargs <;> rfl

/-- `def f(self, x, /, y, *rest, z, **more)` -/
def exParams : List Param :=
  [⟨"self", .positionalOrKeyword⟩, ⟨"x", .positionalOnly⟩, ⟨"y", .positionalOrKeyword⟩, ⟨"rest", .varPositional⟩,
   ⟨"z", .keywordOnly⟩, ⟨"more", .varKeyword⟩]

/-- A call `f(1, y=2, z=3)` is one that Python accepts, and what the debugger gets of it. -/
example : Accepted exParams [1] [("y", 2), ("z", 3)] ∧
    (dataOf exParams [1] [("y", 2), ("z", 3)] "x" = some 1 ∧ dataOf exParams [1] [("y", 2), ("z", 3)] "y" = some 2 ∧
     dataOf exParams [1] [("y", 2), ("z", 3)] "z" = some 3 ∧ dataOf exParams [1] [("y", 2), ("z", 3)] "self" = none) := by
  refine ⟨⟨by decide, by decide, ?_, by simp [exParams, Kind.takesName]⟩, by decide, by decide, by decide, by decide⟩
  rintro name v w ⟨i, p, h1, rfl, h3⟩ hm
  match i, h1, h3 with
  | 0, h1, h3 =>
    have : p = ⟨"x", .positionalOnly⟩ := by
      have e : ((exParams.filter fun p => p.kind.takesPosition).drop 1)[0]? = some ⟨"x", .positionalOnly⟩ := rfl
      rw [e] at h1; exact (Option.some.inj h1).symm
    subst this
    simp at hm
  | i + 1, h1, h3 => simp at h3

/-- **C148**, violation: arguments that go to `*rest` or `**more` are not shown to the debugger. -/
theorem C148_extra_violated : ∀ name, dataOf exParams [1, 2, 30] [("z", 3), ("w", 40)] name ≠ some 30 ∧
    dataOf exParams [1, 2, 30] [("z", 3), ("w", 40)] name ≠ some 40 := by
  intro name
  have key : dataOf exParams [1, 2, 30] [("z", 3), ("w", 40)] name =
      if name = "z" then some 3 else if name = "y" then some 2 else if name = "x" then some 1 else none := rfl
  rw [key]
  constructor <;> (repeat' split) <;> simp

/-- **C148**, violation: for `f(1, 2, z=3, x=5)`, where `x=5` goes to `**more`, the debugger is shown 5 as the parameter `x`,
whose value is 1. -/
theorem C148_shadow_violated : ByPosition exParams [1, 2] "x" 1 ∧ dataOf exParams [1, 2] [("z", 3), ("x", 5)] "x" = some 5 :=
  ⟨⟨0, ⟨"x", .positionalOnly⟩, rfl, rfl, rfl⟩, rfl⟩

end NDSL.Instrument
