import Mathlib.Data.List.Forall2
import Verif.Model.ListByDims
/-
Property theorems C65: values per dimension.
-/
namespace NDSL.ByDims

variable {α : Type}

/-- Which value is meant for a dimension, with `(y, x)` horizontal values. -/
inductive Meant (y x z : α) : Dim → α → Prop
  | j : Meant y x z .j y
  | jInterface : Meant y x z .jInterface y
  | i : Meant y x z .i x
  | iInterface : Meant y x z .iInterface x
  | k : Meant y x z .k z
  | kInterface : Meant y x z .kInterface z
  | kSoil : Meant y x z .kSoil z
  | tile : Meant y x z .tile z
  | other (n : String) : Meant y x z (.other n) z

theorem valueFor_meant (y x z : α) (rest : List α) (d : Dim) :
    ∃ v, valueFor (y :: x :: rest) z d = .ok v ∧ Meant y x z d v := by
  cases d <;> exact ⟨_, rfl, by constructor⟩

theorem loop_ok (y x z : α) (rest : List α) : ∀ (dims : List Dim) (out : List α),
    ∃ l, loop (y :: x :: rest) z dims out = .ok (out ++ l) ∧ List.Forall₂ (Meant y x z) dims l
  | [], out => ⟨[], by rw [List.append_nil]; rfl, .nil⟩
  | d :: dims, out => by
    obtain ⟨v, hv, hm⟩ := valueFor_meant y x z rest d
    obtain ⟨l, hl, hf⟩ := loop_ok y x z rest dims (out ++ [v])
    refine ⟨v :: l, ?_, .cons hm hf⟩
    unfold loop
    rw [hv]
    show loop (y :: x :: rest) z dims (out ++ [v]) = _
    rw [hl, List.append_assoc]; rfl

/-- C65: for any list of dimensions there is one value per dimension, in their order, the y value for
the dimensions in y, the x value for those in x and the other value for all the others. -/
theorem C65_values (dims : List Dim) (y x z : α) :
    ∃ l, run dims [y, x] z = .ok l ∧ l.length = dims.length ∧
      ∀ (i : Nat) d, dims[i]? = some d → ∃ v, l[i]? = some v ∧ Meant y x z d v := by
  obtain ⟨l, hl, hf⟩ := loop_ok y x z [] dims []
  refine ⟨l, hl, hf.length_eq.symm, fun i d hd => ?_⟩
  rw [List.forall₂_iff_get] at hf
  have hi : i < dims.length := by
    by_contra hc
    rw [List.getElem?_eq_none (by omega)] at hd
    cases hd
  rw [List.getElem?_eq_getElem hi] at hd
  have hi' : i < l.length := hf.1 ▸ hi
  refine ⟨l[i], List.getElem?_eq_getElem hi', ?_⟩
  have := hf.2 i hi hi'
  rw [List.get_eq_getElem, List.get_eq_getElem, Option.some.inj hd] at this
  exact this

/-- C65: the value of a dimension is determined. -/
theorem C65_determined (y x z v w : α) (d : Dim) (h1 : Meant y x z d v) (h2 : Meant y x z d w) :
    v = w := by
  cases h1 <;> cases h2 <;> rfl

/-- C65: the function used by the rest of the model is this one. -/
theorem C65_model (dims : List Dim) (y x z : α) :
    run dims [y, x] z = .ok (listByDims dims (y, x) z) := by
  have key : ∀ (dims : List Dim) (out : List α),
      loop [y, x] z dims out = .ok (out ++ listByDims dims (y, x) z) := by
    intro dims
    induction dims with
    | nil => intro out; simp [loop, listByDims]
    | cons d dims ih =>
      intro out
      have hv : valueFor [y, x] z d =
          .ok (if d.isJ then y else if d.isI then x else z) := by
        cases d <;> rfl
      unfold loop
      rw [hv]
      show loop [y, x] z dims (out ++ [_]) = _
      rw [ih, List.append_assoc]
      rfl
  exact key dims []

/-- C65: with no horizontal value, the call raises as soon as a horizontal dimension is asked for. -/
theorem C65_rejects (dims : List Dim) (z : α) :
    run dims [] z = if ∃ d ∈ dims, d.isJ ∨ d.isI then .error .indexError
      else .ok (List.replicate dims.length z) := by
  have key : ∀ (dims : List Dim) (out : List α), loop [] z dims out =
      if ∃ d ∈ dims, d.isJ ∨ d.isI then .error .indexError
      else .ok (out ++ List.replicate dims.length z) := by
    intro dims
    induction dims with
    | nil => intro out; simp [loop]
    | cons d dims ih =>
      intro out
      unfold loop
      by_cases hd : d.isJ = true ∨ d.isI = true
      · have hv : valueFor ([] : List α) z d = .error .indexError := by
          rcases hd with hd | hd <;> (cases d <;> first | rfl | exact absurd hd (by decide) | cases hd)
        rw [hv, if_pos ⟨d, List.mem_cons_self .., hd⟩]
        rfl
      · have hv : valueFor ([] : List α) z d = .ok z := by
          unfold valueFor
          rw [if_neg fun h => hd (Or.inl h), if_neg fun h => hd (Or.inr h)]
        rw [hv]
        show loop [] z dims (out ++ [z]) = _
        rw [ih]
        have : (∃ e ∈ d :: dims, e.isJ = true ∨ e.isI = true) ↔
            ∃ e ∈ dims, e.isJ = true ∨ e.isI = true := by
          simp only [List.mem_cons, exists_eq_or_imp]
          exact ⟨fun h => h.resolve_left hd, Or.inr⟩
        by_cases h : ∃ e ∈ dims, e.isJ = true ∨ e.isI = true
        · rw [if_pos h, if_pos (this.2 h)]
        · rw [if_neg h, if_neg (fun h' => h (this.1 h')), List.append_assoc, List.length_cons,
            List.replicate_succ]
          rfl
  exact key dims []

example : run [.k, .jInterface, .i, .tile] ["y", "x"] "z" = .ok ["z", "y", "x", "z"] := by
  decide +kernel

end NDSL.ByDims
