import Verif.Model.CleanTree
/-
C109: cleaning up schedule trees and running passes.
-/
namespace NDSL.CleanTree
variable {M : Type}

/-! ### Specification -/

/-- A tree without its boundaries, everywhere. -/
def bare : Nodes M → Nodes M
  | .nil => .nil
  | .boundary rest => bare rest
  | .stmt s rest => .stmt s (bare rest)
  | .scope k body rest => .scope k (bare body) (bare rest)

/-- The number of boundaries, everywhere. -/
def boundaries : Nodes M → Nat
  | .nil => 0
  | .boundary rest => 1 + boundaries rest
  | .stmt _ rest => boundaries rest
  | .scope _ body rest => boundaries body + boundaries rest

/-- No boundary is the child of the list itself (`top`) or of a loop, map or `if` anywhere below. -/
def Clean (top : Bool) : Nodes M → Prop
  | .nil => True
  | .boundary rest => top = false ∧ Clean top rest
  | .stmt _ rest => Clean top rest
  | .scope k body rest =>
    Clean (match k with | .whileS _ | .forS .. | .mapS _ | .ifS _ => true | _ => false) body ∧ Clean top rest

/-- There is no `elif`, `else` or other scope than loops, maps and `if`. -/
def Plain : Nodes M → Prop
  | .nil => True
  | .boundary rest => Plain rest
  | .stmt _ rest => Plain rest
  | .scope k body rest =>
    (match k with | .whileS _ | .forS .. | .mapS _ | .ifS _ => True | _ => False) ∧ Plain body ∧ Plain rest

/-! ### Theorems -/

theorem exec_bare (bind : List String → List Int → M → M) (σ : List (List Int) → List (List Int)) (n : Nat) (t : Nodes M) :
    exec bind σ n (bare t) = exec bind σ n t := by
  induction t with
  | nil => rfl
  | boundary rest ih =>
    funext tk m
    show exec bind σ n (bare rest) tk m = exec bind σ n rest tk m
    rw [ih]
  | stmt s rest ih => funext tk m; simp only [bare, exec, ih]
  | scope k body rest ihb ihr =>
    funext tk m
    cases k <;> simp only [bare, exec, ihb, ihr]

theorem bare_visit (drop : Bool) (t : Nodes M) : bare (visit drop t) = bare t := by
  induction t generalizing drop with
  | nil => rfl
  | boundary rest ih => cases drop <;> simp [visit, bare, ih]
  | stmt s rest ih => simp [visit, bare, ih]
  | scope k body rest ihb ihr => simp [visit, bare, ihb, ihr]

/-- Cleaning up removes boundaries only: every other node stays, in its order. -/
theorem C109_nodes (t : Nodes M) : bare (clean t) = bare t := bare_visit true t

/-- Cleaning up does not change what a program does, whether it ends or not: for all ways to bind variables and orders of the
points of maps, every number of iterations allowed to loops gives the same outcome. -/
theorem C109_same (bind : List String → List Int → M → M) (σ : List (List Int) → List (List Int)) (n : Nat) (t : Nodes M)
    (taken : Bool) (m : M) : exec bind σ n (clean t) taken m = exec bind σ n t taken m := by
  rw [← exec_bare bind σ n (clean t), C109_nodes, exec_bare]

theorem visit_clean (drop : Bool) (t : Nodes M) : Clean drop (visit drop t) := by
  induction t generalizing drop with
  | nil => trivial
  | boundary rest ih => cases drop <;> simp [visit, Clean, ih]
  | stmt s rest ih => simp [visit, Clean, ih]
  | scope k body rest ihb ihr =>
    refine ⟨?_, ihr drop⟩
    have := ihb k.visited
    cases k <;> exact this

/-- No boundary is left at the top or directly in a loop, map or `if`, at any depth. -/
theorem C109_clean (t : Nodes M) : Clean true (clean t) := visit_clean true t

theorem plain_visit (t : Nodes M) (h : Plain t) : visit true t = bare t := by
  induction t with
  | nil => rfl
  | boundary rest ih => simpa [visit, bare] using ih h
  | stmt s rest ih => simpa [visit, bare] using ih h
  | scope k body rest ihb ihr =>
    obtain ⟨hk, hb, hr⟩ := h
    cases k <;> first | exact hk.elim | simp [visit, bare, Kind.visited, ihb hb, ihr hr]

theorem boundaries_bare (t : Nodes M) : boundaries (bare t) = 0 := by
  induction t with
  | nil => rfl
  | boundary rest ih => exact ih
  | stmt s rest ih => exact ih
  | scope k body rest ihb ihr => simp [bare, boundaries, ihb, ihr]

/-- In trees of loops, maps and `if` no boundary is left at all. -/
theorem C109_all (t : Nodes M) (h : Plain t) : boundaries (clean t) = 0 := by
  rw [show clean t = bare t from plain_visit t h, boundaries_bare]

example : Plain (.scope (.mapS ⟨["__i"], [⟨0, 3, 1⟩]⟩) (.boundary (.stmt (fun (m : Nat) => m + 1) .nil)) (.boundary .nil)) ∧
    boundaries (.scope (.mapS ⟨["__i"], [⟨0, 3, 1⟩]⟩) (.boundary (.stmt (fun (m : Nat) => m + 1) .nil)) (.boundary .nil)) = 2 := by
  refine ⟨⟨trivial, trivial, trivial⟩, rfl⟩

theorem removed_visit (drop : Bool) (t : Nodes M) : removed drop t + boundaries (visit drop t) = boundaries t := by
  induction t generalizing drop with
  | nil => rfl
  | boundary rest ih =>
    have := ih drop
    cases drop
    · simp only [removed, visit, boundaries]; simp only [Bool.false_eq_true, if_false, boundaries]; omega
    · simp only [removed, visit, boundaries]; simp only [if_true]; omega
  | stmt s rest ih => exact ih drop
  | scope k body rest ihb ihr =>
    have h1 := ihb k.visited
    have h2 := ihr drop
    simp only [removed, visit, boundaries]
    omega

/-- The number of boundaries reported is the number of those that are gone. -/
theorem C109_count (t : Nodes M) : removed true t = boundaries t - boundaries (clean t) := by
  have := removed_visit true t
  unfold clean
  omega

/-- Cleaning up twice is cleaning up once. -/
theorem C109_twice (t : Nodes M) : clean (clean t) = clean t := by
  unfold clean
  suffices ∀ drop, visit drop (visit drop t) = visit drop t from this true
  intro drop
  induction t generalizing drop with
  | nil => rfl
  | boundary rest ih => cases drop <;> simp [visit, ih]
  | stmt s rest ih => simp [visit, ih]
  | scope k body rest ihb ihr => simp [visit, ihb, ihr]

/-- The code violates: no boundary is left. Those directly in an `else` (or `elif`) stay. -/
theorem C109_else_violated : ∃ t : Nodes Unit, boundaries (clean t) = 1 ∧ boundaries t = 1 :=
  ⟨.scope (.ifS fun _ => true) .nil (.scope .elseS (.boundary (.stmt id .nil)) .nil), rfl, rfl⟩

/-! ### Passes -/

/-- The tree after the passes is the last pass applied to … the first applied to the tree, whether or not trees are written. -/
theorem C109_passes {T : Type} (verbose : Bool) (i : Nat) (ps : List (String × (T → T))) (t : T) :
    (runPasses verbose i ps t).1 = ps.foldl (fun t p => p.2 t) t := by
  induction ps generalizing i t with
  | nil => rfl
  | cons p ps ih => exact ih (i + 1) (p.2 t)

/-- What is written: for the pass at each position, one file with that number and name and the tree after this pass. -/
theorem C109_written {T : Type} (ps : List (String × (T → T))) (t : T) :
    (runPasses true 0 ps t).2.length = ps.length ∧
    ∀ (i : Nat) (p : String × (T → T)), ps[i]? = some p →
      (runPasses true 0 ps t).2[i]? = some (i, p.1, (ps.take (i + 1)).foldl (fun t p => p.2 t) t) := by
  suffices ∀ n t, (runPasses true n ps t).2.length = ps.length ∧ ∀ (i : Nat) (p : String × (T → T)), ps[i]? = some p →
      (runPasses true n ps t).2[i]? = some (n + i, p.1, (ps.take (i + 1)).foldl (fun t p => p.2 t) t) by
    simpa using this 0 t
  intro n t
  induction ps generalizing n t with
  | nil => exact ⟨rfl, fun i p h => by simp at h⟩
  | cons q ps ih =>
    obtain ⟨h1, h2⟩ := ih (n + 1) (q.2 t)
    refine ⟨by simp [runPasses, h1], fun i p h => ?_⟩
    cases i with
    | zero =>
      simp at h
      subst h
      simp [runPasses]
    | succ i =>
      have := h2 i p (by simpa using h)
      simp only [runPasses, if_true, List.getElem?_cons_succ, List.take_succ_cons, List.foldl_cons]
      rw [this]
      simp only [Option.some.injEq, Prod.mk.injEq, and_true]
      omega

/-- Passes that keep the meaning of every tree with a property, and the property, keep it together. -/
theorem C109_meaning {T D : Type} (meaning : T → D) (Good : T → Prop) (verbose : Bool) (ps : List (String × (T → T))) (t : T)
    (h : ∀ p ∈ ps, ∀ t, Good t → Good (p.2 t) ∧ meaning (p.2 t) = meaning t) (ht : Good t) :
    Good (runPasses verbose 0 ps t).1 ∧ meaning (runPasses verbose 0 ps t).1 = meaning t := by
  rw [C109_passes]
  induction ps generalizing t with
  | nil => exact ⟨ht, rfl⟩
  | cons p ps ih =>
    obtain ⟨h1, h2⟩ := h p (by simp) t ht
    obtain ⟨h3, h4⟩ := ih (p.2 t) (fun q hq => h q (by simp [hq])) h1
    exact ⟨h3, h4.trans h2⟩

/-- The axes of a loop order from its name, outermost first. -/
def axisOf : Char → Option Axis
  | 'I' => some .i
  | 'J' => some .j
  | 'K' => some .k
  | _ => none

/-- The optimiser cleans up, merges loops along the three axes, from the outermost to the innermost of the loop order, and
then reduces temporaries. -/
theorem C109_order (o : Backend.LoopOrder) (ps : List Pass) (h : passes o = .ok ps) :
    ∃ axes, o.value.mapM axisOf = some axes ∧ ps = [.cleanUp] ++ axes.map .merge ++ [.refine] := by
  cases o <;> simp [passes] at h <;> subst h <;> exact ⟨_, rfl, rfl⟩

example : passes .kij = .ok [.cleanUp, .merge .k, .merge .i, .merge .j, .refine] := rfl

theorem mk_order (registry : List Char → Option Bool) (name : List Char) (b : Backend.Backend)
    (h : Backend.mk registry name = .ok b) : (Backend.naming.any fun e => e.1 == name) = true ∧
    ∃ p3, (Backend.split ':' name)[3]? = some p3 ∧
      Backend.enumOf [Backend.LoopOrder.ijk, .ikj, .jki, .jik, .kij, .kji] Backend.LoopOrder.value (Backend.upper p3) = .ok b.loopOrder := by
  unfold Backend.mk at h
  by_cases hn : (Backend.naming.any fun e => e.1 == name) = true
  · refine ⟨hn, ?_⟩
    rw [if_neg (not_not_intro hn)] at h
    split at h
    · rename_i p0 p1 p2 p3 hs
      refine ⟨p3, by rw [hs]; rfl, ?_⟩
      simp only [bind, Except.bind] at h
      split at h
      · cases h
      split at h
      · cases h
      split at h
      · cases h
      split at h
      · cases h
      rename_i lo hlo
      split at h
      · cases h
      split at h
      · cases h
      split at h
      · cases h
      cases h
      exact hlo
    · cases h
  · rw [if_pos hn] at h
    cases h

/-- Every backend that can be constructed has an optimiser. -/
theorem C109_backends (registry : List Char → Option Bool) (name : List Char) (b : Backend.Backend)
    (h : Backend.mk registry name = .ok b) : ∃ ps, passes b.loopOrder = .ok ps := by
  obtain ⟨hn, p3, h3, h4⟩ := mk_order registry name b h
  have key : ∀ e ∈ Backend.naming, ∀ p3, (Backend.split ':' e.1)[3]? = some p3 →
      ∃ o ps, Backend.enumOf [Backend.LoopOrder.ijk, .ikj, .jki, .jik, .kij, .kji] Backend.LoopOrder.value (Backend.upper p3) =
        .ok o ∧ passes o = .ok ps := by
    intro e he p3 hp
    simp only [Backend.naming, List.mem_cons, List.not_mem_nil, or_false] at he
    rcases he with rfl | rfl | rfl | rfl | rfl | rfl | rfl | rfl | rfl | rfl | rfl | rfl | rfl <;>
    · first
      | (have hp3 : some ['I', 'J', 'K'] = some p3 := hp
         injection hp3 with hp3; subst hp3; exact ⟨_, _, rfl, rfl⟩)
      | (have hp3 : some ['K', 'J', 'I'] = some p3 := hp
         injection hp3 with hp3; subst hp3; exact ⟨_, _, rfl, rfl⟩)
      | (have hp3 : some ['K', 'I', 'J'] = some p3 := hp
         injection hp3 with hp3; subst hp3; exact ⟨_, _, rfl, rfl⟩)
  rw [List.any_eq_true] at hn
  obtain ⟨e, he, hen⟩ := hn
  have hen : e.1 = name := by simpa using hen
  subst hen
  obtain ⟨o, ps, h5, h6⟩ := key e he p3 h3
  rw [h5] at h4
  injection h4 with h4
  exact ⟨ps, by rw [← h4]; exact h6⟩

example : ∃ b, Backend.mk (fun _ => some false) "orch:dace:cpu:KIJ".toList = .ok b ∧ b.loopOrder = .kij := by
  refine ⟨⟨"orch:dace:cpu:KIJ".toList, .orchestration, .dace, .cpu, .kij⟩, ?_, rfl⟩
  decide +kernel

/-! ### Fixed sizes -/

/-- Every map has, along each of its parameters, the range from 0 up to and including the number given for the axis. -/
def Sized (size : String → Option Int) : Nodes M → Prop
  | .nil => True
  | .boundary rest => Sized size rest
  | .stmt _ rest => Sized size rest
  | .scope k body rest => (match k with | .mapS mp => newRanges size mp.params = .ok mp.ranges | _ => True) ∧
      Sized size body ∧ Sized size rest

/-- A program that counts the iterations of a map along the first axis. -/
def counter (r : Rng) : Nodes Nat := .scope (.mapS ⟨["__i"], [r]⟩) (.stmt (· + 1) .nil) .nil

/-- A tree whose maps already have these ranges is left as it is. -/
theorem C109_specialize (size : String → Option Int) (t : Nodes M) (h : Sized size t) : specialize size t = .ok t := by
  induction t with
  | nil => rfl
  | boundary rest ih => simp [specialize, ih h, Except.map]
  | stmt s rest ih => simp [specialize, ih h, Except.map]
  | scope k body rest ihb ihr =>
    obtain ⟨hk, hb, hr⟩ := h
    cases k <;> simp only [specialize, ihb hb, ihr hr]
    simp only [hk]

/-- Every map of the result, at any depth, has these ranges. -/
theorem C109_specialized (size : String → Option Int) (t t' : Nodes M) (h : specialize size t = .ok t') : Sized size t' := by
  induction t generalizing t' with
  | nil => simp only [specialize] at h; injection h with h; subst h; trivial
  | boundary rest ih =>
    simp only [specialize] at h
    cases hr : specialize size rest with
    | error e => rw [hr] at h; cases h
    | ok r => rw [hr] at h; injection h with h; subst h; exact ih r hr
  | stmt s rest ih =>
    simp only [specialize] at h
    cases hr : specialize size rest with
    | error e => rw [hr] at h; cases h
    | ok r => rw [hr] at h; injection h with h; subst h; exact ih r hr
  | scope k body rest ihb ihr =>
    cases hb : specialize size body with
    | error e =>
      cases k <;> simp only [specialize, hb] at h <;> (try cases h)
      rename_i mp
      cases hn : newRanges size mp.params <;> simp only [hn] at h <;> cases h
    | ok b =>
      cases hr : specialize size rest with
      | error e =>
        cases k <;> simp only [specialize, hb, hr] at h <;> (try cases h)
        rename_i mp
        cases hn : newRanges size mp.params <;> simp only [hn] at h <;> cases h
      | ok r =>
        have vb := ihb b hb
        have vr := ihr r hr
        cases k <;> simp only [specialize, hb, hr] at h
        case mapS mp =>
          cases hn : newRanges size mp.params with
          | error e => simp only [hn] at h; cases h
          | ok rs =>
            simp only [hn] at h
            injection h with h
            subst h
            exact ⟨hn, vb, vr⟩
        all_goals
          injection h with h
          subst h
          exact ⟨trivial, vb, vr⟩

theorem iters_zero (n : Nat) : (Rng.mk 0 n 1).iters = (List.range (n + 1)).map fun (i : Nat) => (i : Int) := by
  unfold Rng.iters
  have : (((n : Int) - 0) / 1 + 1).toNat = n + 1 := by omega
  simp only [this]
  exact List.map_congr_left fun a _ => by omega

/-- The range a map gets along an axis of size `n` has the points 0, …, `n`. -/
theorem C109_points (size : String → Option Int) (n : Nat) (p key : String)
    (h : p = "__i" ∧ key = "__I" ∨ p = "__j" ∧ key = "__J" ∨ p ≠ "__i" ∧ p ≠ "__j" ∧ p.startsWith "__k" = true ∧ key = "__K")
    (hs : size key = some (n : Int)) :
    ∃ r, newRanges size [p] = .ok [r] ∧ ∀ x, x ∈ r.iters ↔ 0 ≤ x ∧ x ≤ n := by
  have hm : ∀ x, x ∈ (Rng.mk 0 n 1).iters ↔ 0 ≤ x ∧ x ≤ n := by
    intro x
    rw [iters_zero]
    simp only [List.mem_map, List.mem_range]
    constructor
    · rintro ⟨a, ha, rfl⟩; omega
    · intro hx; exact ⟨x.toNat, by omega, by omega⟩
  refine ⟨⟨0, n, 1⟩, ?_, hm⟩
  rcases h with ⟨rfl, rfl⟩ | ⟨rfl, rfl⟩ | ⟨h1, h2, h3, rfl⟩
  · simp [newRanges, hs, Except.map]
  · simp [newRanges, hs, Except.map]
  · simp [newRanges, hs, Except.map, h1, h2, h3]

example : "__k_3" ≠ "__i" ∧ "__k_3" ≠ "__j" ∧ "__k_3".startsWith "__k" = true := by
  refine ⟨by decide, by decide, by decide +kernel⟩

example : Sized (M := Nat) (fun _ => some 4) (counter ⟨0, 4, 1⟩) := by
  refine ⟨?_, trivial, trivial⟩
  simp [newRanges, Except.map]

theorem runOrder_count (params : List String) (l : List (List Int)) (m : Nat) :
    runOrder (fun m => some (m + 1)) (fun _ _ m => m) params l m = some (m + l.length) := by
  induction l generalizing m with
  | nil => rfl
  | cons x xs ih =>
    simp only [runOrder, Option.bind_some, ih, List.length_cons]
    congr 1
    omega

theorem product_one (l : List Int) : product [l] = l.map ([·]) := by
  induction l with
  | nil => rfl
  | cons x xs ih => rw [List.map_cons, ← ih]; rfl

/-- The code violates: putting the sizes in place does not change what a program does. A map over the `n + 1` cells 0, …, `n`
of an axis of that size runs once more. -/
theorem C109_specialize_violated (n : Nat) (σ : List (List Int) → List (List Int)) (hσ : ∀ l, (σ l).length = l.length) :
    exec (fun _ _ m => m) σ 0 (counter ⟨0, n, 1⟩) false 0 = some (n + 1) ∧
    ∃ t, specialize (fun _ => some ((n : Int) + 1)) (counter ⟨0, n, 1⟩) = .ok t ∧
      exec (fun _ _ m => m) σ 0 t false 0 = some (n + 2) := by
  have hc : ∀ k : Nat, exec (fun _ _ m => m) σ 0 (counter ⟨0, k, 1⟩) false 0 = some (k + 1) := by
    intro k
    have hp : (Map.points ⟨["__i"], [⟨0, k, 1⟩]⟩).length = k + 1 := by
      show (product [(Rng.mk 0 k 1).iters]).length = k + 1
      rw [product_one, iters_zero]
      simp
    have : exec (M := Nat) (fun _ _ m => m) σ 0 (.stmt (· + 1) .nil) false = fun m => some (m + 1) := by
      funext m; rfl
    simp only [counter, exec, this]
    rw [runOrder_count, hσ, hp]
    simp
  refine ⟨hc n, counter ⟨0, (n + 1 : Nat), 1⟩, ?_, hc (n + 1)⟩
  simp [specialize, newRanges, counter, Except.map]

example : (∀ l : List (List Int), (List.reverse l).length = l.length) := by simp

/-- The code violates: a map keeps one range for each parameter. Ranges of other parameters are dropped. -/
theorem C109_params_violated : ∃ rs, newRanges (fun _ => some 4) ["__i", "tracer"] = .ok rs ∧ rs.length = 1 := by
  have : "tracer".startsWith "__k" = false := by decide +kernel
  exact ⟨[⟨0, 4, 1⟩], by simp [newRanges, Except.map, this], rfl⟩

end NDSL.CleanTree
