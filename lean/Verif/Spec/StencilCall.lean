import Verif.Model.StencilCall
/-
What calling a stencil means: how arguments meet parameters, which buffers are passed, and what a comparison with another
rank or another stencil has to find.
-/
namespace NDSL.StencilCall
variable {V : Type}

/-- Python's rule: positional arguments come first, the others are given by name, nothing twice and nothing unknown. -/
structure Binds (names : List String) (args : List (Arg V)) (kwargs : Kwargs V) (params : List (Arg V)) : Prop where
  enough : args.length ≤ names.length
  length : params.length = names.length
  positional : ∀ i < args.length, params[i]? = args[i]?
  named : ∀ i n, args.length ≤ i → names[i]? = some n → params[i]? = dictGet kwargs n
  known : ∀ k ∈ kwargs, k.1 ∈ names.drop args.length

/-- What a statement reads as parameter `i`: the number, or the contents of the buffer of the array or quantity. -/
def Reads [Inhabited V] (params : List (Arg V)) (m : Mem V) (i : Nat) (v : V) : Prop :=
  match params[i]? with
  | some (.real x) => v = x
  | some (.quantity b _ _ _) => v = m.data b
  | some (.array b) => v = m.data b
  | some (.boxed b) => v = m.data b
  | none => v = default

/-- The buffer is passed. -/
def Passed (args : List (Arg V)) (b : Nat) : Prop := ∃ a ∈ args, a.buf? = some b

/-- The arrays that ranks exchange, by name. -/
def Boxed (all : List (String × Arg V)) (n : String) (b : Nat) : Prop := (n, Arg.boxed b) ∈ all

/-- Both ranks exchange arrays of the same names. -/
def SameNames (mine twin : List (String × Arg V)) : Prop := ∀ n, (∃ b, Boxed mine n b) ↔ ∃ b, Boxed twin n b

/-- Some array differs from the array of the same name of the other rank. -/
def Differ (diffs : V → V → Nat) (mine twin : List (String × Arg V)) (m mt : Mem V) : Prop :=
  ∃ n b b', Boxed mine n b ∧ Boxed twin n b' ∧ 0 < diffs (m.data b) (mt.data b')

end NDSL.StencilCall
