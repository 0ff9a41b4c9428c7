import Verif.Model.Basic
/-
Model of `list_by_dims`, `ndsl/utils.py` 34-49, for a list of horizontal values of any length (the
one of `Verif.Model.Basic` is for two values).
-/
namespace NDSL.ByDims

/-- `horizontal_list[i]` for a literal `i` that is not negative. -/
def item {α : Type} (l : List α) (i : Nat) : Except Err α :=
  match l[i]? with
  | some x => .ok x
  | none => .error .indexError

/-- One pass of the loop, 42-48. -/
def valueFor {α : Type} (horizontal : List α) (nonHorizontal : α) (d : Dim) : Except Err α :=
  if d.isJ then item horizontal 0
  else if d.isI then item horizontal 1
  else .ok nonHorizontal

/-- The loop of 41-49. -/
def loop {α : Type} (horizontal : List α) (nonHorizontal : α) :
    List Dim → List α → Except Err (List α)
  | [], out => .ok out
  | d :: dims, out => do
    let x ← valueFor horizontal nonHorizontal d
    loop horizontal nonHorizontal dims (out ++ [x])

/-- `list_by_dims`, 34-49. -/
def run {α : Type} (dims : List Dim) (horizontal : List α) (nonHorizontal : α) :
    Except Err (List α) := loop horizontal nonHorizontal dims []

end NDSL.ByDims
