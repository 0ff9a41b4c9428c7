import Verif.Model.Temporaries
/-
Model of the program that compares two NetCDF files with similar data, `main` of
`ndsl/stencils/testing/best_guess_diff.py` (41-179).

Arrays have a shape and values. What is subtracted and how the distance of two values is counted in units of rounding
(`np.divide(np.abs(a - b), np.spacing(max))`) are functions given from outside. `flatten` tells whether arrays have a
method of this name: NumPy's have, the `DataArray`s of xarray that the program uses have not.

Simplifications: the dimensions of A and B are called alike and have no coordinates (xarray goes by names when it subtracts).
Names in A are names in `A.items()`. Printing is left out. Sizes are natural numbers, the size of the halo any integer.
-/
namespace NDSL.BestGuess

/-- Exceptions that may end the program. -/
inductive Fault where
  | index | key | value | attribute
  deriving DecidableEq

structure Arr (V : Type) where
  shape : List Nat
  get : List Nat → V

variable {V W U : Type}

/-- `data[0, 0, ::]` of data with five dimensions or more, 72-81. -/
def lead (a : Arr V) : Except Fault (Arr V) :=
  if 5 ≤ a.shape.length then
    match a.shape with
    | m :: n :: s => if m = 0 ∨ n = 0 then .error .index else .ok ⟨s, fun p => a.get (0 :: 0 :: p)⟩
    | _ => .error .index
  else .ok a

/-- What is found about one horizontal dimension, 90-112 and 119-138: `none` when the sizes cannot be reconciled, else whether
A, and whether B, has a halo. -/
def resolve (h : Int) (a b : Nat) : Option (Bool × Bool) :=
  if a ≠ b then
    if a < b then
      if (b : Int) - 2 * h ≠ a then none else some (false, true)
    else
      if (a : Int) - 2 * h ≠ b then none else some (true, false)
  else some (false, false)

/-- The size of `[h:-h]` of `n` points, for a positive `h`. -/
def inner (h n : Nat) : Nat := n - h - h

/-- `data[halo:-halo, halo:-halo, ::]`, 154-157; used only for a positive halo. -/
def clip (h : Int) (a : Arr V) : Arr V :=
  ⟨match a.shape with
    | i :: j :: s => inner h.toNat i :: inner h.toNat j :: s
    | s => s,
   fun p => match p with
    | i :: j :: p => a.get ((i + h.toNat) :: (j + h.toNat) :: p)
    | p => a.get p⟩

/-- One variable, from 71 to 157 and the subtraction in 160: what is compared with what, or `none` for `continue`. -/
def reconcile (h : Int) (dataA dataB : Arr V) : Except Fault (Option (Arr V × Arr V)) := do
  let a ← lead dataA
  let b ← lead dataB
  if a.shape.length ≠ b.shape.length then return none
  match a.shape, b.shape with
  | ai :: arest, bi :: brest =>
    match resolve h ai bi with
    | none => return none
    | some (haloA, haloB) =>
      match arest, brest with
      | aj :: arest, bj :: brest =>
        match resolve h aj bj with
        | none => return none
        | some _ =>
          match arest, brest with
          | ak :: _, bk :: _ =>
            if ak ≠ bk then return none
            let a := if haloA then clip h a else a
            let b := if haloB then clip h b else b
            if a.shape = b.shape then return some (a, b) else .error .value
          | _, _ => .error .index
      | _, _ => .error .index
  | _, _ => .error .index

/-- What is saved under a name. -/
inductive Saved (W U : Type) where
  | diff (d : Arr W)
  | ulps (l : List U)

/-- The name in B, 57-69. -/
def nameInB (B : List (String × Arr V)) (names : List (String × String)) (n : String) : Option String :=
  if B.any fun e => e.1 == n then some n else dictGet names n

def set (d : String → Option (Saved W U)) (n : String) (s : Saved W U) : String → Option (Saved W U) :=
  fun m => if m = n then some s else d m

/-- `main`, 41-179: what is written to the file. -/
def main (flatten : Bool) (sub : V → V → W) (ulp : V → V → U) (le : U → U → Bool) (B : List (String × Arr V))
    (names : List (String × String)) (h : Int) :
    List (String × Arr V) → (String → Option (Saved W U)) → Except Fault (String → Option (Saved W U))
  | [], d => .ok d
  | (n, dataA) :: A, d =>
    match nameInB B names n with
    | none => main flatten sub ulp le B names h A d
    | some m => match dictGet B m with
      | none => .error .key
      | some dataB => match reconcile h dataA dataB with
        | .error e => .error e
        | .ok none => main flatten sub ulp le B names h A d
        | .ok (some (a, b)) =>
          let d := set d n (.diff ⟨a.shape, fun p => sub (a.get p) (b.get p)⟩)
          if !flatten then .error .attribute
          else
            let l := (Temporaries.indices a.shape).map fun p => ulp (a.get p) (b.get p)
            main flatten sub ulp le B names h A (set d ("ulp_" ++ n) (.ulps (l.mergeSort le)))

end NDSL.BestGuess
