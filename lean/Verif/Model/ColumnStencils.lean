import Mathlib.Algebra.Field.Defs
import Mathlib.Order.Defs.LinearOrder

/-
Model of the column stencils `ndsl/stencils/tridiag.py` and `ndsl/stencils/column_operations.py`
and of the elementary stencils of `ndsl/stencils/basic_operations.py`.

Numbers: exact arithmetic in an arbitrary field (simplification: no rounding). A field is a
function of the two horizontal indices and the level. A stencil runs on the points of its
horizontal domain `dom` and on `nk` levels.
-/
namespace NDSL.Column

variable {K : Type}

/-- Three- and two-dimensional fields. -/
abbrev F3 (K : Type) := Int → Int → Nat → K
abbrev F2 (K : Type) := Int → Int → K

/-- `with computation(FORWARD)`: levels upwards; `step k` executes the statements of the
interval that contains level `k` on the whole horizontal domain. -/
def forward {S : Type} (nk : Nat) (step : Nat → S → S) (s : S) : S :=
  (List.range nk).foldl (fun s k => step k s) s

/-- `with computation(BACKWARD)`: levels downwards. -/
def backward {S : Type} (nk : Nat) (step : Nat → S → S) (s : S) : S :=
  (List.range nk).reverse.foldl (fun s k => step k s) s

/-- An assignment `f = value` at level `k`, on the points that satisfy `on`. -/
def assign (on : Int → Int → Bool) (f : F3 K) (k : Nat) (value : F2 K) : F3 K :=
  fun i j l => if l = k ∧ on i j = true then value i j else f i j l

section Tridiag
variable [Field K]

/-- The two fields written by the solver. -/
structure TState (K : Type) where
  x : F3 K
  delta : F3 K

/-- Forward sweep of `tridiag_solve`, `ndsl/stencils/tridiag.py` 42-49: intervals `(0, 1)` and
`(1, None)`. -/
def forwardStep (on : Int → Int → Bool) (a b c d : F3 K) (k : Nat) (s : TState K) : TState K :=
  if k = 0 then
    let x' := assign on s.x 0 (fun i j => c i j 0 / b i j 0)
    let δ' := assign on s.delta 0 (fun i j => d i j 0 / b i j 0)
    ⟨x', δ'⟩
  else
    let x' := assign on s.x k
      (fun i j => c i j k / (b i j k - a i j k * s.x i j (k - 1)))
    let δ' := assign on s.delta k
      (fun i j => (d i j k - a i j k * s.delta i j (k - 1)) / (b i j k - a i j k * x' i j (k - 1)))
    ⟨x', δ'⟩

/-- Reverse sweep, 50-54: intervals `(-1, None)` and `(0, -1)`. -/
def backwardStep (on : Int → Int → Bool) (nk : Nat) (k : Nat) (s : TState K) : TState K :=
  if k = nk - 1 then ⟨assign on s.x k (fun i j => s.delta i j k), s.delta⟩
  else ⟨assign on s.x k (fun i j => s.delta i j k - s.x i j k * s.x i j (k + 1)), s.delta⟩

/-- `tridiag_solve`, `ndsl/stencils/tridiag.py` 6-54, on the horizontal domain `dom`. -/
def tridiagSolve (dom : Int → Int → Bool) (nk : Nat) (a b c d : F3 K) (s : TState K) : TState K :=
  backward nk (backwardStep dom nk) (forward nk (forwardStep dom a b c d) s)

/-- `masked_tridiag_solve`, 57-95: every statement under `if mask`. -/
def maskedTridiagSolve (dom : Int → Int → Bool) (mask : F2 Bool) (nk : Nat) (a b c d : F3 K)
    (s : TState K) : TState K :=
  let on := fun i j => dom i j && mask i j
  backward nk (backwardStep on nk) (forward nk (forwardStep on a b c d) s)

end Tridiag

section Extrema

/-- The loop `while level <= end_index` of `column_max`, `ndsl/stencils/column_operations.py`
20-28; `better value best` is `value > max_value`. `fuel` is the number of levels left (the loop
runs `end_index - level + 1` times). State: best value, its index, current level. -/
def extremeLoop (better : K → K → Bool) (field : Int → K) : Nat → K × Int × Int → K × Int × Int
  | 0, s => s
  | n + 1, (best, bestIndex, level) =>
    let value := field level
    extremeLoop better field n
      (if better value best then (value, level, level + 1) else (best, bestIndex, level + 1))

/-- `column_max`/`column_min` (and the `_ddim` versions, where `field` is the slice at that data
index), `ndsl/stencils/column_operations.py` 8-109. -/
def columnExtreme (better : K → K → Bool) (field : Int → K) (startIndex endIndex : Int) : K × Int :=
  let r := extremeLoop better field (endIndex - startIndex + 1).toNat
    (field startIndex, startIndex, startIndex)
  (r.1, r.2.1)

/-- `column_max`, 8-30. -/
def columnMax [LT K] [DecidableLT K] (field : Int → K) (s e : Int) : K × Int :=
  columnExtreme (fun v b => decide (v > b)) field s e
/-- `column_min`, 57-79. -/
def columnMin [LT K] [DecidableLT K] (field : Int → K) (s e : Int) : K × Int :=
  columnExtreme (fun v b => decide (v < b)) field s e
/-- `column_max_ddim`, 33-54. -/
def columnMaxDdim [LT K] [DecidableLT K] (field : Int → Nat → K) (ddim : Nat) (s e : Int) :
    K × Int :=
  columnExtreme (fun v b => decide (v > b)) (fun k => field k ddim) s e
/-- `column_min_ddim`, 82-103. -/
def columnMinDdim [LT K] [DecidableLT K] (field : Int → Nat → K) (ddim : Nat) (s e : Int) :
    K × Int :=
  columnExtreme (fun v b => decide (v < b)) (fun k => field k ddim) s e

end Extrema

section Basic

/-- `select_k`, `ndsl/stencils/basic_operations.py` 88-110: a FORWARD computation over all
levels that writes the two-dimensional output where the mask equals the selected index. -/
def selectK (dom : Int → Int → Bool) (nk : Nat) (inField : F3 K) (kMask : F3 Int) (kSelect : F2 Int)
    (out : F2 K) : F2 K :=
  forward nk (fun k o i j =>
    if dom i j && kMask i j k == kSelect i j then inField i j k else o i j) out

/-- A PARALLEL computation over all levels that assigns `value i j k` to `q_out`; instances:
`copy` (16-25), `adjustmentfactor_stencil` (28-39), `set_value` (42-51),
`adjust_divide_stencil` (74-85), `average_in` (113-126). -/
def parallelAssign (dom : Int → Int → Bool) (nk : Nat) (q : F3 K) (value : F3 K) : F3 K :=
  fun i j k => if dom i j = true ∧ k < nk then value i j k else q i j k

def copyStencil (dom : Int → Int → Bool) (nk : Nat) (qIn qOut : F3 K) : F3 K :=
  parallelAssign dom nk qOut qIn

def adjustmentFactor [Field K] (dom : Int → Int → Bool) (nk : Nat) (adj : F2 K) (q : F3 K) : F3 K :=
  parallelAssign dom nk q (fun i j k => q i j k * adj i j)

def setValue (dom : Int → Int → Bool) (nk : Nat) (q : F3 K) (v : K) : F3 K :=
  parallelAssign dom nk q (fun _ _ _ => v)

def adjustDivide [Field K] (dom : Int → Int → Bool) (nk : Nat) (adj q : F3 K) : F3 K :=
  parallelAssign dom nk q (fun i j k => q i j k / adj i j k)

/-- `average_in`; `0.5` is `1 / 2`. -/
def averageIn [Field K] (dom : Int → Int → Bool) (nk : Nat) (q adj : F3 K) : F3 K :=
  parallelAssign dom nk q (fun i j k => (q i j k + adj i j k) * (1 / 2))

/-- `sign`, 129-141: the sign of `b` is positive only for `b > 0`. -/
def signFn [Field K] [LinearOrder K] (a b : K) : K :=
  let m := max a (-a)
  if b > 0 then m else -m

/-- `dim`, 144-150. -/
def dimFn [Field K] [LinearOrder K] (a b : K) : K := max (a - b) 0

end Basic

end NDSL.Column
