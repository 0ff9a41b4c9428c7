import Mathlib.Algebra.Order.Field.Basic
import Verif.Model.Basic
/-
Model of `ndsl/grid/eta.py`: the hybrid pressure coefficients. Numbers are those of an ordered field:
rounding and NaN are not modelled. Arrays are lists.
-/
namespace NDSL.Eta

variable {R : Type} [Field R] [LinearOrder R]

/-- `SURFACE_PRESSURE`, 12. -/
def surfacePressure : R := 100000

/-- `ETA_0`, 11. -/
def eta0 : R := 252 / 1000

/-- `HybridPressureCoefficients`, 15-30. -/
structure Coefficients (R : Type) where
  ks : Nat
  ptop : R
  ak : List R
  bk : List R
  deriving DecidableEq

/-- `vertical_coordinate`, 100-105; `pi` is the constant. -/
def verticalCoordinate (pi eta : R) : R := (eta - eta0) * pi * (1 / 2)

/-- The first array of `compute_eta`, 113: `a[:-1]` is `dropLast`, `a[1:]` is `tail`. -/
def etaLevels (ak bk : List R) : List R :=
  (List.zipWith (· + ·)
    (List.zipWith (· + ·)
      ((List.zipWith (· + ·) ak.dropLast ak.tail).map (· / surfacePressure)) bk.dropLast)
    bk.tail).map ((1 / 2) * ·)

/-- `compute_eta`, 108-115. -/
def computeEta (pi : R) (ak bk : List R) : List R × List R :=
  (etaLevels ak bk, (etaLevels ak bk).map (verticalCoordinate pi))

/-- `np.all(e[:-1] <= e[1:])`, 86 and 88. -/
def nondecreasing (e : List R) : Bool :=
  (List.zipWith (fun x y => decide (x ≤ y)) e.dropLast e.tail).all id

/-- `np.where(bk == 0)[0]`, 92. -/
def zeros (bk : List R) : List Nat :=
  (List.range bk.length).filter (fun i => decide (bk[i]? = some 0))

/-- `_load_ak_bk_from_file`, 33-42: the file is missing or has the two arrays. -/
def loadFile : Option (List R × List R) → Except Err (List R × List R)
  | none => .error .valueError
  | some x => .ok x

/-- The choice of the data, 64-75. -/
def source (etaFile : Option (Option (List R × List R))) (akData bkData : Option (List R)) :
    Except Err (List R × List R) :=
  match akData, bkData with
  | some ak, some bk => .ok (ak, bk)
  | _, _ =>
    match etaFile with
    | none => .error .valueError
    | some f => loadFile f

/-- The checks and the result, 77-97. -/
def build (pi : R) (km : Int) (ak bk : List R) : Except Err (Coefficients R) :=
  if (ak.length : Int) - 1 ≠ km then .error .valueError
  else if (bk.length : Int) - 1 ≠ km then .error .valueError
  else if nondecreasing (computeEta pi ak bk).1 = false then .error .valueError
  else if nondecreasing (computeEta pi ak bk).2 = false then .error .valueError
  else
    match (zeros bk).getLast?, ak.head? with
    | some k, some a => .ok ⟨if km = 91 then 0 else k, a, ak, bk⟩
    | none, _ => .error .valueError
    | _, none => .error .indexError

/-- `set_hybrid_pressure_coefficients`, 45-97. -/
def setCoefficients (pi : R) (km : Int) (etaFile : Option (Option (List R × List R)))
    (akData bkData : Option (List R)) : Except Err (Coefficients R) := do
  let (ak, bk) ← source etaFile akData bkData
  build pi km ak bk

end NDSL.Eta
