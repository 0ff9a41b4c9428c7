import Verif.Model.Eta
/-
Vocabulary for C63: the pressure of each level and of the middle of each layer, for the reference
surface pressure.
-/
namespace NDSL.Eta

variable {R : Type} [Field R] [LinearOrder R]

/-- The pressure at interface `i`: `a + b p_s`. -/
def pressure (ak bk : List R) (i : Nat) : R := ak.getD i 0 + bk.getD i 0 * 100000

/-- The pressure in the middle of layer `i`. -/
def midPressure (ak bk : List R) (i : Nat) : R := (pressure ak bk i + pressure ak bk (i + 1)) / 2

/-- Coefficients for `km` layers: right sizes, pressures in the middle of the layers that do not
decrease, and a level of pure pressure. -/
structure Valid (km : Nat) (ak bk : List R) : Prop where
  sizeA : ak.length = km + 1
  sizeB : bk.length = km + 1
  mid : ∀ i, i + 1 < km → midPressure ak bk i ≤ midPressure ak bk (i + 1)
  zero : ∃ i : Nat, bk[i]? = some (0 : R)

end NDSL.Eta
