import Verif.Spec.Gnomonic
/-
Specification vocabulary for the conversion of winds: the middle of a cell, the directions of the grid in
the middle, the directions east and north, and vectors with given components.
-/
namespace NDSL.Sphere
open Real

def add (p q : V3) : V3 := ⟨p.x + q.x, p.y + q.y, p.z + q.z⟩

/-- The sum of the corners; its direction is the middle of the cell. -/
def mid4 (sw se nw ne : V3) : V3 := add (add sw nw) (add se ne)

/-- The direction of the grid's first axis in the middle of a cell: towards the middle of the side
between `se` and `ne`. -/
noncomputable def eastward (sw se nw ne : V3) : V3 := unit (tangent (unit (mid4 sw se nw ne)) (add se ne))

/-- The direction of the grid's second axis in the middle of a cell: towards the middle of the side
between `nw` and `ne`. -/
noncomputable def northward (sw se nw ne : V3) : V3 := unit (tangent (unit (mid4 sw se nw ne)) (add nw ne))

/-- The true directions east and north at a place: the derivatives of `point` by longitude (with unit
length) and by latitude. -/
noncomputable def trueEast (lon : ℝ) : V3 := ⟨-sin lon, cos lon, 0⟩
noncomputable def trueNorth (lon lat : ℝ) : V3 := ⟨-(sin lat * cos lon), -(sin lat * sin lon), cos lat⟩

/-- `W` is horizontal at `c` and its components along the directions `p` and `q` are `U` and `V`. -/
def IsWind (c p q : V3) (U V : ℝ) (W : V3) : Prop := dot W c = 0 ∧ dot W p = U ∧ dot W q = V

/-- The mean of two values, with weights. -/
noncomputable def weighted (a wa b wb : ℝ) : ℝ := (a * wa + b * wb) / (wa + wb)

/-- The value in the middle of four equidistant points of the cubic through the given values
(`C80_cubic` shows that it is). -/
noncomputable def cubicMiddle (a b c d : ℝ) : ℝ := (9 * (b + c) - (a + d)) / 16

/-- The index within `start .. start + n - 1` of the point at index `i`, when the domain is repeated. -/
def around (start n i : Int) : Int := start + (i - start) % n

end NDSL.Sphere
