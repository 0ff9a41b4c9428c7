import Verif.Model.DGrid
import Verif.Model.UnsignedHalo

/-!
# The lengths of cell edges, with their halo

`MetricTerms._compute_dxdy_cube_sphere`, `ndsl/grid/generation.py` 1874-1909, from the grid of corners of `_init_dgrid`.
Simplifications: exact reals; the filling of the corners afterwards, 1910-1915, is not part of it.
-/
namespace NDSL

/-- The dimensions of `dx_64` and `dy_64`, 1875-1880 and 1889-1894. -/
def edgeSpecs (h c : Int) : List DimSpec × List DimSpec :=
  ([⟨.i, h, c, c + 1 + 2 * h⟩, ⟨.jInterface, h, c + 1, c + 1 + 2 * h⟩],
   [⟨.iInterface, h, c + 1, c + 1 + 2 * h⟩, ⟨.j, h, c, c + 1 + 2 * h⟩])

/-- An array of zeros with its view set: `dx_64.view[:, :] = ...`, 1882-1888 and 1895-1901. -/
def edgeView {K : Type} [Zero K] (h ni nj c : Int) (ds : List DimSpec) (x : Int → Int → K) : Qty K where
  ds := ds
  data := {
    shape := [c + 1 + 2 * h, c + 1 + 2 * h]
    get := fun g => match g with
      | [a, b] => if h ≤ a ∧ a < h + ni ∧ h ≤ b ∧ b < h + nj then x (a - h) (b - h) else 0
      | _ => 0 }

/-- `great_circle_distance_along_axis`, `ndsl/grid/gnomonic.py` 342-361, of two neighbours. -/
noncomputable def lonLatDist (radius : ℝ) (p q : ℝ × ℝ) : ℝ := Sphere.distLonLat p.1 q.1 p.2 q.2 radius

/-- `dx_64` and `dy_64` of rank `s` before the exchange. -/
noncomputable def CubePart.edgePair (p : CubePart) (radius : ℝ) (c : Nat) (s : Int) : Qty ℝ × Qty ℝ :=
  (edgeView 3 c (c + 1) c (edgeSpecs 3 c).1 fun a b => lonLatDist radius (p.dCorner radius c s a b) (p.dCorner radius c s (a + 1) b),
   edgeView 3 (c + 1) c c (edgeSpecs 3 c).2 fun a b => lonLatDist radius (p.dCorner radius c s a b) (p.dCorner radius c s a (b + 1)))

/-- `_compute_dxdy_cube_sphere` up to the removal of the signs: `dx_64` and `dy_64` of rank `r`. -/
noncomputable def CubePart.edgeLengths (p : CubePart) (junk : Nat → ℝ) (radius : ℝ) (c : Nat) (r : Int) :
    Except Err (List (Qty ℝ × Qty ℝ)) :=
  p.unsignedHaloUpdate junk 3 (fun s => [p.edgePair radius c s]) r

end NDSL
