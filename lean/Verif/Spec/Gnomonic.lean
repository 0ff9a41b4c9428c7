import Verif.Spec.Sphere
import Verif.Spec.Directions
/-
Specification vocabulary for the cubed-sphere grid: the inscribed cube, and the spacing of grid lines.
-/
namespace NDSL.Sphere
open Real

/-- Half the edge of the cube inscribed in the unit sphere. -/
noncomputable def half : ℝ := 1 / sqrt 3

/-- The point with face coordinates `x`, `y` (between `-half` and `half`) on each of the six faces of
the cube.  Tiles are numbered from 0. -/
noncomputable def face : Nat → ℝ → ℝ → V3
  | 0, x, y => ⟨half, x, y⟩
  | 1, x, y => ⟨-x, half, y⟩
  | 2, x, y => ⟨-x, -y, half⟩
  | 3, x, y => ⟨-half, -y, -x⟩
  | 4, x, y => ⟨y, -half, -x⟩
  | _, x, y => ⟨y, x, -half⟩

/-- The direction of a vector. -/
noncomputable def unit (p : V3) : V3 := ⟨p.x / len p, p.y / len p, p.z / len p⟩

/-- The face coordinate of grid line `k` of `n`: lines cut the edges of the cube's faces, projected on
the sphere, at equal distances.  (The edge of a face is an arc of half-length `arcsin half`.) -/
noncomputable def line (n : Nat) (k : Nat) : ℝ :=
  sqrt 2 * half * tan (arcsin half * (2 * k / n - 1))

/-- A turn about the axis of the poles, westwards by `a`. -/
noncomputable def turnWest (a : ℝ) (p : V3) : V3 :=
  ⟨cos a * p.x + sin a * p.y, -sin a * p.x + cos a * p.y, p.z⟩

/-- The corner numbered `k` of a side of a square of `w` by `w` cells, walking around the square
counter-clockwise: its index in both directions.  (On diagonals, the corner of the square.) -/
def sideCorner (w : Nat) : BType → Nat → Nat × Nat
  | .east, k => (w, k)
  | .north, k => (w - k, w)
  | .west, k => (0, w - k)
  | .south, k => (k, 0)
  | .northeast, _ => (w, w)
  | .northwest, _ => (0, w)
  | .southwest, _ => (0, 0)
  | .southeast, _ => (w, 0)

end NDSL.Sphere
