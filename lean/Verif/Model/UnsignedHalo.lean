import Verif.Model.HaloUpdate

/-!
# Lengths and coefficients exchanged as vectors, without their signs

`ndsl/grid/generation.py`: `_compute_dxdy_cube_sphere` 1902-1909, `_compute_dxdy_agrid_cube_sphere` 1983-1990,
`_compute_dxdy_center_cube_sphere` 2072-2077 and `_calculate_divg_del6` 3072-3080.
-/
namespace NDSL

variable {α : Type} [Inhabited α]

/-- `q[q[:] < 0] *= -1`, generation.py 1908-1909, 1989-1990, 2076-2077, 3077-3080.  For floats, the product with
minus one is the negation. -/
def Qty.unsigned [Neg α] [Zero α] [LT α] [DecidableRel (α := α) (· < ·)] (q : Qty α) : Qty α :=
  { q with data := { q.data with get := fun g => if q.data.get g < 0 then - q.data.get g else q.data.get g } }

/-- The vector halo update followed by taking the signs away from both components, on the cubed sphere. -/
def CubePart.unsignedHaloUpdate [Neg α] [Zero α] [LT α] [DecidableRel (α := α) (· < ·)] (p : CubePart) (junk : Nat → α) (n : Int)
    (st : Int → List (Qty α × Qty α)) (r : Int) : Except Err (List (Qty α × Qty α)) := do
  let out ← p.vectorHaloUpdate junk n st r
  return out.map fun v => (v.1.unsigned, v.2.unsigned)

end NDSL
