import Verif.Model.ExternalGrid
import Verif.Model.Gnomonic

/-!
# The grid of corners, with its halo

`MetricTerms._init_dgrid`, `ndsl/grid/generation.py` 1704-1849: the gnomonic grid of the rank, the shift, the halo update and
the filling of the corners.  Simplifications: numbers are exact reals; the layout is square and the ranks have square blocks
of cells (`local_gnomonic_ed` wants that).
-/
namespace NDSL

/-- The corner `(a, b)` of rank `s` after the shift, 1704-1843; tile and block of the rank are those of the partitioner,
1724-1745 and 1815. -/
noncomputable def CubePart.dCorner (p : CubePart) (radius : ℝ) (c : Nat) (s a b : Int) : ℝ × ℝ :=
  match p.tileIndex s with
  | .error _ => (0, 0)
  | .ok t =>
    let (j, i) := p.tile.subtileIndex s
    Sphere.shift (Sphere.rankGrid radius p.tile.layout.1.toNat c t.toNat i.toNat j.toNat a.toNat b.toNat)

/-- `_init_dgrid`: `_grid_64` of rank `r`; the three halo points are `_halo`, 240. -/
noncomputable def CubePart.initDgrid (p : CubePart) (junk : Nat → ℝ) (radius : ℝ) (c : Nat) (nz : Int)
    (old : Int → List Int → ℝ) (r : Int) : Except Err (List (Qty ℝ)) :=
  p.completeGrid junk 3 c nz 1 (fun s a b => (p.dCorner radius c s a b).1) (fun s a b => (p.dCorner radius c s a b).2) old r

end NDSL
