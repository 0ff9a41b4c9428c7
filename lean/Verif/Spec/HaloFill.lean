import Verif.Spec.Cube
import Verif.Spec.Halo

/-
Independent specification of what a halo update has to deliver.

On the cube, a tile is a square sheet of half side `L` (doubled coordinates, `Spec/Cube`); the halo of
a tile is the sheet continued beyond its edges and bent over the edge onto the adjacent face. Beyond
the corners of the tile there is no surface to continue onto.
-/
namespace NDSL

/-- The point of the cube surface on which the point `(u, v)` of the continued sheet of tile `t` lies:
inside the tile its own position, beyond one edge the sheet bent by a right angle, beyond two edges
nothing. -/
def fold (L t u v : Int) : Option V3 :=
  let f := frame t
  if (u > L ∨ u < -L) ∧ (v > L ∨ v < -L) then none
  else if u > L then some ((f.ex.smul L).add ((f.nrm.smul (L - (u - L))).add (f.ey.smul v)))
  else if u < -L then some ((f.ex.smul (-L)).add ((f.nrm.smul (L - (-u - L))).add (f.ey.smul v)))
  else if v > L then some ((f.ey.smul L).add ((f.nrm.smul (L - (v - L))).add (f.ex.smul u)))
  else if v < -L then some ((f.ey.smul (-L)).add ((f.nrm.smul (L - (-v - L))).add (f.ex.smul u)))
  else some (onCube L t u v)

/-- The directions in space of the two grid axes of tile `t` at the point `(u, v)` of its continued
sheet: the axis across an edge is bent along with the sheet. -/
def foldAxes (L t u v : Int) : V3 × V3 :=
  let f := frame t
  if u > L then (f.nrm.neg, f.ey)
  else if u < -L then (f.nrm, f.ey)
  else if v > L then (f.ex, f.nrm.neg)
  else if v < -L then (f.ex, f.nrm)
  else (f.ex, f.ey)

/-- sanity: a folded point lies on the surface of the cube when it is at most one tile away -/
example : fold 4 0 5 1 = some ⟨3, 4, 1⟩ ∧ onCube 4 1 (-3) 1 = ⟨3, 4, 1⟩ := by decide
example : fold 4 0 5 5 = none := by decide

/-- A one-dimensional decomposition of `L` cells over `n` ranks: rank `i` owns the cells
`off i ≤ x < off (i + 1)`. Read backwards it is the same decomposition (edge ranks may be larger or
smaller than interior ones, as in `Spec/Decomposition`). -/
structure Axis (n L : Int) (off : Int → Int) : Prop where
  zero : off 0 = 0
  mirror : ∀ i, 0 ≤ i → i ≤ n → off (n - i) = L - off i
  mono : ∀ i, 0 ≤ i → i < n → off i ≤ off (i + 1)

/-- half-cell shift of a dimension: 0 for cell centres, 1 for interfaces -/
def DimSpec.stag (d : DimSpec) : Int := if d.dim.isInterface then 1 else 0

/-- Doubled coordinate of a point of an array along the x dimension, relative to the centre of a tile
of `L` cells, on a rank whose first cell is cell `lo` of the tile: cell centres are at odd distances
from cell edges. -/
def coordI (L lo : Int) (ds : List DimSpec) (g : List Int) : Int :=
  match (ds.zip g).find? fun p => p.1.dim.isI with
  | some (d, x) => 2 * (lo + (x - d.origin)) + 1 - d.stag - L
  | none => 0

/-- the same along the y dimension -/
def coordJ (L lo : Int) (ds : List DimSpec) (g : List Int) : Int :=
  match (ds.zip g).find? fun p => p.1.dim.isJ with
  | some (d, x) => 2 * (lo + (x - d.origin)) + 1 - d.stag - L
  | none => 0

/-- position along all other dimensions, relative to the compute domain -/
def levels (ds : List DimSpec) (g : List Int) : List Int :=
  ((ds.zip g).filter fun p => !p.1.dim.isHorizontal).map fun p => p.2 - p.1.origin

/-- sanity: points of a `(k, j_interface, i)` array with 3 halo points, on a rank whose first cell is
cell 4 in x and cell 8 in y of a tile of 12 cells -/
example : coordI 12 4 [⟨.k, 0, 5, 6⟩, ⟨.jInterface, 3, 5, 12⟩, ⟨.i, 3, 4, 11⟩] [2, 3, 3] = -3 ∧
    coordJ 12 8 [⟨.k, 0, 5, 6⟩, ⟨.jInterface, 3, 5, 12⟩, ⟨.i, 3, 4, 11⟩] [2, 7, 3] = 12 ∧
    levels [⟨.k, 0, 5, 6⟩, ⟨.jInterface, 3, 5, 12⟩, ⟨.i, 3, 4, 11⟩] [2, 3, 3] = [2] := by decide

/-- A quantity of a rank that owns `ci` by `cj` cells: one x and one y dimension with as many points as
cells (one more on interfaces), and an array with room for `h` halo points. -/
structure HaloField (h ci cj : Int) (ds : List DimSpec) : Prop where
  xy : HasXY (ds.map DimSpec.dim)
  extI : ∀ d ∈ ds, d.dim.isI = true → d.extent = ci + d.stag
  extJ : ∀ d ∈ ds, d.dim.isJ = true → d.extent = cj + d.stag
  ext : ∀ d ∈ ds, 0 ≤ d.extent
  room : ∀ d ∈ ds, (if d.dim.isHorizontal then h else 0) ≤ d.origin ∧
    d.origin + d.extent + (if d.dim.isHorizontal then h else 0) ≤ d.shape

/-- The same field on two ranks: the same dimensions, and the same number of levels. -/
structure SameField (ds ds' : List DimSpec) : Prop where
  dims : ds.map DimSpec.dim = ds'.map DimSpec.dim
  levels : List.Forall₂ (fun d d' => d.dim.isHorizontal = false → d.extent = d'.extent) ds ds'

/-- a component of a vector: `false` is x, `true` is y -/
def part {β : Type} (c : Bool) (v : β × β) : β := if c then v.2 else v.1

/-- The dimensions of the two components of a horizontal vector field: the same axes in the same order
and the same levels; the x component is on interfaces in x (in y) exactly if the y component is on
interfaces in y (in x), as for winds on the cell edges or at the cell centres. -/
structure VectorPair (dx dy : List DimSpec) : Prop where
  axes : List.Forall₂ (fun d d' => d.dim.isI = d'.dim.isI ∧ d.dim.isJ = d'.dim.isJ ∧
    (d.dim.isHorizontal = false → d.extent = d'.extent)) dx dy
  along : ∀ d ∈ dx, ∀ d' ∈ dy, d.dim.isI = true → d'.dim.isJ = true → d.stag = d'.stag
  across : ∀ d ∈ dx, ∀ d' ∈ dy, d.dim.isJ = true → d'.dim.isI = true → d.stag = d'.stag

end NDSL
