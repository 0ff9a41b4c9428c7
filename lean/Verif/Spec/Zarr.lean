import Verif.Model.Zarr
import Verif.Spec.Decomposition
/-
Vocabulary for C59, from the documentation of the monitor: which points of a tile belong to which rank.
A tile is a grid of ranks of equal size; `e d` is the extent of a rank along dimension `d`. Along a
dimension of interfaces the last line of a rank is the first of the next; it belongs to the next, the
last line of the tile to the last rank.
-/
namespace NDSL.Zarr

/-- Cells of a rank along a dimension. -/
def cellsOf (d : Dim) (n : Int) : Int := if d.isInterface = true then n - 1 else n

/-- Position of a rank, and number of ranks, along a horizontal dimension. -/
def along (jx : Int × Int) (d : Dim) : Int := if d.isJ = true then jx.1 else jx.2

/-- Index in the tile of the first point of a rank at position `pos` in the tile. -/
def origin (e : Dim → Int) (pos : Int × Int) (d : Dim) : Int :=
  if d.isHorizontal = true then along pos d * cellsOf d (e d) else 0

/-- The rank at position `pos` of a tile with `layout` ranks has point `x` along dimension `d`. -/
def OwnsDim (e : Dim → Int) (layout pos : Int × Int) (d : Dim) (x : Int) : Prop :=
  if d.isHorizontal = true then
    origin e pos d ≤ x ∧ (x < origin e pos d + cellsOf d (e d) ∨
      (d.isInterface = true ∧ along pos d = along layout d - 1 ∧
        x = origin e pos d + cellsOf d (e d)))
  else 0 ≤ x ∧ x < e d

/-- The rank at position `pos` has the point `g` of the tile. -/
def Owns (e : Dim → Int) (layout pos : Int × Int) (dims : List Dim) (g : List Int) : Prop :=
  List.Forall₂ (OwnsDim e layout pos) dims g

/-- Index in the rank of the point `g` of the tile. -/
def localIndex (e : Dim → Int) (pos : Int × Int) (dims : List Dim) (g : List Int) : List Int :=
  (dims.zip g).map fun (d, x) => x - origin e pos d

/-- Extents of a tile. -/
def tileShape (e : Dim → Int) (layout : Int × Int) (dims : List Dim) : List Int :=
  dims.map fun d =>
    let w := if d.isHorizontal = true then cellsOf d (e d) * along layout d else cellsOf d (e d)
    if d.isInterface = true then w + 1 else w

/-- The ranks. -/
def IsRank (p : CubePart) (r : Int) : Prop := 0 ≤ r ∧ r < p.totalRanks

/-- A field given by all ranks: the dimensions are those of `dims`, in some order, the extents those
of `e`, the units `u`. -/
structure Fits {V : Type} (p : CubePart) (dims : List Dim) (e : Dim → Int) (u : String)
    (q : Int → Fld V) : Prop where
  dims_eq : ∀ r, IsRank p r → ∀ d, d ∈ (q r).dims ↔ d ∈ dims
  extent_eq : ∀ r, IsRank p r → (q r).extent = (q r).dims.map e
  units_eq : ∀ r, IsRank p r → (q r).units = u

/-- Extents of a rank: at least one cell along the horizontal dimensions, and the closing line of
an interface dimension. -/
def GoodExtents (dims : List Dim) (e : Dim → Int) : Prop :=
  ∀ d ∈ dims, (d.isHorizontal = true → 1 ≤ cellsOf d (e d)) ∧ 0 ≤ cellsOf d (e d)

end NDSL.Zarr
