import Verif.Spec.Directions
import Verif.Spec.Decomposition
import Verif.Model.BoundarySlice

/-
Vocabulary for the halo properties: compute domain, array, halo ring. Positions are multi-indices,
one entry per dimension of the quantity.
-/
namespace NDSL

/-- component of a boundary direction along a dimension: -1 (start), 0 or 1 (end) -/
def BType.along (b : BType) (d : Dim) : Int :=
  if d.isI then b.dir.1 else if d.isJ then b.dir.2 else 0

/-- inside the compute domain -/
def InCompute (ds : List DimSpec) (g : List Int) : Prop :=
  List.Forall₂ (fun d x => d.origin ≤ x ∧ x < d.origin + d.extent) ds g

/-- inside the array -/
def InArray (ds : List DimSpec) (g : List Int) : Prop :=
  List.Forall₂ (fun d x => 0 ≤ x ∧ x < d.shape) ds g

/-- inside the compute domain widened by `n` points on all sides of the horizontal dimensions -/
def InWidened (n : Int) (ds : List DimSpec) (g : List Int) : Prop :=
  List.Forall₂ (fun d x =>
    let w := if d.dim.isHorizontal then n else 0
    d.origin - w ≤ x ∧ x < d.origin + d.extent + w) ds g

/-- the boundary direction points along some dimension of the quantity -/
def Aligned (b : BType) (ds : List DimSpec) : Prop := ∃ d ∈ ds, b.along d.dim ≠ 0

/-- length of a slice -/
def Slice.len (s : Slice) : Int := s.stop - s.start

/-- the points shared by the rank and its neighbour: the line of an interface dimension on the side
of the boundary -/
def OnSharedLine (b : BType) (d : DimSpec) (x : Int) : Prop :=
  d.dim.isInterface = true ∧
    ((b.along d.dim = -1 ∧ x = d.origin) ∨ (b.along d.dim = 1 ∧ x = d.origin + d.extent - 1))

/-- one x and one y dimension -/
structure HasXY (dims : List Dim) : Prop where
  oneJ : (dims.filter Dim.isJ).length = 1
  oneI : (dims.filter Dim.isI).length = 1

end NDSL
