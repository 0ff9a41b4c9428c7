import Verif.Spec.HaloFill
import Verif.Model.Transformer

/-
Specification of the synchronisation of wind components on cell edges.

A component is stored on the edges it is parallel to: the x component at x centres and y interfaces, the y
component at x interfaces and y centres. A point of an edge between two ranks is held by both.
-/
namespace NDSL

/-- A quantity whose first two dimensions are, in either order, the interface dimension `across` with
`m` points and the cell-centre dimension `along` with `n` points, followed by dimensions that are not
horizontal, with extents `lv`; compute domain inside the array. -/
structure EdgeField (across along : Dim) (m n : Int) (lv : List Int) (ds : List DimSpec) : Prop where
  two : ∃ a b rest, (ds = a :: b :: rest ∨ ds = b :: a :: rest) ∧ a.dim = across ∧ b.dim = along ∧
    a.extent = m ∧ b.extent = n ∧ rest.map DimSpec.extent = lv ∧
    ∀ d ∈ rest, d.dim.isHorizontal = false
  room : ∀ d ∈ ds, 0 ≤ d.origin ∧ 0 ≤ d.extent ∧ d.origin + d.extent ≤ d.shape

/-- Wind components of a rank with `ci` by `cj` cells -/
structure EdgeWind {α : Type} (ci cj : Int) (lv : List Int) (v : Qty α × Qty α) : Prop where
  x : EdgeField .jInterface .i (cj + 1) ci lv v.1.ds
  y : EdgeField .iInterface .j (ci + 1) cj lv v.2.ds

/-- the point lies on the last line of the dimension named `d` (the north edge for the y interface
dimension, the east edge for the x interface dimension) -/
def OnLast (d : Dim) (ds : List DimSpec) (g : List Int) : Prop :=
  ∃ p ∈ ds.zip g, p.1.dim = d ∧ p.2 = p.1.origin + p.1.extent - 1

/-- the interface dimension of component `c` -/
def acrossDim (c : Bool) : Dim := if c then .iInterface else .jInterface

end NDSL
