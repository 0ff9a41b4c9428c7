import Verif.Model.Decomposition
import Mathlib.Data.List.Forall2

/-
Vocabulary for the decomposition properties C02-C05: which indices a tuple of slices selects.
-/
namespace NDSL

/-- Index `g` lies in the slice. -/
def Slice.Has (s : Slice) (g : Int) : Prop := s.start ≤ g ∧ g < s.stop

instance (s : Slice) (g : Int) : Decidable (s.Has g) := inferInstanceAs (Decidable (_ ∧ _))

/-- Multi-index `g` is selected by the tuple of slices. -/
def Selects (s : List Slice) (g : List Int) : Prop := List.Forall₂ Slice.Has s g

/-- Multi-index `g` is an index of an array of the given extent. -/
def InExtent (extent g : List Int) : Prop := List.Forall₂ (fun n x => 0 ≤ x ∧ x < n) extent g

/-- A dims list with at most one x and at most one y dimension, and no tile dimension. -/
structure TileDims (dims : List Dim) : Prop where
  oneJ : (dims.filter Dim.isJ).length ≤ 1
  oneI : (dims.filter Dim.isI).length ≤ 1
  noTile : Dim.tile ∉ dims

/-- Extents are valid for the dims: one per dim, not negative, at least 1 for interface dims
(an interface dimension always has its closing line). -/
def ValidExtents (dims : List Dim) (extent : List Int) : Prop :=
  List.Forall₂ (fun d n => 0 ≤ n ∧ (d.isInterface = true → 1 ≤ n)) dims extent

end NDSL
