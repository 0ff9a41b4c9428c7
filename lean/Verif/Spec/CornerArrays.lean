import Verif.Model.CornerArrays
import Verif.Spec.CornerStencils

/-! Specification of the corner fills on a rank that may have some of the corners of the tile. -/
namespace NDSL.Corner

open Indexing

/-- The compute domain of the rank. -/
def gridExt (g : GridIndexing) : Ext :=
  ⟨g.nHalo, g.nHalo + g.domain.1 - 1, g.nHalo, g.nHalo + g.domain.2.1 - 1⟩

/-- Whether the rank is at the given corner of the tile. -/
def hasCorner (g : GridIndexing) (east north : Bool) : Bool :=
  (if east then g.eastEdge else g.westEdge) && (if north then g.northEdge else g.southEdge)

/-- `new` is `old` with the halo corners (of width `h`) at corners of the tile filled from `src`,
on the levels `lev`. -/
def FilledAt {K : Type} (g : GridIndexing) (lev : Nat → Bool) (dir : Direction)
    (st st' : Stagger) (h : Nat) (f : Bool → Bool → K → K) (src old new : Storage K) : Prop :=
  (∀ east north p p', hasCorner g east north = true →
    InCorner (gridExt g) st h h east north p →
    IsSource (gridExt g) dir st st' east north p p' → ∀ k, lev k = true →
    new p.1 p.2 k = f east north (src p'.1 p'.2 k)) ∧
  (∀ p k, (∀ east north, hasCorner g east north = true →
      ¬ InCorner (gridExt g) st h h east north p) ∨ lev k = false →
    new p.1 p.2 k = old p.1 p.2 k)

end NDSL.Corner
