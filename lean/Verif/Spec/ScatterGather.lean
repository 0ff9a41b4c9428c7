import Verif.Model.ScatterGather
import Verif.Spec.Decomposition
import Verif.Spec.NDArray

/-
Vocabulary for scatter and gather (C29-C31).
-/
namespace NDSL
variable {α : Type}

/-- value of a quantity at an index relative to its compute domain -/
def WQty.val (q : WQty α) (g : List Int) : α := q.data.get (List.zipWith (· + ·) q.origin g)

/-- one origin and one extent per dimension -/
def WQty.WellFormed (q : WQty α) : Prop :=
  q.origin.length = q.dims.length ∧ q.extent.length = q.dims.length

/-- the index of the tile (or of the cube, with a leading tile number) at which a rank's local index `i`
lies, for a rank holding the given slices -/
def place (lead : List Int) (sl : List Slice) (i : List Int) : List Int :=
  lead ++ List.zipWith (fun s k => s.start + k) sl i

/-- lengths of slices -/
def widths (sl : List Slice) : List Int := sl.map fun s => s.stop - s.start

/-- the floating point computations divide evenly divisible tiles evenly (true for the default ratio 1) -/
def EvenFloats (fl : FloatOps) : Prop :=
  ∀ c w, 3 ≤ c → 1 ≤ w → fl.startSize (c * w) c = w ∧ fl.interior w (c * w) c = w

/-- every rank has at least one cell along each horizontal dimension -/
def HasCells (dims : List Dim) (ext : List Int) : Prop :=
  List.Forall₂ (fun d n => d.isHorizontal = true → if d.isInterface then 2 ≤ n else 1 ≤ n) dims ext

end NDSL
