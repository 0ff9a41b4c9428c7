/-
Basic vocabulary shared by all models: dimension names, boundary types, exceptions.
-/
namespace NDSL

/-- Exception classes raised by the modelled code. Only the class is kept; messages are dropped. -/
inductive Err where
  | valueError
  | typeError
  | indexError
  | keyError
  | notImplemented
  | runtimeError
  deriving DecidableEq, Repr

/-- Results of modelled functions can be compared (used by concrete instances only). -/
instance {ε α : Type} [DecidableEq ε] [DecidableEq α] : DecidableEq (Except ε α)
  | .ok a, .ok b => if h : a = b then isTrue (by rw [h]) else isFalse (by simp [h])
  | .error a, .error b => if h : a = b then isTrue (by rw [h]) else isFalse (by simp [h])
  | .ok _, .error _ => isFalse (by simp)
  | .error _, .ok _ => isFalse (by simp)

/-- Dimension names, `ndsl/constants.py` 41-47 and 57 (`TILE_DIM`). Every other string is
`other name` (simplification: strings are represented by constructors). -/
inductive Dim where
  | i | iInterface | j | jInterface | k | kInterface | kSoil | tile
  | other (name : String)
  deriving DecidableEq, Repr

namespace Dim

/-- `I_DIMS`, `ndsl/constants.py` 49. -/
def isI : Dim → Bool
  | i | iInterface => true
  | _ => false

/-- `J_DIMS`, `ndsl/constants.py` 50. -/
def isJ : Dim → Bool
  | j | jInterface => true
  | _ => false

/-- `K_DIMS`, `ndsl/constants.py` 51. -/
def isK : Dim → Bool
  | k | kInterface => true
  | _ => false

/-- `HORIZONTAL_DIMS = I_DIMS + J_DIMS`, `ndsl/constants.py` 52. -/
def isHorizontal (d : Dim) : Bool := d.isI || d.isJ

/-- `INTERFACE_DIMS`, `ndsl/constants.py` 53. -/
def isInterface : Dim → Bool
  | iInterface | jInterface | kInterface => true
  | _ => false

end Dim

/-- Boundary types 0..7, `ndsl/constants.py` 59-66 (`INTERIOR` = 8 is only used by views). -/
inductive BType where
  | west | east | north | south | northwest | northeast | southwest | southeast
  deriving DecidableEq, Repr

/-- `BOUNDARY_TYPES = EDGE_BOUNDARY_TYPES + CORNER_BOUNDARY_TYPES`, `ndsl/constants.py` 68-70. -/
def BType.all : List BType :=
  [.north, .south, .west, .east, .northwest, .northeast, .southwest, .southeast]

/-- `list_by_dims`, `ndsl/utils.py` 34-49: value per dim, `horizontal_list` is `(y, x)`. -/
def listByDims {α : Type} (dims : List Dim) (horizontal : α × α) (nonHorizontal : α) : List α :=
  dims.map fun d =>
    if d.isJ then horizontal.1
    else if d.isI then horizontal.2
    else nonHorizontal

end NDSL
