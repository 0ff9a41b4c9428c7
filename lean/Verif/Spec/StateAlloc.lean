import Verif.Model.StateAlloc
/-
Specification: fields of classes and objects by path.
-/
namespace NDSL.Alloc

/-- The field at a path, if it and the nested states around it are initialised. -/
def fieldAt : Cls → List String → Option (Kind × Meta)
  | _, [] => none
  | .nil, _ => none
  | .leaf n i m k rest, x :: p => if x = n then (if p = [] ∧ i = true then some (k, m) else none) else fieldAt rest (x :: p)
  | .nested n i _ sub rest, x :: p => if x = n then (if i = true then fieldAt sub p else none) else fieldAt rest (x :: p)

/-- The field at a path, initialised or not. -/
def declaredAt : Cls → List String → Option Kind
  | _, [] => none
  | .nil, _ => none
  | .leaf n _ _ k rest, x :: p => if x = n then (if p = [] then some k else none) else declaredAt rest (x :: p)
  | .nested n _ _ sub rest, x :: p => if x = n then declaredAt sub p else declaredAt rest (x :: p)

/-- All fields are initialised. -/
def AllInit : Cls → Prop
  | .nil => True
  | .leaf _ i _ _ rest => i = true ∧ AllInit rest
  | .nested _ i _ sub rest => i = true ∧ AllInit sub ∧ AllInit rest

/-- Some initialised nested state is a `LocalState`. -/
def HasGuarded : Cls → Prop
  | .nil => False
  | .leaf _ _ _ _ rest => HasGuarded rest
  | .nested _ i g sub rest => (i = true ∧ (g = true ∨ HasGuarded sub)) ∨ HasGuarded rest

/-- All nested states are `LocalState`s. -/
def AllGuarded : Cls → Prop
  | .nil => True
  | .leaf _ _ _ _ rest => AllGuarded rest
  | .nested _ _ g sub rest => g = true ∧ AllGuarded sub ∧ AllGuarded rest

def names : Cls → List String
  | .nil => []
  | .leaf n _ _ _ rest => n :: names rest
  | .nested n _ _ _ rest => n :: names rest

/-- The fields of a Python class have different names. -/
def Distinct : Cls → Prop
  | .nil => True
  | .leaf n _ _ _ rest => n ∉ names rest ∧ Distinct rest
  | .nested n _ _ sub rest => n ∉ names rest ∧ Distinct sub ∧ Distinct rest

/-- The quantity at a path of an object. -/
def quantityAt : Obj → List String → Option Q
  | _, [] => none
  | .nil, _ => none
  | .leaf n q rest, x :: p => if x = n then (if p = [] then some q else none) else quantityAt rest (x :: p)
  | .nested n _ sub rest, x :: p => if x = n then quantityAt sub p else quantityAt rest (x :: p)

/-- A quantity as declared. -/
def AsDeclared (size : List String → Except AErr (List Nat)) (m : Meta) (isLocal : Bool) (content : Content) (q : Q) : Prop :=
  m.dims = some q.dims ∧ m.units = some q.units ∧ m.dtype = some q.dtype ∧ size q.dims = .ok q.shape ∧
    q.isLocal = isLocal ∧ q.content = content

/-- A field can be allocated: it is a quantity, optional or not, or a local; dimensions, units and dtype are given, and
the factory knows the dimensions. -/
def Allocatable (size : List String → Except AErr (List Nat)) (k : Kind) (m : Meta) : Prop :=
  k ≠ .other ∧ ∃ d u t s, m = ⟨some d, some u, some t⟩ ∧ size d = .ok s

end NDSL.Alloc
