import Verif.Model.Debugger
/-
Vocabulary for C64: functions that do not call themselves, directly or through others.
-/
namespace NDSL.Dbg

/-- The names of the functions called, at any depth. -/
def Calls.names : Calls → List Name
  | .done => []
  | .call n _ inner rest => n :: (inner.names ++ rest.names)

/-- No function is called while it is running. -/
def Calls.NotRecursive : Calls → Prop
  | .done => True
  | .call n _ inner rest => n ∉ inner.names ∧ inner.NotRecursive ∧ rest.NotRecursive

/-- The parameters given, at any depth. -/
def Calls.params : Calls → List Name
  | .done => []
  | .call _ ps inner rest => ps ++ (inner.params ++ rest.params)

/-- A file as a record of what its name says. -/
inductive Entry
  | save (step : Nat) (name : Name) (count : Nat) (isIn : Bool)
  | track (count : Nat) (param source : Name) (isIn : Bool)

/-- The outputs of a function. -/
def Entry.isOut : Entry → Bool
  | .save _ _ _ io => !io
  | .track _ _ _ _ => false

/-- The outputs of the function `n`. -/
def Entry.isOutOf (n : Name) : Entry → Bool
  | .save _ m _ io => !io && m == n
  | .track _ _ _ _ => false

/-- The files of the parameter `p`. -/
def Entry.isTrackOf (p : Name) : Entry → Bool
  | .save _ _ _ _ => false
  | .track _ q _ _ => q == p

/-- The numbers in the name say how many outputs were saved before, of any function and of this one;
or how often the parameter was saved before. -/
def Entry.NumberedAfter (before : List Entry) : Entry → Prop
  | .save step n count _ => step = before.countP Entry.isOut ∧ count = before.countP (Entry.isOutOf n)
  | .track count p _ _ => count = before.countP (Entry.isTrackOf p)

end NDSL.Dbg
