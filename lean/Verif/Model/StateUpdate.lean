import Verif.Model.Basic

/-
Model of `State.__post_init__`, `update_copy_memory` and `update_move_memory` (`ndsl/quantity/state.py` 124-135,
347-460).

What assigning an array to a quantity (`quantity.field[:] = array`, respectively the checks and
`quantity.swap_buffer(array)`) does is a parameter: the quantity afterwards or an exception. Simplifications: a
dictionary given for a quantity raises `AttributeError` (the code would set or read attributes of the quantity
object); names that are no fields of the state raise `AttributeError` (Python would also find methods).
-/
namespace NDSL.StateUpd
variable {F A : Type}

/-- exceptions -/
inductive SErr where
  | attributeError
  | typeError
  | keyError
  | valueError
  deriving DecidableEq

/-- a state object: fields in order; a field's value is a quantity or `None` -/
inductive St (F : Type) where
  | nil
  /-- name, declared optional, value -/
  | field (name : String) (optional : Bool) (value : Option F) (rest : St F)
  /-- a nested state; `none` after it was overwritten with `None` -/
  | nested (name : String) (sub : St F) (rest : St F)
  /-- a nested state overwritten with `None` (its declaration is kept) -/
  | gone (name : String) (sub : St F) (rest : St F)

/-- a memory map: name to `None`, array or dictionary, in order -/
inductive Mem (A : Type) where
  | nil
  | none (name : String) (rest : Mem A)
  | arr (name : String) (a : A) (rest : Mem A)
  | dict (name : String) (sub : Mem A) (rest : Mem A)

/-- `_flag_optional_recursive`, 125-132: the assignments `optional_quantities[name] = flag` in order -/
def St.flags : St F → List (String × Bool)
  | .nil => []
  | .field n o _ rest => (n, o) :: rest.flags
  | .nested _ sub rest => sub.flags ++ rest.flags
  | .gone _ sub rest => sub.flags ++ rest.flags

/-- `self.optional_quantities[name]`: the last assignment counts -/
def flagOf (flags : List (String × Bool)) (name : String) : Option Bool :=
  (flags.reverse.find? fun e => e.1 == name).map (·.2)

/-- `state.__getattribute__(name)` -/
inductive Attr (F : Type) where
  | missing
  | value (v : Option F)
  | nested (s : St F)
  | noneState

def St.attr : St F → String → Attr F
  | .nil, _ => .missing
  | .field n _ v rest, name => if n = name then .value v else rest.attr name
  | .nested n sub rest, name => if n = name then .nested sub else rest.attr name
  | .gone n _ rest, name => if n = name then .noneState else rest.attr name

/-- `state.__setattr__(name, None)` (an attribute that is no field is not modelled) -/
def St.setNone : St F → String → St F
  | .nil, _ => .nil
  | .field n o v rest, name => if n = name then .field n o .none rest else .field n o v (rest.setNone name)
  | .nested n sub rest, name => if n = name then .gone n sub rest else .nested n sub (rest.setNone name)
  | .gone n sub rest, name => if n = name then .gone n sub rest else .gone n sub (rest.setNone name)

/-- the quantity of a field after an assignment to it -/
def St.setVal : St F → String → F → St F
  | .nil, _, _ => .nil
  | .field n o v rest, name, f => if n = name then .field n o (some f) rest else .field n o v (rest.setVal name f)
  | .nested n sub rest, name, f => .nested n sub (if n = name then rest else rest.setVal name f)
  | .gone n sub rest, name, f => .gone n sub (if n = name then rest else rest.setVal name f)

/-- a nested state after updates in it -/
def St.setSub : St F → String → St F → St F
  | .nil, _, _ => .nil
  | .field n o v rest, name, s => .field n o v (if n = name then rest else rest.setSub name s)
  | .nested n sub rest, name, s => if n = name then .nested n s rest else .nested n sub (rest.setSub name s)
  | .gone n sub rest, name, s => .gone n sub (if n = name then rest else rest.setSub name s)

/-- the recursion of both updates, 380-402 and 437-473; `okNone`: what a `None` for a name raises; `assign`: the
quantity after an array was assigned. The state is returned also when an exception ends the update. -/
def update (okNone : String → Option SErr) (assign : F → A → Except SErr F) :
    Mem A → St F → St F × Option SErr
  | .nil, s => (s, .none)
  | .none name rest, s =>
    match okNone name with
    | some e => (s, some e)
    | .none => update okNone assign rest (s.setNone name)
  | .dict name sub rest, s =>
    match s.attr name with
    | .nested inner =>
      match update okNone assign sub inner with
      | (inner', some e) => (s.setSub name inner', some e)
      | (inner', .none) => update okNone assign rest (s.setSub name inner')
    | _ => (s, some .attributeError)
  | .arr name a rest, s =>
    match s.attr name with
    | .value (some f) =>
      match assign f a with
      | .error e => (s, some e)
      | .ok f' => update okNone assign rest (s.setVal name f')
    | _ => (s, some .attributeError)

/-- 384-391: `None` needs the flag of that name, wherever in the state the field is -/
def copyNone (flags : List (String × Bool)) (name : String) : Option SErr :=
  match flagOf flags name with
  | some true => .none
  | some false => some .typeError
  | .none => some .keyError

/-- `update_copy_memory`, 357-404 -/
def updateCopy (assign : F → A → Except SErr F) (m : Mem A) (s : St F) : St F × Option SErr :=
  update (copyNone s.flags) assign m s

/-- `update_move_memory`, 406-475: `None` is never refused -/
def updateMove (assign : F → A → Except SErr F) (m : Mem A) (s : St F) : St F × Option SErr :=
  update (fun _ => .none) assign m s

end NDSL.StateUpd
