import Verif.Model.StateTransfer
/-
Model of the namelist helpers of `ndsl/utils.py` 128-228. A namelist is an ordered list of entries,
each a setting or a group, which is a namelist again (a Fortran group, or a derived type inside a
group). Names are taken as they are; f90nml makes them lower case.
-/
namespace NDSL.Nml

/-- `f90nml.Namelist`: entries in order. -/
inductive Namelist (V : Type) where
  | nil
  | setting (name : String) (value : V) (rest : Namelist V)
  | group (name : String) (entries : Namelist V) (rest : Namelist V)
  deriving DecidableEq

/-- `flatter_namelist` after one entry, 139-149: a group of settings, or a setting. -/
def mergeEntry {V : Type} (acc : List (String × V)) :
    String × (V ⊕ List (String × V)) → Except Err (List (String × V))
  | (_, .inr sub) => sub.foldlM (fun acc (k, v) =>
      if (dictGet acc k).isSome then .error .valueError else .ok (dictSet acc k v)) acc
  | (key, .inl value) => .ok (dictSet acc key value)

/-- The loop of 139-149. -/
def merge {V : Type} (l : List (String × (V ⊕ List (String × V)))) :
    Except Err (List (String × V)) := l.foldlM mergeEntry []

/-- The loop of 134-137: the groups are flattened. -/
def level {V : Type} : Namelist V → Except Err (List (String × (V ⊕ List (String × V))))
  | .nil => .ok []
  | .setting n v rest => do
    let r ← level rest
    return (n, .inl v) :: r
  | .group n sub rest => do
    let s ← level sub
    let d ← merge s
    let r ← level rest
    return (n, .inr d) :: r

/-- `flatten_nml_to_dict`, 128-150. -/
def flatten {V : Type} (nml : Namelist V) : Except Err (List (String × V)) := do
  let l ← level nml
  merge l

/-- The group of a name, if there is one at the top: `nml[group]`. -/
def Namelist.find {V : Type} : Namelist V → String → Option (V ⊕ Namelist V)
  | .nil, _ => none
  | .setting n v rest, k => if n = k then some (.inl v) else rest.find k
  | .group n sub rest, k => if n = k then some (.inr sub) else rest.find k

/-- `extracted_groups[group] = value`, appended when new, replaced otherwise. -/
def Namelist.put {V : Type} : Namelist V → String → V ⊕ Namelist V → Namelist V
  | .nil, k, .inl v => .setting k v .nil
  | .nil, k, .inr sub => .group k sub .nil
  | .setting n v rest, k, x =>
    if n = k then (match x with | .inl w => .setting k w rest | .inr sub => .group k sub rest)
    else .setting n v (rest.put k x)
  | .group n s rest, k, x =>
    if n = k then (match x with | .inl w => .setting k w rest | .inr sub => .group k sub rest)
    else .group n s (rest.put k x)

/-- One round of the loop of 206-208. -/
def selectStep {V : Type} (nml acc : Namelist V) (g : String) : Namelist V :=
  match nml.find g with
  | some x => acc.put g x
  | none => acc

/-- The groups kept by `f90nml_as_dict`, 204-210. -/
def select {V : Type} (nml : Namelist V) : Option (List String) → Namelist V
  | none => nml
  | some groups => groups.foldl (selectStep nml) .nil

/-- `f90nml_as_dict` with `flatten=True`, 180-214. -/
def asDict {V : Type} (nml : Namelist V) (targetGroups : Option (List String)) :
    Except Err (List (String × V)) := flatten (select nml targetGroups)

end NDSL.Nml
