import Verif.Model.StorageData
/-
Model of the rest of the storage helpers in `ndsl/dsl/gt4py_utils.py`: `make_storage_from_shape` (307-351), `storage_dict`
(384-386), `reshape` (478-491) and `split_cartesian_into_storages` (520-533).

Simplifications: as in `StorageData.lean`; data types, backends and devices are left out, and a storage is what gt4py is
given.
-/
namespace NDSL.StorageShape

open NDSL.Storage

variable {V : Type}

/-- The mask if none is given, 334-343. -/
def shapeMask (shape : List Nat) : Except Err (List Bool) :=
  if shape.length = 1 then .ok [false, false, true]
  else if shape.length = 2 then .ok [true, true, false]
  else if shape.length < 3 then .error .notImplemented
  else .ok (List.replicate shape.length true)

/-- `make_storage_from_shape`, 307-351. -/
def fromShape (z : V) (shape : List Nat) (origin : List Nat := [3, 3, 0]) (mask : Option (List Bool) := none) :
    Except Err (Made V) := do
  let m ← match mask with
    | none => shapeMask shape
    | some m => .ok m
  let al ← translateOrigin origin m
  let dims ← maskToDims m shape
  return ⟨zeros z shape, al, dims⟩

/-- `storage_dict`, 384-386: the dictionary is changed in place, name by name; what was set before an error stays. -/
def storageDict (z : V) (shape origin : List Nat) : List String → List (String × Made V) → List (String × Made V) × Option Err
  | [], d => (d, none)
  | name :: names, d =>
    match fromShape z shape origin with
    | .ok s => storageDict z shape origin names (dictSet d name s)
    | .error e => (d, some e)

/-- `reshape`, 478-491. -/
def reshapeTo (a : Nd V) (new : List Nat) : Except Err (Nd V) :=
  if a.shape ≠ new then
    if a.shape.length < new.length then
      if a.shape.length = 2 then do
        let n2 ← fromOpt .indexError new[2]?
        return repeatAxis (newaxis a 2) n2 2
      else if a.shape.length = 0 then .error .indexError
      else do
        let n1 ← fromOpt .indexError new[1]?
        let b := repeatAxis (newaxis a 1) n1 1
        let n2 ← fromOpt .indexError new[2]?
        return repeatAxis (newaxis b 2) n2 2
    else reshape a new
  else .ok a

/-- `var[:, :, c]` -/
def third (a : Nd V) (c : Nat) : Except Err (Nd V) :=
  match a.shape[2]? with
  | none => .error .indexError
  | some n => if c < n then .ok ⟨a.shape.eraseIdx 2, fun idx => a.get (idx.take 2 ++ c :: idx.drop 2)⟩ else .error .indexError

/-- `split_cartesian_into_storages`, 520-533. -/
def splitCartesian (a : Nd V) : Except Err (List (Nd V)) := (List.range 3).mapM (third a)

end NDSL.StorageShape
