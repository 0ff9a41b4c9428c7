import Verif.Model.StateTransfer
import Verif.Model.NetCDF
/-
Model of `ndsl/restart/_legacy_restart.py`: the names of the restart files and how their variables
become the entries of a state. A file is the list of its variables, with distinct names; of a variable
the dimension names, the units and the data (opaque) are kept. Reading, `isel(Time=0)` and the
scatter are not modelled here.
-/
namespace NDSL.Restart

/-- One entry of `RESTART_PROPERTIES`. -/
structure Props where
  dims : List Dim
  restartName : String
  units : String
  deriving DecidableEq

/-- A variable of a file. -/
structure Var (D : Type) where
  dims : List Dim
  units : Option String
  data : D
  deriving DecidableEq

/-- `_get_restart_standard_names`, 169-177. -/
def standardNames (props : List (String × Props)) : List (String × String) :=
  props.foldl (fun d (std, p) => dictSet d p.restartName std) []

/-- First loop of `map_keys`, 134-136. -/
def mapKnown {V : Type} (old : List (String × V)) (m : List (String × String)) :
    List (String × V) :=
  m.foldl (fun new (oldKey, newKey) =>
    match dictGet old oldKey with
    | some v => dictSet new newKey v
    | none => new) []

/-- `map_keys`, 132-139. The set difference of 137 is taken in the order of the file; in Python the
order, which only affects the order of the result, is arbitrary. -/
def mapKeys {V : Type} (old : List (String × V)) (m : List (String × String)) :
    List (String × V) :=
  old.foldl (fun new (k, v) =>
    if (dictGet m k).isSome then new else dictSet new k v) (mapKnown old m)

/-- `DataArray.rename` for one dimension. -/
def renameDim (pairs : List (Dim × Dim)) (d : Dim) : Dim :=
  match pairs.find? (fun p => p.1 = d) with
  | some p => p.2
  | none => d

/-- `_apply_dims`, 114-116. Renaming to a name that is already taken is not modelled. -/
def applyDims (dims newDims : List Dim) : List Dim :=
  dims.map (renameDim ((dims.drop (dims.length - newDims.length)).zip newDims))

/-- One variable of `_apply_restart_metadata`, 121-128. -/
def withMetadata {D : Type} (props : List (String × Props)) (name : String) (v : Var D) : Var D :=
  match dictGet props name with
  | some p => ⟨applyDims v.dims p.dims, some p.units, v.data⟩
  | none => v

/-- `_apply_restart_metadata`, 119-129. -/
def applyMetadata {D : Type} (props : List (String × Props)) (state : List (String × Var D)) :
    List (String × Var D) :=
  state.map fun (name, v) => (name, withMetadata props name v)

/-- `name in only_names`, 155-160. -/
def asked (only : Option (List String)) (name : String) : Bool :=
  match only with
  | none => true
  | some names => names.contains name

/-- `load_partial_state_from_restart_file`, 149-166. -/
def loadPartial {D : Type} (props : List (String × Props)) (only : Option (List String))
    (file : List (String × Var D)) : List (String × Var D) :=
  let state := applyMetadata props (mapKeys file (standardNames props))
  state.filter fun (name, v) =>
    (name == "time" || v.units.isSome) && asked only name

/-- `dict.update` -/
def update {V : Type} (d e : List (String × V)) : List (String × V) :=
  e.foldl (fun d (k, v) => dictSet d k v) d

/-- The loop of `open_restart` on the root of a tile, 56-62. -/
def loadFiles {D : Type} (props : List (String × Props)) (only : Option (List String))
    (files : List (List (String × Var D))) : List (String × Var D) :=
  files.foldl (fun state f => update state (loadPartial props only f)) []

/-- `{**tracer_properties, **RESTART_PROPERTIES}`, 44-47. -/
def allProperties (tracers : Option (List (String × Props))) (table : List (String × Props)) :
    List (String × Props) :=
  match tracers with
  | none => table
  | some t => update t table

/-- `get_rank_suffix`, 99-111, for ranks that are not negative and at least one rank (for zero ranks
Python divides by zero). -/
def rankSuffix (rank total : Nat) : Except Err (List Char) :=
  if total % 6 ≠ 0 then .error .valueError
  else
    let ranksPerTile := total / 6
    let tile := rank / ranksPerTile + 1
    let count := rank % ranksPerTile
    if total > 6 then
      .ok (chars! ".tile" ++ Nat.toDigits 10 tile ++ chars! ".nc." ++ NetCDF.pad4 count)
    else .ok (chars! ".tile" ++ Nat.toDigits 10 tile ++ chars! ".nc")

/-- `prepend_label`, 142-146; no label is the empty one. -/
def prependLabel (filename label : List Char) : List Char :=
  if label.length > 0 then label ++ '.' :: filename else filename

/-- `RESTART_NAMES`, 18. -/
def requiredNames : List (List Char) :=
  [chars! "fv_core.res", chars! "fv_srf_wnd.res", chars! "fv_tracer.res"]

/-- `RESTART_OPTIONAL_NAMES`, 19. -/
def optionalNames : List (List Char) := [chars! "sfc_data", chars! "phy_data"]

/-- The path of 86-89; `dir` is not empty and does not end in a slash. -/
def restartPath (dir label : List Char) (tile : Nat) (name : List Char) : List Char :=
  dir ++ '/' :: (prependLabel name label ++ (chars! ".tile" ++ (Nat.toDigits 10 (tile + 1) ++
    chars! ".nc")))

/-- `restart_filenames`, 85-96; `present` is the test for files that are there. -/
def restartFilenames (present : List Char → Bool) (dir label : List Char) (tile : Nat) :
    List (List Char) :=
  (requiredNames ++ optionalNames).filterMap fun name =>
    if requiredNames.contains name || present (restartPath dir label tile name) then
      some (restartPath dir label tile name)
    else none

end NDSL.Restart
