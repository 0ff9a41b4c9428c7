import Verif.Model.Backend
import Verif.Model.StencilFactory
/-
Model of the sizes read from a namelist (`SubtileGridSizer.from_namelist`, `ndsl/initialization/subtile_grid_sizer.py` 79-124)
and of the factories for a single tile (`ndsl/boilerplate.py`). The directories that the configuration of DaCe looks up are those of
`Model/CacheDirs` and left out here; so are the options of DaCe and the warning's text. Strides of a backend's memory
(`is_fortran_aligned`) are those of GT4Py: an unknown function of the backend.
-/
namespace NDSL.Boilerplate

open NDSL.StencilFactory NDSL.Backend

/-- A value in a namelist: a number, a pair of numbers, or a group. -/
inductive NVal where
  | int (n : Int)
  | pair (a b : Int)
  | group (entries : List (String × NVal))

/-- `d[key]` -/
def item (d : List (String × NVal)) (key : String) : Except Err NVal :=
  match dictGet d key with
  | some v => .ok v
  | none => .error .keyError

/-- Numbers where numbers are used; anything else is a `TypeError` when computing with it. -/
def NVal.asInt : NVal → Except Err Int
  | .int n => .ok n
  | _ => .error .typeError

def NVal.asLayout : NVal → Except Err (Int × Int)
  | .pair a b => .ok (a, b)
  | _ => .error .typeError

def NVal.asGroup : NVal → Except Err (List (String × NVal))
  | .group d => .ok d
  | _ => .error .typeError

/-- `N_HALO_DEFAULT`, `constants.py` 71. -/
def nHaloDefault : Int := 3

/-- `from_tile_params`, 27-77, with a partitioner of the tile or none. -/
def fromTileParams (fl : FloatOps) (nxTile nyTile nz nHalo : Int) (layout : Int × Int) (part : Option TilePart) (data : List (Dim × Int))
    (pad : Bool) (rank : Int) : Except Err Sizer :=
  Sizer.fromTileParams fl nxTile nyTile nz nHalo (part.getD ⟨layout⟩).layout data pad rank

/-- `from_namelist`, 79-124. -/
def fromNamelist (fl : FloatOps) (namelist : List (String × NVal)) (part : Option TilePart) (rank : Int) (pad : Bool) : Except Err Sizer :=
  if (dictGet namelist "fv_core_nml").isSome then do
    let core ← (← item namelist "fv_core_nml").asGroup
    let layout ← item core "layout"
    let npx ← (← item core "npx").asInt
    let npy ← (← item core "npy").asInt
    let nz ← item core "npz"
    fromTileParams fl (npx - 1) (npy - 1) (← nz.asInt) nHaloDefault (← layout.asLayout) part [] pad rank
  else if (dictGet namelist "nx_tile").isSome then do
    let layout ← item namelist "layout"
    let nx ← item namelist "nx_tile"
    let ny ← item namelist "nx_tile"
    let nz ← item namelist "nz"
    fromTileParams fl (← nx.asInt) (← ny.asInt) (← nz.asInt) nHaloDefault (← layout.asLayout) part [] pad rank
  else .error .keyError

/-- `DaCeOrchestration`, `dace_config.py` 134-145. -/
inductive Mode where
  | buildAndRun | build | run
  deriving DecidableEq

/-- What is made: the configuration (of the stencils' compilation and of DaCe), the two factories, and whether a warning was given. -/
structure Made where
  config : CConfig
  dace : Backend × Mode
  stencils : Factory
  sizer : Sizer
  quantities : Backend
  warned : Bool

/-- `_get_factories`, `boilerplate.py` 20-88, on rank `rank` of `size` processes. -/
def getFactories (fl : FloatOps) (aligned : Backend → Bool) (size rank nx ny nz nHalo : Int) (backend : Backend) (mode : Mode)
    (topology : String) : Except Err Made := do
  let config ← CConfig.mk' backend false true false false .buildAndRun false
  if topology = "tile" then
    let part : TilePart := ⟨(1, 1)⟩
    let sizer ← fromTileParams fl nx ny nz nHalo part.layout (some part) [] (!aligned backend) 0
    return ⟨config, (backend, mode), ⟨false, gridOf sizer part rank⟩, sizer, backend, decide (size ≠ 1)⟩
  else .error .notImplemented

/-- `get_factories_single_tile_orchestrated`, 91-113; the backend is a `Backend`. -/
def singleTileOrchestrated (fl : FloatOps) (aligned : Backend → Bool) (size rank nx ny nz nHalo : Int) (backend : Backend)
    (mode : Option Mode) : Except Err Made :=
  if !isOrchestrated backend then .error .valueError
  else getFactories fl aligned size rank nx ny nz nHalo backend (mode.getD .buildAndRun) "tile"

/-- `get_factories_single_tile`, 116-130. -/
def singleTile (fl : FloatOps) (aligned : Backend → Bool) (size rank nx ny nz nHalo : Int) (backend : Backend) : Except Err Made :=
  getFactories fl aligned size rank nx ny nz nHalo backend .buildAndRun "tile"

end NDSL.Boilerplate
