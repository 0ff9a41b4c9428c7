import Verif.Model.Decomposition

/-
Model of `ndsl/initialization/grid_sizer.py`, `ndsl/initialization/subtile_grid_sizer.py` and of the sizes in
`QuantityFactory._allocate` (`ndsl/initialization/allocator.py` 167-208).

The memory layout chosen by GT4Py (alignment, strides) is not modelled: only shape, origin and extent.
-/
namespace NDSL

/-- `GridSizer`, `grid_sizer.py` 7-17, and `_pad_non_interface_dimensions`, `subtile_grid_sizer.py` 21-24 -/
structure Sizer where
  nx : Int
  ny : Int
  nz : Int
  nHalo : Int
  /-- `data_dimensions` (a dictionary) -/
  data : List (Dim × Int)
  pad : Bool

/-- `d[k]` of a dictionary with distinct keys -/
def dimGet (d : List (Dim × Int)) (k : Dim) : Option Int := (d.find? fun e => decide (e.1 = k)).map (·.2)

namespace Sizer

/-- `dim_extents`, 129-142: the spatial entries override data dimensions of the same name -/
def dimExtent (s : Sizer) : Dim → Option Int
  | .i => some s.nx
  | .iInterface => some (s.nx + 1)
  | .j => some s.ny
  | .jInterface => some (s.ny + 1)
  | .k => some s.nz
  | .kInterface => some (s.nz + 1)
  | d => dimGet s.data d

/-- the dictionary of `get_shape`, 154-168 -/
def dimShape (s : Sizer) : Dim → Option Int
  | .i => some (s.nx + (if s.pad then 1 else 0) + 2 * s.nHalo)
  | .iInterface => some (s.nx + 1 + 2 * s.nHalo)
  | .j => some (s.ny + (if s.pad then 1 else 0) + 2 * s.nHalo)
  | .jInterface => some (s.ny + 1 + 2 * s.nHalo)
  | .k => some (s.nz + (if s.pad then 1 else 0))
  | .kInterface => some (s.nz + 1)
  | d => dimGet s.data d

/-- `get_origin`, 144-148 -/
def getOrigin (s : Sizer) (dims : List Dim) : List Int :=
  dims.map fun d => if d.isHorizontal then s.nHalo else 0

def orKey (o : Option Int) : Except Err Int :=
  match o with
  | some n => .ok n
  | none => .error .keyError

/-- `get_extent`, 150-152 -/
def getExtent (s : Sizer) (dims : List Dim) : Except Err (List Int) := dims.mapM fun d => orKey (s.dimExtent d)

/-- `get_shape`, 154-169 -/
def getShape (s : Sizer) (dims : List Dim) : Except Err (List Int) := dims.mapM fun d => orKey (s.dimShape d)

/-- `from_tile_params`, 26-77, with the default partitioner -/
def fromTileParams (fl : FloatOps) (nxTile nyTile nz nHalo : Int) (layout : Int × Int) (data : List (Dim × Int))
    (pad : Bool) (rank : Int) : Except Err Sizer := do
  let sl ← (TilePart.mk layout).subtileSlice fl rank [.j, .i] [nyTile, nxTile] true
  match sl with
  | [y, x] =>
    let nx := x.stop - x.start
    let ny := y.stop - y.start
    if nx ≤ nHalo then .error .runtimeError
    else if ny ≤ nHalo then .error .runtimeError
    else return ⟨nx, ny, nz, nHalo, data, pad⟩
  | _ => .error .valueError

end Sizer

/-- shape, origin and extent of an allocated quantity -/
structure Alloc where
  dims : List Dim
  origin : List Int
  extent : List Int
  shape : List Int
  deriving DecidableEq

/-- `QuantityFactory._allocate`, `allocator.py` 167-208, and the length checks of the constructor,
`quantity.py` 495-506 -/
def allocate (s : Sizer) (dims : List Dim) : Except Err Alloc := do
  let extent ← s.getExtent dims
  let shape ← s.getShape dims
  let origin := s.getOrigin dims
  if dims.length ≠ shape.length ∨ origin.length ≠ shape.length ∨ extent.length ≠ shape.length then
    .error .valueError
  else return ⟨dims, origin, extent, shape⟩

end NDSL
