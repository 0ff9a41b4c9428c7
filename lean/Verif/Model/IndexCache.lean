import Verif.Model.Gpu

/-
Model of the cache of GPU index maps: `INDICES_CACHE` and `HaloDataTransformerGPU._flatten_indices`,
`ndsl/halo/data_transformer.py` 608-644. The key is `str` of a tuple of slices, integers and tuples of
integers; it is modelled as the tuple itself.
-/
namespace NDSL

/-- a request: the parts of the exchange spec used, the slices and the `rotate` flag -/
structure IxReq where
  dims : List Dim
  shape : List Int
  strides : List Int
  itemsize : Int
  rot : Int
  slices : List Slice
  rotate : Bool
  deriving DecidableEq

/-- the cache key, 618-626 -/
structure IxKey where
  slices : List Slice
  rot : Int
  shape : List Int
  strides : List Int
  itemsize : Int
  deriving DecidableEq

def IxReq.key (r : IxReq) : IxKey := ⟨r.slices, r.rot, r.shape, r.strides, r.itemsize⟩

/-- the map built for a request on a miss, 632-641 -/
def IxReq.build (r : IxReq) : List Int :=
  buildIndices r.dims r.slices r.strides r.itemsize r.rotate r.rot

/-- `INDICES_CACHE` -/
abbrev IxCache := List (IxKey × List Int)

/-- `_flatten_indices`, 608-644: the returned map and the new cache -/
def flattenIndices (c : IxCache) (r : IxReq) : List Int × IxCache :=
  match c.lookup r.key with
  | some m => (m, c)
  | none => (r.build, (r.key, r.build) :: c)

/-- the cache after a history of requests -/
def cacheAfter (hist : List IxReq) : IxCache :=
  hist.foldl (fun c r => (flattenIndices c r).2) []

end NDSL
