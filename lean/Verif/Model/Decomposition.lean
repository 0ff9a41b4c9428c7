import Verif.Model.Partitioner

/-
Model of the tile decomposition in `ndsl/comm/partitioner.py` 758-1032.

Two integers are computed by the code in floating point; they are parameters (`FloatOps`) of the
model, so soundness theorems hold for every rounding behaviour:
* the starting edge size `round(n / (2 + (c - 2) / ratio))`, lines 937-941;
* the interior size `int(edge / ratio')` with `ratio' = edge / ((n - 2 edge) / (c - 2))`,
  lines 949-967.
-/
namespace NDSL

/-- A Python `slice(start, stop)` with both ends given. -/
structure Slice where
  start : Int
  stop : Int
  deriving DecidableEq, Repr

/-- Results of the two floating point computations (for the partitioner's `edge_interior_ratio`).
`startSize n c` is lines 939-941, `interior e n c` is `int(edge_size / dim_edge_interior_ratio)` of
lines 949-967. -/
structure FloatOps where
  startSize : Int → Int → Int
  interior : Int → Int → Int → Int

/-- Loop state of `_valid_edge_tile_sizes`: collected sizes, offset, factor. -/
structure EdgeSearch where
  sizes : List Int
  offset : Int
  factor : Int

/-- `top` of `_valid_edge_tile_sizes`, line 904: `int((n - c + 2) / 2) + 1` (`int` truncates). -/
def edgeTop (n c : Int) : Int := (n - c + 2).tdiv 2 + 1

/-- One iteration of the loop of lines 914-921. -/
def edgeStep (top start : Int) (s : EdgeSearch) : EdgeSearch :=
  let index := start + s.factor * s.offset
  let sizes := if (1 ≤ index ∧ index < top) ∧ index ∉ s.sizes then s.sizes ++ [index] else s.sizes
  if index = 1 then { sizes := sizes, offset := 0, factor := 1 }
  else { sizes := sizes, offset := s.offset + 1, factor := s.factor }

/-- `_valid_edge_tile_sizes`, 894-922: `len(range(1, top)) + 1` iterations. -/
def validEdgeSizes (n c start : Int) : List Int :=
  (Nat.repeat (edgeStep (edgeTop n c) start) ((edgeTop n c - 1).toNat + 1)
    { sizes := [], offset := 0, factor := -1 }).sizes

/-- One dimension of `_subtile_extents_from_tile_metadata`, 930-978. Result:
`(interior extent, edge extent)`. The trivial case divides exactly representable integers
(`int(n / c)`, `c = 1` or `c = 2`), modelled by integer division truncating to zero. -/
def dimExtents (fl : FloatOps) (dim : Dim) (c dimExtent : Int) : Except Err (Int × Int) :=
  let n := if dim.isInterface then dimExtent - 1 else dimExtent
  if c % 2 = 0 ∧ n % 2 ≠ 0 then .error .valueError
  else if c ≥ 3 ∧ dim.isHorizontal then
    match (validEdgeSizes n c (fl.startSize n c)).find?
        (fun e => e * 2 + (c - 2) * fl.interior e n c == n) with
    | none => .error .valueError
    | some e => .ok (fl.interior e n c, e)
  else
    let s := n.tdiv c
    .ok (s, s)

/-- `_subtile_extents_from_tile_metadata`, 868-980, over `zip(dims, layout_factors, tile_extent)`. -/
def subtileExtents (fl : FloatOps) (dims : List Dim) (tileExtent : List Int) (layout : Int × Int) :
    Except Err (List (Int × Int)) :=
  ((dims.zip ((listByDims dims layout 1).zip tileExtent))).mapM
    fun (d, c, n) => dimExtents fl d c n

/-- The loop `for i in range(index + 1)` of lines 837-845, after `k` iterations: `(start, end)`. -/
def axisLoop (edge interior nRanks : Int) : Nat → Int × Int
  | 0 => (0, 0)
  | k + 1 =>
    let (s, e) := axisLoop edge interior nRanks k
    if k = 0 then (s, e + edge)
    else if (k : Int) = nRanks - 1 then (e, e + edge)
    else (e, e + interior)

/-- One dimension of `_rank_slice_from_tile_metadata_cached`, 828-854. -/
def dimSlice (layout subtile : Int × Int) (overlap : Bool) (dim : Dim) (interior edge : Int) :
    Slice :=
  if dim.isHorizontal then
    let (index, nRanks) := if dim.isJ then (subtile.1, layout.1) else (subtile.2, layout.2)
    let (s, e) := axisLoop edge interior nRanks (index + 1).toNat
    if dim.isInterface && (overlap || index == nRanks - 1) then ⟨s, e + 1⟩ else ⟨s, e⟩
  else
    if dim.isInterface then ⟨0, interior + 1⟩ else ⟨0, interior⟩

/-- `discard_dimension`, 862-865. -/
def discardDim {α : Type} (dims : List Dim) (name : Dim) (data : List α) : List α :=
  (data.zip dims).filterMap fun (x, d) => if d ≠ name then some x else none

/-- `rank_slice_from_tile_metadata`, 791-856, and `subtile_slice`, 997-1032. -/
def rankSlice (fl : FloatOps) (dims : List Dim) (extent : List Int) (layout subtile : Int × Int)
    (overlap : Bool) : Except Err (List Slice) := do
  let cdims := discardDim dims .tile dims
  let cext := discardDim dims .tile extent
  let exts ← subtileExtents fl cdims cext layout
  return (cdims.zip exts).map fun (d, i, e) => dimSlice layout subtile overlap d i e

/-- `TilePartitioner.subtile_slice`, 202-234. -/
def TilePart.subtileSlice (p : TilePart) (fl : FloatOps) (rank : Int) (dims : List Dim)
    (extent : List Int) (overlap : Bool) : Except Err (List Slice) :=
  rankSlice fl dims extent p.layout (p.subtileIndex rank) overlap

/-- `TilePartitioner.subtile_extent`, 178-200. -/
def TilePart.subtileExtent (p : TilePart) (fl : FloatOps) (rank : Int) (dims : List Dim)
    (extent : List Int) : Except Err (List Int) := do
  let s ← rankSlice fl dims extent p.layout (p.subtileIndex rank) true
  return s.map fun x => x.stop - x.start

/-- `CubedSpherePartitioner.subtile_slice`, 637-673: tile index and the slices on the tile. An empty
dims tuple raises `IndexError` at `global_dims[0]`. -/
def CubePart.subtileSlice (p : CubePart) (fl : FloatOps) (rank : Int) (dims : List Dim)
    (extent : List Int) (overlap : Bool) : Except Err (Int × List Slice) :=
  match dims with
  | [] => .error .indexError
  | d :: rest =>
    if d ≠ .tile then .error .notImplemented
    else do
      let t ← p.tileIndex rank
      let s ← p.tile.subtileSlice fl rank rest extent.tail overlap
      return (t, s)

/-- `CubedSpherePartitioner.subtile_extent`, 620-635. -/
def CubePart.subtileExtent (p : CubePart) (fl : FloatOps) (rank : Int) (dims : List Dim)
    (extent : List Int) : Except Err (List Int) := p.tile.subtileExtent fl rank dims extent

/-- One dimension of `extent_from_metadata`, 983-994. -/
def dimTileExtent (dim : Dim) (rankExtent layoutFactor : Int) : Int :=
  let add := if dim.isInterface then -1 else 0
  (rankExtent + add) * layoutFactor - add

/-- `tile_extent_from_rank_metadata`, 758-788, for `edge_interior_ratio == 1.0` (the default; other
values raise `NotImplementedError` before anything is computed) and `extent_from_metadata`,
983-994; also `TilePartitioner.global_extent`, 163-176. -/
def tileExtentFromRank (dims : List Dim) (rankExtent : List Int) (layout : Int × Int) : List Int :=
  (dims.zip (rankExtent.zip (listByDims dims layout 1))).map fun (d, e, f) => dimTileExtent d e f

/-- `CubedSpherePartitioner.global_extent`, 607-618. -/
def cubeExtentFromRank (dims : List Dim) (rankExtent : List Int) (layout : Int × Int) : List Int :=
  6 :: tileExtentFromRank dims rankExtent layout

end NDSL
