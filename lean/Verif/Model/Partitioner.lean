import Verif.Model.Basic

/-
Model of `ndsl/comm/partitioner.py`: rank/position arithmetic and boundaries of
`TilePartitioner` and `CubedSpherePartitioner`.

Ranks are `Int` because the code computes intermediate ranks outside `0 .. total-1`
(reduced modulo `total_ranks` only at the end). Python `//` and `%` by a positive number are
Lean's `/` and `%` on `Int`. `functools.lru_cache` and `copy.copy` (248-278, 405-436) are
memoisation of pure functions followed by a copy, hence not modelled as state.
-/
namespace NDSL

/-- `Boundary`/`SimpleBoundary` dataclasses, `ndsl/comm/boundary.py` 9-19 and 88-92. -/
structure Boundary where
  btype : BType
  fromRank : Int
  toRank : Int
  rot : Int
  deriving DecidableEq, Repr

/-- `get_tile_index`, `ndsl/comm/partitioner.py` 36-43. -/
def getTileIndex (rank totalRanks : Int) : Except Err Int :=
  if totalRanks % 6 ≠ 0 then .error .valueError
  else .ok (rank / (totalRanks / 6))

/-- `subtile_index`, `ndsl/comm/partitioner.py` 745-751: `(j, i)`. -/
def subtileIndex (rank ranksPerTile : Int) (layout : Int × Int) : Int × Int :=
  let within := rank % ranksPerTile
  (within / layout.2, within % layout.2)

/-- `is_even`, `ndsl/comm/partitioner.py` 754-755. -/
def isEven (v : Int) : Bool := v % 2 == 0

/-- `on_tile_left`, 676-677. -/
def onTileLeft (s : Int × Int) : Bool := s.2 == 0
/-- `on_tile_right`, 680-681. -/
def onTileRight (s : Int × Int) (layout : Int × Int) : Bool := s.2 == layout.2 - 1
/-- `on_tile_top`, 684-685. -/
def onTileTop (s : Int × Int) (layout : Int × Int) : Bool := s.1 == layout.1 - 1
/-- `on_tile_bottom`, 688-689. -/
def onTileBottom (s : Int × Int) : Bool := s.1 == 0

/-- `np.where(array == value)` and `[0]`: first position, in row-major order, at which a
`rows × cols` array holds `value`. -/
def firstWhere (rows cols : Nat) (f : Nat → Nat → Int) (v : Int) : Option (Nat × Nat) :=
  ((List.range rows).flatMap fun a => (List.range cols).map fun b => (a, b)).find?
    fun p => f p.1 p.2 == v

/-- `np.arange(total_ranks).reshape(layout)`, 701 and 740: the array of ranks of one tile. -/
def rankArray (layout : Int × Int) (a b : Nat) : Int := a * layout.2 + b

/-- `rank_array[pos]` with NumPy's bounds check (positions are never negative here). -/
def rankArrayAt (layout : Int × Int) : Option (Nat × Nat) → Except Err Int
  | none => .error .indexError
  | some (a, b) =>
    if (a : Int) < layout.1 ∧ (b : Int) < layout.2 then .ok (rankArray layout a b)
    else .error .indexError

/-- `rotate_subtile_rank`, 692-707. `np.rot90(m)` has shape `(cols, rows)` and entries
`out[a, b] = m[b, cols - 1 - a]`. -/
def rotateSubtileRank (rank : Int) (layout : Int × Int) (n : Int) : Except Err Int :=
  if n = 0 then .ok rank
  else if n = 1 then
    rankArrayAt layout
      (firstWhere layout.2.toNat layout.1.toNat
        (fun a b => rankArray layout b (layout.2.toNat - 1 - a)) rank)
  else .error .notImplemented

/-- `fliplr_subtile_rank`, 717-721, through `transform_subtile_rank`, 731-742.
`np.fliplr(m)[a, b] = m[a, cols - 1 - b]`. -/
def fliplrSubtileRank (rank : Int) (layout : Int × Int) : Except Err Int :=
  rankArrayAt layout
    (firstWhere layout.1.toNat layout.2.toNat
      (fun a b => rankArray layout a (layout.2.toNat - 1 - b)) rank)

/-- `flipud_subtile_rank`, 724-728. `np.flipud(m)[a, b] = m[rows - 1 - a, b]`. -/
def flipudSubtileRank (rank : Int) (layout : Int × Int) : Except Err Int :=
  rankArrayAt layout
    (firstWhere layout.1.toNat layout.2.toNat
      (fun a b => rankArray layout (layout.1.toNat - 1 - a) b) rank)

/-- `transpose_subtile_rank`, 710-714. `np.transpose(m)[a, b] = m[b, a]`, shape `(cols, rows)`. -/
def transposeSubtileRank (rank : Int) (layout : Int × Int) : Except Err Int :=
  rankArrayAt layout
    (firstWhere layout.2.toNat layout.1.toNat (fun a b => rankArray layout b a) rank)

/-! ### TilePartitioner, 130-348 -/

/-- A `TilePartitioner` is determined (for ranks and boundaries) by its `(y, x)` layout. -/
structure TilePart where
  layout : Int × Int
  deriving DecidableEq, Repr

namespace TilePart

/-- `total_ranks`, 159-161. -/
def totalRanks (p : TilePart) : Int := p.layout.1 * p.layout.2

/-- `subtile_index`, 152-157. -/
def subtileIndex (p : TilePart) (rank : Int) : Int × Int :=
  NDSL.subtileIndex rank p.totalRanks p.layout

/-- 236-246. -/
def onTop (p : TilePart) (rank : Int) : Bool := onTileTop (p.subtileIndex rank) p.layout
def onBottom (p : TilePart) (rank : Int) : Bool := onTileBottom (p.subtileIndex rank)
def onLeft (p : TilePart) (rank : Int) : Bool := onTileLeft (p.subtileIndex rank)
def onRight (p : TilePart) (rank : Int) : Bool := onTileRight (p.subtileIndex rank) p.layout

/-- `_left_edge`, 280-290. -/
def leftEdge (p : TilePart) (rank : Int) : Boundary :=
  { btype := .west, fromRank := rank, rot := 0,
    toRank := if p.onLeft rank then rank + p.layout.2 - 1 else rank - 1 }

/-- `_right_edge`, 292-302. -/
def rightEdge (p : TilePart) (rank : Int) : Boundary :=
  { btype := .east, fromRank := rank, rot := 0,
    toRank := if p.onRight rank then rank - p.layout.2 + 1 else rank + 1 }

/-- `_top_edge`, 304-314. -/
def topEdge (p : TilePart) (rank : Int) : Boundary :=
  { btype := .north, fromRank := rank, rot := 0,
    toRank := if p.onTop rank then rank - (p.layout.1 - 1) * p.layout.2
              else rank + p.layout.2 }

/-- `_bottom_edge`, 316-326. -/
def bottomEdge (p : TilePart) (rank : Int) : Boundary :=
  { btype := .south, fromRank := rank, rot := 0,
    toRank := if p.onBottom rank then rank + (p.layout.1 - 1) * p.layout.2
              else rank - p.layout.2 }

/-- `_get_corner` (module function), 351-365. -/
def getCorner (bt : BType) (rank : Int) (e1 e2 : Int → Boundary) : Boundary :=
  let b1 := e1 rank
  let b2 := e2 b1.toRank
  { btype := bt, fromRank := rank, toRank := b2.toRank, rot := b1.rot + b2.rot }

/-- `boundary`/`_cached_boundary`, 248-278, with the corner methods 328-342. Always a boundary. -/
def boundary (p : TilePart) (bt : BType) (rank : Int) : Boundary :=
  match bt with
  | .west => p.leftEdge rank
  | .east => p.rightEdge rank
  | .north => p.topEdge rank
  | .south => p.bottomEdge rank
  | .northwest => getCorner .northwest rank p.leftEdge p.topEdge
  | .northeast => getCorner .northeast rank p.rightEdge p.topEdge
  | .southwest => getCorner .southwest rank p.leftEdge p.bottomEdge
  | .southeast => getCorner .southeast rank p.rightEdge p.bottomEdge

/-- `fliplr_rank`, 344-345. -/
def fliplrRank (p : TilePart) (rank : Int) : Except Err Int := fliplrSubtileRank rank p.layout
/-- `rotate_rank`, 347-348. -/
def rotateRank (p : TilePart) (rank n : Int) : Except Err Int := rotateSubtileRank rank p.layout n

end TilePart

/-! ### CubedSpherePartitioner, 368-599 -/

/-- A `CubedSpherePartitioner` is determined by its tile partitioner. -/
structure CubePart where
  tile : TilePart
  deriving DecidableEq, Repr

namespace CubePart

/-- `_ensure_square_layout`, 388-390. -/
def ensureSquare (p : CubePart) : Except Err Unit :=
  if p.tile.layout.1 = p.tile.layout.2 then .ok () else .error .notImplemented

/-- `total_ranks`, 400-403. -/
def totalRanks (p : CubePart) : Int := 6 * p.tile.totalRanks

/-- `tile_index`, 392-394. -/
def tileIndex (p : CubePart) (rank : Int) : Except Err Int := getTileIndex rank p.totalRanks

/-- `tile_root_rank`, 396-398. -/
def tileRootRank (p : CubePart) (rank : Int) : Int :=
  p.tile.totalRanks * (rank / p.tile.totalRanks)

/-- `_left_edge`, 438-460. -/
def leftEdge (p : CubePart) (rank : Int) : Except Err Boundary := do
  p.ensureSquare
  if p.tile.onLeft rank then
    if isEven (← p.tileIndex rank) then
      let toRoot := p.tileRootRank (rank - 2 * p.tile.totalRanks)
      let tileRank := rank % p.tile.totalRanks
      let toTile ← p.tile.fliplrRank (← p.tile.rotateRank tileRank 1)
      return { btype := .west, fromRank := rank, toRank := toRoot + toTile, rot := 1 }
    else
      let b := p.tile.boundary .west rank
      return { b with toRank := b.toRank - p.tile.totalRanks }
  else
    return p.tile.boundary .west rank

/-- `_right_edge`, 462-482. -/
def rightEdge (p : CubePart) (rank : Int) : Except Err Boundary := do
  p.ensureSquare
  if p.tile.onRight rank then
    if !isEven (← p.tileIndex rank) then
      let toRoot := p.tileRootRank (rank + 2 * p.tile.totalRanks)
      let tileRank := rank % p.tile.totalRanks
      let toTile ← p.tile.fliplrRank (← p.tile.rotateRank tileRank 1)
      return { btype := .east, fromRank := rank, toRank := toRoot + toTile, rot := 1 }
    else
      let b := p.tile.boundary .east rank
      return { b with toRank := b.toRank + p.tile.totalRanks }
  else
    return p.tile.boundary .east rank

/-- `_top_edge`, 484-504. -/
def topEdge (p : CubePart) (rank : Int) : Except Err Boundary := do
  p.ensureSquare
  if p.tile.onTop rank then
    if isEven (← p.tileIndex rank) then
      let toRoot := ((← p.tileIndex rank) + 2) * p.tile.totalRanks
      let tileRank := rank % p.tile.totalRanks
      let toTile ← p.tile.fliplrRank (← p.tile.rotateRank tileRank 1)
      return { btype := .north, fromRank := rank, toRank := toRoot + toTile, rot := 3 }
    else
      let b := p.tile.boundary .north rank
      return { b with toRank := b.toRank + p.tile.totalRanks }
  else
    return p.tile.boundary .north rank

/-- `_bottom_edge`, 506-522. -/
def bottomEdge (p : CubePart) (rank : Int) : Except Err Boundary := do
  p.ensureSquare
  if p.tile.onBottom rank && !isEven (← p.tileIndex rank) then
    let toRoot := ((← p.tileIndex rank) - 2) * p.tile.totalRanks
    let tileRank := rank % p.tile.totalRanks
    let toTile ← p.tile.fliplrRank (← p.tile.rotateRank tileRank 1)
    return { btype := .south, fromRank := rank, toRank := toRoot + toTile, rot := 3 }
  else
    let b := p.tile.boundary .south rank
    if p.tile.onBottom rank then
      return { b with toRank := b.toRank - p.tile.totalRanks }
    else
      return b

/-- `_get_corner` (method), 590-605. -/
def getCorner (bt : BType) (rank : Int) (e1 e2 : Int → Except Err Boundary) :
    Except Err Boundary := do
  let b1 ← e1 rank
  let b2 ← e2 b1.toRank
  return { btype := bt, fromRank := rank, toRank := b2.toRank, rot := b1.rot + b2.rot }

/-- `_top_left_corner`, 524-537. -/
def topLeftCorner (p : CubePart) (rank : Int) : Except Err (Option Boundary) := do
  if p.tile.onTop rank && p.tile.onLeft rank then return none
  else
    let secondEdge :=
      if isEven (← p.tileIndex rank) && p.tile.onLeft rank then p.leftEdge else p.topEdge
    return some (← getCorner .northwest rank p.leftEdge secondEdge)

/-- `_top_right_corner`, 539-554. -/
def topRightCorner (p : CubePart) (rank : Int) : Except Err (Option Boundary) := do
  if p.tile.onTop rank && p.tile.onRight rank then return none
  else
    let secondEdge :=
      if isEven (← p.tileIndex rank) && p.tile.onTop rank then p.bottomEdge else p.rightEdge
    return some (← getCorner .northeast rank p.topEdge secondEdge)

/-- `_bottom_left_corner`, 556-571. -/
def bottomLeftCorner (p : CubePart) (rank : Int) : Except Err (Option Boundary) := do
  if p.tile.onBottom rank && p.tile.onLeft rank then return none
  else
    let secondEdge :=
      if !isEven (← p.tileIndex rank) && p.tile.onBottom rank then p.topEdge else p.leftEdge
    return some (← getCorner .southwest rank p.bottomEdge secondEdge)

/-- `_bottom_right_corner`, 573-588. -/
def bottomRightCorner (p : CubePart) (rank : Int) : Except Err (Option Boundary) := do
  if p.tile.onBottom rank && p.tile.onRight rank then return none
  else
    let secondEdge :=
      if !isEven (← p.tileIndex rank) && p.tile.onBottom rank then p.bottomEdge else p.rightEdge
    return some (← getCorner .southeast rank p.bottomEdge secondEdge)

/-- The dispatch dictionary of `_cached_boundary`, 424-433. -/
def rawBoundary (p : CubePart) (bt : BType) (rank : Int) : Except Err (Option Boundary) :=
  match bt with
  | .west => some <$> p.leftEdge rank
  | .east => some <$> p.rightEdge rank
  | .north => some <$> p.topEdge rank
  | .south => some <$> p.bottomEdge rank
  | .northwest => p.topLeftCorner rank
  | .northeast => p.topRightCorner rank
  | .southwest => p.bottomLeftCorner rank
  | .southeast => p.bottomRightCorner rank

/-- `boundary`/`_cached_boundary`, 405-436: the target rank is reduced modulo `total_ranks`. -/
def boundary (p : CubePart) (bt : BType) (rank : Int) : Except Err (Option Boundary) := do
  match ← p.rawBoundary bt rank with
  | none => return none
  | some b => return some { b with toRank := b.toRank % p.totalRanks }

end CubePart

end NDSL
