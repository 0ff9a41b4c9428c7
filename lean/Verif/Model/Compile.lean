import Verif.Model.Partitioner

/-
Model of the distributed-compilation code: `ndsl/dsl/caches/cache_location.py`,
`ndsl/dsl/caches/codepath.py`, `ndsl/dsl/dace/dace_config.py` (44-131, 352-372),
`ndsl/dsl/stencil_config.py` (CompilationConfig, StencilConfig hash and equality) and
`ndsl/comm/decomposition.py` (14-56).
-/
namespace NDSL.Compile

/-- A partitioner as these functions see it, `ndsl/comm/partitioner.py` 46-58, 130-141,
351-403: `.tile` is the partitioner itself for a `TilePartitioner`. -/
inductive Part where
  | tile (p : TilePart)
  | cube (p : CubePart)
  deriving DecidableEq, Repr

namespace Part

/-- `partitioner.tile`, `ndsl/comm/partitioner.py` 53. -/
def tilePart : Part → TilePart
  | .tile p => p
  | .cube p => p.tile

/-- `partitioner.layout`, `ndsl/comm/partitioner.py` 54. -/
def layout (p : Part) : Int × Int := p.tilePart.layout

/-- `partitioner.total_ranks`, `ndsl/comm/partitioner.py` 159-161, 400-403. -/
def totalRanks : Part → Int
  | .tile p => p.totalRanks
  | .cube p => p.totalRanks

/-- `partitioner.tile_index`, `ndsl/comm/partitioner.py` 140-141, 392-394. -/
def tileIndex (p : Part) (rank : Int) : Except Err Int :=
  match p with
  | .tile _ => .ok 0
  | .cube c => c.tileIndex rank

end Part

/-- `FV3CodePath`, `ndsl/dsl/caches/codepath.py` 4-23. -/
inductive CodePath where
  | all | bottomLeft | left | topLeft | top | topRight | right | bottomRight | bottom | center
  deriving DecidableEq, Repr

/-- `identify_code_path`, `ndsl/dsl/caches/cache_location.py` 5-52. -/
def identifyCodePath (rank : Int) (p : Part) (single : Bool) : Except Err CodePath :=
  if single then .ok .all
  else if p.layout = (1, 1) then .ok .all
  else if p.layout.1 = 1 ∨ p.layout.2 = 1 then .error .notImplemented
  else if p.tilePart.onBottom rank then
    if p.tilePart.onLeft rank then .ok .bottomLeft
    else if p.tilePart.onRight rank then .ok .bottomRight
    else .ok .bottom
  else if p.tilePart.onTop rank then
    if p.tilePart.onLeft rank then .ok .topLeft
    else if p.tilePart.onRight rank then .ok .topRight
    else .ok .top
  else
    if p.tilePart.onLeft rank then .ok .left
    else if p.tilePart.onRight rank then .ok .right
    else .ok .center

/-- `_is_corner`, `ndsl/dsl/dace/dace_config.py` 44-55. -/
def isCorner (rank : Int) (p : Part) : Bool :=
  if p.tilePart.onBottom rank && p.tilePart.onLeft rank then true
  else if p.tilePart.onBottom rank && p.tilePart.onRight rank then true
  else if p.tilePart.onTop rank && p.tilePart.onLeft rank then true
  else if p.tilePart.onTop rank && p.tilePart.onRight rank then true
  else false

/-- `_smallest_rank_bottom`, `ndsl/dsl/dace/dace_config.py` 58-59. -/
def smallestBottom (x y : Int) (_layout : Int × Int) : Bool := y == 0 && x == 1
/-- `_smallest_rank_top`, 62-63: compares `y` with the second entry of the layout. -/
def smallestTop (x y : Int) (layout : Int × Int) : Bool := y == layout.2 - 1 && x == 1
/-- `_smallest_rank_left`, 66-67. -/
def smallestLeft (x y : Int) (_layout : Int × Int) : Bool := x == 0 && y == 1
/-- `_smallest_rank_right`, 70-71: compares `x` with the first entry of the layout. -/
def smallestRight (x y : Int) (layout : Int × Int) : Bool := x == layout.1 - 1 && y == 1
/-- `_smallest_rank_middle`, 74-75. -/
def smallestMiddle (x y : Int) (layout : Int × Int) : Bool :=
  decide (layout.1 > 1) && decide (layout.2 > 1) && x == 1 && y == 1

/-- `_determine_compiling_ranks`, `ndsl/dsl/dace/dace_config.py` 78-131. `config.my_rank` is
`rank`, `config.layout` is `partitioner.layout` (362) and `config._single_code_path` is
`single`. -/
def determineCompilingRank (rank : Int) (p : Part) (single : Bool) : Except Err Bool :=
  if single then .ok (rank == 0)
  else do
    let t ← p.tileIndex rank
    if t ≠ 0 then .ok false
    else if isCorner rank p then .ok true
    else
      let s := p.tilePart.subtileIndex rank
      let y := s.1
      let x := s.2
      .ok (smallestLeft x y p.layout || smallestBottom x y p.layout
        || smallestMiddle x y p.layout || smallestRight x y p.layout
        || smallestTop x y p.layout)

/-! ### Minimal caching of stencils -/

/-- `RunMode`, `ndsl/dsl/stencil_config.py` 18-28. -/
inductive RunMode where
  | build | buildAndRun | run
  deriving DecidableEq, Repr

/-- `RunMode.value`. -/
def RunMode.value : RunMode → Nat
  | .build => 0
  | .buildAndRun => 1
  | .run => 2

/-- `CompilationConfig.determine_compiling_equivalent`, `ndsl/dsl/stencil_config.py` 75-121. -/
def compilingEquivalent (mode : RunMode) (rank : Int) (p : Part) : Except Err Int :=
  let t := p.tilePart
  if mode = .run then
    if p.layout = (1, 1) then .ok 0
    else if p.layout = (2, 2) then
      if t.onBottom rank && t.onLeft rank then .ok 0
      else if t.onBottom rank && t.onRight rank then .ok 1
      else if t.onTop rank && t.onLeft rank then .ok 2
      else if t.onTop rank && t.onRight rank then .ok 3
      else .error .runtimeError
    else
      if t.onBottom rank then
        if t.onLeft rank then .ok 0
        else if t.onRight rank then .ok 2
        else .ok 1
      else if t.onTop rank then
        if t.onLeft rank then .ok 6
        else if t.onRight rank then .ok 8
        else .ok 7
      else
        if t.onLeft rank then .ok 3
        else if t.onRight rank then .ok 5
        else .ok 4
  else .ok (rank % t.totalRanks)

/-- `determine_rank_is_compiling`, `ndsl/comm/decomposition.py` 14-24: `rank < size / 6` with
Python's true division, i.e. `6 * rank < size` (exact for sizes below `2^53`). -/
def rankIsCompiling (rank size : Int) : Bool := decide (6 * rank < size)

/-- What a rank knows after construction: `rank, size, compiling_equivalent, is_compiling`. -/
structure DecompInfo where
  rank : Int
  size : Int
  equivalent : Int
  isCompiling : Bool
  deriving DecidableEq, Repr

/-- `CompilationConfig.get_decomposition_info_from_comm` with `check_communicator`,
`ndsl/dsl/stencil_config.py` 62-73, 123-143. A communicator is its rank and its partitioner
(its size equals `partitioner.total_ranks`, checked by `Communicator.__init__`). -/
def decompositionInfo (mode : RunMode) (minimal : Bool) :
    Option (Int × Part) → Except Err DecompInfo
  | none => .ok ⟨1, 1, 1, true⟩
  | some (rank, p) =>
    if p.layout.1 ≠ p.layout.2 then .error .runtimeError
    else if minimal then do
      let e ← compilingEquivalent mode rank p
      .ok ⟨rank, p.totalRanks, e, rankIsCompiling rank p.totalRanks⟩
    else .ok ⟨rank, p.totalRanks, rank, true⟩

/-- The destination of a send as the Python object handed to mpi4py: an `int`, or a `float`
recorded as its exact value in sixths (`size / 6`, its integer multiples and its sums with
integers; no rounding below `2^53`). -/
inductive PyNum where
  | int (n : Int)
  | float (sixths : Int)
  deriving DecidableEq, Repr

/-- `comm.send(message, dest=...)` of mpi4py: the destination is a C `int` parameter, a Python
float raises `TypeError`. The network records (source, destination) of each message. -/
def mpiSend (sent : List (Int × Int)) (src : Int) : PyNum → Except Err (List (Int × Int))
  | .int d => .ok (sent ++ [(src, d)])
  | .float _ => .error .typeError

/-- `tile * tile_size + rank` with `tile_size = size / 6`, `ndsl/comm/decomposition.py` 52-56. -/
def unblockDest (rank size tile : Int) : PyNum := .float (tile * size + 6 * rank)

/-- `range(1, 6)`. -/
def tiles : List Int := [1, 2, 3, 4, 5]

/-- `unblock_waiting_tiles`, `ndsl/comm/decomposition.py` 42-56: the messages it has sent when
it returns, or the exception of the first failing send. -/
def unblockWaitingTiles (rank size : Int) : Except Err (List (Int × Int)) :=
  if size > 1 then
    tiles.foldlM (fun sent t => mpiSend sent rank (unblockDest rank size t)) []
  else .ok []

/-- `block_waiting_for_compilation`, `ndsl/comm/decomposition.py` 27-39: the rank whose message
is awaited, if any. -/
def blockWaiting (i : DecompInfo) : Option Int :=
  if i.size > 1 then some i.equivalent else none

/-- What a non-orchestrated stencil construction does on this rank, `ndsl/dsl/stencil.py`
365-398: before compiling, the rank it waits for; -/
def waitsFor (i : DecompInfo) (minimal : Bool) (mode : RunMode) : Option Int :=
  if minimal && !i.isCompiling && mode != .run then blockWaiting i else none

/-- and, after compiling, the numerical destinations (in sixths) it sends to, before mpi4py
looks at their types. -/
def sendsTo (i : DecompInfo) (minimal : Bool) (mode : RunMode) : List PyNum :=
  if minimal && i.isCompiling && mode != .run then
    if i.size > 1 then tiles.map (unblockDest i.rank i.size) else []
  else []

/-! ### Hash and equality of stencil configurations -/

/-- The part of a `StencilConfig` its hash looks at, `ndsl/dsl/stencil_config.py` 204-222:
the GT4Py name of the backend (as bytes) and the options. `backend` is the NDSL name. -/
structure SConfig where
  backend : List Char
  gt4py : List Nat
  rebuild : Bool
  validateArgs : Bool
  minimalCaching : Bool
  compareToNumpy : Bool
  formatSource : Bool
  deviceSync : Bool
  runMode : RunMode
  deriving DecidableEq, Repr

/-- `bytes(n)` for a non-negative `int`: `n` NUL bytes; `bytes(True)` is `bytes(1)`. -/
def pyBytes (n : Nat) : List Nat := List.replicate n 0

/-- The bytes fed to md5 by `StencilConfig._compute_hash`, `ndsl/dsl/stencil_config.py`
204-222. -/
def hashInput (c : SConfig) : List Nat :=
  c.gt4py
    ++ ([c.rebuild, c.validateArgs, c.minimalCaching, c.compareToNumpy, c.formatSource].flatMap
        fun b => pyBytes b.toNat)
    ++ (if c.deviceSync then pyBytes 1 else [])
    ++ pyBytes c.runMode.value

/-- `StencilConfig.__hash__` (224-225); md5 read as an integer is the parameter `md5`. -/
def hash (md5 : List Nat → Nat) (c : SConfig) : Nat := md5 (hashInput c)

/-- `StencilConfig.__eq__` (227-231). -/
def configEq (md5 : List Nat → Nat) (a b : SConfig) : Bool := hash md5 a == hash md5 b

end NDSL.Compile
