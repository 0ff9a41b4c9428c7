# Formal model of NDSL: design

Subject: NOAA-GFDL/NDSL, Python source in `/repo` (read as text, never executed).
Formalism: Lean 4.33.0, project in `/verif/lean`, modules under `Verif/`.

## 1. Method

* `Verif/Model/*.lean` are shallow, executable models: every function mirrors a Python function
  branch by branch and cites the file and lines it models. Exceptions are values
  (`Except Err`), loops are structural recursion or folds, mutation is state passing.
* `Verif/Spec/*.lean` are small, independent specifications (geometry of the cube, periodic
  extension, abstract maps / queues / logs). They never refer to the model's helpers.
* `Verif/Lemmas/*.lean` hold helper lemmas.
* `Verif/Props/*.lean` hold the property theorems `Cnn_...`, each followed by an `example`
  showing that a concrete, non-trivial instance meets the hypotheses.
* When the code violates a property, the negation is proved with a concrete witness
  (suffix `_violated`) and the strongest true part carries the suffix `_partial`.

Conventions used throughout the model

* Python `int` is `Int` (or `Nat` where it cannot be negative). Python `//` and `%` with a positive
  divisor are Lean's `Int` `/` and `%` (Euclidean = floor for positive divisors).
* Dimension names are an enumeration `Dim` (the seven named dims, the tile dim, `other n`).
* An n-dimensional array is a shape together with a function from index lists; equality is
  agreement on in-shape indices. Row-major flattening is explicit.
* Element types are arbitrary (`α`), so statements hold bit for bit for copies; where arithmetic is
  involved the theorem says over which structure (ordered field, integers) it is stated. Floating
  point is never idealised silently: where the Python code computes an *integer decision* in floating
  point, the float result is an arbitrary parameter of the model.

## 2. Trusted base

* Lean's kernel, and the axioms `propext`, `Classical.choice`, `Quot.sound` (checked with
  `#print axioms`; no others; no `sorry`, `native_decide`, `bv_decide`, no own axioms).
* The reading of the Python source: the model is hand written; faithfulness is by citation.
* Semantics assumed of libraries: NumPy (`rot90`, `fliplr`, slicing, `flatten`, `reshape`, broadcasting
  of equal shapes), MPI point-to-point ordering per (source, destination, tag), Python `dict` ordering,
  `copy`, `functools.lru_cache` as memoisation of pure functions.
* Not modelled: GT4Py/DaCe code generation, compilation, GPU execution (only the index maps),
  NetCDF/Zarr/file formats (only what is written where), YAML, logging, floating point rounding,
  process crashes inside MPI.

## 3. Properties: what is modelled and how it is proved

| id | plan |
|---|---|
| C01 | `Model/Partitioner`: `subtileIndex`, `getTileIndex`, `tileRootRank`; proved by div/mod arithmetic. |
| C02 | `Model/Decomposition`: literal loop of `rank_slice`; prefix-sum lemma by induction on the loop, then disjointness and covering per axis and for whole index tuples. |
| C03 | as C02 with `overlap=True`. |
| C04 | `Model/Decomposition`: literal edge-size search, the two float computations (start size and interior size) as arbitrary function parameters. Soundness for any float behaviour; completeness fails (start size 1) so negation + `_partial`. |
| C05 | `Model/Decomposition`: `tileExtentFromRankMetadata` against `subtileExtent`; arithmetic. |
| C06 | `Model/Partitioner`: tile edges and corners; spec: neighbour position modulo the layout. |
| C07 | `Model/Partitioner`: cube edges/corners literally (rot90/fliplr by search in the rank array, proved to have closed forms); case analysis on tile 0..5 and position, all n. |
| C08 | `Spec/Cube`: six faces embedded in Z^3 with frames; theorem: edge neighbour shares the 3-D edge segment, rotation is the one relating the frames. |
| C09 | as C07/C08 for corners, spec: 3-D cube vertices. |
| C10 | from closed forms of C06/C07; for tiles an iff with both layout sizes >= 3. |
| C100 | `Model/Translate` on top of `Model/StorageData`: indices of a rank, descriptions of variables, the loops over inputs and results with what they change; spec: `placed`; induction over the variables, keys of dictionaries, and cutting what was placed. |
| C101 | `global_mirror_grid` point by point with its loop over a quarter of the tile as a fold over arrays. The loop invariant says of every point whether its orbit under the mirrorings was visited. For the gnomonic tile the base is unchanged (symmetry of C78); the tiles are those of the ranks since both are placed at the same point of the sphere and longitudes there are unique, with the poles apart. |
| C102 | Model the index a view hands to the array (`_get_compute_index`, `_get_array_index`) with entries int, slice with step and new axis, and NumPy's basic indexing on it (clipping, counts, places, inverse of a place). The spec `Means` relates an index of the selection with a place of the array without computing either. Proved by induction over the dimensions. |
| C103 | Model `all_reduce` and its per-element variants over an arbitrary bracketing of the ranks' contributions, with mpi4py's object operators and MPI's buffer operators, `duplicate_metadata`, and `Split` of MPI and of `LocalComm`. Proved by induction over the bracketing (associativity) and over the calls to `Split`; counts of ranks per colour by induction over the number of ranks. |
| C104 | The recursion of `_segment_plot_inputs` with a bound on its depth; a second recursion that gives only the rectangles is proved to give an exact cover by induction on cells (twice, because of the exchange of rows and columns), and the pieces are shown to be its parts. Updating is a walk over handles and pieces. |
| C105 | Masking, centring and colour limits over the rationals. A cell is described by where its corners are on a line; masks are proved equivalent to being cut there, and with C104 that pieces are made of narrow cells. |
| C106 | A machine of host, streams and memory: launches queue kernels, threads of the first kernel of a queue run in any order, synchronisations wait. Programs whose launches do not conflict with what may be pending on other streams are proved by an invariant to give the sequential result. The launches of start and wait are shown to be such a program (induction over transformers and quantities), and the sequential result is computed and compared with a specification without buffers. Termination by counting. |
| C107 | A stencil is a list of assignments to its parameters, memory a map from buffers to contents. Binding is modelled for both kinds of call (`__call__` with `*args`, `run` with a dictionary) and proved equal to a declarative rule `Binds`. Comparison with NumPy is proved by simulation under an injective renaming of buffers (the copies); comparison with a twin rank by showing that both sorted lists of names are the same list. |
| C108 | Factory, grid from sizer and communicator, externals as dictionaries, and the report over rational times. Covering is division with remainder by the extents of a rank; edges follow from C70 and the place of a rank in the layout; the report uses stability and order of the sort only as permutation and pairwise order. |
| C109 | Schedule trees as lists of nodes over an arbitrary state, run with a bound on loop iterations; erasing all boundaries is proved to keep execution, and cleaning to keep the erased tree, both by induction on trees. Passes are a fold; backends are those of the model of `Backend`. |
| C11 | `Model/BoundarySlice`: `get_boundary_slice` literally over dims lists; per-axis case analysis. |
| C110 | Collection of cases as functions from files, options and the table of classes to a list of cases, with the order of sets as a parameter; verdicts as functions of what is given to a case. Listing by induction over comma-separated text; agreement of ranks because sorting permutations gives equal lists; overrides by lookups in association lists. |
| C111 | Model/CartesianGrid: kinds of grid, the tile of corners cut for a rank with NaN elsewhere, constant terms, factors of divergence through the same derivation as C85-C86 (Deriv). Corners by the places of even pieces (C84); factors by arrays that are constant staying constant under cut, quotient and edge assignments. |
| C112 | Model/SerialData: streams as lists of savepoints, reading with fill values, blocks, shapes over ranks, the stored arrays, files and their readers. Explicit results of every loop for streams that agree (mapM of total functions), then reading by index; collapsed arrays by an invariant of the write position. |
| C113 | Model/MemoryReport: an SDFG as a tree of levels with containers and uses, the loop over containers per storage, maps with the bytes of their edges. The analysis of a storage is shown equal to extending an empty report by the list of its containers; times by induction over the maps with the dictionary of maxima as invariant. |
| C114 | Model/DebugChecks: dataflow as a graph of numbered nodes, outputs of maps, filter by names, insertion of a check as rerouting of edges. Orders of execution are permutations that respect edges; each insertion restricts orders to the old nodes (transitivity of precedence), and the fold over insertions is by induction. |
| C115 | Model/ZarrStates: the time array, one writer per variable, the loop over a state in alphabetical order, and constants. Induction over the history with the invariant that each array has one entry per state; the loop over the entries of a state by induction for distinct names; constants from C59 with one store. |
| C116 | Model/AxisMerge (as C52). The number of maps plus the number of pairs of a map and a sequential loop around it falls with each counted merge; recursion ends by induction on the number of maps, then the number of nodes, so that enough fuel always gives one result. |
| C117 | Model/CacheDirs: names of directories as characters, what is set at import, by the configuration of DaCe and by that of the compilation. Names are compared through the value of their digits; positions come from C44. |
| C118 | Model/CompareReport: reports as lists of lines on top of the comparison of C61, indices in row-major order, `argsort` as any function that sorts, class attributes as the state of the process. Positions and indices are shown to be in bijection; the worst result by induction over the lines; the rest by membership and order of mapped lists. |
| C119 | Model/Labels: a program as numbered states and labelled edges, DaCe's insertion of a state before or after another, the loop of `set_label` as a fold over the states there were. Executions are an inductive relation with the states passed as trace. An invariant of the fold says where every visited and unvisited state leads; traces are then compared by induction on executions, in both directions. |
| C12 | per-axis trichotomy lifted to pairs of axes and arbitrary other dims. |
| C120 | Model/MakeQuantity: memory as a list of arrays so that sharing shows, the answer of GT4Py about memory order as an unknown function, the constructor, the methods of a factory on top of the sizer of C35 and the assignment of slices of C98. Explicit outcomes of the constructor and of an assignment, then composition. |
| C121 | Model/Boilerplate: namelists as nested dictionaries, the configuration and factories made for one tile, on top of the models of sizer (C35), partitioner (C02), grid indexing (C47), factory (C108) and backend (C46). Origins and domains are compared entry by entry over lists of dimensions; a (1, 1) layout gives the whole tile to every rank number. |
| C122 | Model/Temporaries: objects by number with attributes (circles allowed), snapshots as nested dictionaries, `np.allclose` with stretching over rationals, infinities and NaN. Spec/Temporaries: paths as an inductive relation. Induction on the depth and, for the comparison, mutual recursion over dictionaries. |
| C123 | Model/Xumpy: arrays as sizes and functions of the index, numbers as in C122, quantities with origin and extent; axes as marks, indices split into kept and reduced parts. The fold of maximum or minimum is shown to pick the extremum for any operation that picks one of two and lets NaN win; splitting and joining indices are inverse. |
| C124 | Model/Partitioner (as for C01): the array of ranks, its flips and transposition as functions of two positions, the first place where a number is found. Uniqueness of the representation by row and column gives the place; the rest is arithmetic. |
| C125 | Model/PlotPrep: arrays with named dimensions, transposition and selection of the first index; the order of a set is an unknown function; the checks of shapes in the order of the code with lookups that may fail; percentiles of sorted rationals with linear interpolation. Values by name by induction over the dimensions; percentiles by the two neighbours of their place and counting in a sorted list. |
| C126 | `Model/Settings.lean`: the environment as a function, `import ndsl` as a total function with its failures, loggers with handlers, the settings of DaCe as state under a history of configurations. By cases on names, induction over options and histories. |
| C127 | `Model/Constants.lean`: base constants per version and formulas for the derived ones, over the rationals. By field arithmetic for every sound set of base constants. |
| C128 | `Model/TestGrid.lean`: the remaining functions of the grid for tests on the model of C100: ranges, windows as first and last indices, cuts and assignments of arrays. Linear arithmetic on the indices, lemmas on cuts and assignments of any size. |
| C129 | `Model/Perturb.lean` models `perturb` with a store of arrays, the numbers drawn and the two roundings as parameters. `Spec/Perturb.lean` says what a floating point number and a rounding to nearest are, for any rule for ties. Proved by the spacing of floating point numbers: the factor is 1 or the number before 1, and the product cannot pass the number. Overflow is left out, since no number grows. |
| C13 | error branch of C11; returned slices have exact width, else error. |
| C130 | `Model/TestReport.lean` models `save_netcdf`, `_save_datatree`, the names of report files and `_get_thresholds`, with numpy's stack and xarray's arrays as shapes and functions. Induction over the variables in any order that sorting may give; the extrema with NaN by their characterisation. Attributes and prints are left out. |
| C131 | `StencilOptions`: a world of shared mutable configurations, changed by a list of operations; the arguments for the compiler of a configuration, at any later time, by induction over the operations. Strings as lists of characters, for the injectivity of names. |
| C132 | `BestGuess`: reconciling shapes as a function of two arrays, the program as recursion over the variables. Proved for arrays with a method `flatten`; that xarray's have none is a parameter of the model, set to what the code uses in `C132_flatten_violated`. |
| C133 | `GridStorage`: the data as a dictionary, each loop as a function on it, on top of the model of `make_storage_data` (`StorageData`); whether the storages are NumPy arrays is a parameter. Lookup lemmas for each loop, then the theorems of C98. |
| C134 | `TestGridData`: the attributes as a function from names, the fields as a table of names, sources and dimensions, the object with its kept grid data as a machine; composed with `GridStorage` (C133) for the data as it is stored on either device. |
| C135 | `fromShape`, `storageDict`, `reshapeTo` and `splitCartesian` model the rest of the storage helpers of gt4py_utils.py with the n-dimensional arrays of C98. The order of values in `reshape` is specified independently by the number of places before an index; proofs by computation and induction on the shape. Found: no storage with data dimensions with the default origin; `reshape` of a column lays it along the first axis. |
| C136 | `TreeSwap`: objects with references as a function from identities, each statement of `swap_node_position_in_tree` a change of it. Specification: trees without references (`Forest`) and when objects hold one (`Holds`); frame lemmas for objects that are not changed. `detectCycle` with fuel; that it does not end on a cycle is proved for all fuel. Found: `list.remove` compares by value where `list_index` compares by identity; other children are lost. |
| C137 | `DeviceCopy`: arrays with a device on top of the assignment of `StorageData`; the allocator in use as the state of a machine, with failing allocations. Cases on the devices; induction over the operations. Found: a failed allocation leaves the default pool's allocator in use (`safe_mpi_allocate` has no `try`/`finally`). |
| C138 | `make_SDFG_CPU_sequential` (Model/Sequential): the two loops on graphs with nested graphs; stated through paths to nodes at any depth. |
| C139 | `ArrayLib`: arrays with device and data type; `asarray`, the choice of library, `index`, `stack`, and the helpers of translate.py. Cases on kinds of objects and devices; induction over the dictionary. Found: `asarray` ignores the data type with CuPy; `index` by a number needs CuPy; `as_numpy` leaves quantities on the GPU. |
| C14 | `Model/Views`: `_shift_index`, `_shift_slice`, `_get_compute_index` and Python index normalisation. |
| C140 | `ParallelTranslate`: slices with halo as numpy takes them, states as dictionaries, one step per variable of `state_from_inputs` and `outputs_from_state`. Built on the assignment of C98; induction over the variables with what is left unchanged. Found: `outputs_from_state` moves the vertical axis in the state it reads; exchanged names lose data; outputs need the property `name`. |
| C141 | `Model/WrappedHalo.lean`: the wrapper with the quantities in flight and a log of what was packed and unpacked, as a machine with assignments to the state as further steps. Specs `Holds` and `Paired`; induction over histories. |
| C142 | `Model/UnsignedHalo.lean`: the vector update of C21 followed by the removal of signs. Corollary of C20 and C21: the absolute value of plus or minus a value that is not negative. |
| C143 | Objects, classes and functions by number; orchestration as a step; a frame lemma for one step, then induction over the sequence of orchestrations; the double orchestration, the kept configuration and the shared flags are witnesses. |
| C144 | The assignment to the compute domain, the scalar halo update and the filling of B-grid corners in a row; the value after the halo update from C19 and C20, the corners from C51, with the turned point as an explicit index. |
| C145 | C78 and C79 (corner of a rank as the projected point of the stretched cube) put under the halo update and corner filling of C144, through a form of C144 that names the rank owning each value; longitude and latitude are determined by the place. |
| C146 | The scalar halo update of cell centres from C19 and C20, then the A-grid corner fills of C51, longitudes along i and latitudes along j; the two source places as explicit indices, and their difference from the frames of the tiles. |
| C147 | The vector exchange without signs of C142 and the grid of corners of C145: the two ends of an edge of the continued sheet are the two ends of the owner's edge, in one order or the other; the distance is symmetric. |
| C148 | `Model/Instrument.lean`: the loop over the parameters with its counter, the loop over keywords, and the wrapper as a list of events. Specification: Python's rules for arguments by position and by name; induction over the parameters and over the keywords. Found: variadic arguments are not shown, and one of them can be shown as a positional-only parameter. |
| C15 | `Model/NDArray` + `Model/Rotate`: rot90 on index lists; group laws by index computation. |
| C16 | as C15 with component swap/sign over any type with involutive negation. |
| C17 | `Model/Transformer`: pack = concat of flattened rotated slices, unpack = split at running offset; induction on the list of quantities, row-major flatten/unflatten inverse. |
| C18 | `Model/HaloExchange`: all ranks pack, deliver, unpack; spec: periodic extension of a global field. |
| C19 | as C18 on the cube; spec: fold across the cube edge in Z^3 (`Spec/Cube`). |
| C20 | frame lemma for unpack + C12. |
| C21 | as C19 for vector pack; spec: 3-D vector of the folded plane. |
| C22 | `Model/InterfaceSync`; sign/orientation by 3-D frames. |
| C23 | `Model/Transformer`: `_build_flatten_indices` as flattening of an index array; equality with CPU flatten. |
| C24 | cache keyed by the code's key; negation witness + partial. |
| C25 | state machine of the updater; induction on histories. |
| C26 | pool state machine with ownership; induction; negation for double wait. |
| C27 | tag counter state machine; uniqueness and cross-rank agreement by induction. |
| C28 | small-step interleaving semantics of ranks with channel queues; progress + confluence. |
| C29 | `Model/ScatterGather` on index functions; uses C02/C03. |
| C30 | fold over the state dictionary; trace of collectives equal on all ranks. |
| C31 | negation witness (uneven extents) + partial (equal extents). |
| C32 | `Model/LocalComm`: refinement to a family of FIFO queues. |
| C33 | negation witness (second gather) + partial (first gather). |
| C34 | `Model/CachingComm`: writer/reader machines; negations (late wait, non-root gather) + partial replay theorem. |
| C35 | `Model/Sizer`. |
| C36 | `Model/Quantity`: permutation of index lists. |
| C37 | lexicographic tuple comparison; negation + partial. |
| C38 | factory object heap; negation for extend_3D + all-or-nothing theorem. |
| C39 | class-level dictionary shared by instances; negation + partial. |
| C40 | nested state tree; negation for name collisions + partial. |
| C41 | context manager machine with failure point. |
| C42 | hash input as byte string; negation + exact characterisation. |
| C43 | compiling ranks vs code paths; square layouts proved, non-square negation. |
| C44 | decision table arithmetic, all layouts. |
| C45 | arithmetic on rank mod size/6. |
| C46 | string table; all strings via membership. |
| C47 | `Model/GridIndexing`. |
| C48 | Thomas algorithm over any field; induction on column length. |
| C49 | fold over the level range; induction. |
| C50 | offset tables interpreted as functions; closed form for all domain sizes. |
| C51 | loops of array fills; compare with C50; negations (NE B-grid y, halo != 3). |
| C52 | two-loop programs over an array store; negation (WAR/WAW) + partial under full independence. |
| C53 | range membership arithmetic. |
| C54 | induction on levels. |
| C55 | timer state machine; refinement to sum over history. |
| C56 | threshold calibration over an ordered field; absolute proved, relative negated + partial. |
| C57 | append-only log refinement. |
| C58 | chunk writer machine; induction; negation after mid-run cleanup. |
| C59 | uses C02; time index induction. |
| C60 | dictionary fold; negation for plain top-level keys + partial. |
| C61 | metric decision logic; negations + partial. |
| C62 | dictionary renaming fold; suffix injectivity. |
| C63 | list scan. |
| C64 | call/step counters; induction over nested histories. |
| C65 | list map. |
| C66 | `Model/LocalComm`: dictionary of pending broadcasts and scatters keyed by call number; induction over histories of calls. |
| C67 | `Model/Sizer` + `Model/Decomposition`: composition of the sizer with `subtile_extent` of the partitioner. |
| C68 | `Model/FieldBundle`: registry as a dictionary; induction over registrations. |
| C69 | `Model/Compile`: `as_dict` / `from_dict` of the configuration; round trip for all options. |
| C70 | `Model/GridIndexing`: axis offsets as functions of the position on the tile; arithmetic for all ranks. |
| C71 | `Model/Backend`: origin mapping by dimension flags; list induction. |
| C72 | `Model/ColumnStencils`: the elementary stencils of `stencils/basic_operations.py`, point by point. |
| C73 | `Model/Thresholds`: validation against thresholds; clipping per dimension. |
| C74 | `Model/Performance`: timers and reports as folds over dictionaries; sums over sorted names. |
| C75 | `Model/Stretch`: Schmidt transformation over the reals; spec: stretch towards the pole, then rotation. |
| C76 | `Model/Sphere`: gnomonic.py conversions, distances, midpoints, angles over the reals; spec: `dot`, `angle`, `point`. |
| C77 | `Model/Sphere`: areas; Girard sums; additivity by cutting. |
| C78 | `Model/Gnomonic`: local gnomonic grid per rank and `mirror_grid`; spec: faces of the inscribed cube and projected lines. |
| C79 | `Model/Gnomonic` against `Spec/Cube` (the partitioner's cube, C08). |
| C80 | `Model/CubedToLatLon`: unit vectors in cell centres, matrices `a11..a22`, second and fourth order stencils. |
| C81 | `Model/CubedToLatLon`: one-rank exchange with periodic wrap and the choice of the order. |
| C82 | `Model/GridHelper`: lazily cached vertical grid as a state machine; induction on histories of reads and writes. |
| C83 | `Model/GridHelper`: driver data built from metric terms, Coriolis parameters; field by field. |
| C84 | `Model/EdgeFactors`: literal slices with numpy length checks; uses C02 for the positions of ranks. |
| C85 | `Model/SupergridCorners`: literal assignments with reversed views; spec: one rule for all corners by mirror images. |
| C86 | `Model/SupergridAngles`: cosines at nine points, unit vectors; spec: angle between the grid lines; exactness on the grid of C78. |
| C87 | `Model/RefineTransients` on the trees of `Model/AxisMerge`: union of accesses, counting of maps, rebuilt memlets, strides; spec: the sequence of tasklet runs, written before read, local to an iteration; simulation between the two memories. |
| C88 | `Model/Orchestration`: table of executables with cached arguments and their hash, one step per call; invariant over the history. |
| C89 | `Model/Orchestration`: heap with addresses and serial numbers; reachable heaps by induction. |
| C90 | `Model/DistBuild`: ranks with a place in the code, barrier by counting, shared files; one step per event; invariant, measure for termination, minimal rank for progress. |
| C91 | `Model/BuildInfo`: text of the build information with decimal numbers, written and read; dictionary of a configuration. |
| C92 | `Model/Runtime`: chains of classes with constructors as lists of steps; induction over the chain. |
| C93 | `Model/MetricTerms`: one slot per attribute, every lazy computation as written; spec: each term as an expression in the grid; state after a history is that of a list of groups of attributes, by induction over the reads. |
| C94 | `Model/DerivedTerms`: numpy slices, slice assignment with shape check, conditional edge lines as written; spec: each array as a function of global indices on the tile; ranks hold windows; each statement is a step with the contents known at every index. |
| C95 | `Model/StateAlloc`: classes and objects as trees of fields, allocation, guarded access and the history of calls with class and factory as state; spec: fields by path; induction over the tree and over the history. |
| C96 | `Model/StateFiles` on top of `Model/StateUpdate`: datasets, trees, names of files as characters, file system as a list of saves; spec: states by path, last save; induction over states and histories. |
| C97 | `Model/GridSizes` on the arrays of `Model/DerivedTerms`, with reversed and transposed views; spec: each length and area as a function of global indices; step by step as for C94; reduction over ranks by folding min and max. |
| C98 | `Model/StorageData`: numpy arrays of any rank with slices, broadcasting assignment, repeat, tile, moveaxis, reshape, squeeze; spec: `placed`; induction over axes for the assignment, cases over axes for the rest. |
| C99 | `Model/StateIO`: state dictionaries, datasets with their checks, files as a list of writes, decoding on opening, text of coupler.res as characters; spec: `Writable`, `Readable`, `whole`; induction over variables and histories, and over the text of a line. |

## 4. Results

Status of every property; theorem names are in namespace `NDSL`.  A theorem whose name ends in `_violated`
proves, with a concrete witness, that the code does not do what the name before it says; the property's
statement in `properties.jsonl` then has a note "(Not so: ...)" with the exception.  `partial` is used where the
central claim is false of the code (the full statement is kept and the strongest part proved).

| id | title | status | theorems | note |
|---|---|---|---|---|
| C01 | Ranks and subtile positions are in bijection | proved | `C01_tile_positions`, `C01_cube_positions` | any positive layout, cube incl. non-square |
| C02 | Subtile slices without overlap partition the tile | proved | `C02_tile_slices_partition`, `C02_cube_slices_partition` | for every outcome of the floating point estimates |
| C03 | Overlapping subtile slices share exactly the interface line and have the rank's extent | proved | `C03_overlap_slices` |  |
| C04 | Accepted decompositions are exact and positive; decomposable sizes are accepted | partial | `C04_sizes_sound`, `C04_complete_partial`, `C04_found_iff_partial`, `C04_complete_violated` | soundness holds for all inputs and roundings; completeness is false in the code (7 cells on 5 ranks raises although 2+1+1+1+2 exists). C04_found_iff_partial says exactly which divisions are found, for every ratio and every rounding of the starting size; C04_complete_partial gives completeness for ratio 1 and more than 3/2 cells per rank. |
| C05 | Global extent and subtile extent are inverse for even layouts | proved | `C05_extent_round_trip`, `C05_tile_extent` | default ratio 1; rank extents with at least one cell |
| C06 | Single-tile boundaries are reciprocal and periodic | proved | `C06_tile_boundary` |  |
| C07 | Cubed-sphere boundaries are reciprocal with opposite rotation | proved | `C07_cube_reciprocal`, `C07_nonsquare_refused` |  |
| C08 | Cubed-sphere edge neighbours are the geometric neighbours on the cube | proved | `C08_cube_edge_geometry` | geometry in Verif/Spec/Cube.lean |
| C09 | Corner boundaries exist exactly away from tile corners and reach the diagonal neighbour | proved | `C09_cube_corners` |  |
| C10 | No two boundaries of a rank lead to the same neighbour where halo updates are allowed | proved | `C10_cube_distinct_neighbours`, `C10_tile_distinct_iff` |  |
| C100 | Reference data is brought to a test at the right points and its results are cut out there | proved | `Translate.C100_inverse`, `Translate.C100_grid`, `Translate.C100_cover`, `Translate.C100_translated`, `Translate.C100_input`, `Translate.C100_round_trip`, `Translate.C100_fields`, `Translate.C100_compute_domain`, `Translate.C100_full_domain`, `Translate.C100_layout_violated`, `Translate.C100_uneven_violated`, `Translate.C100_stale_violated`, `Translate.C100_caller_violated`, `Translate.C100_shared_violated`, `Translate.C100_plane_violated`, `Translate.C100_given`, `Translate.C100_dummy`, `Translate.C100_dummy_line_violated`, `Translate.C100_line`, `Translate.C100_plane` | exceptions named in the statement are proved with witnesses; sizes of one are excluded from the round trip, since they are squeezed away |
| C101 | The six tiles made on one rank are the grid that the ranks make | proved | `Sphere.C101_base`, `Sphere.C101_symmetric`, `Sphere.C101_tiles` | over the real numbers; square tiles for the comparison with the ranks |
| C102 | Reading and writing through a quantity's views with steps, names and new axes | proved | `View.C102_read`, `View.C102_write`, `View.C102_write_read`, `View.C102_safe`, `View.C102_many`, `View.C102_field`, `View.C102_sel`, `View.C102_reverse_violated`, `View.C102_newaxis_violated`, `View.C102_typo_violated`, `View.C102_scalar_violated` | The _violated theorems are the exceptions named in the statement. |
| C103 | Reductions over all ranks and the communicators of tiles | proved | `Reduce.C103_sum`, `Reduce.C103_output`, `Reduce.C103_shape`, `Reduce.C103_elements`, `Reduce.C103_meaning`, `Reduce.C103_split`, `Reduce.C103_tiles`, `Reduce.C103_max_violated`, `Reduce.C103_halo_violated`, `Reduce.C103_view_violated`, `Reduce.C103_order_violated`, `Reduce.C103_twice_violated`, `Reduce.C103_tile_reduce_violated` | The _violated theorems are the exceptions named in the statement. mpi4py's reduction of objects and MPI's split are modelled from their documentation. |
| C104 | A plotted field is cut into pieces that show every value once | proved | `Segments.C104_pieces`, `Segments.C104_tiles`, `Segments.C104_update`, `Segments.C104_last`, `Segments.C104_empty_violated`, `Segments.C104_more_violated`, `Segments.C104_fewer_violated` | The _violated theorems are the exceptions named in the statement. NaN is an optional value; matplotlib's meshes are the arrays they were given. |
| C105 | Cells at the edge of the map are not drawn across it; colours follow the data | proved | `Masking.C105_difference`, `Masking.C105_antimeridian`, `Masking.C105_mask`, `Masking.C105_center`, `Masking.C105_drawn`, `Masking.C105_colors`, `Masking.C105_answers`, `Masking.C105_all_given_violated`, `Masking.C105_touch_violated`, `Masking.C105_wide_violated`, `Masking.C105_tile_violated`, `Masking.C105_few_violated`, `Masking.C105_far_violated`, `Masking.C105_shown` | The _violated theorems are the exceptions named in the statement. Numbers are rationals; percentiles are not modelled. |
| C106 | A halo update on a GPU gives one result, whatever the streams do | proved | `C106_update`, `C106_finished`, `C106_ends`, `C106_dtype_violated`, `C106_overlap_violated` | The _violated theorems are the exceptions named in the statement. A thread reads and writes one place each in one step; the index arrays are those of C23. |
| C107 | Calling a stencil binds arguments the same way every time, changes only what is passed, and comparisons compare what they should | proved | `StencilCall.C107_call`, `StencilCall.C107_keywords`, `StencilCall.C107_refused`, `StencilCall.C107_later`, `StencilCall.C107_effect`, `StencilCall.C107_twin`, `StencilCall.C107_pair`, `StencilCall.C107_numpy`, `StencilCall.C107_same`, `StencilCall.C107_sizes`, `StencilCall.C107_extra_violated`, `StencilCall.C107_build_violated`, `StencilCall.C107_twin_violated`, `StencilCall.C107_nan_violated`, `StencilCall.C107_pair_violated`, `StencilCall.C107_alias_violated`, `StencilCall.C107_sizes_violated`, `StencilCall.C107_assign`, `StencilCall.C107_sequence` | The _violated theorems are the exceptions named in the statement. What GT4Py checks besides the binding is not modelled. |
| C108 | Stencils made by a factory cover the tile once, know its edges, and reports of times are complete | proved | `StencilFactory.C108_points`, `StencilFactory.C108_refused`, `StencilFactory.C108_externals`, `StencilFactory.C108_varied`, `StencilFactory.C108_cover`, `StencilFactory.C108_edges`, `StencilFactory.C108_restrict`, `StencilFactory.C108_report`, `StencilFactory.C108_built`, `StencilFactory.C108_order_violated`, `StencilFactory.C108_varied_violated`, `StencilFactory.C108_edges_violated`, `StencilFactory.C108_none_violated`, `StencilFactory.C108_unused_violated`, `StencilFactory.C108_long_violated`, `StencilFactory.C108_name_violated`, `StencilFactory.C108_names` | The _violated theorems are the exceptions named in the statement. Times are rational numbers; the text of reports is not modelled. |
| C109 | Cleaning up schedule trees and running passes does not change programs | proved | `CleanTree.C109_nodes`, `CleanTree.C109_same`, `CleanTree.C109_clean`, `CleanTree.C109_all`, `CleanTree.C109_count`, `CleanTree.C109_twice`, `CleanTree.C109_passes`, `CleanTree.C109_written`, `CleanTree.C109_meaning`, `CleanTree.C109_order`, `CleanTree.C109_backends`, `CleanTree.C109_specialize`, `CleanTree.C109_points`, `CleanTree.C109_else_violated`, `CleanTree.C109_specialize_violated`, `CleanTree.C109_params_violated`, `CleanTree.C109_specialized` | The _violated theorems are the exceptions named in the statement. What DaCe's visitor does for scopes without a method of their own is taken from its documentation. |
| C11 | Halo send regions lie in the compute domain and receive regions lie in the halo | proved | `C11_send_recv_regions`, `C11_wide_send_violated` | for halo widths that fit the subtile (n <= extent); beyond that the code silently sends halo points (witness) |
| C110 | Tests against reference data cover what is asked for and pass only what agrees | proved | `TestCases.C110_serial`, `TestCases.C110_parallel`, `TestCases.C110_class`, `TestCases.C110_generated`, `TestCases.C110_agree`, `TestCases.C110_lists`, `TestCases.C110_passed`, `TestCases.C110_passed_parallel`, `TestCases.C110_order`, `TestCases.C110_skipped`, `TestCases.C110_skipped_violated`, `TestCases.C110_override_none`, `TestCases.C110_override_many`, `TestCases.C110_override`, `TestCases.C110_gpu`, `TestCases.C110_layout`, `TestCases.C110_layout_violated`, `TestCases.C110_skip_violated`, `TestCases.C110_other_violated`, `TestCases.C110_outvars_violated`, `TestCases.C110_backend_violated`, `TestCases.C110_file_violated`, `TestCases.C110_file`, `TestCases.C110_named` | The _violated theorems are the exceptions named in the statement. What metrics say about a variable is a parameter here (C61 is about the metrics). |
| C111 | The doubly periodic grid is uniform and the same for every decomposition | proved | `Cartesian.C111_types`, `Cartesian.C111_grid`, `Cartesian.C111_shared`, `Cartesian.C111_spacing`, `Cartesian.C111_terms`, `Cartesian.C111_recip`, `Cartesian.C111_total`, `Cartesian.C111_divg`, `Cartesian.C111_winds_violated`, `Cartesian.C111_halo_violated`, `Cartesian.C111_centres_violated` | The _violated theorems are the exceptions named in the statement. Numbers are elements of a field (exact arithmetic); splitting of a tile uses floats that divide an even layout exactly, as in C84. |
| C112 | Serialbox data converted to NetCDF reaches a test as it was written | proved | `Serial.C112_files`, `Serial.C112_completes`, `Serial.C112_roundtrip`, `Serial.C112_blocks`, `Serial.C112_blocks_violated`, `Serial.C112_collapsed`, `Serial.C112_collapsed_violated`, `Serial.C112_together_violated`, `Serial.C112_loader`, `Serial.C112_loader_violated`, `Serial.C112_exists`, `Serial.C112_name_violated`, `Serial.C112_fields_violated`, `Serial.C112_calls_violated`, `Serial.C112_shape_violated`, `Serial.C112_fill_violated`, `Serial.C112_scalar_violated`, `Serial.C112_ranks`, `Serial.C112_tracers` | The _violated theorems are the exceptions named in the statement. |
| C113 | The memory report and the kernel times of a built program add up | proved | `Memory.C113_visited`, `Memory.C113_rows`, `Memory.C113_totals`, `Memory.C113_split`, `Memory.C113_shared`, `Memory.C113_shown`, `Memory.C113_hidden_violated`, `Memory.C113_condition_violated`, `Memory.C113_timing`, `Memory.C113_nothing_read`, `Memory.C113_given`, `Memory.C113_measured_violated`, `Memory.C113_label_violated`, `Memory.C113_command` | The _violated theorems are the exceptions named in the statement. |
| C114 | Debug checks inserted in a built program test what is written and change nothing | proved | `DebugChecks.C114_found`, `DebugChecks.C114_all_violated`, `DebugChecks.C114_nan_violated`, `DebugChecks.C114_ranges`, `DebugChecks.C114_same`, `DebugChecks.C114_runs`, `DebugChecks.C114_between`, `DebugChecks.C114_count`, `DebugChecks.C114_delp`, `DebugChecks.C114_tracers`, `DebugChecks.C114_sync`, `DebugChecks.C114_untouched`, `DebugChecks.C114_cpu_violated`, `DebugChecks.C114_axes`, `DebugChecks.C114_axes_violated` | The _violated theorems are the exceptions named in the statement. |
| C115 | One index is one state in a Zarr store, and constants are kept as stored | proved | `ZarrStates.C115_aligned`, `ZarrStates.C115_names`, `ZarrStates.C115_refused_violated`, `ZarrStates.C115_calendar_violated`, `ZarrStates.C115_duration_violated`, `ZarrStates.C115_constant`, `ZarrStates.C115_constant_order_violated`, `ZarrStates.C115_netcdf_constant`, `ZarrStates.C115_netcdf_directory_violated` | The _violated theorems are the exceptions named in the statement. |
| C116 | Merging loops ends for every program and keeps every computation once | proved | `AxisMerge.C116_ends`, `AxisMerge.C116_kept`, `AxisMerge.C116_merged`, `AxisMerge.C116_none_left` | On the model of C52; the order of computations is that of the program text, what they compute is C52. |
| C117 | Compiled stencils are found where they were written | proved | `CacheDirs.C117_distinct`, `CacheDirs.C117_written`, `CacheDirs.C117_own`, `CacheDirs.C117_minimal`, `CacheDirs.C117_one_rank_violated`, `CacheDirs.C117_variable_violated`, `CacheDirs.C117_shared_violated`, `CacheDirs.C117_alone`, `CacheDirs.C117_orchestrated`, `CacheDirs.C117_orchestrated_run_violated`, `CacheDirs.C117_build_mode_violated` | The _violated theorems are the exceptions named in the statement. |
| C118 | Reports of comparisons show every failing point, with its numbers | proved | `CompareReport.C118_legacy_passed`, `CompareReport.C118_legacy_failed`, `CompareReport.C118_marks`, `CompareReport.C118_verdict`, `CompareReport.C118_multi_report`, `CompareReport.C118_columns`, `CompareReport.C118_thresholds`, `CompareReport.C118_one_line`, `CompareReport.C118_legacy_shown`, `CompareReport.C118_multi_shown`, `CompareReport.C118_hidden_violated`, `CompareReport.C118_changing_violated`, `CompareReport.C118_stale_violated`, `CompareReport.C118_scalar_violated`, `CompareReport.C118_empty_violated`, `CompareReport.C118_zero_threshold_violated`, `CompareReport.C118_order_violated`, `CompareReport.C118_legacy_bool_violated`, `CompareReport.C118_multi_bool_violated` | The _violated theorems are the exceptions named in the statement. |
| C119 | Labels around a program change nothing it computes | proved | `Labels.C119_top`, `Labels.C119_nested`, `Labels.C119_deterministic`, `Labels.C119_single_violated`, `Labels.C119_loop_violated`, `Labels.C119_untaken_violated` | The _violated theorems are the exceptions named in the statement. |
| C12 | The eight receive regions tile the halo ring exactly | proved | `C12_recv_regions_tile_ring` |  |
| C120 | Quantities are made with the values, size and memory asked for | proved | `MakeQuantity.C120_create`, `MakeQuantity.C120_default_extent`, `MakeQuantity.C120_refused`, `MakeQuantity.C120_field`, `MakeQuantity.C120_allocated`, `MakeQuantity.C120_zeros`, `MakeQuantity.C120_ones`, `MakeQuantity.C120_factory_refused`, `MakeQuantity.C120_full`, `MakeQuantity.C120_from_array`, `MakeQuantity.C120_from_array_accepts`, `MakeQuantity.C120_from_compute_array`, `MakeQuantity.C120_halo_spec`, `MakeQuantity.C120_stretched_violated`, `MakeQuantity.C120_extent_violated`, `MakeQuantity.C120_labels_violated`, `MakeQuantity.C120_no_axes_violated` | The _violated theorems are the exceptions named in the statement. |
| C121 | Factories of stencils and quantities go together, for a single tile and from namelists | proved | `Boilerplate.C121_same_window`, `Boilerplate.C121_inside`, `Boilerplate.C121_single_tile`, `Boilerplate.C121_fit`, `Boilerplate.C121_orchestrated`, `Boilerplate.C121_topology`, `Boilerplate.C121_fortran`, `Boilerplate.C121_flat`, `Boilerplate.C121_unknown`, `Boilerplate.C121_namelist_extent`, `Boilerplate.C121_ny_violated`, `Boilerplate.C121_first_violated`, `Boilerplate.C121_levels_violated` | The _violated theorems are the exceptions named in the statement. |
| C122 | Snapshots of temporaries hold what a program can reach, and their comparison finds every difference | proved | `Temporaries.C122_copied`, `Temporaries.C122_full`, `Temporaries.C122_same`, `Temporaries.C122_reported`, `Temporaries.C122_close`, `Temporaries.C122_unchanged`, `Temporaries.C122_extra_violated`, `Temporaries.C122_shape_violated`, `Temporaries.C122_small_violated`, `Temporaries.C122_order_violated`, `Temporaries.C122_package_violated`, `Temporaries.C122_missing_violated` | The _violated theorems are the exceptions named in the statement. |
| C123 | Reductions over quantities see exactly the compute domain | proved | `Xumpy.C123_max`, `Xumpy.C123_min`, `Xumpy.C123_count`, `Xumpy.C123_axis_refused`, `Xumpy.C123_axis_twice`, `Xumpy.C123_other`, `Xumpy.C123_empty`, `Xumpy.C123_max_plane`, `Xumpy.C123_min_plane`, `Xumpy.C123_plane_arrays`, `Xumpy.C123_kinds`, `Xumpy.C123_order_violated`, `Xumpy.C123_levels_violated`, `Xumpy.C123_mixed_violated` | The _violated theorems are the exceptions named in the statement. |
| C124 | Flipping, transposing or rotating a tile moves its ranks one to one | proved | `RankMoves.C124_fliplr`, `RankMoves.C124_flipud`, `RankMoves.C124_transpose`, `RankMoves.C124_rotate`, `RankMoves.C124_flips_undo`, `RankMoves.C124_square`, `RankMoves.C124_inside`, `RankMoves.C124_refused`, `RankMoves.C124_turns`, `RankMoves.C124_layout_violated` | C124_layout_violated is the exception named in the statement. |
| C125 | What is plotted on the cube is the data, by name, and its colour limits are those of the data | proved | `PlotPrep.C125_grid`, `PlotPrep.C125_grid_refused`, `PlotPrep.C125_plot`, `PlotPrep.C125_plot_refused`, `PlotPrep.C125_shapes`, `PlotPrep.C125_percentile`, `PlotPrep.C125_robust`, `PlotPrep.C125_limits`, `PlotPrep.C125_given`, `PlotPrep.C125_moving_violated`, `PlotPrep.C125_tile_violated`, `PlotPrep.C125_few_violated`, `PlotPrep.C125_ready` | The _violated theorems are the exceptions named in the statement. |
| C126 | Environment variables decide precision, constants, messages, debugger and orchestration as documented | proved | `Settings.C126_constants`, `Settings.C126_precision`, `Settings.C126_messages`, `Settings.C126_unknown_level`, `Settings.C126_twice_violated`, `Settings.C126_no_debugger`, `Settings.C126_debugger`, `Settings.C126_debugger_refused`, `Settings.C126_missing_violated`, `Settings.C126_mode`, `Settings.C126_dace`, `Settings.C126_dace_settings` | The _violated theorems are the exceptions named in the statement. |
| C127 | The physical constants of each version fit together | proved | `Constants.C127_versions`, `Constants.C127_gravity`, `Constants.C127_dry_air`, `Constants.C127_moist_air`, `Constants.C127_latent_heat`, `Constants.C127_temperatures`, `Constants.C127_documented`, `Constants.C127_documented_violated`, `Constants.C127_freezing`, `Constants.C127_freezing_violated` | Exact arithmetic: the rounding of the constants is left out. The _violated theorems are the exceptions named in the statement. |
| C128 | Windows, edges and sizes of the grid of a test are those of the rank's part of the tile | proved | `Translate.C128_windows`, `Translate.C128_shapes`, `Translate.C128_ranges`, `Translate.C128_interfaces`, `Translate.C128_insert`, `Translate.C128_insert_plane`, `Translate.C128_edge_halo`, `Translate.C128_copy_plane_violated`, `Translate.C128_corners`, `Translate.C128_indexing`, `Translate.C128_sizes`, `Translate.C128_layout_violated` | The _violated theorems are the exceptions named in the statement. |
| C129 | Noise put on the inputs of a test is of the size of rounding | proved | `Perturb.C129_untouched`, `Perturb.C129_roundoff`, `Perturb.C129_noise`, `Perturb.C129_single_violated`, `Perturb.C129_one_sided_violated` | C129_single_violated and C129_one_sided_violated are the exceptions named in the statement. |
| C13 | Requesting more halo points than stored is an error, never a truncated region | proved | `C13_no_truncation`, `C13_halo_spec` |  |
| C130 | A failing test saves what was computed, and measured thresholds bound the spread of the samples | proved | `TestReport.C130_saved`, `TestReport.C130_passed`, `TestReport.C130_absolute`, `TestReport.C130_relative`, `TestReport.C130_files`, `TestReport.C130_shape_violated`, `TestReport.C130_absolute_violated`, `TestReport.C130_files_violated` | The theorems ending in _violated are the exceptions named in the statement. |
| C131 | A stencil is compiled with the options of its configuration | proved | `StencilOptions.C131_options`, `StencilOptions.C131_changed`, `StencilOptions.C131_skip`, `StencilOptions.C131_name`, `StencilOptions.C131_name_violated`, `StencilOptions.C131_stale_violated`, `StencilOptions.C131_equal_violated` | C131_changed says exactly which options follow a later change. The theorems ending in _violated are the exceptions named in the statement. |
| C132 | Comparing two files gives the differences at corresponding points | partial | `BestGuess.C132_compared`, `BestGuess.C132_saved_partial`, `BestGuess.C132_ends`, `BestGuess.C132_flatten_violated`, `BestGuess.C132_halo_violated`, `BestGuess.C132_clash_violated` | Proved: which variables are compared at which points, and, had the arrays a method flatten, that exactly their differences are written. False of the code: xarray's arrays have no method flatten, so the program ends with an exception at the first variable it can compare (C132_flatten_violated); data with two dimensions or with a halo along one dimension only ends it too, and the variables x and ulp_x share a name in the file. |
| C133 | The variables of a reference grid are stored at their points | proved | `GridStorage.C133_plane`, `GridStorage.C133_levels`, `GridStorage.C133_left`, `GridStorage.C133_components`, `GridStorage.C133_unit_vectors`, `GridStorage.C133_directions`, `GridStorage.C133_edge_vectors`, `GridStorage.C133_edges`, `GridStorage.C133_edge_row_violated`, `GridStorage.C133_edge_line_violated` | Statements about every completed run; the two theorems with the suffix _violated are general: they describe what every run on a CPU does to the factors along edges. Not covered: edge_vect_s and edge_vect_n. |
| C134 | The grid data of a test is the reference data | proved | `TestGridData.C134_fields`, `TestGridData.C134_unit_vectors`, `TestGridData.C134_edge_lines`, `TestGridData.C134_edges_gpu`, `TestGridData.C134_edges_cpu_violated`, `TestGridData.C134_fortran_violated`, `TestGridData.C134_kept`, `TestGridData.C134_set`, `TestGridData.C134_first`, `TestGridData.C134_named`, `TestGridData.C134_all` | The theorems with the suffix _violated are general. Not covered: the fields fc and fc_agrid, the data of the driver. |
| C135 | Empty storages and reshaped arrays have the right axes | proved | `StorageShape.C135_from_shape`, `StorageShape.C135_masked`, `StorageShape.C135_data_dims`, `StorageShape.C135_data_dims_violated`, `StorageShape.C135_no_sizes`, `StorageShape.C135_dict`, `StorageShape.C135_reshape_same`, `StorageShape.C135_reshape_plane`, `StorageShape.C135_reshape_plane_violated`, `StorageShape.C135_reshape_column_violated`, `StorageShape.C135_reshape_column_wrong`, `StorageShape.C135_reshape_down`, `StorageShape.C135_reshape_refused`, `StorageShape.C135_split`, `StorageShape.C135_split_refused` | The theorems with the suffix _violated are general. What gt4py does with the arguments is not modelled. |
| C136 | Swapping nested nodes of a schedule tree keeps all others | proved | `TreeSwap.C136_swap`, `TreeSwap.C136_others_violated`, `TreeSwap.C136_equal_violated`, `TreeSwap.C136_no_cycle`, `TreeSwap.C136_twice`, `TreeSwap.C136_cycle_violated` | Equality of nodes is DaCe's and a parameter; the theorems with the suffix _violated are general. The one caller in use swaps only with an only child. |
| C137 | Copies between devices and memory for messages | proved | `DeviceCopy.C137_copy`, `DeviceCopy.C137_same`, `DeviceCopy.C137_refused`, `DeviceCopy.C137_allocator`, `DeviceCopy.C137_pool`, `DeviceCopy.C137_made`, `DeviceCopy.C137_optimised_violated`, `DeviceCopy.C137_failed_violated` | What numpy and CuPy do on assignment between devices (a TypeError) and on allocation is an assumption of the model. The theorems with the suffix _violated are general. |
| C138 | OpenMP is taken out of a program graph | proved | `Sequential.C138_nodes`, `Sequential.C138_no_threads`, `Sequential.C138_no_sections`, `Sequential.C138_twice`, `Sequential.C138_serial_violated` | The nodes of all states of a graph are in one list; edges and the contents of nodes are not modelled. |
| C139 | Array helpers for main memory and GPU | proved | `ArrayLib.C139_to_numpy`, `ArrayLib.C139_to_cupy`, `ArrayLib.C139_no_cupy`, `ArrayLib.C139_dtype`, `ArrayLib.C139_dtype_violated`, `ArrayLib.C139_library`, `ArrayLib.C139_index`, `ArrayLib.C139_index_violated`, `ArrayLib.C139_stack`, `ArrayLib.C139_stack_mixed`, `ArrayLib.C139_pad`, `ArrayLib.C139_as_numpy`, `ArrayLib.C139_as_numpy_dict`, `ArrayLib.C139_as_numpy_violated`, `ArrayLib.C139_read`, `ArrayLib.C139_read_violated` | What numpy and CuPy do is an assumption of the model, stated in its head; the order of arrays in memory is not modelled. |
| C14 | Quantity views index relative to the compute domain | proved | `C14_view_addresses`, `C14_full_view_is_compute_domain`, `C14_negative_index_violated` | the NumPy reading of negative indices is false of the code (witness) |
| C140 | Serialized data of parallel translate tests | proved | `ParallelTranslate.C140_input`, `ParallelTranslate.C140_state`, `ParallelTranslate.C140_round_trip`, `ParallelTranslate.C140_name_violated`, `ParallelTranslate.C140_twice_violated`, `ParallelTranslate.C140_plain`, `ParallelTranslate.C140_plain_violated` | Data types, units and devices are not modelled; transposition to dims with one moved is the moving of that axis. |
| C141 | Halo updates of a state by name | proved | `WrappedHalo.C141_start`, `WrappedHalo.C141_update`, `WrappedHalo.C141_history`, `WrappedHalo.C141_current`, `WrappedHalo.C141_missing`, `WrappedHalo.C141_other`, `WrappedHalo.C141_refused`, `WrappedHalo.C141_interface`, `WrappedHalo.C141_interface_refused`, `WrappedHalo.C141_interface_violated`, `WrappedHalo.C141_check`, `WrappedHalo.C141_check_violated` | Quantities are objects given by numbers; what is sent is the subject of C01 to C05 and others. Runs with __debug__. |
| C142 | Lengths and coefficients exchanged as vectors | proved | `C142_fill`, `C142_sign`, `C142_pairs`, `C142_negative_violated` | On top of C20 and C21. Values are an ordered group; the filling of corners afterwards is C50 and C51. |
| C143 | Orchestrating a method changes this method of this object only | proved | `Orchestrate.C143_compiled`, `Orchestrate.C143_others`, `Orchestrate.C143_untouched`, `Orchestrate.C143_history`, `Orchestrate.C143_off`, `Orchestrate.C143_class`, `Orchestrate.C143_arguments`, `Orchestrate.C143_function`, `Orchestrate.C143_twice_violated`, `Orchestrate.C143_config_violated`, `Orchestrate.C143_shared_violated` | What compilation does with the function is C27 and C89. A class carries the methods found along its bases. |
| C144 | A grid from external data is one grid on the whole cube | proved | `C144_owner`, `C144_external` | On top of C19, C20 and C51. C144_owner does not assume that the given values agree between ranks. The arrays handed in have the shape of the compute domain; the cell centres computed afterwards are not part of it. |
| C145 | The grid of corners is one grid of the sphere, halos and tile corners included | proved | `C145_grid`, `C145_agree`, `C145_range` | On top of C78, C79 and C144_owner. Exact real arithmetic; ranks have at least three by three cells. |
| C146 | Cell centres in the halo are those of the cells there | proved | `C146_centres`, `C146_edges`, `C146_corners_violated` | On top of C19, C20 and C51. C146_corners_violated holds for every corner point of every tile. The centres of a rank's own cells are given; their computation from corners is part of C97. |
| C147 | Lengths of cell edges in the halo are distances of corners in the halo | proved | `C147_lengths` | On top of C142 and C145. Exact real arithmetic; before the lengths beyond corners of tiles are filled. |
| C148 | The debugger is shown the arguments of an instrumented method, and the method runs as without it | proved | `Instrument.C148_data`, `Instrument.C148_transparent`, `Instrument.C148_saves`, `Instrument.C148_extra_violated`, `Instrument.C148_shadow_violated` | The saved data are references, so the second save shows what the method made of them. Defaults of parameters are not shown, since the call does not give them. What the debugger does with the data is C64. |
| C15 | Scalar rotation is a quarter-turn group action | proved | `C15_rotation_group`, `C15_rotation_inverse`, `C15_quarter_turns`, `C15_single_dim_violated` | with exactly one horizontal dim the group law is false in the code (witness) |
| C16 | Vector rotation turns components consistently | proved | `C16_components_turn`, `C16_shapes`, `C16_vector_inverse` |  |
| C17 | Packing then unpacking restores every quantity's region | proved | `C17_scalar_round_trip`, `C17_vector_round_trip`, `C17_count_mismatch_refused` |  |
| C18 | Scalar halo update on a tile yields the periodic extension | proved | `C18_tile_halo_fill`, `C18_tile_periodic_extension` |  |
| C19 | Scalar halo update on the cubed sphere yields the folded neighbour values | proved | `C19_cube_halo_fill`, `C19_cube_extension`, `C19_code_decomposition`, `C19_mixed_stagger_violated` | with only one horizontal dimension on interfaces the update fails (witness) |
| C20 | Halo updates never change the compute domain | proved | `C20_halo_update_keeps`, `C20_vector_halo_update_keeps`, `C20_missing_dimension_violated` | for quantities with one x and one y dimension; false for a quantity without an x dimension (witness) |
| C21 | Vector halo update delivers components in the receiver's orientation | proved | `C21_cube_vector_halo_fill`, `C21_cube_vector_extension`, `C21_tile_vector_halo_fill`, `C21_tile_small` |  |
| C22 | Vector interface synchronisation makes shared edges consistent | proved | `C22_cube_shared_edges`, `C22_not_on_edges`, `C22_leading_vertical_violated` | Cubed sphere, all layouts n x n, mirror-symmetric decompositions with at least one cell per rank, any number of trailing dimensions. The code reverses axis 0 of the edge, so a leading vertical dimension breaks the claim: C22_leading_vertical_violated. |
| C23 | GPU packing indices agree with CPU packing | proved | `C23_pack_scalar`, `C23_pack_vector`, `C23_unpack_scalar`, `C23_unpack_vector`, `C23_c_order` | Kernels modelled as one-write threads run in any permutation. Distinct quantities have distinct memories. float32/float64 kernel selection is not modelled. |
| C24 | Cached GPU index maps are only reused for the same map | partial | `C24_cache_partial`, `C24_dims_violated`, `C24_direction_violated` | The code violates the full property (witnesses proved); the partial theorem covers every history in which same-key requests agree on the positions of x/y dims and on the direction. |
| C25 | Halo updater protocol is enforced | proved | `C25_alternate`, `C25_refusals`, `C25_failed_start_orphans` | A start that fails while packing leaves its posted receives behind (witness C25_failed_start_orphans). |
| C26 | Pooled buffers never have two owners | proved | `C26_single_owner`, `C26_double_wait_violated` |  |
| C27 | Concurrent halo updates never mix messages | proved | `C27_tags`, `C27_messages`, `C27_interface_sync_violated` | Interface synchronisations always use tag 1; the witness shows the in-process communicator delivering the wrong message. |
| C28 | Halo exchange is deadlock free and schedule independent | proved | `C28_no_deadlock`, `C28_lockstep`, `C28_schedule_independent` | Sends are assumed unbuffered (a wait also needs the peers' receives posted), the strictest MPI behaviour; start posts without blocking. |
| C29 | Scatter followed by gather restores the global field | proved | `C29_scatter_tile`, `C29_scatter_cube`, `C29_gather_scatter_tile`, `C29_gather_scatter_cube`, `C29_scatter_gather_tile`, `C29_scatter_gather_cube`, `C29_scatter_no_halo`, `C29_scatter_into`, `C29_gather_no_halo`, `C29_gather_into` | Floating-point rounding enters as the stated hypothesis EvenFloats (the division in the sizer gives the even share). A count mismatch in Scatter/Gather is modelled as raising. |
| C30 | State scatter and gather act on every entry and on time | proved | `C30_scatter_entries`, `C30_scatter_calls`, `C30_gather_entries`, `C30_gather_order_violated` | Generic in the quantity operations, which C29 covers. |
| C31 | Unequal subtiles are scattered faithfully | partial | `C29_scatter_tile`, `C29_scatter_cube`, `C31_uneven_raises`, `C31_uneven_violated` | The code violates the claim: scatter raises for every decomposition with unequal extents (C31_uneven_raises, witness C31_uneven_violated). What holds: whenever scatter returns, every rank has exactly its part (C29_scatter_*). |
| C32 | The in-process communicator delivers messages in order per channel | proved | `Local.C32_in_order`, `Local.C32_raises_iff` |  |
| C33 | An in-process gather only completes with this round's data | proved | `Local.C33_gather_latest`, `Local.C33_rounds_partial`, `Local.C33_stale_violated` | Statement restricted: stale contributions are proved to be returned. |
| C34 | Recorded communication replays identically | proved | `Caching.C34_replay_partial`, `Caching.C34_wait_order_violated`, `Caching.C34_gather_nonroot_violated` | Programs are arbitrary deterministic strategies; the wrapped communicator's deliveries are arbitrary. Statement restricted; the full claim is false of the code. |
| C35 | Allocated quantities fit their compute domain and halo | proved | `C35_known_dims`, `C35_fit`, `C35_interface_cell` |  |
| C36 | Transposing a quantity permutes indices and nothing else | proved | `C36_transpose_iff`, `C36_transpose_values`, `C36_round_trip`, `C36_halo_lost_violated` | Statement restricted: loss of the halo width is proved as a witness. |
| C37 | Swapping in a buffer that cannot hold the compute domain is refused | partial | `C37_refused_iff_partial`, `C37_one_axis_partial`, `C37_first_axis_partial`, `C37_single_difference_partial`, `C37_small_accepted_violated`, `C37_origin_violated` | The full claim is false of the code: shape < extent compares tuples lexicographically and ignores the origin (two witnesses). Proved: exactly which buffers are refused, and the claim for one axis and for buffers differing along one axis. |
| C38 | Extending a factory with data dimensions leaves the original factory alone | proved | `Factory.C38_add_all_or_nothing`, `Factory.C38_other_factories`, `Factory.C38_extend_partial`, `Factory.C38_extend_mutates_violated` | Statement restricted: that extending leaves the original untouched is false of the code (witness). |
| C39 | A field bundle's named view shows that bundle's data | partial | `Bundle.C39_first_access_partial`, `Bundle.C39_own_view_partial`, `Bundle.C39_shared_views_violated`, `Bundle.C39_remap_violated` | The full claim is false of the code: views are memoised in a dictionary shared by all bundles (two witnesses). Proved: exactly which view an access returns after any history, and the claim when the name was accessed before on this bundle only with its present index. |
| C40 | State updates are by field and reject missing data | partial | `StateUpd.C40_copy_exact_partial`, `StateUpd.C40_copy_succeeds_partial`, `StateUpd.C40_none_refused_partial`, `StateUpd.C40_others_unchanged`, `StateUpd.C40_move_partial`, `StateUpd.C40_clash_violated`, `StateUpd.C40_clash_refused_violated`, `StateUpd.C40_move_none_violated`, `StateUpd.C40_not_atomic_violated` | Proved for copies into states in which no name is used with two meanings; false otherwise (flags are kept by leaf name) and for moves (None never refused), with witnesses. |
| C41 | Temporary dimension swaps are always undone | proved | `Factory.C41_restored`, `Factory.C41_state_allocation`, `Factory.C41_class_restored_partial`, `Factory.C41_class_violated` |  |
| C42 | Stencil configurations are equal exactly when their options are equal | partial | `Compile.C42_same_options_partial`, `Compile.C42_equal_iff_partial`, `Compile.C42_single_difference_partial`, `Compile.C42_swapped_options_violated`, `Compile.C42_run_mode_violated`, `Compile.C42_backend_violated` | The claim is false of the code: the hash sees only the GT4Py name and how many options are on. Proved: equal options give equal configurations; an exact characterisation of equality; single differences are told apart; and the violations. |
| C43 | Every code path is compiled by exactly one rank | proved | `Compile.C43_compiled_once_iff`, `Compile.C43_square`, `Compile.C43_single_code_path`, `Compile.C43_thin_layout_refused`, `Compile.C43_nonsquare_violated`, `Compile.C43_nonsquare_twice_violated` | Exact condition proved: true for square and two-wide layouts, refused for one-wide layouts, false for all others. |
| C44 | In run mode every rank reads a cache of an equivalent rank | proved | `Compile.C44_run_mode`, `Compile.C44_build_modes`, `Compile.C44_compiling_ranks` |  |
| C45 | Compile waiters and unblockers are matched one to one | partial | `Compile.C45_matching_partial`, `Compile.C45_float_destination_violated`, `Compile.C45_single_tile_violated`, `Compile.C45_alone` | The destinations are Python floats, which mpi4py refuses: with more than one rank no message is ever sent. Proved: as numbers the destinations match the waiting ranks one to one, and a rank that is alone sends nothing. |
| C46 | Backend names decode consistently | proved | `Backend.C46_decodes`, `Backend.C46_accepts`, `Backend.C46_rejects`, `Backend.C46_layout_map`, `Backend.C46_equality`, `Backend.C46_gt4py_name`, `Backend.C46_questions`, `Backend.C46_path` |  |
| C47 | Grid indexing origins and domains stay inside the storage they request | proved | `Indexing.C47_origin_domain`, `Indexing.C47_inside`, `Indexing.C47_max_shape`, `Indexing.C47_restrict`, `Indexing.C47_restrict_compose`, `Indexing.C47_restricted_violated`, `Indexing.C47_vertical_halo_violated`, `Indexing.C47_windows`, `Indexing.C47_level` | Statement restricted where the code violates it (witnesses). |
| C48 | The tridiagonal solver solves the system | proved | `Column.C48_tridiag_solves`, `Column.C48_masked_solves`, `Column.C48_masked_agrees`, `Column.C48_diagonally_dominant` | Exact arithmetic in an arbitrary field. |
| C49 | Column extrema are the extrema and their first location | proved | `Column.C49_column_max`, `Column.C49_column_min`, `Column.C49_column_ddim` | Any linear order (no NaN). |
| C50 | Corner-fill stencils copy by a quarter turn about the tile corner | proved | `Corner.C50_source_exists`, `Corner.C50_bgrid_x`, `Corner.C50_bgrid_y`, `Corner.C50_cells`, `Corner.C50_dgrid`, `Corner.C50_dgrid_vector_signs`, `Corner.C50_copy_corners`, `Corner.C50_ranks`, `Corner.C50_small_tile_violated` | In place needs three cells (witness). |
| C51 | Array corner fills agree with the stencil corner fills | partial | `Corner.C51_agrid_x`, `Corner.C51_agrid_y`, `Corner.C51_agrid_vector`, `Corner.C51_bgrid_x`, `Corner.C51_bgrid_y_partial`, `Corner.C51_dgrid_vector_partial`, `Corner.C51_cgrid_vector_partial`, `Corner.C51_agree_bgrid_x`, `Corner.C51_agree_agrid`, `Corner.C51_agree_dgrid`, `Corner.C51_bgrid_y_violated`, `Corner.C51_bgrid_rows_violated`, `Corner.C51_dgrid_halo_violated`, `Corner.C51_cgrid_halo_violated` | The claim is false of the code for the B grid in y direction (north-east corner), for arrays with extra rows, and for C/D grid with a halo other than three: witnesses. Everything else is proved. |
| C52 | Merging loops on an axis preserves results | partial | `AxisMerge.C52_merge_partial`, `AxisMerge.C52_pass_partial`, `AxisMerge.C52_push_partial`, `AxisMerge.C52_write_after_read_violated`, `AxisMerge.C52_write_after_write_violated`, `AxisMerge.C52_lower_dimension_violated`, `AxisMerge.C52_wide_read_violated`, `AxisMerge.C52_fixed_index_violated`, `AxisMerge.C52_sum_violated`, `AxisMerge.C52_empty_map_violated`, `AxisMerge.C52_loop_violated`, `AxisMerge.C52_dependent_kept`, `AxisMerge.C52_merge_checked_partial` | The claim is false of the code: the dependency check looks only at reads after writes, at first indices and at data that have the axis, and moving tasklets and loops into maps is not checked at all (eight witnesses, through the whole optimisation). Proved for all programs in which what is written is accessed only at the same index along the axis, for all inputs and all orders of the iterations. The check is shown to refuse dependent maps, and to be enough when each map is parallel and the second writes nothing the first accesses. |
| C53 | The over-computation guard runs each body exactly on its original range | proved | `AxisMerge.C53_iterations`, `AxisMerge.C53_covers`, `AxisMerge.C53_guard`, `AxisMerge.C53_loop`, `AxisMerge.C53_unique_variables_violated` | Repeated merging of loops over different variables loses iterations (witness), since conditions are not renamed; repeated merging over the same variable is part of AxisMerge.C52_pass_partial. |
| C54 | Vertical splitting covers each level once | proved | `KSplit.C54_intervals`, `KSplit.C54_each_level_once`, `KSplit.C54_run`, `KSplit.C54_no_level_violated`, `KSplit.C54_short_array_violated` | For a column without levels, or parameter arrays shorter than the column, the claim fails (witnesses). |
| C55 | Timer totals are the sums of the measured intervals | proved | `Timing.C55_log_exists`, `Timing.C55_totals`, `Timing.C55_misuse`, `Timing.C55_clock`, `Timing.C55_null` | All histories and all clocks. |
| C56 | Calibrated thresholds bound the differences of the trials | proved | `Calib.C56_absolute`, `Calib.C56_attained`, `Calib.C56_relative`, `Calib.C56_present`, `Calib.C56_insufficient`, `Calib.C56_merge`, `Calib.C56_validates`, `Calib.C56_relative_violated`, `Calib.C56_fewer_calls_violated`, `Calib.C56_raised_violated` | The stronger reading (relative to the value of one of the trials) is false, as are thresholds for calls the last trial did not make and for trials that raised (witnesses). Exact arithmetic. |
| C57 | Recorded snapshots are independent and ordered | proved | `Snap.C57_stored`, `Snap.C57_dataset_exists`, `Snap.C57_dataset`, `Snap.C57_names_violated` | A variable called x_savepoints replaces the savepoint list of x (witness). |
| C58 | Every stored time step is written to disk exactly once | proved | `NetCDF.C58_running`, `NetCDF.C58_final`, `NetCDF.C58_store_ok`, `NetCDF.C58_rejects`, `NetCDF.C58_cleanup_violated` | A clean-up in the middle of a chunk followed by further stores loses states (witness). |
| C59 | Zarr monitor writes every global point exactly once per step | proved | `Zarr.C59_stored`, `Zarr.C59_global_field`, `Zarr.C59_chunks`, `Zarr.C59_rejects`, `Zarr.C59_names`, `Zarr.C59_constants`, `Zarr.C59_time_violated`, `Zarr.C59_extents_violated` | The even division of a tile into ranks assumes the two floating point results of C05. Time encoding and data types are not modelled. |
| C60 | Namelist flattening keeps every setting | proved | `Nml.C60_lossless`, `Nml.C60_sound`, `Nml.C60_groups`, `Nml.C60_targets`, `Nml.C60_nested_violated` | f90nml itself (parsing, lower-casing) is not modelled. |
| C61 | Numerical comparison accepts equal data and rejects different data | proved | `Compare.C61_legacy_numbers`, `Compare.C61_nan`, `Compare.C61_legacy_self`, `Compare.C61_legacy_bool`, `Compare.C61_legacy_all`, `Compare.C61_multi_numbers`, `Compare.C61_multi_self`, `Compare.C61_history`, `Compare.C61_thresholds`, `Compare.C61_multi_rejects`, `Compare.C61_infinity_violated`, `Compare.C61_bool_violated`, `Compare.C61_sticky_violated` | Arithmetic on finite numbers is exact (no rounding or overflow); the spacing of numbers is any positive function. Reports are not modelled. |
| C62 | Restart names map one to one | proved | `Restart.C62_renames`, `Restart.C62_distinct`, `Restart.C62_table_names`, `Restart.C62_table_restart_names`, `Restart.C62_shared_violated`, `Restart.C62_clash_violated`, `Restart.C62_dims`, `Restart.C62_dims_violated`, `Restart.C62_load`, `Restart.C62_files`, `Restart.C62_suffix`, `Restart.C62_suffix_rejects`, `Restart.C62_filenames`, `Restart.C62_filenames_inj`, `Restart.C62_tracers`, `Restart.C62_table_dims`, `Restart.C62_table_winds` | xarray reading, and renaming a dimension to a name already taken, are not modelled. The real table is in Verif.Model.RestartTable. |
| C63 | Vertical coordinate setup accepts exactly valid coefficients | proved | `Eta.C63_accepts`, `Eta.C63_result`, `Eta.C63_pure_pressure`, `Eta.C63_monotone`, `Eta.C63_source`, `Eta.C63_ks_violated`, `Eta.C63_levels_violated` | Exact arithmetic: rounding and NaN are not modelled. |
| C64 | Debugger output files are never overwritten | proved | `Dbg.C64_no_overwrite`, `Dbg.C64_count`, `Dbg.C64_recursive_violated`, `Dbg.C64_raised_violated`, `Dbg.C64_numbering` | Function names have no dash and parameter names no slash, as in Python. Contents of the files are not modelled. |
| C65 | Dimension-keyed lists follow the dims order | proved | `ByDims.C65_values`, `ByDims.C65_determined`, `ByDims.C65_model`, `ByDims.C65_rejects` |  |
| C66 | In-process broadcasts and scatters pair calls by number | proved | `Local.C66_bcast`, `Local.C66_scatter`, `Local.C66_bcast_alias_violated` |  |
| C67 | A rank's allocations have the size of its part of the tile | proved | `C67_allocated_extent` |  |
| C68 | A field bundle type is registered once | proved | `Bundle.C68_register_once`, `Bundle.C68_second_raises` |  |
| C69 | Compilation options survive the dictionary form | proved | `Backend.C69_roundtrip`, `Backend.C69_defaults` |  |
| C70 | Axis offsets denote fixed places of the grid | proved | `Indexing.C70_local_bounds`, `Indexing.C70_edges`, `Indexing.C70_no_edge`, `Indexing.C70_offset` |  |
| C71 | Every field of a stencil starts at the stencil's origin | proved | `Indexing.C71_single_origin`, `Indexing.C71_mapping` |  |
| C72 | The elementary stencils compute what they say, point by point | proved | `Column.C72_select_k`, `Column.C72_pointwise`, `Column.C72_sign_dim`, `Column.C72_sign_zero` | Exact arithmetic. |
| C73 | Validation accepts exactly what is within the thresholds | proved | `Calib.C73_clip`, `Calib.C73_accepts`, `Calib.C73_trial` | Clipping is modelled per dimension. |
| C74 | Performance report adds up | proved | `Perf.C74_measured`, `Perf.C74_rank0`, `Perf.C74_all_ranks`, `Perf.C74_sypd`, `Perf.C74_sypd_none`, `Perf.C74_names_violated`, `Perf.C74_twice_violated`, `Perf.C74_timesteps_violated` | Restricted statement; the exceptions are proved as *_violated. |
| C75 | Stretched grid: stretching towards a pole followed by a rotation to the target | proved | `Stretch.C75_turn`, `Stretch.C75_stretch`, `Stretch.C75_stretch_one`, `Stretch.C75_position`, `Stretch.C75_rotation`, `Stretch.C75_centre`, `Stretch.C75_range`, `Stretch.C75_range_violated`, `Stretch.C75_injective_violated` | Over the reals (no rounding). Restricted statement; the exceptions are proved as *_violated. |
| C76 | Distances, midpoints and angles on the sphere | proved | `Sphere.C76_convert`, `Sphere.C76_round_trip`, `Sphere.C76_distance`, `Sphere.C76_metric`, `Sphere.C76_midpoint`, `Sphere.C76_lon_lat_midpoint`, `Sphere.C76_midpoint_violated`, `Sphere.C76_angle`, `Sphere.C76_angle_props`, `Sphere.C76_fortran`, `Sphere.C76_less_than_pi_violated`, `Sphere.C76_lonlat_vect`, `Sphere.C76_direction` | Over the reals (no rounding). Restricted statement; the exceptions are proved as *_violated. |
| C77 | Areas on the sphere are correct and add up | proved | `Sphere.C77_triangle`, `Sphere.C77_rectangle`, `Sphere.C77_sphere`, `Sphere.C77_sphere_shifted` | Real arithmetic in place of floating point; the set of corner cells replaced by triangles (outside of the tile, get_area's halo) is not modelled. |
| C78 | Every rank computes its own part of the same grid | proved | `Sphere.C78_local`, `Sphere.C78_rank`, `Sphere.C78_shift` | Real arithmetic; the equidistant gnomonic grid (grid_type 0) without stretching (C75). The correction for the South Pole meridians in mirror.py 196-209 is shown to do nothing (Sphere.fix5_eq). |
| C79 | The six tiles form one grid of the sphere, matching the partitioner | proved | `Sphere.C79_one_grid`, `Sphere.C79_neighbours` | Real arithmetic. Uses the cube of Spec/Cube, with which C08 describes the partitioner's neighbours. |
| C80 | Winds are converted from the cubed-sphere grid to east and north exactly | proved | `Sphere.C80_winds`, `Sphere.C80_winds_shifted`, `Sphere.C80_cubic`, `Sphere.C80_flat` | Exact real arithmetic; one level; corners as modelled for C78; the regions of the stencil are given as in C70. |
| C81 | On one rank the wind conversion uses the repeated domain, and unreadable states are refused | proved | `Sphere.C81_periodic`, `Sphere.C81_one_rank`, `Sphere.C81_state`, `Sphere.C81_state_violated`, `Sphere.C81_order_violated` | States as dictionaries. |
| C82 | The vertical grid's reference pressures fit together | proved | `GridHelper.C82_levels`, `GridHelper.C82_top`, `GridHelper.C82_history`, `GridHelper.C82_stale_violated`, `GridHelper.C82_setters_violated` | Exact real arithmetic. |
| C83 | Driver data and Coriolis parameters are what the grid says | proved | `GridHelper.C83_split`, `GridHelper.C83_driver`, `GridHelper.C83_driver_violated`, `GridHelper.C83_terms`, `GridHelper.C83_coriolis`, `GridHelper.C83_coriolis_violated` | Exact arithmetic; units left out. |
| C84 | Interpolation factors at tile edges do not depend on the decomposition | proved | `Edges.C84_corners`, `Edges.C84_sides`, `Edges.C84_place`, `Edges.C84_refused`, `Edges.C84_corner_weights`, `Edges.C84_side_weights`, `Edges.C84_rectangle_violated`, `Edges.C84_halo_violated` | Halo of 3; distances and midpoints abstract (any functions); one-dimensional broadcasting of numpy assignments explicit. |
| C85 | Sines and cosines of grid angles in the ghost cells at tile corners | proved | `Supergrid.C85_ghost`, `Supergrid.C85_rest`, `Supergrid.C85_first`, `Supergrid.C85_northwest_violated`, `Supergrid.C85_halo_violated` | Arrays as functions of indices; at least one cell inside the halo. |
| C86 | Angles of grid cells and unit vectors along grid lines are exact | proved | `Sphere.C86_cell`, `Sphere.C86_sine`, `Sphere.C86_corner`, `Sphere.C86_unit`, `Sphere.C86_unit_side`, `Sphere.C86_rank`, `Sphere.C86_rank_cell` | Real arithmetic. |
| C87 | Shrinking temporaries does not change results | proved | `Refine.C87_decision`, `Refine.C87_others`, `Refine.C87_two_maps`, `Refine.C87_preserved`, `Refine.C87_loops_violated`, `Refine.C87_recurrence_violated`, `Refine.C87_strides`, `Refine.C87_layout`, `Refine.C87_memory` | Iterations of a map run one after the other, in any order; index expressions are a variable plus a number, or a number. |
| C88 | Orchestrated calls run with their own arguments | proved | `Orch.C88_own`, `Orch.C88_unhashable`, `Orch.C88_same_program`, `Orch.C88_refused`, `Orch.C88_keywords_violated`, `Orch.C88_minus_one_violated`, `Orch.C88_views_violated`, `Orch.C88_closure_violated`, `Orch.C88_zero_violated` | What DaCe builds, loads and makes of the arguments are arbitrary functions; that it adds the closure when it makes the arguments is knowledge about DaCe. |
| C89 | Orchestrated methods are bound to their own object | proved | `Orch.C89_bound`, `Orch.C89_once`, `Orch.C89_config_violated` | Objects held by the table are not disposed of: this is Python's rule. |
| C90 | Distributed builds: every rank loads the library built for it | proved | `Dist.C90_loads`, `Dist.C90_no_deadlock`, `Dist.C90_terminates`, `Dist.C90_crash_blocks`, `Dist.C90_partitioners`, `Dist.C90_names_violated`, `Dist.C90_absent_violated` | A build is two steps, with no usable library in between; the file system is shared and consistent. |
| C91 | Precompiled libraries are checked against the configuration | proved | `BuildInfo.C91_check`, `BuildInfo.C91_square`, `BuildInfo.C91_missing`, `BuildInfo.C91_levels_violated`, `BuildInfo.C91_columns_violated`, `BuildInfo.C91_default_violated`, `BuildInfo.C91_dict`, `BuildInfo.C91_dict_violated` | The text of the file is modelled; quotients are compared exactly. |
| C92 | Runtime classes: construction, orchestration and locals | proved | `Runtime.C92_super`, `Runtime.C92_wrappers`, `Runtime.C92_not_wrapped`, `Runtime.C92_twice_violated`, `Runtime.C92_warnings`, `Runtime.C92_first`, `Runtime.C92_second_violated`, `Runtime.C92_own`, `Runtime.C92_elsewhere`, `Runtime.C92_sibling_violated`, `Runtime.C92_depth` | Single inheritance; constructors are lists of steps; attributes form a tree. |
| C93 | Grid terms do not depend on the order in which they are read | proved | `Metric.C93_value`, `Metric.C93_once`, `Metric.C93_communication`, `Metric.C93_ranks`, `Metric.C93_order_violated`, `Metric.C93_cartesian_nan_violated` | Values are symbolic: which functions of geometry.py are applied to which data; the placement inside arrays is left out. Vertical coordinates are not lazy and not included. |
| C94 | Arrays derived from grid positions do not depend on the decomposition | proved | `Deriv.C94_centre`, `Deriv.C94_west`, `Deriv.C94_south`, `Deriv.C94_xy`, `Deriv.C94_momentum`, `Deriv.C94_trig`, `Deriv.C94_divg`, `Deriv.C94_shared_vectors`, `Deriv.C94_shared_trig`, `Deriv.C94_limit`, `Deriv.C94_limit_violated`, `Deriv.C94_flat_violated` | Points are abstract with abstract operations (midpoint, cross product, normalisation); numbers are any type with arithmetic and an order. |
| C95 | Allocating a state gives exactly the declared fields, and its locals stay with their runtime object | proved | `Alloc.C95_factory`, `Alloc.C95_alloc`, `Alloc.C95_full`, `Alloc.C95_full_violated`, `Alloc.C95_locals`, `Alloc.C95_access`, `Alloc.C95_as_state`, `Alloc.C95_as_state_violated`, `Alloc.C95_guard_violated` | The sizer's shape for dimensions under given data dimensions is a parameter. |
| C96 | A state read from a file is the one last saved by the same rank | proved | `StateFiles.C96_round_trip`, `StateFiles.C96_depth_violated`, `StateFiles.C96_names`, `StateFiles.C96_names_postfix`, `StateFiles.C96_names_violated`, `StateFiles.C96_history`, `StateFiles.C96_none_violated`, `StateFiles.C96_coordinate_violated` | xarray and the file system are modelled as far as they matter here: refused datasets, sizes of dimensions, coordinates; what xarray decodes on reading is left out. |
| C97 | Lengths and areas of the grid do not depend on the decomposition | proved | `Sizes.C97_centres`, `Sizes.C97_sides`, `Sizes.C97_widths`, `Sizes.C97_area`, `Sizes.C97_across`, `Sizes.C97_corner_area`, `Sizes.C97_triangles`, `Sizes.C97_shared`, `Sizes.C97_extremes`, `Sizes.C97_extremes_violated` | Before the halo exchange and filling of ghost corners that follow in the code; positions, distances and areas are abstract operations. |
| C98 | A storage made from an array holds it at its start and zeros elsewhere | proved | `Storage.C98_full`, `Storage.C98_line`, `Storage.C98_row`, `Storage.C98_line_full`, `Storage.C98_plane`, `Storage.C98_plane_full`, `Storage.C98_plane_dummy`, `Storage.C98_dict`, `Storage.C98_lost_violated`, `Storage.C98_start_violated`, `Storage.C98_dummy_violated`, `Storage.C98_rank4_violated`, `Storage.C98_dict_violated`, `Storage.C98_line_dummy` | numpy's slicing, broadcasting, repeat, tile, moveaxis and reshape are modelled for arrays of any rank; gt4py is given the array, aligned index and dimensions. |
| C99 | A state written to a file is read back; the date of a restart | proved | `StateIO.C99_round_trip`, `StateIO.C99_written`, `StateIO.C99_refused`, `StateIO.C99_history`, `StateIO.C99_attributes`, `StateIO.C99_halo_violated`, `StateIO.C99_coordinate_violated`, `StateIO.C99_precision_violated`, `StateIO.C99_units_violated`, `StateIO.C99_series_violated`, `StateIO.C99_date`, `StateIO.C99_calendar`, `StateIO.C99_dataset`, `StateIO.C99_series` | exceptions named in the statement are proved with witnesses; xarray's encoding of dates is assumed to be undone by its decoding (shown for an example) |

## 5. Axioms

Output of `#print axioms` for every theorem of the manifest, grouped.  No theorem depends on anything else.

* no axioms (43): ArrayLib.C139_as_numpy, ArrayLib.C139_as_numpy_violated, ArrayLib.C139_library, Backend.C46_gt4py_name, ByDims.C65_determined, C37_origin_violated, C37_small_accepted_violated, CacheDirs.C117_alone, CleanTree.C109_else_violated, CleanTree.C109_passes, Compile.C43_nonsquare_twice_violated, Compile.C45_float_destination_violated, Compile.C45_single_tile_violated, Dbg.C64_raised_violated, Dbg.C64_recursive_violated, Deriv.C94_flat_violated, GridHelper.C83_coriolis, GridHelper.C83_coriolis_violated, Labels.C119_deterministic, Labels.C119_loop_violated, Labels.C119_single_violated, Labels.C119_untaken_violated, NetCDF.C58_cleanup_violated, Nml.C60_nested_violated, Reduce.C103_order_violated, Reduce.C103_twice_violated, Restart.C62_clash_violated, Restart.C62_dims_violated, Restart.C62_suffix_rejects, Restart.C62_table_names, Restart.C62_table_restart_names, Restart.C62_table_winds, Settings.C126_mode, Sizes.C97_extremes_violated, StencilCall.C107_pair_violated, StencilOptions.C131_name_violated, TestCases.C110_backend_violated, TestCases.C110_file_violated, TestCases.C110_gpu, TestCases.C110_other_violated, TestCases.C110_outvars_violated, Translate.C100_layout_violated, Translate.C100_uneven_violated
* `propext` (181): Alloc.C95_as_state_violated, Alloc.C95_factory, Alloc.C95_full_violated, ArrayLib.C139_dtype_violated, ArrayLib.C139_index_violated, ArrayLib.C139_no_cupy, ArrayLib.C139_read, ArrayLib.C139_read_violated, ArrayLib.C139_to_cupy, AxisMerge.C52_empty_map_violated, AxisMerge.C52_fixed_index_violated, AxisMerge.C52_loop_violated, AxisMerge.C52_lower_dimension_violated, AxisMerge.C52_sum_violated, AxisMerge.C52_wide_read_violated, AxisMerge.C52_write_after_read_violated, AxisMerge.C52_write_after_write_violated, AxisMerge.C53_unique_variables_violated, Backend.C46_layout_map, Backend.C69_defaults, BestGuess.C132_halo_violated, BuildInfo.C91_dict, BuildInfo.C91_dict_violated, BuildInfo.C91_missing, Bundle.C39_remap_violated, Bundle.C39_shared_views_violated, C07_nonsquare_refused, C11_wide_send_violated, C142_negative_violated, C14_negative_index_violated, C15_single_dim_violated, C17_count_mismatch_refused, C19_mixed_stagger_violated, C20_missing_dimension_violated, C21_tile_small, C22_leading_vertical_violated, C24_dims_violated, C24_direction_violated, C25_alternate, C26_double_wait_violated, C29_gather_into, C30_gather_order_violated, CacheDirs.C117_variable_violated, Caching.C34_gather_nonroot_violated, Caching.C34_wait_order_violated, CleanTree.C109_all, CleanTree.C109_clean, CleanTree.C109_meaning, CleanTree.C109_nodes, CleanTree.C109_order, CleanTree.C109_twice, Column.C49_column_ddim, Compile.C43_thin_layout_refused, Corner.C50_small_tile_violated, Corner.C51_bgrid_rows_violated, Corner.C51_bgrid_y_violated, Corner.C51_cgrid_halo_violated, Corner.C51_dgrid_halo_violated, DeviceCopy.C137_allocator, DeviceCopy.C137_failed_violated, DeviceCopy.C137_made, DeviceCopy.C137_optimised_violated, DeviceCopy.C137_pool, Factory.C38_extend_mutates_violated, Factory.C41_class_restored_partial, Factory.C41_class_violated, GridHelper.C83_driver, GridHelper.C83_driver_violated, GridHelper.C83_terms, Indexing.C47_restricted_violated, Indexing.C47_vertical_halo_violated, Instrument.C148_extra_violated, Instrument.C148_saves, Instrument.C148_shadow_violated, Instrument.C148_transparent, KSplit.C54_no_level_violated, KSplit.C54_short_array_violated, Local.C32_in_order, Local.C33_stale_violated, Local.C66_bcast_alias_violated, Metric.C93_cartesian_nan_violated, Metric.C93_order_violated, Orch.C88_zero_violated, Orch.C89_bound, Orch.C89_once, Orchestrate.C143_config_violated, Orchestrate.C143_off, Orchestrate.C143_shared_violated, Orchestrate.C143_twice_violated, ParallelTranslate.C140_name_violated, ParallelTranslate.C140_twice_violated, PlotPrep.C125_tile_violated, RankMoves.C124_layout_violated, RankMoves.C124_turns, Reduce.C103_halo_violated, Reduce.C103_max_violated, Reduce.C103_shape, Reduce.C103_tile_reduce_violated, Reduce.C103_view_violated, Refine.C87_loops_violated, Refine.C87_others, Refine.C87_recurrence_violated, Restart.C62_table_dims, Segments.C104_empty_violated, Segments.C104_fewer_violated, Segments.C104_more_violated, Sequential.C138_no_sections, Sequential.C138_no_threads, Sequential.C138_nodes, Sequential.C138_serial_violated, Sequential.C138_twice, Serial.C112_loader, Serial.C112_loader_violated, Serial.C112_name_violated, Serial.C112_tracers, Settings.C126_constants, Settings.C126_missing_violated, Settings.C126_no_debugger, Settings.C126_precision, Settings.C126_twice_violated, Snap.C57_names_violated, Sphere.C81_state, Sphere.C81_state_violated, StateFiles.C96_depth_violated, StateIO.C99_coordinate_violated, StateIO.C99_halo_violated, StateIO.C99_precision_violated, StateIO.C99_refused, StateIO.C99_series_violated, StateIO.C99_units_violated, StateUpd.C40_clash_refused_violated, StateUpd.C40_clash_violated, StateUpd.C40_copy_succeeds_partial, StateUpd.C40_move_none_violated, StateUpd.C40_not_atomic_violated, StateUpd.C40_others_unchanged, StencilCall.C107_sizes_violated, StencilFactory.C108_edges_violated, StencilFactory.C108_order_violated, StencilFactory.C108_varied_violated, StencilOptions.C131_name, StencilOptions.C131_stale_violated, Storage.C98_dict_violated, Storage.C98_dummy_violated, Storage.C98_lost_violated, Storage.C98_rank4_violated, Storage.C98_start_violated, StorageShape.C135_from_shape, StorageShape.C135_masked, StorageShape.C135_no_sizes, StorageShape.C135_reshape_same, TestCases.C110_file, TestCases.C110_layout_violated, TestCases.C110_skip_violated, TestCases.C110_skipped_violated, TestGridData.C134_kept, TestGridData.C134_set, TestReport.C130_passed, Timing.C55_null, Translate.C100_caller_violated, Translate.C100_dummy_line_violated, Translate.C100_plane_violated, Translate.C100_shared_violated, Translate.C100_stale_violated, Translate.C128_copy_plane_violated, TreeSwap.C136_cycle_violated, View.C102_newaxis_violated, View.C102_scalar_violated, View.C102_typo_violated, WrappedHalo.C141_check, WrappedHalo.C141_check_violated, WrappedHalo.C141_current, WrappedHalo.C141_history, WrappedHalo.C141_interface, WrappedHalo.C141_interface_refused, WrappedHalo.C141_other, WrappedHalo.C141_refused, WrappedHalo.C141_start, WrappedHalo.C141_update, Zarr.C59_time_violated, ZarrStates.C115_netcdf_directory_violated
* `Quot.sound`, `propext` (196): Alloc.C95_guard_violated, ArrayLib.C139_as_numpy_dict, ArrayLib.C139_dtype, ArrayLib.C139_index, ArrayLib.C139_pad, ArrayLib.C139_stack_mixed, ArrayLib.C139_to_numpy, AxisMerge.C116_merged, AxisMerge.C52_dependent_kept, Backend.C46_accepts, Backend.C46_rejects, BestGuess.C132_clash_violated, BestGuess.C132_flatten_violated, Boilerplate.C121_first_violated, Boilerplate.C121_flat, Boilerplate.C121_fortran, Boilerplate.C121_ny_violated, Boilerplate.C121_topology, Boilerplate.C121_unknown, ByDims.C65_model, ByDims.C65_rejects, ByDims.C65_values, C04_complete_violated, C106_dtype_violated, C106_overlap_violated, C13_halo_spec, C13_no_truncation, C142_sign, C146_edges, C16_components_turn, C16_shapes, C24_cache_partial, C25_failed_start_orphans, C25_refusals, C26_single_owner, C27_interface_sync_violated, C27_messages, C27_tags, C28_lockstep, C28_schedule_independent, C29_gather_no_halo, C31_uneven_violated, C35_interface_cell, C35_known_dims, C36_halo_lost_violated, C37_first_axis_partial, C37_one_axis_partial, CacheDirs.C117_build_mode_violated, Caching.C34_replay_partial, Calib.C56_insufficient, Calib.C73_clip, Cartesian.C111_centres_violated, Cartesian.C111_terms, Cartesian.C111_total, Cartesian.C111_winds_violated, CleanTree.C109_backends, CleanTree.C109_count, CleanTree.C109_same, CleanTree.C109_written, Column.C49_column_max, Column.C49_column_min, Column.C72_sign_zero, CompareReport.C118_legacy_shown, CompareReport.C118_multi_shown, Compile.C42_equal_iff_partial, Compile.C45_alone, Compile.C45_matching_partial, Dbg.C64_count, DebugChecks.C114_axes, DebugChecks.C114_axes_violated, DebugChecks.C114_count, DeviceCopy.C137_refused, DeviceCopy.C137_same, Dist.C90_absent_violated, Dist.C90_loads, Dist.C90_names_violated, Dist.C90_partitioners, Dist.C90_terminates, Edges.C84_rectangle_violated, Eta.C63_source, Factory.C38_other_factories, Factory.C41_restored, Factory.C41_state_allocation, GridHelper.C82_history, GridHelper.C82_setters_violated, GridHelper.C83_split, Indexing.C47_level, Indexing.C47_origin_domain, Indexing.C47_windows, Indexing.C70_edges, Indexing.C70_local_bounds, Indexing.C70_no_edge, Indexing.C70_offset, Instrument.C148_data, Local.C33_gather_latest, Local.C33_rounds_partial, Local.C66_bcast, Local.C66_scatter, MakeQuantity.C120_field, Masking.C105_all_given_violated, Masking.C105_answers, Memory.C113_command, Memory.C113_condition_violated, Memory.C113_label_violated, Memory.C113_visited, NetCDF.C58_rejects, Nml.C60_targets, Orch.C88_closure_violated, Orch.C88_keywords_violated, Orch.C88_minus_one_violated, Orch.C88_own, Orch.C88_refused, Orch.C88_same_program, Orch.C88_unhashable, Orch.C88_views_violated, Orch.C89_config_violated, Orchestrate.C143_arguments, Orchestrate.C143_class, Orchestrate.C143_compiled, Orchestrate.C143_function, Orchestrate.C143_others, Orchestrate.C143_untouched, Perf.C74_sypd_none, PlotPrep.C125_grid_refused, PlotPrep.C125_plot_refused, Reduce.C103_elements, Reduce.C103_meaning, Reduce.C103_output, Reduce.C103_split, Reduce.C103_sum, Refine.C87_layout, Restart.C62_distinct, Restart.C62_filenames, Restart.C62_load, Runtime.C92_depth, Runtime.C92_elsewhere, Runtime.C92_first, Runtime.C92_not_wrapped, Runtime.C92_own, Runtime.C92_second_violated, Runtime.C92_sibling_violated, Runtime.C92_twice_violated, Runtime.C92_warnings, Runtime.C92_wrappers, Serial.C112_collapsed_violated, Serial.C112_ranks, Serial.C112_together_violated, Settings.C126_dace, Settings.C126_dace_settings, Settings.C126_debugger, Sizes.C97_extremes, Sphere.C81_order_violated, StateIO.C99_dataset, StateIO.C99_series, StateIO.C99_written, StateUpd.C40_move_partial, StateUpd.C40_none_refused_partial, StencilCall.C107_sizes, Storage.C98_line_dummy, StorageShape.C135_reshape_column_violated, StorageShape.C135_reshape_column_wrong, StorageShape.C135_reshape_down, StorageShape.C135_reshape_plane, StorageShape.C135_reshape_plane_violated, StorageShape.C135_reshape_refused, StorageShape.C135_split, Supergrid.C85_halo_violated, TestCases.C110_lists, TestCases.C110_skipped, TestReport.C130_files, Translate.C100_grid, Translate.C100_inverse, Translate.C100_translated, Translate.C128_corners, Translate.C128_indexing, Translate.C128_layout_violated, Translate.C128_ranges, Translate.C128_shapes, Translate.C128_windows, TreeSwap.C136_no_cycle, TreeSwap.C136_twice, View.C102_field, View.C102_read, View.C102_reverse_violated, View.C102_write, View.C102_write_read, WrappedHalo.C141_interface_violated, WrappedHalo.C141_missing, Xumpy.C123_axis_refused, Xumpy.C123_empty, Xumpy.C123_levels_violated, Xumpy.C123_mixed_violated, Xumpy.C123_other, Zarr.C59_constants, Zarr.C59_extents_violated, ZarrStates.C115_constant_order_violated
* `Classical.choice`, `Quot.sound`, `propext` (617): all other theorems of the manifest.

## 6. What is modelled and what is not

Modelled, by file (the model's comments cite the lines), with the properties about it:

* `ndsl/boilerplate.py`: C121
* `ndsl/buffer.py`: C137, C26
* `ndsl/checkpointer/snapshots.py`: C57
* `ndsl/checkpointer/thresholds.py`: C56
* `ndsl/checkpointer/validation.py`: C73
* `ndsl/comm/_boundary_utils.py`: C102, C11, C12, C13, C20
* `ndsl/comm/boundary.py`: C11
* `ndsl/comm/caching_comm.py`: C34
* `ndsl/comm/communicator.py`: C10, C103, C142, C144, C145, C146, C147, C18, C19, C21, C22, C27, C29, C30, C31
* `ndsl/comm/decomposition.py`: C117, C44, C45
* `ndsl/comm/local_comm.py`: C103, C28, C32, C33, C66
* `ndsl/comm/mpi.py`: C103
* `ndsl/comm/partitioner.py`: C01, C02, C03, C04, C05, C06, C07, C08, C09, C10, C124, C19, C67, C79
* `ndsl/config/backend.py`: C46
* `ndsl/constants.py`: C126, C127
* `ndsl/debug/config.py`: C126
* `ndsl/debug/debugger.py`: C64
* `ndsl/debug/tooling.py`: C148
* `ndsl/dsl/__init__.py`: C117, C126
* `ndsl/dsl/caches/cache_location.py`: C117, C43
* `ndsl/dsl/caches/codepath.py`: C117
* `ndsl/dsl/dace/build.py`: C117, C90, C91
* `ndsl/dsl/dace/dace_config.py`: C126, C43, C90, C91
* `ndsl/dsl/dace/dace_executable.py`: C88
* `ndsl/dsl/dace/labeler.py`: C119
* `ndsl/dsl/dace/orchestration.py`: C109, C114, C119, C143, C88, C89, C90, C92
* `ndsl/dsl/dace/sdfg/loop_transform.py`: C138
* `ndsl/dsl/dace/sdfg_debug_passes.py`: C114
* `ndsl/dsl/dace/stree/optimizations/axis_merge.py`: C116, C136, C52, C53
* `ndsl/dsl/dace/stree/optimizations/clean_tree.py`: C109
* `ndsl/dsl/dace/stree/optimizations/memlet_helpers.py`: C52
* `ndsl/dsl/dace/stree/optimizations/refine_transients.py`: C87
* `ndsl/dsl/dace/stree/optimizations/specialize_maps.py`: C109
* `ndsl/dsl/dace/stree/optimizations/tree_common_op.py`: C116, C136
* `ndsl/dsl/dace/stree/pipeline.py`: C109
* `ndsl/dsl/dace/utils.py`: C113
* `ndsl/dsl/dace/wrapped_halo_exchange.py`: C141, C81
* `ndsl/dsl/gt4py_utils.py`: C135, C139, C54, C98
* `ndsl/dsl/ndsl_runtime.py`: C92
* `ndsl/dsl/stencil.py`: C107, C108, C117, C121, C47, C70, C71
* `ndsl/dsl/stencil_config.py`: C117, C131, C42, C44, C69
* `ndsl/dsl/typing.py`: C126
* `ndsl/grid/eta.py`: C63
* `ndsl/grid/generation.py`: C101, C111, C134, C142, C144, C145, C146, C147, C77, C78, C79, C80, C84, C93, C97
* `ndsl/grid/geometry.py`: C80, C84, C85, C86, C94
* `ndsl/grid/global_setup.py`: C101
* `ndsl/grid/gnomonic.py`: C145, C147, C76, C77, C78, C86, C97
* `ndsl/grid/helper.py`: C82, C83
* `ndsl/grid/mirror.py`: C101, C145, C78, C79
* `ndsl/grid/stretch_transformation.py`: C75
* `ndsl/halo/cuda_kernels.py`: C106, C23
* `ndsl/halo/data_transformer.py`: C106, C17, C18, C20, C23, C24, C26
* `ndsl/halo/rotate.py`: C15, C16, C19, C21
* `ndsl/halo/updater.py`: C10, C106, C141, C18, C19, C22, C25, C26, C27, C28
* `ndsl/initialization/allocator.py`: C120, C134, C38, C67
* `ndsl/initialization/grid_sizer.py`: C35
* `ndsl/initialization/subtile_grid_sizer.py`: C121, C134, C35, C67
* `ndsl/internal/python_extensions.py`: C95
* `ndsl/io.py`: C99
* `ndsl/logging.py`: C126
* `ndsl/monitor/netcdf_monitor.py`: C115, C58
* `ndsl/monitor/zarr_monitor.py`: C115, C59
* `ndsl/performance/collector.py`: C74
* `ndsl/performance/report.py`: C74
* `ndsl/performance/timer.py`: C55
* `ndsl/performance/tools.py`: C113
* `ndsl/quantity/bounds.py`: C102, C14
* `ndsl/quantity/field_bundle.py`: C38, C39, C68
* `ndsl/quantity/local.py`: C92, C95
* `ndsl/quantity/metadata.py`: C103
* `ndsl/quantity/quantity.py`: C102, C120, C13, C36, C37, C99
* `ndsl/quantity/state.py`: C40, C41, C88, C95, C96
* `ndsl/restart/_legacy_restart.py`: C62
* `ndsl/restart/_properties.py`: C62
* `ndsl/stencils/basic_operations.py`: C72
* `ndsl/stencils/c2l_ord.py`: C80, C81
* `ndsl/stencils/column_operations.py`: C49
* `ndsl/stencils/corners.py`: C144, C145, C146, C50, C51
* `ndsl/stencils/testing/best_guess_diff.py`: C132
* `ndsl/stencils/testing/conftest.py`: C110
* `ndsl/stencils/testing/grid.py`: C100, C128, C133, C134
* `ndsl/stencils/testing/parallel_translate.py`: C140
* `ndsl/stencils/testing/savepoint.py`: C112
* `ndsl/stencils/testing/serialbox_to_netcdf.py`: C112
* `ndsl/stencils/testing/temporaries.py`: C122
* `ndsl/stencils/testing/test_translate.py`: C110, C130
* `ndsl/stencils/testing/translate.py`: C100, C133, C139
* `ndsl/stencils/tridiag.py`: C48
* `ndsl/testing/comparison.py`: C118, C61
* `ndsl/testing/perturbation.py`: C129
* `ndsl/utils.py`: C137, C60, C65
* `ndsl/viz/fv3/_masking.py`: C105
* `ndsl/viz/fv3/_plot_cube.py`: C104, C105, C125
* `ndsl/viz/fv3/_plot_helpers.py`: C105, C125
* `ndsl/xumpy/count_nonzero.py`: C123
* `ndsl/xumpy/minmax.py`: C123

Not modelled:

* `ndsl/__init__.py`, `ndsl/checkpointer/__init__.py`, `ndsl/checkpointer/base.py`, `ndsl/checkpointer/null.py`, `ndsl/config/__init__.py`, `ndsl/dsl/caches/__init__.py`, `ndsl/grid/__init__.py`, `ndsl/halo/__init__.py`, `ndsl/initialization/__init__.py`, `ndsl/internal/__init__.py`, `ndsl/monitor/__init__.py`, `ndsl/monitor/convert.py`, `ndsl/monitor/protocol.py`, `ndsl/optional_imports.py`, `ndsl/quantity/__init__.py`, `ndsl/restart/__init__.py`, `ndsl/stencils/__init__.py`, `ndsl/testing/__init__.py`, `ndsl/types.py`, `ndsl/typing.py`, `ndsl/xumpy/__init__.py`, `ndsl/xumpy/alloc.py`: only imports, type definitions or constants.
* `ndsl/comm/__init__.py`, `ndsl/comm/comm_abc.py`: thin wrappers around mpi4py or abstract interfaces.
* `ndsl/debug/__init__.py`: configuration of the debugger, without behaviour of its own.
* `ndsl/dsl/dace/__init__.py`, `ndsl/dsl/dace/replacements.py`, `ndsl/dsl/dace/stree/__init__.py`, `ndsl/dsl/dace/stree/optimizations/__init__.py`: DaCe tooling that builds, labels, inspects and runs generated code; the passes on schedule trees are C52, C53, C87 and C109, builds and calls C88-C92.
* `ndsl/dsl/gt4py/__init__.py`: re-exports of GT4Py.
* `ndsl/performance/__init__.py`, `ndsl/performance/config.py`, `ndsl/performance/profiler.py`: profiling tools.
* `ndsl/stencils/testing/__init__.py`: test harness: metrics are C61, data of tests C100, cases and verdicts C110, converted data C112; command lines, reports and files of failures are not modelled.
* `ndsl/viz/__init__.py`, `ndsl/viz/cube_sphere.py`, `ndsl/viz/fv3/__init__.py`, `ndsl/viz/fv3/_constants.py`, `ndsl/viz/fv3/_plot_diagnostics.py`, `ndsl/viz/fv3/_styles.py`, `ndsl/viz/fv3/_timestep_histograms.py`, `ndsl/viz/fv3/grid_metadata.py`: plotting; which cells are drawn where is C104 and C105, drawing itself is not modelled.

Within modelled files, the following is left out: docstrings, logging, units strings, type annotations; floating
point rounding (where it decides an integer it is a parameter, elsewhere arithmetic is over the reals or any
field, said in each comment); GPU memory (only index maps, C23 and C24); code generated by GT4Py and DaCe (the
stencil bodies are modelled as the pointwise and columnwise functions they denote).
