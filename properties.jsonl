{"id": "C01", "title": "Ranks and subtile positions are in bijection", "statement": "For every tile layout, asking a tile partitioner for the subtile index of each rank 0..total_ranks-1 yields every (j, i) position of the layout exactly once; on the cubed sphere every (tile, j, i) position is held by exactly one rank in 0..6*n*n-1, and tile_root_rank of a rank is the rank of position (0,0) on the same tile.", "quantifier": "all tile layouts (ny, nx) with positive entries, all square cube layouts n, all ranks", "why_tests_cant": "layouts and rank counts are unbounded; a test fixes a few layouts", "anchors": ["ndsl/comm/partitioner.py: TilePartitioner.subtile_index, subtile_index, CubedSpherePartitioner.tile_index, tile_root_rank, get_tile_index"]}
{"id": "C02", "title": "Subtile slices without overlap partition the tile", "statement": "For every accepted decomposition, the slices returned by subtile_slice(rank, dims, extent, overlap=False) are pairwise disjoint and cover every index of the tile exactly once, for cell-centred and interface dimensions alike.", "quantifier": "all layouts, all global extents the partitioner accepts (even or with wider/narrower edge ranks), all dims lists mixing x/y cell or interface dims with other dims, all ranks and all global indices", "why_tests_cant": "a gap or a double-owned row only shows at particular extents/layouts, which are unbounded", "anchors": ["ndsl/comm/partitioner.py: subtile_slice, rank_slice_from_tile_metadata, TilePartitioner.subtile_slice, _subtile_extents_from_tile_metadata"]}
{"id": "C03", "title": "Overlapping subtile slices share exactly the interface line and have the rank's extent", "statement": "With overlap=True, each rank's slice has exactly the rank's own extent; for cell dims the slices are the non-overlapping ones, for interface dims neighbouring ranks' slices share exactly one index and non-neighbouring ranks' slices share none.", "quantifier": "all layouts, accepted extents, ranks and dims", "why_tests_cant": "off-by-one at the last rank or uneven edges depends on unbounded sizes", "anchors": ["ndsl/comm/partitioner.py: subtile_slice, subtile_extent"]}
{"id": "C04", "title": "Accepted decompositions are exact and positive; decomposable sizes are accepted", "statement": "Whenever the edge/interior size search succeeds, the per-rank sizes are positive and sum to the tile size along each axis; whenever a symmetric edge/interior decomposition with the requested layout exists, the search finds one instead of raising.", "quantifier": "all tile sizes, rank counts per axis and edge_interior_ratio values, including any floating point rounding of the interior size estimate", "why_tests_cant": "search space is unbounded; failure only occurs on isolated (size, ranks) pairs", "anchors": ["ndsl/comm/partitioner.py: _subtile_extents_from_tile_metadata, _valid_edge_tile_sizes"]}
{"id": "C05", "title": "Global extent and subtile extent are inverse for even layouts", "statement": "For any rank metadata, the tile extent computed from it and then divided back among the ranks gives the rank's extent again; interface dims count the shared line once.", "quantifier": "all layouts, all rank extents, all dims lists, all ranks", "why_tests_cant": "unbounded sizes and dims orders", "anchors": ["ndsl/comm/partitioner.py: tile_extent_from_rank_metadata, extent_from_metadata, subtile_extent"]}
{"id": "C06", "title": "Single-tile boundaries are reciprocal and periodic", "statement": "On a single (doubly periodic) tile, each rank has a boundary for each of the eight directions, pointing at the rank at the neighbouring position modulo the layout with no rotation; the opposite boundary of that neighbour points back.", "quantifier": "all layouts (ny, nx) with positive entries, all ranks, all eight boundary types", "why_tests_cant": "unbounded layouts", "anchors": ["ndsl/comm/partitioner.py: TilePartitioner.boundary, _left_edge, _right_edge, _top_edge, _bottom_edge, _get_corner"]}
{"id": "C07", "title": "Cubed-sphere boundaries are reciprocal with opposite rotation", "statement": "For every cube layout, every boundary returned by the cubed-sphere partitioner points to a valid rank; that rank has exactly one boundary pointing back, whose rotation is the inverse quarter-turn, so that every message sent has a matching receive.", "quantifier": "all square layouts n>=1, all ranks, all eight boundary types", "why_tests_cant": "unbounded layouts; the special cases at tile edges and corners interact", "anchors": ["ndsl/comm/partitioner.py: CubedSpherePartitioner.boundary, _left_edge, _right_edge, _top_edge, _bottom_edge, _top_left_corner, _top_right_corner, _bottom_left_corner, _bottom_right_corner, rotate_subtile_rank, fliplr_subtile_rank"]}
{"id": "C08", "title": "Cubed-sphere edge neighbours are the geometric neighbours on the cube", "statement": "The edge neighbour and the number of rotations returned by the cubed-sphere partitioner are those of the rank sharing that physical edge when the six tiles are glued on the surface of a cube.", "quantifier": "all square layouts, all ranks, four edges, every position along the edge", "why_tests_cant": "unbounded layouts; needs a geometric reference independent of the code", "anchors": ["ndsl/comm/partitioner.py: CubedSpherePartitioner._left_edge, _right_edge, _top_edge, _bottom_edge"]}
{"id": "C09", "title": "Corner boundaries exist exactly away from tile corners and reach the diagonal neighbour", "statement": "On the cubed sphere a rank has no boundary for a corner direction exactly when that corner of the rank is a corner of its tile; otherwise the corner boundary points to the rank reached by crossing the two edges, with the accumulated rotation.", "quantifier": "all square layouts, all ranks, four corner types", "why_tests_cant": "unbounded layouts, many cases", "anchors": ["ndsl/comm/partitioner.py: CubedSpherePartitioner._top_left_corner, _top_right_corner, _bottom_left_corner, _bottom_right_corner, _get_corner"]}
{"id": "C10", "title": "No two boundaries of a rank lead to the same neighbour where halo updates are allowed", "statement": "Every pair of ranks shares at most one boundary on the cubed sphere at any layout, and on a single tile exactly when both layout sizes are at least 3, so one message per neighbour per update is enough and the tile communicator's layout check is exact.", "quantifier": "all cube layouts and all tile layouts, all ranks, all pairs of boundary types", "why_tests_cant": "unbounded layouts", "anchors": ["ndsl/comm/partitioner.py: boundary", "ndsl/comm/communicator.py: TileCommunicator.start_halo_update, Communicator.boundaries", "ndsl/halo/updater.py: HaloUpdater.from_scalar_specifications"]}
{"id": "C11", "title": "Halo send regions lie in the compute domain and receive regions lie in the halo", "statement": "For every quantity layout and boundary direction, the send region is inside the compute domain, the receive region is outside it and inside the array, and both have the same shape (per direction pair), with interface lines shared by neighbours not sent.", "quantifier": "all dims orders, origins, extents, shapes with enough halo, halo widths, eight boundary types", "why_tests_cant": "unbounded sizes and dims orders", "anchors": ["ndsl/comm/_boundary_utils.py: get_boundary_slice, _get_offset, bound_default_slice", "ndsl/comm/boundary.py: SimpleBoundary.send_slice, recv_slice"]}
{"id": "C12", "title": "The eight receive regions tile the halo ring exactly", "statement": "The eight receive regions of width n are pairwise disjoint and together are exactly the points within n of the compute domain that are not in it.", "quantifier": "all extents, origins, halo widths n>=1 that fit, all points", "why_tests_cant": "needs every point and size", "anchors": ["ndsl/comm/_boundary_utils.py: get_boundary_slice"]}
{"id": "C13", "title": "Requesting more halo points than stored is an error, never a truncated region", "statement": "Asking for a boundary slice whose receive region would leave the array raises an error; a slice that is returned always has the requested width.", "quantifier": "all origins, extents, shapes, widths, boundary types", "why_tests_cant": "unbounded inputs including negative indices that Python would wrap", "anchors": ["ndsl/comm/_boundary_utils.py: get_boundary_slice", "ndsl/quantity/quantity.py: Quantity.halo_spec"]}
{"id": "C14", "title": "Quantity views index relative to the compute domain", "statement": "view[idx] addresses the array element that many positions from the start of the compute domain on each axis, reaching into the halo when idx is negative, as long as it stays inside the array; a corner view addresses relative to that corner of the compute domain; view[:] is exactly the compute domain. (Unlike NumPy, a negative view index does not count from the end of the compute domain.)", "quantifier": "all origins, extents, shapes, integer and slice indices", "why_tests_cant": "unbounded index combinations", "anchors": ["ndsl/quantity/bounds.py: BoundedArrayView, BoundaryArrayView, _shift_index, _shift_slice, _fill_index"]}
{"id": "C15", "title": "Scalar rotation is a quarter-turn group action", "statement": "For arrays with both an x and a y dimension (in any position) or neither, rotating halo data n times then m times equals rotating n+m times; rotating by n and then by -n restores the data and the shape; k rotations turn the horizontal plane clockwise by k quarter turns and leave other axes alone.", "quantifier": "all arrays, shapes, dims orders, all integer rotation counts", "why_tests_cant": "unbounded shapes and dims orders", "anchors": ["ndsl/halo/rotate.py: rotate_scalar_data"]}
{"id": "C16", "title": "Vector rotation turns components consistently", "statement": "Rotating a vector field by n quarter turns rotates positions like the scalar rotation and rotates the component pair by the same angle; n then -n restores both components.", "quantifier": "all component arrays, shapes, dims orders, rotation counts", "why_tests_cant": "unbounded shapes; sign/axis conventions interact", "anchors": ["ndsl/halo/rotate.py: rotate_vector_data"]}
{"id": "C17", "title": "Packing then unpacking restores every quantity's region", "statement": "Packing any list of quantities' regions into one buffer and unpacking the buffer at matching regions writes each value to the right quantity and index, without mixing quantities, whatever their number, order and shapes.", "quantifier": "all lists of quantities and specs, all shapes, both scalar and vector", "why_tests_cant": "unbounded lists and shapes", "anchors": ["ndsl/halo/data_transformer.py: HaloDataTransformerCPU._pack_scalar, _unpack_scalar, _pack_vector, _unpack_vector"]}
{"id": "C18", "title": "Scalar halo update on a tile yields the periodic extension", "statement": "After a scalar halo update on a doubly periodic tile with at least 3x3 ranks, every halo point within the updated width holds the value of a compute-domain point of some rank at the same global position modulo the tile size; hence if the ranks hold a doubly periodic field on their compute domains they hold it on the halo too.", "quantifier": "all layouts >= 3x3, all subtile sizes, halo widths not exceeding subtile size, all field values, all halo points", "why_tests_cant": "global statement over all ranks and positions", "anchors": ["ndsl/comm/communicator.py: halo_update", "ndsl/halo/updater.py: HaloUpdater", "ndsl/halo/data_transformer.py"]}
{"id": "C19", "title": "Scalar halo update on the cubed sphere yields the folded neighbour values", "statement": "After a scalar halo update on the cubed sphere of fields whose horizontal dimensions are both on cells or both on interfaces, each halo point not beyond a tile corner holds the value found on the cube at the place reached by walking straight across the cube edge; halo points beyond tile corners are unchanged.", "quantifier": "all square layouts, all subtile sizes, halo widths, values, ranks and halo points", "why_tests_cant": "global statement over all ranks and positions", "anchors": ["ndsl/comm/communicator.py: halo_update", "ndsl/halo/updater.py", "ndsl/halo/rotate.py", "ndsl/comm/partitioner.py"]}
{"id": "C20", "title": "Halo updates never change the compute domain", "statement": "A halo update (scalar or vector) leaves every compute-domain value and every halo point beyond the requested width unchanged.", "quantifier": "all topologies, layouts, sizes, widths, values", "why_tests_cant": "frame property over all points", "anchors": ["ndsl/halo/data_transformer.py", "ndsl/comm/_boundary_utils.py"]}
{"id": "C21", "title": "Vector halo update delivers components in the receiver's orientation", "statement": "After a vector halo update, the halo components are the neighbour's physical vector expressed in the receiving rank's axes. On a doubly periodic tile of at least 3x3 ranks they are the same component, unturned, at the same global position modulo the tile size; smaller tiles are refused.", "quantifier": "all square cube layouts, subtile sizes, halo widths, vector values, edge halo points", "why_tests_cant": "orientation conventions of every edge must agree simultaneously", "anchors": ["ndsl/comm/communicator.py: vector_halo_update", "ndsl/halo/rotate.py: rotate_vector_data"]}
{"id": "C22", "title": "Vector interface synchronisation makes shared edges consistent", "statement": "After synchronize_vector_interfaces of wind components on cell edges whose horizontal dimensions come before any other dimension, no rank fails, the values both ranks hold for a shared edge represent the same vector component (up to orientation sign, the value being the one of the rank on the south/west side of its own tile), and values not on the north/east edges are unchanged. Components not on the cell edges are refused. (With a leading vertical dimension the claim is false of the code; a witness is proved.)", "quantifier": "all square cube layouts, sizes and values", "why_tests_cant": "every edge type and orientation at once", "anchors": ["ndsl/halo/updater.py: VectorInterfaceHaloUpdater", "ndsl/comm/communicator.py: synchronize_vector_interfaces"]}
{"id": "C23", "title": "GPU packing indices agree with CPU packing", "statement": "For quantities in device memory with any strides, and any order of the GPU threads, the GPU kernels access no memory outside the arrays and pack exactly the buffer the CPU transformer packs (slice, rotate, flatten); unpacking leaves in each quantity's memory exactly what the CPU transformer unpacks and leaves other memory alone. (Vector components must have their x- and y-type dimensions at the same positions.)", "quantifier": "all lists of quantities, shapes, strides, slices, rotations, dims orders, buffer contents, thread schedules", "why_tests_cant": "unbounded shapes; GPU path cannot run in CI without a device", "anchors": ["ndsl/halo/data_transformer.py: _build_flatten_indices, HaloDataTransformerGPU._flatten_indices", "ndsl/halo/cuda_kernels.py"]}
{"id": "C24", "title": "Cached GPU index maps are only reused for the same map", "statement": "Looking up the cached flattened index map for a spec returns the map for that spec, whatever specs were used before. (False of the code: the key omits the dims and the direction; proved when earlier requests with the same key agree in these.)", "quantifier": "all histories of lookups", "why_tests_cant": "depends on the history of earlier lookups", "anchors": ["ndsl/halo/data_transformer.py: HaloDataTransformerGPU._flatten_indices"]}
{"id": "C25", "title": "Halo updater protocol is enforced", "statement": "A halo updater refuses to start while an update is in flight and refuses to wait when none is; otherwise starts and waits alternate and each wait completes exactly the receives posted by its start.", "quantifier": "all histories of start/wait calls", "why_tests_cant": "history property", "anchors": ["ndsl/halo/updater.py: HaloUpdater.start, wait, do"]}
{"id": "C26", "title": "Pooled buffers never have two owners", "statement": "In every history of acquiring and releasing transfer buffers by updaters in which no request is waited for twice, a buffer is never held by two owners at once, and a buffer handed out matches the requested key. (Waiting twice for the same request releases its buffers twice and two owners then share one: proved as a witness.)", "quantifier": "all histories of pop/push/context-managed use, including exceptions", "why_tests_cant": "aliasing only appears after particular histories", "anchors": ["ndsl/buffer.py: Buffer.pop_from_cache, push_to_cache, array_buffer, send_buffer, recv_buffer", "ndsl/halo/data_transformer.py: HaloDataTransformer.finalize", "ndsl/halo/updater.py: HaloUpdateRequest.wait"]}
{"id": "C27", "title": "Concurrent halo updates never mix messages", "statement": "Halo updaters created on a communicator have different tags, an updater has the same tag on all ranks, and in every interleaving every completed receive took the message its peer sent in the matching start of the same update, both with receives matched in posting order (MPI) and when waited for (in-process). (Programs without vector interface synchronisation in flight together with updates: its tag collides with the first updater's, proved as a witness.)", "quantifier": "all sequences of halo updates, all interleavings", "why_tests_cant": "schedule property", "anchors": ["ndsl/comm/communicator.py: Communicator._get_halo_tag, start_halo_update", "ndsl/halo/updater.py"]}
{"id": "C28", "title": "Halo exchange is deadlock free and schedule independent", "statement": "When every rank runs the same legal program of halo updates (start before wait, any number in flight, waited for in any order), every interleaving of the ranks' steps can always proceed until all ranks finish, no run is longer than ranks times operations, and all interleavings give the same data on every rank.", "quantifier": "all numbers of ranks, reciprocal neighbour relations, message contents and interleavings", "why_tests_cant": "interleavings are unbounded", "anchors": ["ndsl/halo/updater.py: HaloUpdater.start, wait", "ndsl/comm/local_comm.py: LocalComm.Isend, Irecv"]}
{"id": "C29", "title": "Scatter followed by gather restores the global field", "statement": "Scattering a tile field to the ranks and gathering it back returns the same field, and gathering then scattering returns each rank's compute domain, including interface dims where the shared line must agree. A rank (or, in a gather, the root) that gives no receive quantity gets one without halo; one that gives a receive quantity gets it back with its own dims, origin, extent and array shape.", "quantifier": "all layouts, accepted extents where ranks have equal extents, dims, values", "why_tests_cant": "unbounded sizes", "anchors": ["ndsl/comm/communicator.py: scatter, gather, _get_gather_recv_quantity, _get_scatter_recv_quantity"]}
{"id": "C30", "title": "State scatter and gather act on every entry and on time", "statement": "scatter_state leaves on every rank, under every name of the root's state, what scattering that quantity gives, leaves other entries unchanged, sets the time to the root's, and all ranks make the same sequence of collective calls. gather_state leaves on the root, under every name, the gather of what the ranks hold under that name, and carries the root's time, provided the ranks' states list the same names in the same order. (Entries are matched by position: with another order on one rank the root gets another variable's data, proved as a witness.)", "quantifier": "all states (any number of entries) and rank counts", "why_tests_cant": "unbounded states; collective ordering", "anchors": ["ndsl/comm/communicator.py: scatter_state, gather_state"]}
{"id": "C31", "title": "Unequal subtiles are scattered faithfully", "statement": "Scattering works for every decomposition the partitioner accepts, including uneven ones where edge ranks have different extents.", "quantifier": "all accepted decompositions and values", "why_tests_cant": "only fails for particular decompositions", "anchors": ["ndsl/comm/communicator.py: scatter, gather"]}
{"id": "C32", "title": "The in-process communicator delivers messages in order per channel", "statement": "On the in-process communicator, for each (sender, receiver, tag) the k-th completed receive returns the k-th sent array as it was at the time of sending, independent of traffic on other channels.", "quantifier": "all histories of sends and receives", "why_tests_cant": "history property", "anchors": ["ndsl/comm/local_comm.py: LocalComm.Send, Isend, Recv, Irecv"]}
{"id": "C33", "title": "An in-process gather only completes with this round's data", "statement": "A gather on the root of the in-process communicator returns for every rank what that rank contributed in its latest gather call (as it was then) and raises exactly when some rank has never contributed; in a round in which the root calls last these are this round's values. (The contributions are never reset: in a later round a root that calls before another rank gets that rank's old contribution instead of an exception, proved as a witness.)", "quantifier": "all histories of gathers", "why_tests_cant": "only repeated gathers expose stale data", "anchors": ["ndsl/comm/local_comm.py: LocalComm.Gather"]}
{"id": "C34", "title": "Recorded communication replays identically", "statement": "Replaying a program against the recording made by the caching communicator returns to every receive, broadcast, gather, scatter, reduction and split the data it received when recorded, for programs that complete receives in the order of posting and call gather only as root. (Outside this class replay returns other data: witnesses for waits in another order and for a gather on a rank that is not its root.)", "quantifier": "all programs (sequences of communication calls), roots and ranks", "why_tests_cant": "depends on the order of calls and waits", "anchors": ["ndsl/comm/caching_comm.py: CachingCommReader, CachingCommWriter, CachingCommData"]}
{"id": "C35", "title": "Allocated quantities fit their compute domain and halo", "statement": "For any dims, origin plus extent never exceeds the allocated shape, horizontal dims leave n_halo points on both sides, and interface and cell variables share the same origin.", "quantifier": "all grid sizes, halo sizes, dims lists incl. data dims and padding", "why_tests_cant": "unbounded sizes and dims lists", "anchors": ["ndsl/initialization/subtile_grid_sizer.py: SubtileGridSizer.get_origin, get_extent, get_shape", "ndsl/initialization/grid_sizer.py"]}
{"id": "C36", "title": "Transposing a quantity permutes indices and nothing else", "statement": "Transposing a quantity succeeds exactly when the targets (names or lists of alternatives) name every one of its dims once; it gives a quantity whose element at the permuted index is the original element, with shape, origin and extent permuted alike and the same units; transposing back restores all of these. (The halo width is not kept: a witness shows it becoming 0.)", "quantifier": "all dims, permutations, shapes, values", "why_tests_cant": "unbounded dimensions", "anchors": ["ndsl/quantity/quantity.py: Quantity.transpose, transpose_sequence, _collapse_dims"]}
{"id": "C37", "title": "Swapping in a buffer that cannot hold the compute domain is refused", "statement": "swap_buffer / the data setter refuse any buffer that is smaller than required along any axis.", "quantifier": "all buffer shapes and extents", "why_tests_cant": "tuple comparison misbehaves only on particular shapes", "anchors": ["ndsl/quantity/quantity.py: Quantity.swap_buffer"]}
{"id": "C38", "title": "Extending a factory with data dimensions leaves the original factory alone", "statement": "Adding data dimensions to a factory is all-or-nothing, rejects redefinition and leaves factories with another sizer as they were; extending a 3D factory fails exactly when adding would and otherwise returns a factory with the old and the new dimensions. (Extending does not leave the given factory untouched: it shares its sizer with the new one, proved for every extension and with a witness.)", "quantifier": "all factories, sets of new dims, histories", "why_tests_cant": "aliasing between objects", "anchors": ["ndsl/initialization/allocator.py: QuantityFactory.add_data_dimensions, set_extra_dim_lengths", "ndsl/quantity/field_bundle.py: FieldBundle.extend_3D_quantity_factory"]}
{"id": "C39", "title": "A field bundle's named view shows that bundle's data", "statement": "Accessing a tracer by name on a field bundle returns a view onto that bundle's own storage at the index registered for the name.", "quantifier": "all sets of bundles, mappings and access histories", "why_tests_cant": "only visible with several bundles alive", "anchors": ["ndsl/quantity/field_bundle.py: FieldBundle.__getattr__, map, quantity, index"]}
{"id": "C40", "title": "State updates are by field and reject missing data", "statement": "Updating a state from a dictionary changes exactly the named fields, and None is accepted exactly for fields declared optional.", "quantifier": "all nested state shapes and dictionaries", "why_tests_cant": "nested name collisions are unbounded", "anchors": ["ndsl/quantity/state.py: State.update_copy_memory, update_move_memory, _init"]}
{"id": "C41", "title": "Temporary dimension swaps are always undone", "statement": "Allocating a state with custom data dimensions leaves every factory's sizer and dimensions exactly as before, even when allocation raises, and gives every field the size for the grid and the custom dimensions; allocating a local state as a state also leaves the class as before if the allocation succeeds. (If it raises, the class is left changed: witness.)", "quantifier": "all factories, swapped dims and failure points", "why_tests_cant": "failure points inside the block", "anchors": ["ndsl/quantity/state.py: _FactorySwapDimensionsDefinitions"]}
{"id": "C42", "title": "Stencil configurations are equal exactly when their options are equal", "statement": "Two stencil configurations compare equal (and hash equal) exactly when they have the same backend, rebuild, validate_args, format_source, device_sync, caching, numpy comparison and run mode.", "quantifier": "all pairs of configurations", "why_tests_cant": "needs all pairs; collisions are silent", "anchors": ["ndsl/dsl/stencil_config.py: StencilConfig._compute_hash, __eq__, __hash__"]}
{"id": "C43", "title": "Every code path is compiled by exactly one rank", "statement": "For every square layout of a tile (the only layouts the cubed sphere's halo exchange supports), every two-ranks-wide layout and every single-code-path program, each rank's code path is compiled by exactly one rank, so that every waiting rank finds its compiled code and no two ranks write the same cache. Layouts one rank wide are refused. (For all other layouts the code violates this, which is proved as well.)", "quantifier": "all layouts and ranks", "why_tests_cant": "unbounded layouts", "anchors": ["ndsl/dsl/dace/dace_config.py: _determine_compiling_ranks", "ndsl/dsl/caches/cache_location.py: identify_code_path"]}
{"id": "C44", "title": "In run mode every rank reads a cache of an equivalent rank", "statement": "With minimal caching in run mode, the rank whose cache is read occupies the same kind of position (corner/edge/centre) on a 1x1, 2x2 or 3x3 tile; in build mode the equivalent rank is on the first tile at the same position and is a compiling rank; the compiling ranks are exactly the ranks of the first tile.", "quantifier": "all square layouts and ranks", "why_tests_cant": "unbounded layouts", "anchors": ["ndsl/dsl/stencil_config.py: CompilationConfig.determine_compiling_equivalent", "ndsl/comm/decomposition.py: determine_rank_is_compiling"]}
{"id": "C45", "title": "Compile waiters and unblockers are matched one to one", "statement": "Each non-compiling rank waits for exactly one compiling rank, the rank at its own position on the first tile, and that rank sends to it exactly once, so no rank waits forever.", "quantifier": "all rank counts divisible by six, all ranks", "why_tests_cant": "unbounded rank counts", "anchors": ["ndsl/comm/decomposition.py: block_waiting_for_compilation, unblock_waiting_tiles"]}
{"id": "C46", "title": "Backend names decode consistently", "statement": "Every accepted backend name decodes to a strategy, framework, device and loop order consistent with the name, its layout map is a permutation inverse to the loop order, and any other name is rejected. The answers whether a backend is orchestrated, runs single stencils or is on a GPU are those its name gives, and the form for paths has no colon and tells the backends apart.", "quantifier": "all strings", "why_tests_cant": "all strings cannot be tested", "anchors": ["ndsl/config/backend.py: Backend.__init__, as_layout_map, as_gt4py"]}
{"id": "C47", "title": "Grid indexing origins and domains stay inside the storage they request", "statement": "For any spatial dims and halos up to n_halo in the horizontal, the origin/domain returned for a computation on an unrestricted grid lies inside the shape returned for storage, and on any grid inside the maximum shape; restricting the vertical succeeds exactly for a window inside the column, keeps the window inside the original one, and nested restrictions compose. The compute domain starts n_halo points inside the array and has the size of the domain, the full domain starts at the first point and has n_halo points more on each side, offsets are added, and the window on one level is the compute domain at that level. (On a vertically restricted grid, or with vertical halos, the window leaves the storage shape: witnesses.)", "quantifier": "all domains, halo sizes, dims, halos, vertical restrictions", "why_tests_cant": "unbounded sizes and nesting", "anchors": ["ndsl/dsl/stencil.py: GridIndexing.get_origin_domain, get_shape, restrict_vertical", "ndsl/dsl/stencil.py: GridIndexing.origin_full, origin_compute, domain_full, domain_compute, get_2d_compute_origin_domain"]}
{"id": "C48", "title": "The tridiagonal solver solves the system", "statement": "If no pivot vanishes, the solver's output satisfies every row of the tridiagonal system; the masked version does so in selected columns and leaves other columns untouched.", "quantifier": "all column lengths, all coefficients over any field (exact arithmetic) without vanishing pivots, all masks", "why_tests_cant": "for all lengths and coefficients", "anchors": ["ndsl/stencils/tridiag.py: tridiag_solve, masked_tridiag_solve"]}
{"id": "C49", "title": "Column extrema are the extrema and their first location", "statement": "column_max/column_min return the extreme value over the requested inclusive range and the first level where it occurs.", "quantifier": "all columns, ranges", "why_tests_cant": "for all columns and ranges", "anchors": ["ndsl/stencils/column_operations.py: column_max, column_min, column_max_ddim, column_min_ddim"]}
{"id": "C50", "title": "Corner-fill stencils copy by a quarter turn about the tile corner", "statement": "The corner copy/fill stencils set each halo corner point to the value of the point obtained by the quarter turn about that corner of the tile in the requested direction (with the sign or factor of the corner), on exactly the ranks at that corner, and leave all other points unchanged; in place they do so on tiles of at least three cells.", "quantifier": "all domain sizes, all fields, all points", "why_tests_cant": "dozens of hand-written offsets must all be right for every domain size", "anchors": ["ndsl/stencils/corners.py: copy_corners_xy_stencil_defn, fill_corners_bgrid_x_defn, fill_corners_bgrid_y_defn, fill_corners_2cells_mult_x, fill_corners_3cells_mult_x, fill_corners_dgrid_defn"]}
{"id": "C51", "title": "Array corner fills agree with the stencil corner fills", "statement": "The array versions of the corner fills (A, B, C, D grid, scalar or vector) give the same result as the corresponding stencils and work for any halo size.", "quantifier": "all domain sizes, halo sizes, directions, fields", "why_tests_cant": "requires all sizes", "anchors": ["ndsl/stencils/corners.py: fill_corners_2d, fill_corners_2d_agrid, fill_corners_2d_bgrid, fill_corners_dgrid, fill_corners_agrid, fill_corners_cgrid"]}
{"id": "C52", "title": "Merging loops on an axis preserves results", "statement": "When the schedule-tree optimiser merges two consecutive loops over an axis, the merged program computes the same result as the original for all inputs.", "quantifier": "all loop bodies, ranges, inputs", "why_tests_cant": "all programs and inputs", "anchors": ["ndsl/dsl/dace/stree/optimizations/axis_merge.py: CartesianAxisMerge", "ndsl/dsl/dace/stree/optimizations/memlet_helpers.py: no_data_dependencies_on_cartesian_axis"]}
{"id": "C53", "title": "The over-computation guard runs each body exactly on its original range", "statement": "After merging two consecutive loops with different ranges or steps, each body is executed exactly for the iterations of its original range; so it is when merging is repeated, if the loops run over the same iteration variable.", "quantifier": "all ranges (start, stop, step)", "why_tests_cant": "unbounded ranges", "anchors": ["ndsl/dsl/dace/stree/optimizations/axis_merge.py: InsertOvercomputationGuard"]}
{"id": "C54", "title": "Vertical splitting covers each level once", "statement": "Splitting a column of at least one level by where column parameters change yields consecutive intervals that cover each level exactly once, with the parameters constant on each interval and different across neighbours; running a stencil per interval then handles every level once with its own parameters, if the parameters cover the column.", "quantifier": "all column parameter sets and level counts", "why_tests_cant": "unbounded columns", "anchors": ["ndsl/dsl/gt4py_utils.py: get_kstarts, k_split_run"]}
{"id": "C55", "title": "Timer totals are the sums of the measured intervals", "statement": "The times and hits reported by a timer are, for each name, the total duration and number of completed start/stop intervals while enabled since the last reset; misuse raises and changes nothing.", "quantifier": "all histories of start/stop/reset/enable/disable and all clocks", "why_tests_cant": "history property", "anchors": ["ndsl/performance/timer.py: Timer"]}
{"id": "C56", "title": "Calibrated thresholds bound the differences of the trials", "statement": "Thresholds calibrated from completed trials bound, for every savepoint call of the last trial and every variable, factor times the difference of any two trials at every point, absolutely and relative to the mean magnitude over the trials; the absolute threshold is attained, and with a factor of at least one the validation accepts every trial against every other by it.", "quantifier": "all trial histories and values", "why_tests_cant": "over all values and trials", "anchors": ["ndsl/checkpointer/thresholds.py: ThresholdCalibrationCheckpointer, Threshold.merge"]}
{"id": "C57", "title": "Recorded snapshots are independent and ordered", "statement": "A snapshot checkpointer stores, per variable, the savepoint names and the values as they were at each call, in call order, unaffected by later changes of the arrays; the dataset can be made exactly when the arrays of each variable have one shape with at least one axis, and holds all of it, provided no variable is named like the savepoint list of another.", "quantifier": "all call histories and later mutations", "why_tests_cant": "history property", "anchors": ["ndsl/checkpointer/snapshots.py: SnapshotCheckpointer, _Snapshots"]}
{"id": "C58", "title": "Every stored time step is written to disk exactly once", "statement": "Whatever the chunk size and the interleaving of tiles, after storing any number of states and a final clean-up, the files of a tile contain every stored state exactly once, in order, in full chunks except the last; at any earlier moment they contain all full chunks. Clean-ups before the last store must come when chunks are full.", "quantifier": "all chunk sizes, numbers of states and clean-up points", "why_tests_cant": "history property", "anchors": ["ndsl/monitor/netcdf_monitor.py: _ChunkedNetCDFWriter, NetCDFMonitor.store, cleanup"]}
{"id": "C59", "title": "Zarr monitor writes every global point exactly once per step", "statement": "When all ranks store fields with both horizontal dimensions, the same dimensions (in any order), units and extents, each store writes, at the next time index, every point of every tile exactly once, with the value of the one rank it belongs to; when the ranks' fields are their parts of a global field, the array holds that field at every time index stored so far. No two ranks of a tile write to the same chunk. Fields with other dimensions or units, and states with other names, are rejected, and constants can be written only once. (Not so: a state without a time is accepted by the first store and rejected by the second; a later field with smaller extents is accepted and cuts what was stored before.)", "quantifier": "all layouts, extents, dimension lists with both horizontal dimensions, field contents, numbers of stores and orders in which the ranks write", "why_tests_cant": "unbounded sizes and histories", "anchors": ["ndsl/monitor/zarr_monitor.py: _ZarrVariableWriter, array_chunks, get_from_slice"]}
{"id": "C60", "title": "Namelist flattening keeps every setting", "statement": "Flattening a namelist keeps every setting under its own name when names are distinct, at any nesting; for a namelist made of groups of settings it raises when two groups define the same name, so no setting is silently replaced; selecting target groups keeps those groups, in the order asked for. (Not so: a setting that follows a group nested beside it, of the same name as one inside that group, silently replaces it.)", "quantifier": "all namelists, of any nesting and size, and all lists of target groups", "why_tests_cant": "collisions depend on the input", "anchors": ["ndsl/utils.py: f90nml_as_dict, flatten_nml_to_dict"]}
{"id": "C61", "title": "Numerical comparison accepts equal data and rejects different data", "statement": "Comparing an array of numbers without infinities, NaN included, with itself succeeds in both metrics, whatever was compared before. Two numbers pass exactly when they are close in the sense of the metric, and a NaN passes against a NaN only. Boolean arrays pass the legacy metric exactly when they are equal. Other types raise. Thresholds given for one comparison do not affect later ones unless they exceed the default. (Not so: an array with an infinity fails against itself; boolean arrays pass the multi modal metric exactly when they differ everywhere; a relative or ULP threshold above the default stays in force for every later comparison of the process.)", "quantifier": "all arrays of finite numbers, infinities, NaN and booleans, all thresholds and all histories of comparisons", "why_tests_cant": "dtype cases and history", "anchors": ["ndsl/testing/comparison.py: LegacyMetric, MultiModalFloatMetric"]}
{"id": "C62", "title": "Restart names map one to one", "statement": "Loading a restart file puts every variable whose restart name is in the table under its standard name and every other one under its own, with its data, without losing or duplicating any, as long as no unknown variable is called like a standard name the file provides; the dims and units of the table are given to the variables with enough dimensions; files providing different names are all kept; the three files every run writes are always read and the two optional ones when present; different ranks have different file suffixes and other rank counts raise. Properties given for tracers are added to the table; names of the table keep theirs. The table lists dimensions of different axes for every variable, at most one of them an interface; apart from two pressures and two coefficients the last axes are the second and the first horizontal one; the winds are on the sides of the cells. (Not so: nine standard names share a restart name with a later one and are never loaded; an unknown variable called like a standard name replaces it; a variable with fewer dimensions than the table lists gets the wrong ones.)", "quantifier": "all restart tables and files' variable sets, all rank counts and ranks, all labels", "why_tests_cant": "all variable sets", "anchors": ["ndsl/restart/_legacy_restart.py: map_keys, get_rank_suffix, restart_filenames", "ndsl/restart/_properties.py", "ndsl/restart/_legacy_restart.py: open_restart"]}
{"id": "C63", "title": "Vertical coordinate setup accepts exactly valid coefficients", "statement": "Hybrid pressure coefficients are accepted exactly when their sizes are km+1, the pressures in the middle of the layers do not decrease and some bk is zero, and raise a ValueError otherwise; ptop is the first ak and, unless km is 91, ks is the last level with bk zero, which is the number of pure pressure layers when bk starts at zero and does not decrease. The arrays given are used when both are given, the file otherwise, and neither raises. (Not so: for 91 layers ks is always zero; pressures of the levels may decrease from one to the next.)", "quantifier": "all numbers of layers and coefficient arrays, over any ordered field", "why_tests_cant": "all arrays", "anchors": ["ndsl/grid/eta.py: set_hybrid_pressure_coefficients, compute_eta"]}
{"id": "C64", "title": "Debugger output files are never overwritten", "statement": "Each save of the inputs or outputs of a selected stencil or function, and of each tracked parameter, goes to a file name not used before in the run, and there is exactly one before and one after each call, as long as no function is called while it is running; the numbers in the file names count the outputs saved before, the calls completed before, and the earlier saves of the same parameter. (Not so: a function that calls itself, and one that raised and is called again, write to a file already written.)", "quantifier": "all histories of nested calls, all selections of functions and parameters", "why_tests_cant": "history property", "anchors": ["ndsl/debug/debugger.py: Debugger.save_as_dataset, increment_call_count, track_data"]}
{"id": "C65", "title": "Dimension-keyed lists follow the dims order", "statement": "Given a value for y and one for x, and one for all other dimensions, the list returned has one value per dimension requested, in their order, the right one for each; with no horizontal values a request for a horizontal dimension raises.", "quantifier": "all dims lists and values", "why_tests_cant": "all lists", "anchors": ["ndsl/utils.py: list_by_dims"]}
{"id": "C66", "title": "In-process broadcasts and scatters pair calls by number", "statement": "On the in-process communicator a rank's k-th broadcast returns the object rank 0 passed to its k-th broadcast, a rank's k-th scatter delivers the rank's row of what rank 0 passed to its k-th scatter as it was at that time, and both raise if rank 0 has not made that call. (Broadcast objects are shared, not copied: a witness shows a later change becoming visible.)", "quantifier": "all histories of calls by any ranks in any order", "why_tests_cant": "history property", "anchors": ["ndsl/comm/local_comm.py: LocalComm.bcast, Scatter, _get_buffer"]}
{"id": "C67", "title": "A rank's allocations have the size of its part of the tile", "statement": "A quantity allocated by the factory of a rank (sizes derived from the tile's size and the layout) has exactly the extent of that rank's part of a tile-wide quantity with the same dims.", "quantifier": "all tile sizes, layouts, ranks and dims lists", "why_tests_cant": "unbounded sizes and layouts", "anchors": ["ndsl/initialization/subtile_grid_sizer.py: SubtileGridSizer.from_tile_params", "ndsl/initialization/allocator.py: QuantityFactory._allocate", "ndsl/comm/partitioner.py: subtile_extent"]}
{"id": "C68", "title": "A field bundle type is registered once", "statement": "Registering a field bundle type succeeds exactly for names not yet registered, a second registration raises and changes nothing, and looking a type up always gives the sizes of its only successful registration, or a markup (or an exception, if markups are not wanted) when there is none.", "quantifier": "all sequences of registrations", "why_tests_cant": "history property of class-level state", "anchors": ["ndsl/quantity/field_bundle.py: FieldBundleType.register, T"]}
{"id": "C69", "title": "Compilation options survive the dictionary form", "statement": "Writing any compilation configuration (without a communicator) to its dictionary and reading it back gives a configuration with the same backend, flags and run mode; missing entries get fixed defaults.", "quantifier": "all backends, all flag combinations and run modes", "why_tests_cant": "needs every combination and every registry of backends", "anchors": ["ndsl/dsl/stencil_config.py: CompilationConfig.as_dict, from_dict"]}
{"id": "C70", "title": "Axis offsets denote fixed places of the grid", "statement": "The offsets handed to a stencil for region indexing denote the same points of the grid for every origin and size of the computation: the first and last compute point of the rank, the first and last cell of the tile on ranks at a tile edge; on other ranks no computed point is within 32766 points of the edge index, so that edge regions are empty. An index a number of points from an edge index is the point that many points from the edge.", "quantifier": "all grids, edges, origins and domains", "why_tests_cant": "unbounded origins and domains", "anchors": ["ndsl/dsl/stencil.py: GridIndexing.axis_offsets"]}
{"id": "C71", "title": "Every field of a stencil starts at the stencil's origin", "statement": "Each field of a stencil gets the origin given for it, or else the stencil's origin projected to its axes, followed by zero for its data dimensions.", "quantifier": "all field lists, axes, data dimensions, origins", "why_tests_cant": "unbounded field lists", "anchors": ["ndsl/dsl/stencil.py: FrozenStencil._compute_field_origins"]}
{"id": "C72", "title": "The elementary stencils compute what they say, point by point", "statement": "copy, set, scale, divide and average compute the stated function at every point of the domain and change nothing outside; selecting a level returns the input at that level for each column and leaves the output unchanged where the level does not exist; sign and dim have their stated values.", "quantifier": "all fields, domains, levels, selections", "why_tests_cant": "for all fields and sizes", "anchors": ["ndsl/stencils/basic_operations.py: copy, adjustmentfactor_stencil, set_value, adjust_divide_stencil, select_k, average_in, sign, dim"]}
{"id": "C73", "title": "Validation accepts exactly what is within the thresholds", "statement": "A trial of the validation succeeds exactly when, in the n-th call of each savepoint, every variable, with equal halos and the extra upper point removed, agrees within the n-th thresholds with the n-th reference data of the rank, independently of earlier trials.", "quantifier": "all trials, arrays, thresholds, references and earlier histories", "why_tests_cant": "all arrays and call histories", "anchors": ["ndsl/checkpointer/validation.py: ValidationCheckpointer, _clip_pace_array_to_target"]}
{"id": "C74", "title": "Performance report adds up", "statement": "For every history of a performance collector (clocks of the step timer and of the total timer started and stopped in any order, collections, clears), the report of a rank has an entry for exactly the names measured in some collected step, in sorted order, with the number of measured intervals and the total of each step in which the name was measured, in step order; nothing is lost or counted twice and writing never fails. If all ranks measured the same names in as many steps, the report of all ranks has for each name one row per rank with that rank's totals. The simulated years per day are simulated time over measured time. (Not so: if ranks measured different names, times are reported under the wrong name; writing twice counts the total timer twice; the number of time steps is one too low when the total timer was not used.)", "quantifier": "all histories of collector and timer calls, all numbers of ranks, all names and times", "why_tests_cant": "The claim ranges over all interleavings of clock starts, stops, collections and clears and over all ranks' insertion orders; tests run one short history.", "anchors": ["ndsl/performance/collector.py:PerformanceCollector", "ndsl/performance/report.py:gather_timing_data", "ndsl/performance/report.py:gather_hit_counts", "ndsl/performance/report.py:get_sypd"]}
{"id": "C75", "title": "Stretched grid: stretching towards a pole followed by a rotation to the target", "statement": "For every point, stretch factor s > 0 and target, the stretched-grid transform first moves the point along its meridian so that the tangent of half its angular distance to the south pole is divided by s (factor 1 leaves it), turns it by 190 degrees about the axis, and then applies the rotation that takes the south pole to the target: the result is exactly that point, or a pole less than the cut-off away from it. Hence without stretching all angles and orientations are kept, and the centre of the southern tile lands on the target for every stretch factor. For targets between -180 and 540 degrees the longitudes returned are in [0, 2 pi) and the latitudes in [-pi/2, pi/2]. (Not so: other target longitudes leave the range; different points within the cut-off of a pole are given the same position.)", "quantifier": "all real longitudes, latitudes, stretch factors and targets", "why_tests_cant": "The claim is over a continuum of points, factors and targets including the branch cuts and poles; tests check a few grid points.", "anchors": ["ndsl/grid/stretch_transformation.py:direct_transform"]}
{"id": "C76", "title": "Distances, midpoints and angles on the sphere", "statement": "For all positions: the great circle distance is the radius times the angle between the two directions, so it is a metric (non-negative, at most half the circumference, symmetric, zero exactly between coinciding positions, triangle inequality); Cartesian coordinates convert to a longitude in [0, 2 pi) and a latitude in [-pi/2, pi/2] that point in the same direction, and longitude and latitude survive the round trip; the midpoint of two positions is at half their distance from both; a spherical angle is the angle between the directions in which the two arcs leave the point, is symmetric, in [0, pi] and unchanged by rotations, and its two implementations agree; the longitude, latitude and point-to-point direction vectors are unit vectors with the stated directions. (Not so: the midpoint of opposite points is NaN; within 1e-10 of a pole the longitude is lost; an angle can equal pi, although the code says it is less.)", "quantifier": "all real longitudes, latitudes, vectors and radii", "why_tests_cant": "The claims range over a continuum of positions with branch cuts and degenerate cases; tests compare a few points.", "anchors": ["ndsl/grid/gnomonic.py:great_circle_distance_lon_lat", "ndsl/grid/gnomonic.py:xyz_to_lon_lat", "ndsl/grid/gnomonic.py:lon_lat_midpoint", "ndsl/grid/gnomonic.py:spherical_angle", "ndsl/grid/gnomonic.py:fortran_vector_spherical_angle", "ndsl/grid/gnomonic.py:get_unit_vector_direction", "ndsl/grid/gnomonic.py:get_lonlat_vect"]}
{"id": "C77", "title": "Areas on the sphere are correct and add up", "statement": "The area computed for a spherical triangle with corners apart is between 0 and half the sphere and does not depend on the order of corners; the area of a convex cell is the sum of the two triangles that its diagonal makes, hence not negative; on the cubed-sphere grid, for any layout and resolution, every cell gets a non-negative area, the cells of a rank add up to the area between the rank's four corners, the cells of a tile to a sixth of the sphere, and the cells of all six tiles to exactly the area of the sphere, 4 pi R^2, before the final shift of longitudes and (as long as no longitude falls within 1e-10 of 0 without being 0) after it.", "quantifier": "all triangles and convex quadrilaterals, all square layouts, all resolutions up to 10^9 cells per edge, all radii (exact arithmetic)", "why_tests_cant": "a test sums areas at one resolution and one layout, within a tolerance", "anchors": ["ndsl/grid/gnomonic.py: get_area, get_rectangle_area, get_triangle_area, spherical_angle", "ndsl/grid/generation.py: MetricTerms.area"]}
{"id": "C78", "title": "Every rank computes its own part of the same grid", "statement": "The corners a rank computes for itself (its edges, projection, mirroring and rotation) are, for every layout, resolution, tile and position, those of the corner's index on the tile: longitude in (-pi, pi], latitude in [-pi/2, pi/2], pointing to the face of the inscribed cube that belongs to the tile, at grid lines that cut the edges of the face at equal distances along the sphere. The decomposition does not change the grid. The final shift turns the sphere 10 degrees westwards and leaves longitudes in [0, 2 pi), replacing only values within 1e-10 of zero.", "quantifier": "all square layouts, resolutions up to 10^9 cells per edge, tiles, ranks and corners; radius at least 1 (exact arithmetic)", "why_tests_cant": "tests compare a few layouts at one resolution with stored values or with each other", "anchors": ["ndsl/grid/gnomonic.py: local_gnomonic_ed, global_gnomonic_ed, _latlon2xyz", "ndsl/grid/mirror.py: mirror_grid", "ndsl/grid/generation.py: MetricTerms._init_dgrid"]}
{"id": "C79", "title": "The six tiles form one grid of the sphere, matching the partitioner", "statement": "Two corners, of any ranks of any tiles, are given the same longitude and latitude exactly when they are the same point of the cube on which the six tiles are glued: tiles and ranks agree exactly on shared corners and no two different corners coincide. Along each of its sides, every rank's corners equal, one by one in the opposite direction, the corners along the side of the rank that the partitioner reports as its neighbour, with the reported rotation.", "quantifier": "all square layouts, all resolutions up to 10^9 cells per edge, all ranks, sides and corners (exact arithmetic)", "why_tests_cant": "the grid and the partitioner are written independently; agreement at one layout and resolution says nothing about others", "anchors": ["ndsl/grid/generation.py: MetricTerms._init_dgrid", "ndsl/grid/mirror.py: mirror_grid", "ndsl/comm/partitioner.py: CubedSpherePartitioner.boundary"]}
{"id": "C80", "title": "Winds are converted from the cubed-sphere grid to east and north exactly", "statement": "For every layout, grid size, rank and cell of the cubed-sphere grid and all winds on the sides of the cell, the coefficients exist, and the conversion returns the components towards true east and true north, at the middle of the cell, of the one horizontal vector whose components along the two axes of the grid are the means of the winds on the opposite sides: by length in second order, by cubic interpolation in fourth order, except next to the edges of a tile, where the means by length are used and no halo value is read. The interpolation is exact for polynomials of degree three. On doubly periodic grids the means are returned as they are. The same holds on the shifted grid as long as no longitude is within 1e-10 of 0 without being 0.", "quantifier": "all layouts, grid sizes up to 10^9 cells per tile edge, ranks, cells, winds, regions and grid types", "why_tests_cant": "Tests compare with stored results for a few sizes; that the 2x2 system is solvable and gives true components must hold at every cell of every size, including cells at the poles and tile corners.", "anchors": ["ndsl/stencils/c2l_ord.py: c2l_ord2, ord4_transform", "ndsl/grid/geometry.py: get_center_vector, calculate_grid_z, calculate_grid_a, calculate_supergrid_cos_sin, unit_vector_lonlat", "ndsl/grid/generation.py: MetricTerms"]}
{"id": "C81", "title": "On one rank the wind conversion uses the repeated domain, and unreadable states are refused", "statement": "On a single rank with a doubly periodic domain at least as wide as the halo, filling the halo leaves the domain as it is and repeats it in both directions, corners included, and the fourth order conversion returns at each cell the cubic interpolation of the winds on the repeated domain. A state with v but without u is refused at construction. (Not so: a state without v, or without both, is accepted at construction and fails at the first update; an order other than 2 and 4 is not refused and gives the fourth order.)", "quantifier": "all domain sizes, halo widths up to the domain width, winds, cells and states", "why_tests_cant": "A test covers one size; overlapping copies go wrong only for certain ratios of domain and halo.", "anchors": ["ndsl/stencils/c2l_ord.py: mock_exchange, CubedToLatLon", "ndsl/dsl/dace/wrapped_halo_exchange.py: WrappedHaloUpdater"]}
{"id": "C82", "title": "The vertical grid's reference pressures fit together", "statement": "For all coefficients ak, bk whose interface pressures ak + bk*1e5 are positive and increase downward: the pressure of every level is the thickness by the logarithm of the ratio of its interface pressures and strictly between them, the thickness of a level is the difference of its interface pressures, and the thicknesses add up to the surface minus the top pressure. The top pressure is the first ak when the first bk is 0, and refused otherwise. After every history of reads and changes, each read returns the values of the coefficients in force at the first read of thicknesses, or of interface or level pressures, and the top pressure those in force now; without changes all agree. (Not so: coefficients changed after a read do not reach thicknesses and pressures that were read before; setting the top pressure always fails, and the number of pure pressure levels can not be read before it has been set.)", "quantifier": "all coefficient lists of any length, all histories of reads and sets", "why_tests_cant": "Caches go wrong only in particular orders of reads and sets, and betweenness must hold for all coefficients.", "anchors": ["ndsl/grid/helper.py: VerticalGridData, GridData.ptop, GridData.dp, GridData.p_ref, GridData.ks"]}
{"id": "C83", "title": "Driver data and Coriolis parameters are what the grid says", "statement": "Splitting a vector field along its last dimension returns one field per component, in order, with the values of that component and the remaining dimensions. The data for the physics driver made from grid variables has the components of the longitude and latitude directions and of the edge directions, with the edge factors and grid type given. The Coriolis parameter is twice the rotation rate times the sine of the latitude, at corners and centres, at every read. (Not so: made from the metric terms, the driver's latitude directions are the longitude directions, while everything else is right; a Coriolis parameter given at cell centres gets the dimensions of the corners.)", "quantifier": "all fields, shapes, grid types and reads", "why_tests_cant": "Tests compare one configuration; a swapped component has to be excluded for every field.", "anchors": ["ndsl/grid/helper.py: split_quantity_along_last_dim, DriverGridData, GridData.fC, GridData.fC_agrid"]}
{"id": "C84", "title": "Interpolation factors at tile edges do not depend on the decomposition", "statement": "For every decomposition of a tile, every rank and every corner on an edge of the tile except the tile's own corners, the factor for interpolating from cells to corners is that of the whole tile: the distance to the midpoint after the corner by the sum of the distances to both midpoints; elsewhere the factor is left out. When the rank's part is square, the factor for interpolating vectors to sides is that of the whole tile at every side of the rank's own cells, with the neighbour towards the middle of the edge, and repeated at the ends of the edge. Factors are between 0 and 1 and exact for values linear in distance. Tiles that are not square or have an odd number of cells per edge are refused. (Not so: on every rank on a tile edge whose part is not square the computation for sides fails; and in the halo the factor for the side just above the middle of the edge, and for the side below a rank that starts more than 3 cells after the middle, differs from that of the rank having it.)", "quantifier": "all decompositions, ranks, corners and sides of the four edges, fields of points, distances", "why_tests_cant": "Tests run one or two layouts; index arithmetic with a global middle goes wrong only for some positions of ranks.", "anchors": ["ndsl/grid/geometry.py: edge_factors, set_west_edge_factor, set_east_edge_factor, set_south_edge_factor, set_north_edge_factor, efactor_a2c_v, calculate_west_edge_vectors", "ndsl/grid/generation.py: MetricTerms._calculate_edge_factors, MetricTerms._calculate_edge_a2c_vect_factors"]}
{"id": "C85", "title": "Sines and cosines of grid angles in the ghost cells at tile corners", "statement": "For every rank, halo size and array size, the stored sines and cosines of the ghost cells at each corner of the tile that the rank lies on hold a fill value, except on the sides that face the two halo strips: there they hold the value of the side that really lies across, on the other of the two neighbouring tiles. All other cells keep their values. The sines used for the means on cell sides obey the same rule before that, with the usual halo of 3. (Not so: at the north-west corner one of the two sides takes values of other cells, so that the means of the sines on a tile that is its own mirror image are not; and with any halo size other than 3 a rank at the north-west corner fails.)", "quantifier": "all ranks (every combination of tile sides), array sizes, halo sizes, values", "why_tests_cant": "The four corners are four separate index computations with reversed views; a test compares with reference data of one grid size.", "anchors": ["ndsl/grid/geometry.py: supergrid_corner_fix, calculate_supergrid_cos_sin, calculate_trig_uv, _fill_single_halo_corner, _rotate_trig_sg_*"]}
{"id": "C86", "title": "Angles of grid cells and unit vectors along grid lines are exact", "statement": "For every cell whose corners turn counter-clockwise, the cosine at each of its nine points (centre, corners, middles of sides) is that of the angle between the grid lines there, from the direction east to the direction north; cosine and sine lie on the unit circle, the sine is between 0 and 1, and both are exact unless the cosine is closer to 1 than 1e-15. On the cubed-sphere grid, at every point inside a tile the four cells that meet have the same cosine, the corner cosine and sine are those of the angle between the two grid lines, the sine is at least one half, and the two unit vectors have length 1, are tangent to the sphere and point along the grid lines, so that their scalar product is this cosine. At the sides of a tile the one-sided unit vectors point along the line to the neighbour on the tile.", "quantifier": "all cells, all nine points, all layouts, ranks, tiles and grid points", "why_tests_cant": "Tests compare stored arrays for one grid; sign conventions at the nine points and agreement between cells are statements about every grid point.", "anchors": ["ndsl/grid/geometry.py: calculate_supergrid_cos_sin, calculate_trig_uv, calculate_xy_unit_vectors", "ndsl/grid/gnomonic.py: spherical_cos"]}
{"id": "C87", "title": "Shrinking temporaries does not change results", "statement": "The schedule tree pass that reduces axes of temporaries reduces an axis exactly when the temporary has at least three dimensions, is accessed, at one and the same index along the axis, from at most one map over it; other containers and their accesses stay, and the memory layout of a reduced temporary keeps its elements apart and within its size. The refined program computes the same values of everything that is not temporary, for every order of the iterations of maps and whatever the temporaries contain at the start, if accesses are in bounds, nothing is read before it is written, and a temporary accessed at one index of a loop variable is local to the iterations of that loop. (Not so in general: two sequential loops over an axis are not counted, contrary to the documentation, and a loop around the maps may carry values from one iteration to the next; in both cases results change.)", "quantifier": "all schedule trees of maps, sequential loops, conditions and tasklets, all container shapes, all schedules, all memory contents", "why_tests_cant": "The pass must be right for every program; tests run four fixed programs and look at array shapes.", "anchors": ["ndsl/dsl/dace/stree/optimizations/refine_transients.py: CartesianRefineTransients, CollectTransientRangeAccess, RebuildMemletsFromContainers, _reduce_cartesian_axis_size_to_1"]}
{"id": "C88", "title": "Orchestrated calls run with their own arguments", "statement": "After any history of calls to orchestrated programs, a call runs the library of its own program, with the arguments of that call, if no earlier call of the program with the same argument hash had other arguments and no hash is zero; with an argument that cannot be hashed the arguments are always its own; they are never those of another program. Without a library a call is refused in run mode, and build mode runs nothing. (Not so in general: the names of keyword arguments are not hashed, so f(a=x, b=y) followed by f(b=x, a=y) runs with the first arguments; nor are f(-1) and f(-2) told apart, nor arrays that start at the same address, nor arrays that are attributes of the object.)", "quantifier": "all histories of calls, all programs and arguments, all hash functions of tuples, all three modes", "why_tests_cant": "The cached arguments depend on the whole history of calls; tests make one or two calls.", "anchors": ["ndsl/dsl/dace/dace_executable.py: DaceExecutable.hash_expected_dsl_args", "ndsl/dsl/dace/orchestration.py: _call_sdfg, _parse_sdfg, _build_sdfg", "ndsl/quantity/state.py: State._hash"]}
{"id": "C89", "title": "Orchestrated methods are bound to their own object", "statement": "Looking up an orchestrated method of a live object gives a callable for that very object and that very function, although the table of callables is keyed by addresses that are used again when objects are gone; looking it up again gives the same callable. (Not so for the configuration: orchestrating again with another configuration keeps the first.)", "quantifier": "all histories of creation, disposal and lookup, all choices of addresses", "why_tests_cant": "A wrong object would be bound only if an address is used again, which depends on the allocator and on the whole history.", "anchors": ["ndsl/dsl/dace/orchestration.py: _LazyComputepathMethod.__get__, bound_callables, orchestrate"]}
{"id": "C90", "title": "Distributed builds: every rank loads the library built for it", "statement": "In build-and-run mode, with all ranks calling the same programs (of different names) in the same order and exactly one rank building for each code path: whatever the speed of the ranks, whatever libraries earlier runs left, and even if ranks end at any point, each library that a rank loads is complete, built in this run, for its code path and for that program; if no rank ends there is no deadlock, the number of steps is bounded, and all ranks load everything. If a rank ends before its barrier, no rank loads that program or a later one. (Not so: programs of the same name, such as one method of two objects of a class, share a folder, and a slow rank can load the wrong library or none; and since the barrier is one of all ranks of the machine, a rank that does not call the program blocks all others.)", "quantifier": "all numbers of ranks, code paths, programs, initial libraries, interleavings and crash points", "why_tests_cant": "Races and deadlocks depend on the relative speed of ranks; tests run one rank.", "anchors": ["ndsl/dsl/dace/orchestration.py: _build_sdfg, _call_sdfg", "ndsl/dsl/dace/dace_config.py: DaceConfig.__init__, _determine_compiling_ranks", "ndsl/dsl/dace/build.py: get_sdfg_path"]}
{"id": "C91", "title": "Precompiled libraries are checked against the configuration", "statement": "A library built with one configuration is used in run mode with another exactly when the backends are the same and the quotients of tile size and rows of ranks are; else, or if it is missing, the call fails with a RuntimeError. For square layouts and the same number of levels that means: exactly when the ranks' domains have the same size. (Not so in general: the number of levels and of columns of ranks is not compared, and with the default tile size every layout is accepted.) A configuration rebuilt from its dictionary has the same mode, backend, rank, number of ranks, layout and resolution (but not the code path, nor whether it compiles).", "quantifier": "all pairs of configurations (backends, layouts, resolutions), all folders, all registries of backends", "why_tests_cant": "The pairs of build and run configurations are unboundedly many; a wrong acceptance runs a library compiled for other array sizes.", "anchors": ["ndsl/dsl/dace/build.py: write_build_info, get_sdfg_path", "ndsl/dsl/dace/dace_config.py: DaceConfig.as_dict, DaceConfig.from_dict"]}
{"id": "C92", "title": "Runtime classes: construction, orchestration and locals", "statement": "Constructing an object of a class derived from NDSLRuntime succeeds exactly if each class in the chain that has a constructor calls its parent's; else it is a RuntimeError. Without orchestration nothing is wrapped; with it, __call__ is wrapped once for a class derived directly. A local can be read in the object's own methods, and not where there is no self or self is not of the object's class. The first runtime constructed gives one warning for each quantity it or its parts hold. (Not so: with a class in between, __call__ is wrapped twice, the first time before the constructor is done; later objects give no warnings; whether another object of the class may read a local depends on the backend.)", "quantifier": "all chains of classes and constructors, all sequences of constructions, all attribute trees, all readers", "why_tests_cant": "The behaviour depends on the shape of class hierarchies and on the history of the process (a global); tests use two or three classes.", "anchors": ["ndsl/dsl/ndsl_runtime.py: NDSLRuntime.__init_subclass__, __post_init__, __getattribute__", "ndsl/quantity/local.py: Local", "ndsl/dsl/dace/orchestration.py: orchestrate"]}
{"id": "C93", "title": "Grid terms do not depend on the order in which they are read", "statement": "The geometric terms of a MetricTerms object are computed when they are first read. After reading any terms in any order, reading a term succeeds, and its value is the same function of the grid coordinates alone (on the cubed sphere and on the Cartesian grid): dx is always the distance of corners exchanged as a vector field with signs dropped and corners filled, rdx its reciprocal, a12 always -0.5*z12/sin_sg5 with the sine before rounding, and so on for every term. Each attribute is computed at most once and each communication happens at most once. What a rank communicates depends only on the terms it reads which need communication and on their order; so ranks which read those in the same order communicate alike, whatever else they read. (Not so: ranks that read two such terms in different order, or one of which reads such a term alone, communicate differently; da_min needs communication on the Cartesian grid, too. On the Cartesian grid vlon, vlat, the z and a matrices, ee1, ee2 and the momentum correction are NaN.)", "quantifier": "both kinds of grids, every term, every sequence of reads before it, every pair of ranks", "why_tests_cant": "There are about a hundred terms and their prerequisites overlap; the orders of reading are unboundedly many, and tests read each term in one order.", "anchors": ["ndsl/grid/generation.py: MetricTerms"]}
{"id": "C94", "title": "Arrays derived from grid positions do not depend on the decomposition", "statement": "Suppose every rank's arrays of corner and cell positions (and of the cosines and sines of cell angles, lengths of sides) hold its window, with halo, of the same fields on a tile. Then in every layout the unit vectors in the centres of cells, on west and south sides and at corners, the cosines, sines and reciprocals at corners, on sides and in cells, the damping coefficients and the momentum corrections which a rank computes are those of the same formulas on the whole tile at the same global index, also in the halo (except for its outermost line of sides): one-sided or limited values appear on the edges of the tile and nowhere else, and marks for undefined values beyond its corners and nowhere else. So two ranks which hold the same point get the same value. Reciprocals of squares lie between 0 and the reciprocal of the small number, and sines on edges are kept that far off zero. (Not so: a sine which is exactly zero on an edge stays zero and is divided by; for flat grids the vectors on sides are along the second and third axis and those in centres along the first and second.)", "quantifier": "every layout and size of ranks at least as wide as the halo, every halo of at least 2, every rank, every index, all fields", "why_tests_cant": "A test compares a few layouts at a few sizes; that no index is off at any side of any rank must hold for all of them.", "anchors": ["ndsl/grid/geometry.py: get_center_vector, calc_unit_vector_west, calc_unit_vector_south, calculate_xy_unit_vectors, calculate_trig_uv, calculate_l2c_vu, calculate_divg_del6"]}
{"id": "C95", "title": "Allocating a state gives exactly the declared fields, and its locals stay with their runtime object", "statement": "`zeros`, `ones` and `empty` of a State succeed if and only if no field at any depth is a Local and every initialised field is a quantity with dimensions, units and dtype whose dimensions the factory knows with the data dimensions given (and a runtime object is around if a nested state needs one). The state then holds, at every path, exactly the declared initialised fields, with the declared dimensions, units, dtype, the shape for those data dimensions and the promised content; `full` does the same with its value. `make_locals` of a LocalState succeeds if and only if no field is a Quantity, all can be allocated and the call comes from a runtime object; if nested states are LocalStates as well, each Local can be read exactly from places with that runtime object in the stack. `make_as_state` gives plain quantities and leaves the class as it was. After any history of calls, failed or not, the factory's data dimensions are what they were. (Not so: `full` raises AttributeError if a field is not initialised, where `zeros` works; a failed `make_as_state` leaves the field types of the class changed, so that `make_locals` is refused from then on; optional quantities and Locals in nested classes that are no LocalState are not guarded.)", "quantifier": "every class of fields nested to any depth, all metadata and data dimensions, every factory, every stack of callers, every history of calls", "why_tests_cant": "Classes nest to any depth, and whether the factory survives failures concerns every history of calls.", "anchors": ["ndsl/quantity/state.py: State._init, _check_no_locals, _FactorySwapDimensionsDefinitions, empty, zeros, ones, full, fill, LocalState.make_locals, make_as_state, __getattribute__", "ndsl/quantity/local.py: Local.__init__", "ndsl/internal/python_extensions.py"]}
{"id": "C96", "title": "A state read from a file is the one last saved by the same rank", "statement": "A state nested at most once, whose quantities agree about the sizes of dimensions, can be written with `to_netcdf`, and `update_from_netcdf` into a state of the same class with fitting quantities gives it, at every path where the written state had a quantity, that quantity's array, and changes nothing else. However many ranks save states of whichever classes in whichever directories and order, with one postfix (or of one class with postfixes that do not begin with a digit), reading gets what the same rank last saved for that class, directory and postfix. (Not so: states nested twice or deeper cannot be written; a field that was None when written is not None after reading if it had a value; a field with the name of its only dimension is written but not read; rank 1 with postfix `0` and rank 10 with none share a file.)", "quantifier": "every class, all contents, every number of ranks, every history of saves", "why_tests_cant": "Which file is read depends on all saves before by all ranks, and what is restored on the shape of every class.", "anchors": ["ndsl/quantity/state.py: State.to_xarray, to_netcdf, update_from_netcdf, _netcdf_name"]}
{"id": "C97", "title": "Lengths and areas of the grid do not depend on the decomposition", "statement": "However a tile is cut into ranks (each at least as wide as the halo), the cell centres, side lengths, widths and heights of cells, distances across sides, areas of cells and areas around corners that a rank computes for its own points are given by one formula in the global indices: the plain one inside the tile and, for distances across sides and areas around corners, twice the part inside on an edge of the tile. Ranks agree on points they share, the triangles computed for the corners of a tile never show up in the result, and the smallest and largest areas over all ranks are those of the whole grid at the points with `I < N0` and `J < N1`. (Not so: the last lines of corners of a tile are left out of the extremes of areas around corners.)", "quantifier": "all tile sizes, decompositions, positions of grid points and any arithmetic", "why_tests_cant": "Tests compare a few layouts at one resolution; the edge formulas depend on which edges a rank touches, for every size and layout.", "anchors": ["ndsl/grid/generation.py: MetricTerms._init_agrid, _compute_dxdy_cube_sphere, _compute_dxdy_agrid_cube_sphere, _compute_dxdy_center_cube_sphere, _compute_area_cube_sphere, _compute_area_c_cube_sphere, _reduce_global_area_minmaxes", "ndsl/grid/gnomonic.py: get_area, set_corner_area_to_triangle_area, set_c_grid_tile_border_area, set_tile_border_dxc, set_tile_border_dyc, great_circle_distance_along_axis"]}
{"id": "C98", "title": "A storage made from an array holds it at its start and zeros elsewhere", "statement": "`make_storage_data` with three starts and origins and data that fits: data of rank 3 or more is placed at the start in an array of zeros of the wanted shape; lines and planes are placed likewise and, unless read only, repeated along the other axes, so that the value at an index is that of the data at the indices of its own axes; read-only lines and planes keep their rank, or get an axis of size one where the wanted shape has it. Rank, dimensions and aligned index belong together. `make_storage_dict` stores under every name its own field. Dummy axes do not change where a line goes along the first axis that is not a dummy. (Not so: data of size one beyond the end is lost silently; a line along the first or second axis begins at the third start; a plane with a dummy axis that is not read only gets another shape; data of rank 4 is refused with the default origin, and size one in its last axis fills all of it; `make_storage_dict` without a shape is refused or repeats values.)", "quantifier": "all arrays of all ranks, shapes, starts, origins and names", "why_tests_cant": "Slicing, broadcasting, repeating and reshaping depend on sizes; equal sizes, sizes of one and clipped slices behave differently.", "anchors": ["ndsl/dsl/gt4py_utils.py: make_storage_data, _make_storage_data_1d, _make_storage_data_2d, _make_storage_data_3d, _make_storage_data_Nd, make_storage_dict, _translate_origin, _mask_to_dimensions"]}
{"id": "C99", "title": "A state written to a file is read back; the date of a restart", "statement": "write_state accepts exactly the states with a date as time whose other entries are quantities that agree about the sizes of dimensions (and no dimension has the name of an entry without dimensions); otherwise it raises and no file changes. After any history of writes read_state returns the last state written to the file: the same names and date and for each quantity the same dimensions, units, backend, type and array, halo included. From a coupler.res file, with any spacing and comments, the date of its third line in the calendar of its first is read; other calendars are refused. (Not so: after reading the halo belongs to the domain; a quantity with the name of its only dimension is lost; a state with a quantity of the other precision is written but reading it fails; units of time spans change values and are lost; a file with a series of times is read without time and without an error.)", "quantifier": "all states, histories of writes to any files, sessions that read with any precision and backends; all calendars, dates, spacings and comments of coupler.res", "why_tests_cant": "Any names, dimensions, units, types and histories of writes; tests read one date file per calendar and two faulty files.", "anchors": ["ndsl/io.py:to_xarray_dataset", "ndsl/io.py:write_state", "ndsl/io.py:read_state", "ndsl/io.py:get_current_date_from_coupler_res", "ndsl/quantity/quantity.py:Quantity.from_data_array", "ndsl/quantity/quantity.py:Quantity.data_as_xarray"]}
{"id": "C100", "title": "Reference data is brought to a test at the right points and its results are cut out there", "statement": "On a square layout with the same number of cells per rank the test grid gives each rank the cells of its row and column (every cell of the tile is of exactly one rank), has it at those edges of the tile at which the partitioner has it, and is the same when made from Fortran's indices; local and global indices are inverse. Reference data on the cells or interfaces of a rank is seen by the code under test at these points of a storage, with zeros elsewhere; data of a variable that the code under test leaves alone comes back with the same shape and values, for 3-D data on cells, interfaces, or all points, or given by start and end, with the vertical axis anywhere, counted from one or not, and for 4-D data by named fields. A plane with a dummy axis becomes an array with one point along that axis. A result with one axis is compared on the levels of its region, one with two axes on the part of its region along the first two axes, whatever the region along the other axes. (Not so: on layouts that are not square the widths are taken from the other entry; if the cells do not divide evenly, cells are lost and no rank is at the right edge; a start given by the name of an input is that of the first data in all later runs; arrays of the caller with indices are changed; two variables from one array have its axis moved twice; the start of a vertical plane is not found; a line with two dummy axes is refused.)", "quantifier": "all sizes, layouts, ranks, descriptions of variables, input dictionaries and codes under test", "why_tests_cant": "This is the code by which tests compare; it must place any variable on any rank right, and there are no tests of it.", "anchors": ["ndsl/stencils/testing/translate.py:TranslateFortranData2Py.compute", "ndsl/stencils/testing/translate.py:TranslateFortranData2Py.make_storage_data_input_vars", "ndsl/stencils/testing/translate.py:TranslateFortranData2Py.slice_output", "ndsl/stencils/testing/grid.py:Grid", "ndsl/stencils/testing/grid.py:Grid.horizontal_starts_from_shape"]}
{"id": "C101", "title": "The six tiles made on one rank are the grid that the ranks make", "statement": "For every number of cells and every layout, the grid of all tiles made at once on one rank gives each corner the longitude and latitude that the rank owning it computes from its own part, at the poles and on the meridians 0 and pi too. For any grid of the first tile, symmetric or not, of any two sizes, each of its corners then has the mean of the absolute values at its four mirror images, with its own sign, and longitude 0 on the middle line; so the tile is symmetric afterwards.", "quantifier": "all sizes of a tile (up to 10^9 cells), square layouts, tiles, ranks, corners; all arrays for the first tile", "why_tests_cant": "The tests compare single sizes to a tolerance; the corrections at poles and meridians depend on parity and on the place of the rank.", "anchors": ["ndsl/grid/global_setup.py:global_mirror_grid", "ndsl/grid/global_setup.py:gnomonic_grid", "ndsl/grid/mirror.py:mirror_grid", "ndsl/grid/generation.py:MetricTerms._init_dgrid"]}
{"id": "C102", "title": "Reading and writing through a quantity's views with steps, names and new axes", "statement": "Indexing a quantity's view, or its corner and interior views, with integers and slices of any step reads exactly the elements meant: the k-th point of a slice is k steps from its begin, counted from the view's point of reference, the compute domain being the default, and the selection has one element for each such point before the slice's end. Writing through such an index changes exactly these elements, each to its value. Whatever the index, what was written through it is read through it, and nothing outside of the array is touched; more entries than dimensions are refused. `field` is the compute domain, whole and nothing else. `sel` takes the entry of each dimension by its name in any order. (Not so: a backward step without bounds gives nothing in place of the reversed domain; a new axis consumes the offset of a dimension, so the wrong part of the array is shown; a misspelt name in `sel` is ignored; a quantity without dimensions can be read by any integer, and read but not written by `[:]`.)", "quantifier": "all numbers of dimensions, origins, extents and shapes, all views, all indices of integers, slices with any bounds and steps and new axes, all contents and values", "why_tests_cant": "Tests read a few views with unit steps on small arrays; steps, signs, bounds and offsets combine over every shape and the effect of a write on all other elements is not compared.", "anchors": ["ndsl/quantity/bounds.py:BoundedArrayView.__getitem__", "ndsl/quantity/bounds.py:BoundedArrayView.__setitem__", "ndsl/quantity/bounds.py:BoundaryArrayView", "ndsl/comm/_boundary_utils.py:shift_boundary_slice_tuple", "ndsl/quantity/quantity.py:Quantity.sel", "ndsl/quantity/quantity.py:Quantity.field"]}
{"id": "C103", "title": "Reductions over all ranks and the communicators of tiles", "statement": "Reducing a quantity over all ranks with an operator on arrays (sum, product, bitwise ones) gives every rank, whatever the order in which contributions are put together, the total of the ranks' elements at each element, halos included, if the operator is associative on the elements; a new quantity has the units, dimensions, origin and extent of the rank's input, a given one of the same shape gets them, one of another shape is refused. The reduction per element, also of maximum and minimum, puts the totals into the output or in place and changes nothing else. A tile's communicator has the ranks of the tile in their order, as many as the layout has, the rank being its number within the tile; in-process communicators that split in order of ranks give what MPI gives. (Not so: all_reduce with MAX or MIN raises for arrays of more than one element; the reduced quantity is said to have no halo points; the view of a given output still shows its old compute domain although origin and extent changed; in-process communicators split in another order or twice give other ranks and sizes; on MPI the tile's communicator is not the wrapper, so reductions on a tile fail.)", "quantifier": "all numbers of ranks, orders of combination, operators, arrays, metadata, layouts and colours", "why_tests_cant": "Tests sum equal arrays on a few ranks; they cannot range over orders of combination, operators, shapes, halos and layouts, and never compare the in-process communicator with MPI.", "anchors": ["ndsl/comm/communicator.py:Communicator.all_reduce", "ndsl/comm/communicator.py:Communicator.all_reduce_per_element", "ndsl/comm/communicator.py:CubedSphereCommunicator.tile", "ndsl/comm/mpi.py:MPIComm", "ndsl/quantity/metadata.py:QuantityMetadata.duplicate_metadata", "ndsl/comm/local_comm.py:LocalComm.Split"]}
{"id": "C104", "title": "A plotted field is cut into pieces that show every value once", "statement": "For a field of any size with any missing values, plotted on the cube, cutting it into rectangles ends, and each value that is not missing is in exactly one piece, no missing value in any, no piece is empty and each piece comes with the corners of its own cells (possibly with rows and columns exchanged in all three). All tiles are drawn, in their order. A handle is returned if and only if some tile has a value. Updating a plot with values missing at the same places makes the handles show what a new plot of them would. (Not so: plotting when everything is missing raises IndexError; updating with a field that misses other values raises StopIteration or leaves old values on the plot.)", "quantifier": "all sizes, patterns of missing values, corners, values and numbers of tiles", "why_tests_cant": "Tests cut a few small arrays; termination and the exact cover must hold for every pattern of missing values, of which there are exponentially many.", "anchors": ["ndsl/viz/fv3/_plot_cube.py:_segment_plot_inputs", "ndsl/viz/fv3/_plot_cube.py:_apply_to_non_non_nan_segments", "ndsl/viz/fv3/_plot_cube.py:pcolormesh_cube", "ndsl/viz/fv3/_plot_cube.py:UpdateablePColormesh"]}
{"id": "C105", "title": "Cells at the edge of the map are not drawn across it; colours follow the data", "statement": "For every central longitude, the longitudes 0 to 360 and cells narrower than 90 degrees, plotting on the cube leaves out a cell exactly when the projection's antimeridian goes through it, centred longitudes are the same places within one turn from antimeridian to antimeridian, and no drawn cell has corners 90 or more degrees apart if no corner is exactly on the antimeridian. The periodic difference is the shortest on the circle and the periodic comparisons are its sign. Given limits and colours are kept; with no limits given all data are within the inferred ones; data on both sides of zero give symmetric limits and diverging colours. (Not so: giving both limits and the colours raises ValueError; a cell that touches the antimeridian from the west is drawn over the whole map; cells from 90 degrees on may be kept although they are cut; fewer than six tiles raise IndexError and those after the sixth are not looked at; longitudes below -180 may be compared wrongly.)", "quantifier": "all central longitudes, corner longitudes, cells, tiles, values, limits and colour names", "why_tests_cant": "Tests compare a few numbers; the mask and the centring must agree for every cell and every central longitude, and the exceptional positions are single values no test hits.", "anchors": ["ndsl/viz/fv3/_masking.py:_mask_antimeridian_quads", "ndsl/viz/fv3/_masking.py:_periodic_difference", "ndsl/viz/fv3/_plot_cube.py:center_longitudes", "ndsl/viz/fv3/_plot_cube.py:_pcolormesh_cube_all_handles", "ndsl/viz/fv3/_plot_helpers.py:_infer_color_limits"]}
{"id": "C106", "title": "A halo update on a GPU gives one result, whatever the streams do", "statement": "For every set of neighbours, quantities (scalars or vectors), indices, assignment of streams and user programs free of races among themselves, and for every order in which threads of kernels, transfers of MPI and the host can run: after start and wait of a halo update the quantities hold what the user's launches give one after the other with every halo point filled from its place in the neighbour's message, the messages sent hold the values at the start of the update, turned for the neighbour, and nothing of the update is still running. Kernels launched between start and wait may use anything but the halo being filled, including overwriting what was sent. The host never waits for ever: executions are bounded and end only when everything is done. (Not so: element types other than float32 and float64 are not refused, the update does nothing and the halo stays as it was; a kernel that reads the halo and was launched before the wait may see either value, because the wait does not wait for the user's streams.)", "quantifier": "all transformers, index lists, streams, user programs without races, memories and interleavings", "why_tests_cant": "The number of interleavings of threads, streams and transfers is unbounded and a test sees one of them; a missing synchronisation shows up rarely, if ever, in a run.", "anchors": ["ndsl/halo/data_transformer.py:HaloDataTransformerGPU", "ndsl/halo/data_transformer.py:HaloDataTransformerGPU._streamed_synchronize", "ndsl/halo/cuda_kernels.py", "ndsl/halo/updater.py:HaloUpdater.start", "ndsl/halo/updater.py:HaloUpdater.wait"]}
{"id": "C107", "title": "Calling a stencil binds arguments the same way every time, changes only what is passed, and comparisons compare what they should", "statement": "For every stencil, arguments and memory: a call runs the stencil with the parameters that Python's rule for positional and keyword arguments gives, quantities standing for their arrays, on the first call and on later ones, validated or not, and it does not matter which arguments are given by name; arguments that do not fit are refused; only arrays passed to the call change. Of two ranks that compare with each other, whatever the order of the arguments, arrays of equal names are compared before and after, and the call raises an error if and only if some differ; with an even number of ranks partners are mutual. Comparing with NumPy leaves the caller's arrays as the stencil alone does and reports for every array what each of the two gives from the same inputs. A warning about sizes is given exactly for dimensions with fewer points than the domain. (Not so: positional arguments beyond the last parameter are ignored by calls after the first; a stencil that was only to be built runs when called; Quantity objects and plain arrays are never compared with the twin rank; a value missing on one rank lets that rank go on while the other raises; with an odd number of ranks partners are not mutual; an array passed by position and by name is copied twice, so that a stencil may differ from itself; the origin of the domain is not considered by the warning.)", "quantifier": "all stencils as lists of assignments, positional and keyword arguments, memories, aliasing among arguments, ranks and twin ranks", "why_tests_cant": "Tests call stencils with a few combinations; the binding must agree for every split into positional and keyword arguments and for first and later calls, and aliasing of arguments is not sampled.", "anchors": ["ndsl/dsl/stencil.py:FrozenStencil.__call__", "ndsl/dsl/stencil.py:FrozenStencil._validate_quantity_sizes", "ndsl/dsl/stencil.py:_convert_quantities_to_storage", "ndsl/dsl/stencil.py:compare_ranks", "ndsl/dsl/stencil.py:get_pair_rank", "ndsl/dsl/stencil.py:CompareToNumpyStencil", "ndsl/dsl/stencil.py:report_difference"]}
{"id": "C108", "title": "Stencils made by a factory cover the tile once, know its edges, and reports of times are complete", "statement": "For every grid, layout, rank and number of halo points: a stencil made for dimensions along the three axes computes exactly the rank's own points, one more on interfaces, and the halo points asked for, on the levels of the factory; other numbers of dimensions or dimensions along no axis are refused. Over all ranks of a tile the stencils for cells compute every cell once. With halos smaller than a rank's part of the tile, a computed point is at an index of an edge if and only if it is in the first or last row or column of cells of the tile. The user's externals win over the axis offsets. A factory restricted to some levels makes stencils that compute these levels. A report of times has one line for every stencil with its value, sorted, with the total, and bars in proportion. (Not so: dimensions in another order than I, J, K are taken for I, J, K; stencils with varied bounds let the axis offsets win over the user's externals; with halos as wide as a rank's part, points of the halo in the first column of the tile are not at the index of the edge; a report with no stencils, with one that was not run, or with a name longer than the width raises an error; of stencils of one name only the last is counted.)", "quantifier": "all grids, layouts, ranks, dimensions, halos, externals, names and times", "why_tests_cant": "Tests make a few stencils on one rank; covering a tile once and recognising its edges must hold for every layout and halo.", "anchors": ["ndsl/dsl/stencil.py:StencilFactory.from_dims_halo", "ndsl/dsl/stencil.py:StencilFactory.from_origin_domain", "ndsl/dsl/stencil.py:StencilFactory.restrict_vertical", "ndsl/dsl/stencil.py:get_stencils_with_varied_bounds", "ndsl/dsl/stencil.py:GridIndexing.from_sizer_and_communicator", "ndsl/dsl/stencil.py:TimingCollector._show_report"]}
{"id": "C109", "title": "Cleaning up schedule trees and running passes does not change programs", "statement": "Cleaning up a schedule tree removes boundaries between states and nothing else: every other node stays in its place, the program does the same for every state, order of the iterations of maps and number of loop iterations, whether it ends or not, and the number of boundaries reported is the number removed. No boundary is left at the top or directly in a loop, map or `if` at any depth, so none at all in trees made of these; cleaning twice is cleaning once. The optimiser runs each of its passes once, in order, on the result of the pass before, whether or not trees are written, and writes after each pass the tree of that moment; passes that each keep the meaning of a program keep it together. Loops are merged from the outermost axis of the backend's loop order to the innermost, and every backend that can be constructed has an optimiser. Putting fixed sizes into maps changes nothing when every map has the range from 0 up to and including the number given. (Not so: boundaries directly in an `else` or `elif` stay; putting the size of an axis into maps over its cells makes them run once too often; ranges of other parameters are dropped.)", "quantifier": "all schedule trees, states, orders of iterations, lists of passes, backends and sizes", "why_tests_cant": "Tests clean four trees with one boundary each; that programs keep their meaning is a statement about all trees, states and schedules.", "anchors": ["ndsl/dsl/dace/stree/optimizations/clean_tree.py:CleanUpScheduleTree", "ndsl/dsl/dace/stree/optimizations/specialize_maps.py:SpecializeCartesianMaps", "ndsl/dsl/dace/stree/pipeline.py:StreePipeline.run", "ndsl/dsl/dace/orchestration.py:_build_sdfg"]}
{"id": "C110", "title": "Tests against reference data cover what is asked for and pass only what agrees", "statement": "In a serial run of the tests against reference data there is exactly one case for every savepoint, rank and call asked for whose test is not parallel; in a run of several ranks there is on every rank exactly one case for every savepoint and call whose test is parallel, and all ranks have the same cases in the same order, whatever the order in which their sets are iterated. A savepoint is asked for if it is named, or nothing is named and there is input data for it, and it is not among those to skip. A name without a test ends the collection of all cases. A case passes if and only if its specification says to skip it, or the data has its rank and the inputs, the computation comes back, there is at least one variable, and every variable has a reference and passes its metric; the lists of passing and failing variables are exact and the verdict does not depend on the order of variables. A specification of the overrides file for the test, backend and platform sets what it gives and leaves the rest; without one nothing changes; with two the test ends with an error. Six times a square number of ranks are tested as a cubed sphere of that layout, a square number that six does not divide as one tile. (Not so: a parallel case is skipped on ranks the data lacks while others go on to wait for them; skipped cases count as passed; `all_other_near_zero` alone has no effect, and with a dictionary ends parallel tests with an error; a specification for a backend that does not exist ends the test; 36 ranks of one tile and 12 of a cubed sphere are refused; failures of different ranks of a serial run and of different calls overwrite each other's files.)", "quantifier": "all sets of data files, options, test classes, numbers of ranks, orders of sets, overrides files and outcomes of metrics", "why_tests_cant": "The test framework has no tests of itself; that no case is lost and none passes unseen is a statement about all options and data.", "anchors": ["ndsl/stencils/testing/conftest.py:_all_savepoint_names", "ndsl/stencils/testing/conftest.py:_savepoint_cases", "ndsl/stencils/testing/conftest.py:pytest_generate_tests", "ndsl/stencils/testing/test_translate.py:test_sequential_savepoint", "ndsl/stencils/testing/test_translate.py:test_parallel_savepoint", "ndsl/stencils/testing/test_translate.py:process_override"]}
{"id": "C111", "title": "The doubly periodic grid is uniform and the same for every decomposition", "statement": "Grid type 4 makes the doubly periodic grid, types below 3 the cubed sphere and all others are refused. On the doubly periodic grid a corner of the tile has one longitude and latitude, fixed by its indices in the tile and the number of cells of the tile: every rank that computes it, of every even decomposition of the same tile, stores that position, neighbouring corners are equally far apart and the tile spans one sixteenth of pi in each direction around the given latitude. All lengths of cells are the two given spacings, areas are their products, areas of cells of all ranks add up to that of the tile, unit vectors have length one, cosines between them are zero and sines one, and reciprocals are reciprocals. The factors of divergence and of damping are the ratios of the spacings everywhere in the storage of every rank, at edges of the tile as elsewhere. (Not so: the positions of all centres of cells are the middle of the tile; halo corners outside the tile are NaN rather than the periodic continuation, and so is the last halo line towards a rank to the east or north, although it is in the tile; the matrices that turn winds to east and north are NaN everywhere.)", "quantifier": "all grid types, spacings, latitudes, numbers of cells, even layouts, ranks and corners", "why_tests_cant": "Tests of this grid make one size on one rank and look at a few terms; that no decomposition changes a corner and that edges of the tile do not show in any factor is about all layouts and sizes.", "anchors": ["ndsl/grid/generation.py:MetricTerms._init_cartesian", "ndsl/grid/generation.py:MetricTerms.__init__", "ndsl/grid/generation.py:MetricTerms._calculate_divg_del6", "ndsl/grid/generation.py:MetricTerms._calculate_2d_a_terms"]}
{"id": "C112", "title": "Serialbox data converted to NetCDF reaches a test as it was written", "statement": "If the Serialbox streams of all ranks agree on the savepoints of a name, their number of calls, the fields and shapes, the conversion ends without error, writes one file for each savepoint, and what a test reads for any rank and call is what that rank wrote at that call, for every field except one called rank, with 0 in place of 1e40; a single element is delivered without its first axis, a field an other rank lacks as NaN there, tracers of the dynamics without three cells at each side. A savepoint is said to exist for a rank exactly if the rank has data. Files are written in the order of names until the first that cannot be converted. Blocks that have together as many points as the part of a rank are laid out there row by row, each point once. One-dimensional arrays whose sizes differ between ranks are put one after the other. (Not so: blocks of other sizes are dropped but for the first; arrays of differing sizes cannot be stored with several calls nor beside other variables; fields that rank 0 lacks and calls beyond those of the last rank are lost; a later call with one element is repeated to an array; 1e40 is kept in a single element; a scalar lacking on a rank ends the conversion; with a name for the data all ranks get the same stream; loaders read the first call unless asked otherwise.)", "quantifier": "all streams, ranks, layouts, savepoints, calls, fields, shapes and values", "why_tests_cant": "The converter needs Serialbox and is not tested; that no rank, call or value is exchanged or lost is about all numbers of ranks and calls and all shapes.", "anchors": ["ndsl/stencils/testing/serialbox_to_netcdf.py:main", "ndsl/stencils/testing/serialbox_to_netcdf.py:get_data", "ndsl/stencils/testing/serialbox_to_netcdf.py:get_data_collapse_all_ranks", "ndsl/stencils/testing/serialbox_to_netcdf.py:read_serialized_data", "ndsl/stencils/testing/savepoint.py:DataLoader", "ndsl/stencils/testing/savepoint.py:SavepointCase"]}
{"id": "C113", "title": "The memory report and the kernel times of a built program add up", "statement": "The memory analysis of a built program visits the program and every SDFG nested in it at any depth, and lists for each storage exactly once every container that stands for memory of its own: all of the outermost SDFG and the temporaries of nested ones; memory that a nested SDFG is given from outside is not counted again. The totals are the bytes of the containers used, not used, pooled and of the outermost SDFG, and used and not used together are all. The report shows the storages of which memory is used or belongs to the outermost SDFG. The times of kernels name exactly the labels of the maps that are in no other map, and the time of a label is the largest of the bytes such a map reads and writes over the bandwidth. (Not so: unused temporaries of nested SDFGs alone in their storage do not show; a container read only by the condition of a branch counts as unused; a map with an edge without data ends the computation of times; with the measured bandwidth the time of the very kernel that was measured is a quarter of what was measured; the label of the bandwidth says computed when it is given and given when it is computed.)", "quantifier": "all programs, depths of nesting, containers, storages, maps, edges and bandwidths", "why_tests_cant": "That every container is counted once is about all nestings and flags; the analysis is only run on whole models.", "anchors": ["ndsl/dsl/dace/utils.py:memory_static_analysis", "ndsl/dsl/dace/utils.py:report_memory_static_analysis", "ndsl/dsl/dace/utils.py:kernel_theoretical_timing", "ndsl/performance/tools.py:command_line"]}
{"id": "C114", "title": "Debug checks inserted in a built program test what is written and change nothing", "statement": "With syncdebug on, on a GPU: for every output of a map that is in no other map to an array (not a view) whose name contains delp, or the name of a tracer, a check is inserted that stops the program exactly if the subset the map writes holds a number below 0 (below -1e-8 for tracers); the check runs after the array is written and before anything that reads it from there; in whatever order the program with checks runs, its own nodes run in an order the program without checks could run in, with the same contents of memory at the end; a program that can run can run with the checks; and the number logged is the number of checks. Programs without such names stay as they are. Ranges for the NaN checker are given for all three axes or none. (Not so: the NaN checker, the trace of all outputs and the trace of progress, which have no words to look for, find no output in any program and check nothing; for arrays that are not on the GPU no check is inserted but one is logged, and what reads the array no longer waits for what writes it, so the program may read old values; with ranges given, a check of an array of more than three axes lacks ranges.)", "quantifier": "all programs, outputs, names, subsets, numbers of checks on a node, values and orders of execution", "why_tests_cant": "Debug passes are not tested; that no order of execution is lost or added is about all graphs and all schedules.", "anchors": ["ndsl/dsl/dace/sdfg_debug_passes.py:_filter_all_maps", "ndsl/dsl/dace/sdfg_debug_passes.py:_check_node", "ndsl/dsl/dace/sdfg_debug_passes.py:negative_delp_checker", "ndsl/dsl/dace/sdfg_debug_passes.py:negative_qtracers_checker", "ndsl/dsl/dace/sdfg_debug_passes.py:sdfg_nan_checker", "ndsl/dsl/dace/orchestration.py:_build_sdfg"]}
{"id": "C115", "title": "One index is one state in a Zarr store, and constants are kept as stored", "statement": "After any number of stores of states with the same names and metadata and dates of one calendar, on every rank all calls have returned, every variable has exactly one value per store, in order, and the times at the same index decode to exactly the date of that store. A state with other names than the first is refused with nothing written. A constant given with the same dimensions by all ranks is stored so that every point of every tile has the value of the rank it belongs to. NetCDF constants keep, for every name, the value stored last. (Not so: a state refused for a field leaves the fields before it in the alphabet, and the time, stored, and all later states are out of step; a date of another calendar, or a duration, raises on the first rank only while the others wait, and after a duration nothing can be stored; a constant with its axes in another order on some rank is stored exchanged without an error; NetCDF constants cannot be stored before the directory exists, and then only the first rank raises.)", "quantifier": "all lists of states, names, metadata, values, calendars and dates, ranks, layouts and orders of the ranks", "why_tests_cant": "Tests store two or three states; that no length of history brings times and values out of step, and what a refused call leaves behind, is about all histories.", "anchors": ["ndsl/monitor/zarr_monitor.py:ZarrMonitor.store", "ndsl/monitor/zarr_monitor.py:ZarrMonitor.store_constant", "ndsl/monitor/zarr_monitor.py:_ZarrTimeWriter", "ndsl/monitor/zarr_monitor.py:_ZarrConstantWriter", "ndsl/monitor/zarr_monitor.py:get_calendar", "ndsl/monitor/netcdf_monitor.py:NetCDFMonitor.store_constant"]}
{"id": "C116", "title": "Merging loops ends for every program and keeps every computation once", "statement": "The optimiser that merges parallel loops over an axis ends for every program, after at most as many passes as there are parallel loops and sequential loops around them; the result does not depend on limits of recursion; another pass over it merges nothing, and no two loops over the axis that are allowed to be merged follow each other in it (outside other loops). The result has the same computations as the program, each once and in the same order, and no more parallel loops.", "quantifier": "all programs (trees of loops, conditions and computations of any size and depth), ranges, axes and names of iteration variables", "why_tests_cant": "The optimiser repeats passes until nothing is merged, and recurses while it rewrites; that it ends, and loses or repeats nothing, is about all programs.", "anchors": ["ndsl/dsl/dace/stree/optimizations/axis_merge.py:CartesianAxisMerge", "ndsl/dsl/dace/stree/optimizations/axis_merge.py:CartesianAxisMerge.visit_ScheduleTreeRoot", "ndsl/dsl/dace/stree/optimizations/tree_common_op.py:swap_node_position_in_tree"]}
{"id": "C117", "title": "Compiled stencils are found where they were written", "statement": "Building on ranks of a communicator, each rank writes its stencils to a directory of its own, different from those of all other ranks and code paths, however many ranks there are. Running on the same ranks (more than one) each rank reads what it wrote; running with minimal caching on the cubed sphere each rank reads what a compiling rank with the same code path wrote in a build with one, two or three ranks a side. Orchestrated programs are written and read by code path. Without a communicator the directory is the same in all modes. (Not so: on one rank, run mode looks in another directory than the build wrote; the environment variable naming the directory is ignored in run mode; a rank that waited for another to compile looks in its own directory; orchestrated programs cannot be run in run mode, since the directories of the ranks are looked for; in build mode stencils are run when called.)", "quantifier": "all numbers of ranks, square layouts, ranks, modes, directories that exist and values of the environment variable", "why_tests_cant": "Tests check the numbers of ranks in single configurations, not that what one program writes is what another one reads, for all layouts.", "anchors": ["ndsl/dsl/__init__.py", "ndsl/comm/decomposition.py:build_cache_path", "ndsl/comm/decomposition.py:set_distributed_caches", "ndsl/comm/decomposition.py:check_cached_path_exists", "ndsl/dsl/stencil_config.py:CompilationConfig", "ndsl/dsl/caches/cache_location.py:get_cache_directory", "ndsl/dsl/caches/codepath.py:FV3CodePath", "ndsl/dsl/dace/build.py:set_distributed_caches", "ndsl/dsl/stencil.py:FrozenStencil.__init__"]}
{"id": "C118", "title": "Reports of comparisons show every failing point, with its numbers", "statement": "The report of a comparison says that there are no differences exactly when every point passes. Where points fail, the legacy report has one line for each of them, in the order of the array, with its index, both values, their distance and their metric; it counts them, and its worst result has the largest metric, or NaN if there is one. The multi modal report has one line for every point but those where both values are NaN, in the order of the array or from the largest distance of the chosen kind to the smallest, NaN first; a line has three bad marks exactly when its point fails; its head counts the failing points, all points and, where the input is known, the columns and values that change; made right after the comparison it names the thresholds used and flags those that are not the defaults. The text on the terminal has the first 26 failing points, or the eleven with the largest distances. (Not so: sorted by units in the last place, the points shown on the terminal can all be points that pass; failures where nothing should change are counted with the values that change but not with the columns; a report made after another comparison names the thresholds of that one; reports of a single value, of an empty array, with a threshold of zero and of failing booleans raise; an unknown order is noticed when the report is made, by an unrelated error; the multi modal report of booleans shows uninitialised memory.)", "quantifier": "all arrays of numbers, NaN and infinities, shapes, thresholds, orders, sorting algorithms and histories of comparisons", "why_tests_cant": "Which points are listed, counted and hidden depends on all values together, on ties of the sort and on the comparisons made before in the process.", "anchors": ["ndsl/testing/comparison.py:LegacyMetric.report", "ndsl/testing/comparison.py:LegacyMetric.__repr__", "ndsl/testing/comparison.py:MultiModalFloatMetric.report", "ndsl/testing/comparison.py:MultiModalFloatMetric.one_line_report", "ndsl/testing/comparison.py:MultiModalFloatMetric.__repr__", "ndsl/testing/comparison.py:_Metric"]}
{"id": "C119", "title": "Labels around a program change nothing it computes", "statement": "Surrounding the control flow of a program with the two labelled empty states changes neither the states it runs through, nor their order, nor the memory at the end, whatever its branches and loops; it ends exactly when the program ended. The topmost program still starts in its first state and passes the state labelled Enter right after it; a nested one starts in the state labelled Enter; both end in a state labelled Exit and pass no label in between. (Not so: a nested program of one state gets no Exit; a program with an edge back to its first state gets no Enter; a program that ends in a state with edges that are not taken passes no Exit.)", "quantifier": "all programs with one first state, all meanings of states and edges, all memories and executions", "why_tests_cant": "The graph is changed while its states are visited, in an order the program determines, and executions of programs with loops are unbounded.", "anchors": ["ndsl/dsl/dace/labeler.py:set_label", "ndsl/dsl/dace/orchestration.py:_LazyComputepathMethod.SDFGEnabledCallable"]}
{"id": "C120", "title": "Quantities are made with the values, size and memory asked for", "statement": "A quantity made from an array has its values, dimensions, units, origin, extent and halo as given, changes nothing in memory, and shares the array exactly when its memory order suits the backend and it is on the backend's device; otherwise it has its own copy. Without origin and extent the compute domain is the whole array. What a factory makes is new memory of the size its sizer gives: zero or one everywhere for zeros and ones, the given number everywhere for full, a copy of an array of its size for from_array, and for from_compute_array the array in the compute domain and zeros around. Refused are exactly another floating point precision (unless allowed), something that is no array, and wrong numbers of dimension names, origins and extents; a factory refuses unknown dimensions; from_array refuses exactly what NumPy cannot stretch. The halo specification of a factory is that of the quantities it makes, for no more points than there are in the halo. (Not so: arrays of another size are silently repeated along axes of length one or missing; an extent beyond the array is taken; axes are announced to GT4Py by position, and a data dimension as an axis when its name is part of that of an axis; a quantity without axes can not be filled.)", "quantifier": "all arrays and memories, sizers, lists of dimensions, backends, origins, extents, and all answers of GT4Py about memory order", "why_tests_cant": "Whether data are shared or copied depends on the memory order of each array and backend, and sizes come from all combinations of dimensions.", "anchors": ["ndsl/quantity/quantity.py:Quantity.__init__", "ndsl/quantity/quantity.py:Quantity.field", "ndsl/quantity/quantity.py:Quantity.halo_spec", "ndsl/initialization/allocator.py:QuantityFactory"]}
{"id": "C121", "title": "Factories of stencils and quantities go together, for a single tile and from namelists", "statement": "For every sizer and communicator, a stencil made for some spatial dimensions computes on exactly the compute domain of the quantities allocated for these dimensions, and with halos up to that of the sizer stays inside their arrays. The factories for a single tile have its full size, the halo and the backend asked for and all four edges on every process, and warn exactly when there is more than one process; a tile not larger than its halo is refused, so is another topology, and for orchestrated code a backend that does not orchestrate. From a Fortran namelist the tile has one cell less than grid lines in each direction, the levels given and three halo points, and is divided by the partitioner given, else by the layout in the namelist; what is allocated has the extents of the rank's part. A namelist of unknown format is refused. (Not so: in the flat format the tile is square whatever ny_tile says; an incomplete group fv_core_nml hides a complete flat namelist; a negative number of levels is taken.)", "quantifier": "all sizes, halos, backends, layouts, ranks and numbers of processes, lists of spatial dimensions and halos, all namelists", "why_tests_cant": "Sizes, layouts, ranks and lists of dimensions are unbounded; tests use a few.", "anchors": ["ndsl/boilerplate.py:_get_factories", "ndsl/boilerplate.py:get_factories_single_tile", "ndsl/boilerplate.py:get_factories_single_tile_orchestrated", "ndsl/initialization/subtile_grid_sizer.py:SubtileGridSizer.from_namelist", "ndsl/dsl/stencil.py:GridIndexing.from_sizer_and_communicator"]}
{"id": "C122", "title": "Snapshots of temporaries hold what a program can reach, and their comparison finds every difference", "statement": "For every program, also one whose parts refer to each other in circles, a snapshot taken to some depth ends, and has exactly the quantities to which paths of attributes lead that pass over at most that many further objects of the package, none of the names starting with two underscores, each with the values it has at that time; later writes do not change it. Comparing a snapshot with another one passes exactly when each of its arrays is in the other at the same path with values taken as equal; otherwise what is reported is exactly the paths whose arrays differ. Arrays of the same shape are taken as equal exactly when at each index both numbers are NaN, both the same infinity, or not further apart than 1e-8 plus 1e-5 of the second. Two snapshots between which none of the reached quantities was written agree. (Not so: arrays only in the second snapshot go unnoticed; arrays of different shapes may be taken as equal; all numbers below 1e-8 are the same as zero; the result depends on the order of the two; parts of a package called py or FV3 are looked into too; an array missing in the second snapshot is a KeyError and not a difference.)", "quantifier": "all graphs of objects and attributes, all memories, depths, paths, and all pairs of snapshots", "why_tests_cant": "Object graphs, depths and arrays are unbounded.", "anchors": ["ndsl/stencils/testing/temporaries.py:copy_temporaries", "ndsl/stencils/testing/temporaries.py:assert_same_temporaries", "ndsl/stencils/testing/temporaries.py:_assert_same_temporaries"]}
{"id": "C123", "title": "Reductions over quantities see exactly the compute domain", "statement": "For every array, and every quantity with any halo, the maximum and minimum along any set of axes, counted from either end, or along all of them, have the size of the axes left, and at each index the greatest or least of exactly the numbers of the array, or of the compute domain, that are reduced to it; NaN if one of them is NaN. The count of non-zeros is at each index the number of those that are not zero. An axis that does not exist or is given twice is refused, and so are the maximum and minimum of no numbers and things that are neither arrays nor quantities. The maximum and minimum on horizontal planes of a quantity of I x J x K points put into each level of the compute domain of the output the extremum of the input's compute domain at that level and leave the output's halo as it was; for arrays likewise. (Not so: dimensions are not looked at, with the levels first the planes are others; an input with a single level fills all levels of the output without error; an array as input writes to a quantity's halo too, or is refused if it has the size of the compute domain.)", "quantifier": "all sizes, origins, numbers including infinities and NaN, and all sets of axes", "why_tests_cant": "Sizes, ranks and values are unbounded.", "anchors": ["ndsl/xumpy/minmax.py:max", "ndsl/xumpy/minmax.py:min", "ndsl/xumpy/minmax.py:max_on_horizontal_plane", "ndsl/xumpy/minmax.py:min_on_horizontal_plane", "ndsl/xumpy/count_nonzero.py:count_nonzero"]}
{"id": "C124", "title": "Flipping, transposing or rotating a tile moves its ranks one to one", "statement": "For every layout and every rank of a tile, flipping left to right gives the rank in the same row with the column counted from the other end, flipping upside down the one in the same column with the row counted from the other end, and flipping twice gives the rank back. On square layouts transposing gives the rank with row and column exchanged and one rotation the rank at row n-1-column, column row; transposing twice or rotating four times gives the rank back, two rotations are both flips, and a rotation followed by a flip upside down is a transposition; each is one to one on the ranks of the tile. Numbers that are no ranks are refused, no rotation leaves the rank, and more than one rotation is refused. (Not so: on layouts that are not square transposing and rotating give ranks of the old layout, or an error.)", "quantifier": "all layouts and ranks", "why_tests_cant": "Layouts are unbounded.", "anchors": ["ndsl/comm/partitioner.py:rotate_subtile_rank", "ndsl/comm/partitioner.py:transpose_subtile_rank", "ndsl/comm/partitioner.py:fliplr_subtile_rank", "ndsl/comm/partitioner.py:flipud_subtile_rank"]}
{"id": "C125", "title": "What is plotted on the cube is the data, by name, and its colour limits are those of the data", "statement": "For every data set, in whatever order the dimensions of its variables are, the variables of the grid are brought to the order rows, columns, tiles, and the variable to be plotted to rows, columns, tiles and then the others, with the same lengths and at indices given by name the same values, those of the grid at the first index along dimensions the plot has not; a variable that lacks a dimension is refused. Shapes are accepted exactly when centres and data are rows by columns by six tiles and the corners have one more row and column. Without limits given every number of the data lies within the limits found; with robust limits, the lower is not above the upper, both are within the data, and for p percent of the n numbers at most one more than p percent of n - 1 of them is below the limit and more than p percent of n - 1, rounded down, not above it; NaN does not count. Limits given are kept. (Not so: a grid that moves in time is plotted as it is at the first time; another name for tiles given with the description of the grid is not followed for the variable, which is refused; with few data an outlier sets the robust limit.)", "quantifier": "all names, orders and lengths of dimensions, all values, all data with NaN, all percentiles", "why_tests_cant": "Orders of dimensions, sizes and values are unbounded, and the order of a set differs between runs.", "anchors": ["ndsl/viz/fv3/_plot_helpers.py:_align_grid_var_dims", "ndsl/viz/fv3/_plot_helpers.py:_align_plot_var_dims", "ndsl/viz/fv3/_plot_helpers.py:_min_max_from_percentiles", "ndsl/viz/fv3/_plot_helpers.py:infer_cmap_params", "ndsl/viz/fv3/_plot_cube.py:_mappable_var", "ndsl/viz/fv3/_plot_cube.py:_validate_cube_shape"]}
{"id": "C126", "title": "Environment variables decide precision, constants, messages, debugger and orchestration as documented", "statement": "For every environment: numbers of both kinds have 32 bits if NDSL_LITERAL_PRECISION is 32 and 64 otherwise, and literals in stencils have the same whatever the variables of GT4Py say, other variables being left alone. The constants are those named by NDSL_CONSTANTS, those of UFS if it is not set, and with any other text the import fails. With NDSL_LOGLEVEL unset or naming a level, in any mixture of capitals, a message is printed once on every rank exactly if it is at least as serious as the level, by the logger for rank 0 once on rank 0 and never elsewhere; any other text counts as info. Without NDSL_DEBUG_CONFIG there is no debugger; with a file there is one with exactly the options of the file, the defaults for the others and the rank of the process; a file with an unknown option, or with a rank, is refused. The mode of orchestration is the one given, otherwise the one named by FV3_DACEMODE, otherwise build and run, and other texts are refused. After any history of configurations with at least one for an orchestrated backend the settings of DaCe are those the last of these makes in a fresh process, and configurations for other backends change nothing. (Not so: with an unknown level every message is printed twice; a configuration of the debugger that is not there is warned about, and then the import fails.)", "quantifier": "all environments, file systems, ranks, levels of messages, configurations of the debugger, machines and histories of configurations", "why_tests_cant": "Texts of variables and histories of configurations are unbounded, and most is read once, at import.", "anchors": ["ndsl/logging.py:_get_log_level", "ndsl/logging.py:_ndsl_logger", "ndsl/logging.py:_ndsl_logger_on_rank_0", "ndsl/dsl/__init__.py:_get_literal_precision", "ndsl/dsl/typing.py:global_set_precision", "ndsl/constants.py:_get_constant_version", "ndsl/debug/config.py:_set_debugger", "ndsl/dsl/dace/dace_config.py:DaceConfig.__init__", "ndsl/dsl/dace/dace_config.py:_sync_gpu_option"]}
{"id": "C127", "title": "The physical constants of each version fit together", "statement": "With every set of constants: gravity, its inverse and the hydrostatic factor go together; the heat capacities of dry air at constant pressure and volume differ by its gas constant, and the exponents for adiabatic changes go together; for every share of vapour the gas constant of moist air is that of dry air times one plus ZVIR times the share; the latent heats of evaporation and fusion computed from the coefficients have the given values at TICE, change with temperature by the difference of the heat capacities of the phases, and at every temperature add up to that of sublimation. All but UFS freeze at TICE. (Not so: with UFS fusion at the freezing temperature does not take HLF; the values in the documentation are only those of UFS.)", "quantifier": "all versions, temperatures and shares of vapour; the derived constants for every sound set of base constants", "why_tests_cant": "The relations hold for all temperatures and shares, and for sets of constants yet to be added; the version is chosen once for a process.", "anchors": ["ndsl/constants.py:ConstantVersions", "ndsl/constants.py:KAPPA", "ndsl/constants.py:ZVIR", "ndsl/constants.py:LV0", "ndsl/constants.py:LI00", "ndsl/constants.py:LI2", "ndsl/constants.py:D2ICE"]}
{"id": "C128", "title": "Windows, edges and sizes of the grid of a test are those of the rank's part of the tile", "statement": "On a square layout of ranks with the same number of cells: ranges of indices run over the rank's cells, interfaces or levels, each once and in order; each window (cells, interfaces across i or j or both, with levels or interfaces between levels, with or without halo) has the right size and its values are those from its first point on; shapes and origins are those of the windows, with what is to be added. Every interface is in the window of some rank of each row, and two ranks share one exactly if they are neighbours and it is between them. Edges inserted replace the first or last rows and columns, columns where both meet, and nothing else; the edges kept of a wind component are exactly what lies after its window, and inserting them in any array brings them back and changes nothing else. Corners are those of the partitioner, and the indexing of stencils and the sizes for allocating are those of the grid. (Not so: on a layout that is not square the sizes are not those of the grid; edges of arrays with two dimensions cannot be copied.)", "quantifier": "all layouts n by n, ranks, numbers of cells and levels, arrays and values", "why_tests_cant": "Sizes, layouts, ranks and values are unbounded; a test sees one rank's window of one size.", "anchors": ["ndsl/stencils/testing/grid.py:Grid.slice_dict", "ndsl/stencils/testing/grid.py:Grid.compute_dict", "ndsl/stencils/testing/grid.py:Grid.x3d_compute_dict", "ndsl/stencils/testing/grid.py:Grid.y3d_compute_dict", "ndsl/stencils/testing/grid.py:Grid.copy_right_edge", "ndsl/stencils/testing/grid.py:Grid.insert_left_edge", "ndsl/stencils/testing/grid.py:Grid.insert_right_edge", "ndsl/stencils/testing/grid.py:Grid.grid_indexing", "ndsl/stencils/testing/grid.py:Grid.sizer", "ndsl/stencils/testing/grid.py:Grid.irange_compute"]}
{"id": "C129", "title": "Noise put on the inputs of a test is of the size of rounding", "statement": "For every mapping of names to arrays (a name may stand for an array named before), every rounding to nearest and every draw, perturbing the inputs keeps all sizes and types, leaves arrays of other types than 64 and 32 bit floats, arrays not in the mapping and all entries that are NaN, infinite or at least 1e30 as they are, and changes any other number x of an array of 64 bit floats by at most 2^-52 |x| for each time the array is in the mapping, without changing its sign; numbers with all 53 digits are changed when the number drawn is below -2^-54. (Not so: arrays of 32 bit floats are never changed; the noise has one sign, no number grows and draws that are not negative change nothing.)", "quantifier": "all mappings, arrays, numbers drawn and roundings to nearest with any rule for ties", "why_tests_cant": "The numbers drawn are random and the numbers they are applied to unbounded; the effect lies in the last digit.", "anchors": ["ndsl/testing/perturbation.py: perturb"]}
{"id": "C130", "title": "A failing test saves what was computed, and measured thresholds bound the spread of the samples", "statement": "For every set of variables, ranks and shapes: when a variable of a test fails, the file written has exactly the failing variables in one group and exactly the passing ones in the other, each with the reference and the computed values of every rank at its place, their difference, and the inputs when every rank has them; when none fails nothing is written. The variables of a test have report files of their own. Of samples computed from inputs with noise, the absolute difference printed bounds the difference of any two samples at every point without NaN and is the difference of two of them; the relative difference does so relative to every sample there, and is infinite exactly when at a point one sample is zero and another is not. (Not so: what is saved as the absolute error has a sign; when the inputs of one variable have another number of dimensions than its results, nothing is saved for any; with hyphens in names the variables of two tests may share a report file.)", "quantifier": "all sets of variables, numbers of ranks, shapes and values", "why_tests_cant": "Names, shapes and values are unbounded, and the code runs only when a test fails.", "anchors": ["ndsl/stencils/testing/test_translate.py: save_netcdf, _save_datatree, _report_results, _get_thresholds"]}
{"id": "C131", "title": "A stencil is compiled with the options of its configuration", "statement": "For every history of making and changing configurations: a stencil configuration made from a compilation configuration that is not changed afterwards compiles every stencil with exactly the backend, rebuild, source format and (on a GPU only) device synchronisation it was made with, whatever is done to other configurations. Passes asked to be skipped are skipped, all others run in their usual order, and a name that is no pass is refused. Functions of different modules or names give stencils of different names. (Not so: when the compilation configuration is changed afterwards, backend and rebuild follow while source format, synchronisation, hash and equality do not; functions of one name in two scopes of a module give one name.)", "quantifier": "all histories of operations on configurations, all options, backends, functions and sets of passes", "why_tests_cant": "Configurations are mutable and shared, so all histories matter.", "anchors": ["ndsl/dsl/stencil_config.py: StencilConfig.__init__, stencil_kwargs, _get_oir_pipeline, __eq__", "ndsl/dsl/stencil_config.py: CompilationConfig.__init__"]}
{"id": "C132", "title": "Comparing two files gives the differences at corresponding points", "statement": "For every two NetCDF files, mapping of names and size of halo: the comparison program writes, for every variable of the first file found in the second (under its own name, else under the one it is mapped to) whose shape is equal up to a halo around one of them and up to leading savepoint and rank, the difference at every corresponding point and the distances in units of rounding of all these points, sorted; for the others it writes nothing.", "quantifier": "all pairs of files, names, shapes, values, mappings of names and sizes of the halo", "why_tests_cant": "Names, shapes and values are unbounded; there are no tests of this program.", "anchors": ["ndsl/stencils/testing/best_guess_diff.py: main"]}
{"id": "C133", "title": "The variables of a reference grid are stored at their points", "statement": "For every grid read from reference data and every rank with a halo of three: when the test framework has turned it into storages, each variable without a treatment of its own lies, in an array over the whole domain with halo, at the place its size says (data on cells or corners after the halo, data with one more row on each side one point before that, other data at the beginning) with zeros elsewhere, with or without levels; the nine components of sin_sg and cos_sg are stored under the names counted from 1; the first axis of unit vectors becomes the last; vlon and vlat lie one point from the beginning; the vectors along the western and eastern edges are the same for every i; what is not an array is left as it is. On a GPU the factors along edges are rows and columns beginning after the halo. (Not so on a CPU: the storages made first are NumPy arrays too and are stored a second time by the last loop. The row of factors along the western or eastern edge becomes a plane of which only the first line, in the halo, has them, so all points of the domain get zero; the factors along the southern or northern edge raise an error whenever a row of the domain has more points than there are levels.)", "quantifier": "all data, names, sizes of the domain, numbers of levels and values; CPU and GPU", "why_tests_cant": "Names, shapes and values are unbounded and the outcome depends on the relation of sizes to one another and on the device.", "anchors": ["ndsl/stencils/testing/translate.py: TranslateGrid.make_grid_storage, _make_composite_var_storage, _make_composite_vvar_storage, _edge_vector_storage", "ndsl/stencils/testing/grid.py: Grid.horizontal_starts_from_shape"]}
{"id": "C134", "title": "The grid data of a test is the reference data", "statement": "For every test grid and all data added to it: reading the grid data for the first time gives, under each name, the values of the variable it is made from (the one added last under its name) at every point; of unit vectors the three directions, and of the factors along the southern and northern edges as many as there are corners in a row; on a GPU the factors along the western and eastern edges of the reference data are found after the halo in every line. Later readings give the same, whatever data is added, until other grid data is set, which is then read. The fields are at the middle of cells, at corners, at western and southern sides, or at the interfaces of levels, with the sizes of these; there are no others but the unit vectors and the factors along the edges. (Not so: on a CPU the factors along the western and eastern edges are zero at all points but those of the first line of the halo; with a backend that has memory as Fortran has, the stored reference data does not fit and no grid data can be made.)", "quantifier": "all data, sizes of the domain, numbers of levels, values, and sequences of adding, setting and reading", "why_tests_cant": "Sizes, values and sequences of uses are unbounded; the outcome depends on the device and on the order of uses.", "anchors": ["ndsl/stencils/testing/grid.py: Grid.grid_data, add_data, set_grid_data", "ndsl/grid/generation.py: GridDefinitions", "ndsl/initialization/subtile_grid_sizer.py: SubtileGridSizer.get_shape", "ndsl/initialization/allocator.py: QuantityFactory.from_array"]}
{"id": "C135", "title": "Empty storages and reshaped arrays have the right axes", "statement": "For all sizes: an empty storage has the wanted shape and is zero everywhere; without a mask one size makes a column, two sizes a plane, three a volume, and further sizes data dimensions, with the entries of the origin for its axes; a mask names the axes in order. A dictionary of storages has an empty one under each given name and is otherwise unchanged. Reshaping returns an array of the wanted shape unchanged, repeats a plane on every level, and keeps the values in order row by row if the shape has no more axes and as many places; another number of places is refused. A field of vectors is split into its first three components, fewer are refused. (Not so: a storage with more than three sizes cannot be made with the default origin; a plane of other sizes is repeated without an error, with its own sizes; a column is laid along the first axis instead of being repeated at every place.)", "quantifier": "all sizes, origins, masks, arrays, names and indices", "why_tests_cant": "Sizes, ranks and values are unbounded; the two errors in stretching show only for non-constant columns or other sizes.", "anchors": ["ndsl/dsl/gt4py_utils.py: make_storage_from_shape, storage_dict, reshape, split_cartesian_into_storages"]}
{"id": "C136", "title": "Swapping nested nodes of a schedule tree keeps all others", "statement": "For every schedule tree whose references between parents and children agree: swapping a node with its only child puts the child in its place among its siblings, the node below the child and what was below the child below the node, with all references agreeing again and no other object changed, if no earlier sibling compares equal to the node. The search for cycles reports nothing on a tree and visits every node; where going down ends, it reports something if and only if a node is found twice. (Not so: other children of the node are lost; an earlier sibling that compares equal to the node is taken away instead of it, and the node is then in the tree twice; on a node below itself the search for cycles does not end.)", "quantifier": "all trees, positions, numbers of siblings and depths, and every notion of equality of nodes", "why_tests_cant": "Trees are unbounded in size and depth; the loss of a sibling depends on equality by value of nodes that are different objects.", "anchors": ["ndsl/dsl/dace/stree/optimizations/tree_common_op.py: swap_node_position_in_tree, detect_cycle, list_index", "ndsl/dsl/dace/stree/optimizations/axis_merge.py: CartesianAxisMerge._for_merge"]}
{"id": "C137", "title": "Copies between devices and memory for messages", "statement": "For all arrays in main memory or on a GPU: copying one to another of the same shape gives it all its values and leaves it on its device; whether a copy is possible and what it gives depends on shapes and values only, not on the devices. For every sequence of setting CuPy's allocator and of making buffers: while memory suffices, the allocator in use is the one that was set last, and in debug mode every buffer on a GPU comes from the default pool; buffers on a GPU made in another way are refused. (Not so: with optimisation of Python on, these are returned; if a buffer on a GPU cannot be made for want of memory, the allocator that was set is lost.)", "quantifier": "all shapes, values and devices; all sequences of settings and allocations, which may fail", "why_tests_cant": "Tests run without a GPU; the loss of the allocator shows only after a failed allocation.", "anchors": ["ndsl/utils.py: safe_assign_array, safe_mpi_allocate", "ndsl/buffer.py: Buffer.pop_from_cache, assign_to, assign_from"]}
{"id": "C138", "title": "OpenMP is taken out of a program graph", "statement": "For every program graph: making it sequential leaves, at every depth of nested graphs, the same nodes in the same places; each entry of a scope that was scheduled on many cores, persistently on many cores or by default is sequential afterwards; no graph at any depth keeps OpenMP sections; schedules on devices, and all that is not the entry of a scope, are as before; a second call changes nothing. (Not so: the graph need not be serial, since a library call or nested graph scheduled on many cores is left so.)", "quantifier": "all program graphs with nested graphs of any depth, all schedules", "why_tests_cant": "Tests compile a few stencils; the claim is about all graphs and depths of nesting.", "anchors": ["ndsl/dsl/dace/sdfg/loop_transform.py: make_SDFG_CPU_sequential"]}
{"id": "C139", "title": "Array helpers for main memory and GPU", "statement": "For every list, memoryview, array or object holding an array, with and without CuPy: turning it into a numpy array gives its values and type in main memory; turning it into another type gives a GPU array of the type asked for, or, without CuPy, an error; the data type asked for is given for all that is in main memory when there is no CuPy, and for arrays in any case. sum, repeat, moveaxis, tile, squeeze and unique act alike on both devices and leave the result where the array was. Entries picked by an array of indices inside the bounds are the same on both devices. Stacking arrays of one shape and device puts array k at number k of a new axis in any place; arrays of both devices are refused. Padding a field gives copies of its first row. Conversion of arrays and dictionaries to numpy keeps names, order and values. Serialized data of one entry is read as a value. (Not so: with CuPy, the data type asked for is ignored for lists, memoryviews and GPU arrays that are to be numpy arrays; picking by one number fails without CuPy; a quantity on a GPU stays there when converted to numpy; one entry along two axes is read as an array, one along no axis fails.)", "quantifier": "all objects, shapes, values, data types, axes and devices, with and without CuPy", "why_tests_cant": "Tests run on one device with one set of libraries and few shapes; the claim compares both libraries for all arrays.", "anchors": ["ndsl/dsl/gt4py_utils.py: asarray, sum, repeat, index, moveaxis, tile, squeeze, unique, stack", "ndsl/stencils/testing/translate.py: read_serialized_data, pad_field_in_j, as_numpy"]}
{"id": "C140", "title": "Serialized data of parallel translate tests", "statement": "For every grid, list of variables (with a name in the state, dims, a halo that is one number or one for each direction, and possibly a vertical axis to be moved) and data that fits: each variable with dims becomes a quantity with the grid's origin and extent for its dims, with the data in it, its halo around the compute domain, and zeros elsewhere; a named vertical axis is moved to the end in dims, origin, extent and data; data without dims is kept. Taking the same variables out again gives for each name an array of the same shape with the same value at every index. In the plain class, each variable is in the state as made from its own data if the state's name of no variable is the name of the data of a later one. (Not so: an output without the property name is an error; taking the outputs out of a state twice moves the vertical axis twice; if two variables exchange names, one is made from the other's quantity and its data is lost.)", "quantifier": "all lists of variables, dims, halos, vertical axes, grids, shapes and values", "why_tests_cant": "This is the code the translate tests rely on; they run it with a few savepoints of one grid.", "anchors": ["ndsl/stencils/testing/parallel_translate.py: ParallelTranslate.state_from_inputs, outputs_from_state, ParallelTranslateGrid.state_from_inputs, _serialize_slice"]}
{"id": "C141", "title": "Halo updates of a state by name", "statement": "An updater made for a state and lists of names exchanges, at every start or update, the quantities the state holds under these names at that call (not when the updater was made), in the order of the names. In every history of assignments to the state and of calls, with exceptions caught, exchanges do not overlap and each one unpacks into the quantities it packed, even if the state was changed in between. A missing name, a second start, a wait without start and a state that is neither a dataclass nor a dictionary are refused with nothing exchanged. Interfaces of one pair of vectors are made the same when the state has attributes of these names. (Not so: with a dictionary as state, with which updates work, the call for the interfaces always fails; the check for a name never says no of a dataclass, it raises AttributeError; of other objects it always says no.)", "quantifier": "all states (dataclass, dictionary, other objects), lists of names, and histories of assignments, removals and calls", "why_tests_cant": "A test updates one state once; which quantity is used after replacing it between a start and its wait is a question about histories.", "anchors": ["ndsl/dsl/dace/wrapped_halo_exchange.py: WrappedHaloUpdater.start, wait, update, interface, check_for_attribute", "ndsl/halo/updater.py: HaloUpdater.start, HaloUpdater.wait"]}
{"id": "C142", "title": "Lengths and coefficients exchanged as vectors", "statement": "On the cubed sphere, for two fields whose values in the compute domains of all ranks are not negative (lengths of edges, widths of cells, distances across edges, divergence and damping coefficients), exchanged as the components of a vector with the signs taken away afterwards: every halo point of either field gets exactly the value that the owner of the point, reached by continuing the sheet over the edge of the cube, holds for whichever of the two fields lies along the receiver's direction there. The compute domain does not change, points beyond a corner of the tile keep their value up to its sign, and nothing is negative afterwards. (Not so without that hypothesis: a negative value in the compute domain changes its sign.)", "quantifier": "all square layouts, sizes, halo widths, points and non-negative values", "why_tests_cant": "Signs depend on the rotation between the two tiles at each of twelve edges and on which component is exchanged; tests compare one grid with reference data.", "anchors": ["ndsl/grid/generation.py: MetricTerms._compute_dxdy_cube_sphere, _compute_dxdy_agrid_cube_sphere, _compute_dxdy_center_cube_sphere, _calculate_divg_del6", "ndsl/comm/communicator.py: Communicator.vector_halo_update"]}
{"id": "C143", "title": "Orchestrating a method changes this method of this object only", "statement": "If the configuration asks for it, orchestrating a method of an object makes later calls of this method of this object compile the function its class has under that name, for this object and under that configuration; calls of other methods of the object, and of all methods of other objects, of the same class or not, do exactly what they did. This holds through any sequence of orchestrations of any objects, for __call__ (which Python looks up in the class) as for other methods. The object keeps the name of its class and stays an instance of it; existing classes do not change. The named arguments and those declared as quantities or states become compile-time arguments and no other argument does; for a function outside a class only the named ones. A configuration without orchestration changes nothing; a missing method is refused. (Not so: orchestrating __call__ twice compiles the wrapper made the first time instead of the function; a method orchestrated again keeps its first configuration; compile-time arguments are shared by all objects of the class.)", "quantifier": "all classes, objects, methods, argument declarations, configurations and sequences of orchestrations", "why_tests_cant": "Independence of objects is a statement about all other objects and all orders of orchestration; tests orchestrate one or two objects.", "anchors": ["ndsl/dsl/dace/orchestration.py: orchestrate, orchestrate_function, _LazyComputepathMethod"]}
{"id": "C144", "title": "A grid from external data is one grid on the whole cube", "statement": "If the corner coordinates (in degrees) handed to the ranks are, on all of them, those of one pair of functions on the cube, then after making the metric terms from external data every point of the array of corners of every rank, halo included, holds the value in radians at the point's own place on the cube, reached by continuing the sheet of the tile over its edge; a point beyond a corner of the tile holds that of the point a quarter turn about the corner away, beyond the same west or east edge. No rank fails.", "quantifier": "all square layouts, numbers of cells, halo widths up to the number of cells, ranks, points, and coordinate functions", "why_tests_cant": "It composes the halo update between all tiles with the filling of corners, for all sizes and ranks; tests read one file and look at the compute domain.", "anchors": ["ndsl/grid/generation.py: MetricTerms.from_external", "ndsl/stencils/corners.py: fill_corners_2d", "ndsl/comm/communicator.py: Communicator.halo_update"]}
{"id": "C145", "title": "The grid of corners is one grid of the sphere, halos and tile corners included", "statement": "After the metric terms of the cubed sphere have made their grid of corners, every point of the array of every rank, halo points and points beyond corners of tiles included, holds the longitude and latitude of its own place: the point of the cube reached by continuing the sheet of the tile over its edge (beyond a corner of a tile, that of the point a quarter turn about the corner away), stretched and projected on the sphere and turned by the shift. So two array points of any two ranks at the same place hold the same longitude and latitude, whatever the memory held before; all longitudes lie in [0, 2 pi) and all latitudes in [-pi/2, pi/2]. No rank fails.", "quantifier": "all square layouts and square blocks of at least three cells (up to 10^9 cells per tile edge), ranks, array points, and contents of memory and receive buffers (exact arithmetic)", "why_tests_cant": "It composes the gnomonic and mirrored grids, the shift, the halo exchange between all ranks and the filling of corners; tests compare stored results of one resolution and layout.", "anchors": ["ndsl/grid/generation.py: MetricTerms._init_dgrid", "ndsl/grid/mirror.py: mirror_grid", "ndsl/grid/gnomonic.py: local_gnomonic_ed", "ndsl/stencils/corners.py: fill_corners_2d", "ndsl/comm/communicator.py: Communicator.halo_update"]}
{"id": "C146", "title": "Cell centres in the halo are those of the cells there", "statement": "After the metric terms have made the grid of cell centres, every cell of the array of every rank, halo included, holds longitude and latitude that some rank computed for one of its own cells: in the rank's own part and beyond an edge of a tile, both are those of the cell at the same place of the cube, whatever the array held before. (Not so beyond a corner of a tile: there the longitude is that of the cell a quarter turn about the corner away, beyond the same west or east edge, and the latitude that of the cell a quarter turn the other way, beyond the same south or north edge; the two are never the same cell, so the pair is the centre of no cell.) No rank fails.", "quantifier": "all square layouts, numbers of cells, halo widths up to the number of cells, ranks, cells of the array, values of the centres, and contents of memory and receive buffers", "why_tests_cant": "It composes the halo exchange between all ranks with two corner fills in different directions; tests compare stored results at one resolution.", "anchors": ["ndsl/grid/generation.py: MetricTerms._init_agrid", "ndsl/stencils/corners.py: fill_corners_2d", "ndsl/comm/communicator.py: Communicator.halo_update"]}
{"id": "C147", "title": "Lengths of cell edges in the halo are distances of corners in the halo", "statement": "On the cubed sphere, the lengths of cell edges that the metric terms hold after the exchange with the neighbours, in the compute domain and in the halo, are the great circle distances of the two corners that the same rank's array of corners holds at the two ends of the edge, for every edge that is not beyond a corner of a tile. No rank fails.", "quantifier": "all square layouts and square blocks of at least three cells (up to 10^9 cells per tile edge), ranks, edges along x and y, and contents of memory and receive buffers (exact arithmetic)", "why_tests_cant": "The corners and the lengths are exchanged separately, one as scalars and the other as a vector whose signs are removed, between tiles whose axes are turned against each other; tests compare stored results at one resolution.", "anchors": ["ndsl/grid/generation.py: MetricTerms._compute_dxdy_cube_sphere", "ndsl/grid/generation.py: MetricTerms._init_dgrid", "ndsl/comm/communicator.py: Communicator.vector_halo_update", "ndsl/grid/gnomonic.py: great_circle_distance_along_axis"]}
{"id": "C148", "title": "The debugger is shown the arguments of an instrumented method, and the method runs as without it", "statement": "When a method decorated with `instrument` is called, it runs exactly once with the arguments of the call, and the caller gets what it returns or raises, with a debugger or without. With a debugger, the data it is given holds a value under a name exactly if the call gave this value to the parameter of this name, by position or by keyword; it is saved once before the method and, if the method returns, once after it, and only then is the call counted. (Not so: arguments that go to *args or **kwargs are not shown; and a keyword that goes to **kwargs but has the name of a positional-only parameter is shown as this parameter.)", "quantifier": "all signatures that begin with self, calls in which no name is used for two things, methods that return or raise, with or without debugger", "why_tests_cant": "Arguments are matched to names by counting parameters of some kinds; tests use one or two signatures, and defaults, positional-only, keyword-only and variadic parameters mix without bound.", "anchors": ["ndsl/debug/tooling.py: instrument"]}
