{
 "claims": [
  {
   "property": "C01",
   "status": "proved",
   "theorems": [
    "NDSL.C01_tile_positions",
    "NDSL.C01_cube_positions"
   ],
   "note": "any positive layout, cube incl. non-square"
  },
  {
   "property": "C02",
   "status": "proved",
   "theorems": [
    "NDSL.C02_tile_slices_partition",
    "NDSL.C02_cube_slices_partition"
   ],
   "note": "for every outcome of the floating point estimates"
  },
  {
   "property": "C03",
   "status": "proved",
   "theorems": [
    "NDSL.C03_overlap_slices"
   ],
   "note": ""
  },
  {
   "property": "C04",
   "status": "partial",
   "theorems": [
    "NDSL.C04_sizes_sound",
    "NDSL.C04_complete_partial",
    "NDSL.C04_found_iff_partial",
    "NDSL.C04_complete_violated"
   ],
   "note": "soundness holds for all inputs and roundings; completeness is false in the code (7 cells on 5 ranks raises although 2+1+1+1+2 exists). C04_found_iff_partial says exactly which divisions are found, for every ratio and every rounding of the starting size; C04_complete_partial gives completeness for ratio 1 and more than 3/2 cells per rank."
  },
  {
   "property": "C05",
   "status": "proved",
   "theorems": [
    "NDSL.C05_extent_round_trip",
    "NDSL.C05_tile_extent"
   ],
   "note": "default ratio 1; rank extents with at least one cell"
  },
  {
   "property": "C06",
   "status": "proved",
   "theorems": [
    "NDSL.C06_tile_boundary"
   ],
   "note": ""
  },
  {
   "property": "C07",
   "status": "proved",
   "theorems": [
    "NDSL.C07_cube_reciprocal",
    "NDSL.C07_nonsquare_refused"
   ],
   "note": ""
  },
  {
   "property": "C08",
   "status": "proved",
   "theorems": [
    "NDSL.C08_cube_edge_geometry"
   ],
   "note": "geometry in Verif/Spec/Cube.lean"
  },
  {
   "property": "C09",
   "status": "proved",
   "theorems": [
    "NDSL.C09_cube_corners"
   ],
   "note": ""
  },
  {
   "property": "C10",
   "status": "proved",
   "theorems": [
    "NDSL.C10_cube_distinct_neighbours",
    "NDSL.C10_tile_distinct_iff"
   ],
   "note": ""
  },
  {
   "property": "C11",
   "status": "proved",
   "theorems": [
    "NDSL.C11_send_recv_regions",
    "NDSL.C11_wide_send_violated"
   ],
   "note": "for halo widths that fit the subtile (n <= extent); beyond that the code silently sends halo points (witness)"
  },
  {
   "property": "C12",
   "status": "proved",
   "theorems": [
    "NDSL.C12_recv_regions_tile_ring"
   ],
   "note": ""
  },
  {
   "property": "C13",
   "status": "proved",
   "theorems": [
    "NDSL.C13_no_truncation",
    "NDSL.C13_halo_spec"
   ],
   "note": ""
  },
  {
   "property": "C14",
   "status": "proved",
   "theorems": [
    "NDSL.C14_view_addresses",
    "NDSL.C14_full_view_is_compute_domain",
    "NDSL.C14_negative_index_violated"
   ],
   "note": "the NumPy reading of negative indices is false of the code (witness)"
  },
  {
   "property": "C15",
   "status": "proved",
   "theorems": [
    "NDSL.C15_rotation_group",
    "NDSL.C15_rotation_inverse",
    "NDSL.C15_quarter_turns",
    "NDSL.C15_single_dim_violated"
   ],
   "note": "with exactly one horizontal dim the group law is false in the code (witness)"
  },
  {
   "property": "C16",
   "status": "proved",
   "theorems": [
    "NDSL.C16_components_turn",
    "NDSL.C16_shapes",
    "NDSL.C16_vector_inverse"
   ],
   "note": ""
  },
  {
   "property": "C17",
   "status": "proved",
   "theorems": [
    "NDSL.C17_scalar_round_trip",
    "NDSL.C17_vector_round_trip",
    "NDSL.C17_count_mismatch_refused"
   ],
   "note": ""
  },
  {
   "property": "C18",
   "status": "proved",
   "theorems": [
    "NDSL.C18_tile_halo_fill",
    "NDSL.C18_tile_periodic_extension"
   ],
   "note": ""
  },
  {
   "property": "C19",
   "status": "proved",
   "theorems": [
    "NDSL.C19_cube_halo_fill",
    "NDSL.C19_cube_extension",
    "NDSL.C19_code_decomposition",
    "NDSL.C19_mixed_stagger_violated"
   ],
   "note": "with only one horizontal dimension on interfaces the update fails (witness)"
  },
  {
   "property": "C20",
   "status": "proved",
   "theorems": [
    "NDSL.C20_halo_update_keeps",
    "NDSL.C20_vector_halo_update_keeps",
    "NDSL.C20_missing_dimension_violated"
   ],
   "note": "for quantities with one x and one y dimension; false for a quantity without an x dimension (witness)"
  },
  {
   "property": "C21",
   "status": "proved",
   "theorems": [
    "NDSL.C21_cube_vector_halo_fill",
    "NDSL.C21_cube_vector_extension",
    "NDSL.C21_tile_vector_halo_fill",
    "NDSL.C21_tile_small"
   ],
   "note": ""
  },
  {
   "property": "C22",
   "status": "proved",
   "theorems": [
    "NDSL.C22_cube_shared_edges",
    "NDSL.C22_not_on_edges",
    "NDSL.C22_leading_vertical_violated"
   ],
   "note": "Cubed sphere, all layouts n x n, mirror-symmetric decompositions with at least one cell per rank, any number of trailing dimensions. The code reverses axis 0 of the edge, so a leading vertical dimension breaks the claim: C22_leading_vertical_violated."
  },
  {
   "property": "C23",
   "status": "proved",
   "theorems": [
    "NDSL.C23_pack_scalar",
    "NDSL.C23_pack_vector",
    "NDSL.C23_unpack_scalar",
    "NDSL.C23_unpack_vector",
    "NDSL.C23_c_order"
   ],
   "note": "Kernels modelled as one-write threads run in any permutation. Distinct quantities have distinct memories. float32/float64 kernel selection is not modelled."
  },
  {
   "property": "C24",
   "status": "partial",
   "theorems": [
    "NDSL.C24_cache_partial",
    "NDSL.C24_dims_violated",
    "NDSL.C24_direction_violated"
   ],
   "note": "The code violates the full property (witnesses proved); the partial theorem covers every history in which same-key requests agree on the positions of x/y dims and on the direction."
  },
  {
   "property": "C25",
   "status": "proved",
   "theorems": [
    "NDSL.C25_alternate",
    "NDSL.C25_refusals",
    "NDSL.C25_failed_start_orphans"
   ],
   "note": "A start that fails while packing leaves its posted receives behind (witness C25_failed_start_orphans)."
  },
  {
   "property": "C26",
   "status": "proved",
   "theorems": [
    "NDSL.C26_single_owner",
    "NDSL.C26_double_wait_violated"
   ],
   "note": ""
  },
  {
   "property": "C27",
   "status": "proved",
   "theorems": [
    "NDSL.C27_tags",
    "NDSL.C27_messages",
    "NDSL.C27_interface_sync_violated"
   ],
   "note": "Interface synchronisations always use tag 1; the witness shows the in-process communicator delivering the wrong message."
  },
  {
   "property": "C28",
   "status": "proved",
   "theorems": [
    "NDSL.C28_no_deadlock",
    "NDSL.C28_lockstep",
    "NDSL.C28_schedule_independent"
   ],
   "note": "Sends are assumed unbuffered (a wait also needs the peers' receives posted), the strictest MPI behaviour; start posts without blocking."
  },
  {
   "property": "C29",
   "status": "proved",
   "theorems": [
    "NDSL.C29_scatter_tile",
    "NDSL.C29_scatter_cube",
    "NDSL.C29_gather_scatter_tile",
    "NDSL.C29_gather_scatter_cube",
    "NDSL.C29_scatter_gather_tile",
    "NDSL.C29_scatter_gather_cube",
    "NDSL.C29_scatter_no_halo",
    "NDSL.C29_scatter_into",
    "NDSL.C29_gather_no_halo",
    "NDSL.C29_gather_into"
   ],
   "note": "Floating-point rounding enters as the stated hypothesis EvenFloats (the division in the sizer gives the even share). A count mismatch in Scatter/Gather is modelled as raising."
  },
  {
   "property": "C30",
   "status": "proved",
   "theorems": [
    "NDSL.C30_scatter_entries",
    "NDSL.C30_scatter_calls",
    "NDSL.C30_gather_entries",
    "NDSL.C30_gather_order_violated"
   ],
   "note": "Generic in the quantity operations, which C29 covers."
  },
  {
   "property": "C31",
   "status": "partial",
   "theorems": [
    "NDSL.C29_scatter_tile",
    "NDSL.C29_scatter_cube",
    "NDSL.C31_uneven_raises",
    "NDSL.C31_uneven_violated"
   ],
   "note": "The code violates the claim: scatter raises for every decomposition with unequal extents (C31_uneven_raises, witness C31_uneven_violated). What holds: whenever scatter returns, every rank has exactly its part (C29_scatter_*)."
  },
  {
   "property": "C32",
   "status": "proved",
   "theorems": [
    "NDSL.Local.C32_in_order",
    "NDSL.Local.C32_raises_iff"
   ],
   "note": ""
  },
  {
   "property": "C33",
   "status": "proved",
   "theorems": [
    "NDSL.Local.C33_gather_latest",
    "NDSL.Local.C33_rounds_partial",
    "NDSL.Local.C33_stale_violated"
   ],
   "note": "Statement restricted: stale contributions are proved to be returned."
  },
  {
   "property": "C34",
   "status": "proved",
   "theorems": [
    "NDSL.Caching.C34_replay_partial",
    "NDSL.Caching.C34_wait_order_violated",
    "NDSL.Caching.C34_gather_nonroot_violated"
   ],
   "note": "Programs are arbitrary deterministic strategies; the wrapped communicator's deliveries are arbitrary. Statement restricted; the full claim is false of the code."
  },
  {
   "property": "C35",
   "status": "proved",
   "theorems": [
    "NDSL.C35_known_dims",
    "NDSL.C35_fit",
    "NDSL.C35_interface_cell"
   ],
   "note": ""
  },
  {
   "property": "C36",
   "status": "proved",
   "theorems": [
    "NDSL.C36_transpose_iff",
    "NDSL.C36_transpose_values",
    "NDSL.C36_round_trip",
    "NDSL.C36_halo_lost_violated"
   ],
   "note": "Statement restricted: loss of the halo width is proved as a witness."
  },
  {
   "property": "C37",
   "status": "partial",
   "theorems": [
    "NDSL.C37_refused_iff_partial",
    "NDSL.C37_one_axis_partial",
    "NDSL.C37_first_axis_partial",
    "NDSL.C37_single_difference_partial",
    "NDSL.C37_small_accepted_violated",
    "NDSL.C37_origin_violated"
   ],
   "note": "The full claim is false of the code: shape < extent compares tuples lexicographically and ignores the origin (two witnesses). Proved: exactly which buffers are refused, and the claim for one axis and for buffers differing along one axis."
  },
  {
   "property": "C38",
   "status": "proved",
   "theorems": [
    "NDSL.Factory.C38_add_all_or_nothing",
    "NDSL.Factory.C38_other_factories",
    "NDSL.Factory.C38_extend_partial",
    "NDSL.Factory.C38_extend_mutates_violated"
   ],
   "note": "Statement restricted: that extending leaves the original untouched is false of the code (witness)."
  },
  {
   "property": "C39",
   "status": "partial",
   "theorems": [
    "NDSL.Bundle.C39_first_access_partial",
    "NDSL.Bundle.C39_own_view_partial",
    "NDSL.Bundle.C39_shared_views_violated",
    "NDSL.Bundle.C39_remap_violated"
   ],
   "note": "The full claim is false of the code: views are memoised in a dictionary shared by all bundles (two witnesses). Proved: exactly which view an access returns after any history, and the claim when the name was accessed before on this bundle only with its present index."
  },
  {
   "property": "C40",
   "status": "partial",
   "theorems": [
    "NDSL.StateUpd.C40_copy_exact_partial",
    "NDSL.StateUpd.C40_copy_succeeds_partial",
    "NDSL.StateUpd.C40_none_refused_partial",
    "NDSL.StateUpd.C40_others_unchanged",
    "NDSL.StateUpd.C40_move_partial",
    "NDSL.StateUpd.C40_clash_violated",
    "NDSL.StateUpd.C40_clash_refused_violated",
    "NDSL.StateUpd.C40_move_none_violated",
    "NDSL.StateUpd.C40_not_atomic_violated"
   ],
   "note": "Proved for copies into states in which no name is used with two meanings; false otherwise (flags are kept by leaf name) and for moves (None never refused), with witnesses."
  },
  {
   "property": "C41",
   "status": "proved",
   "theorems": [
    "NDSL.Factory.C41_restored",
    "NDSL.Factory.C41_state_allocation",
    "NDSL.Factory.C41_class_restored_partial",
    "NDSL.Factory.C41_class_violated"
   ],
   "note": ""
  },
  {
   "property": "C42",
   "status": "partial",
   "theorems": [
    "NDSL.Compile.C42_same_options_partial",
    "NDSL.Compile.C42_equal_iff_partial",
    "NDSL.Compile.C42_single_difference_partial",
    "NDSL.Compile.C42_swapped_options_violated",
    "NDSL.Compile.C42_run_mode_violated",
    "NDSL.Compile.C42_backend_violated"
   ],
   "note": "The claim is false of the code: the hash sees only the GT4Py name and how many options are on. Proved: equal options give equal configurations; an exact characterisation of equality; single differences are told apart; and the violations."
  },
  {
   "property": "C43",
   "status": "proved",
   "theorems": [
    "NDSL.Compile.C43_compiled_once_iff",
    "NDSL.Compile.C43_square",
    "NDSL.Compile.C43_single_code_path",
    "NDSL.Compile.C43_thin_layout_refused",
    "NDSL.Compile.C43_nonsquare_violated",
    "NDSL.Compile.C43_nonsquare_twice_violated"
   ],
   "note": "Exact condition proved: true for square and two-wide layouts, refused for one-wide layouts, false for all others."
  },
  {
   "property": "C44",
   "status": "proved",
   "theorems": [
    "NDSL.Compile.C44_run_mode",
    "NDSL.Compile.C44_build_modes",
    "NDSL.Compile.C44_compiling_ranks"
   ],
   "note": ""
  },
  {
   "property": "C45",
   "status": "partial",
   "theorems": [
    "NDSL.Compile.C45_matching_partial",
    "NDSL.Compile.C45_float_destination_violated",
    "NDSL.Compile.C45_single_tile_violated",
    "NDSL.Compile.C45_alone"
   ],
   "note": "The destinations are Python floats, which mpi4py refuses: with more than one rank no message is ever sent. Proved: as numbers the destinations match the waiting ranks one to one, and a rank that is alone sends nothing."
  },
  {
   "property": "C46",
   "status": "proved",
   "theorems": [
    "NDSL.Backend.C46_decodes",
    "NDSL.Backend.C46_accepts",
    "NDSL.Backend.C46_rejects",
    "NDSL.Backend.C46_layout_map",
    "NDSL.Backend.C46_equality",
    "NDSL.Backend.C46_gt4py_name",
    "NDSL.Backend.C46_questions",
    "NDSL.Backend.C46_path"
   ],
   "note": ""
  },
  {
   "property": "C47",
   "status": "proved",
   "theorems": [
    "NDSL.Indexing.C47_origin_domain",
    "NDSL.Indexing.C47_inside",
    "NDSL.Indexing.C47_max_shape",
    "NDSL.Indexing.C47_restrict",
    "NDSL.Indexing.C47_restrict_compose",
    "NDSL.Indexing.C47_restricted_violated",
    "NDSL.Indexing.C47_vertical_halo_violated",
    "NDSL.Indexing.C47_windows",
    "NDSL.Indexing.C47_level"
   ],
   "note": "Statement restricted where the code violates it (witnesses)."
  },
  {
   "property": "C48",
   "status": "proved",
   "theorems": [
    "NDSL.Column.C48_tridiag_solves",
    "NDSL.Column.C48_masked_solves",
    "NDSL.Column.C48_masked_agrees",
    "NDSL.Column.C48_diagonally_dominant"
   ],
   "note": "Exact arithmetic in an arbitrary field."
  },
  {
   "property": "C49",
   "status": "proved",
   "theorems": [
    "NDSL.Column.C49_column_max",
    "NDSL.Column.C49_column_min",
    "NDSL.Column.C49_column_ddim"
   ],
   "note": "Any linear order (no NaN)."
  },
  {
   "property": "C50",
   "status": "proved",
   "theorems": [
    "NDSL.Corner.C50_source_exists",
    "NDSL.Corner.C50_bgrid_x",
    "NDSL.Corner.C50_bgrid_y",
    "NDSL.Corner.C50_cells",
    "NDSL.Corner.C50_dgrid",
    "NDSL.Corner.C50_dgrid_vector_signs",
    "NDSL.Corner.C50_copy_corners",
    "NDSL.Corner.C50_ranks",
    "NDSL.Corner.C50_small_tile_violated"
   ],
   "note": "In place needs three cells (witness)."
  },
  {
   "property": "C51",
   "status": "partial",
   "theorems": [
    "NDSL.Corner.C51_agrid_x",
    "NDSL.Corner.C51_agrid_y",
    "NDSL.Corner.C51_agrid_vector",
    "NDSL.Corner.C51_bgrid_x",
    "NDSL.Corner.C51_bgrid_y_partial",
    "NDSL.Corner.C51_dgrid_vector_partial",
    "NDSL.Corner.C51_cgrid_vector_partial",
    "NDSL.Corner.C51_agree_bgrid_x",
    "NDSL.Corner.C51_agree_agrid",
    "NDSL.Corner.C51_agree_dgrid",
    "NDSL.Corner.C51_bgrid_y_violated",
    "NDSL.Corner.C51_bgrid_rows_violated",
    "NDSL.Corner.C51_dgrid_halo_violated",
    "NDSL.Corner.C51_cgrid_halo_violated"
   ],
   "note": "The claim is false of the code for the B grid in y direction (north-east corner), for arrays with extra rows, and for C/D grid with a halo other than three: witnesses. Everything else is proved."
  },
  {
   "property": "C52",
   "status": "partial",
   "theorems": [
    "NDSL.AxisMerge.C52_merge_partial",
    "NDSL.AxisMerge.C52_pass_partial",
    "NDSL.AxisMerge.C52_push_partial",
    "NDSL.AxisMerge.C52_write_after_read_violated",
    "NDSL.AxisMerge.C52_write_after_write_violated",
    "NDSL.AxisMerge.C52_lower_dimension_violated",
    "NDSL.AxisMerge.C52_wide_read_violated",
    "NDSL.AxisMerge.C52_fixed_index_violated",
    "NDSL.AxisMerge.C52_sum_violated",
    "NDSL.AxisMerge.C52_empty_map_violated",
    "NDSL.AxisMerge.C52_loop_violated",
    "NDSL.AxisMerge.C52_dependent_kept",
    "NDSL.AxisMerge.C52_merge_checked_partial"
   ],
   "note": "The claim is false of the code: the dependency check looks only at reads after writes, at first indices and at data that have the axis, and moving tasklets and loops into maps is not checked at all (eight witnesses, through the whole optimisation). Proved for all programs in which what is written is accessed only at the same index along the axis, for all inputs and all orders of the iterations. The check is shown to refuse dependent maps, and to be enough when each map is parallel and the second writes nothing the first accesses."
  },
  {
   "property": "C53",
   "status": "proved",
   "theorems": [
    "NDSL.AxisMerge.C53_iterations",
    "NDSL.AxisMerge.C53_covers",
    "NDSL.AxisMerge.C53_guard",
    "NDSL.AxisMerge.C53_loop",
    "NDSL.AxisMerge.C53_unique_variables_violated"
   ],
   "note": "Repeated merging of loops over different variables loses iterations (witness), since conditions are not renamed; repeated merging over the same variable is part of AxisMerge.C52_pass_partial."
  },
  {
   "property": "C54",
   "status": "proved",
   "theorems": [
    "NDSL.KSplit.C54_intervals",
    "NDSL.KSplit.C54_each_level_once",
    "NDSL.KSplit.C54_run",
    "NDSL.KSplit.C54_no_level_violated",
    "NDSL.KSplit.C54_short_array_violated"
   ],
   "note": "For a column without levels, or parameter arrays shorter than the column, the claim fails (witnesses)."
  },
  {
   "property": "C55",
   "status": "proved",
   "theorems": [
    "NDSL.Timing.C55_log_exists",
    "NDSL.Timing.C55_totals",
    "NDSL.Timing.C55_misuse",
    "NDSL.Timing.C55_clock",
    "NDSL.Timing.C55_null"
   ],
   "note": "All histories and all clocks."
  },
  {
   "property": "C56",
   "status": "proved",
   "theorems": [
    "NDSL.Calib.C56_absolute",
    "NDSL.Calib.C56_attained",
    "NDSL.Calib.C56_relative",
    "NDSL.Calib.C56_present",
    "NDSL.Calib.C56_insufficient",
    "NDSL.Calib.C56_merge",
    "NDSL.Calib.C56_validates",
    "NDSL.Calib.C56_relative_violated",
    "NDSL.Calib.C56_fewer_calls_violated",
    "NDSL.Calib.C56_raised_violated"
   ],
   "note": "The stronger reading (relative to the value of one of the trials) is false, as are thresholds for calls the last trial did not make and for trials that raised (witnesses). Exact arithmetic."
  },
  {
   "property": "C57",
   "status": "proved",
   "theorems": [
    "NDSL.Snap.C57_stored",
    "NDSL.Snap.C57_dataset_exists",
    "NDSL.Snap.C57_dataset",
    "NDSL.Snap.C57_names_violated"
   ],
   "note": "A variable called x_savepoints replaces the savepoint list of x (witness)."
  },
  {
   "property": "C58",
   "status": "proved",
   "theorems": [
    "NDSL.NetCDF.C58_running",
    "NDSL.NetCDF.C58_final",
    "NDSL.NetCDF.C58_store_ok",
    "NDSL.NetCDF.C58_rejects",
    "NDSL.NetCDF.C58_cleanup_violated"
   ],
   "note": "A clean-up in the middle of a chunk followed by further stores loses states (witness)."
  },
  {
   "property": "C59",
   "status": "proved",
   "theorems": [
    "NDSL.Zarr.C59_stored",
    "NDSL.Zarr.C59_global_field",
    "NDSL.Zarr.C59_chunks",
    "NDSL.Zarr.C59_rejects",
    "NDSL.Zarr.C59_names",
    "NDSL.Zarr.C59_constants",
    "NDSL.Zarr.C59_time_violated",
    "NDSL.Zarr.C59_extents_violated"
   ],
   "note": "The even division of a tile into ranks assumes the two floating point results of C05. Time encoding and data types are not modelled."
  },
  {
   "property": "C60",
   "status": "proved",
   "theorems": [
    "NDSL.Nml.C60_lossless",
    "NDSL.Nml.C60_sound",
    "NDSL.Nml.C60_groups",
    "NDSL.Nml.C60_targets",
    "NDSL.Nml.C60_nested_violated"
   ],
   "note": "f90nml itself (parsing, lower-casing) is not modelled."
  },
  {
   "property": "C61",
   "status": "proved",
   "theorems": [
    "NDSL.Compare.C61_legacy_numbers",
    "NDSL.Compare.C61_nan",
    "NDSL.Compare.C61_legacy_self",
    "NDSL.Compare.C61_legacy_bool",
    "NDSL.Compare.C61_legacy_all",
    "NDSL.Compare.C61_multi_numbers",
    "NDSL.Compare.C61_multi_self",
    "NDSL.Compare.C61_history",
    "NDSL.Compare.C61_thresholds",
    "NDSL.Compare.C61_multi_rejects",
    "NDSL.Compare.C61_infinity_violated",
    "NDSL.Compare.C61_bool_violated",
    "NDSL.Compare.C61_sticky_violated"
   ],
   "note": "Arithmetic on finite numbers is exact (no rounding or overflow); the spacing of numbers is any positive function. Reports are not modelled."
  },
  {
   "property": "C62",
   "status": "proved",
   "theorems": [
    "NDSL.Restart.C62_renames",
    "NDSL.Restart.C62_distinct",
    "NDSL.Restart.C62_table_names",
    "NDSL.Restart.C62_table_restart_names",
    "NDSL.Restart.C62_shared_violated",
    "NDSL.Restart.C62_clash_violated",
    "NDSL.Restart.C62_dims",
    "NDSL.Restart.C62_dims_violated",
    "NDSL.Restart.C62_load",
    "NDSL.Restart.C62_files",
    "NDSL.Restart.C62_suffix",
    "NDSL.Restart.C62_suffix_rejects",
    "NDSL.Restart.C62_filenames",
    "NDSL.Restart.C62_filenames_inj",
    "NDSL.Restart.C62_tracers",
    "NDSL.Restart.C62_table_dims",
    "NDSL.Restart.C62_table_winds"
   ],
   "note": "xarray reading, and renaming a dimension to a name already taken, are not modelled. The real table is in Verif.Model.RestartTable."
  },
  {
   "property": "C63",
   "status": "proved",
   "theorems": [
    "NDSL.Eta.C63_accepts",
    "NDSL.Eta.C63_result",
    "NDSL.Eta.C63_pure_pressure",
    "NDSL.Eta.C63_monotone",
    "NDSL.Eta.C63_source",
    "NDSL.Eta.C63_ks_violated",
    "NDSL.Eta.C63_levels_violated"
   ],
   "note": "Exact arithmetic: rounding and NaN are not modelled."
  },
  {
   "property": "C64",
   "status": "proved",
   "theorems": [
    "NDSL.Dbg.C64_no_overwrite",
    "NDSL.Dbg.C64_count",
    "NDSL.Dbg.C64_recursive_violated",
    "NDSL.Dbg.C64_raised_violated",
    "NDSL.Dbg.C64_numbering"
   ],
   "note": "Function names have no dash and parameter names no slash, as in Python. Contents of the files are not modelled."
  },
  {
   "property": "C65",
   "status": "proved",
   "theorems": [
    "NDSL.ByDims.C65_values",
    "NDSL.ByDims.C65_determined",
    "NDSL.ByDims.C65_model",
    "NDSL.ByDims.C65_rejects"
   ],
   "note": ""
  },
  {
   "property": "C66",
   "status": "proved",
   "theorems": [
    "NDSL.Local.C66_bcast",
    "NDSL.Local.C66_scatter",
    "NDSL.Local.C66_bcast_alias_violated"
   ],
   "note": ""
  },
  {
   "property": "C67",
   "status": "proved",
   "theorems": [
    "NDSL.C67_allocated_extent"
   ],
   "note": ""
  },
  {
   "property": "C68",
   "status": "proved",
   "theorems": [
    "NDSL.Bundle.C68_register_once",
    "NDSL.Bundle.C68_second_raises"
   ],
   "note": ""
  },
  {
   "property": "C69",
   "status": "proved",
   "theorems": [
    "NDSL.Backend.C69_roundtrip",
    "NDSL.Backend.C69_defaults"
   ],
   "note": ""
  },
  {
   "property": "C70",
   "status": "proved",
   "theorems": [
    "NDSL.Indexing.C70_local_bounds",
    "NDSL.Indexing.C70_edges",
    "NDSL.Indexing.C70_no_edge",
    "NDSL.Indexing.C70_offset"
   ],
   "note": ""
  },
  {
   "property": "C71",
   "status": "proved",
   "theorems": [
    "NDSL.Indexing.C71_single_origin",
    "NDSL.Indexing.C71_mapping"
   ],
   "note": ""
  },
  {
   "property": "C72",
   "status": "proved",
   "theorems": [
    "NDSL.Column.C72_select_k",
    "NDSL.Column.C72_pointwise",
    "NDSL.Column.C72_sign_dim",
    "NDSL.Column.C72_sign_zero"
   ],
   "note": "Exact arithmetic."
  },
  {
   "property": "C73",
   "status": "proved",
   "theorems": [
    "NDSL.Calib.C73_clip",
    "NDSL.Calib.C73_accepts",
    "NDSL.Calib.C73_trial"
   ],
   "note": "Clipping is modelled per dimension."
  },
  {
   "property": "C74",
   "status": "proved",
   "theorems": [
    "NDSL.Perf.C74_measured",
    "NDSL.Perf.C74_rank0",
    "NDSL.Perf.C74_all_ranks",
    "NDSL.Perf.C74_sypd",
    "NDSL.Perf.C74_sypd_none",
    "NDSL.Perf.C74_names_violated",
    "NDSL.Perf.C74_twice_violated",
    "NDSL.Perf.C74_timesteps_violated"
   ],
   "note": "Restricted statement; the exceptions are proved as *_violated."
  },
  {
   "property": "C75",
   "status": "proved",
   "theorems": [
    "NDSL.Stretch.C75_turn",
    "NDSL.Stretch.C75_stretch",
    "NDSL.Stretch.C75_stretch_one",
    "NDSL.Stretch.C75_position",
    "NDSL.Stretch.C75_rotation",
    "NDSL.Stretch.C75_centre",
    "NDSL.Stretch.C75_range",
    "NDSL.Stretch.C75_range_violated",
    "NDSL.Stretch.C75_injective_violated"
   ],
   "note": "Over the reals (no rounding). Restricted statement; the exceptions are proved as *_violated."
  },
  {
   "property": "C76",
   "status": "proved",
   "theorems": [
    "NDSL.Sphere.C76_convert",
    "NDSL.Sphere.C76_round_trip",
    "NDSL.Sphere.C76_distance",
    "NDSL.Sphere.C76_metric",
    "NDSL.Sphere.C76_midpoint",
    "NDSL.Sphere.C76_lon_lat_midpoint",
    "NDSL.Sphere.C76_midpoint_violated",
    "NDSL.Sphere.C76_angle",
    "NDSL.Sphere.C76_angle_props",
    "NDSL.Sphere.C76_fortran",
    "NDSL.Sphere.C76_less_than_pi_violated",
    "NDSL.Sphere.C76_lonlat_vect",
    "NDSL.Sphere.C76_direction"
   ],
   "note": "Over the reals (no rounding). Restricted statement; the exceptions are proved as *_violated."
  },
  {
   "property": "C77",
   "status": "proved",
   "theorems": [
    "NDSL.Sphere.C77_triangle",
    "NDSL.Sphere.C77_rectangle",
    "NDSL.Sphere.C77_sphere",
    "NDSL.Sphere.C77_sphere_shifted"
   ],
   "note": "Real arithmetic in place of floating point; the set of corner cells replaced by triangles (outside of the tile, get_area's halo) is not modelled."
  },
  {
   "property": "C78",
   "status": "proved",
   "theorems": [
    "NDSL.Sphere.C78_local",
    "NDSL.Sphere.C78_rank",
    "NDSL.Sphere.C78_shift"
   ],
   "note": "Real arithmetic; the equidistant gnomonic grid (grid_type 0) without stretching (C75). The correction for the South Pole meridians in mirror.py 196-209 is shown to do nothing (Sphere.fix5_eq)."
  },
  {
   "property": "C79",
   "status": "proved",
   "theorems": [
    "NDSL.Sphere.C79_one_grid",
    "NDSL.Sphere.C79_neighbours"
   ],
   "note": "Real arithmetic. Uses the cube of Spec/Cube, with which C08 describes the partitioner's neighbours."
  },
  {
   "property": "C80",
   "status": "proved",
   "theorems": [
    "NDSL.Sphere.C80_winds",
    "NDSL.Sphere.C80_winds_shifted",
    "NDSL.Sphere.C80_cubic",
    "NDSL.Sphere.C80_flat"
   ],
   "note": "Exact real arithmetic; one level; corners as modelled for C78; the regions of the stencil are given as in C70."
  },
  {
   "property": "C81",
   "status": "proved",
   "theorems": [
    "NDSL.Sphere.C81_periodic",
    "NDSL.Sphere.C81_one_rank",
    "NDSL.Sphere.C81_state",
    "NDSL.Sphere.C81_state_violated",
    "NDSL.Sphere.C81_order_violated"
   ],
   "note": "States as dictionaries."
  },
  {
   "property": "C82",
   "status": "proved",
   "theorems": [
    "NDSL.GridHelper.C82_levels",
    "NDSL.GridHelper.C82_top",
    "NDSL.GridHelper.C82_history",
    "NDSL.GridHelper.C82_stale_violated",
    "NDSL.GridHelper.C82_setters_violated"
   ],
   "note": "Exact real arithmetic."
  },
  {
   "property": "C83",
   "status": "proved",
   "theorems": [
    "NDSL.GridHelper.C83_split",
    "NDSL.GridHelper.C83_driver",
    "NDSL.GridHelper.C83_driver_violated",
    "NDSL.GridHelper.C83_terms",
    "NDSL.GridHelper.C83_coriolis",
    "NDSL.GridHelper.C83_coriolis_violated"
   ],
   "note": "Exact arithmetic; units left out."
  },
  {
   "property": "C84",
   "status": "proved",
   "theorems": [
    "NDSL.Edges.C84_corners",
    "NDSL.Edges.C84_sides",
    "NDSL.Edges.C84_place",
    "NDSL.Edges.C84_refused",
    "NDSL.Edges.C84_corner_weights",
    "NDSL.Edges.C84_side_weights",
    "NDSL.Edges.C84_rectangle_violated",
    "NDSL.Edges.C84_halo_violated"
   ],
   "note": "Halo of 3; distances and midpoints abstract (any functions); one-dimensional broadcasting of numpy assignments explicit."
  },
  {
   "property": "C85",
   "status": "proved",
   "theorems": [
    "NDSL.Supergrid.C85_ghost",
    "NDSL.Supergrid.C85_rest",
    "NDSL.Supergrid.C85_first",
    "NDSL.Supergrid.C85_northwest_violated",
    "NDSL.Supergrid.C85_halo_violated"
   ],
   "note": "Arrays as functions of indices; at least one cell inside the halo."
  },
  {
   "property": "C86",
   "status": "proved",
   "theorems": [
    "NDSL.Sphere.C86_cell",
    "NDSL.Sphere.C86_sine",
    "NDSL.Sphere.C86_corner",
    "NDSL.Sphere.C86_unit",
    "NDSL.Sphere.C86_unit_side",
    "NDSL.Sphere.C86_rank",
    "NDSL.Sphere.C86_rank_cell"
   ],
   "note": "Real arithmetic."
  },
  {
   "property": "C87",
   "status": "proved",
   "theorems": [
    "NDSL.Refine.C87_decision",
    "NDSL.Refine.C87_others",
    "NDSL.Refine.C87_two_maps",
    "NDSL.Refine.C87_preserved",
    "NDSL.Refine.C87_loops_violated",
    "NDSL.Refine.C87_recurrence_violated",
    "NDSL.Refine.C87_strides",
    "NDSL.Refine.C87_layout",
    "NDSL.Refine.C87_memory"
   ],
   "note": "Iterations of a map run one after the other, in any order; index expressions are a variable plus a number, or a number."
  },
  {
   "property": "C88",
   "status": "proved",
   "theorems": [
    "NDSL.Orch.C88_own",
    "NDSL.Orch.C88_unhashable",
    "NDSL.Orch.C88_same_program",
    "NDSL.Orch.C88_refused",
    "NDSL.Orch.C88_keywords_violated",
    "NDSL.Orch.C88_minus_one_violated",
    "NDSL.Orch.C88_views_violated",
    "NDSL.Orch.C88_closure_violated",
    "NDSL.Orch.C88_zero_violated"
   ],
   "note": "What DaCe builds, loads and makes of the arguments are arbitrary functions; that it adds the closure when it makes the arguments is knowledge about DaCe."
  },
  {
   "property": "C89",
   "status": "proved",
   "theorems": [
    "NDSL.Orch.C89_bound",
    "NDSL.Orch.C89_once",
    "NDSL.Orch.C89_config_violated"
   ],
   "note": "Objects held by the table are not disposed of: this is Python's rule."
  },
  {
   "property": "C90",
   "status": "proved",
   "theorems": [
    "NDSL.Dist.C90_loads",
    "NDSL.Dist.C90_no_deadlock",
    "NDSL.Dist.C90_terminates",
    "NDSL.Dist.C90_crash_blocks",
    "NDSL.Dist.C90_partitioners",
    "NDSL.Dist.C90_names_violated",
    "NDSL.Dist.C90_absent_violated"
   ],
   "note": "A build is two steps, with no usable library in between; the file system is shared and consistent."
  },
  {
   "property": "C91",
   "status": "proved",
   "theorems": [
    "NDSL.BuildInfo.C91_check",
    "NDSL.BuildInfo.C91_square",
    "NDSL.BuildInfo.C91_missing",
    "NDSL.BuildInfo.C91_levels_violated",
    "NDSL.BuildInfo.C91_columns_violated",
    "NDSL.BuildInfo.C91_default_violated",
    "NDSL.BuildInfo.C91_dict",
    "NDSL.BuildInfo.C91_dict_violated"
   ],
   "note": "The text of the file is modelled; quotients are compared exactly."
  },
  {
   "property": "C92",
   "status": "proved",
   "theorems": [
    "NDSL.Runtime.C92_super",
    "NDSL.Runtime.C92_wrappers",
    "NDSL.Runtime.C92_not_wrapped",
    "NDSL.Runtime.C92_twice_violated",
    "NDSL.Runtime.C92_warnings",
    "NDSL.Runtime.C92_first",
    "NDSL.Runtime.C92_second_violated",
    "NDSL.Runtime.C92_own",
    "NDSL.Runtime.C92_elsewhere",
    "NDSL.Runtime.C92_sibling_violated",
    "NDSL.Runtime.C92_depth"
   ],
   "note": "Single inheritance; constructors are lists of steps; attributes form a tree."
  },
  {
   "property": "C93",
   "status": "proved",
   "theorems": [
    "NDSL.Metric.C93_value",
    "NDSL.Metric.C93_once",
    "NDSL.Metric.C93_communication",
    "NDSL.Metric.C93_ranks",
    "NDSL.Metric.C93_order_violated",
    "NDSL.Metric.C93_cartesian_nan_violated"
   ],
   "note": "Values are symbolic: which functions of geometry.py are applied to which data; the placement inside arrays is left out. Vertical coordinates are not lazy and not included."
  },
  {
   "property": "C94",
   "status": "proved",
   "theorems": [
    "NDSL.Deriv.C94_centre",
    "NDSL.Deriv.C94_west",
    "NDSL.Deriv.C94_south",
    "NDSL.Deriv.C94_xy",
    "NDSL.Deriv.C94_momentum",
    "NDSL.Deriv.C94_trig",
    "NDSL.Deriv.C94_divg",
    "NDSL.Deriv.C94_shared_vectors",
    "NDSL.Deriv.C94_shared_trig",
    "NDSL.Deriv.C94_limit",
    "NDSL.Deriv.C94_limit_violated",
    "NDSL.Deriv.C94_flat_violated"
   ],
   "note": "Points are abstract with abstract operations (midpoint, cross product, normalisation); numbers are any type with arithmetic and an order."
  },
  {
   "property": "C95",
   "status": "proved",
   "theorems": [
    "NDSL.Alloc.C95_factory",
    "NDSL.Alloc.C95_alloc",
    "NDSL.Alloc.C95_full",
    "NDSL.Alloc.C95_full_violated",
    "NDSL.Alloc.C95_locals",
    "NDSL.Alloc.C95_access",
    "NDSL.Alloc.C95_as_state",
    "NDSL.Alloc.C95_as_state_violated",
    "NDSL.Alloc.C95_guard_violated"
   ],
   "note": "The sizer's shape for dimensions under given data dimensions is a parameter."
  },
  {
   "property": "C96",
   "status": "proved",
   "theorems": [
    "NDSL.StateFiles.C96_round_trip",
    "NDSL.StateFiles.C96_depth_violated",
    "NDSL.StateFiles.C96_names",
    "NDSL.StateFiles.C96_names_postfix",
    "NDSL.StateFiles.C96_names_violated",
    "NDSL.StateFiles.C96_history",
    "NDSL.StateFiles.C96_none_violated",
    "NDSL.StateFiles.C96_coordinate_violated"
   ],
   "note": "xarray and the file system are modelled as far as they matter here: refused datasets, sizes of dimensions, coordinates; what xarray decodes on reading is left out."
  },
  {
   "property": "C97",
   "status": "proved",
   "theorems": [
    "NDSL.Sizes.C97_centres",
    "NDSL.Sizes.C97_sides",
    "NDSL.Sizes.C97_widths",
    "NDSL.Sizes.C97_area",
    "NDSL.Sizes.C97_across",
    "NDSL.Sizes.C97_corner_area",
    "NDSL.Sizes.C97_triangles",
    "NDSL.Sizes.C97_shared",
    "NDSL.Sizes.C97_extremes",
    "NDSL.Sizes.C97_extremes_violated"
   ],
   "note": "Before the halo exchange and filling of ghost corners that follow in the code; positions, distances and areas are abstract operations."
  },
  {
   "property": "C98",
   "status": "proved",
   "theorems": [
    "NDSL.Storage.C98_full",
    "NDSL.Storage.C98_line",
    "NDSL.Storage.C98_row",
    "NDSL.Storage.C98_line_full",
    "NDSL.Storage.C98_plane",
    "NDSL.Storage.C98_plane_full",
    "NDSL.Storage.C98_plane_dummy",
    "NDSL.Storage.C98_dict",
    "NDSL.Storage.C98_lost_violated",
    "NDSL.Storage.C98_start_violated",
    "NDSL.Storage.C98_dummy_violated",
    "NDSL.Storage.C98_rank4_violated",
    "NDSL.Storage.C98_dict_violated",
    "NDSL.Storage.C98_line_dummy"
   ],
   "note": "numpy's slicing, broadcasting, repeat, tile, moveaxis and reshape are modelled for arrays of any rank; gt4py is given the array, aligned index and dimensions."
  },
  {
   "property": "C99",
   "status": "proved",
   "theorems": [
    "NDSL.StateIO.C99_round_trip",
    "NDSL.StateIO.C99_written",
    "NDSL.StateIO.C99_refused",
    "NDSL.StateIO.C99_history",
    "NDSL.StateIO.C99_attributes",
    "NDSL.StateIO.C99_halo_violated",
    "NDSL.StateIO.C99_coordinate_violated",
    "NDSL.StateIO.C99_precision_violated",
    "NDSL.StateIO.C99_units_violated",
    "NDSL.StateIO.C99_series_violated",
    "NDSL.StateIO.C99_date",
    "NDSL.StateIO.C99_calendar",
    "NDSL.StateIO.C99_dataset",
    "NDSL.StateIO.C99_series"
   ],
   "note": "exceptions named in the statement are proved with witnesses; xarray's encoding of dates is assumed to be undone by its decoding (shown for an example)"
  },
  {
   "property": "C100",
   "status": "proved",
   "theorems": [
    "NDSL.Translate.C100_inverse",
    "NDSL.Translate.C100_grid",
    "NDSL.Translate.C100_cover",
    "NDSL.Translate.C100_translated",
    "NDSL.Translate.C100_input",
    "NDSL.Translate.C100_round_trip",
    "NDSL.Translate.C100_fields",
    "NDSL.Translate.C100_compute_domain",
    "NDSL.Translate.C100_full_domain",
    "NDSL.Translate.C100_layout_violated",
    "NDSL.Translate.C100_uneven_violated",
    "NDSL.Translate.C100_stale_violated",
    "NDSL.Translate.C100_caller_violated",
    "NDSL.Translate.C100_shared_violated",
    "NDSL.Translate.C100_plane_violated",
    "NDSL.Translate.C100_given",
    "NDSL.Translate.C100_dummy",
    "NDSL.Translate.C100_dummy_line_violated",
    "NDSL.Translate.C100_line",
    "NDSL.Translate.C100_plane"
   ],
   "note": "exceptions named in the statement are proved with witnesses; sizes of one are excluded from the round trip, since they are squeezed away"
  },
  {
   "property": "C101",
   "status": "proved",
   "theorems": [
    "NDSL.Sphere.C101_base",
    "NDSL.Sphere.C101_symmetric",
    "NDSL.Sphere.C101_tiles"
   ],
   "note": "over the real numbers; square tiles for the comparison with the ranks"
  },
  {
   "property": "C102",
   "status": "proved",
   "theorems": [
    "NDSL.View.C102_read",
    "NDSL.View.C102_write",
    "NDSL.View.C102_write_read",
    "NDSL.View.C102_safe",
    "NDSL.View.C102_many",
    "NDSL.View.C102_field",
    "NDSL.View.C102_sel",
    "NDSL.View.C102_reverse_violated",
    "NDSL.View.C102_newaxis_violated",
    "NDSL.View.C102_typo_violated",
    "NDSL.View.C102_scalar_violated"
   ],
   "note": "The _violated theorems are the exceptions named in the statement."
  },
  {
   "property": "C103",
   "status": "proved",
   "theorems": [
    "NDSL.Reduce.C103_sum",
    "NDSL.Reduce.C103_output",
    "NDSL.Reduce.C103_shape",
    "NDSL.Reduce.C103_elements",
    "NDSL.Reduce.C103_meaning",
    "NDSL.Reduce.C103_split",
    "NDSL.Reduce.C103_tiles",
    "NDSL.Reduce.C103_max_violated",
    "NDSL.Reduce.C103_halo_violated",
    "NDSL.Reduce.C103_view_violated",
    "NDSL.Reduce.C103_order_violated",
    "NDSL.Reduce.C103_twice_violated",
    "NDSL.Reduce.C103_tile_reduce_violated"
   ],
   "note": "The _violated theorems are the exceptions named in the statement. mpi4py's reduction of objects and MPI's split are modelled from their documentation."
  },
  {
   "property": "C104",
   "status": "proved",
   "theorems": [
    "NDSL.Segments.C104_pieces",
    "NDSL.Segments.C104_tiles",
    "NDSL.Segments.C104_update",
    "NDSL.Segments.C104_last",
    "NDSL.Segments.C104_empty_violated",
    "NDSL.Segments.C104_more_violated",
    "NDSL.Segments.C104_fewer_violated"
   ],
   "note": "The _violated theorems are the exceptions named in the statement. NaN is an optional value; matplotlib's meshes are the arrays they were given."
  },
  {
   "property": "C105",
   "status": "proved",
   "theorems": [
    "NDSL.Masking.C105_difference",
    "NDSL.Masking.C105_antimeridian",
    "NDSL.Masking.C105_mask",
    "NDSL.Masking.C105_center",
    "NDSL.Masking.C105_drawn",
    "NDSL.Masking.C105_colors",
    "NDSL.Masking.C105_answers",
    "NDSL.Masking.C105_all_given_violated",
    "NDSL.Masking.C105_touch_violated",
    "NDSL.Masking.C105_wide_violated",
    "NDSL.Masking.C105_tile_violated",
    "NDSL.Masking.C105_few_violated",
    "NDSL.Masking.C105_far_violated",
    "NDSL.Masking.C105_shown"
   ],
   "note": "The _violated theorems are the exceptions named in the statement. Numbers are rationals; percentiles are not modelled."
  },
  {
   "property": "C106",
   "status": "proved",
   "theorems": [
    "NDSL.C106_update",
    "NDSL.C106_finished",
    "NDSL.C106_ends",
    "NDSL.C106_dtype_violated",
    "NDSL.C106_overlap_violated"
   ],
   "note": "The _violated theorems are the exceptions named in the statement. A thread reads and writes one place each in one step; the index arrays are those of C23."
  },
  {
   "property": "C107",
   "status": "proved",
   "theorems": [
    "NDSL.StencilCall.C107_call",
    "NDSL.StencilCall.C107_keywords",
    "NDSL.StencilCall.C107_refused",
    "NDSL.StencilCall.C107_later",
    "NDSL.StencilCall.C107_effect",
    "NDSL.StencilCall.C107_twin",
    "NDSL.StencilCall.C107_pair",
    "NDSL.StencilCall.C107_numpy",
    "NDSL.StencilCall.C107_same",
    "NDSL.StencilCall.C107_sizes",
    "NDSL.StencilCall.C107_extra_violated",
    "NDSL.StencilCall.C107_build_violated",
    "NDSL.StencilCall.C107_twin_violated",
    "NDSL.StencilCall.C107_nan_violated",
    "NDSL.StencilCall.C107_pair_violated",
    "NDSL.StencilCall.C107_alias_violated",
    "NDSL.StencilCall.C107_sizes_violated",
    "NDSL.StencilCall.C107_assign",
    "NDSL.StencilCall.C107_sequence"
   ],
   "note": "The _violated theorems are the exceptions named in the statement. What GT4Py checks besides the binding is not modelled."
  },
  {
   "property": "C108",
   "status": "proved",
   "theorems": [
    "NDSL.StencilFactory.C108_points",
    "NDSL.StencilFactory.C108_refused",
    "NDSL.StencilFactory.C108_externals",
    "NDSL.StencilFactory.C108_varied",
    "NDSL.StencilFactory.C108_cover",
    "NDSL.StencilFactory.C108_edges",
    "NDSL.StencilFactory.C108_restrict",
    "NDSL.StencilFactory.C108_report",
    "NDSL.StencilFactory.C108_built",
    "NDSL.StencilFactory.C108_order_violated",
    "NDSL.StencilFactory.C108_varied_violated",
    "NDSL.StencilFactory.C108_edges_violated",
    "NDSL.StencilFactory.C108_none_violated",
    "NDSL.StencilFactory.C108_unused_violated",
    "NDSL.StencilFactory.C108_long_violated",
    "NDSL.StencilFactory.C108_name_violated",
    "NDSL.StencilFactory.C108_names"
   ],
   "note": "The _violated theorems are the exceptions named in the statement. Times are rational numbers; the text of reports is not modelled."
  },
  {
   "property": "C109",
   "status": "proved",
   "theorems": [
    "NDSL.CleanTree.C109_nodes",
    "NDSL.CleanTree.C109_same",
    "NDSL.CleanTree.C109_clean",
    "NDSL.CleanTree.C109_all",
    "NDSL.CleanTree.C109_count",
    "NDSL.CleanTree.C109_twice",
    "NDSL.CleanTree.C109_passes",
    "NDSL.CleanTree.C109_written",
    "NDSL.CleanTree.C109_meaning",
    "NDSL.CleanTree.C109_order",
    "NDSL.CleanTree.C109_backends",
    "NDSL.CleanTree.C109_specialize",
    "NDSL.CleanTree.C109_points",
    "NDSL.CleanTree.C109_else_violated",
    "NDSL.CleanTree.C109_specialize_violated",
    "NDSL.CleanTree.C109_params_violated",
    "NDSL.CleanTree.C109_specialized"
   ],
   "note": "The _violated theorems are the exceptions named in the statement. What DaCe's visitor does for scopes without a method of their own is taken from its documentation."
  },
  {
   "property": "C110",
   "status": "proved",
   "theorems": [
    "NDSL.TestCases.C110_serial",
    "NDSL.TestCases.C110_parallel",
    "NDSL.TestCases.C110_class",
    "NDSL.TestCases.C110_generated",
    "NDSL.TestCases.C110_agree",
    "NDSL.TestCases.C110_lists",
    "NDSL.TestCases.C110_passed",
    "NDSL.TestCases.C110_passed_parallel",
    "NDSL.TestCases.C110_order",
    "NDSL.TestCases.C110_skipped",
    "NDSL.TestCases.C110_skipped_violated",
    "NDSL.TestCases.C110_override_none",
    "NDSL.TestCases.C110_override_many",
    "NDSL.TestCases.C110_override",
    "NDSL.TestCases.C110_gpu",
    "NDSL.TestCases.C110_layout",
    "NDSL.TestCases.C110_layout_violated",
    "NDSL.TestCases.C110_skip_violated",
    "NDSL.TestCases.C110_other_violated",
    "NDSL.TestCases.C110_outvars_violated",
    "NDSL.TestCases.C110_backend_violated",
    "NDSL.TestCases.C110_file_violated",
    "NDSL.TestCases.C110_file",
    "NDSL.TestCases.C110_named"
   ],
   "note": "The _violated theorems are the exceptions named in the statement. What metrics say about a variable is a parameter here (C61 is about the metrics)."
  },
  {
   "property": "C111",
   "status": "proved",
   "theorems": [
    "NDSL.Cartesian.C111_types",
    "NDSL.Cartesian.C111_grid",
    "NDSL.Cartesian.C111_shared",
    "NDSL.Cartesian.C111_spacing",
    "NDSL.Cartesian.C111_terms",
    "NDSL.Cartesian.C111_recip",
    "NDSL.Cartesian.C111_total",
    "NDSL.Cartesian.C111_divg",
    "NDSL.Cartesian.C111_winds_violated",
    "NDSL.Cartesian.C111_halo_violated",
    "NDSL.Cartesian.C111_centres_violated"
   ],
   "note": "The _violated theorems are the exceptions named in the statement. Numbers are elements of a field (exact arithmetic); splitting of a tile uses floats that divide an even layout exactly, as in C84."
  },
  {
   "property": "C112",
   "status": "proved",
   "theorems": [
    "NDSL.Serial.C112_files",
    "NDSL.Serial.C112_completes",
    "NDSL.Serial.C112_roundtrip",
    "NDSL.Serial.C112_blocks",
    "NDSL.Serial.C112_blocks_violated",
    "NDSL.Serial.C112_collapsed",
    "NDSL.Serial.C112_collapsed_violated",
    "NDSL.Serial.C112_together_violated",
    "NDSL.Serial.C112_loader",
    "NDSL.Serial.C112_loader_violated",
    "NDSL.Serial.C112_exists",
    "NDSL.Serial.C112_name_violated",
    "NDSL.Serial.C112_fields_violated",
    "NDSL.Serial.C112_calls_violated",
    "NDSL.Serial.C112_shape_violated",
    "NDSL.Serial.C112_fill_violated",
    "NDSL.Serial.C112_scalar_violated",
    "NDSL.Serial.C112_ranks",
    "NDSL.Serial.C112_tracers"
   ],
   "note": "The _violated theorems are the exceptions named in the statement."
  },
  {
   "property": "C113",
   "status": "proved",
   "theorems": [
    "NDSL.Memory.C113_visited",
    "NDSL.Memory.C113_rows",
    "NDSL.Memory.C113_totals",
    "NDSL.Memory.C113_split",
    "NDSL.Memory.C113_shared",
    "NDSL.Memory.C113_shown",
    "NDSL.Memory.C113_hidden_violated",
    "NDSL.Memory.C113_condition_violated",
    "NDSL.Memory.C113_timing",
    "NDSL.Memory.C113_nothing_read",
    "NDSL.Memory.C113_given",
    "NDSL.Memory.C113_measured_violated",
    "NDSL.Memory.C113_label_violated",
    "NDSL.Memory.C113_command"
   ],
   "note": "The _violated theorems are the exceptions named in the statement."
  },
  {
   "property": "C114",
   "status": "proved",
   "theorems": [
    "NDSL.DebugChecks.C114_found",
    "NDSL.DebugChecks.C114_all_violated",
    "NDSL.DebugChecks.C114_nan_violated",
    "NDSL.DebugChecks.C114_ranges",
    "NDSL.DebugChecks.C114_same",
    "NDSL.DebugChecks.C114_runs",
    "NDSL.DebugChecks.C114_between",
    "NDSL.DebugChecks.C114_count",
    "NDSL.DebugChecks.C114_delp",
    "NDSL.DebugChecks.C114_tracers",
    "NDSL.DebugChecks.C114_sync",
    "NDSL.DebugChecks.C114_untouched",
    "NDSL.DebugChecks.C114_cpu_violated",
    "NDSL.DebugChecks.C114_axes",
    "NDSL.DebugChecks.C114_axes_violated"
   ],
   "note": "The _violated theorems are the exceptions named in the statement."
  },
  {
   "property": "C115",
   "status": "proved",
   "theorems": [
    "NDSL.ZarrStates.C115_aligned",
    "NDSL.ZarrStates.C115_names",
    "NDSL.ZarrStates.C115_refused_violated",
    "NDSL.ZarrStates.C115_calendar_violated",
    "NDSL.ZarrStates.C115_duration_violated",
    "NDSL.ZarrStates.C115_constant",
    "NDSL.ZarrStates.C115_constant_order_violated",
    "NDSL.ZarrStates.C115_netcdf_constant",
    "NDSL.ZarrStates.C115_netcdf_directory_violated"
   ],
   "note": "The _violated theorems are the exceptions named in the statement."
  },
  {
   "property": "C116",
   "status": "proved",
   "theorems": [
    "NDSL.AxisMerge.C116_ends",
    "NDSL.AxisMerge.C116_kept",
    "NDSL.AxisMerge.C116_merged",
    "NDSL.AxisMerge.C116_none_left"
   ],
   "note": "On the model of C52; the order of computations is that of the program text, what they compute is C52."
  },
  {
   "property": "C117",
   "status": "proved",
   "theorems": [
    "NDSL.CacheDirs.C117_distinct",
    "NDSL.CacheDirs.C117_written",
    "NDSL.CacheDirs.C117_own",
    "NDSL.CacheDirs.C117_minimal",
    "NDSL.CacheDirs.C117_one_rank_violated",
    "NDSL.CacheDirs.C117_variable_violated",
    "NDSL.CacheDirs.C117_shared_violated",
    "NDSL.CacheDirs.C117_alone",
    "NDSL.CacheDirs.C117_orchestrated",
    "NDSL.CacheDirs.C117_orchestrated_run_violated",
    "NDSL.CacheDirs.C117_build_mode_violated"
   ],
   "note": "The _violated theorems are the exceptions named in the statement."
  },
  {
   "property": "C118",
   "status": "proved",
   "theorems": [
    "NDSL.CompareReport.C118_legacy_passed",
    "NDSL.CompareReport.C118_legacy_failed",
    "NDSL.CompareReport.C118_marks",
    "NDSL.CompareReport.C118_verdict",
    "NDSL.CompareReport.C118_multi_report",
    "NDSL.CompareReport.C118_columns",
    "NDSL.CompareReport.C118_thresholds",
    "NDSL.CompareReport.C118_one_line",
    "NDSL.CompareReport.C118_legacy_shown",
    "NDSL.CompareReport.C118_multi_shown",
    "NDSL.CompareReport.C118_hidden_violated",
    "NDSL.CompareReport.C118_changing_violated",
    "NDSL.CompareReport.C118_stale_violated",
    "NDSL.CompareReport.C118_scalar_violated",
    "NDSL.CompareReport.C118_empty_violated",
    "NDSL.CompareReport.C118_zero_threshold_violated",
    "NDSL.CompareReport.C118_order_violated",
    "NDSL.CompareReport.C118_legacy_bool_violated",
    "NDSL.CompareReport.C118_multi_bool_violated"
   ],
   "note": "The _violated theorems are the exceptions named in the statement."
  },
  {
   "property": "C119",
   "status": "proved",
   "theorems": [
    "NDSL.Labels.C119_top",
    "NDSL.Labels.C119_nested",
    "NDSL.Labels.C119_deterministic",
    "NDSL.Labels.C119_single_violated",
    "NDSL.Labels.C119_loop_violated",
    "NDSL.Labels.C119_untaken_violated"
   ],
   "note": "The _violated theorems are the exceptions named in the statement."
  },
  {
   "property": "C120",
   "status": "proved",
   "theorems": [
    "NDSL.MakeQuantity.C120_create",
    "NDSL.MakeQuantity.C120_default_extent",
    "NDSL.MakeQuantity.C120_refused",
    "NDSL.MakeQuantity.C120_field",
    "NDSL.MakeQuantity.C120_allocated",
    "NDSL.MakeQuantity.C120_zeros",
    "NDSL.MakeQuantity.C120_ones",
    "NDSL.MakeQuantity.C120_factory_refused",
    "NDSL.MakeQuantity.C120_full",
    "NDSL.MakeQuantity.C120_from_array",
    "NDSL.MakeQuantity.C120_from_array_accepts",
    "NDSL.MakeQuantity.C120_from_compute_array",
    "NDSL.MakeQuantity.C120_halo_spec",
    "NDSL.MakeQuantity.C120_stretched_violated",
    "NDSL.MakeQuantity.C120_extent_violated",
    "NDSL.MakeQuantity.C120_labels_violated",
    "NDSL.MakeQuantity.C120_no_axes_violated"
   ],
   "note": "The _violated theorems are the exceptions named in the statement."
  },
  {
   "property": "C121",
   "status": "proved",
   "theorems": [
    "NDSL.Boilerplate.C121_same_window",
    "NDSL.Boilerplate.C121_inside",
    "NDSL.Boilerplate.C121_single_tile",
    "NDSL.Boilerplate.C121_fit",
    "NDSL.Boilerplate.C121_orchestrated",
    "NDSL.Boilerplate.C121_topology",
    "NDSL.Boilerplate.C121_fortran",
    "NDSL.Boilerplate.C121_flat",
    "NDSL.Boilerplate.C121_unknown",
    "NDSL.Boilerplate.C121_namelist_extent",
    "NDSL.Boilerplate.C121_ny_violated",
    "NDSL.Boilerplate.C121_first_violated",
    "NDSL.Boilerplate.C121_levels_violated"
   ],
   "note": "The _violated theorems are the exceptions named in the statement."
  },
  {
   "property": "C122",
   "status": "proved",
   "theorems": [
    "NDSL.Temporaries.C122_copied",
    "NDSL.Temporaries.C122_full",
    "NDSL.Temporaries.C122_same",
    "NDSL.Temporaries.C122_reported",
    "NDSL.Temporaries.C122_close",
    "NDSL.Temporaries.C122_unchanged",
    "NDSL.Temporaries.C122_extra_violated",
    "NDSL.Temporaries.C122_shape_violated",
    "NDSL.Temporaries.C122_small_violated",
    "NDSL.Temporaries.C122_order_violated",
    "NDSL.Temporaries.C122_package_violated",
    "NDSL.Temporaries.C122_missing_violated"
   ],
   "note": "The _violated theorems are the exceptions named in the statement."
  },
  {
   "property": "C123",
   "status": "proved",
   "theorems": [
    "NDSL.Xumpy.C123_max",
    "NDSL.Xumpy.C123_min",
    "NDSL.Xumpy.C123_count",
    "NDSL.Xumpy.C123_axis_refused",
    "NDSL.Xumpy.C123_axis_twice",
    "NDSL.Xumpy.C123_other",
    "NDSL.Xumpy.C123_empty",
    "NDSL.Xumpy.C123_max_plane",
    "NDSL.Xumpy.C123_min_plane",
    "NDSL.Xumpy.C123_plane_arrays",
    "NDSL.Xumpy.C123_kinds",
    "NDSL.Xumpy.C123_order_violated",
    "NDSL.Xumpy.C123_levels_violated",
    "NDSL.Xumpy.C123_mixed_violated"
   ],
   "note": "The _violated theorems are the exceptions named in the statement."
  },
  {
   "property": "C124",
   "status": "proved",
   "theorems": [
    "NDSL.RankMoves.C124_fliplr",
    "NDSL.RankMoves.C124_flipud",
    "NDSL.RankMoves.C124_transpose",
    "NDSL.RankMoves.C124_rotate",
    "NDSL.RankMoves.C124_flips_undo",
    "NDSL.RankMoves.C124_square",
    "NDSL.RankMoves.C124_inside",
    "NDSL.RankMoves.C124_refused",
    "NDSL.RankMoves.C124_turns",
    "NDSL.RankMoves.C124_layout_violated"
   ],
   "note": "C124_layout_violated is the exception named in the statement."
  },
  {
   "property": "C125",
   "status": "proved",
   "theorems": [
    "NDSL.PlotPrep.C125_grid",
    "NDSL.PlotPrep.C125_grid_refused",
    "NDSL.PlotPrep.C125_plot",
    "NDSL.PlotPrep.C125_plot_refused",
    "NDSL.PlotPrep.C125_shapes",
    "NDSL.PlotPrep.C125_percentile",
    "NDSL.PlotPrep.C125_robust",
    "NDSL.PlotPrep.C125_limits",
    "NDSL.PlotPrep.C125_given",
    "NDSL.PlotPrep.C125_moving_violated",
    "NDSL.PlotPrep.C125_tile_violated",
    "NDSL.PlotPrep.C125_few_violated",
    "NDSL.PlotPrep.C125_ready"
   ],
   "note": "The _violated theorems are the exceptions named in the statement."
  },
  {
   "property": "C126",
   "status": "proved",
   "theorems": [
    "NDSL.Settings.C126_constants",
    "NDSL.Settings.C126_precision",
    "NDSL.Settings.C126_messages",
    "NDSL.Settings.C126_unknown_level",
    "NDSL.Settings.C126_twice_violated",
    "NDSL.Settings.C126_no_debugger",
    "NDSL.Settings.C126_debugger",
    "NDSL.Settings.C126_debugger_refused",
    "NDSL.Settings.C126_missing_violated",
    "NDSL.Settings.C126_mode",
    "NDSL.Settings.C126_dace",
    "NDSL.Settings.C126_dace_settings"
   ],
   "note": "The _violated theorems are the exceptions named in the statement."
  },
  {
   "property": "C127",
   "status": "proved",
   "theorems": [
    "NDSL.Constants.C127_versions",
    "NDSL.Constants.C127_gravity",
    "NDSL.Constants.C127_dry_air",
    "NDSL.Constants.C127_moist_air",
    "NDSL.Constants.C127_latent_heat",
    "NDSL.Constants.C127_temperatures",
    "NDSL.Constants.C127_documented",
    "NDSL.Constants.C127_documented_violated",
    "NDSL.Constants.C127_freezing",
    "NDSL.Constants.C127_freezing_violated"
   ],
   "note": "Exact arithmetic: the rounding of the constants is left out. The _violated theorems are the exceptions named in the statement."
  },
  {
   "property": "C128",
   "status": "proved",
   "theorems": [
    "NDSL.Translate.C128_windows",
    "NDSL.Translate.C128_shapes",
    "NDSL.Translate.C128_ranges",
    "NDSL.Translate.C128_interfaces",
    "NDSL.Translate.C128_insert",
    "NDSL.Translate.C128_insert_plane",
    "NDSL.Translate.C128_edge_halo",
    "NDSL.Translate.C128_copy_plane_violated",
    "NDSL.Translate.C128_corners",
    "NDSL.Translate.C128_indexing",
    "NDSL.Translate.C128_sizes",
    "NDSL.Translate.C128_layout_violated"
   ],
   "note": "The _violated theorems are the exceptions named in the statement."
  },
  {
   "property": "C129",
   "status": "proved",
   "theorems": [
    "NDSL.Perturb.C129_untouched",
    "NDSL.Perturb.C129_roundoff",
    "NDSL.Perturb.C129_noise",
    "NDSL.Perturb.C129_single_violated",
    "NDSL.Perturb.C129_one_sided_violated"
   ],
   "note": "C129_single_violated and C129_one_sided_violated are the exceptions named in the statement."
  },
  {
   "property": "C130",
   "status": "proved",
   "theorems": [
    "NDSL.TestReport.C130_saved",
    "NDSL.TestReport.C130_passed",
    "NDSL.TestReport.C130_absolute",
    "NDSL.TestReport.C130_relative",
    "NDSL.TestReport.C130_files",
    "NDSL.TestReport.C130_shape_violated",
    "NDSL.TestReport.C130_absolute_violated",
    "NDSL.TestReport.C130_files_violated"
   ],
   "note": "The theorems ending in _violated are the exceptions named in the statement."
  },
  {
   "property": "C131",
   "status": "proved",
   "theorems": [
    "NDSL.StencilOptions.C131_options",
    "NDSL.StencilOptions.C131_changed",
    "NDSL.StencilOptions.C131_skip",
    "NDSL.StencilOptions.C131_name",
    "NDSL.StencilOptions.C131_name_violated",
    "NDSL.StencilOptions.C131_stale_violated",
    "NDSL.StencilOptions.C131_equal_violated"
   ],
   "note": "C131_changed says exactly which options follow a later change. The theorems ending in _violated are the exceptions named in the statement."
  },
  {
   "property": "C132",
   "status": "partial",
   "theorems": [
    "NDSL.BestGuess.C132_compared",
    "NDSL.BestGuess.C132_saved_partial",
    "NDSL.BestGuess.C132_ends",
    "NDSL.BestGuess.C132_flatten_violated",
    "NDSL.BestGuess.C132_halo_violated",
    "NDSL.BestGuess.C132_clash_violated"
   ],
   "note": "Proved: which variables are compared at which points, and, had the arrays a method flatten, that exactly their differences are written. False of the code: xarray's arrays have no method flatten, so the program ends with an exception at the first variable it can compare (C132_flatten_violated); data with two dimensions or with a halo along one dimension only ends it too, and the variables x and ulp_x share a name in the file."
  },
  {
   "property": "C133",
   "status": "proved",
   "theorems": [
    "NDSL.GridStorage.C133_plane",
    "NDSL.GridStorage.C133_levels",
    "NDSL.GridStorage.C133_left",
    "NDSL.GridStorage.C133_components",
    "NDSL.GridStorage.C133_unit_vectors",
    "NDSL.GridStorage.C133_directions",
    "NDSL.GridStorage.C133_edge_vectors",
    "NDSL.GridStorage.C133_edges",
    "NDSL.GridStorage.C133_edge_row_violated",
    "NDSL.GridStorage.C133_edge_line_violated"
   ],
   "note": "Statements about every completed run; the two theorems with the suffix _violated are general: they describe what every run on a CPU does to the factors along edges. Not covered: edge_vect_s and edge_vect_n."
  },
  {
   "property": "C134",
   "status": "proved",
   "theorems": [
    "NDSL.TestGridData.C134_fields",
    "NDSL.TestGridData.C134_unit_vectors",
    "NDSL.TestGridData.C134_edge_lines",
    "NDSL.TestGridData.C134_edges_gpu",
    "NDSL.TestGridData.C134_edges_cpu_violated",
    "NDSL.TestGridData.C134_fortran_violated",
    "NDSL.TestGridData.C134_kept",
    "NDSL.TestGridData.C134_set",
    "NDSL.TestGridData.C134_first",
    "NDSL.TestGridData.C134_named",
    "NDSL.TestGridData.C134_all"
   ],
   "note": "The theorems with the suffix _violated are general. Not covered: the fields fc and fc_agrid, the data of the driver."
  },
  {
   "property": "C135",
   "status": "proved",
   "theorems": [
    "NDSL.StorageShape.C135_from_shape",
    "NDSL.StorageShape.C135_masked",
    "NDSL.StorageShape.C135_data_dims",
    "NDSL.StorageShape.C135_data_dims_violated",
    "NDSL.StorageShape.C135_no_sizes",
    "NDSL.StorageShape.C135_dict",
    "NDSL.StorageShape.C135_reshape_same",
    "NDSL.StorageShape.C135_reshape_plane",
    "NDSL.StorageShape.C135_reshape_plane_violated",
    "NDSL.StorageShape.C135_reshape_column_violated",
    "NDSL.StorageShape.C135_reshape_column_wrong",
    "NDSL.StorageShape.C135_reshape_down",
    "NDSL.StorageShape.C135_reshape_refused",
    "NDSL.StorageShape.C135_split",
    "NDSL.StorageShape.C135_split_refused"
   ],
   "note": "The theorems with the suffix _violated are general. What gt4py does with the arguments is not modelled."
  },
  {
   "property": "C136",
   "status": "proved",
   "theorems": [
    "NDSL.TreeSwap.C136_swap",
    "NDSL.TreeSwap.C136_others_violated",
    "NDSL.TreeSwap.C136_equal_violated",
    "NDSL.TreeSwap.C136_no_cycle",
    "NDSL.TreeSwap.C136_twice",
    "NDSL.TreeSwap.C136_cycle_violated"
   ],
   "note": "Equality of nodes is DaCe's and a parameter; the theorems with the suffix _violated are general. The one caller in use swaps only with an only child."
  },
  {
   "property": "C137",
   "status": "proved",
   "theorems": [
    "NDSL.DeviceCopy.C137_copy",
    "NDSL.DeviceCopy.C137_same",
    "NDSL.DeviceCopy.C137_refused",
    "NDSL.DeviceCopy.C137_allocator",
    "NDSL.DeviceCopy.C137_pool",
    "NDSL.DeviceCopy.C137_made",
    "NDSL.DeviceCopy.C137_optimised_violated",
    "NDSL.DeviceCopy.C137_failed_violated"
   ],
   "note": "What numpy and CuPy do on assignment between devices (a TypeError) and on allocation is an assumption of the model. The theorems with the suffix _violated are general."
  },
  {
   "property": "C138",
   "status": "proved",
   "theorems": [
    "NDSL.Sequential.C138_nodes",
    "NDSL.Sequential.C138_no_threads",
    "NDSL.Sequential.C138_no_sections",
    "NDSL.Sequential.C138_twice",
    "NDSL.Sequential.C138_serial_violated"
   ],
   "note": "The nodes of all states of a graph are in one list; edges and the contents of nodes are not modelled."
  },
  {
   "property": "C139",
   "status": "proved",
   "theorems": [
    "NDSL.ArrayLib.C139_to_numpy",
    "NDSL.ArrayLib.C139_to_cupy",
    "NDSL.ArrayLib.C139_no_cupy",
    "NDSL.ArrayLib.C139_dtype",
    "NDSL.ArrayLib.C139_dtype_violated",
    "NDSL.ArrayLib.C139_library",
    "NDSL.ArrayLib.C139_index",
    "NDSL.ArrayLib.C139_index_violated",
    "NDSL.ArrayLib.C139_stack",
    "NDSL.ArrayLib.C139_stack_mixed",
    "NDSL.ArrayLib.C139_pad",
    "NDSL.ArrayLib.C139_as_numpy",
    "NDSL.ArrayLib.C139_as_numpy_dict",
    "NDSL.ArrayLib.C139_as_numpy_violated",
    "NDSL.ArrayLib.C139_read",
    "NDSL.ArrayLib.C139_read_violated"
   ],
   "note": "What numpy and CuPy do is an assumption of the model, stated in its head; the order of arrays in memory is not modelled."
  },
  {
   "property": "C140",
   "status": "proved",
   "theorems": [
    "NDSL.ParallelTranslate.C140_input",
    "NDSL.ParallelTranslate.C140_state",
    "NDSL.ParallelTranslate.C140_round_trip",
    "NDSL.ParallelTranslate.C140_name_violated",
    "NDSL.ParallelTranslate.C140_twice_violated",
    "NDSL.ParallelTranslate.C140_plain",
    "NDSL.ParallelTranslate.C140_plain_violated"
   ],
   "note": "Data types, units and devices are not modelled; transposition to dims with one moved is the moving of that axis."
  },
  {
   "property": "C141",
   "status": "proved",
   "theorems": [
    "NDSL.WrappedHalo.C141_start",
    "NDSL.WrappedHalo.C141_update",
    "NDSL.WrappedHalo.C141_history",
    "NDSL.WrappedHalo.C141_current",
    "NDSL.WrappedHalo.C141_missing",
    "NDSL.WrappedHalo.C141_other",
    "NDSL.WrappedHalo.C141_refused",
    "NDSL.WrappedHalo.C141_interface",
    "NDSL.WrappedHalo.C141_interface_refused",
    "NDSL.WrappedHalo.C141_interface_violated",
    "NDSL.WrappedHalo.C141_check",
    "NDSL.WrappedHalo.C141_check_violated"
   ],
   "note": "Quantities are objects given by numbers; what is sent is the subject of C01 to C05 and others. Runs with __debug__."
  },
  {
   "property": "C142",
   "status": "proved",
   "theorems": [
    "NDSL.C142_fill",
    "NDSL.C142_sign",
    "NDSL.C142_pairs",
    "NDSL.C142_negative_violated"
   ],
   "note": "On top of C20 and C21. Values are an ordered group; the filling of corners afterwards is C50 and C51."
  },
  {
   "property": "C143",
   "status": "proved",
   "theorems": [
    "NDSL.Orchestrate.C143_compiled",
    "NDSL.Orchestrate.C143_others",
    "NDSL.Orchestrate.C143_untouched",
    "NDSL.Orchestrate.C143_history",
    "NDSL.Orchestrate.C143_off",
    "NDSL.Orchestrate.C143_class",
    "NDSL.Orchestrate.C143_arguments",
    "NDSL.Orchestrate.C143_function",
    "NDSL.Orchestrate.C143_twice_violated",
    "NDSL.Orchestrate.C143_config_violated",
    "NDSL.Orchestrate.C143_shared_violated"
   ],
   "note": "What compilation does with the function is C27 and C89. A class carries the methods found along its bases."
  },
  {
   "property": "C144",
   "status": "proved",
   "theorems": [
    "NDSL.C144_owner",
    "NDSL.C144_external"
   ],
   "note": "On top of C19, C20 and C51. C144_owner does not assume that the given values agree between ranks. The arrays handed in have the shape of the compute domain; the cell centres computed afterwards are not part of it."
  },
  {
   "property": "C145",
   "status": "proved",
   "theorems": [
    "NDSL.C145_grid",
    "NDSL.C145_agree",
    "NDSL.C145_range"
   ],
   "note": "On top of C78, C79 and C144_owner. Exact real arithmetic; ranks have at least three by three cells."
  },
  {
   "property": "C146",
   "status": "proved",
   "theorems": [
    "NDSL.C146_centres",
    "NDSL.C146_edges",
    "NDSL.C146_corners_violated"
   ],
   "note": "On top of C19, C20 and C51. C146_corners_violated holds for every corner point of every tile. The centres of a rank's own cells are given; their computation from corners is part of C97."
  },
  {
   "property": "C147",
   "status": "proved",
   "theorems": [
    "NDSL.C147_lengths"
   ],
   "note": "On top of C142 and C145. Exact real arithmetic; before the lengths beyond corners of tiles are filled."
  },
  {
   "property": "C148",
   "status": "proved",
   "theorems": [
    "NDSL.Instrument.C148_data",
    "NDSL.Instrument.C148_transparent",
    "NDSL.Instrument.C148_saves",
    "NDSL.Instrument.C148_extra_violated",
    "NDSL.Instrument.C148_shadow_violated"
   ],
   "note": "The saved data are references, so the second save shows what the method made of them. Defaults of parameters are not shown, since the call does not give them. What the debugger does with the data is C64."
  }
 ]
}
