{
 "claims": [
  {
   "property": "C01",
   "status": "proved",
   "theorems": [
    "Wavemap.C01_encodeLut_interleaves",
    "Wavemap.C01_encodePdep_interleaves",
    "Wavemap.C01_roundtrip_lut",
    "Wavemap.C01_roundtrip_pdep",
    "Wavemap.C01_lut_eq_pdep",
    "Wavemap.C01_lut_eq_pdep_1d_partial",
    "Wavemap.C01_lut_ne_pdep_1d_negative",
    "Wavemap.C01_injective",
    "Wavemap.C01_decode_encode"
   ],
   "note": "Both encoder/decoder variants; the look-up-table variant disagrees with the pdep variant for negative 1D coordinates (negation theorem)."
  },
  {
   "property": "C02",
   "status": "proved",
   "theorems": [
    "Wavemap.C02_parent_of_child",
    "Wavemap.C02_relative_of_child",
    "Wavemap.C02_children_distinct",
    "Wavemap.C02_child_of_parent",
    "Wavemap.C02_child_indices",
    "Wavemap.C02_parentAt_base",
    "Wavemap.C02_parentAt_trans",
    "Wavemap.C02_parentAt_iterate",
    "Wavemap.C02_relative_child_of_morton"
   ],
   "note": ""
  },
  {
   "property": "C03",
   "status": "proved",
   "theorems": [
    "Wavemap.C03_corners_span_region",
    "Wavemap.C03_region_iff_ancestor",
    "Wavemap.C03_ancestor_agree",
    "Wavemap.C03_children_partition",
    "Wavemap.C03_same_height_disjoint",
    "Wavemap.C03_cover"
   ],
   "note": ""
  },
  {
   "property": "C04",
   "status": "proved",
   "theorems": [
    "Wavemap.C04_lca_morton",
    "Wavemap.C04_lca_is_lowest_common_ancestor"
   ],
   "note": ""
  },
  {
   "property": "C05",
   "status": "proved",
   "theorems": [
    "Wavemap.C05_cell_roundtrip",
    "Wavemap.C05_injective",
    "Wavemap.C05_linear_roundtrip"
   ],
   "note": ""
  },
  {
   "property": "C06",
   "status": "proved",
   "theorems": [
    "Wavemap.C06_split_recombine",
    "Wavemap.C06_unique"
   ],
   "note": "Block size up to 2^30 cells per side."
  },
  {
   "property": "C07",
   "status": "proved",
   "theorems": [
    "Wavemap.C07_nearest_contains",
    "Wavemap.C07_interior",
    "Wavemap.C07_center_roundtrip",
    "Wavemap.C07_corners",
    "Wavemap.C07_floor_ceil",
    "Wavemap.C07_node_is_ancestor_of_cell",
    "Wavemap.C07_node_center_roundtrip",
    "Wavemap.C07_new_resolution"
   ],
   "note": "Exact arithmetic; overflow of the cast to int excluded."
  },
  {
   "property": "C08",
   "status": "proved",
   "theorems": [
    "Wavemap.C08_slot_bounds",
    "Wavemap.C08_slots_injective",
    "Wavemap.C08_slots_surjective"
   ],
   "note": ""
  },
  {
   "property": "C09",
   "status": "proved",
   "theorems": [
    "Wavemap.C09_total_nodes",
    "Wavemap.C09_total_nodes_fast",
    "Wavemap.C09_inner_plus_leaf",
    "Wavemap.C09_no_overflow"
   ],
   "note": ""
  },
  {
   "property": "C10",
   "status": "proved",
   "theorems": [
    "Wavemap.C10_lifted_eq_parallel",
    "Wavemap.C10_backward_forward",
    "Wavemap.C10_forward_backward",
    "Wavemap.C10_scale_is_mean"
   ],
   "note": "Exact arithmetic."
  },
  {
   "property": "C11",
   "status": "proved",
   "theorems": [
    "Wavemap.C11_backward_single",
    "Wavemap.C11_forward_single",
    "Wavemap.C11_single_update"
   ],
   "note": "Exact arithmetic."
  },
  {
   "property": "C12",
   "status": "partial",
   "theorems": [
    "Wavemap.C12_container_is_map",
    "Wavemap.C12_erase_root_erases_first_child"
   ],
   "note": "Proved for all histories without eraseNode on the root; C12_erase_root_erases_first_child proves that erasing the root instead erases its first child and reports success."
  },
  {
   "property": "C13",
   "status": "proved",
   "theorems": [
    "Wavemap.C13_deepest_allocated_ancestor"
   ],
   "note": ""
  },
  {
   "property": "C14",
   "status": "partial",
   "theorems": [
    "Wavemap.C14_values_agree_partial",
    "Wavemap.C14_exists_iff",
    "Wavemap.C14_root_exists",
    "Wavemap.C14_exists_height_one",
    "Wavemap.C14_existence_fails",
    "Wavemap.C14_ancestor",
    "Wavemap.C14_addresses_in_bounds",
    "Wavemap.C14_height_rounded"
   ],
   "note": "Data reads agree for every history of allocate/write/erase/clear, with an exact characterisation of existence and of getNodeOrAncestor; existence itself differs for in-chunk siblings (C14_existence_fails)."
  },
  {
   "property": "C15",
   "status": "proved",
   "theorems": [
    "Wavemap.C15_total_function",
    "Wavemap.C15_in_bounds",
    "Wavemap.C15_frame"
   ],
   "note": "All block sizes up to 2^30 cells per side, all dimensions."
  },
  {
   "property": "C16",
   "status": "proved",
   "theorems": [
    "Wavemap.C16_hashed_blocks_is_table"
   ],
   "note": "Exact arithmetic. set is not clamped and threshold is a no-op in the code."
  },
  {
   "property": "C17",
   "status": "partial",
   "theorems": [
    "Wavemap.C17_table_partial",
    "Wavemap.C17_add_cells",
    "Wavemap.C17_write_local",
    "Wavemap.C17_set_uniform_partial",
    "Wavemap.C17_set_overwrites_fails"
   ],
   "note": "Proved in full for add (cells and coarse nodes) and as exact table semantics for set; set does not overwrite in the code (C17_set_overwrites_fails). Tree height up to 20."
  },
  {
   "property": "C18",
   "status": "partial",
   "theorems": [
    "Wavemap.C18_table_partial",
    "Wavemap.C18_add_cells",
    "Wavemap.C18_write_local",
    "Wavemap.C18_set_iff_partial",
    "Wavemap.C18_set_overwrites_fails",
    "Wavemap.C18_node_mean"
   ],
   "note": "Proved over the whole signed index space for add, threshold, clear and node reads, and as exact table semantics for set; set does not overwrite in the code (C18_set_overwrites_fails). Tree height up to 20."
  },
  {
   "property": "C19",
   "status": "proved",
   "theorems": [
    "Wavemap.C19_chunked_refines_hashed",
    "Wavemap.C19_leaf_lists_fails",
    "Wavemap.C19_any_rounding",
    "Wavemap.C19_single_precision"
   ],
   "note": "Simulation of every operation incl. clear, prune and pruneSmart: same values for all cells and nodes, same blocks and bounds. C19_single_precision: also in single precision, where the values are exactly equal; C19_any_rounding: and with every other rounding that keeps zero, signs and what it has rounded, such as one with subnormal numbers or saturation. C19_leaf_lists_fails: leaf enumerations differ in granularity."
  },
  {
   "property": "C20",
   "status": "partial",
   "theorems": [
    "Wavemap.C20_hashed_blocks_add_clamped",
    "Wavemap.C20_hashed_blocks_recovers",
    "Wavemap.C20_hashed_wavelet_add_clamped_fails",
    "Wavemap.C20_hashed_wavelet_add_threshold_partial",
    "Wavemap.C20_volumetric_add_clamps_fails",
    "Wavemap.C20_wavelet_add_clamped_fails",
    "Wavemap.C20_wavelet_add_threshold_partial"
   ],
   "note": "Proved in full for hashed blocks. The wavelet maps and the volumetric octree do not clamp on add (negation theorems); for the wavelet maps add followed by threshold is proved to give the clamped sum."
  },
  {
   "property": "C21",
   "status": "proved",
   "theorems": [
    "Wavemap.C21_hashed_wavelet_clamps",
    "Wavemap.C21_hashed_wavelet_idempotent",
    "Wavemap.C21_hashed_wavelet_leaf_set",
    "Wavemap.C21_volumetric_bounds",
    "Wavemap.C21_wavelet_clamps",
    "Wavemap.C21_wavelet_idempotent",
    "Wavemap.C21_wavelet_noop",
    "Wavemap.C21_wavelet_leaf_set"
   ],
   "note": "Dense and hashed wavelet octree, volumetric octree (bounds after prune/threshold, any prior writes). The leaf set is unchanged if the bounds are at least 1/1000 away from zero on both sides (otherwise a block clamped to an unobserved value counts as empty and is not enumerated)."
  },
  {
   "property": "C22",
   "status": "partial",
   "theorems": [
    "Wavemap.C22_hashed_blocks_prune",
    "Wavemap.C22_hashed_blocks_reachable",
    "Wavemap.C22_hashed_blocks_prune_complete",
    "Wavemap.C22_hashed_wavelet_prune_partial",
    "Wavemap.C22_hashed_wavelet_prune_smart_partial",
    "Wavemap.C22_hashed_wavelet_prune_smart_recent",
    "Wavemap.C22_hashed_wavelet_prune_idempotent",
    "Wavemap.C22_hashed_wavelet_lossless_fails",
    "Wavemap.C22_wavelet_prune_partial",
    "Wavemap.C22_wavelet_lossless_partial",
    "Wavemap.C22_wavelet_lossless_fails"
   ],
   "note": "Lossless for hashed blocks (proved). For wavelet maps pruning is lossy (negation theorems); proved error bounds, idempotence, lossless case and frame."
  },
  {
   "property": "C23",
   "status": "partial",
   "theorems": [
    "Wavemap.C23_chunked_wavelet_leaves",
    "Wavemap.C23_dense_block_hash_leaves",
    "Wavemap.C23_hashed_blocks_leaves",
    "Wavemap.C23_hashed_wavelet_leaves",
    "Wavemap.C23_hashed_wavelet_unreported",
    "Wavemap.C23_hashed_wavelet_disjoint",
    "Wavemap.C23_volumetric_leaves_partial",
    "Wavemap.C23_volumetric_root_fails",
    "Wavemap.C23_volumetric_values_fails",
    "Wavemap.C23_wavelet_leaves",
    "Wavemap.C23_wavelet_empty"
   ],
   "note": "Proved in full for hashed blocks, dense, hashed and chunked wavelet octree; empty maps/blocks are not enumerated, their cells are proved to read within 1/1000 of zero. Volumetric octree: proved except for a map collapsed to its root and writes into merged regions, where the code violates it (negation theorems)."
  },
  {
   "property": "C24",
   "status": "partial",
   "theorems": [
    "Wavemap.C24_table_partial",
    "Wavemap.C24_table_without_prune",
    "Wavemap.C24_prune_partial",
    "Wavemap.C24_add_after_prune_fails",
    "Wavemap.C24_set_prune_fails",
    "Wavemap.C24_set_neighbour_fails"
   ],
   "note": "Full for histories without prune (C24_table_without_prune). With prune: exact for histories that only write to cells with their own node or value zero, and within tree_height*kEpsilon per prune. Writes into merged regions fail in the code (three negation theorems)."
  },
  {
   "property": "C25",
   "status": "partial",
   "theorems": [
    "Wavemap.C25_adaptive_partial",
    "Wavemap.C25_adaptive_chunked",
    "Wavemap.C25_hashed_wavelet_partial",
    "Wavemap.C25_chunked_wavelet",
    "Wavemap.C25_stack_overflow_fails",
    "Wavemap.C25_dense",
    "Wavemap.C25_spatial_hash",
    "Wavemap.C25_octree_hash_partial",
    "Wavemap.C25_octree_getNode_fails",
    "Wavemap.C25_octree_default_fails"
   ],
   "note": "Proved for the hashed wavelet octree below tree height 20, the chunked variant at every height, dense block hashes, spatial hashes and hashed octrees (getNode and getOrAllocateNode). Fails at tree height 20 (stack overflow); the octree accelerator's getNode returns an ancestor instead of null and its getOrAllocateNode ignores the default value."
  },
  {
   "property": "C26",
   "status": "partial",
   "theorems": [
    "Wavemap.C26_regions_partial",
    "Wavemap.C26_incompatible_distances",
    "Wavemap.C26_matching_leaves_partial",
    "Wavemap.C26_values_partial",
    "Wavemap.C26_stale_values_fails",
    "Wavemap.C26_stale_nodes_break_has_fails",
    "Wavemap.C26_unallocated_unobserved_fails",
    "Wavemap.C26_has_node_fails",
    "Wavemap.C26_tree_height_20_fails"
   ],
   "note": "Proved for tree heights 1..19 and every history of updates (occupancy and occupancy+ESDF) and has/isFully/hasBlock queries: the region answers and the matching leaves equal those from classifying every cell of the last occupancy map. getValue, getValueOrAncestor and forEachLeaf are proved exact after one update of a new map, under any interleaving of all queries. Refuted: values after a second update (stale nodes), has after such a value query, cells of unallocated blocks are not reported as unobserved, hasNode is true for missing nodes, tree height 20 overruns the node stack."
  },
  {
   "property": "C27",
   "status": "proved",
   "theorems": [
    "Wavemap.C27_exactly_one_class",
    "Wavemap.C27_type_mask",
    "Wavemap.C27_bool_mask",
    "Wavemap.C27_value_mask",
    "Wavemap.C27_has",
    "Wavemap.C27_is_fully_mask",
    "Wavemap.C27_is_fully",
    "Wavemap.C27_is"
   ],
   "note": "All 8-bit masks and all rational log-odds values."
  },
  {
   "property": "C28",
   "status": "proved",
   "theorems": [
    "Wavemap.C28_weights_checked",
    "Wavemap.C28_trilinear_between",
    "Wavemap.C28_trilinear_tent",
    "Wavemap.C28_trilinear_center",
    "Wavemap.C28_trilinear_affine",
    "Wavemap.C28_nearest"
   ],
   "note": "Exact arithmetic. Range of the weights (the DCHECKs hold), value between the values of the cells within a cell width, tent-weight characterisation (hence continuity across cells), centre values, affine maps, nearest neighbour."
  },
  {
   "property": "C29",
   "status": "proved",
   "theorems": [
    "Wavemap.C29_grid_iteration",
    "Wavemap.C29_empty_last",
    "Wavemap.C29_empty_first_fails"
   ],
   "note": "C29_empty_first_fails shows that min <= max is needed."
  },
  {
   "property": "C30",
   "status": "partial",
   "theorems": [
    "Wavemap.C30_index_ray",
    "Wavemap.C30_ray_iterable",
    "Wavemap.C30_point_ray_partial",
    "Wavemap.C30_point_ray",
    "Wavemap.C30_point_ray_generic_end",
    "Wavemap.C30_point_ray_fails",
    "Wavemap.C30_no_gaps"
   ],
   "note": "Rays between indices: fully proved. Rays between points: every cell through whose inside the ray goes is visited (C30_no_gaps); that the cells start at the first point's, end at one that has the second point in its closure, move by single steps without repetition and touch the ray is proved for all rays (C30_point_ray); that the last cell is the one the second point is assigned to unless the end point lies on the near face of its cell along one axis and on the far face along another, where C30_point_ray_fails shows the code ends at a different cell."
  },
  {
   "property": "C31",
   "status": "partial",
   "theorems": [
    "Wavemap.C31_preorder",
    "Wavemap.C31_breadth_first",
    "Wavemap.C31_postorder_partial",
    "Wavemap.C31_no_empty_array_alloc",
    "Wavemap.C31_postorder_fails"
   ],
   "note": "Preorder and breadth-first: all trees. Postorder: trees without empty children arrays; C31_postorder_fails shows the code skips nodes otherwise (reachable through eraseNode)."
  },
  {
   "property": "C32",
   "status": "proved",
   "theorems": [
    "Wavemap.C32_exactly_once",
    "Wavemap.C32_wait_all_barrier",
    "Wavemap.C32_destructor_drains",
    "Wavemap.C32_destructor_drains_zero_workers_fails"
   ],
   "note": "all schedules, any number of clients, spurious wake-ups included; at least one worker for the destructor claim (with zero workers it fails, see the _fails theorem). Tasks are assumed to terminate and not to call wait_all themselves."
  },
  {
   "property": "C33",
   "status": "proved",
   "theorems": [
    "Wavemap.C33_no_lost_task",
    "Wavemap.C33_no_lost_waiter",
    "Wavemap.C33_no_deadlock",
    "Wavemap.C33_terminates",
    "Wavemap.C33_completes"
   ],
   "note": "no lost wake-up invariants, deadlock freedom, and termination of every schedule of the pool's own steps (lexicographic measure)."
  },
  {
   "property": "C34",
   "status": "proved",
   "theorems": [
    "Wavemap.C34_schedule_independent",
    "Wavemap.C34_same_block_fails"
   ],
   "note": "pool composed with block memory; tasks are arbitrary sequences of atomic accesses to their own block. Distinctness of the updated blocks is a hypothesis here, proved for the integrators with C41/C44."
  },
  {
   "property": "C35",
   "status": "proved",
   "theorems": [
    "Wavemap.C35_roundtrip",
    "Wavemap.C35_reachable_wellformed"
   ],
   "note": "round trip of configuration and of every node and cell value, for every well-formed float-valued octree and any bytes that follow; reachable maps are well-formed. Floats are exact binary32 rationals; NaN, infinities and the sign of zero are not modelled"
  },
  {
   "property": "C36",
   "status": "partial",
   "theorems": [
    "Wavemap.C36_hashed_roundtrip_partial",
    "Wavemap.C36_unsaturated_exact",
    "Wavemap.C36_chunked_roundtrip_partial",
    "Wavemap.C36_reachable_wellformed",
    "Wavemap.C36_saturated_parent_fails",
    "Wavemap.C36_config_fails",
    "Wavemap.C36_threshold_after_load_fails"
   ],
   "note": "exact value of every cell after reloading, for plain and chunked maps (ReloadedValue); exact when no coarser node is saturated. Fails: an occupied cell in a region that is otherwise free is lost on saving (C36_saturated_parent_fails), the pruning delay is not stored (C36_config_fails), the needs-thresholding mark is not stored (C36_threshold_after_load_fails)"
  },
  {
   "property": "C37",
   "status": "partial",
   "theorems": [
    "Wavemap.C37_roundtrip_partial",
    "Wavemap.C37_allocated_cells",
    "Wavemap.C37_reachable_wellformed",
    "Wavemap.C37_default_fails"
   ],
   "note": "proved for default value 0 and, for any default, for all cells of allocated blocks; the default value is not stored (C37_default_fails)"
  },
  {
   "property": "C38",
   "status": "partial",
   "theorems": [
    "Wavemap.C38_written_map_loads",
    "Wavemap.C38_reading_terminates",
    "Wavemap.C38_truncated_partial",
    "Wavemap.C38_truncated_config_fails",
    "Wavemap.C38_unknown_format",
    "Wavemap.C38_bad_stream",
    "Wavemap.C38_accepted_config_valid"
   ],
   "note": "reading always terminates; strict prefixes are never accepted; prefixes with a complete header, unknown formats and bad streams return false. Fails: every prefix of 4 to 8 bytes ends the process (C38_truncated_config_fails)"
  },
  {
   "property": "C39",
   "status": "partial",
   "theorems": [
    "Wavemap.C39_incremental_partial",
    "Wavemap.C39_incremental_pruned_partial",
    "Wavemap.C39_full_request_partial",
    "Wavemap.C39_message_partial",
    "Wavemap.C39_unsaturated_exact",
    "Wavemap.C39_chunked_message_partial",
    "Wavemap.C39_wavelet_partial",
    "Wavemap.C39_hashed_blocks",
    "Wavemap.C39_any_map_partial",
    "Wavemap.C39_rejected",
    "Wavemap.C39_node_copy_overrun_fails",
    "Wavemap.C39_wavelet_stale_fails",
    "Wavemap.C39_erased_not_sent_fails",
    "Wavemap.C39_stamp_tie_fails",
    "Wavemap.C39_saturated_parent_fails"
   ],
   "note": "Proved for every history of writes, clears, thresholding, pruning and block erasure interleaved with incremental and full publications of any message size: after a publication the receiver has every block the sender has in common with it and every cell reads the value the sender's map has (after thresholding), except cells in larger nodes whose mean is saturated; whole maps of every supported type transfer for every previous state of the receiver except wavelet octrees with unchanged settings. Violations proved: stale children in wavelet octree receivers, erased blocks not announced, equal time stamps skipped, one element written past each node's array, saturated parents."
  },
  {
   "property": "C40",
   "status": "partial",
   "theorems": [
    "Wavemap.C40_conservative_partial",
    "Wavemap.C40_constructor",
    "Wavemap.C40_wrap_fails"
   ],
   "note": "Bounds bracket every observed pixel and unobserved pixels are reported, for all images and all plain intervals; intervals through the seam need a power-of-two number of columns (C40_wrap_fails shows a 5-column image where the query is not defined)."
  },
  {
   "property": "C41",
   "status": "partial",
   "theorems": [
    "Wavemap.C41_unobserved_partial",
    "Wavemap.C41_free",
    "Wavemap.C41_free_or_unobserved",
    "Wavemap.C41_defined",
    "Wavemap.C41_ray_unobserved_partial",
    "Wavemap.C41_ray_free_partial",
    "Wavemap.C41_ray_nonpositive_partial",
    "Wavemap.C41_beam_unobserved_partial",
    "Wavemap.C41_beam_nonpositive_partial",
    "Wavemap.C41_close_pixel_fails",
    "Wavemap.C41_missing_return_fails",
    "Wavemap.C41_seam_fails"
   ],
   "note": "For both measurement models: cells declared fully unobserved contain only points with zero update, fully free cells only free-space updates, free-or-unobserved cells no positive update, and the intersector always answers. Partial: needs scaling factors <= 1, pixels not strictly between 0 and min_range, 6 sigma <= min_range, and boxes through the seam that start inside the image; each condition but the first has a _fails witness. Conservativeness of the projected box is C59."
  },
  {
   "property": "C42",
   "status": "partial",
   "theorems": [
    "Wavemap.C42_cumulative",
    "Wavemap.C42_ray_beam_partial",
    "Wavemap.C42_ray_fails",
    "Wavemap.C42_ray_update_partial",
    "Wavemap.C42_ray_outside",
    "Wavemap.C42_beam_partial",
    "Wavemap.C42_beam_fails",
    "Wavemap.C42_beam_outside_fails",
    "Wavemap.C42_range_gate",
    "Wavemap.C42_constant_ray"
   ],
   "note": "Update finite, never below free space, sign by side of surface, for all distances, images and coordinates, if scaling_free<1 and scaling_occupied<=1; accepted configs outside that fail (negations proved); four-neighbour beam treats out-of-image neighbours as range 0 (negation proved)"
  },
  {
   "property": "C43",
   "status": "partial",
   "theorems": [
    "Wavemap.C43_closest_return_partial",
    "Wavemap.C43_order_independent_partial",
    "Wavemap.C43_close_return_fails",
    "Wavemap.C43_range_image",
    "Wavemap.C43_initial_value_fails"
   ],
   "note": "Smallest return and its offset per pixel, order independence, for returns at or beyond min_range; a closer return overwrites a valid one and a range image's initial value leaks into the next cloud (negations proved)"
  },
  {
   "property": "C44",
   "status": "partial",
   "theorems": [
    "Wavemap.C44_chunked_terminates",
    "Wavemap.C44_chunked_cells",
    "Wavemap.C44_chunked_stop_unique",
    "Wavemap.C44_chunked_blocks",
    "Wavemap.C44_chunked_schedule_independent",
    "Wavemap.C44_chunked_node_mean",
    "Wavemap.C44_chunked_bounds",
    "Wavemap.C44_chunked_bounds_fails",
    "Wavemap.C44_agree_fails",
    "Wavemap.C44_chunked_height_one_fails",
    "Wavemap.C44_wavelet_terminates",
    "Wavemap.C44_wavelet_cells",
    "Wavemap.C44_wavelet_stop_unique",
    "Wavemap.C44_wavelet_unobserved",
    "Wavemap.C44_wavelet_node_mean",
    "Wavemap.C44_wavelet_bounds_fails",
    "Wavemap.C44_wavelet_update_lost_fails",
    "Wavemap.C44_terminates",
    "Wavemap.C44_hashed_cells",
    "Wavemap.C44_stop_unique",
    "Wavemap.C44_hashed_blocks",
    "Wavemap.C44_schedule_independent",
    "Wavemap.C44_node_mean",
    "Wavemap.C44_search_covers_range",
    "Wavemap.C44_termination_height",
    "Wavemap.C44_single_cell_bounded",
    "Wavemap.C44_threshold_bounds_fails",
    "Wavemap.C44_free_updates_reach_cells_fails"
   ],
   "note": "Proved for all three wavelet integrators, all measurements, histories and thread schedules: which cells change and by how much, which blocks are touched and marked, the node means stay consistent, and for the chunked integrator at cell resolution the bounds hold after thresholding. Partial because the code deviates in places, each with a proved witness: the wavelet octree integrator applies the root mean to each octant, blocks of height 1 of the chunked map are sampled below the cells, bounds are not restored after coarse updates, and the plain and chunked maps disagree."
  },
  {
   "property": "C45",
   "status": "proved",
   "theorems": [
    "Wavemap.C45_refines",
    "Wavemap.C45_bucket_monotone",
    "Wavemap.C45_order_error"
   ],
   "note": "Peeking an empty queue is a debug-only check in the code; the model returns none."
  },
  {
   "property": "C46",
   "status": "proved",
   "theorems": [
    "Wavemap.C46_sparse_vector"
   ],
   "note": "All insertion sequences with indices below the fixed width."
  },
  {
   "property": "C47",
   "status": "proved",
   "theorems": [
    "Wavemap.C47_contains_iff",
    "Wavemap.C47_include_smallest",
    "Wavemap.C47_include_from_empty",
    "Wavemap.C47_closest",
    "Wavemap.C47_furthest",
    "Wavemap.C47_box_min_distance",
    "Wavemap.C47_box_max_distance",
    "Wavemap.C47_corners"
   ],
   "note": "Exact rational coordinates, every dimension."
  },
  {
   "property": "C48",
   "status": "proved",
   "theorems": [
    "Wavemap.C48_is_adjacent",
    "Wavemap.C48_symmetric",
    "Wavemap.C48_offsets",
    "Wavemap.C48_nodes_adjacent"
   ],
   "note": "Cell adjacency and neighbourhoods in dimensions 1 to 3, node adjacency in every dimension."
  },
  {
   "property": "C49",
   "status": "partial",
   "theorems": [
    "Wavemap.C49_quasi_partial",
    "Wavemap.C49_full_partial",
    "Wavemap.C49_quasi_deep_obstacle",
    "Wavemap.C49_full_deep_obstacle",
    "Wavemap.C49_sign_fails"
   ],
   "note": "Both generators: generation ends for every reachable map and every maximum distance (without out-of-range accesses and with the internal check satisfied), no stored distance exceeds the maximum or is zero, negative only if occupied, positive below the maximum only if free, unobserved cells keep the maximum; magnitudes never undercut the distance to a cell of the opposite class (exactly that distance for the full generator) and cells touching an obstacle get their exact distance. Violated part: occupied cells that propagation does not reach keep the positive maximum distance (C49_sign_fails, general: C49_quasi_deep_obstacle, C49_full_deep_obstacle). Exact real arithmetic; occupancy read directly instead of through the query accelerator."
  },
  {
   "property": "C50",
   "status": "proved",
   "theorems": [
    "Wavemap.C50_map_configs",
    "Wavemap.C50_operation_configs",
    "Wavemap.C50_integrator_configs",
    "Wavemap.C50_projector_configs",
    "Wavemap.C50_ros_configs",
    "Wavemap.C50_not_a_map",
    "Wavemap.C50_equality",
    "Wavemap.C50_has_child"
   ],
   "note": "Every setting of every config struct is characterised by the parameter map alone; equality of configs is member-wise. Ints are unbounded, floats exact."
  },
  {
   "property": "C51",
   "status": "proved",
   "theorems": [
    "Wavemap.C51_reads",
    "Wavemap.C51_units_agree",
    "Wavemap.C51_synonyms"
   ],
   "note": "All units and kinds; kPi is the single precision constant."
  },
  {
   "property": "C52",
   "status": "proved",
   "theorems": [
    "Wavemap.C52_names_and_ids",
    "Wavemap.C52_from_params",
    "Wavemap.C52_names_distinct",
    "Wavemap.C52_documented_names"
   ],
   "note": "For every list of distinct names, and the 20 lists in the code are distinct."
  },
  {
   "property": "C53",
   "status": "proved",
   "theorems": [
    "Wavemap.C53_registry",
    "Wavemap.C53_run_order",
    "Wavemap.C53_run_report",
    "Wavemap.C53_pipeline"
   ],
   "note": "Registry refined to a table from names to integrators and a sequence of operations for every call sequence; runs execute the registered prefix in order and report whether all names were found."
  },
  {
   "property": "C54",
   "status": "proved",
   "theorems": [
    "Wavemap.C54_rate_limited",
    "Wavemap.C54_unique",
    "Wavemap.C54_spacing",
    "Wavemap.C54_execution_count",
    "Wavemap.C54_stopwatch"
   ],
   "note": "Which calls execute is characterised for every non-decreasing clock; spacing and execution count follow. Stopwatch totals and last episode for every call sequence. With a clock that jumps backwards (simulated ROS time) the operations pause until the old time is reached again; that is outside the stated quantifier."
  },
  {
   "property": "C55",
   "status": "partial",
   "theorems": [
    "Wavemap.C55_motion_compensation_partial",
    "Wavemap.C55_factor",
    "Wavemap.C55_equal_stamps_fails",
    "Wavemap.C55_single_pose_fails",
    "Wavemap.C55_marker_time_fails",
    "Wavemap.C55_undistorter_partial",
    "Wavemap.C55_undistorter_unavailable",
    "Wavemap.C55_unstamped_cloud_fails",
    "Wavemap.C55_single_interval_fails",
    "Wavemap.C55_short_cloud_fails"
   ],
   "note": "Proved for buffers with strictly increasing stamps; the undistorter for two or more intervals and spans that the step size covers. Proved counterexamples: unstamped clouds and short clouds abort, a single interval divides by zero, equal stamps abort, a single pose reads out of bounds, the marker time uses the identity."
  },
  {
   "property": "C56",
   "status": "partial",
   "theorems": [
    "Wavemap.C56_hashed_wavelet_bounds_cover",
    "Wavemap.C56_hashed_wavelet_bounds_tight",
    "Wavemap.C56_hashed_blocks_bounds_cover",
    "Wavemap.C56_volumetric_bounds_cover_partial",
    "Wavemap.C56_volumetric_bounds_tight_partial",
    "Wavemap.C56_volumetric_root_fails",
    "Wavemap.C56_wavelet_bounds_cover",
    "Wavemap.C56_wavelet_bounds_tight"
   ],
   "note": "Proved in full for dense and hashed wavelet octree and hashed blocks. Volumetric octree: covering and tight bounds when the map is not collapsed to its root node; a collapsed map reports bounds in the wrong place (C56_volumetric_root_fails)."
  },
  {
   "property": "C57",
   "status": "partial",
   "theorems": [
    "Wavemap.C57_prune_exact_partial",
    "Wavemap.C57_prune_lossless",
    "Wavemap.C57_prune_fails"
   ],
   "note": "Exact for trees without empty children arrays, lossless for all trees; C57_prune_fails shows that empty nodes can be left behind otherwise."
  },
  {
   "property": "C58",
   "status": "partial",
   "theorems": [
    "Wavemap.C58_probability_error_partial",
    "Wavemap.C58_log_odds_fails"
   ],
   "note": "Bound holds for the probability when scaling_free<=scaling_occupied; fails for the log-odds update it is used for (negation proved)"
  },
  {
   "property": "C59",
   "status": "partial",
   "theorems": [
    "Wavemap.C59_spherical_azimuth_partial",
    "Wavemap.C59_pinhole_roundtrip",
    "Wavemap.C59_sensor_frame",
    "Wavemap.C59_pinhole_box_partial",
    "Wavemap.C59_pinhole_depth",
    "Wavemap.C59_pinhole_skip_partial",
    "Wavemap.C59_pinhole_straddle_fails",
    "Wavemap.C59_spherical_elevation_fails",
    "Wavemap.C59_spherical_axis_fails"
   ],
   "note": "Pinhole: round trip exact; boxes contain every point for cells not straddling the camera plane, depth intervals always; with C41 an end-to-end skip theorem. Spherical: azimuth interval conservative for every cell that does not meet the vertical axis, despite the approximated arc tangent and the jump at half a turn. Witnesses show the box is not conservative for pinhole cells straddling the camera plane, spherical elevation, and spherical cells on the vertical axis."
  },
  {
   "property": "C60",
   "status": "partial",
   "theorems": [
    "Wavemap.C60_write_reports_failure",
    "Wavemap.C60_successful_save_loads",
    "Wavemap.C60_failed_save_partial",
    "Wavemap.C60_unsupported_map_fails",
    "Wavemap.C60_disk_full_fails"
   ],
   "note": "success implies the file loads back; other files are untouched. Fails: an unsupported map type or a full disk destroys the previous file (C60_unsupported_map_fails, C60_disk_full_fails)"
  },
  {
   "property": "C61",
   "status": "proved",
   "theorems": [
    "Wavemap.C61_hash_is_table",
    "Wavemap.C61_nearest_ancestor",
    "Wavemap.C61_leaves_partition",
    "Wavemap.C61_index_roundtrip"
   ],
   "note": "Table semantics, nearest ancestor, leaf partition and the index decomposition for every history; the non-const overloads that do not compile are not modelled."
  },
  {
   "property": "C62",
   "status": "proved",
   "theorems": [
    "Wavemap.C62_sampled_points"
   ],
   "note": "For every sequence of draws, after any history of updates and region queries (tree height 1..19). Hypothesis: cell indices of the sampled region fit in 32 bits and the box is not inverted."
  },
  {
   "property": "C63",
   "status": "partial",
   "theorems": [
    "Wavemap.C63_map",
    "Wavemap.C63_projector",
    "Wavemap.C63_measurement_model_partial",
    "Wavemap.C63_constant_ray_fails",
    "Wavemap.C63_integrator",
    "Wavemap.C63_integrator_no_abort",
    "Wavemap.C63_integrator_null_map",
    "Wavemap.C63_default_integrator_fails",
    "Wavemap.C63_type_name_only_fails",
    "Wavemap.C63_hashed_tree_height_fails",
    "Wavemap.C63_operation",
    "Wavemap.C63_ros_operation",
    "Wavemap.C63_ros_input",
    "Wavemap.C63_made_maps_are_valid"
   ],
   "note": "Proved for all factories. Not met: constant_ray is a known type without a case, a default integrator type needs the entry integration_method, a bare type name makes no map, and the hashed wavelet map does not limit its tree height."
  },
  {
   "property": "C64",
   "status": "proved",
   "theorems": [
    "Wavemap.C64_crop",
    "Wavemap.C64_near_cells_kept",
    "Wavemap.C64_crop_skipped",
    "Wavemap.C64_crop_chunked"
   ],
   "note": "Plain and chunked hashed wavelet maps. Hashed blocks maps are not cropped at all (the code only warns); a failed position lookup still counts as a run."
  },
  {
   "property": "C65",
   "status": "partial",
   "theorems": [
    "Wavemap.C65_stop_height",
    "Wavemap.C65_terminates",
    "Wavemap.C65_leaf_values_partial",
    "Wavemap.C65_cell_values_after_prune",
    "Wavemap.C65_leaf_values_exact",
    "Wavemap.C65_cell_values_fails",
    "Wavemap.C65_coarse_update_unseen_fails"
   ],
   "note": "Proved for every history: termination, exact change of every cell as seen by visiting the leaves (exact without pruning, within kEpsilon per level and pruning otherwise) and by reading cells after pruning. Reading a cell between an integration and the next pruning ignores updates of coarser or later finer nodes (C65_*_fails); a map that is only its root reports its leaf at the wrong place."
  },
  {
   "property": "C66",
   "status": "partial",
   "theorems": [
    "Wavemap.C66_cells",
    "Wavemap.C66_volumetric",
    "Wavemap.C66_same_image",
    "Wavemap.C66_box_cells",
    "Wavemap.C66_cloud_box",
    "Wavemap.C66_beam_covered",
    "Wavemap.C66_frustum_partial",
    "Wavemap.C66_pixel_area_fails",
    "Wavemap.C66_frustum_fails",
    "Wavemap.C66_outside_map_fails"
   ],
   "note": "The change of every cell is proved for all maps, that the box covers the beams within the padding angle up to the return, and that it covers the pinhole camera's view. It does not cover the area of the pixels that a cloud's points fall into (C66_pixel_area_fails) nor the outer half of the first row and column of pixels (C66_frustum_fails), and cells outside an octree's bounds alias with cells inside (C66_outside_map_fails)."
  },
  {
   "property": "C67",
   "status": "partial",
   "theorems": [
    "Wavemap.C67_rays",
    "Wavemap.C67_total",
    "Wavemap.C67_completes_partial",
    "Wavemap.C67_empty_cloud_fails",
    "Wavemap.C67_cells",
    "Wavemap.C67_counts",
    "Wavemap.C67_hit_partial",
    "Wavemap.C67_truncated",
    "Wavemap.C67_edge_fails",
    "Wavemap.C67_truncated_fails",
    "Wavemap.C67_min_range_fails"
   ],
   "note": "The change of every cell is proved for all clouds and maps, and which cells a beam passes. Not true: a point on a cell edge may leave no occupied cell (C67_edge_fails), a point just beyond the maximum range is marked occupied (C67_truncated_fails), min_range is not used (C67_min_range_fails), integrating an empty cloud aborts the process (C67_empty_cloud_fails)."
  },
  {
   "property": "C68",
   "status": "partial",
   "theorems": [
    "Wavemap.C68_accepted",
    "Wavemap.C68_clouds_partial",
    "Wavemap.C68_undistorted_clouds_partial",
    "Wavemap.C68_images",
    "Wavemap.C68_wait",
    "Wavemap.C68_waiting",
    "Wavemap.C68_images_waiting",
    "Wavemap.C68_available_pose_fails",
    "Wavemap.C68_out_of_order_fails",
    "Wavemap.C68_late_start_pose_fails",
    "Wavemap.C68_last_field_fails",
    "Wavemap.C68_livox_offset_fails",
    "Wavemap.C68_blocked_fails"
   ],
   "note": "Proved for every schedule: each accepted measurement is integrated at most once, in order, with the pose at its time, or given up only after the waiting time; waiting ones block later ones. Not true: a cloud whose pose is available is dropped when processed late, out-of-order stamps wrap and drop clouds, undistortion drops a cloud at once if its start pose is missing, reads past the last field, the Livox offset overflows, an unconvertible image blocks the queue (C68_*_fails)."
  },
  {
   "property": "C69",
   "status": "partial",
   "theorems": [
    "Wavemap.C69_one_map_partial",
    "Wavemap.C69_reset",
    "Wavemap.C69_cleared",
    "Wavemap.C69_save_load",
    "Wavemap.C69_failed_load_partial",
    "Wavemap.C69_loaded_map_fails",
    "Wavemap.C69_failed_load_fails",
    "Wavemap.C69_measurement_lost_fails"
   ],
   "note": "Proved for every history without load_map; saves, resets and later loads proved for every history. After a successful load measurements still go into the old map (C69_loaded_map_fails), and a file without a map takes the served map away (C69_failed_load_fails)."
  },
  {
   "property": "C70",
   "status": "partial",
   "theorems": [
    "Wavemap.C70_ouster_azimuth_partial",
    "Wavemap.C70_atan2",
    "Wavemap.C70_ouster_project",
    "Wavemap.C70_spherical_project",
    "Wavemap.C70_ouster_unproject",
    "Wavemap.C70_spherical_unproject",
    "Wavemap.C70_spherical_depth",
    "Wavemap.C70_spherical_depth_tight",
    "Wavemap.C70_ouster_depth_partial",
    "Wavemap.C70_ouster_depth_fails",
    "Wavemap.C70_periodic",
    "Wavemap.C70_periodic_fails"
   ],
   "note": "Round trips, spherical range interval (exact and tight), azimuth intervals off the axis and the exact periodicity condition are proved. Fails: the Ouster range interval ignores the beam offset (C70_ouster_depth_fails, bounded by C70_ouster_depth_partial), and a full circle starting at -180 degrees without a repeated column is not treated as periodic (C70_periodic_fails)."
  },
  {
   "property": "C71",
   "status": "partial",
   "theorems": [
    "Wavemap.C71_rigid",
    "Wavemap.C71_compose",
    "Wavemap.C71_inverse",
    "Wavemap.C71_identity",
    "Wavemap.C71_forms",
    "Wavemap.C71_empty_cloud_fails",
    "Wavemap.C71_from_matrix",
    "Wavemap.C71_matrix_round_trip",
    "Wavemap.C71_posed",
    "Wavemap.C71_accepted_closed",
    "Wavemap.C71_constructor",
    "Wavemap.C71_interpolate",
    "Wavemap.C71_accepted_distance_partial",
    "Wavemap.C71_accepted_inverse_partial",
    "Wavemap.C71_accepted_inverse_fails",
    "Wavemap.C71_unique",
    "Wavemap.C71_exp_partial",
    "Wavemap.C71_exp_fails",
    "Wavemap.C71_log_exp_partial",
    "Wavemap.C71_log_small",
    "Wavemap.C71_log_negation_fails",
    "Wavemap.C71_log_negation_partial",
    "Wavemap.C71_transforms",
    "Wavemap.C71_invertible",
    "Wavemap.C71_stationary_cloud"
   ],
   "note": "Everything is proved for unit quaternions, and that accepted ones never abort. Not true or only bounded: an accepted quaternion of norm other than one scales distances by up to 1/2000 and its inverse pose and inverse matrix disagree (C71_accepted_inverse_fails); clouds without points abort (C71_empty_cloud_fails); exponentials of short rotation vectors are not unit (C71_exp_fails); the logarithm of half turns depends on the sign of the quaternion (C71_log_negation_fails)."
  },
  {
   "property": "C72",
   "status": "partial",
   "theorems": [
    "Wavemap.C72_points_partial",
    "Wavemap.C72_incremental",
    "Wavemap.C72_incremental_partial",
    "Wavemap.C72_volumetric_partial",
    "Wavemap.C72_threshold_fails",
    "Wavemap.C72_background_fails",
    "Wavemap.C72_volumetric_fails",
    "Wavemap.C72_removed_fails",
    "Wavemap.C72_pruned_fails",
    "Wavemap.C72_same_time_fails"
   ],
   "note": "Proved for all reachable states of the four map types that the pipeline updates and thresholds of at least 1/1000 (the default): exactly the obstacles, each once; and that incremental clouds contain all obstacles if nothing is pruned (C72_incremental), or up to the pruning error. Not true: smaller thresholds (C72_threshold_fails), collapsed volumetric octrees (C72_volumetric_fails), cells lifted by pruning (C72_pruned_fails), retraction of removed obstacles (C72_removed_fails), updates at the very time of a publication (C72_same_time_fails)."
  },
  {
   "property": "C73",
   "status": "partial",
   "theorems": [
    "Wavemap.C73_termination_height_fails",
    "Wavemap.C73_sort_fails",
    "Wavemap.C73_neighbour_fails",
    "Wavemap.C73_resolution_fails",
    "Wavemap.C73_reset_fails",
    "Wavemap.C73_stamp_tie_fails",
    "Wavemap.C73_other_type_fails",
    "Wavemap.C73_unknown_frame_fails",
    "Wavemap.C73_invalid_message_fails",
    "Wavemap.C73_band_partial",
    "Wavemap.C73_view_partial",
    "Wavemap.C73_redrawn_partial",
    "Wavemap.C73_finishes",
    "Wavemap.C73_shown_again_partial",
    "Wavemap.C73_served",
    "Wavemap.C73_served_band_partial",
    "Wavemap.C73_served_again_partial"
   ],
   "note": "Proved for hashed wavelet octrees of one cell width and tree height: band mode after every history without a reset (C73_band_partial), both modes after a redraw (C73_redrawn_partial), sizes of cubes (C73_view_partial), that the queue is emptied (C73_finishes), and all of it without failing frames after hiding and showing the voxels (C73_shown_again_partial). For maps from servers the assumptions on the maps are proved (C73_served, C73_served_band_partial, C73_served_again_partial). Not true: see the C73_*_fails theorems."
  },
  {
   "property": "C74",
   "status": "partial",
   "theorems": [
    "Wavemap.C74_not_stored",
    "Wavemap.C74_height_fails",
    "Wavemap.C74_resolution_fails",
    "Wavemap.C74_reset_fails",
    "Wavemap.C74_frame_fails",
    "Wavemap.C74_rejected_fails",
    "Wavemap.C74_deep_fails",
    "Wavemap.C74_served_partial",
    "Wavemap.C74_shown_partial",
    "Wavemap.C74_redrawn",
    "Wavemap.C74_hidden",
    "Wavemap.C74_opacity"
   ],
   "note": "Proved for all histories of messages from servers whose maps share a cell width and a height (C74_served_partial), and for arbitrary messages and files under the same conditions (C74_shown_partial); after any history switching the slice off and on repairs it (C74_redrawn), nothing is drawn while it is off (C74_hidden) and the opacity is right (C74_opacity). Not true: maps of different heights or resolutions, resets, unknown frames, rejected and malformed messages (the C74_*_fails theorems). Wavelet octree and chunked servers only in C74_shown_partial."
  },
  {
   "property": "C75",
   "status": "partial",
   "theorems": [
    "Wavemap.C75_probability",
    "Wavemap.C75_raw",
    "Wavemap.C75_slice_partial",
    "Wavemap.C75_equal_thresholds_fails",
    "Wavemap.C75_default_thresholds_fails",
    "Wavemap.C75_height_valid",
    "Wavemap.C75_height_distinct"
   ],
   "note": "Everything is proved; for the slice display with maps from servers (C75_slice_partial). Not true: equal thresholds (C75_equal_thresholds_fails); with default thresholds raw values are indistinguishable (C75_default_thresholds_fails). Overflow of the exponential in floats is not modelled."
  },
  {
   "property": "C76",
   "status": "partial",
   "theorems": [
    "Wavemap.C76_ros",
    "Wavemap.C76_python_partial",
    "Wavemap.C76_python_throws_partial",
    "Wavemap.C76_same_partial",
    "Wavemap.C76_well_formed",
    "Wavemap.C76_ros_namespaces",
    "Wavemap.C76_unsupported_ignored",
    "Wavemap.C76_unsupported_list_fails",
    "Wavemap.C76_nul_fails"
   ],
   "note": "ROS: proved in full. Python: proved for texts without NUL characters (C76_nul_fails). Values of unsupported types are ignored for all settings but lists of names (C76_unsupported_list_fails). Floats are exact rationals."
  },
  {
   "property": "C77",
   "status": "partial",
   "theorems": [
    "Wavemap.C77_hashed_partial",
    "Wavemap.C77_chunked",
    "Wavemap.C77_tallest_fails"
   ],
   "note": "Proved for every reachable chunked map, and for hashed wavelet octrees below tree height 20, where the batch queries access an array out of bounds (C77_tallest_fails)."
  },
  {
   "property": "C78",
   "status": "partial",
   "theorems": [
    "Wavemap.C78_delivered_partial",
    "Wavemap.C78_shared_topic_fails",
    "Wavemap.C78_relative_topic_fails",
    "Wavemap.C78_type_fails",
    "Wavemap.C78_republished",
    "Wavemap.C78_order",
    "Wavemap.C78_clock",
    "Wavemap.C78_clock_increases",
    "Wavemap.C78_own_clock",
    "Wavemap.C78_interrupted",
    "Wavemap.C78_images_partial",
    "Wavemap.C78_last_fails",
    "Wavemap.C78_complete_partial",
    "Wavemap.C78_last_example_fails"
   ],
   "note": "Order, delivery, transforms, clock and interruption are proved for all recordings; completeness if the recording goes on after the last measurement (C78_complete_partial). Not true: measurements at the end are left in the queue (C78_last_fails), further inputs on a topic get nothing (C78_shared_topic_fails), relative topic names match nothing (C78_relative_topic_fails), unexpected message types crash (C78_type_fails)."
  },
  {
   "property": "C79",
   "status": "partial",
   "theorems": [
    "Wavemap.C79_contracted_roundtrip",
    "Wavemap.C79_contracted_contains",
    "Wavemap.C79_contracted_interior",
    "Wavemap.C79_ieee_cell",
    "Wavemap.C79_ieee_nearest",
    "Wavemap.C79_ieee_corners",
    "Wavemap.C79_ieee_roundtrip",
    "Wavemap.C79_ieee_node_roundtrip",
    "Wavemap.C79_ieee_index_fits",
    "Wavemap.C79_center_roundtrip",
    "Wavemap.C79_node_roundtrip",
    "Wavemap.C79_nearest_contains",
    "Wavemap.C79_interior",
    "Wavemap.C79_power_of_two",
    "Wavemap.C79_interior_fails",
    "Wavemap.C79_far_fails",
    "Wavemap.C79_ancestor_fails",
    "Wavemap.C79_shared_corners",
    "Wavemap.C79_corners",
    "Wavemap.C79_corner_error",
    "Wavemap.C79_node_corners"
   ],
   "note": "Round trip, nearest cell, interior and the corners of cells and nodes are proved for all cell widths within the stated range, also with fused multiply-adds (C79_contracted_roundtrip, C79_contracted_contains, C79_contracted_interior). Not true: points very close to a border (C79_interior_fails), nodes of points near a border (C79_ancestor_fails), centres beyond the range (C79_far_fails). Subnormal numbers and overflow change none of this for cell widths from 2^-100 to 2^100 (C79_ieee_*)."
  },
  {
   "property": "C80",
   "status": "partial",
   "theorems": [
    "Wavemap.C80_contracted_read",
    "Wavemap.C80_contracted_add",
    "Wavemap.C80_contracted_transforms",
    "Wavemap.C80_chunked",
    "Wavemap.C80_wavelet_octree",
    "Wavemap.C80_drift_linear",
    "Wavemap.C80_hashed_wavelet_octree",
    "Wavemap.C80_order",
    "Wavemap.C80_thresholded",
    "Wavemap.C80_driftT_linear",
    "Wavemap.C80_hashed_blocks",
    "Wavemap.C80_hashed_blocks_monotone",
    "Wavemap.C80_order_fails",
    "Wavemap.C80_lost_updates_fails",
    "Wavemap.C80_untouched_fails",
    "Wavemap.C80_no_overflow",
    "Wavemap.C80_chunked_no_overflow",
    "Wavemap.C80_hashed_blocks_no_overflow",
    "Wavemap.C80_wavelet_octree_maintained",
    "Wavemap.C80_driftP_linear",
    "Wavemap.C80_pruned"
   ],
   "note": "The bounds are proved for reading and adding in wavelet octrees, hashed wavelet octrees and hashed blocks, and for all three wavelet maps with thresholding, pruning (also smart pruning) and clearing (C80_wavelet_octree_maintained, C80_pruned, C80_chunked). Fused multiply-adds change no result (C80_contracted_read, C80_contracted_add, C80_contracted_transforms). Not true without these allowances: C80_order_fails, C80_lost_updates_fails, C80_untouched_fails. Hashed wavelet octrees, chunked ones and hashed blocks do not overflow (C80_no_overflow, C80_chunked_no_overflow, C80_hashed_blocks_no_overflow). Overflow of the dense wavelet octree and subnormal numbers in the error bounds are not modelled."
  },
  {
   "property": "C81",
   "status": "partial",
   "theorems": [
    "Wavemap.C81_default_clears",
    "Wavemap.C81_default_appears",
    "Wavemap.C81_default_stuck",
    "Wavemap.C81_default_hidden_obstacle_fails",
    "Wavemap.C81_default_free_fails",
    "Wavemap.C81_hashed_clears",
    "Wavemap.C81_hashed_appears",
    "Wavemap.C81_hashed_hidden_free_fails",
    "Wavemap.C81_clears",
    "Wavemap.C81_appears",
    "Wavemap.C81_bounded",
    "Wavemap.C81_free",
    "Wavemap.C81_occupied",
    "Wavemap.C81_thresholded",
    "Wavemap.C81_fixed_resolution",
    "Wavemap.C81_unthresholded_fails",
    "Wavemap.C81_grazing_fails"
   ],
   "note": "Proved for hashed blocks with both fixed-resolution integrators, for hashed wavelet octrees after thresholding, and for the default map and the hashed wavelet octree with their multi-resolution integrators (C81_default_clears, C81_default_appears, C81_hashed_clears, C81_hashed_appears). Not true: wavelet maps without thresholding (C81_unthresholded_fails); points whose cell is also passed by several beams of the same scan (C81_grazing_fails), which SeesSurface excludes; with the default integrator, obstacles hidden in a node whose mean counts as free (C81_default_hidden_obstacle_fails, C81_default_stuck) and free space in blocks that were never allocated (C81_default_free_fails); with the hashed wavelet octree's integrator, free cells in a node whose mean is above the upper bound (C81_hashed_hidden_free_fails)."
  },
  {
   "property": "C82",
   "status": "partial",
   "theorems": [
    "Wavemap.C82_range",
    "Wavemap.C82_log_odds_round_trip",
    "Wavemap.C82_probability_round_trip",
    "Wavemap.C82_order",
    "Wavemap.C82_classify",
    "Wavemap.C82_prior",
    "Wavemap.C82_bayes",
    "Wavemap.C82_evidence",
    "Wavemap.C82_single_partial",
    "Wavemap.C82_single_classify_partial",
    "Wavemap.C82_single_log_odds",
    "Wavemap.C82_single_round_trip_fails",
    "Wavemap.C82_single_overflow_fails",
    "Wavemap.C82_single_classify_fails"
   ],
   "note": "Exact arithmetic: everything proved. Single precision: proved up to log odds 88 and for observed cells, and for the odds of every probability (C82_single_log_odds); not true: C82_single_round_trip_fails, C82_single_overflow_fails, C82_single_classify_fails. Underflow is not modelled."
  },
  {
   "property": "C83",
   "status": "partial",
   "theorems": [
    "Wavemap.C83_div_floor",
    "Wavemap.C83_div_ceil",
    "Wavemap.C83_remainder",
    "Wavemap.C83_mult",
    "Wavemap.C83_div_round_up",
    "Wavemap.C83_log2",
    "Wavemap.C83_log2_int",
    "Wavemap.C83_power_of_two",
    "Wavemap.C83_combinatorics",
    "Wavemap.C83_factorial_fits",
    "Wavemap.C83_bits",
    "Wavemap.C83_rotate_left",
    "Wavemap.C83_rotate_right",
    "Wavemap.C83_rotate_back",
    "Wavemap.C83_rotate_zero_fails",
    "Wavemap.C83_squeeze_in"
   ],
   "note": "Everything is proved except rotating by zero, which is undefined over the full width of a word (C83_rotate_zero_fails); nothing in the library does this."
  },
  {
   "property": "C84",
   "status": "proved",
   "theorems": [
    "Wavemap.C84_times",
    "Wavemap.C84_span",
    "Wavemap.C84_ram_found",
    "Wavemap.C84_ram_absent",
    "Wavemap.C84_ram_sound",
    "Wavemap.C84_ram_last_line_fails"
   ],
   "note": "Processor and wall clock times for all call sequences (C84_times, C84_span); memory use for all contents of the status file (C84_ram_found, C84_ram_absent, C84_ram_sound). A last line without a line break is ignored (C84_ram_last_line_fails)."
  },
  {
   "property": "C85",
   "status": "partial",
   "theorems": [
    "Wavemap.C85_drawn",
    "Wavemap.C85_buffers",
    "Wavemap.C85_box_partial",
    "Wavemap.C85_radius_partial",
    "Wavemap.C85_box_fails",
    "Wavemap.C85_radius_fails",
    "Wavemap.C85_cube"
   ],
   "note": "Drawing proved for all call sequences and numbers of cells (C85_drawn, C85_buffers) and the cube's triangles (C85_cube). Partial: the bounding box encloses the cells' centres only (C85_box_fails) and the bounding radius all cells only where coordinates are not negative (C85_radius_fails); C85_box_partial and C85_radius_partial say what holds."
  },
  {
   "property": "C86",
   "status": "partial",
   "theorems": [
    "Wavemap.C86_hash",
    "Wavemap.C86_names_partial",
    "Wavemap.C86_names_fails"
   ],
   "note": "Names differ for all blocks within 811 blocks of each other along each axis (C86_names_partial), and the bound is exact: C86_names_fails gives an offset at which all names collide. C86_hash says what the hash computes."
  },
  {
   "property": "C87",
   "status": "partial",
   "theorems": [
    "Wavemap.C87_smallest",
    "Wavemap.C87_roundtrip",
    "Wavemap.C87_smallest_partial",
    "Wavemap.C87_wide_enough_fails",
    "Wavemap.C87_box_fails",
    "Wavemap.C87_negative_fails",
    "Wavemap.C87_zero_fails"
   ],
   "note": "Exact arithmetic: smallest height proved. Single precision: heights convert to widths and back (C87_roundtrip), and the height is the smallest one up to a few units in the last place (C87_smallest_partial). Not true: nodes at least as wide as requested (C87_wide_enough_fails), widths of boxes (C87_box_fails), widths below a cell (C87_negative_fails) and zero (C87_zero_fails)."
  },
  {
   "property": "C88",
   "status": "partial",
   "theorems": [
    "Wavemap.C88_index_ray",
    "Wavemap.C88_point_ray_partial",
    "Wavemap.C88_overshoot_fails",
    "Wavemap.C88_beam_partial",
    "Wavemap.C88_missed_return_fails"
   ],
   "note": "Rays between cells: proved for up to 2800 cells along each axis (C88_index_ray). Rays between points and the updates along them: proved if the end point is further than the rounding error from the border of its cell (C88_point_ray_partial, C88_beam_partial); otherwise the ray can miss its end (C88_overshoot_fails) and the measured point is not marked (C88_missed_return_fails)."
  },
  {
   "property": "C89",
   "status": "partial",
   "theorems": [
    "Wavemap.C89_nearest",
    "Wavemap.C89_trilinear",
    "Wavemap.C89_between",
    "Wavemap.C89_weights_partial",
    "Wavemap.C89_check_fails",
    "Wavemap.C89_between_fails"
   ],
   "note": "The errors of nearest-neighbour and trilinear queries are bounded. The checks of debug builds do not always pass (C89_check_fails) and a value can be outside the range of the cells by a rounding error (C89_between_fails)."
  },
  {
   "property": "C90",
   "status": "partial",
   "theorems": [
    "Wavemap.C90_project",
    "Wavemap.C90_pixel",
    "Wavemap.C90_unproject",
    "Wavemap.C90_image_roundtrip",
    "Wavemap.C90_pixel_roundtrip",
    "Wavemap.C90_point_roundtrip",
    "Wavemap.C90_nearest",
    "Wavemap.C90_offset",
    "Wavemap.C90_grid_roundtrip",
    "Wavemap.C90_field_of_view",
    "Wavemap.C90_image_range_fails"
   ],
   "note": "All parts are proved but the last: the pinhole camera's image range is computed from members that are not initialised yet (C90_image_range_fails)."
  },
  {
   "property": "C91",
   "status": "proved",
   "theorems": [
    "Wavemap.C91_transform",
    "Wavemap.C91_inverse",
    "Wavemap.C91_inverse_transform"
   ],
   "note": "Proved for quaternions whose squared norm is within 1/100 (C91_transform) or 1/2000 (C91_inverse, C91_inverse_transform) of one; the constructors accept 1/10000. The result is compared with the pose of the exact model (C71). The fusing of multiplications and additions is not modelled."
  },
  {
   "property": "C92",
   "status": "proved",
   "theorems": [
    "Wavemap.C92_cumulative",
    "Wavemap.C92_ray",
    "Wavemap.C92_ray_error",
    "Wavemap.C92_ray_sign_lost",
    "Wavemap.C92_beam",
    "Wavemap.C92_beam_error"
   ],
   "note": "For weights at most one. The assumptions about std::log and std::sqrt are stated in IsLogSingle and IsSqrtSingle. The sign can be lost: C92_ray_sign_lost shows a cell in front of the surface that gets no update."
  },
  {
   "property": "C93",
   "status": "proved",
   "theorems": [
    "Wavemap.C93_cell",
    "Wavemap.C93_outside"
   ],
   "note": "For the pinhole camera and the continuous ray with the nearest pixel. The pose is the one from the map's to the camera's frame, as computed."
  },
  {
   "property": "C94",
   "status": "partial",
   "theorems": [
    "Wavemap.C94_atan2_partial",
    "Wavemap.C94_range",
    "Wavemap.C94_angles_partial",
    "Wavemap.C94_ouster_partial",
    "Wavemap.C94_axis",
    "Wavemap.C94_pixel_partial",
    "Wavemap.C94_stated_error_fails",
    "Wavemap.C94_negative_zero_fails"
   ],
   "note": "The error stated in the code is exceeded (C94_stated_error_fails); 2.8e-6 is proved instead. Negative zeros for x are excluded, for which the angle is wrong (C94_negative_zero_fails). On the vertical axis there is no azimuth (C94_axis)."
  },
  {
   "property": "C95",
   "status": "partial",
   "theorems": [
    "Wavemap.C95_cell_partial",
    "Wavemap.C95_outside",
    "Wavemap.C95_axis_fails"
   ],
   "note": "Missing: cells on the vertical axis, for which the code converts NaN to an index (C95_axis_fails), and cells whose first coordinate is a negative zero, for which the angle is wrong (C94_negative_zero_fails). C95_outside holds for all cells."
  },
  {
   "property": "C96",
   "status": "partial",
   "theorems": [
    "Wavemap.C96_ray",
    "Wavemap.C96_beam_partial",
    "Wavemap.C96_pixels",
    "Wavemap.C96_camera_distance",
    "Wavemap.C96_lidar_distance",
    "Wavemap.C96_centered",
    "Wavemap.C96_beam_nearest",
    "Wavemap.C96_beam_outside_fails"
   ],
   "note": "Missing: for the continuous beam a neighbour outside the image counts as a measurement of zero and can make a cell occupied (C96_beam_outside_fails); C96_beam_partial includes such neighbours in this way. The exact updates are taken at the rounded offsets, whose errors are those of C96_pixels, C96_camera_distance and C96_lidar_distance; the cosine of the elevation is a parameter."
  },
  {
   "property": "C97",
   "status": "partial",
   "theorems": [
    "Wavemap.C97_change",
    "Wavemap.C97_cleared_partial",
    "Wavemap.C97_free_partial",
    "Wavemap.C97_appears_partial",
    "Wavemap.C97_unseen",
    "Wavemap.C97_in_front",
    "Wavemap.C97_behind",
    "Wavemap.C97_large_bounds_fails"
   ],
   "note": "Proved if the rounding error of the largest value, (bound + update) / 2^24, is at most the update (hround), which holds for the default bounds and updates above 1e-6; otherwise a cell may never change (C97_large_bounds_fails). Continuous ray with the nearest pixel; std::log is assumed to meet IsLogSingle."
  },
  {
   "property": "C98",
   "status": "partial",
   "theorems": [
    "Wavemap.C98_change_partial",
    "Wavemap.C98_cleared_partial",
    "Wavemap.C98_free_partial",
    "Wavemap.C98_appears_partial",
    "Wavemap.C98_unseen",
    "Wavemap.C98_in_front",
    "Wavemap.C98_behind",
    "Wavemap.C98_axis_fails"
   ],
   "note": "Proved: every scan lowers or raises a cell that it sees by the exact update less a stated error, down to the minimum or up to the maximum; enough scans clear it; cells out of range keep their values exactly. Missing: cells of the box within range have to be off the vertical axis of the lidar, otherwise the update is undefined (C98_axis_fails), the sign of a zero x coordinate has to be positive (see C94), and bounds so large that an update is lost in rounding are excluded by a hypothesis (see C97_large_bounds_fails)."
  },
  {
   "property": "C99",
   "status": "partial",
   "theorems": [
    "Wavemap.C99_cell",
    "Wavemap.C99_outside",
    "Wavemap.C99_in_front",
    "Wavemap.C99_behind",
    "Wavemap.C99_change",
    "Wavemap.C99_cleared_partial",
    "Wavemap.C99_appears_partial",
    "Wavemap.C99_unseen"
   ],
   "note": "Proved: the change of a cell is the sum of the exact updates by four surrounding pixels up to a stated error; each image adds it once; images that see the cell as free or occupied drive it to the bounds; unseen cells keep their values. Missing: bounds so large that an update is lost in rounding are excluded by a hypothesis of the two theorems on sequences of images (see C97_large_bounds_fails)."
  },
  {
   "property": "C100",
   "status": "partial",
   "theorems": [
    "Wavemap.C100_cell_partial",
    "Wavemap.C100_outside",
    "Wavemap.C100_change_partial",
    "Wavemap.C100_cleared_partial",
    "Wavemap.C100_appears_partial",
    "Wavemap.C100_unseen",
    "Wavemap.C100_in_front",
    "Wavemap.C100_behind",
    "Wavemap.C100_axis_fails"
   ],
   "note": "Proved: the change of a cell is the sum of the exact updates by four pixels around its direction up to a stated error; each scan adds it once; scans that see the cell as free or occupied drive it to the bounds; cells outside the box or the range keep their values. Missing: cells of the box within range have to be off the vertical axis of the lidar, otherwise the update is undefined (C100_axis_fails), the sign of a zero x coordinate has to be positive (see C94), and bounds so large that an update is lost in rounding are excluded by a hypothesis (see C97_large_bounds_fails)."
  },
  {
   "property": "C101",
   "status": "partial",
   "theorems": [
    "Wavemap.C101_history_partial",
    "Wavemap.C101_sum_partial",
    "Wavemap.C101_order_partial",
    "Wavemap.C101_cleared_partial",
    "Wavemap.C101_appears_partial",
    "Wavemap.C101_moved_partial",
    "Wavemap.C101_order_fails"
   ],
   "note": "Proved: in every mixed history of images and scans, with thresholding and pruning in between, each measurement that sees a cell adds the exact update up to a stated error, once and within the bounds, and everything else leaves it unchanged (C101_history_partial); measurements that see it as free or occupied drive it to the minimum or maximum; an obstacle that appears and goes away is marked and cleared exactly; if no bound can be reached the value is the sum of the exact updates (C101_sum_partial) and the order changes it by two rounding errors per step at most (C101_order_partial). Not true: at the bounds the order matters (C101_order_fails). Missing: the conditions of C97 to C100 on usable measurements (cells on the vertical axis of a lidar, see C98_axis_fails) and on bounds (see C97_large_bounds_fails)."
  }
 ]
}