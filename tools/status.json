{
 "C01": {
  "status": "proved",
  "note": "Both encoder/decoder variants; the look-up-table variant disagrees with the pdep variant for negative 1D coordinates (negation theorem)."
 },
 "C02": {
  "status": "proved",
  "note": ""
 },
 "C03": {
  "status": "proved",
  "note": ""
 },
 "C04": {
  "status": "proved",
  "note": ""
 },
 "C05": {
  "status": "proved",
  "note": ""
 },
 "C06": {
  "status": "proved",
  "note": "Block size up to 2^30 cells per side."
 },
 "C07": {
  "status": "proved",
  "note": "Exact arithmetic; overflow of the cast to int excluded."
 },
 "C08": {
  "status": "proved",
  "note": ""
 },
 "C09": {
  "status": "proved",
  "note": ""
 },
 "C10": {
  "status": "proved",
  "note": "Exact arithmetic."
 },
 "C11": {
  "status": "proved",
  "note": "Exact arithmetic."
 },
 "C12": {
  "status": "partial",
  "note": "Proved for all histories without eraseNode on the root; C12_erase_root_erases_first_child proves that erasing the root instead erases its first child and reports success."
 },
 "C13": {
  "status": "proved",
  "note": ""
 },
 "C15": {
  "status": "proved",
  "note": "All block sizes up to 2^30 cells per side, all dimensions."
 },
 "C16": {
  "status": "proved",
  "note": "Exact arithmetic. set is not clamped and threshold is a no-op in the code."
 },
 "C17": {
  "status": "partial",
  "note": "Proved in full for add (cells and coarse nodes) and as exact table semantics for set; set does not overwrite in the code (C17_set_overwrites_fails). Tree height up to 20."
 },
 "C18": {
  "status": "partial",
  "note": "Proved over the whole signed index space for add, threshold, clear and node reads, and as exact table semantics for set; set does not overwrite in the code (C18_set_overwrites_fails). Tree height up to 20."
 },
 "C20": {
  "status": "partial",
  "note": "Proved in full for hashed blocks. The wavelet maps and the volumetric octree do not clamp on add (negation theorems); for the wavelet maps add followed by threshold is proved to give the clamped sum."
 },
 "C21": {
  "status": "proved",
  "note": "Dense and hashed wavelet octree, volumetric octree (bounds after prune/threshold, any prior writes). The leaf set is unchanged if the bounds are at least 1/1000 away from zero on both sides (otherwise a block clamped to an unobserved value counts as empty and is not enumerated)."
 },
 "C22": {
  "status": "partial",
  "note": "Lossless for hashed blocks (proved). For wavelet maps pruning is lossy (negation theorems); proved error bounds, idempotence, lossless case and frame."
 },
 "C23": {
  "status": "partial",
  "note": "Proved in full for hashed blocks, dense, hashed and chunked wavelet octree; empty maps/blocks are not enumerated, their cells are proved to read within 1/1000 of zero. Volumetric octree: proved except for a map collapsed to its root and writes into merged regions, where the code violates it (negation theorems)."
 },
 "C56": {
  "status": "partial",
  "note": "Proved in full for dense and hashed wavelet octree and hashed blocks. Volumetric octree: covering and tight bounds when the map is not collapsed to its root node; a collapsed map reports bounds in the wrong place (C56_volumetric_root_fails)."
 },
 "C32": {
  "status": "proved",
  "note": "all schedules, any number of clients, spurious wake-ups included; at least one worker for the destructor claim (with zero workers it fails, see the _fails theorem). Tasks are assumed to terminate and not to call wait_all themselves."
 },
 "C33": {
  "status": "proved",
  "note": "no lost wake-up invariants, deadlock freedom, and termination of every schedule of the pool's own steps (lexicographic measure)."
 },
 "C34": {
  "status": "proved",
  "note": "pool composed with block memory; tasks are arbitrary sequences of atomic accesses to their own block. Distinctness of the updated blocks is a hypothesis here, proved for the integrators with C41/C44."
 },
 "C45": {
  "status": "proved",
  "note": "Peeking an empty queue is a debug-only check in the code; the model returns none."
 },
 "C46": {
  "status": "proved",
  "note": "All insertion sequences with indices below the fixed width."
 },
 "C47": {
  "status": "proved",
  "note": "Exact rational coordinates, every dimension."
 },
 "C29": {
  "status": "proved",
  "note": "C29_empty_first_fails shows that min <= max is needed."
 },
 "C30": {
  "status": "partial",
  "note": "Rays between indices: fully proved. Rays between points: every cell through whose inside the ray goes is visited (C30_no_gaps); that the cells start at the first point's, end at one that has the second point in its closure, move by single steps without repetition and touch the ray is proved for all rays (C30_point_ray); that the last cell is the one the second point is assigned to unless the end point lies on the near face of its cell along one axis and on the far face along another, where C30_point_ray_fails shows the code ends at a different cell."
 },
 "C31": {
  "status": "partial",
  "note": "Preorder and breadth-first: all trees. Postorder: trees without empty children arrays; C31_postorder_fails shows the code skips nodes otherwise (reachable through eraseNode)."
 },
 "C57": {
  "status": "partial",
  "note": "Exact for trees without empty children arrays, lossless for all trees; C57_prune_fails shows that empty nodes can be left behind otherwise."
 },
 "C48": {
  "status": "proved",
  "note": "Cell adjacency and neighbourhoods in dimensions 1 to 3, node adjacency in every dimension."
 },
 "C27": {
  "status": "proved",
  "note": "All 8-bit masks and all rational log-odds values."
 },
 "C42": {
  "status": "partial",
  "note": "Update finite, never below free space, sign by side of surface, for all distances, images and coordinates, if scaling_free<1 and scaling_occupied<=1; accepted configs outside that fail (negations proved); four-neighbour beam treats out-of-image neighbours as range 0 (negation proved)"
 },
 "C58": {
  "status": "partial",
  "note": "Bound holds for the probability when scaling_free<=scaling_occupied; fails for the log-odds update it is used for (negation proved)"
 },
 "C43": {
  "status": "partial",
  "note": "Smallest return and its offset per pixel, order independence, for returns at or beyond min_range; a closer return overwrites a valid one and a range image's initial value leaks into the next cloud (negations proved)"
 },
 "C40": {
  "status": "partial",
  "note": "Bounds bracket every observed pixel and unobserved pixels are reported, for all images and all plain intervals; intervals through the seam need a power-of-two number of columns (C40_wrap_fails shows a 5-column image where the query is not defined)."
 },
 "C41": {
  "status": "partial",
  "note": "For both measurement models: cells declared fully unobserved contain only points with zero update, fully free cells only free-space updates, free-or-unobserved cells no positive update, and the intersector always answers. Partial: needs scaling factors <= 1, pixels not strictly between 0 and min_range, 6 sigma <= min_range, and boxes through the seam that start inside the image; each condition but the first has a _fails witness. Conservativeness of the projected box is C59."
 },
 "C59": {
  "status": "partial",
  "note": "Pinhole: round trip exact; boxes contain every point for cells not straddling the camera plane, depth intervals always; with C41 an end-to-end skip theorem. Spherical: azimuth interval conservative for every cell that does not meet the vertical axis, despite the approximated arc tangent and the jump at half a turn. Witnesses show the box is not conservative for pinhole cells straddling the camera plane, spherical elevation, and spherical cells on the vertical axis."
 },
 "C14": {
  "status": "partial",
  "note": "Data reads agree for every history of allocate/write/erase/clear, with an exact characterisation of existence and of getNodeOrAncestor; existence itself differs for in-chunk siblings (C14_existence_fails)."
 },
 "C19": {
  "status": "proved",
  "note": "Simulation of every operation incl. clear, prune and pruneSmart: same values for all cells and nodes, same blocks and bounds. C19_single_precision: also in single precision, where the values are exactly equal; C19_any_rounding: and with every other rounding that keeps zero, signs and what it has rounded, such as one with subnormal numbers or saturation. C19_leaf_lists_fails: leaf enumerations differ in granularity."
 },
 "C24": {
  "status": "partial",
  "note": "Full for histories without prune (C24_table_without_prune). With prune: exact for histories that only write to cells with their own node or value zero, and within tree_height*kEpsilon per prune. Writes into merged regions fail in the code (three negation theorems)."
 },
 "C35": {
  "status": "proved",
  "note": "round trip of configuration and of every node and cell value, for every well-formed float-valued octree and any bytes that follow; reachable maps are well-formed. Floats are exact binary32 rationals; NaN, infinities and the sign of zero are not modelled"
 },
 "C36": {
  "status": "partial",
  "note": "exact value of every cell after reloading, for plain and chunked maps (ReloadedValue); exact when no coarser node is saturated. Fails: an occupied cell in a region that is otherwise free is lost on saving (C36_saturated_parent_fails), the pruning delay is not stored (C36_config_fails), the needs-thresholding mark is not stored (C36_threshold_after_load_fails)"
 },
 "C37": {
  "status": "partial",
  "note": "proved for default value 0 and, for any default, for all cells of allocated blocks; the default value is not stored (C37_default_fails)"
 },
 "C38": {
  "status": "partial",
  "note": "reading always terminates; strict prefixes are never accepted; prefixes with a complete header, unknown formats and bad streams return false. Fails: every prefix of 4 to 8 bytes ends the process (C38_truncated_config_fails)"
 },
 "C60": {
  "status": "partial",
  "note": "success implies the file loads back; other files are untouched. Fails: an unsupported map type or a full disk destroys the previous file (C60_unsupported_map_fails, C60_disk_full_fails)"
 },
 "C25": {
  "status": "partial",
  "note": "Proved for the hashed wavelet octree below tree height 20, the chunked variant at every height, dense block hashes, spatial hashes and hashed octrees (getNode and getOrAllocateNode). Fails at tree height 20 (stack overflow); the octree accelerator's getNode returns an ancestor instead of null and its getOrAllocateNode ignores the default value."
 },
 "C61": {
  "status": "proved",
  "note": "Table semantics, nearest ancestor, leaf partition and the index decomposition for every history; the non-const overloads that do not compile are not modelled."
 },
 "C26": {
  "status": "partial",
  "note": "Proved for tree heights 1..19 and every history of updates (occupancy and occupancy+ESDF) and has/isFully/hasBlock queries: the region answers and the matching leaves equal those from classifying every cell of the last occupancy map. getValue, getValueOrAncestor and forEachLeaf are proved exact after one update of a new map, under any interleaving of all queries. Refuted: values after a second update (stale nodes), has after such a value query, cells of unallocated blocks are not reported as unobserved, hasNode is true for missing nodes, tree height 20 overruns the node stack."
 },
 "C28": {
  "status": "proved",
  "note": "Exact arithmetic. Range of the weights (the DCHECKs hold), value between the values of the cells within a cell width, tent-weight characterisation (hence continuity across cells), centre values, affine maps, nearest neighbour."
 },
 "C62": {
  "status": "proved",
  "note": "For every sequence of draws, after any history of updates and region queries (tree height 1..19). Hypothesis: cell indices of the sampled region fit in 32 bits and the box is not inverted."
 },
 "C49": {
  "status": "partial",
  "note": "Both generators: generation ends for every reachable map and every maximum distance (without out-of-range accesses and with the internal check satisfied), no stored distance exceeds the maximum or is zero, negative only if occupied, positive below the maximum only if free, unobserved cells keep the maximum; magnitudes never undercut the distance to a cell of the opposite class (exactly that distance for the full generator) and cells touching an obstacle get their exact distance. Violated part: occupied cells that propagation does not reach keep the positive maximum distance (C49_sign_fails, general: C49_quasi_deep_obstacle, C49_full_deep_obstacle). Exact real arithmetic; occupancy read directly instead of through the query accelerator."
 },
 "C50": {
  "status": "proved",
  "note": "Every setting of every config struct is characterised by the parameter map alone; equality of configs is member-wise. Ints are unbounded, floats exact."
 },
 "C51": {
  "status": "proved",
  "note": "All units and kinds; kPi is the single precision constant."
 },
 "C52": {
  "status": "proved",
  "note": "For every list of distinct names, and the 20 lists in the code are distinct."
 },
 "C63": {
  "status": "partial",
  "note": "Proved for all factories. Not met: constant_ray is a known type without a case, a default integrator type needs the entry integration_method, a bare type name makes no map, and the hashed wavelet map does not limit its tree height."
 },
 "C53": {
  "status": "proved",
  "note": "Registry refined to a table from names to integrators and a sequence of operations for every call sequence; runs execute the registered prefix in order and report whether all names were found."
 },
 "C54": {
  "status": "proved",
  "note": "Which calls execute is characterised for every non-decreasing clock; spacing and execution count follow. Stopwatch totals and last episode for every call sequence. With a clock that jumps backwards (simulated ROS time) the operations pause until the old time is reached again; that is outside the stated quantifier."
 },
 "C64": {
  "status": "proved",
  "note": "Plain and chunked hashed wavelet maps. Hashed blocks maps are not cropped at all (the code only warns); a failed position lookup still counts as a run."
 },
 "C55": {
  "status": "partial",
  "note": "Proved for buffers with strictly increasing stamps; the undistorter for two or more intervals and spans that the step size covers. Proved counterexamples: unstamped clouds and short clouds abort, a single interval divides by zero, equal stamps abort, a single pose reads out of bounds, the marker time uses the identity."
 },
 "C39": {
  "status": "partial",
  "note": "Proved for every history of writes, clears, thresholding, pruning and block erasure interleaved with incremental and full publications of any message size: after a publication the receiver has every block the sender has in common with it and every cell reads the value the sender's map has (after thresholding), except cells in larger nodes whose mean is saturated; whole maps of every supported type transfer for every previous state of the receiver except wavelet octrees with unchanged settings. Violations proved: stale children in wavelet octree receivers, erased blocks not announced, equal time stamps skipped, one element written past each node's array, saturated parents."
 },
 "C44": {
  "status": "partial",
  "note": "Proved for all three wavelet integrators, all measurements, histories and thread schedules: which cells change and by how much, which blocks are touched and marked, the node means stay consistent, and for the chunked integrator at cell resolution the bounds hold after thresholding. Partial because the code deviates in places, each with a proved witness: the wavelet octree integrator applies the root mean to each octant, blocks of height 1 of the chunked map are sampled below the cells, bounds are not restored after coarse updates, and the plain and chunked maps disagree."
 },
 "C65": {
  "status": "partial",
  "note": "Proved for every history: termination, exact change of every cell as seen by visiting the leaves (exact without pruning, within kEpsilon per level and pruning otherwise) and by reading cells after pruning. Reading a cell between an integration and the next pruning ignores updates of coarser or later finer nodes (C65_*_fails); a map that is only its root reports its leaf at the wrong place."
 },
 "C66": {
  "status": "partial",
  "note": "The change of every cell is proved for all maps, that the box covers the beams within the padding angle up to the return, and that it covers the pinhole camera's view. It does not cover the area of the pixels that a cloud's points fall into (C66_pixel_area_fails) nor the outer half of the first row and column of pixels (C66_frustum_fails), and cells outside an octree's bounds alias with cells inside (C66_outside_map_fails)."
 },
 "C67": {
  "status": "partial",
  "note": "The change of every cell is proved for all clouds and maps, and which cells a beam passes. Not true: a point on a cell edge may leave no occupied cell (C67_edge_fails), a point just beyond the maximum range is marked occupied (C67_truncated_fails), min_range is not used (C67_min_range_fails), integrating an empty cloud aborts the process (C67_empty_cloud_fails)."
 },
 "C68": {
  "status": "partial",
  "note": "Proved for every schedule: each accepted measurement is integrated at most once, in order, with the pose at its time, or given up only after the waiting time; waiting ones block later ones. Not true: a cloud whose pose is available is dropped when processed late, out-of-order stamps wrap and drop clouds, undistortion drops a cloud at once if its start pose is missing, reads past the last field, the Livox offset overflows, an unconvertible image blocks the queue (C68_*_fails)."
 },
 "C69": {
  "status": "partial",
  "note": "Proved for every history without load_map; saves, resets and later loads proved for every history. After a successful load measurements still go into the old map (C69_loaded_map_fails), and a file without a map takes the served map away (C69_failed_load_fails)."
 },
 "C70": {
  "status": "partial",
  "note": "Round trips, spherical range interval (exact and tight), azimuth intervals off the axis and the exact periodicity condition are proved. Fails: the Ouster range interval ignores the beam offset (C70_ouster_depth_fails, bounded by C70_ouster_depth_partial), and a full circle starting at -180 degrees without a repeated column is not treated as periodic (C70_periodic_fails)."
 },
 "C71": {
  "status": "partial",
  "note": "Everything is proved for unit quaternions, and that accepted ones never abort. Not true or only bounded: an accepted quaternion of norm other than one scales distances by up to 1/2000 and its inverse pose and inverse matrix disagree (C71_accepted_inverse_fails); clouds without points abort (C71_empty_cloud_fails); exponentials of short rotation vectors are not unit (C71_exp_fails); the logarithm of half turns depends on the sign of the quaternion (C71_log_negation_fails)."
 },
 "C72": {
  "status": "partial",
  "note": "Proved for all reachable states of the four map types that the pipeline updates and thresholds of at least 1/1000 (the default): exactly the obstacles, each once; and that incremental clouds contain all obstacles if nothing is pruned (C72_incremental), or up to the pruning error. Not true: smaller thresholds (C72_threshold_fails), collapsed volumetric octrees (C72_volumetric_fails), cells lifted by pruning (C72_pruned_fails), retraction of removed obstacles (C72_removed_fails), updates at the very time of a publication (C72_same_time_fails)."
 },
 "C73": {
  "status": "partial",
  "note": "Proved for hashed wavelet octrees of one cell width and tree height: band mode after every history without a reset (C73_band_partial), both modes after a redraw (C73_redrawn_partial), sizes of cubes (C73_view_partial), that the queue is emptied (C73_finishes), and all of it without failing frames after hiding and showing the voxels (C73_shown_again_partial). For maps from servers the assumptions on the maps are proved (C73_served, C73_served_band_partial, C73_served_again_partial). Not true: see the C73_*_fails theorems."
 },
 "C74": {
  "status": "partial",
  "note": "Proved for all histories of messages from servers whose maps share a cell width and a height (C74_served_partial), and for arbitrary messages and files under the same conditions (C74_shown_partial); after any history switching the slice off and on repairs it (C74_redrawn), nothing is drawn while it is off (C74_hidden) and the opacity is right (C74_opacity). Not true: maps of different heights or resolutions, resets, unknown frames, rejected and malformed messages (the C74_*_fails theorems). Wavelet octree and chunked servers only in C74_shown_partial."
 },
 "C75": {
  "status": "partial",
  "note": "Everything is proved; for the slice display with maps from servers (C75_slice_partial). Not true: equal thresholds (C75_equal_thresholds_fails); with default thresholds raw values are indistinguishable (C75_default_thresholds_fails). Overflow of the exponential in floats is not modelled."
 },
 "C76": {
  "status": "partial",
  "note": "ROS: proved in full. Python: proved for texts without NUL characters (C76_nul_fails). Values of unsupported types are ignored for all settings but lists of names (C76_unsupported_list_fails). Floats are exact rationals."
 },
 "C77": {
  "status": "partial",
  "note": "Proved for every reachable chunked map, and for hashed wavelet octrees below tree height 20, where the batch queries access an array out of bounds (C77_tallest_fails)."
 },
 "C78": {
  "status": "partial",
  "note": "Order, delivery, transforms, clock and interruption are proved for all recordings; completeness if the recording goes on after the last measurement (C78_complete_partial). Not true: measurements at the end are left in the queue (C78_last_fails), further inputs on a topic get nothing (C78_shared_topic_fails), relative topic names match nothing (C78_relative_topic_fails), unexpected message types crash (C78_type_fails)."
 },
 "C79": {
  "status": "partial",
  "note": "Round trip, nearest cell, interior and the corners of cells and nodes are proved for all cell widths within the stated range, also with fused multiply-adds (C79_contracted_roundtrip, C79_contracted_contains, C79_contracted_interior). Not true: points very close to a border (C79_interior_fails), nodes of points near a border (C79_ancestor_fails), centres beyond the range (C79_far_fails). Subnormal numbers and overflow change none of this for cell widths from 2^-100 to 2^100 (C79_ieee_*)."
 },
 "C80": {
  "status": "partial",
  "note": "The bounds are proved for reading and adding in wavelet octrees, hashed wavelet octrees and hashed blocks, and for all three wavelet maps with thresholding, pruning (also smart pruning) and clearing (C80_wavelet_octree_maintained, C80_pruned, C80_chunked). Fused multiply-adds change no result (C80_contracted_read, C80_contracted_add, C80_contracted_transforms). Not true without these allowances: C80_order_fails, C80_lost_updates_fails, C80_untouched_fails. Hashed wavelet octrees, chunked ones and hashed blocks do not overflow (C80_no_overflow, C80_chunked_no_overflow, C80_hashed_blocks_no_overflow). Overflow of the dense wavelet octree and subnormal numbers in the error bounds are not modelled."
 },
 "C81": {
  "status": "partial",
  "note": "Proved for hashed blocks with both fixed-resolution integrators, for hashed wavelet octrees after thresholding, and for the default map and the hashed wavelet octree with their multi-resolution integrators (C81_default_clears, C81_default_appears, C81_hashed_clears, C81_hashed_appears). Not true: wavelet maps without thresholding (C81_unthresholded_fails); points whose cell is also passed by several beams of the same scan (C81_grazing_fails), which SeesSurface excludes; with the default integrator, obstacles hidden in a node whose mean counts as free (C81_default_hidden_obstacle_fails, C81_default_stuck) and free space in blocks that were never allocated (C81_default_free_fails); with the hashed wavelet octree's integrator, free cells in a node whose mean is above the upper bound (C81_hashed_hidden_free_fails)."
 },
 "C82": {
  "status": "partial",
  "note": "Exact arithmetic: everything proved. Single precision: proved up to log odds 88 and for observed cells, and for the odds of every probability (C82_single_log_odds); not true: C82_single_round_trip_fails, C82_single_overflow_fails, C82_single_classify_fails. Underflow is not modelled."
 },
 "C83": {
  "status": "partial",
  "note": "Everything is proved except rotating by zero, which is undefined over the full width of a word (C83_rotate_zero_fails); nothing in the library does this."
 },
 "C84": {
  "status": "proved",
  "note": "Processor and wall clock times for all call sequences (C84_times, C84_span); memory use for all contents of the status file (C84_ram_found, C84_ram_absent, C84_ram_sound). A last line without a line break is ignored (C84_ram_last_line_fails)."
 },
 "C85": {
  "status": "partial",
  "note": "Drawing proved for all call sequences and numbers of cells (C85_drawn, C85_buffers) and the cube's triangles (C85_cube). Partial: the bounding box encloses the cells' centres only (C85_box_fails) and the bounding radius all cells only where coordinates are not negative (C85_radius_fails); C85_box_partial and C85_radius_partial say what holds."
 },
 "C86": {
  "status": "partial",
  "note": "Names differ for all blocks within 811 blocks of each other along each axis (C86_names_partial), and the bound is exact: C86_names_fails gives an offset at which all names collide. C86_hash says what the hash computes."
 },
 "C87": {
  "status": "partial",
  "note": "Exact arithmetic: smallest height proved. Single precision: heights convert to widths and back (C87_roundtrip), and the height is the smallest one up to a few units in the last place (C87_smallest_partial). Not true: nodes at least as wide as requested (C87_wide_enough_fails), widths of boxes (C87_box_fails), widths below a cell (C87_negative_fails) and zero (C87_zero_fails)."
 },
 "C88": {
  "status": "partial",
  "note": "Rays between cells: proved for up to 2800 cells along each axis (C88_index_ray). Rays between points and the updates along them: proved if the end point is further than the rounding error from the border of its cell (C88_point_ray_partial, C88_beam_partial); otherwise the ray can miss its end (C88_overshoot_fails) and the measured point is not marked (C88_missed_return_fails)."
 },
 "C89": {
  "status": "partial",
  "note": "The errors of nearest-neighbour and trilinear queries are bounded. The checks of debug builds do not always pass (C89_check_fails) and a value can be outside the range of the cells by a rounding error (C89_between_fails)."
 },
 "C90": {
  "status": "partial",
  "note": "All parts are proved but the last: the pinhole camera's image range is computed from members that are not initialised yet (C90_image_range_fails)."
 },
 "C91": {
  "status": "proved",
  "note": "Proved for quaternions whose squared norm is within 1/100 (C91_transform) or 1/2000 (C91_inverse, C91_inverse_transform) of one; the constructors accept 1/10000. The result is compared with the pose of the exact model (C71). The fusing of multiplications and additions is not modelled."
 },
 "C92": {
  "status": "proved",
  "note": "For weights at most one. The assumptions about std::log and std::sqrt are stated in IsLogSingle and IsSqrtSingle. The sign can be lost: C92_ray_sign_lost shows a cell in front of the surface that gets no update."
 },
 "C93": {
  "status": "proved",
  "note": "For the pinhole camera and the continuous ray with the nearest pixel. The pose is the one from the map's to the camera's frame, as computed."
 },
 "C94": {
  "status": "partial",
  "note": "The error stated in the code is exceeded (C94_stated_error_fails); 2.8e-6 is proved instead. Negative zeros for x are excluded, for which the angle is wrong (C94_negative_zero_fails). On the vertical axis there is no azimuth (C94_axis)."
 },
 "C95": {
  "status": "partial",
  "note": "Missing: cells on the vertical axis, for which the code converts NaN to an index (C95_axis_fails), and cells whose first coordinate is a negative zero, for which the angle is wrong (C94_negative_zero_fails). C95_outside holds for all cells."
 },
 "C96": {
  "status": "partial",
  "note": "Missing: for the continuous beam a neighbour outside the image counts as a measurement of zero and can make a cell occupied (C96_beam_outside_fails); C96_beam_partial includes such neighbours in this way. The exact updates are taken at the rounded offsets, whose errors are those of C96_pixels, C96_camera_distance and C96_lidar_distance; the cosine of the elevation is a parameter."
 },
 "C97": {
  "status": "partial",
  "note": "Proved if the rounding error of the largest value, (bound + update) / 2^24, is at most the update (hround), which holds for the default bounds and updates above 1e-6; otherwise a cell may never change (C97_large_bounds_fails). Continuous ray with the nearest pixel; std::log is assumed to meet IsLogSingle."
 },
 "C98": {
  "status": "partial",
  "note": "Proved: every scan lowers or raises a cell that it sees by the exact update less a stated error, down to the minimum or up to the maximum; enough scans clear it; cells out of range keep their values exactly. Missing: cells of the box within range have to be off the vertical axis of the lidar, otherwise the update is undefined (C98_axis_fails), the sign of a zero x coordinate has to be positive (see C94), and bounds so large that an update is lost in rounding are excluded by a hypothesis (see C97_large_bounds_fails)."
 },
 "C99": {
  "status": "partial",
  "note": "Proved: the change of a cell is the sum of the exact updates by four surrounding pixels up to a stated error; each image adds it once; images that see the cell as free or occupied drive it to the bounds; unseen cells keep their values. Missing: bounds so large that an update is lost in rounding are excluded by a hypothesis of the two theorems on sequences of images (see C97_large_bounds_fails)."
 },
 "C100": {
  "status": "partial",
  "note": "Proved: the change of a cell is the sum of the exact updates by four pixels around its direction up to a stated error; each scan adds it once; scans that see the cell as free or occupied drive it to the bounds; cells outside the box or the range keep their values. Missing: cells of the box within range have to be off the vertical axis of the lidar, otherwise the update is undefined (C100_axis_fails), the sign of a zero x coordinate has to be positive (see C94), and bounds so large that an update is lost in rounding are excluded by a hypothesis (see C97_large_bounds_fails)."
 },
 "C101": {
  "status": "partial",
  "note": "Proved: in every mixed history of images and scans, with thresholding and pruning in between, each measurement that sees a cell adds the exact update up to a stated error, once and within the bounds, and everything else leaves it unchanged (C101_history_partial); measurements that see it as free or occupied drive it to the minimum or maximum; an obstacle that appears and goes away is marked and cleared exactly; if no bound can be reached the value is the sum of the exact updates (C101_sum_partial) and the order changes it by two rounding errors per step at most (C101_order_partial). Not true: at the bounds the order matters (C101_order_fails). Missing: the conditions of C97 to C100 on usable measurements (cells on the vertical axis of a lidar, see C98_axis_fails) and on bounds (see C97_large_bounds_fails)."
 }
}