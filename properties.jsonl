{"id": "C01", "title": "Morton index round trip", "statement": "Converting any grid index whose coordinates are within the supported range to a Morton index and back returns the same index; distinct indices get distinct Morton indices; and the look-up-table implementation and the bit-deposit (pdep) implementation return the same Morton index for every 32-bit input.", "quantifier": "all dimensions 1..3, all in-range coordinates (2^20 per axis in 3D, 2^31 otherwise); for the LUT/pdep agreement all 32-bit signed coordinates", "why_tests_cant": "the input space has 2^60 (3D) points and the two implementations are selected by compile-time CPU flags, so no single test binary ever compares them", "anchors": ["library/cpp/include/wavemap/core/utils/bits/morton_encoding.h: encode, decode, MortonByteLut", "library/cpp/include/wavemap/core/indexing/index_conversions.h: indexToMorton, mortonToIndex", "library/cpp/include/wavemap/core/utils/bits/bit_operations.h: expand, compress, repeat_block"]}
{"id": "C02", "title": "Parent/child index algebra", "statement": "For every node index and every child number, the child's parent is the node, the child's relative child number is the number it was created with, distinct child numbers give distinct children, every node at height < its tree's height is the child of its parent given by its own relative child number, and going up several levels at once equals going up one level at a time. Holds for negative positions too.", "quantifier": "all node indices (any integer position, any height), all child numbers, all target heights", "why_tests_cant": "the position space is infinite and includes negative coordinates, where rounding direction matters", "anchors": ["library/cpp/include/wavemap/core/indexing/ndtree_index.h: NdtreeIndex", "library/cpp/include/wavemap/core/indexing/impl/ndtree_index_inl.h: computeParentIndex, computeChildIndex, computeRelativeChildIndex"]}
{"id": "C03", "title": "Node regions tile space", "statement": "The cells between a node's min-corner index and max-corner index are exactly the cells whose ancestor at the node's height is that node; a node's region is the disjoint union of its children's regions; and two nodes at the same height overlap only if they are equal.", "quantifier": "all node indices, all cell indices, all heights, all dimensions", "why_tests_cant": "infinitely many nodes and cells, negative positions included", "anchors": ["library/cpp/include/wavemap/core/indexing/index_conversions.h: nodeIndexToMinCornerIndex, nodeIndexToMaxCornerIndex, indexAndHeightToNodeIndex", "library/cpp/include/wavemap/core/indexing/impl/ndtree_index_inl.h: computeChildIndex"]}
{"id": "C04", "title": "Last common ancestor height", "statement": "The height reported as the last common ancestor of two nodes given by their Morton indices is the lowest height, not below either node, at which both have the same ancestor.", "quantifier": "all pairs of Morton indices and heights, all dimensions", "why_tests_cant": "pairs of 64-bit Morton indices cannot be enumerated; this number decides which cached ancestors the query accelerator may reuse", "anchors": ["library/cpp/include/wavemap/core/indexing/impl/ndtree_index_inl.h: computeLastCommonAncestorHeight"]}
{"id": "C05", "title": "Linear (dense block) index is a bijection", "statement": "Within a dense block, converting a cell index to a linear index and back is the identity in both directions, the linear index is always smaller than the number of cells in the block, and distinct cells get distinct linear indices.", "quantifier": "all cells-per-side, all dimensions, all in-block cells and all valid linear indices", "why_tests_cant": "the claim is for every template instantiation (side length and dimension), of which a test binary contains a few", "anchors": ["library/cpp/include/wavemap/core/indexing/index_conversions.h: indexToLinearIndex, linearIndexToIndex", "library/cpp/include/wavemap/core/utils/math/int_math.h: pow_sequence"]}
{"id": "C06", "title": "Block / in-block cell decomposition", "statement": "Every global cell index splits into exactly one (block index, in-block cell index) pair with the in-block index inside the block, and recombining the pair gives back the global index, also for negative indices.", "quantifier": "all integer cell indices, all power-of-two block sizes", "why_tests_cant": "negative coordinates and every block size; a wrong rounding direction only shows up for some residues", "anchors": ["library/cpp/include/wavemap/core/data_structure/impl/dense_block_hash_inl.h: indexToBlockIndex, indexToCellIndex, cellAndBlockIndexToIndex", "library/cpp/include/wavemap/core/map/impl/hashed_wavelet_octree_inl.h: indexToBlockIndex, indexToCellIndex"]}
{"id": "C07", "title": "Point-to-cell conversion", "statement": "The cell assigned to a point contains the point (closed cell), the centre of a cell is assigned to that cell, points strictly inside a cell are assigned to it at every resolution, and the floor and ceil variants bracket the nearest variant and differ by at most one.", "quantifier": "all points, all positive cell widths, all indices and heights", "why_tests_cant": "points form a continuum and the behaviour on cell boundaries depends on the sign of the coordinate", "anchors": ["library/cpp/include/wavemap/core/indexing/index_conversions.h: pointToNearestIndex, pointToFloorIndex, pointToCeilIndex, indexToCenterPoint, pointToNodeIndex, nodeIndexToCenterPoint"]}
{"id": "C08", "title": "Tree traversal offsets address a chunk without collisions", "statement": "Within a subtree of a given height, the level-order offset computed from a Morton index maps distinct nodes to distinct slots, keeps every slot below the number of nodes of a perfect tree of that height, and every slot is used by some node.", "quantifier": "all subtree heights, all nodes of the subtree, all dimensions", "why_tests_cant": "number of nodes grows as 8^height; an off-by-one would silently alias two nodes' data", "anchors": ["library/cpp/include/wavemap/core/indexing/impl/ndtree_index_inl.h: computeTreeTraversalDistance, computeLevelTraversalDistance", "library/cpp/include/wavemap/core/utils/math/tree_math.h: num_total_nodes_fast"]}
{"id": "C09", "title": "Perfect tree node counts", "statement": "The closed-form node counts are right: the total node count equals the sum over levels of (2^dim)^level, the fast shift-based variant returns the same number for every supported height, and inner plus leaf nodes add up to the total.", "quantifier": "all dimensions 1..3 and all supported heights (and, for the closed form, every height)", "why_tests_cant": "the claim is for all heights and dimensions and justifies buffer sizes", "anchors": ["library/cpp/include/wavemap/core/utils/math/tree_math.h: num_total_nodes, num_total_nodes_fast, num_inner_nodes, num_leaf_nodes"]}
{"id": "C10", "title": "Haar transform perfect reconstruction", "statement": "In exact arithmetic, compressing 2^dim child values into a scale and details and decompressing returns the same values, and decompressing any coefficients and compressing returns the same coefficients; the lifted and the parallel implementations compute the same coefficients; the scale is the mean of the children.", "quantifier": "all child values and all coefficients (exact numbers), dimensions 1..3", "why_tests_cant": "values are a continuum; tests compare a few random vectors with a tolerance", "anchors": ["library/cpp/include/wavemap/core/map/cell_types/impl/haar_transform_inl.h: ForwardLifted, ForwardParallel, BackwardLifted, BackwardParallel"]}
{"id": "C11", "title": "Single-child Haar transforms agree with the full ones", "statement": "Decompressing a single child gives the same value as decompressing all children and picking that one, and compressing the update of a single child gives the same coefficients as compressing the vector that is zero everywhere else.", "quantifier": "all coefficients, all child numbers, dimensions 1..3", "why_tests_cant": "continuum of values; the single-child versions are separate hand-written sign computations", "anchors": ["library/cpp/include/wavemap/core/map/cell_types/impl/haar_transform_inl.h: ForwardSingleChild, BackwardSingleChild"]}
{"id": "C12", "title": "Octree container behaves like a map from node indices to data", "statement": "After any sequence of allocate, write and erase operations on an octree, reading a node returns the last data written to it since it was last (re)allocated, null exactly for nodes that are not allocated, allocating a node allocates precisely its ancestors in addition, and erasing a node removes precisely it and its descendants.", "quantifier": "all operation sequences, all node indices, all tree heights", "why_tests_cant": "histories are unbounded", "anchors": ["library/cpp/include/wavemap/core/data_structure/ndtree/impl/ndtree_inl.h: getNode, getOrAllocateNode, eraseNode", "library/cpp/include/wavemap/core/data_structure/ndtree/impl/ndtree_node_inl.h: getChild, getOrAllocateChild, eraseChild"]}
{"id": "C13", "title": "getNodeOrAncestor returns the deepest allocated ancestor", "statement": "Looking up a node or its ancestor returns the node itself when it is allocated and otherwise the allocated ancestor of greatest depth, together with that ancestor's height.", "quantifier": "all trees, all node indices", "why_tests_cant": "all tree shapes", "anchors": ["library/cpp/include/wavemap/core/data_structure/ndtree/impl/ndtree_inl.h: getNodeOrAncestor"]}
{"id": "C14", "title": "Chunked octree is observationally equal to the plain octree", "statement": "Running the same sequence of allocate, write, erase and read operations on a chunked octree and on a plain octree gives the same read results.", "quantifier": "all operation sequences, all node indices, all chunk heights, all chunked tree heights", "why_tests_cant": "unbounded histories, and bugs only appear at particular positions inside a chunk", "anchors": ["library/cpp/include/wavemap/core/data_structure/chunked_ndtree/impl/chunked_ndtree_inl.h", "library/cpp/include/wavemap/core/data_structure/chunked_ndtree/impl/chunked_ndtree_node_address_inl.h: getChild, getOrAllocateChild, eraseChild, computeRelativeNodeIndex", "library/cpp/include/wavemap/core/data_structure/chunked_ndtree/impl/chunked_ndtree_chunk_inl.h"]}
{"id": "C15", "title": "Dense block hash behaves like a total function with a default", "statement": "After any sequence of writes, allocations and block erasures, reading a cell returns the last value written to it since its block was last created, and the default value if there is none; writing one cell never changes another cell's value.", "quantifier": "all operation sequences, all cell indices, all default values", "why_tests_cant": "unbounded histories over an infinite index space", "anchors": ["library/cpp/include/wavemap/core/data_structure/impl/dense_block_hash_inl.h: getValue, getOrAllocateValue, getValueOrDefault", "library/cpp/include/wavemap/core/data_structure/impl/spatial_hash_inl.h", "library/cpp/include/wavemap/core/data_structure/dense_grid.h"]}
{"id": "C16", "title": "HashedBlocks occupancy map behaves like a map from cells to log-odds", "statement": "After any sequence of set, add and prune operations, the value of a cell is what a plain table updated by the same operations would hold: set overwrites, add adds and clamps to the configured bounds, prune changes nothing, and unwritten cells read as the default value.", "quantifier": "all operation sequences, all cell indices, all configurations", "why_tests_cant": "unbounded histories", "anchors": ["library/cpp/include/wavemap/core/map/impl/hashed_blocks_inl.h: getCellValue, setCellValue, addToCellValue", "library/cpp/src/core/map/hashed_blocks.cc: prune", "library/cpp/include/wavemap/core/map/map_base.h: clamp, clampedAdd"]}
{"id": "C17", "title": "Wavelet octree occupancy map behaves like a map from cells to log-odds", "statement": "After any sequence of set and add operations on cells, reading a cell returns what a plain table updated by the same operations would hold: writing one cell changes that cell only. Also, writing a node at a coarser level changes the values inside that node and no value outside it.", "quantifier": "all operation sequences, all cell indices inside the tree, all tree heights (exact arithmetic)", "why_tests_cant": "unbounded histories; values are stored only implicitly as wavelet coefficients spread over all ancestors", "anchors": ["library/cpp/include/wavemap/core/map/impl/wavelet_octree_inl.h: getCellValue, setCellValue, addToCellValue"]}
{"id": "C18", "title": "Hashed wavelet octree behaves like a map from cells to log-odds", "statement": "Same claim for the hashed wavelet octree, over the whole unbounded index space: after any sequence of set and add operations on cells, each cell holds what a plain table would hold, unwritten cells read as zero, and blocks do not affect each other.", "quantifier": "all operation sequences, all cell indices, all tree heights (exact arithmetic)", "why_tests_cant": "unbounded histories over an infinite index space", "anchors": ["library/cpp/include/wavemap/core/map/impl/hashed_wavelet_octree_inl.h: getCellValue, setCellValue, addToCellValue", "library/cpp/src/core/map/hashed_wavelet_octree_block.cc: setCellValue, addToCellValue"]}
{"id": "C19", "title": "Chunked and plain hashed wavelet octrees agree", "statement": "The hashed chunked wavelet octree and the hashed wavelet octree return the same cell values after the same sequence of set, add and threshold operations.", "quantifier": "all operation sequences, all cell indices, all tree heights supported by both", "why_tests_cant": "unbounded histories on two independently written data structures", "anchors": ["library/cpp/include/wavemap/core/map/impl/hashed_chunked_wavelet_octree_inl.h", "library/cpp/src/core/map/hashed_chunked_wavelet_octree_block.cc", "library/cpp/src/core/map/hashed_wavelet_octree_block.cc"]}
{"id": "C20", "title": "addToCellValue saturates", "statement": "After adding any update to a cell, its value equals the clamped sum, so it lies within [min_log_odds, max_log_odds] whatever its value was before; repeated adds never leave the bounds, and once an update was applied the cell can always be moved back by opposite updates within a bounded number of steps.", "quantifier": "all updates, all previous values, all valid bounds, all sequences of adds", "why_tests_cant": "continuum of values and unbounded histories", "anchors": ["library/cpp/include/wavemap/core/map/map_base.h: clampedAdd", "library/cpp/include/wavemap/core/map/impl/hashed_blocks_inl.h: addToCellValue", "library/cpp/include/wavemap/core/map/impl/wavelet_octree_inl.h: addToCellValue"]}
{"id": "C21", "title": "Thresholding clamps every leaf and nothing else", "statement": "After thresholding a wavelet map, every leaf value equals the previous leaf value clamped to the configured bounds; leaf values already in bounds are unchanged; thresholding twice is the same as once; the set of leaves does not change.", "quantifier": "all maps, all cells, all valid bounds (exact arithmetic)", "why_tests_cant": "all map states; the implementation rewrites every coefficient bottom-up", "anchors": ["library/cpp/src/core/map/wavelet_octree.cc: recursiveThreshold", "library/cpp/src/core/map/hashed_wavelet_octree_block.cc: threshold, recursiveThreshold", "library/cpp/src/core/map/hashed_chunked_wavelet_octree_block.cc: recursiveThreshold"]}
{"id": "C22", "title": "Pruning is lossless", "statement": "Pruning a map does not change the value returned for any cell (documented on the map interface as lossless).", "quantifier": "all maps, all cells", "why_tests_cant": "all map states; the code prunes nodes whose coefficients are below a non-zero threshold", "anchors": ["library/cpp/include/wavemap/core/map/map_base.h: prune", "library/cpp/src/core/map/wavelet_octree.cc: recursivePrune", "library/cpp/src/core/map/hashed_wavelet_octree_block.cc: recursivePrune", "library/cpp/src/core/map/hashed_wavelet_octree.cc: prune, pruneSmart"]}
{"id": "C23", "title": "Leaf enumeration partitions the map and matches point queries", "statement": "Visiting all leaves of a map reports pairwise disjoint nodes that together cover every cell of every allocated block, and the value reported for a leaf equals the value a point query returns for each cell in it.", "quantifier": "all maps, all cells", "why_tests_cant": "all map states; enumeration and point queries are separate tree walks", "anchors": ["library/cpp/src/core/map/hashed_wavelet_octree_block.cc: forEachLeaf", "library/cpp/src/core/map/wavelet_octree.cc: forEachLeaf", "library/cpp/src/core/map/volumetric_octree.cc: forEachLeaf", "library/cpp/src/core/map/hashed_blocks.cc: forEachLeaf"]}
{"id": "C24", "title": "Volumetric octree behaves like a map from cells to log-odds, also after pruning", "statement": "After any sequence of set, add and prune operations on a volumetric octree, reading a cell returns what a plain table updated by the same operations would hold.", "quantifier": "all operation sequences, all cells, all tree heights", "why_tests_cant": "unbounded histories; interplay of prune with later writes", "anchors": ["library/cpp/include/wavemap/core/map/impl/volumetric_octree_inl.h: getCellValue, setCellValue, addToCellValue", "library/cpp/src/core/map/volumetric_octree.cc: prune"]}
{"id": "C25", "title": "Query accelerator returns exactly what the map returns", "statement": "As long as the map is not modified, every answer of the query accelerator equals the answer of the map queried directly, whatever sequence of queries was issued before; accessing its internal stacks never goes out of bounds for any accepted map configuration.", "quantifier": "all maps, all query sequences, all cells, all tree heights", "why_tests_cant": "the cached ancestor stack makes each answer depend on the previous query; histories are unbounded", "anchors": ["library/cpp/src/core/utils/query/query_accelerator.cc: getCellValue", "library/cpp/include/wavemap/core/utils/query/query_accelerator.h", "library/cpp/include/wavemap/core/utils/query/impl/query_accelerator_inl.h"]}
{"id": "C26", "title": "Classified map answers agree with the occupancy map", "statement": "After an update from an occupancy map, asking whether a region contains (or consists fully of) a given occupancy class returns the answer obtained by classifying every cell of the region, for every query order; this remains true after further updates from the changed occupancy map.", "quantifier": "all occupancy maps and sequences of updates, all regions, all occupancy classes, all query orders", "why_tests_cant": "all map histories and query histories; stale nodes from earlier updates only matter for particular histories", "anchors": ["library/cpp/src/core/utils/query/classified_map.cc: update, recursiveClassifier, has, isFully, getValueOrAncestor, forEachLeafMatching", "library/cpp/include/wavemap/core/utils/query/impl/classified_map_inl.h"]}
{"id": "C27", "title": "Occupancy class masks are a correct set algebra", "statement": "Each occupancy type's mask is the set of classes it admits; every log-odds value falls in exactly one of free, occupied and unobserved; 'has' is true iff some class in the region is admitted and 'isFully' iff all are; 'observed' is the complement of 'unobserved'.", "quantifier": "all log-odds values, all thresholds, all region masks, all occupancy types", "why_tests_cant": "continuum of values; all masks", "anchors": ["library/cpp/include/wavemap/core/utils/query/impl/occupancy_classifier_inl.h", "library/cpp/include/wavemap/core/utils/query/impl/occupancy_inl.h", "library/cpp/include/wavemap/core/utils/query/occupancy.h"]}
{"id": "C28", "title": "Interpolated queries stay within the surrounding cells' values", "statement": "Trilinear interpolation returns a value between the smallest and largest of the eight neighbouring cells, reproduces a cell's value at the cell's centre, and reproduces any map that is affine in position exactly.", "quantifier": "all maps, all query points, all cell widths (exact arithmetic)", "why_tests_cant": "continuum of query points", "anchors": ["library/cpp/include/wavemap/core/utils/query/impl/map_interpolator_inl.h: trilinear, nearestNeighbor"]}
{"id": "C29", "title": "Grid iteration visits each index of the box exactly once", "statement": "Iterating over a grid given by min and max index visits every index in the closed box exactly once in lexicographic order and no other index, and terminates.", "quantifier": "all boxes with min <= max, all dimensions", "why_tests_cant": "boxes of every size and dimension", "anchors": ["library/cpp/include/wavemap/core/utils/iterate/grid_iterator.h: Grid"]}
{"id": "C30", "title": "Ray iteration visits a connected chain of cells from start to end", "statement": "Iterating over the cells along a ray starts at the cell of the start point, ends at the cell of the end point, moves by one step along one axis each time towards the end, visits no cell twice, and each visited cell is touched by the ray.", "quantifier": "all start and end points, all cell widths, all dimensions (exact arithmetic)", "why_tests_cant": "continuum of rays, with ties when the ray crosses an edge or corner", "anchors": ["library/cpp/include/wavemap/core/utils/iterate/ray_iterator.h", "library/cpp/include/wavemap/core/utils/iterate/impl/ray_iterator_inl.h"]}
{"id": "C31", "title": "Subtree iterators visit every node exactly once", "statement": "Depth-first preorder, depth-first postorder and breadth-first iteration over a tree each visit every allocated node exactly once; preorder visits parents before children, postorder children before parents, and breadth-first visits nodes by increasing depth.", "quantifier": "all trees", "why_tests_cant": "all tree shapes, including nodes whose child array is allocated but empty", "anchors": ["library/cpp/include/wavemap/core/utils/iterate/subtree_iterator.h", "library/cpp/include/wavemap/core/utils/iterate/impl/subtree_iterator_inl.h"]}
{"id": "C32", "title": "Thread pool runs every task exactly once and wait_all is a barrier", "statement": "Every task added before destruction is started in the order of addition and executed exactly once, no task is executed that was not added, wait_all (called while the pool is alive) returns only when no added task is queued or running, and destroying the pool finishes all queued tasks before returning.", "quantifier": "all positive numbers of workers, all task sequences, all interleavings of workers and clients", "why_tests_cant": "thread schedules cannot be enumerated by tests", "anchors": ["library/cpp/include/wavemap/core/utils/thread_pool.h: add_task", "library/cpp/src/core/utils/thread_pool.cc: ThreadPool, ~ThreadPool, wait_all, worker_loop"]}
{"id": "C33", "title": "Thread pool never loses a wake-up", "statement": "Whenever a task is queued and the pool is not terminated, some worker is able to make a step (no state in which all workers sleep on a non-empty queue without a pending notification), and once all tasks are done a thread blocked in wait_all is able to proceed.", "quantifier": "all reachable states of the pool under every schedule", "why_tests_cant": "a lost wake-up is a schedule-dependent deadlock", "anchors": ["library/cpp/include/wavemap/core/utils/thread_pool.h: add_task", "library/cpp/src/core/utils/thread_pool.cc: worker_loop, wait_all"]}
{"id": "C34", "title": "Parallel block updates are schedule independent", "statement": "When measurement integration is distributed over a map's blocks with the thread pool, the resulting map does not depend on the order or interleaving in which the per-block tasks run, and equals running them one after the other in any order.", "quantifier": "all sets of blocks, all per-block operations, all schedules", "why_tests_cant": "schedules cannot be enumerated", "anchors": ["library/cpp/src/core/integrator/projective/coarse_to_fine/hashed_wavelet_integrator.cc: updateMap", "library/cpp/src/core/integrator/projective/coarse_to_fine/hashed_chunked_wavelet_integrator.cc: updateMap"]}
{"id": "C35", "title": "Wavelet octree file round trip", "statement": "Writing a wavelet octree to a stream and reading it back yields a map with the same configuration and the same value in every cell.", "quantifier": "all wavelet octrees, all cells", "why_tests_cant": "all tree shapes; writer and reader traverse the tree with separate stacks", "anchors": ["library/cpp/src/io/stream_conversions.cc: mapToStream(WaveletOctree), streamToMap(WaveletOctree)", "library/cpp/include/wavemap/io/impl/streamable_types_impl.h"]}
{"id": "C36", "title": "Hashed wavelet octree file round trip", "statement": "Writing a hashed (or hashed chunked) wavelet octree to a stream and reading it back yields a map with the same configuration and the same value in every cell, up to numerical noise.", "quantifier": "all maps, all cells, all block iteration orders", "why_tests_cant": "all tree shapes; the writer skips descendants of nodes it considers saturated", "anchors": ["library/cpp/src/io/stream_conversions.cc: mapToStream(HashedWaveletOctree), streamToMap(HashedWaveletOctree), mapToStream(HashedChunkedWaveletOctree)"]}
{"id": "C37", "title": "Hashed blocks file round trip", "statement": "Writing a hashed blocks map to a stream and reading it back yields a map with the same configuration and the same value in every cell.", "quantifier": "all maps, all cells, all block iteration orders, all default values", "why_tests_cant": "all map states", "anchors": ["library/cpp/src/io/stream_conversions.cc: mapToStream(HashedBlocks), streamToMap(HashedBlocks)"]}
{"id": "C38", "title": "Reading a truncated or foreign stream fails cleanly", "statement": "Reading a map from a stream that is a strict prefix of a written map, or whose storage format id is unknown, reports failure and never loops forever, crashes, or silently returns a map.", "quantifier": "all maps, all prefixes", "why_tests_cant": "every crash point while writing a file leaves a different prefix", "anchors": ["library/cpp/src/io/stream_conversions.cc: streamToMap", "library/cpp/src/io/file_conversions.cc: fileToMap", "library/cpp/include/wavemap/io/impl/streamable_types_impl.h"]}
{"id": "C39", "title": "Map messages transfer the map state", "statement": "A receiver that applies a map message to its (possibly older) copy of the map ends up with the sender's map (up to saturation noise), and after any sequence of incremental messages that include all changed blocks the receiver's map equals the sender's.", "quantifier": "all maps, all message sequences, all previous receiver states", "why_tests_cant": "unbounded histories of incremental updates", "anchors": ["interfaces/ros1/wavemap_ros_conversions/src/map_msg_conversions.cc: mapToRosMsg, rosMsgToMap, blockToRosMsg"]}
{"id": "C40", "title": "Range image pyramid gives conservative bounds", "statement": "For every axis-aligned interval of pixels (also one that wraps around horizontally for a 360 degree sensor), the lower and upper range bounds returned by the hierarchical range image bracket every valid pixel in the interval, and it reports unobserved pixels whenever there are any.", "quantifier": "all range images of any size, all pixel intervals, with and without wrap-around", "why_tests_cant": "all image sizes and intervals; non-power-of-two widths and wrap-around only fail for particular intervals", "anchors": ["library/cpp/include/wavemap/core/integrator/projective/coarse_to_fine/impl/hierarchical_range_bounds_inl.h: getBounds, hasUnobserved, computeReducedPyramid, getUpdateType"]}
{"id": "C41", "title": "Coarse-to-fine skipping is safe", "statement": "If the range image intersector declares a cell fully unobserved then the measurement update of every point in that cell is zero, and if it declares a cell fully free then every point in it gets the free-space update; so coarse-to-fine integration never skips a cell that the fixed-resolution integrator would have changed.", "quantifier": "all range images, all sensor poses, all cells, all points in the cell, all projectors meeting their contract", "why_tests_cant": "continuum of points and images", "anchors": ["library/cpp/include/wavemap/core/integrator/projective/coarse_to_fine/impl/range_image_intersector_inl.h: determineUpdateType", "library/cpp/include/wavemap/core/integrator/measurement_model/impl/continuous_ray_inl.h: computeUpdate", "library/cpp/include/wavemap/core/integrator/projective/impl/projective_integrator_inl.h: computeUpdate"]}
{"id": "C42", "title": "Measurement update is well defined and bounded", "statement": "For every accepted measurement model configuration and every cell, the log-odds update is finite; it is zero beyond the surface's back threshold, negative (free) well in front of the surface and never below the free-space update.", "quantifier": "all valid configurations, all cell distances and measured distances", "why_tests_cant": "continuum of inputs and configurations", "anchors": ["library/cpp/include/wavemap/core/integrator/measurement_model/impl/continuous_ray_inl.h", "library/cpp/include/wavemap/core/integrator/measurement_model/impl/continuous_beam_inl.h", "library/cpp/include/wavemap/core/integrator/measurement_model/approximate_gaussian_distribution.h", "library/cpp/src/core/integrator/measurement_model/continuous_ray.cc: isValid"]}
{"id": "C43", "title": "Point cloud import keeps the closest valid return per pixel", "statement": "After importing a point cloud, each pixel of the range image holds the smallest range among the points that project to it and are not below the minimum range (points below min_range are ignored, as documented), independently of the order of the points.", "quantifier": "all point clouds, all orders of points, all projectors", "why_tests_cant": "all point clouds and permutations", "anchors": ["library/cpp/src/core/integrator/projective/projective_integrator.cc: importPointcloud", "library/cpp/include/wavemap/core/integrator/projective/projective_integrator.h: ProjectiveIntegratorConfig"]}
{"id": "C44", "title": "Wavelet block update applies exactly the selected updates", "statement": "Updating a block of a hashed wavelet octree with a measurement changes the value of each cell exactly by the (clamped) update chosen for the node the coarse-to-fine recursion stopped at for that cell, and leaves all other cells unchanged; the wavelet representation stays consistent.", "quantifier": "all blocks, all update decisions, all tree heights", "why_tests_cant": "all tree states and all outcomes of the recursion's tests", "anchors": ["library/cpp/src/core/integrator/projective/coarse_to_fine/hashed_wavelet_integrator.cc: updateBlock", "library/cpp/include/wavemap/core/integrator/projective/coarse_to_fine/impl/wavelet_integrator_inl.h: recursiveSamplerCompressor", "library/cpp/src/core/integrator/projective/coarse_to_fine/hashed_chunked_wavelet_integrator.cc: updateNodeRecursive"]}
{"id": "C45", "title": "Bucket queue pops in non-decreasing bucket order and loses nothing", "statement": "Elements pushed into the bucket queue are popped exactly once; each pop returns an element from the lowest non-empty bucket; the reported size is the number of elements pushed but not popped; popping an empty queue has no effect.", "quantifier": "all sequences of push and pop, all keys, all bucket counts", "why_tests_cant": "unbounded histories", "anchors": ["library/cpp/include/wavemap/core/data_structure/bucket_queue.h", "library/cpp/include/wavemap/core/data_structure/impl/bucket_queue_inl.h"]}
{"id": "C46", "title": "Sparse vector behaves like a partial map", "statement": "After any sequence of insertions, reading an index of the sparse vector returns the value last stored there, and reading an index never written returns the default value.", "quantifier": "all operation sequences, all indices", "why_tests_cant": "unbounded histories; the implementation uses popcount ranks over a bitset", "anchors": ["library/cpp/include/wavemap/core/data_structure/sparse_vector.h"]}
{"id": "C47", "title": "Axis-aligned bounding box queries are exact", "statement": "The closest point of a box to a query point lies in the box and no other point of the box is closer; the furthest point is a corner and no point of the box is further; including a point yields the smallest box containing the old box and the point.", "quantifier": "all boxes, all query points, all dimensions", "why_tests_cant": "continuum of boxes and points", "anchors": ["library/cpp/include/wavemap/core/data_structure/aabb.h: closestPointTo, furthestPointFrom, includePoint, containsPoint, minDistanceTo, maxDistanceTo"]}
{"id": "C48", "title": "Neighbourhoods and adjacency are correct", "statement": "The neighbour offsets generated for an adjacency type are exactly the offsets in {-1,0,1}^dim whose cells share the given kind of contact with the centre cell, without duplicates, their number matches the closed formula, adjacency is symmetric, and two octree nodes are reported adjacent iff their closed boxes touch or overlap.", "quantifier": "all index pairs, all node pairs, all adjacency types, dimensions 1..3", "why_tests_cant": "infinitely many index and node pairs", "anchors": ["library/cpp/include/wavemap/core/utils/neighbors/impl/grid_neighborhood_inl.h", "library/cpp/include/wavemap/core/utils/neighbors/impl/grid_adjacency_inl.h", "library/cpp/include/wavemap/core/utils/neighbors/impl/adjacency_inl.h", "library/cpp/include/wavemap/core/utils/neighbors/ndtree_adjacency.h"]}
{"id": "C49", "title": "Distance field sign and range", "statement": "In a generated distance field, every cell with a stored distance that is observed in the occupancy map is negative only if occupied and positive only if free, no stored distance exceeds the requested maximum distance, and generation terminates.", "quantifier": "all occupancy maps, all maximum distances, both generators", "why_tests_cant": "all maps; termination and sign depend on the propagation order", "anchors": ["library/cpp/src/core/utils/sdf/full_euclidean_sdf_generator.cc: seed, propagate", "library/cpp/src/core/utils/sdf/quasi_euclidean_sdf_generator.cc: seed, propagate"]}
{"id": "C50", "title": "Configuration loading is total and predictable", "statement": "Loading a configuration from a parameter map never fails on unknown or ill-typed entries: each member ends up with the converted value if its entry is present and well-typed and with its default otherwise; unknown entries affect nothing; a non-map parameter or an invalid result is rejected.", "quantifier": "all parameter trees", "why_tests_cant": "parameter trees are unbounded", "anchors": ["library/cpp/include/wavemap/core/config/impl/config_base_inl.h: loadParam, from", "library/cpp/include/wavemap/core/config/config_base.h: checkValid"]}
{"id": "C51", "title": "Unit conversion in configuration values", "statement": "A value given with a unit is converted to the SI unit by the documented factor iff the unit is known and of the right kind, and rejected otherwise; loading the same quantity in different units of the same kind gives the same result.", "quantifier": "all unit strings and numbers", "why_tests_cant": "continuum of values and arbitrary strings", "anchors": ["library/cpp/include/wavemap/core/config/impl/value_with_unit_inl.h: from", "library/cpp/src/core/config/value_with_unit.cc"]}
{"id": "C52", "title": "Type selectors round trip between names and ids", "statement": "Converting a valid type id to its name and back is the identity, unknown names map to the invalid id, which is reported as invalid, and a selector built from a parameter is valid iff the parameter names a known type.", "quantifier": "all type selectors with distinct names, all strings and ids", "why_tests_cant": "all strings", "anchors": ["library/cpp/include/wavemap/core/config/type_selector.h", "library/cpp/include/wavemap/core/config/impl/type_selector_inl.h: toStr, toTypeId, isValid, from"]}
{"id": "C53", "title": "Pipeline registry and execution order", "statement": "Integrators are addressed by unique names: adding under a taken name changes nothing and reports failure, removal removes exactly that name; running a list of integrators runs them in list order up to the first unknown name and reports whether all were found; map operations run afterwards, in insertion order, whether or not the integrators succeeded.", "quantifier": "all sequences of add, remove, clear and run calls", "why_tests_cant": "unbounded histories", "anchors": ["library/cpp/src/pipeline/pipeline.cc", "library/cpp/include/wavemap/pipeline/impl/pipeline_inl.h"]}
{"id": "C54", "title": "Periodic map operations are rate limited", "statement": "Between two unforced runs of a map operation more than the configured period elapses, and a forced run always executes; the stopwatch's total is the sum of its completed episodes.", "quantifier": "all clock readings (non-decreasing), all call sequences", "why_tests_cant": "unbounded histories of clock readings", "anchors": ["library/cpp/src/pipeline/map_operations/prune_map_operation.cc", "library/cpp/src/pipeline/map_operations/threshold_map_operation.cc", "library/cpp/src/core/utils/time/stopwatch.cc"]}
{"id": "C55", "title": "Motion compensation uses the pose at each point's own time", "statement": "For every point, the pose used to undistort it interpolates the two consecutive buffered poses whose time stamps bracket the point's time, with an interpolation factor between 0 and 1.", "quantifier": "all pose buffers sorted by time, all point clouds within the buffer's time range", "why_tests_cant": "all time stamps; the search pointer is carried from point to point", "anchors": ["library/cpp/src/core/utils/undistortion/pointcloud_undistortion.cc: compensate_motion", "library/cpp/src/core/utils/undistortion/stamped_pointcloud.cc: sort"]}
{"id": "C56", "title": "Reported map bounds enclose the map tightly", "statement": "The minimum and maximum cell index a non-empty map reports enclose every observed (for block-based maps: every allocated) cell, and each face of the reported box touches one.", "quantifier": "all maps reachable by any history, all cells, all axes", "why_tests_cant": "all map states", "anchors": ["library/cpp/src/core/map/wavelet_octree.cc: getMinIndex, getMaxIndex", "library/cpp/src/core/map/hashed_wavelet_octree.cc: getMinIndex, getMaxIndex", "library/cpp/src/core/map/hashed_blocks.cc: getMinIndex, getMaxIndex"]}
{"id": "C57", "title": "Pruning the octree container removes exactly the empty nodes", "statement": "Pruning the generic octree container keeps the root and every node at or below which nonzero data is stored, with data unchanged, and removes all other nodes.", "quantifier": "all trees, all data types and nonzero predicates", "why_tests_cant": "all tree shapes, and the tree is modified while it is iterated over", "anchors": ["library/cpp/include/wavemap/core/data_structure/ndtree/impl/ndtree_inl.h: prune", "library/cpp/include/wavemap/core/utils/iterate/impl/subtree_iterator_inl.h"]}
{"id": "C58", "title": "The approximation error reported to coarse-to-fine integrators bounds the update's variation inside a cell", "statement": "When an integrator stops refining a cell because the measurement model reports a worst-case approximation error for a given cell radius, the update at every point of the cell whose depth is within that radius of the centre (and that is seen through the same pixel) differs from the update at the centre by at most that error.", "quantifier": "every valid measurement model configuration, measured distance, cell centre depth, radius and point depth within the radius", "why_tests_cant": "The bound is a Lipschitz constant over a continuum of distances, sigmas and scale factors; sampled distances cannot establish it.", "anchors": ["library/cpp/include/wavemap/core/integrator/measurement_model/impl/continuous_ray_inl.h: ContinuousRay::computeWorstCaseApproximationError", "library/cpp/include/wavemap/core/integrator/measurement_model/impl/continuous_beam_inl.h: ContinuousBeam::computeWorstCaseApproximationError"]}
{"id": "C59", "title": "Projection and unprojection are inverse, and projected boxes contain the cell", "statement": "For a pinhole camera, unprojecting a pixel with a depth and projecting the result gives the pixel and depth back, and vice versa. For every projection model, pose and cell, the box of sensor coordinates computed for the cell contains the sensor coordinates of every point of the cell, so that decisions taken on the box hold for the whole cell.", "quantifier": "all valid camera parameters, all poses, all axis-aligned cells, all points of the cell", "why_tests_cant": "A continuum of poses, cells and points; the computation looks at the eight corners only.", "anchors": ["library/cpp/src/core/integrator/projection_model/pinhole_camera_projector.cc: cartesianToSensorAABB", "library/cpp/src/core/integrator/projection_model/spherical_projector.cc: cartesianToSensorAABB", "library/cpp/include/wavemap/core/utils/math/approximate_trigonometry.h: approximate::atan2"]}
{"id": "C60", "title": "Saving a map to a file is all or nothing", "statement": "If saving a map to a file reports success, loading that file gives the map back. If saving reports failure, the file that was there before is still there, unchanged. No other file is ever touched.", "quantifier": "all maps of all types, all previous file contents, all points at which the disk runs full", "why_tests_cant": "every failure point of a write; unsupported map types", "anchors": ["library/cpp/src/io/file_conversions.cc: mapToFile, fileToMap", "library/cpp/src/io/stream_conversions.cc: mapToStream"]}
{"id": "C61", "title": "A hashed octree is a table of node values", "statement": "Under any sequence of block allocations, node allocations, value writes, block erasures and clears, the value stored for a node is the last one written for exactly that node, nodes created on the way hold the default value, erasing a block forgets exactly the nodes inside it, and nodes never affect each other. A lookup that falls back to ancestors returns the nearest existing one. The visited leaves cover every existing node exactly once and do not overlap.", "quantifier": "all dimensions one to three, all block heights, all operation histories, all node indices including negative ones", "why_tests_cant": "unbounded histories over an unbounded index space with negative coordinates", "anchors": ["library/cpp/include/wavemap/core/data_structure/ndtree_block_hash.h: NdtreeBlockHash", "library/cpp/include/wavemap/core/data_structure/impl/ndtree_block_hash_inl.h"]}
{"id": "C62", "title": "Randomly sampled points satisfy the request", "statement": "A point returned by the random point sampler lies in the requested box (or, if none was given, in a block of the classified map) and in a cell whose occupancy class was asked for. If no point is returned, the map was empty or none of the attempts drew a suitable point. The sampler never makes more attempts than allowed.", "quantifier": "all outcomes of the random number generator, all boxes, masks, attempt limits and all histories of the classified map", "why_tests_cant": "all random outcomes; points on cell and block borders", "anchors": ["library/cpp/src/core/utils/query/point_sampler.cc: getRandomPointImpl, getRandomBlock", "library/cpp/include/wavemap/core/utils/query/impl/point_sampler_inl.h"]}
{"id": "C63", "title": "Factories make exactly what the parameters ask for", "statement": "For any parameters, each factory (maps, projection models, measurement models, integrators, map operations, ROS inputs) makes the object whose type the parameters name (or the default type), with the settings they give, exactly if those settings are usable; it aborts if they are unusable and returns a null pointer if no known type or no settings are given. A projective integrator is only made for the kind of map it works on. Every map that is made has a config for which the map's guarantees hold.", "quantifier": "all parameter trees, all default types, all maps", "why_tests_cant": "parameter trees are unbounded and the combinations of named types, missing entries and ill-typed settings are endless", "anchors": ["library/cpp/src/core/map/map_factory.cc: MapFactory::create", "library/cpp/src/core/integrator/integrator_factory.cc: IntegratorFactory::create", "library/cpp/src/core/integrator/projection_model/projector_factory.cc", "library/cpp/src/core/integrator/measurement_model/measurement_model_factory.cc", "library/cpp/src/pipeline/map_operations/map_operation_factory.cc", "interfaces/ros1/wavemap_ros/src/ros_server.cc: addOperation", "interfaces/ros1/wavemap_ros/src/inputs/ros_input_factory.cc"]}
{"id": "C64", "title": "Cropping removes exactly the blocks out of reach", "statement": "When the crop operation executes and the body's position is known, every cell whose block has a point within the configured distance of the body keeps its value, and every other block is removed so its cells read as unknown; no cell within the distance is ever lost. A call that is neither forced nor due, or for which the body's position cannot be looked up, leaves the map unchanged.", "quantifier": "all reachable hashed wavelet maps (plain and chunked), all body positions, distances, periods and clock readings", "why_tests_cant": "must hold for every block layout and every body position, including positions whose distance to a block face, edge or corner is exactly the limit", "anchors": ["interfaces/ros1/wavemap_ros/src/map_operations/crop_map_operation.cc: CropMapOperation::run", "library/cpp/include/wavemap/core/data_structure/aabb.h: minDistanceTo"]}
{"id": "C65", "title": "The coarse-to-fine integrator changes each cell by one sample of the measurement", "statement": "Integrating a measurement into a volumetric octree with the coarse-to-fine integrator ends, and changes every cell of the map by exactly one sample of the measurement: that of the largest node around the cell for which the measurement is certain enough, and by nothing if that node is not observed. After any history of additions to cells and nodes, integrations, prunings and clears, visiting the leaves reports each cell once, with the value a plain table would hold, up to a tiny tolerance per pruning; after pruning, reading a cell returns that value clamped to the configured bounds, up to the same tolerance.", "quantifier": "all measurements (any outcome of the intersection tests, samples and error bounds at every node), all histories, all cells, all tree heights up to 20", "why_tests_cant": "the number of ways in which a measurement can be split over nodes of different sizes, overlapping those of earlier measurements, grows exponentially with the tree height", "anchors": ["library/cpp/src/core/integrator/projective/coarse_to_fine/coarse_to_fine_integrator.cc: CoarseToFineIntegrator::updateMap", "library/cpp/src/core/map/volumetric_octree.cc: prune, getCellValue", "library/cpp/include/wavemap/core/map/impl/volumetric_octree_inl.h: getFirstChildIndices, addToCellValue"]}
{"id": "C66", "title": "The fixed-resolution integrator updates every cell the measurement observes, once", "statement": "Integrating a measurement with the fixed-resolution integrator adds to each cell of the box it searches, exactly once, the measurement's update at that cell's center, unless that update is almost zero, and changes no other cell; sums are clamped by maps that clamp. The box contains every beam of the measurement up to the maximum range with its angular and range padding, so every cell that the measurement observes is in it.", "quantifier": "all maps reached by any history, all cells, all sensor poses, all point clouds and range images, all measurement models", "why_tests_cant": "a cell missed at the edge of the searched box shows only for particular combinations of pose, beam direction and range; and the values must be right for every history of the map", "anchors": ["library/cpp/src/core/integrator/projective/fixed_resolution/fixed_resolution_integrator.cc: importPointcloud, importRangeImage, updateMap", "library/cpp/include/wavemap/core/integrator/impl/integrator_base_inl.h: getEndPointOrMaxRange"]}
{"id": "C67", "title": "The ray-tracing integrator marks the cell of each return as occupied and the cells before it as free", "statement": "Integrating a point cloud with the ray-tracing integrator adds, for each point that is not NaN and at a plausible distance, the occupied log-odds to the cell the point is in and the free log-odds to every other cell that the beam from the sensor to the point passes, once each, and changes no other cell. Beams longer than the maximum range end there and mark nothing as occupied. A cloud without a valid pose changes nothing.", "quantifier": "all maps reached by any history, all clouds, sensor positions, cell widths and ranges, whichever axis is taken first where a beam passes an edge or corner", "why_tests_cant": "the cells of a beam depend on its exact direction, and beams through edges and corners, repeated passes and clamping must all be right for every cloud", "anchors": ["library/cpp/src/core/integrator/ray_tracing/ray_tracing_integrator.cc: RayTracingIntegrator::integrate", "library/cpp/include/wavemap/core/integrator/measurement_model/constant_ray.h: computeUpdate", "library/cpp/include/wavemap/core/utils/iterate/ray_iterator.h: Ray"]}
{"id": "C68", "title": "Every accepted measurement is integrated once, in order of arrival, with the pose at its own time", "statement": "Every point cloud or depth image that an input accepts is integrated at most once, in the order of arrival, with the sensor pose at the measurement's own stamp plus the configured time offset. It is given up only if its pose could not be found although newer measurements arrived more than the configured waiting time later; until then it waits and holds back the later ones. With undistortion the poses span exactly the time interval of the points. Measurements that are not well-formed are refused without affecting others.", "quantifier": "all interleavings of arriving messages and processing ticks, all message contents and stamps, all histories of the transform buffer, all queue configurations", "why_tests_cant": "the fate of a message depends on which transforms are available at each later tick and on the other messages in the queue; tests see a few schedules", "anchors": ["interfaces/ros1/wavemap_ros/src/inputs/pointcloud_topic_input.cc: PointcloudTopicInput::callback, processQueue", "interfaces/ros1/wavemap_ros/src/inputs/depth_image_topic_input.cc: DepthImageTopicInput::processQueue", "interfaces/ros1/wavemap_ros/include/wavemap_ros/inputs/impl/pointcloud_topic_input_impl.h: callback", "interfaces/ros1/wavemap_ros/src/utils/tf_transformer.cc: TfTransformer::lookupTransform"]}
{"id": "C69", "title": "The server's services act on the map measurements go into", "statement": "At all times the map that measurements are integrated into is the one that reset, save and load act on. Saving writes the map with all measurements since the last reset or load, and loading the file later gives that map back, whatever happened in between. Reset empties the map if it is allowed and otherwise changes nothing. A load that fails reports it and leaves the map as it was.", "quantifier": "all interleavings of pipeline runs and reset, save and load requests, all map types, all file contents and write failures", "why_tests_cant": "which map object is changed depends on the whole history of requests; there are no tests of the server", "anchors": ["interfaces/ros1/wavemap_ros/src/ros_server.cc: RosServer::RosServer, saveMap, loadMap, advertiseServices", "library/cpp/src/io/file_conversions.cc: mapToFile, fileToMap", "library/cpp/src/io/stream_conversions.cc: streamToMap", "library/cpp/include/wavemap/pipeline/pipeline.h: Pipeline"]}
{"id": "C70", "title": "Lidar projections are inverse up to the stated arc tangent error, and the intervals of a cell are conservative", "statement": "For spherical and Ouster lidars, projecting the end point of a beam gives back its range exactly and its elevation and azimuth up to the worst case error stated for the fast arc tangent; unprojecting the projection of a point gives a point within that error times the distances involved. The range interval computed for a cell contains the range of every point of the cell and no more, in every sensor pose. The azimuth interval contains the azimuth of every point of a cell that does not meet the vertical axis. An image is treated as periodic exactly if its columns go all the way round.", "quantifier": "all beams and points, all sensor offsets, all sensor poses, all axis aligned cells, all valid image configurations", "why_tests_cant": "the claims are about every real direction, including octant borders and the jump at half a turn, and every pose of a cell; the unit tests sample random points with a tolerance and test no cell behind the sensor systematically", "anchors": ["library/cpp/include/wavemap/core/utils/math/approximate_trigonometry.h: approximate::atan, approximate::atan2", "library/cpp/include/wavemap/core/integrator/projection_model/impl/spherical_projector_inl.h: SphericalProjector::cartesianToSensor, sensorToCartesian, cartesianToImage", "library/cpp/include/wavemap/core/integrator/projection_model/impl/ouster_projector_inl.h: OusterProjector::cartesianToSensor, sensorToCartesian, cartesianToImage, cartesianToSensorZ", "library/cpp/src/core/integrator/projection_model/spherical_projector.cc: sensorAxisIsPeriodic, cartesianToSensorAABB", "library/cpp/src/core/integrator/projection_model/ouster_projector.cc: sensorAxisIsPeriodic, cartesianToSensorAABB"]}
{"id": "C71", "title": "Poses are rigid motions, and all ways of applying them agree", "statement": "Applying a pose preserves distances and orientation. Composing poses applies one after the other, the inverse undoes a pose on either side, the identity changes nothing. Transforming point by point, whole clouds, by matrix or in homogeneous coordinates gives the same points. A rotation given as a matrix is the rotation of that matrix. A posed measurement's inverse pose, matrices and origin are those of its pose, so that all integrators see the same sensor coordinates. Interpolating between poses moves along a line and turns along the shorter way at constant speed, and a cloud from a sensor that does not move is left as it is by motion compensation. No operation on poses the constructors accept aborts or leaves the accepted range.", "quantifier": "all unit and all accepted quaternions, all positions, points and clouds, all rotation matrices, all fractions between zero and one", "why_tests_cant": "the claims are identities and bounds over all rotations, including the branches of the matrix conversion at half turns and the shorter-way case of the interpolation; tests sample random rotations with tolerances and start from normalised quaternions", "anchors": ["library/cpp/include/wavemap/3rd_party/minkindr/impl/rotation-quaternion-inl.h: RotationQuaternionTemplate", "library/cpp/include/wavemap/3rd_party/minkindr/impl/quat-transformation-inl.h: QuatTransformationTemplate, interpolateComponentwise", "library/cpp/include/wavemap/core/data_structure/posed_object.h: PosedObject", "library/cpp/include/wavemap/core/data_structure/pointcloud.h: PosedPointcloud::getPointsGlobal", "interfaces/ros1/wavemap_ros_conversions/include/wavemap_ros_conversions/geometry_msg_conversions.h: transformMsgToTransformation3D"]}
{"id": "C72", "title": "The obstacle point cloud contains exactly the obstacles", "statement": "Each published obstacle cloud contains the centers of exactly the cells whose value exceeds the threshold, each once; no cloud is sent only if there are none. If only changed blocks are published, the cloud contains those of the blocks changed since the last publication, and all clouds together contain every obstacle of the current map.", "quantifier": "all maps reachable by any sequence of operations and measurements, all thresholds, all interleavings of map updates, maintenance and publications", "why_tests_cant": "depends on the tree's shape, on which blocks count as empty, and on the order of updates, maintenance and publications; there are no tests of the ROS operations", "anchors": ["interfaces/ros1/wavemap_ros/src/map_operations/publish_pointcloud_operation.cc: PublishPointcloudOperation::publishPointcloud, run", "interfaces/ros1/wavemap_ros/include/wavemap_ros/map_operations/publish_pointcloud_operation.h: PublishPointcloudOperationConfig"]}
{"id": "C73", "title": "The voxel display shows the map", "statement": "Once the voxel display of the RViz plugin has drawn all queued blocks, it shows exactly the nodes of the current map that its settings select (values in a band, or occupied nodes next to a free one): every allocated cell belongs to one node, no node is finer than the block's level of detail, and each selected node is drawn once with its position, size and color. No frame fails, the queue is emptied while the camera rests, and the size of the cubes suits the distance to the camera.", "quantifier": "all histories of map messages, loaded files, changed settings, resets and frames, all cameras, all points at which the time limit ends a frame, all orders in which ties are sorted", "why_tests_cant": "what is shown depends on the whole history: which blocks changed when, which were drawn at which level of detail, and where each frame was cut off; the plugin has no tests", "anchors": ["interfaces/ros1/wavemap_rviz_plugin/src/visuals/voxel_visual.cc: VoxelVisual::updateMap, updateLOD, processBlockUpdateQueue, prerenderCallback", "interfaces/ros1/wavemap_rviz_plugin/src/visuals/cell_selector.cc: CellSelector::shouldBeDrawn, hasFreeNeighbor, setMap", "interfaces/ros1/wavemap_rviz_plugin/src/wavemap_map_display.cc: WavemapMapDisplay::processMessage, loadMapFromDisk, reset"]}
{"id": "C74", "title": "The slice display shows the map on its plane", "statement": "The slice display of the RViz plugin shows its current map on the horizontal plane at the chosen height: over every point at which the plane cuts a stored cell whose value is within the thresholds there is exactly one square, with the opacity that is set and the color of the cell's value, and there is none elsewhere. Nothing is drawn while the display is switched off, and no update fails.", "quantifier": "all histories of map messages, loaded files, changed settings and resets, all maps, all points of the plane", "why_tests_cant": "layers are reused from one update to the next, so what is shown depends on all maps and settings so far; the plugin has no tests", "anchors": ["interfaces/ros1/wavemap_rviz_plugin/src/visuals/slice_visual.cc: SliceVisual::update, setAlpha, opacityUpdateCallback, colorModeUpdateCallback", "interfaces/ros1/wavemap_rviz_plugin/src/wavemap_map_display.cc: WavemapMapDisplay::processMessage, loadMapFromDisk, reset, updateVisuals"]}
{"id": "C75", "title": "Colors of the displays are valid and distinguish what they should", "statement": "Grey values by probability lie strictly between black and white and are darker exactly for cells that are more likely occupied; grey values by raw value rise strictly from black at the lower to white at the upper threshold; colors by height are valid and fully saturated, and two heights have the same color exactly if they differ by a multiple of 5 m. All squares that a slice shows have valid colors.", "quantifier": "all log-odds values, thresholds and heights; all histories of the slice display", "why_tests_cant": "order and injectivity are statements about all pairs of values, and validity in the display depends on the thresholds set before", "anchors": ["interfaces/ros1/wavemap_rviz_plugin/src/utils/color_conversions.cc: positionToColor", "interfaces/ros1/wavemap_rviz_plugin/include/wavemap_rviz_plugin/utils/color_conversions.h: logOddsToColor, scalarToColor", "interfaces/ros1/wavemap_rviz_plugin/src/visuals/slice_visual.cc: SliceVisual::update"]}
{"id": "C76", "title": "Configurations mean the same on the ROS parameter server and in Python", "statement": "The program's parameter made from a ROS parameter or a Python object contains along every path of names and positions exactly what the source contains; a configuration in Python and one on the parameter server with the same contents give the same parameter, whatever the order of entries; the conversion from Python throws exactly if a whole number does not fit into 32 bits; every parameter made this way is well-formed; missing namespaces are read as empty maps; values of unsupported types leave settings at their defaults.", "quantifier": "all nested ROS parameters and Python objects of any depth and size", "why_tests_cant": "the contents, depth and order of nested configurations are unbounded", "anchors": ["interfaces/ros1/wavemap_ros_conversions/src/config_conversions.cc: toParamValue, toParamMap, toParamArray", "library/python/src/param.cc: toParamValue, toParamMap, toParamArray", "library/cpp/include/wavemap/core/config/param.h: ValueT"]}
{"id": "C77", "title": "Batch queries in Python answer like single queries", "statement": "For every map that updates can produce, querying an array of cell indices, node indices or points (nearest or trilinear) gives in each row the value that the map gives for that row alone, whatever the other rows are and in whatever order they come. More generally, any client whose queries depend on earlier answers gets the same result from an accelerator as from the map.", "quantifier": "all reachable hashed and chunked wavelet octrees, all arrays of any length, all adaptive query programs", "why_tests_cant": "all rows share one accelerator that caches a path of the tree, so the answer of a row could depend on any earlier row", "anchors": ["library/python/src/maps.cc: get_cell_values, interpolate", "library/cpp/src/core/utils/query/query_accelerator.cc: QueryAccelerator::getCellValue", "library/cpp/include/wavemap/core/utils/query/impl/map_interpolator_inl.h: nearestNeighbor, trilinear"]}
{"id": "C78", "title": "Processing a bag integrates its measurements like a running robot", "statement": "When recorded data is processed, every input gets every message on its topic exactly once and in the order of recording, after all transforms recorded before it have been published, and all transforms are published once and in order. If the recording has no clock, the published time never runs ahead of the data and lags at most 10 ms behind it. When the application finishes without interruption, every measurement whose pose is known is in the map; when it is interrupted, exactly the messages before the interruption have been handled.", "quantifier": "all recordings (including ones whose times jump back), all sets of inputs, all schedules of timers and contents of the TF buffer, all interruption points", "why_tests_cant": "what is handled depends on the gaps between all messages of a recording, and on when timers fire relative to its end", "anchors": ["interfaces/ros1/wavemap_ros/src/utils/rosbag_processor.cc: RosbagProcessor::processAll", "interfaces/ros1/wavemap_ros/include/wavemap_ros/impl/rosbag_processor_inl.h: addCallback, addRepublisher", "interfaces/ros1/wavemap_ros/app/rosbag_processor.cc: main"]}
{"id": "C79", "title": "Points and cells agree in single precision", "statement": "With every floating point operation rounded to single precision: the centre of a cell or node is a point of that cell, up to two million cells from the origin and for every cell width; a point is assigned to a cell that contains it up to an error of (n+1)/2^22 cell widths at n cells from the origin, and exactly to its cell if it is further than this from the border; neighbouring cells share their border exactly; the node a point is assigned to at a greater height contains the cell it is assigned to.", "quantifier": "all cell widths, cell indices, node heights and points, of every dimension", "why_tests_cant": "rounding depends on all bits of the point and of the cell width; a test that samples points almost never hits the ones that are assigned to a neighbouring cell", "anchors": ["library/cpp/include/wavemap/core/indexing/index_conversions.h: pointToNearestIndex, indexToCenterPoint, indexToMinCorner, indexToMaxCorner, pointToNodeIndex, nodeIndexToCenterPoint"]}
{"id": "C80", "title": "Rounding does not build up in the map", "statement": "With every floating point operation rounded to single precision: after any history of updates, the log-odds read from a cell differ from the exact sum of the updates that cover it by at most a bound that grows linearly with the number of updates and with the height of the map, and in proportion to the largest exact value on the way; in hashed maps only updates in the same block count, and in maps of dense blocks only updates of the cell itself. The same holds when the map is clamped and pruned on the way, in proportion to the number of clampings, plus 0.0024 per level for each pruning. Integrating the same updates in another order gives the same value up to twice this bound. In maps of dense blocks an update never moves a cell the wrong way, and values stay within their bounds.", "quantifier": "all histories of updates of cells and nodes, clampings, prunings and clearings, all map heights up to 20, all cells, all values representable in single precision", "why_tests_cant": "errors of single roundings are invisible in a test; whether they cancel, add up or grow exponentially with the depth of the tree shows only over all histories", "anchors": ["library/cpp/include/wavemap/core/map/impl/wavelet_octree_inl.h: WaveletOctree::addToCellValue, addToNodeValue, getCellValue", "library/cpp/src/core/map/hashed_wavelet_octree_block.cc: addToCellValue, getCellValue", "library/cpp/include/wavemap/core/map/impl/hashed_blocks_inl.h: HashedBlocks::addToCellValue", "library/cpp/include/wavemap/core/map/cell_types/haar_transform.h", "library/cpp/src/core/map/wavelet_octree.cc: threshold, prune", "library/cpp/src/core/map/hashed_wavelet_octree.cc: threshold, prune, pruneSmart", "library/cpp/src/core/map/hashed_wavelet_octree_block.cc: threshold, prune, recursiveThreshold, recursivePrune"]}
{"id": "C81", "title": "A change of the scene shows in the map after a bounded number of scans", "statement": "Whatever was measured before, a cell that scans see through (a beam goes through its inside and no point is in it) becomes free, and a cell in which scans see a surface (a point is inside it and beams to points elsewhere do not touch it) becomes occupied, after a number of scans that depends only on the map's bounds and the classification threshold: the value changes by at least 0.4 or 0.85 per scan with the ray-tracing integrator, and by at least the smallest update with the fixed-resolution integrator, until it reaches the bound. The beams have no gaps: every cell through whose inside a beam goes is updated.", "quantifier": "all histories of scans, all sensor positions, clouds and cell widths, all numbers of further scans, all cells, hashed blocks with thresholding and pruning in between, hashed wavelet octrees after thresholding", "why_tests_cant": "the number of scans must suffice after every possible history, and the traversal must not skip any cell of any beam; a test covers a few histories and beams", "anchors": ["library/cpp/src/core/integrator/ray_tracing/ray_tracing_integrator.cc: RayTracingIntegrator::integrate", "library/cpp/include/wavemap/core/utils/iterate/ray_iterator.h: Ray", "library/cpp/include/wavemap/core/integrator/measurement_model/constant_ray.h: ConstantRay", "library/cpp/include/wavemap/core/map/map_base.h: clampedAdd", "library/cpp/src/core/integrator/projective/fixed_resolution/fixed_resolution_integrator.cc: updateMap", "library/cpp/include/wavemap/core/utils/query/occupancy_classifier.h: classify"]}
{"id": "C82", "title": "Log odds and probabilities are interchangeable", "statement": "Every log-odds value converts to a probability strictly between 0 and 1; converting to log odds and back, or to a probability and back, returns the value; the conversion preserves the order, so classifying a cell by a threshold on its probability or by the corresponding threshold on its log odds gives the same answer, and the prior log odds 0 are the probability one half. Adding log odds is Bayes' rule: the odds of a cell of the map are the product of the odds of all measurements of it. In single precision the conversion of every log-odds value gives a number between 0 and 1 that is correct up to rounding, and classifies like the log odds.", "quantifier": "all log-odds values and probabilities, all histories of updates of a map, all exponential functions accurate to one unit in the last place", "why_tests_cant": "The tests convert 1000 probabilities and compare within a tolerance; monotonicity, inverse and the meaning of sums of log odds are statements about all values and all histories, and the rounding cases that break them lie between the sampled values.", "anchors": ["library/cpp/include/wavemap/core/utils/query/probability_conversions.h: logOddsToProbability, probabilityToLogOdds", "examples/cpp/queries/classification.cc"]}
{"id": "C83", "title": "Integer and bit helpers compute what they are named for", "statement": "For every argument in range: division by a power of two rounds down (or up, for the variant that does) for negative numbers too, and the remainder lies between 0 and the divisor and completes the quotient; base-two logarithms are rounded down or up exactly; the test for powers of two accepts exactly these; powers, factorials and binomial coefficients are exact and fit as long as n is at most 12. Writing a bit changes that bit only and reading returns it; rotating moves every bit by the shift modulo the width, and rotating back restores the word; inserting a bit moves the bits above it up by one. Rotating by zero is the identity.", "quantifier": "all integers and exponents, all positive words below 2^64, all words of any width, all bit positions", "why_tests_cant": "tests try some words; off-by-one errors at powers of two, at the sign bit and at shifts by 0 or by the width show only there", "anchors": ["library/cpp/include/wavemap/core/utils/math/int_math.h: exp2, log2_floor, log2_ceil, is_power_of_two, mult_exp2, div_exp2_floor, div_exp2_ceil, div_exp2_floor_remainder, pow, pow_sequence, div_round_up, factorial, binomial", "library/cpp/include/wavemap/core/utils/bits/bit_operations.h: is_bit_set, set_bit, unset_bit, rotate_left, rotate_right, squeeze_in, popcount, clz"]}
{"id": "C84", "title": "The resource monitor reports the time spent in its episodes and the memory in use", "statement": "After any sequence of start, stop and reset calls, the total processor and wall clock times are the sums over the completed episodes since the last reset, and the last episode's times are those of the latest of them. If the clocks never run backwards, no reported time is negative and the totals never exceed the time that passed. The memory use that is reported is the number in the first complete line of the process status that begins with VmRSS, and nothing is reported if there is no such line.", "quantifier": "all call sequences, all clock readings, all contents of the status file", "why_tests_cant": "unbounded histories and texts; readings on both sides of a full second", "anchors": ["library/cpp/include/wavemap/core/utils/profile/resource_monitor.h", "library/cpp/src/core/utils/profile/resource_monitor.cc: start, stop, computeDuration, getCurrentRamUsageInKB"]}
{"id": "C85", "title": "The displays draw every cell they are given, once, in its place", "statement": "After any sequence of calls to a display layer (set cells, set opacity, set cell size, clear), for any number of cells, no check fails and nothing is written beyond a vertex buffer; what is drawn is exactly the cells set last, each once, in order, with its position and color; every buffer has the cell size and opacity set last; no buffer is empty or larger than the limit. The triangles drawn for a cell cover the surface of its cube and nothing else, and all face the same way. The layer's bounding box and radius enclose all that it draws.", "quantifier": "all sequences of calls, all lists of cells, with and without geometry shaders", "why_tests_cant": "cells are split over buffers of bounded size: every number of cells and every earlier content must work", "anchors": ["interfaces/ros1/wavemap_rviz_plugin/src/visuals/cell_layer.cc: setCells, setAlpha, setCellDimensions, clear, kBoxVertices", "interfaces/ros1/wavemap_rviz_plugin/include/wavemap_rviz_plugin/visuals/cell_layer.h"]}
{"id": "C86", "title": "The layers that a voxel display attaches to its scene have different names", "statement": "For any two layers of a voxel display, of any two blocks of the map and any two resolution levels, the names under which they are attached to the display's scene node differ, so that no block is left out of the scene because of another one.", "quantifier": "all pairs of block indices and levels", "why_tests_cant": "names contain a 32-bit hash of the block index: two of 2^96 indices have to be found that collide", "anchors": ["library/cpp/include/wavemap/core/indexing/index_hashes.h: IndexHash", "interfaces/ros1/wavemap_rviz_plugin/src/visuals/voxel_visual.cc: drawMultiResolutionVoxels"]}
{"id": "C87", "title": "The height for a requested resolution", "statement": "Converting a node width to a height gives the smallest height whose nodes are at least that wide, and converting the width of the nodes of a height, or of the box of a node, gives that height back; also in single precision.", "quantifier": "all requested widths, smallest cell widths and heights; every logarithm accurate to two units in the last place", "why_tests_cant": "the result jumps at every power of two times the cell width, where rounding of the inverse, the product and the logarithm decide; sampled widths almost never hit these", "anchors": ["library/cpp/include/wavemap/core/indexing/index_conversions.h: cellWidthToHeight, heightToCellWidth, nodeIndexToAABB", "library/python/src/convert.cc: cell_width_to_height", "examples/cpp/queries/multi_resolution.cc"]}
{"id": "C88", "title": "Rays in single precision", "statement": "Also with every operation rounded to single precision, iterating over the cells along a ray starts at the cell of the start point, ends at the cell of the end point, moves by one step along one axis towards the end each time, visits no cell twice, and only visits cells that the line touches up to a stated rounding error; so the ray-tracing integrator marks the cell of a measured point as occupied and the other cells of its beam as free.", "quantifier": "all dimensions, all rays between cells of up to 2800 cells along each axis, all rays between points and all cell widths that are single precision numbers; every choice among equal boundary times", "why_tests_cant": "the errors of the accumulated boundary times depend on every step taken, and the wrong order of two boundaries only shows for particular combinations of start, end and cell width", "anchors": ["library/cpp/include/wavemap/core/utils/iterate/ray_iterator.h: Ray", "library/cpp/include/wavemap/core/utils/iterate/impl/ray_iterator_inl.h: Ray::Ray, Ray::Iterator::operator++", "library/cpp/src/core/integrator/ray_tracing/ray_tracing_integrator.cc: RayTracingIntegrator::integrate"]}
{"id": "C89", "title": "Interpolated queries in single precision", "statement": "Also with every operation rounded to single precision, a nearest-neighbour query returns the value of a cell that contains the point up to a stated rounding error, and an interpolated query returns the trilinear interpolation of the values of the cells around the point, hence a value between the smallest and the largest of them, up to a stated error that is a small multiple of the largest absolute value in the map; the checks that debug builds make on the interpolation weights pass.", "quantifier": "all maps with bounded values, all cell widths, all points up to 65534 cells from the origin along each axis", "why_tests_cant": "near the centre of a cell the rounded position can be on the wrong side, so the group of eight cells and the weights depend on the last bits of the point, the cell width and its inverse", "anchors": ["library/cpp/include/wavemap/core/utils/query/impl/map_interpolator_inl.h: nearestNeighbor, trilinear", "library/cpp/include/wavemap/core/indexing/index_conversions.h: pointToFloorIndex, indexToCenterPoint", "library/cpp/include/wavemap/core/utils/data/constants.h: kEpsilon"]}
{"id": "C90", "title": "Pixels and points in single precision", "statement": "Also with every operation rounded to single precision, projecting a point in front of a pinhole camera gives the exact image coordinates up to a stated error; a pixel that is unprojected at any depth and projected again gives the same pixel; a point that is projected and unprojected again is the same point up to a stated error; the nearest pixel of an image coordinate and the returned offset to its centre are exact up to a stated error; the image coordinates of a pixel belong to that pixel; every angle in a lidar's field of view belongs to a pixel of its image; and a projector reports the image coordinates of its first and last pixel as its image range.", "quantifier": "all valid camera configurations, all points in front of the camera, all image coordinates, all pixels of images with up to 131072 (pinhole) or 524288 (lidar) rows and columns, all fields of view", "why_tests_cant": "the results depend on the last bits of the focal lengths, their product and its inverse, and of the depth; whether a pixel comes back is decided by rounding for every combination", "anchors": ["library/cpp/include/wavemap/core/integrator/projection_model/impl/pinhole_camera_projector_inl.h: cartesianToSensor, sensorToCartesian", "library/cpp/include/wavemap/core/integrator/projection_model/impl/projector_base_inl.h: imageToNearestIndex, imageToNearestIndexAndOffset, indexToImage, imageToIndexReal", "library/cpp/src/core/integrator/projection_model/pinhole_camera_projector.cc: PinholeCameraProjector", "library/cpp/src/core/integrator/projection_model/spherical_projector.cc: SphericalProjector", "library/cpp/src/core/integrator/projection_model/ouster_projector.cc: OusterProjector"]}
{"id": "C91", "title": "Poses in single precision", "statement": "Also with every operation rounded to single precision, applying a pose to a point gives the exactly transformed point up to a stated error per coordinate; applying a pose and then its inverse gives the point back, and the two ways of applying the inverse agree, up to a stated error that depends on the size of the coordinates and on how far the quaternion's norm is from one.", "quantifier": "all poses whose quaternion has a norm near one, with any position, and all points", "why_tests_cant": "the error depends on the last bits of the quaternion, the position and the point; tests compare a few random poses up to a tolerance that happens to be large enough for them", "anchors": ["library/cpp/include/wavemap/3rd_party/minkindr/impl/quat-transformation-inl.h: transform, inverse, inverseTransform", "library/cpp/include/wavemap/3rd_party/minkindr/impl/rotation-quaternion-inl.h: rotate, inverseRotate, inverse"]}
{"id": "C92", "title": "Measurement updates in single precision", "statement": "Also with every operation rounded to single precision, the update of a cell by a measured ray or beam is always a finite number, is never below the update of free space, is never positive in front of the measured surface and never negative behind it, and differs from the update of the exact model by at most 2^-12 / (1 - scaling_free), on both sides of every threshold.", "quantifier": "all configurations whose weights are at most one (below one for free space), all cell distances, measured distances and angles, and every logarithm and square root as accurate as the usual ones", "why_tests_cant": "a result that is not finite, has the wrong sign or jumps at a threshold needs only one combination of distance, measurement and sigma out of very many", "anchors": ["library/cpp/include/wavemap/core/integrator/measurement_model/approximate_gaussian_distribution.h: cumulative", "library/cpp/include/wavemap/core/integrator/measurement_model/impl/continuous_ray_inl.h: computeBeamUpdate, computeFullBeamUpdate, computeFreeSpaceBeamUpdate", "library/cpp/include/wavemap/core/integrator/measurement_model/impl/continuous_beam_inl.h: computeBeamUpdate"]}
{"id": "C93", "title": "A camera's update of a cell in single precision", "statement": "When a depth image is integrated at a fixed resolution, with every operation rounded to single precision, what is added to a cell within the camera's range is, up to a stated error, the exact update for the exact depth of the cell's centre and the measured distance of a pixel that is within half a pixel, plus a stated rounding error, of the cell's exact projection; it is zero if that pixel is outside the image, and cells outside the range limits by more than the rounding error are not changed.", "quantifier": "all cells with indices below 2^22, all cell widths, poses, pinhole cameras, images, range limits and measurement models with weights at most one", "why_tests_cant": "the errors of the cell's position, of the projection and of the measurement model add up differently for every cell and pose, and tests compare with results computed with the same rounding", "anchors": ["library/cpp/src/core/integrator/projective/fixed_resolution/fixed_resolution_integrator.cc: updateMap", "library/cpp/include/wavemap/core/integrator/projective/impl/projective_integrator_inl.h: computeUpdate", "library/cpp/include/wavemap/core/integrator/measurement_model/impl/continuous_ray_inl.h: computeUpdate"]}
{"id": "C94", "title": "Lidar projections in single precision", "statement": "With every operation rounded to single precision, the angle that the fast arc tangent computes for a point is within its stated worst case error, 1.908e-6 radians, of an angle of the point, in every direction. For spherical lidars the range of a point has a relative error of at most 3 / 2^24, the elevation and the azimuth have errors of a few microradians, and the pixel chosen for the point is within half a pixel and a few microradians of its direction; for Ouster lidars the same holds for the point seen from the start of the beam.", "quantifier": "all points off the vertical axis, with either sign of zero, all angular grids and offsets, and every square root as accurate as the usual ones", "why_tests_cant": "the errors of the polynomial, of the quotient and of the rounded constants peak together only for a few directions out of 2^64 pairs of numbers; the unit test tries 360001 of them, from which the stated error was read off", "anchors": ["library/cpp/include/wavemap/core/utils/math/approximate_trigonometry.h: atan2", "library/cpp/include/wavemap/core/integrator/projection_model/impl/spherical_projector_inl.h", "library/cpp/include/wavemap/core/integrator/projection_model/impl/ouster_projector_inl.h", "library/cpp/include/wavemap/core/integrator/projection_model/projector_base.h: cartesianToNearestIndex"]}
{"id": "C95", "title": "A lidar's update of a cell in single precision", "statement": "When a lidar scan is integrated at a fixed resolution, with every operation rounded to single precision, what is added to a cell within the lidar's range is, up to a stated error, the exact update for the measured distance of a pixel next to the direction of a point, where the point and the distance used are within stated rounding errors of the cell's centre and its range; it is zero if that pixel is outside the image, and cells outside the range limits by more than the rounding error are not changed.", "quantifier": "all cells with indices below 2^22, all cell widths, poses, angular grids, images, range limits and measurement models with weights at most one", "why_tests_cant": "the errors of the cell's position, of the arc tangent, of the square root and of the measurement model add up differently for every cell and pose, and tests compare with results computed with the same rounding", "anchors": ["library/cpp/src/core/integrator/projective/fixed_resolution/fixed_resolution_integrator.cc: updateMap", "library/cpp/include/wavemap/core/integrator/projective/impl/projective_integrator_inl.h: computeUpdate", "library/cpp/include/wavemap/core/integrator/projection_model/impl/spherical_projector_inl.h", "library/cpp/include/wavemap/core/integrator/measurement_model/impl/continuous_ray_inl.h: computeUpdate"]}
{"id": "C96", "title": "Updates from the four nearest pixels in single precision", "statement": "With the all-neighbours beam selector and every operation rounded to single precision, the four pixels used surround the cell's image coordinates up to a rounding error, the update of the cell is finite, at least four times the update of free space up to rounding, never positive if all the pixels used measured at least the cell's distance and never negative if they measured at most it, and within a stated error of the sum of the exact updates by these pixels; pixels outside the image add nothing.", "quantifier": "all image grids, images, image coordinates, distances and measurement models with weights at most one, for the continuous ray and the continuous beam, for cameras and lidars", "why_tests_cant": "the error of a sum of four rounded logarithms depends on all four measurements and on the position within the pixel, and the border of the image is reached only by some cells", "anchors": ["library/cpp/include/wavemap/core/integrator/projection_model/impl/projector_base_inl.h: imageToNearestIndices, imageToNearestIndicesAndOffsets", "library/cpp/include/wavemap/core/integrator/measurement_model/impl/continuous_ray_inl.h: computeUpdate", "library/cpp/include/wavemap/core/integrator/measurement_model/impl/continuous_beam_inl.h: computeBeamUpdateAllNeighbors, computeBeamUpdateNearestNeighbor", "library/cpp/include/wavemap/core/integrator/projection_model/impl/pinhole_camera_projector_inl.h", "library/cpp/include/wavemap/core/integrator/projection_model/impl/spherical_projector_inl.h"]}
{"id": "C97", "title": "A camera clears free space and marks obstacles, in single precision", "statement": "With every operation rounded to single precision, each depth image integrated at a fixed resolution into a map of hashed blocks lowers the value of a cell that it sees as free, and raises that of a cell it sees as occupied, by the update up to a stated error, until the minimum or maximum is reached; enough images make the cell free with exactly the minimum value.", "quantifier": "all maps with valid bounds, all cells, all sequences of depth images from any poses, and all measurement models with weights at most one", "why_tests_cant": "rounding errors of the projection, of the measurement model and of the addition add up over arbitrarily many images, and a value at which an addition is lost is reached only in some histories", "anchors": ["library/cpp/src/core/integrator/projective/fixed_resolution/fixed_resolution_integrator.cc: updateMap", "library/cpp/include/wavemap/core/integrator/projective/impl/projective_integrator_inl.h: computeUpdate", "library/cpp/include/wavemap/core/map/impl/hashed_blocks_inl.h: addToCellValue", "library/cpp/include/wavemap/core/integrator/measurement_model/impl/continuous_ray_inl.h: computeUpdate"]}
{"id": "C98", "title": "A lidar clears free space and marks obstacles, in single precision", "statement": "With every operation rounded to single precision, each lidar scan integrated at a fixed resolution into a map of hashed blocks lowers the value of a cell that it sees as free, and raises that of a cell it sees as occupied, by the update up to a stated error, until the minimum or maximum is reached; enough scans make the cell free with exactly the minimum value, and cells that are not within the lidar's range keep their values exactly.", "quantifier": "all maps with valid bounds, all cells, all sequences of scans from any poses, and all measurement models with weights at most one", "why_tests_cant": "rounding errors of the angles, of the measurement model and of the addition add up over arbitrarily many scans, and a cell on the vertical axis of the lidar occurs only for some poses", "anchors": ["library/cpp/src/core/integrator/projective/fixed_resolution/fixed_resolution_integrator.cc: FixedResolutionIntegrator::updateMap", "library/cpp/include/wavemap/core/integrator/projective/impl/projective_integrator_inl.h: computeUpdate", "library/cpp/include/wavemap/core/integrator/projection_model/impl/spherical_projector_inl.h: cartesianToImage, cartesianToSensorZ", "library/cpp/include/wavemap/core/map/impl/hashed_blocks_inl.h: addToCellValue"]}
{"id": "C99", "title": "Updates of cells by the four nearest pixels of a depth image, in single precision", "statement": "With every operation rounded to single precision and all four neighbouring pixels used, what a depth image adds to a cell is, up to a stated error, the sum of the exact updates for the cell's exact depth by four pixels that surround the exact projection of its centre; pixels outside the image and cells out of range add nothing. Each image changes the cell once, so images that see it as free lower it to the minimum and images that see it as occupied raise it to the maximum.", "quantifier": "all cells, camera poses, intrinsics, images and measurement models with weights at most one, all maps with valid bounds and all sequences of images", "why_tests_cant": "rounding can move the four pixels across a pixel border for particular poses and intrinsics, and the errors of pose, projection, measurement model and addition add up over arbitrarily many images", "anchors": ["library/cpp/src/core/integrator/projective/fixed_resolution/fixed_resolution_integrator.cc: FixedResolutionIntegrator::updateMap", "library/cpp/include/wavemap/core/integrator/projective/impl/projective_integrator_inl.h: computeUpdate", "library/cpp/include/wavemap/core/integrator/measurement_model/impl/continuous_ray_inl.h: computeUpdate", "library/cpp/include/wavemap/core/integrator/projection_model/projector_base.h: imageToNearestIndices"]}
{"id": "C100", "title": "Updates of cells by the four nearest pixels of a lidar scan, in single precision", "statement": "With every operation rounded to single precision and all four neighbouring pixels used, what a lidar scan adds to a cell is, up to a stated error, the sum of the exact updates by four pixels that surround the direction of a point within rounding errors of the cell's centre; pixels outside the image and cells out of range add nothing. Each scan changes the cell once, so scans that see it as free lower it to the minimum and scans that see it as occupied raise it to the maximum.", "quantifier": "all cells, lidar poses, angular grids, range images and measurement models with weights at most one, all maps with valid bounds and all sequences of scans", "why_tests_cant": "rounding of the angles can move the four pixels across a pixel border for particular poses, errors add up over arbitrarily many scans, and cells exactly on the vertical axis occur only for some poses", "anchors": ["library/cpp/src/core/integrator/projective/fixed_resolution/fixed_resolution_integrator.cc: FixedResolutionIntegrator::updateMap", "library/cpp/include/wavemap/core/integrator/projective/impl/projective_integrator_inl.h: computeUpdate", "library/cpp/include/wavemap/core/integrator/measurement_model/impl/continuous_ray_inl.h: computeUpdate", "library/cpp/include/wavemap/core/integrator/projection_model/impl/spherical_projector_inl.h: cartesianToImage, cartesianToSensorZ"]}
{"id": "C101", "title": "Cameras and lidars that share a map, in single precision", "statement": "With every operation rounded to single precision, the depth images and scans of any number of cameras and lidars, integrated into one map in any order and with either beam selector, act on a cell independently: every measurement that sees the cell as free lowers its value by the exact update less a stated error, down to the minimum, every measurement that sees it as occupied raises it likewise up to the maximum, and measurements that do not see it, as well as thresholding and pruning in between, leave it exactly as it is. Hence the value of a cell is the sum of the exact updates up to the stated errors, and the order of the measurements does not matter up to rounding. A cell that an obstacle occupies for long enough therefore has the maximum, and once the obstacle is seen to be gone for long enough it has the minimum.", "quantifier": "all maps of hashed blocks with valid bounds, all cells, all sensors and poses, all sequences of measurements of any length in which each measurement sees the cell as stated or does not see it", "why_tests_cant": "the order in which measurements of different sensors arrive depends on the schedule, rounding errors add up over arbitrarily many measurements, and each sensor has its own error", "anchors": ["library/cpp/include/wavemap/pipeline/impl/pipeline_inl.h: Pipeline::runIntegrators", "library/cpp/src/core/integrator/projective/fixed_resolution/fixed_resolution_integrator.cc: FixedResolutionIntegrator::updateMap", "library/cpp/include/wavemap/core/integrator/measurement_model/impl/continuous_ray_inl.h: computeUpdate", "library/cpp/include/wavemap/core/map/hashed_blocks.h: HashedBlocks::addToCellValue, threshold, prune"]}
