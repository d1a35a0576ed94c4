# Formal model of wavemap in Lean 4: design

Source: `/repo` (ethz-asl/wavemap, pinned commit), read as text. Nothing in it was compiled or run.
`INC` = `library/cpp/include/wavemap/core`, `SRC` = `library/cpp/src/core`.

## 1. Layout

* `lean/Verif/Model/*` – the model: total, computable functions, one per C++ function, each with a comment citing file
  and lines, and the simplifications made. (Geometry with square roots and angles uses `ℝ` and is not computable.)
* `lean/Verif/Spec/*` and the top of each `Props` file – small specifications that do not use the model's helpers
  (tables as functions, sums over sets of cells, textbook definitions).
* `lean/Verif/Lemmas/*` – helper lemmas.
* `lean/Verif/Props/*` – the property theorems `Wavemap.Cxx_*`, with `example`s beside them showing that the hypotheses
  are met by a concrete non-trivial case.
* Theorem names: `_partial` – only part of the property, the comment says what is missing; `_fails` – the property (or
  the missing part) is false of the code, with a witness.
* `seeded/LOG.jsonl` – edits of the model that imitate bugs, and the theorems that rejected them.
* `AXIOMS.md` – axioms of every theorem (written by `tools/axioms.py`).

## 2. Trusted base

* Lean 4.33.0's kernel.
* Axioms: at most `propext`, `Classical.choice`, `Quot.sound`. `AXIOMS.md` lists them for each theorem. There is no
  `sorry`, `admit`, `native_decide`, `bv_decide` and no axiom of our own. `decide +kernel` is used on closed finite statements
  (tables, witnesses, examples) only; it is evaluated by the kernel.
* That the model is a faithful transcription of the C++ code. This is by reading; nothing checks it mechanically.

Simplifications that hold throughout (others are in the comments of the definitions):

* `FloatingPoint` (float) is exact: `ℚ`, or `ℝ` where square roots, logarithms or angles occur. Rounding (except in C79, C80 and C82), overflow to
  infinity (except in C79, C80 and C82) and NaN arithmetic are not modelled. NaN inputs are modelled where the code tests for them (clouds, images, messages). A
  division by zero or logarithm of a non-positive number is a distinct outcome. Serialised floats are exact binary32 values (C35–C39).
* `IndexElement` (int32) is `Int`; theorems state range hypotheses where the code would wrap. Morton codes, shifts, hashes
  and serialised integers have explicit width.
* Heap cells (`unique_ptr`) are values: a null child is a constructor of the tree type. Aliasing is modelled only where it matters
  (shared map pointers in C69, caches in C25/C26, thread pool memory in C34).
* `std::unordered_map` is an association list without duplicate keys (an invariant of reachable states). Where the
  iteration order could matter the theorem quantifies over it or proves independence.
* `CHECK`/`LOG(FATAL)`/uncaught exceptions and undefined behaviour (out-of-bounds access, integer division by zero, signed
  overflow) are distinct outcomes (`none`, `abort`, `undefined`), not defaults. `DCHECK` is taken as a release build takes it: not checked.
* Loops whose termination is not structural run on fuel; running out is a distinct outcome and a theorem shows it does not happen.
* Clocks and random draws are arguments, quantified over in the theorems.
* Threads (C32–C34): a labelled transition system with atomic mutex-protected steps, any number of workers and clients, spurious wake-ups.
  The C++ memory model below that level is not modelled. Parallel integrators are proved schedule independent in this model.

### Modelled

| part of the code | model | properties |
|---|---|---|
| `indexing/*`, `utils/bits/*`, `utils/math/{int_math,tree_math}` | Morton, NdtreeIndex, Conversions, IntMath | C01–C09 |
| `map/cell_types/*` (Haar) | Haar | C10, C11 |
| `data_structure/ndtree`, `chunked_ndtree`, `spatial_hash`, `dense_grid`, `dense_block_hash`, `ndtree_block_hash`, `bucket_queue`, `sparse_vector`, `aabb`, `image` | Ndtree, ChunkedNdtree, SpatialHash, NdtreeBlockHash, Containers, Aabb, RangeImport | C12–C15, C45–C47, C57, C61 |
| `map/*`: all five map types | SpatialHash, Wavelet, ChunkedWavelet, VolumetricOctree | C16–C24, C56 |
| `utils/query/*` | QueryAccelerator, ClassifiedMap, Occupancy, Interpolate, PointSampler | C25–C28, C62 |
| `utils/iterate/*`, `utils/neighbors/*` | Iterate, SubtreeIterator, Neighbors | C29–C31, C48 |
| `utils/thread_pool`, `utils/time/stopwatch` | ThreadPool, Pipeline | C32–C34, C54 |
| `io/*` | Stream, Io | C35–C38, C60 |
| `wavemap_ros_conversions/map_msg_conversions`, `publish_map_operation` | MapMsg | C39 |
| `integrator/projective/coarse_to_fine/*` | RangeBounds, WaveletIntegrator, OctreeIntegrators, ChunkedIntegrator, CoarseToFine | C40, C41, C44, C65 |
| `integrator/measurement_model/*`, `projective_integrator` | Measurement, RangeImport | C42, C43, C58 |
| `integrator/projection_model/*` (without the class `CircularProjector`, used in tests only), `utils/math/approximate_trigonometry.h` | Projectors, LidarProjectors | C59, C70 |
| `integrator/projective/fixed_resolution`, `integrator/ray_tracing` | FixedResolution, RayTracing | C66, C67 |
| `utils/sdf/*` | Sdf | C49 |
| `config/*`, every config struct, every factory | Param, Configs, Factories | C50–C52, C63 |
| `pipeline/*`, map operations, cropping | Pipeline | C53, C54, C64 |
| `utils/undistortion/*`, `pointcloud_undistorter` | Undistortion | C55 |
| ROS inputs (`pointcloud_topic_input`, `depth_image_topic_input`), TF lookups | InputQueue | C68 |
| `ros_server` services | RosServer | C69 |
| bundled `3rd_party/minkindr` (rotation-quaternion, quat-transformation), `posed_object`, `PosedPointcloud`, `geometry_msg_conversions` | Poses | C71 |
| `publish_pointcloud_operation` | ObstacleCloud | C72 |
| `wavemap_rviz_plugin`: `voxel_visual`, `cell_selector`, map handling of `wavemap_map_display` | VoxelDisplay | C73 |
| `wavemap_rviz_plugin`: `slice_visual`, `color_conversions` | SliceDisplay | C74, C75 |
| `wavemap_ros_conversions/config_conversions`, `library/python/src/param.cc` | ParamConversions | C76 |
| `library/python/src/maps.cc`: batch queries | PythonMaps | C77 |
| `rosbag_processor.cc`, `rosbag_processor_inl.h`, `app/rosbag_processor.cc` | Rosbag | C78 |
| `index_conversions.h` again, with every operation rounded to 24 bits (no overflow, no subnormals) | Float32, SinglePrecision | C79 |
| the same functions with a rounding that underflows and overflows | Ieee | C79 |
| reading and adding in `wavelet_octree*.h`, `hashed_wavelet_octree_block.*`, `hashed_blocks*.h`, thresholding and pruning of both wavelet maps, and the Haar transforms they use, again, with every operation rounded (not encoding) | SingleMaps | C80 |
| `hashed_chunked_wavelet_octree{,_block}*` again, with every operation rounded (not encoding, not enumerating leaves); setting cells of the plain one | SingleChunked | C19, C80 |
| `utils/query/probability_conversions.h`, over ℝ and with every operation rounded (`std::exp` is a parameter, accurate to one unit in the last place; no underflow) | Probability | C82 |
| `bit_operations.h` (single bits, rotations), on words of any width; shifts by the width or more are undefined | BitOps | C83 |
| the places in `index_conversions.h` and the Haar transforms where a sum has a product or quotient as operand, with each of these rounded or not (fused multiply-add) | Contraction | C79, C80 |
| `resource_monitor.{h,cc}`, given the clock readings and the contents of `/proc/self/status`; the formatted statistics are not modelled | ResourceMonitor | C84 |
| `wavemap_rviz_plugin`: `cell_layer`, without the rendering engine: the vertices written for the cells of a layer | CellLayer | C85 |
| `index_hashes.h` (`IndexHash<3>`), the names of the layers in `voxel_visual` | IndexHash | C86 |
| `convert::cellWidthToHeight`, the Python `cell_width_to_height`; `std::log2` is any function accurate to `2^-22` that does not cross powers of two | NodeHeight | C87 |
| `Ray` between cells and between points, its iterator and the ray-tracing integrator's updates along it, with every operation rounded to single precision; any choice among equal boundary times | SingleRay | C88 |
| `interpolate::nearestNeighbor` and `interpolate::trilinear`, with every operation rounded to single precision, and their debug checks | SingleInterpolate | C89 |
| The conversions between image coordinates and pixels of `ProjectorBase`, the grids of the three projectors and the projection of `PinholeCameraProjector`, with every operation rounded to single precision | SingleCamera | C90 |
| Applying a pose and its inverse to a point, with every operation rounded to single precision | SinglePoses | C91 |
| The update of a cell by a continuous ray or beam, with every operation rounded to single precision | SingleMeasurement | C92 |
| The change of a cell by a depth image, from the cell's index to the value added, with every operation rounded to single precision | SingleCell | C93 |
| The fast arc tangent with the signs of zeros, and the spherical and the Ouster projection, with every operation rounded to single precision | SingleLidar | C94 |
| The change of a cell by a scan of a spherical lidar, from the cell's index to the value added, with every operation rounded to single precision | SingleLidarCell | C95 |
| The updates by the four nearest pixels and by the nearest pixel with its offset, for the continuous ray and the continuous beam, with every operation rounded to single precision | SingleNeighbors | C96 |
| Integrating depth images into hashed blocks at a fixed resolution, over all cells of a box, with every operation rounded to single precision | SingleClearing | C97 |
| Integrating lidar scans (spherical projector) into hashed blocks at a fixed resolution, over all cells of a box, with every operation rounded to single precision | SingleLidarClearing | C98 |
| The update of one cell by the four nearest pixels of a depth image, and integrating whole images in this way, with every operation rounded to single precision | SingleNeighborsCell | C99 |
| The update of one cell by the four nearest pixels of a range image (spherical projector), and integrating whole scans in this way, with every operation rounded to single precision | SingleLidarNeighborsCell | C100 |
| Histories of depth images and scans by several sensors that are integrated into one map of hashed blocks, with every operation rounded to single precision | SingleSensors | C101 |

### Not modelled

* Rounding of floats except where it is modelled (Float32, SinglePrecision, SingleMaps, SingleChunked, Probability; C79, C80, C82; contraction to fused multiply-adds, which `-march=native` allows, is covered by the `_contracted_` theorems), performance, memory use (`getMemoryUsage`), logging and printing.
* Third-party code: Eigen (its quaternion functions are modelled in Poses after Eigen 3.4 and are part of the trusted base), minkindr's angle-axis class and
  random and nearest rotations, glog, ROS transport, TF's interpolation (an
  arbitrary function from frame and time to poses), OpenCV/cv_bridge image conversion (an arbitrary partial function).
* the rest of `wavemap_rviz_plugin` (scene graph, shaders, menu), `resource_monitor` (operating system counters), the rest of the Python bindings (direct calls), examples, scripts.
* Non-const overloads in `NdtreeBlockHash`, `ChunkedNdtree::prune` and others that do not compile when instantiated (see section 5).

## 3. How each property is proved

| id | modelled | proof |
|----|----------|-------|
| C01 | `morton::encode/decode` (pdep and LUT variants, 64-bit words), `bit_ops::repeat_block/expand/compress` | bit-extensionality for all 32-bit inputs |
| C02 | `NdtreeIndex` with `computeParentIndex/ChildIndex/RelativeChildIndex` on `Fin d → Int` | coordinatewise `omega`, induction on height difference |
| C03 | `nodeIndexToMin/MaxCornerIndex`, `indexAndHeightToNodeIndex` | floor-division lemmas |
| C04 | `computeLastCommonAncestorHeight` with `clz` | least-height characterisation through shifts |
| C05, C06 | linear indices; block/cell split by shift and mask | mixed-radix induction over the dimension; floor division |
| C07 | point/index conversions over ℚ, C++ `round` (half away from zero) | floor/ceil lemmas |
| C08, C09 | tree traversal distances; node counts | injectivity via per-level offset intervals; geometric sums |
| C10, C11 | the Haar loops for d = 1,2,3 | unfolding to ring identities for all values |
| C12, C13, C57 | `Ndtree`, `NdtreeNode` as trees | refinement to a partial map by induction over operation lists; induction on trees |
| C14, C19 | chunked octree, chunked wavelet map: arrays indexed by traversal distance | simulation relation with the plain tree / plain map, preserved by every operation |
| C15, C16, C61 | `SpatialHash`, `DenseGrid`, `DenseBlockHash`, `HashedBlocks`, `NdtreeBlockHash` | refinement to a function |
| C17, C18, C20 | wavelet trees: set/add/get/clamp | refinement: value at a path after an update; induction on the path |
| C21, C22 | `recursiveThreshold`, `recursivePrune`, `pruneSmart`, `prune` of each map type | structural induction; error bound per level for pruning |
| C23, C56 | `forEachLeaf`, bounds of each map type | structural induction: leaves partition cells and carry the point-query value |
| C24 | `VolumetricOctree` | invariant over histories; negation witnesses after prune |
| C25, C62 | `QueryAccelerator` caches as state machines; point sampler | invariant: cached stack equals path values; induction over queries and draws |
| C26 | `ClassifiedMap` update, recursive queries, query cache | structural induction; invariant over interleaved queries |
| C27, C28 | occupancy masks and classifier; trilinear interpolation | finite case split, ordered field arithmetic |
| C29–C31 | iterators as step functions | induction on remaining steps / stacks; for rays the order of crossing parameters |
| C32–C34 | thread pool LTS, composed with block memory | inductive invariants over all interleavings, termination measure, commutation |
| C35–C38, C60 | byte stream writer/reader | decoder-after-encoder by induction on trees; prefixes; file system as a function |
| C39 | message build/apply, publication state | as C36, plus an invariant between sender and receiver over histories |
| C40 | pyramid construction and interval query | max/min over covered pixels by induction over levels |
| C41, C58, C59 | intersector decisions, measurement models, projectors | real analysis of the piecewise polynomial; interval containment by convexity |
| C42, C43 | measurement update, cloud import | piecewise polynomial inequalities; fold over the cloud |
| C44 | the three wavelet integrators | structural induction against a per-cell specification; any scan, any schedule |
| C45–C48 | bucket queue, sparse vector, AABB, neighbourhood tables | refinement / ordered field / finite tables by kernel evaluation |
| C49 | SDF seeding and propagation as fuelled loops | loop invariants and a termination measure |
| C50–C52, C63 | parameter trees, units, type selectors, config members, factories | every member characterised by lookups in the parameter tree |
| C53, C54, C64 | pipeline registry, throttled operations, stopwatch, cropping | induction over call sequences |
| C55 | motion compensation, undistorter | loop invariant of the time search |
| C65 | coarse-to-fine integrator on the volumetric octree | invariant: leaf value = sum of the samples along the path, over histories with pruning |
| C66, C67 | fixed-resolution and ray-tracing integrators on every map type | fold over a list of distinct cells; geometry of boxes and rays over ℝ/ℚ |
| C68 | input queues as event-driven state machines | induction over events: fate of every accepted measurement |
| C69 | map objects and pointers of the server | induction over requests |
| C70 | fast arc tangent and both lidar projections over the reals | verified polynomial bounds against a Chebyshev expansion; monotonicity of the approximated angle; separating direction of a cell |
| C71 | quaternions, poses, posed measurements over ℝ | polynomial identities modulo the norm; case analysis of the matrix conversion; trigonometry of the interpolation |
| C72 | leaves to points, publication, histories of updates and publications | leaves tell each cell once (C23), grid enumeration; invariant: every cell's block is still to be published, or its center has been, or it is no obstacle |
| C73 | map updates, levels of detail, the queue, drawing, histories of messages, files, settings and frames | invariants over histories: every block is queued, shown as it is, or newer than the last update; layers have the widths of their heights; queued and shown blocks are blocks of the map; shown layers are the leaves of C23 |
| C74 | slice updates, layers kept between updates, histories of messages, files and settings | each cell of the plane belongs to one leaf (C23); invariant: layers fit the map, are empty while hidden, and show the map; messages of well-formed maps make well-formed maps |
| C75 | the three color functions | monotonicity over ℝ/ℚ; a left inverse of the rainbow; C74 for the values that are shown |
| C76 | both conversions to `param::Value`, `std::map::emplace` on sorted entries | lookups of sorted entries; induction over paths; sorted values are determined by their contents |
| C77 | query programs that run on the map or on an accelerator; the batch loops | induction over programs and rows with the invariant of C25 |
| C78 | the rosbag processor: callbacks, republishers, clock, the loop over the bag; the application | induction over the bag; composed with C68 for what becomes of the images |
| C79 | round to nearest even with unbounded exponent; the conversions between points and indices with each operation rounded | relative error of each rounding; exactness of representable results; monotonicity of rounding; with contraction: the same with any choice of roundings of the product; full range: every intermediate result of a reasonable cell width is zero or normal, except a scaled coordinate near zero, where one half is subtracted next and the result is the same |
| C80 | reading and adding with a rounding function; with the identity it is the exact model | each coefficient of the rounded tree stays close, relative to a bound on the cell values, to that of the exact tree (whose values are given by C01 and C09); one more update multiplies the slack by 1+(7H+1)/2^24; thresholding by 1+128H/2^24 (error of each pass of the lifted transforms, weighted by the norm of the coefficients); for the dense octree, which stores the change of the coefficients instead, by 1+268(H+1)/2^24; pruning adds at most 12/5000 per level; reading perturbs by 57H/2^24; contraction: all products are by powers of two, hence exact, so that no result changes; the chunked octree in single precision is simulated by the plain one, as in C19 (its additional nodes have zero details and pass single precision numbers on unchanged); overflow: a rounding that is arbitrary beyond the largest single precision number gives the same hashed wavelet octree, since by induction over the history no coefficient leaves a grid bound (n+1)·2^92 after n updates without thresholding, and thresholding resets it |
| C81 | the ray-tracing and fixed-resolution integrators and the maps as in C66 and C67, sequences of scans | the cells of a beam cover it: consecutive cells share a face and both touch the beam, and the union of two such boxes is convex (C30_no_gaps); induction over the scans with "below a bound that falls by 0.4 per scan, or at the lower limit"; for the default integrator, the exact change of each cell (C44) and that no node around the cell is skipped; for the hashed wavelet octree also that a limited update leaves the mean of the node at the bound |
| C82 | both conversions over ℝ and, for the direction from log odds, in single precision with overflow | algebra with `Real.exp`; relative error of the three operations; monotonicity of rounding |
| C83 | the helpers over `Int`, `Nat` and words, with undefined shifts | characterised by the usual arithmetic (`Nat.log`, `Nat.clog`, `Nat.choose`, bounds of quotients) and bit by bit |
| C84 | the monitor's state; the stream operations that read the status file | induction over the calls against a list of episodes; over the lines of the file |
| C85 | the layer with its vertex buffers; the loop that fills them | invariant of the loop over the cells, induction over the calls; barycentric coordinates on the faces of the cube |
| C86 | the hash with its conversions between 32 and 64 bits; the decimal digits of the names | two short vectors of the dual lattice bound the differences of colliding indices |
| C87 | the conversion with given rounding and logarithm | characterisation of the ceiling of a logarithm; a number times its rounded inverse never rounds above one; Bernoulli's inequality; existence of a closest single precision number (to show that the assumptions can be met) |
| C88 | the rounded boundary times along each axis | bound on the accumulated error of the times by induction; the walk crosses the right number of boundaries along each axis, in order, by induction over the visited cells |
| C89 | the rounded corner index and weights along each axis | along one axis, a wrong corner comes with a weight near 0 or 1, so each of the three linear interpolations differs from the exact one by a bounded amount; the errors are propagated through the three axes |
| C90 | the rounded projection, unprojection and pixel grid | every rounding is a factor near 1; the factors are collected into one product per term, whose distance from 1 is bounded by the number of roundings; a result that is within half a pixel of an integer rounds to it |
| C91 | the rounded cross products, sums and quotients | the error of each operation is propagated with bounds on the exact values; rotating there and back without rounding is off by 4 (1 - n) q × (q × v) where n is the squared norm of the quaternion |
| C92 | the rounded cumulative distribution, contributions, probability and odds; the logarithm and the square root are parameters | rounding is monotone, which gives the ranges and signs; for the error, each piece of the distribution is a product of few factors near one, the distribution has slope at most 3/8, and a number that is a `float` is not moved across a rounded threshold |
| C93 | the composition of the models of C79, C91, C90 and C92 | the error of the cell's position follows from the linearity of the exact rotation, that of the pixel from the error of a quotient, that of the update from the slope of the exact update in the depth |
| C94 | `approximate::atan2` with `std::fma` rounded once, ranges and pixels of lidars; the square root is a parameter with a relative error of at most 2^-24 | Horner's scheme step by step, the polynomial's error from C70, the angle of each octant by trigonometry, the elevation by the mean value theorem; the stated error and negative zeros by counterexample |
| C95 | the composition of the models of C79, C91, C94 and C92 | the point is the one computed, whose error is that of C93; the range by the triangle inequality; counterexample on the vertical axis |
| C96 | `imageToNearestIndicesAndOffsets`, the squared distances in the image and the sums over four pixels, with rounding | each term by C92, the sum by four rounding errors and the bound on a logarithm; the pixels by the error of the real index; counterexample with an empty image |
| C97 | `updateMap` as a fold over the cells of the box, using the models of C93 and C80 | induction over the cells of the box (each visited once) and over the images; the change of a cell by C93; counterexample with large bounds |
| C98 | `updateMap` as a fold over the cells of the box, using the models of C95 and C80; undefined if a cell has no pixel | induction over the cells of the box and over the scans; the change of a cell by C95; counterexample with a cell on the axis |
| C99 | `computeUpdate` with `kAllNeighbors` for a cell, using the models of C80, C88, C93 and C96, and `updateMap` as a fold over the box | the error of the image coordinates from C93's bound on the position, the pixels from C96, a Lipschitz bound for the exact update; induction over the cells and the images |
| C100 | `computeUpdate` with `kAllNeighbors` for a cell and a lidar, using the models of C94 to C96, and `updateMap` as a fold over the box | the angles from C94, the pixels and the sum from C96; induction over the cells and the scans; counterexample with a cell on the axis |
| C101 | a history as a list of integrations, each by the models of C97 to C100, and of thresholding and pruning, folded over the map | the changes from C97 to C100 as steps; induction over histories in which the measurements that see the cell are counted |

No property is classed not applicable.

## 4. Status

<!-- status begin -->
| id | property | status | what is missing or not true |
|----|----------|--------|------|
| C01 | Morton index round trip | proved | Both encoder/decoder variants; the look-up-table variant disagrees with the pdep variant for negative 1D coordinates (negation theorem). |
| C02 | Parent/child index algebra | proved |  |
| C03 | Node regions tile space | proved |  |
| C04 | Last common ancestor height | proved |  |
| C05 | Linear (dense block) index is a bijection | proved |  |
| C06 | Block / in-block cell decomposition | proved | Block size up to 2^30 cells per side. |
| C07 | Point-to-cell conversion | proved | Exact arithmetic; overflow of the cast to int excluded. |
| C08 | Tree traversal offsets address a chunk without collisions | proved |  |
| C09 | Perfect tree node counts | proved |  |
| C10 | Haar transform perfect reconstruction | proved | Exact arithmetic. |
| C11 | Single-child Haar transforms agree with the full ones | proved | Exact arithmetic. |
| C12 | Octree container behaves like a map from node indices to data | partial | Proved for all histories without eraseNode on the root; C12_erase_root_erases_first_child proves that erasing the root instead erases its first child and reports success. |
| C13 | getNodeOrAncestor returns the deepest allocated ancestor | proved |  |
| C14 | Chunked octree is observationally equal to the plain octree | partial | Data reads agree for every history of allocate/write/erase/clear, with an exact characterisation of existence and of getNodeOrAncestor; existence itself differs for in-chunk siblings (C14_existence_fails). |
| C15 | Dense block hash behaves like a total function with a default | proved | All block sizes up to 2^30 cells per side, all dimensions. |
| C16 | HashedBlocks occupancy map behaves like a map from cells to log-odds | proved | Exact arithmetic. set is not clamped and threshold is a no-op in the code. |
| C17 | Wavelet octree occupancy map behaves like a map from cells to log-odds | partial | Proved in full for add (cells and coarse nodes) and as exact table semantics for set; set does not overwrite in the code (C17_set_overwrites_fails). Tree height up to 20. |
| C18 | Hashed wavelet octree behaves like a map from cells to log-odds | partial | Proved over the whole signed index space for add, threshold, clear and node reads, and as exact table semantics for set; set does not overwrite in the code (C18_set_overwrites_fails). Tree height up to 20. |
| C19 | Chunked and plain hashed wavelet octrees agree | proved | Simulation of every operation incl. clear, prune and pruneSmart: same values for all cells and nodes, same blocks and bounds. C19_single_precision: also in single precision, where the values are exactly equal; C19_any_rounding: and with every other rounding that keeps zero, signs and what it has rounded, such as one with subnormal numbers or saturation. C19_leaf_lists_fails: leaf enumerations differ in granularity. |
| C20 | addToCellValue saturates | partial | Proved in full for hashed blocks. The wavelet maps and the volumetric octree do not clamp on add (negation theorems); for the wavelet maps add followed by threshold is proved to give the clamped sum. |
| C21 | Thresholding clamps every leaf and nothing else | proved | Dense and hashed wavelet octree, volumetric octree (bounds after prune/threshold, any prior writes). The leaf set is unchanged if the bounds are at least 1/1000 away from zero on both sides (otherwise a block clamped to an unobserved value counts as empty and is not enumerated). |
| C22 | Pruning is lossless | partial | Lossless for hashed blocks (proved). For wavelet maps pruning is lossy (negation theorems); proved error bounds, idempotence, lossless case and frame. |
| C23 | Leaf enumeration partitions the map and matches point queries | partial | Proved in full for hashed blocks, dense, hashed and chunked wavelet octree; empty maps/blocks are not enumerated, their cells are proved to read within 1/1000 of zero. Volumetric octree: proved except for a map collapsed to its root and writes into merged regions, where the code violates it (negation theorems). |
| C24 | Volumetric octree behaves like a map from cells to log-odds, also after pruning | partial | Full for histories without prune (C24_table_without_prune). With prune: exact for histories that only write to cells with their own node or value zero, and within tree_height*kEpsilon per prune. Writes into merged regions fail in the code (three negation theorems). |
| C25 | Query accelerator returns exactly what the map returns | partial | Proved for the hashed wavelet octree below tree height 20, the chunked variant at every height, dense block hashes, spatial hashes and hashed octrees (getNode and getOrAllocateNode). Fails at tree height 20 (stack overflow); the octree accelerator's getNode returns an ancestor instead of null and its getOrAllocateNode ignores the default value. |
| C26 | Classified map answers agree with the occupancy map | partial | Proved for tree heights 1..19 and every history of updates (occupancy and occupancy+ESDF) and has/isFully/hasBlock queries: the region answers and the matching leaves equal those from classifying every cell of the last occupancy map. getValue, getValueOrAncestor and forEachLeaf are proved exact after one update of a new map, under any interleaving of all queries. Refuted: values after a second update (stale nodes), has after such a value query, cells of unallocated blocks are not reported as unobserved, hasNode is true for missing nodes, tree height 20 overruns the node stack. |
| C27 | Occupancy class masks are a correct set algebra | proved | All 8-bit masks and all rational log-odds values. |
| C28 | Interpolated queries stay within the surrounding cells' values | proved | Exact arithmetic. Range of the weights (the DCHECKs hold), value between the values of the cells within a cell width, tent-weight characterisation (hence continuity across cells), centre values, affine maps, nearest neighbour. |
| C29 | Grid iteration visits each index of the box exactly once | proved | C29_empty_first_fails shows that min <= max is needed. |
| C30 | Ray iteration visits a connected chain of cells from start to end | partial | Rays between indices: fully proved. Rays between points: every cell through whose inside the ray goes is visited (C30_no_gaps); that the cells start at the first point's, end at one that has the second point in its closure, move by single steps without repetition and touch the ray is proved for all rays (C30_point_ray); that the last cell is the one the second point is assigned to unless the end point lies on the near face of its cell along one axis and on the far face along another, where C30_point_ray_fails shows the code ends at a different cell. |
| C31 | Subtree iterators visit every node exactly once | partial | Preorder and breadth-first: all trees. Postorder: trees without empty children arrays; C31_postorder_fails shows the code skips nodes otherwise (reachable through eraseNode). |
| C32 | Thread pool runs every task exactly once and wait_all is a barrier | proved | all schedules, any number of clients, spurious wake-ups included; at least one worker for the destructor claim (with zero workers it fails, see the _fails theorem). Tasks are assumed to terminate and not to call wait_all themselves. |
| C33 | Thread pool never loses a wake-up | proved | no lost wake-up invariants, deadlock freedom, and termination of every schedule of the pool's own steps (lexicographic measure). |
| C34 | Parallel block updates are schedule independent | proved | pool composed with block memory; tasks are arbitrary sequences of atomic accesses to their own block. Distinctness of the updated blocks is a hypothesis here, proved for the integrators with C41/C44. |
| C35 | Wavelet octree file round trip | proved | round trip of configuration and of every node and cell value, for every well-formed float-valued octree and any bytes that follow; reachable maps are well-formed. Floats are exact binary32 rationals; NaN, infinities and the sign of zero are not modelled |
| C36 | Hashed wavelet octree file round trip | partial | exact value of every cell after reloading, for plain and chunked maps (ReloadedValue); exact when no coarser node is saturated. Fails: an occupied cell in a region that is otherwise free is lost on saving (C36_saturated_parent_fails), the pruning delay is not stored (C36_config_fails), the needs-thresholding mark is not stored (C36_threshold_after_load_fails) |
| C37 | Hashed blocks file round trip | partial | proved for default value 0 and, for any default, for all cells of allocated blocks; the default value is not stored (C37_default_fails) |
| C38 | Reading a truncated or foreign stream fails cleanly | partial | reading always terminates; strict prefixes are never accepted; prefixes with a complete header, unknown formats and bad streams return false. Fails: every prefix of 4 to 8 bytes ends the process (C38_truncated_config_fails) |
| C39 | Map messages transfer the map state | partial | Proved for every history of writes, clears, thresholding, pruning and block erasure interleaved with incremental and full publications of any message size: after a publication the receiver has every block the sender has in common with it and every cell reads the value the sender's map has (after thresholding), except cells in larger nodes whose mean is saturated; whole maps of every supported type transfer for every previous state of the receiver except wavelet octrees with unchanged settings. Violations proved: stale children in wavelet octree receivers, erased blocks not announced, equal time stamps skipped, one element written past each node's array, saturated parents. |
| C40 | Range image pyramid gives conservative bounds | partial | Bounds bracket every observed pixel and unobserved pixels are reported, for all images and all plain intervals; intervals through the seam need a power-of-two number of columns (C40_wrap_fails shows a 5-column image where the query is not defined). |
| C41 | Coarse-to-fine skipping is safe | partial | For both measurement models: cells declared fully unobserved contain only points with zero update, fully free cells only free-space updates, free-or-unobserved cells no positive update, and the intersector always answers. Partial: needs scaling factors <= 1, pixels not strictly between 0 and min_range, 6 sigma <= min_range, and boxes through the seam that start inside the image; each condition but the first has a _fails witness. Conservativeness of the projected box is C59. |
| C42 | Measurement update is well defined and bounded | partial | Update finite, never below free space, sign by side of surface, for all distances, images and coordinates, if scaling_free<1 and scaling_occupied<=1; accepted configs outside that fail (negations proved); four-neighbour beam treats out-of-image neighbours as range 0 (negation proved) |
| C43 | Point cloud import keeps the closest valid return per pixel | partial | Smallest return and its offset per pixel, order independence, for returns at or beyond min_range; a closer return overwrites a valid one and a range image's initial value leaks into the next cloud (negations proved) |
| C44 | Wavelet block update applies exactly the selected updates | partial | Proved for all three wavelet integrators, all measurements, histories and thread schedules: which cells change and by how much, which blocks are touched and marked, the node means stay consistent, and for the chunked integrator at cell resolution the bounds hold after thresholding. Partial because the code deviates in places, each with a proved witness: the wavelet octree integrator applies the root mean to each octant, blocks of height 1 of the chunked map are sampled below the cells, bounds are not restored after coarse updates, and the plain and chunked maps disagree. |
| C45 | Bucket queue pops in non-decreasing bucket order and loses nothing | proved | Peeking an empty queue is a debug-only check in the code; the model returns none. |
| C46 | Sparse vector behaves like a partial map | proved | All insertion sequences with indices below the fixed width. |
| C47 | Axis-aligned bounding box queries are exact | proved | Exact rational coordinates, every dimension. |
| C48 | Neighbourhoods and adjacency are correct | proved | Cell adjacency and neighbourhoods in dimensions 1 to 3, node adjacency in every dimension. |
| C49 | Distance field sign and range | partial | Both generators: generation ends for every reachable map and every maximum distance (without out-of-range accesses and with the internal check satisfied), no stored distance exceeds the maximum or is zero, negative only if occupied, positive below the maximum only if free, unobserved cells keep the maximum; magnitudes never undercut the distance to a cell of the opposite class (exactly that distance for the full generator) and cells touching an obstacle get their exact distance. Violated part: occupied cells that propagation does not reach keep the positive maximum distance (C49_sign_fails, general: C49_quasi_deep_obstacle, C49_full_deep_obstacle). Exact real arithmetic; occupancy read directly instead of through the query accelerator. |
| C50 | Configuration loading is total and predictable | proved | Every setting of every config struct is characterised by the parameter map alone; equality of configs is member-wise. Ints are unbounded, floats exact. |
| C51 | Unit conversion in configuration values | proved | All units and kinds; kPi is the single precision constant. |
| C52 | Type selectors round trip between names and ids | proved | For every list of distinct names, and the 20 lists in the code are distinct. |
| C53 | Pipeline registry and execution order | proved | Registry refined to a table from names to integrators and a sequence of operations for every call sequence; runs execute the registered prefix in order and report whether all names were found. |
| C54 | Periodic map operations are rate limited | proved | Which calls execute is characterised for every non-decreasing clock; spacing and execution count follow. Stopwatch totals and last episode for every call sequence. With a clock that jumps backwards (simulated ROS time) the operations pause until the old time is reached again; that is outside the stated quantifier. |
| C55 | Motion compensation uses the pose at each point's own time | partial | Proved for buffers with strictly increasing stamps; the undistorter for two or more intervals and spans that the step size covers. Proved counterexamples: unstamped clouds and short clouds abort, a single interval divides by zero, equal stamps abort, a single pose reads out of bounds, the marker time uses the identity. |
| C56 | Reported map bounds enclose the map tightly | partial | Proved in full for dense and hashed wavelet octree and hashed blocks. Volumetric octree: covering and tight bounds when the map is not collapsed to its root node; a collapsed map reports bounds in the wrong place (C56_volumetric_root_fails). |
| C57 | Pruning the octree container removes exactly the empty nodes | partial | Exact for trees without empty children arrays, lossless for all trees; C57_prune_fails shows that empty nodes can be left behind otherwise. |
| C58 | The approximation error reported to coarse-to-fine integrators bounds the update's variation inside a cell | partial | Bound holds for the probability when scaling_free<=scaling_occupied; fails for the log-odds update it is used for (negation proved) |
| C59 | Projection and unprojection are inverse, and projected boxes contain the cell | partial | Pinhole: round trip exact; boxes contain every point for cells not straddling the camera plane, depth intervals always; with C41 an end-to-end skip theorem. Spherical: azimuth interval conservative for every cell that does not meet the vertical axis, despite the approximated arc tangent and the jump at half a turn. Witnesses show the box is not conservative for pinhole cells straddling the camera plane, spherical elevation, and spherical cells on the vertical axis. |
| C60 | Saving a map to a file is all or nothing | partial | success implies the file loads back; other files are untouched. Fails: an unsupported map type or a full disk destroys the previous file (C60_unsupported_map_fails, C60_disk_full_fails) |
| C61 | A hashed octree is a table of node values | proved | Table semantics, nearest ancestor, leaf partition and the index decomposition for every history; the non-const overloads that do not compile are not modelled. |
| C62 | Randomly sampled points satisfy the request | proved | For every sequence of draws, after any history of updates and region queries (tree height 1..19). Hypothesis: cell indices of the sampled region fit in 32 bits and the box is not inverted. |
| C63 | Factories make exactly what the parameters ask for | partial | Proved for all factories. Not met: constant_ray is a known type without a case, a default integrator type needs the entry integration_method, a bare type name makes no map, and the hashed wavelet map does not limit its tree height. |
| C64 | Cropping removes exactly the blocks out of reach | proved | Plain and chunked hashed wavelet maps. Hashed blocks maps are not cropped at all (the code only warns); a failed position lookup still counts as a run. |
| C65 | The coarse-to-fine integrator changes each cell by one sample of the measurement | partial | Proved for every history: termination, exact change of every cell as seen by visiting the leaves (exact without pruning, within kEpsilon per level and pruning otherwise) and by reading cells after pruning. Reading a cell between an integration and the next pruning ignores updates of coarser or later finer nodes (C65_*_fails); a map that is only its root reports its leaf at the wrong place. |
| C66 | The fixed-resolution integrator updates every cell the measurement observes, once | partial | The change of every cell is proved for all maps, that the box covers the beams within the padding angle up to the return, and that it covers the pinhole camera's view. It does not cover the area of the pixels that a cloud's points fall into (C66_pixel_area_fails) nor the outer half of the first row and column of pixels (C66_frustum_fails), and cells outside an octree's bounds alias with cells inside (C66_outside_map_fails). |
| C67 | The ray-tracing integrator marks the cell of each return as occupied and the cells before it as free | partial | The change of every cell is proved for all clouds and maps, and which cells a beam passes. Not true: a point on a cell edge may leave no occupied cell (C67_edge_fails), a point just beyond the maximum range is marked occupied (C67_truncated_fails), min_range is not used (C67_min_range_fails), integrating an empty cloud aborts the process (C67_empty_cloud_fails). |
| C68 | Every accepted measurement is integrated once, in order of arrival, with the pose at its own time | partial | Proved for every schedule: each accepted measurement is integrated at most once, in order, with the pose at its time, or given up only after the waiting time; waiting ones block later ones. Not true: a cloud whose pose is available is dropped when processed late, out-of-order stamps wrap and drop clouds, undistortion drops a cloud at once if its start pose is missing, reads past the last field, the Livox offset overflows, an unconvertible image blocks the queue (C68_*_fails). |
| C69 | The server's services act on the map measurements go into | partial | Proved for every history without load_map; saves, resets and later loads proved for every history. After a successful load measurements still go into the old map (C69_loaded_map_fails), and a file without a map takes the served map away (C69_failed_load_fails). |
| C70 | Lidar projections are inverse up to the stated arc tangent error, and the intervals of a cell are conservative | partial | Round trips, spherical range interval (exact and tight), azimuth intervals off the axis and the exact periodicity condition are proved. Fails: the Ouster range interval ignores the beam offset (C70_ouster_depth_fails, bounded by C70_ouster_depth_partial), and a full circle starting at -180 degrees without a repeated column is not treated as periodic (C70_periodic_fails). |
| C71 | Poses are rigid motions, and all ways of applying them agree | partial | Everything is proved for unit quaternions, and that accepted ones never abort. Not true or only bounded: an accepted quaternion of norm other than one scales distances by up to 1/2000 and its inverse pose and inverse matrix disagree (C71_accepted_inverse_fails); clouds without points abort (C71_empty_cloud_fails); exponentials of short rotation vectors are not unit (C71_exp_fails); the logarithm of half turns depends on the sign of the quaternion (C71_log_negation_fails). |
| C72 | The obstacle point cloud contains exactly the obstacles | partial | Proved for all reachable states of the four map types that the pipeline updates and thresholds of at least 1/1000 (the default): exactly the obstacles, each once; and that incremental clouds contain all obstacles if nothing is pruned (C72_incremental), or up to the pruning error. Not true: smaller thresholds (C72_threshold_fails), collapsed volumetric octrees (C72_volumetric_fails), cells lifted by pruning (C72_pruned_fails), retraction of removed obstacles (C72_removed_fails), updates at the very time of a publication (C72_same_time_fails). |
| C73 | The voxel display shows the map | partial | Proved for hashed wavelet octrees of one cell width and tree height: band mode after every history without a reset (C73_band_partial), both modes after a redraw (C73_redrawn_partial), sizes of cubes (C73_view_partial), that the queue is emptied (C73_finishes), and all of it without failing frames after hiding and showing the voxels (C73_shown_again_partial). For maps from servers the assumptions on the maps are proved (C73_served, C73_served_band_partial, C73_served_again_partial). Not true: see the C73_*_fails theorems. |
| C74 | The slice display shows the map on its plane | partial | Proved for all histories of messages from servers whose maps share a cell width and a height (C74_served_partial), and for arbitrary messages and files under the same conditions (C74_shown_partial); after any history switching the slice off and on repairs it (C74_redrawn), nothing is drawn while it is off (C74_hidden) and the opacity is right (C74_opacity). Not true: maps of different heights or resolutions, resets, unknown frames, rejected and malformed messages (the C74_*_fails theorems). Wavelet octree and chunked servers only in C74_shown_partial. |
| C75 | Colors of the displays are valid and distinguish what they should | partial | Everything is proved; for the slice display with maps from servers (C75_slice_partial). Not true: equal thresholds (C75_equal_thresholds_fails); with default thresholds raw values are indistinguishable (C75_default_thresholds_fails). Overflow of the exponential in floats is not modelled. |
| C76 | Configurations mean the same on the ROS parameter server and in Python | partial | ROS: proved in full. Python: proved for texts without NUL characters (C76_nul_fails). Values of unsupported types are ignored for all settings but lists of names (C76_unsupported_list_fails). Floats are exact rationals. |
| C77 | Batch queries in Python answer like single queries | partial | Proved for every reachable chunked map, and for hashed wavelet octrees below tree height 20, where the batch queries access an array out of bounds (C77_tallest_fails). |
| C78 | Processing a bag integrates its measurements like a running robot | partial | Order, delivery, transforms, clock and interruption are proved for all recordings; completeness if the recording goes on after the last measurement (C78_complete_partial). Not true: measurements at the end are left in the queue (C78_last_fails), further inputs on a topic get nothing (C78_shared_topic_fails), relative topic names match nothing (C78_relative_topic_fails), unexpected message types crash (C78_type_fails). |
| C79 | Points and cells agree in single precision | partial | Round trip, nearest cell, interior and the corners of cells and nodes are proved for all cell widths within the stated range, also with fused multiply-adds (C79_contracted_roundtrip, C79_contracted_contains, C79_contracted_interior). Not true: points very close to a border (C79_interior_fails), nodes of points near a border (C79_ancestor_fails), centres beyond the range (C79_far_fails). Subnormal numbers and overflow change none of this for cell widths from 2^-100 to 2^100 (C79_ieee_*). |
| C80 | Rounding does not build up in the map | partial | The bounds are proved for reading and adding in wavelet octrees, hashed wavelet octrees and hashed blocks, and for all three wavelet maps with thresholding, pruning (also smart pruning) and clearing (C80_wavelet_octree_maintained, C80_pruned, C80_chunked). Fused multiply-adds change no result (C80_contracted_read, C80_contracted_add, C80_contracted_transforms). Not true without these allowances: C80_order_fails, C80_lost_updates_fails, C80_untouched_fails. Hashed wavelet octrees, chunked ones and hashed blocks do not overflow (C80_no_overflow, C80_chunked_no_overflow, C80_hashed_blocks_no_overflow). Overflow of the dense wavelet octree and subnormal numbers in the error bounds are not modelled. |
| C81 | A change of the scene shows in the map after a bounded number of scans | partial | Proved for hashed blocks with both fixed-resolution integrators, for hashed wavelet octrees after thresholding, and for the default map and the hashed wavelet octree with their multi-resolution integrators (C81_default_clears, C81_default_appears, C81_hashed_clears, C81_hashed_appears). Not true: wavelet maps without thresholding (C81_unthresholded_fails); points whose cell is also passed by several beams of the same scan (C81_grazing_fails), which SeesSurface excludes; with the default integrator, obstacles hidden in a node whose mean counts as free (C81_default_hidden_obstacle_fails, C81_default_stuck) and free space in blocks that were never allocated (C81_default_free_fails); with the hashed wavelet octree's integrator, free cells in a node whose mean is above the upper bound (C81_hashed_hidden_free_fails). |
| C82 | Log odds and probabilities are interchangeable | partial | Exact arithmetic: everything proved. Single precision: proved up to log odds 88 and for observed cells, and for the odds of every probability (C82_single_log_odds); not true: C82_single_round_trip_fails, C82_single_overflow_fails, C82_single_classify_fails. Underflow is not modelled. |
| C83 | Integer and bit helpers compute what they are named for | partial | Everything is proved except rotating by zero, which is undefined over the full width of a word (C83_rotate_zero_fails); nothing in the library does this. |
| C84 | The resource monitor reports the time spent in its episodes and the memory in use | proved | Processor and wall clock times for all call sequences (C84_times, C84_span); memory use for all contents of the status file (C84_ram_found, C84_ram_absent, C84_ram_sound). A last line without a line break is ignored (C84_ram_last_line_fails). |
| C85 | The displays draw every cell they are given, once, in its place | partial | Drawing proved for all call sequences and numbers of cells (C85_drawn, C85_buffers) and the cube's triangles (C85_cube). Partial: the bounding box encloses the cells' centres only (C85_box_fails) and the bounding radius all cells only where coordinates are not negative (C85_radius_fails); C85_box_partial and C85_radius_partial say what holds. |
| C86 | The layers that a voxel display attaches to its scene have different names | partial | Names differ for all blocks within 811 blocks of each other along each axis (C86_names_partial), and the bound is exact: C86_names_fails gives an offset at which all names collide. C86_hash says what the hash computes. |
| C87 | The height for a requested resolution | partial | Exact arithmetic: smallest height proved. Single precision: heights convert to widths and back (C87_roundtrip), and the height is the smallest one up to a few units in the last place (C87_smallest_partial). Not true: nodes at least as wide as requested (C87_wide_enough_fails), widths of boxes (C87_box_fails), widths below a cell (C87_negative_fails) and zero (C87_zero_fails). |
| C88 | Rays in single precision | partial | Rays between cells: proved for up to 2800 cells along each axis (C88_index_ray). Rays between points and the updates along them: proved if the end point is further than the rounding error from the border of its cell (C88_point_ray_partial, C88_beam_partial); otherwise the ray can miss its end (C88_overshoot_fails) and the measured point is not marked (C88_missed_return_fails). |
| C89 | Interpolated queries in single precision | partial | The errors of nearest-neighbour and trilinear queries are bounded. The checks of debug builds do not always pass (C89_check_fails) and a value can be outside the range of the cells by a rounding error (C89_between_fails). |
| C90 | Pixels and points in single precision | partial | All parts are proved but the last: the pinhole camera's image range is computed from members that are not initialised yet (C90_image_range_fails). |
| C91 | Poses in single precision | proved | Proved for quaternions whose squared norm is within 1/100 (C91_transform) or 1/2000 (C91_inverse, C91_inverse_transform) of one; the constructors accept 1/10000. The result is compared with the pose of the exact model (C71). The fusing of multiplications and additions is not modelled. |
| C92 | Measurement updates in single precision | proved | For weights at most one. The assumptions about std::log and std::sqrt are stated in IsLogSingle and IsSqrtSingle. The sign can be lost: C92_ray_sign_lost shows a cell in front of the surface that gets no update. |
| C93 | A camera's update of a cell in single precision | proved | For the pinhole camera and the continuous ray with the nearest pixel. The pose is the one from the map's to the camera's frame, as computed. |
| C94 | Lidar projections in single precision | partial | The error stated in the code is exceeded (C94_stated_error_fails); 2.8e-6 is proved instead. Negative zeros for x are excluded, for which the angle is wrong (C94_negative_zero_fails). On the vertical axis there is no azimuth (C94_axis). |
| C95 | A lidar's update of a cell in single precision | partial | Missing: cells on the vertical axis, for which the code converts NaN to an index (C95_axis_fails), and cells whose first coordinate is a negative zero, for which the angle is wrong (C94_negative_zero_fails). C95_outside holds for all cells. |
| C96 | Updates from the four nearest pixels in single precision | partial | Missing: for the continuous beam a neighbour outside the image counts as a measurement of zero and can make a cell occupied (C96_beam_outside_fails); C96_beam_partial includes such neighbours in this way. The exact updates are taken at the rounded offsets, whose errors are those of C96_pixels, C96_camera_distance and C96_lidar_distance; the cosine of the elevation is a parameter. |
| C97 | A camera clears free space and marks obstacles, in single precision | partial | Proved if the rounding error of the largest value, (bound + update) / 2^24, is at most the update (hround), which holds for the default bounds and updates above 1e-6; otherwise a cell may never change (C97_large_bounds_fails). Continuous ray with the nearest pixel; std::log is assumed to meet IsLogSingle. |
| C98 | A lidar clears free space and marks obstacles, in single precision | partial | Proved: every scan lowers or raises a cell that it sees by the exact update less a stated error, down to the minimum or up to the maximum; enough scans clear it; cells out of range keep their values exactly. Missing: cells of the box within range have to be off the vertical axis of the lidar, otherwise the update is undefined (C98_axis_fails), the sign of a zero x coordinate has to be positive (see C94), and bounds so large that an update is lost in rounding are excluded by a hypothesis (see C97_large_bounds_fails). |
| C99 | Updates of cells by the four nearest pixels of a depth image, in single precision | partial | Proved: the change of a cell is the sum of the exact updates by four surrounding pixels up to a stated error; each image adds it once; images that see the cell as free or occupied drive it to the bounds; unseen cells keep their values. Missing: bounds so large that an update is lost in rounding are excluded by a hypothesis of the two theorems on sequences of images (see C97_large_bounds_fails). |
| C100 | Updates of cells by the four nearest pixels of a lidar scan, in single precision | partial | Proved: the change of a cell is the sum of the exact updates by four pixels around its direction up to a stated error; each scan adds it once; scans that see the cell as free or occupied drive it to the bounds; cells outside the box or the range keep their values. Missing: cells of the box within range have to be off the vertical axis of the lidar, otherwise the update is undefined (C100_axis_fails), the sign of a zero x coordinate has to be positive (see C94), and bounds so large that an update is lost in rounding are excluded by a hypothesis (see C97_large_bounds_fails). |
| C101 | Cameras and lidars that share a map, in single precision | partial | Proved: in every mixed history of images and scans, with thresholding and pruning in between, each measurement that sees a cell adds the exact update up to a stated error, once and within the bounds, and everything else leaves it unchanged (C101_history_partial); measurements that see it as free or occupied drive it to the minimum or maximum; an obstacle that appears and goes away is marked and cleared exactly; if no bound can be reached the value is the sum of the exact updates (C101_sum_partial) and the order changes it by two rounding errors per step at most (C101_order_partial). Not true: at the bounds the order matters (C101_order_fails). Missing: the conditions of C97 to C100 on usable measurements (cells on the vertical axis of a lidar, see C98_axis_fails) and on bounds (see C97_large_bounds_fails). |
<!-- status end -->

## 5. Where the code disagrees with a property

The `_fails` theorems listed in section 4 are each proved with a witness. Further observations made while reading that are not theorems:

* Readers of streams do not check the depth of foreign trees; `VolumetricOctree` cannot be serialised.
* Copying a `ClassifiedMap` copies cached pointers into the original; `update` does not check that the tree height is unchanged.
* Dense and spatial query accelerators use the block index `INT_MAX` as "no block".
* An inverted box is undefined behaviour in `PointSampler` (`uniform_real_distribution`).
* SDF generators: `max_distance ≤ 0` gives a queue with no buckets.
* `PinholeCameraProjector`'s constructor calls `indexToImage` before its base class is initialised.
* `HashedWaveletOctreeConfig` has no upper limit for `tree_height`; the wavelet octree permits 21 although Morton codes hold 20 bits with sign.
* `WaveletOctree`/`VolumetricOctree::getMin/MaxIndex` of an empty map return an uninitialised vector; `block.clear` does not reset the block's flags.
* Periodic operations pause when the clock jumps backwards; the first unforced run waits until the clock exceeds the period.
* Map messages: coefficients are declared `float32[8]` with 7 used; a message with several structures uses the first; an emptied map is never announced.
* `RayTracingIntegrator::integrate` of a range image is `LOG(FATAL)`. The fixed-resolution and ray-tracing integrators do not check an octree's bounds.
* The fixed-resolution integrator's padding is the maximum, not the sum, of the lateral and the axial uncertainty.
* Functions that cannot be instantiated: `NdtreeBlockHash::eraseNode`, its non-const `getNodeOrAncestor` and `forEachLeaf`, `ChunkedNdtree::prune`,
  `ChunkedNdtree::getOrAllocateNode` with arguments.
* `approximate::atan2` of `x = -0.0` and `y < 0` gives `+π/2`; negative zeros are not modelled. Negative Ouster beam offsets are not rejected.
* `AngleAxis::getUnique` (minkindr, unused) does not wrap angles below -π.
* Poses from messages are not normalised: a quaternion whose squared norm is off by more than 1e-4 aborts the process.
* The obstacle cloud of changed blocks never retracts obstacles (C72_removed_fails), misses cells that pruning lifts above the threshold
  (C72_pruned_fails) and updates stamped with the time of the last publication (C72_same_time_fails); with thresholds below 1/1000 whole blocks are
  missing (C72_threshold_fails); map types other than the two hashed wavelet octrees ignore `only_publish_changed_blocks`.
* The voxel display of the RViz plugin: a termination height equal to the tree height can be selected, and the next frame then aborts or calls `std::clamp`
  with bounds in the wrong order (C73_termination_height_fails); the comparison passed to `std::sort` is not an ordering (C73_sort_fails); in surface mode a
  block is not redrawn when a neighbouring block changes (C73_neighbour_fails); layers keep the cell width of an earlier map (C73_resolution_fails); a reset
  removes the voxels for good (C73_reset_fails); voxels of an old map stay when one of another type or an invalid message arrives (C73_other_type_fails,
  C73_invalid_message_fails); a message whose frame is unknown replaces the map under the selector's accelerator (C73_unknown_frame_fails); and two messages at
  the same clock time leave stale voxels (C73_stamp_tie_fails).
* The slice display of the RViz plugin: squares of layers above the height of a new map stay (C74_height_fails); layers keep the cell width of an earlier map
  (C74_resolution_fails); a reset removes the squares until something is changed (C74_reset_fails); a message whose frame is unknown changes the map but not the
  squares (C74_frame_fails), a rejected one removes the map and leaves the squares for good (C74_rejected_fails); and a wavelet octree with nodes below its height
  makes it read outside of an array, in front of the check for this (C74_deep_fails). With equal thresholds raw values have no color (C75_equal_thresholds_fails), and
  with the default ones all look the same (C75_default_thresholds_fails).
* Python names are cut at NUL characters and can then collide (C76_nul_fails); values of unsupported types, which the messages say are ignored, replace lists of
  names by the empty list (C76_unsupported_list_fails). In maps.cc:65-67 a comma is missing after `"new_value"_a`, so the keyword of that argument of
  `set_cell_value` is the argument name followed by the whole documentation text (found by reading; keyword arguments are not modelled). `prune` is documented
  as lossless in maps.cc, which C22 refutes. Batch queries on maps of tree height 20 access an array out of bounds (C77_tallest_fails).
* `rosbag_processor`: when the bag ends the queues of the inputs are not processed again, so measurements of the last milliseconds, or that still wait for a
  pose, are not in the map although the application reports success (C78_last_fails). Of several inputs on one topic only the first gets messages
  (C78_shared_topic_fails); topic names are not resolved, so `points` does not match `/points` (C78_relative_topic_fails); a message of an unexpected
  type dereferences a null pointer (C78_type_fails).
* In single precision, a point just inside a cell can be assigned to the neighbour (C79_interior_fails), so that its node at a greater height need not contain
  its cell (C79_ancestor_fails); from about two million cells on, even the centre of a cell can be (C79_far_fails: 524 km at 0.1 m).
* In single precision, the order of updates matters (C80_order_fails), updates below half a unit in the last place of a cell's value are lost however many
  there are (C80_lost_updates_fails), and updating the neighbours of a cell in a wavelet octree can change the value of this cell (C80_untouched_fails). C80 bounds all three.
* With the ray-tracing integrator beams that pass through a cell outweigh points in it: one point and three passing beams per scan lower the value, so a surface seen at a grazing angle is never
  occupied (C81_grazing_fails). Wavelet maps that are not thresholded can need any number of scans to clear a cell (C81_unthresholded_fails).
* In single precision `logOddsToProbability` returns exactly 1 for log odds from 18 on, so that converting back divides by zero, and NaN from 89 on; a cell with slightly negative log odds is free by its log odds and occupied by its probability (C82_single_*_fails). With the default limits of the maps only the last one can occur.
* `bit_ops::rotate_left` and `rotate_right` by 0 over the full width of the word, the default, shift by the width of the word, which is undefined
  (C83_rotate_zero_fails). Nothing in the library calls them.
* The default integrator skips nodes and blocks whose mean is within 1e-3 of the lower bound if it sees no surface in them. A single occupied cell in a block of 16^3 free cells is hidden by the mean and never removed, however often it is seen as free (C81_default_hidden_obstacle_fails). Blocks in which no surface was ever possible are not allocated, so that free space in them stays unobserved (C81_default_free_fails).
* The hashed wavelet octree's integrator limits the update of a node such that the mean of its cells stays within the bounds. If the cells around a free cell are above the upper bound, updates of the node as a whole leave it free, however often a surface is seen in it (C81_hashed_hidden_free_fails).
* `ResourceMonitor::getCurrentRamUsageInKB` tests `eof()` after its loop, so that it ignores a `VmRSS` line that is not ended by a line break (C84_ram_last_line_fails). The kernel ends every line.
* `CellLayer::setCells` computes its bounding box from the centres of the cells, so that the outer half of the outermost cells is not covered (C85_box_fails), and its bounding radius from two of the eight corners of that box, so that cells can be beyond it (C85_radius_fails). Both serve to skip layers that are out of view and to sort transparent ones.
* `IndexHash` accumulates in 32 bits, because the initial value of its reduction is `0u`. Hash tables compare the indices as well, so that they still work, but the voxel display uses the hash itself in the names of its layers: blocks that are (812, 66, -218) blocks apart get the same names (C86_names_fails). Blocks within 811 blocks of each other along each axis never do (C86_names_partial).
* `convert::cellWidthToHeight` returns a height whose nodes are slightly narrower than requested for widths just above a power of two times the cell width (C87_wide_enough_fails), one level too much for the width of the bounding box of the cell with index 5 at 0.1 m (C87_box_fails; test_index_conversions.cc relies on this round trip for random nodes), and negative heights, for which `1 << height` is undefined, for widths below that of a cell, as in examples/cpp/queries/multi_resolution.cc with a coarse map (C87_negative_fails).
* A `Ray` whose end point lies on, or within rounding of, the border of a cell can miss it: the number of steps comes from the cells of the end points, their order from rounded boundary times. For cells of 0.1 m, the ray from (1/32, the float below 3, 1/32) to (3/16, 3, 1/32) visits (0, 29, 0), (1, 29, 0) and (2, 29, 0), while its end is in (1, 30, 0) (C88_overshoot_fails), and the ray-tracing integrator marks no cell as occupied for this point (C88_missed_return_fails).
* The debug checks of `interpolate::trilinear` allow weights to leave [0, 1] by 1e-6 only, which is less than the rounding error one metre from the origin: in a map with cells of 0.1 m, interpolating at x = 1.05 m aborts a debug build (`C89_check_fails`). In a release build the result there is slightly outside the range of the cells' values (`C89_between_fails`).
* The constructor of `PinholeCameraProjector` calls `indexToImage` of its base class to compute arguments of the base class's constructor. At that time the scale factor and the offset it uses are not set, so that `getMinImageCoordinates` and `getMaxImageCoordinates` return what was in memory (`C90_image_range_fails`). Only tests use them.
* In single precision `approximate::atan2` exceeds the worst case error it states, 1.908e-6: for y = -117, x = -133 the error is 1.949e-6 (C94_stated_error_fails). If x is a negative zero and y is not zero the result is the angle of the opposite point (C94_negative_zero_fails). On the vertical axis the azimuth is NaN (C94_axis), and converting it to a pixel is undefined. C94 proves the bound 2.8e-6.
* A cell whose centre is straight above or below a lidar has no azimuth. The fixed resolution integrator converts NaN to a pixel index for it, which is undefined (C95_axis_fails).
* Also in single precision, the continuous beam with all neighbours takes pixels outside the image for measurements of zero, and marks cells near the sensor as occupied for an empty image (C96_beam_outside_fails).
* A map with large bounds is not cleared in single precision: with bounds of 1000 and a small weight of free space, which are accepted, each image has a negative update that is lost in rounding (C97_large_bounds_fails).
* Integrating a lidar scan is undefined in single precision if the centre of a cell in range lies exactly on the lidar's vertical axis: NaN is converted to an index (C95_axis_fails for the cell, C98_axis_fails for the whole update, C100_axis_fails with all neighbours).
* Where a cell reaches the bounds of the log-odds, the order in which the measurements of different sensors are integrated changes its value by more than rounding (C101_order_fails). This follows from clamping each sum, as documented; below the bounds the order matters only by two rounding errors per step (C101_order_partial).
* `angle_math::normalize` uses π where 2π is meant (unused on the modelled paths).
