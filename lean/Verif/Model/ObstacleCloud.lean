import Verif.Model.FixedResolution
import Verif.Model.Configs
import Verif.Model.Pipeline
/-!
# The obstacle point cloud

Models `PublishPointcloudOperation` (`interfaces/ros1/wavemap_ros/src/map_operations/publish_pointcloud_operation.cc`). A published message is the list of
its points; the header (world frame and current time) and the conversion to `PointCloud2` are left out. Points are exact, not rounded to `float32`.
-/
namespace Wavemap

/-- `MapBase::empty` of the five map types (hashed_blocks.h:28, wavelet_octree_inl.h:12-19, hashed_wavelet_octree.h:77,
hashed_chunked_wavelet_octree.h:82, volumetric_octree.h:58). -/
def AnyMap.empty : AnyMap → Bool
  | .hashedBlocks m => m.hash.blockMap.isEmpty
  | .waveletOctree m => m.empty
  | .hashedWavelet m => m.blocks.isEmpty
  | .hashedChunked m => m.blocks.isEmpty
  | .volumetricOctree m => m.empty

/-- `MapBase::getMinCellWidth` (map_base.h:91). -/
def AnyMap.minCellWidth : AnyMap → ℚ
  | .hashedBlocks m => m.config.minCellWidth
  | .waveletOctree m => m.config.minCellWidth
  | .hashedWavelet m => m.config.minCellWidth
  | .hashedChunked m => m.config.minCellWidth
  | .volumetricOctree m => m.config.minCellWidth

/-- `add_points_for_leaf_node` (publish_pointcloud_operation.cc:70-94): the points added for one leaf. -/
def leafPoints (width threshold : ℚ) (leaf : NdtreeIndex 3 × ℚ) : Option (List (Point 3)) :=
  if threshold < leaf.2 then
    if leaf.1.height = 0 then some [indexToCenterPoint leaf.1.position width]
    else (gridIndices (nodeIndexToMinCornerIndex leaf.1) (nodeIndexToMaxCornerIndex leaf.1)).map fun l => l.map fun i => indexToCenterPoint i width
  else some []

/-- The points of a list of leaves, in the order of the visits (publish_pointcloud_operation.cc:70-94). -/
def leavesPoints (width threshold : ℚ) (leaves : List (NdtreeIndex 3 × ℚ)) : Option (List (Point 3)) :=
  (leaves.mapM (leafPoints width threshold)).map List.flatten

/-- The leaves that are visited (publish_pointcloud_operation.cc:96-124): those of the blocks that `process_block_if_changed` does not skip, and all leaves of
map types without blocks of their own (`HashedBlocks` is one of them). -/
def publishedLeaves (onlyChanged : Bool) (lastRun : ℚ) : AnyMap → Option (List (NdtreeIndex 3 × ℚ))
  | .hashedWavelet m => some ((m.blocks.filter fun e => !onlyChanged || decide (lastRun < e.2.lastUpdated)).flatMap fun e => e.2.forEachLeaf e.1 0)
  | .hashedChunked m =>
    ((m.blocks.filter fun e => !onlyChanged || decide (lastRun < e.2.lastUpdated)).mapM
      fun (e : Index 3 × ChunkedWaveletBlock) => e.2.forEachLeaf e.1 0).map List.flatten
  | .hashedBlocks m => some m.forEachLeaf
  | .waveletOctree m => some m.forEachLeaf
  | .volumetricOctree m => some m.forEachLeaf

/-- `publishPointcloud` (publish_pointcloud_operation.cc:56-128): the new `last_run_timestamp_internal_` and the message, if one is published. `now` is the
internal clock's time (line 109). -/
def publishPointcloud (onlyChanged : Bool) (threshold lastRun now : ℚ) (m : AnyMap) : Option (ℚ × Option (List (Point 3))) :=
  if m.empty then some (lastRun, none)
  else do
    let leaves ← publishedLeaves onlyChanged lastRun m
    let points ← leavesPoints m.minCellWidth threshold leaves
    return (now, some points)

/-- The state of the operation: the ROS time of the last run, and the internal time of the last publication
(publish_pointcloud_operation.h:50-54). Both clocks start at zero. -/
structure PointcloudPublisher where
  timer : PeriodicOperation
  lastRunInternal : ℚ := 0

/-- `run` (publish_pointcloud_operation.cc:48-54); `rosNow` and `now` are the two clocks. -/
def PointcloudPublisher.run (s : PointcloudPublisher) (onlyChanged : Bool) (threshold : ℚ) (force : Bool) (rosNow now : ℚ) (m : AnyMap) :
    Option (PointcloudPublisher × Option (List (Point 3))) :=
  if force || s.timer.shouldRun rosNow then
    (publishPointcloud onlyChanged threshold s.lastRunInternal now m).map fun r => (⟨{ s.timer with lastRun := rosNow }, r.1⟩, r.2)
  else some (s, none)

end Wavemap
