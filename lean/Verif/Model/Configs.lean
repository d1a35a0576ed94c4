import Verif.Model.Param

/-!
# The config structs

Every struct derived from `ConfigBase`, with its default values, `memberMap`, `from` and `isValid`. Decimal
literals such as `0.1f` are exact rationals (`1 / 10`). Selectors are stored as their type id. The default number
of threads of the ROS server is the hardware concurrency, a parameter of the model.
-/

namespace Wavemap

namespace Cfg

/-- `MapBaseConfig` (map_base.h:33-54). -/
structure MapBase where
  minCellWidth : ℚ := 1 / 10
  minLogOdds : ℚ := -2
  maxLogOdds : ℚ := 4
deriving DecidableEq

/-- `MapBaseConfig::memberMap` (map_base.cc:6-9). -/
def MapBase.members : List (ConfigMember MapBase) :=
  [.of "min_cell_width" (valueWithUnitFrom .meters) (·.minCellWidth) (fun c x => { c with minCellWidth := x }),
   .of "min_log_odds" readFloat (·.minLogOdds) (fun c x => { c with minLogOdds := x }),
   .of "max_log_odds" readFloat (·.maxLogOdds) (fun c x => { c with maxLogOdds := x })]

/-- `MapBaseConfig::from` (config_base_inl.h:102-153). -/
def MapBase.from (v : Param.Value) : Option MapBase := configFrom {} MapBase.members v

/-- `MapBaseConfig::isValid` (map_base.cc:11-18). -/
def MapBase.isValid (c : MapBase) : Bool :=
  decide (0 < c.minCellWidth ∧ c.minLogOdds < c.maxLogOdds)

/-- `VolumetricOctreeConfig` (volumetric_octree.h:17-43). -/
structure VolumetricOctree where
  minCellWidth : ℚ := 1 / 10
  minLogOdds : ℚ := -2
  maxLogOdds : ℚ := 4
  treeHeight : Int := 14
deriving DecidableEq

/-- `VolumetricOctreeConfig::memberMap` (volumetric_octree.cc:8-12). -/
def VolumetricOctree.members : List (ConfigMember VolumetricOctree) :=
  [.of "min_cell_width" (valueWithUnitFrom .meters) (·.minCellWidth) (fun c x => { c with minCellWidth := x }),
   .of "min_log_odds" readFloat (·.minLogOdds) (fun c x => { c with minLogOdds := x }),
   .of "max_log_odds" readFloat (·.maxLogOdds) (fun c x => { c with maxLogOdds := x }),
   .of "tree_height" Param.Value.asInt (·.treeHeight) (fun c x => { c with treeHeight := x })]

/-- `VolumetricOctreeConfig::from` (config_base_inl.h:102-153). -/
def VolumetricOctree.from (v : Param.Value) : Option VolumetricOctree := configFrom {} VolumetricOctree.members v

/-- `VolumetricOctreeConfig::isValid` (volumetric_octree.cc:14-22). -/
def VolumetricOctree.isValid (c : VolumetricOctree) : Bool :=
  decide (0 < c.minCellWidth ∧ c.minLogOdds < c.maxLogOdds ∧ 0 < c.treeHeight)

/-- `WaveletOctreeConfig` (wavelet_octree.h:18-48). -/
structure WaveletOctree where
  minCellWidth : ℚ := 1 / 10
  minLogOdds : ℚ := -2
  maxLogOdds : ℚ := 4
  treeHeight : Int := 14
deriving DecidableEq

/-- `WaveletOctreeConfig::memberMap` (wavelet_octree.cc:8-12). -/
def WaveletOctree.members : List (ConfigMember WaveletOctree) :=
  [.of "min_cell_width" (valueWithUnitFrom .meters) (·.minCellWidth) (fun c x => { c with minCellWidth := x }),
   .of "min_log_odds" readFloat (·.minLogOdds) (fun c x => { c with minLogOdds := x }),
   .of "max_log_odds" readFloat (·.maxLogOdds) (fun c x => { c with maxLogOdds := x }),
   .of "tree_height" Param.Value.asInt (·.treeHeight) (fun c x => { c with treeHeight := x })]

/-- `WaveletOctreeConfig::from` (config_base_inl.h:102-153). -/
def WaveletOctree.from (v : Param.Value) : Option WaveletOctree := configFrom {} WaveletOctree.members v

/-- `WaveletOctreeConfig::isValid` (wavelet_octree.cc:14-22). -/
def WaveletOctree.isValid (c : WaveletOctree) : Bool :=
  decide (0 < c.minCellWidth ∧ c.minLogOdds < c.maxLogOdds ∧ 0 < c.treeHeight)

/-- `HashedWaveletOctreeConfig` (hashed_wavelet_octree.h:19-57). -/
structure HashedWaveletOctree where
  minCellWidth : ℚ := 1 / 10
  minLogOdds : ℚ := -2
  maxLogOdds : ℚ := 4
  treeHeight : Int := 6
  onlyPruneBlocksIfUnusedFor : ℚ := 5
deriving DecidableEq

/-- `HashedWaveletOctreeConfig::memberMap` (hashed_wavelet_octree.cc:8-13). -/
def HashedWaveletOctree.members : List (ConfigMember HashedWaveletOctree) :=
  [.of "min_cell_width" (valueWithUnitFrom .meters) (·.minCellWidth) (fun c x => { c with minCellWidth := x }),
   .of "min_log_odds" readFloat (·.minLogOdds) (fun c x => { c with minLogOdds := x }),
   .of "max_log_odds" readFloat (·.maxLogOdds) (fun c x => { c with maxLogOdds := x }),
   .of "tree_height" Param.Value.asInt (·.treeHeight) (fun c x => { c with treeHeight := x }),
   .of "only_prune_blocks_if_unused_for" (valueWithUnitFrom .seconds) (·.onlyPruneBlocksIfUnusedFor) (fun c x => { c with onlyPruneBlocksIfUnusedFor := x })]

/-- `HashedWaveletOctreeConfig::from` (config_base_inl.h:102-153). -/
def HashedWaveletOctree.from (v : Param.Value) : Option HashedWaveletOctree := configFrom {} HashedWaveletOctree.members v

/-- `HashedWaveletOctreeConfig::isValid` (hashed_wavelet_octree.cc:15-23). -/
def HashedWaveletOctree.isValid (c : HashedWaveletOctree) : Bool :=
  decide (0 < c.minCellWidth ∧ c.minLogOdds < c.maxLogOdds ∧ 0 < c.treeHeight)

/-- `HashedChunkedWaveletOctreeConfig` (hashed_chunked_wavelet_octree.h:20-61). -/
structure HashedChunkedWaveletOctree where
  minCellWidth : ℚ := 1 / 10
  minLogOdds : ℚ := -2
  maxLogOdds : ℚ := 4
  treeHeight : Int := 6
  onlyPruneBlocksIfUnusedFor : ℚ := 5
deriving DecidableEq

/-- `HashedChunkedWaveletOctreeConfig::memberMap` (hashed_chunked_wavelet_octree.cc:8-13). -/
def HashedChunkedWaveletOctree.members : List (ConfigMember HashedChunkedWaveletOctree) :=
  [.of "min_cell_width" (valueWithUnitFrom .meters) (·.minCellWidth) (fun c x => { c with minCellWidth := x }),
   .of "min_log_odds" readFloat (·.minLogOdds) (fun c x => { c with minLogOdds := x }),
   .of "max_log_odds" readFloat (·.maxLogOdds) (fun c x => { c with maxLogOdds := x }),
   .of "tree_height" Param.Value.asInt (·.treeHeight) (fun c x => { c with treeHeight := x }),
   .of "only_prune_blocks_if_unused_for" (valueWithUnitFrom .seconds) (·.onlyPruneBlocksIfUnusedFor) (fun c x => { c with onlyPruneBlocksIfUnusedFor := x })]

/-- `HashedChunkedWaveletOctreeConfig::from` (config_base_inl.h:102-153). -/
def HashedChunkedWaveletOctree.from (v : Param.Value) : Option HashedChunkedWaveletOctree := configFrom {} HashedChunkedWaveletOctree.members v

/-- `HashedChunkedWaveletOctreeConfig::isValid` (hashed_chunked_wavelet_octree.cc:15-24; `kMaxSupportedTreeHeight` is `9`). -/
def HashedChunkedWaveletOctree.isValid (c : HashedChunkedWaveletOctree) : Bool :=
  decide (0 < c.minCellWidth ∧ c.minLogOdds < c.maxLogOdds ∧ 0 < c.treeHeight ∧ c.treeHeight ≤ 9)

/-- `ThresholdMapOperationConfig` (threshold_map_operation.h:15-23). -/
structure ThresholdMapOperation where
  onceEvery : ℚ := 2
deriving DecidableEq

/-- `ThresholdMapOperationConfig::memberMap` (threshold_map_operation.cc:4-5). -/
def ThresholdMapOperation.members : List (ConfigMember ThresholdMapOperation) :=
  [.of "once_every" (valueWithUnitFrom .seconds) (·.onceEvery) (fun c x => { c with onceEvery := x })]

/-- `ThresholdMapOperationConfig::from` (config_base_inl.h:102-153). -/
def ThresholdMapOperation.from (v : Param.Value) : Option ThresholdMapOperation := configFrom {} ThresholdMapOperation.members v

/-- `ThresholdMapOperationConfig::isValid` (threshold_map_operation.cc:7-9). -/
def ThresholdMapOperation.isValid (c : ThresholdMapOperation) : Bool :=
  decide (0 < c.onceEvery)

/-- `PruneMapOperationConfig` (prune_map_operation.h:15-22). -/
structure PruneMapOperation where
  onceEvery : ℚ := 10
deriving DecidableEq

/-- `PruneMapOperationConfig::memberMap` (prune_map_operation.cc:4-5). -/
def PruneMapOperation.members : List (ConfigMember PruneMapOperation) :=
  [.of "once_every" (valueWithUnitFrom .seconds) (·.onceEvery) (fun c x => { c with onceEvery := x })]

/-- `PruneMapOperationConfig::from` (config_base_inl.h:102-153). -/
def PruneMapOperation.from (v : Param.Value) : Option PruneMapOperation := configFrom {} PruneMapOperation.members v

/-- `PruneMapOperationConfig::isValid` (prune_map_operation.cc:7-9). -/
def PruneMapOperation.isValid (c : PruneMapOperation) : Bool :=
  decide (0 < c.onceEvery)

/-- `RayTracingIntegratorConfig` (ray_tracing_integrator.h:15-27). -/
structure RayTracingIntegrator where
  minRange : ℚ := 1 / 2
  maxRange : ℚ := 20
deriving DecidableEq

/-- `RayTracingIntegratorConfig::memberMap` (ray_tracing_integrator.cc:4-6). -/
def RayTracingIntegrator.members : List (ConfigMember RayTracingIntegrator) :=
  [.of "min_range" (valueWithUnitFrom .meters) (·.minRange) (fun c x => { c with minRange := x }),
   .of "max_range" (valueWithUnitFrom .meters) (·.maxRange) (fun c x => { c with maxRange := x })]

/-- `RayTracingIntegratorConfig::from` (config_base_inl.h:102-153). -/
def RayTracingIntegrator.from (v : Param.Value) : Option RayTracingIntegrator := configFrom {} RayTracingIntegrator.members v

/-- `RayTracingIntegratorConfig::from` with a subconfig name (config_base_inl.h:155-168). -/
def RayTracingIntegrator.fromSub (v : Param.Value) (sub : String) : Option RayTracingIntegrator :=
  configFromSub {} RayTracingIntegrator.members v sub

/-- `RayTracingIntegratorConfig::isValid` (ray_tracing_integrator.cc:8-16). -/
def RayTracingIntegrator.isValid (c : RayTracingIntegrator) : Bool :=
  decide (0 < c.minRange ∧ 0 < c.maxRange ∧ c.minRange < c.maxRange)

/-- `ProjectiveIntegratorConfig` (projective_integrator.h:18-45). -/
structure ProjectiveIntegrator where
  minRange : ℚ := 1 / 2
  maxRange : ℚ := 20
  maxUpdateResolution : ℚ := 0
  terminationUpdateError : ℚ := 1 / 10
deriving DecidableEq

/-- `ProjectiveIntegratorConfig::memberMap` (projective_integrator.cc:7-11). -/
def ProjectiveIntegrator.members : List (ConfigMember ProjectiveIntegrator) :=
  [.of "min_range" (valueWithUnitFrom .meters) (·.minRange) (fun c x => { c with minRange := x }),
   .of "max_range" (valueWithUnitFrom .meters) (·.maxRange) (fun c x => { c with maxRange := x }),
   .of "max_update_resolution" (valueWithUnitFrom .meters) (·.maxUpdateResolution) (fun c x => { c with maxUpdateResolution := x }),
   .of "termination_update_error" readFloat (·.terminationUpdateError) (fun c x => { c with terminationUpdateError := x })]

/-- `ProjectiveIntegratorConfig::from` (config_base_inl.h:102-153). -/
def ProjectiveIntegrator.from (v : Param.Value) : Option ProjectiveIntegrator := configFrom {} ProjectiveIntegrator.members v

/-- `ProjectiveIntegratorConfig::from` with a subconfig name (config_base_inl.h:155-168). -/
def ProjectiveIntegrator.fromSub (v : Param.Value) (sub : String) : Option ProjectiveIntegrator :=
  configFromSub {} ProjectiveIntegrator.members v sub

/-- `ProjectiveIntegratorConfig::isValid` (projective_integrator.cc:13-23). -/
def ProjectiveIntegrator.isValid (c : ProjectiveIntegrator) : Bool :=
  decide (0 < c.minRange ∧ 0 < c.maxRange ∧ c.minRange < c.maxRange ∧ 0 ≤ c.maxUpdateResolution ∧
  0 < c.terminationUpdateError)

/-- `ConstantRayConfig` (constant_ray.h:12-25). -/
structure ConstantRay where
  logOddsOccupied : ℚ := 17 / 20
  logOddsFree : ℚ := -2 / 5
deriving DecidableEq

/-- `ConstantRayConfig::memberMap` (constant_ray.cc:4). -/
def ConstantRay.members : List (ConfigMember ConstantRay) :=
  [.of "log_odds_occupied" readFloat (·.logOddsOccupied) (fun c x => { c with logOddsOccupied := x }),
   .of "log_odds_free" readFloat (·.logOddsFree) (fun c x => { c with logOddsFree := x })]

/-- `ConstantRayConfig::from` (config_base_inl.h:102-153). -/
def ConstantRay.from (v : Param.Value) : Option ConstantRay := configFrom {} ConstantRay.members v

/-- `ConstantRayConfig::isValid` (constant_ray.h:24). -/
def ConstantRay.isValid (c : ConstantRay) : Bool :=
  decide (True)

/-- `ContinuousRayConfig` (continuous_ray.h:16-42). -/
structure ContinuousRay where
  rangeSigma : ℚ := 0
  scalingFree : ℚ := 1 / 2
  scalingOccupied : ℚ := 1 / 2
  beamSelectorType : Int := 0
deriving DecidableEq

/-- `ContinuousRayConfig::memberMap` (continuous_ray.cc:4-8). -/
def ContinuousRay.members : List (ConfigMember ContinuousRay) :=
  [.of "range_sigma" (valueWithUnitFrom .meters) (·.rangeSigma) (fun c x => { c with rangeSigma := x }),
   .of "scaling_free" readFloat (·.scalingFree) (fun c x => { c with scalingFree := x }),
   .of "scaling_occupied" readFloat (·.scalingOccupied) (fun c x => { c with scalingOccupied := x }),
   .of "beam_selector_type" (TypeSelector.fromParams beamSelectorTypeNames) (·.beamSelectorType) (fun c x => { c with beamSelectorType := x })]

/-- `ContinuousRayConfig::from` (config_base_inl.h:102-153). -/
def ContinuousRay.from (v : Param.Value) : Option ContinuousRay := configFrom {} ContinuousRay.members v

/-- `ContinuousRayConfig::from` with a subconfig name (config_base_inl.h:155-168). -/
def ContinuousRay.fromSub (v : Param.Value) (sub : String) : Option ContinuousRay :=
  configFromSub {} ContinuousRay.members v sub

/-- `ContinuousRayConfig::isValid` (continuous_ray.cc:10-19). -/
def ContinuousRay.isValid (c : ContinuousRay) : Bool :=
  decide (0 < c.rangeSigma ∧ 0 < c.scalingFree ∧ 0 < c.scalingOccupied)

/-- `ContinuousBeamConfig` (continuous_beam.h:19-51). -/
structure ContinuousBeam where
  angleSigma : ℚ := 0
  rangeSigma : ℚ := 0
  scalingFree : ℚ := 1 / 2
  scalingOccupied : ℚ := 1 / 2
  beamSelectorType : Int := 1
deriving DecidableEq

/-- `ContinuousBeamConfig::memberMap` (continuous_beam.cc:4-9). -/
def ContinuousBeam.members : List (ConfigMember ContinuousBeam) :=
  [.of "angle_sigma" (valueWithUnitFrom .radians) (·.angleSigma) (fun c x => { c with angleSigma := x }),
   .of "range_sigma" (valueWithUnitFrom .meters) (·.rangeSigma) (fun c x => { c with rangeSigma := x }),
   .of "scaling_free" readFloat (·.scalingFree) (fun c x => { c with scalingFree := x }),
   .of "scaling_occupied" readFloat (·.scalingOccupied) (fun c x => { c with scalingOccupied := x }),
   .of "beam_selector_type" (TypeSelector.fromParams beamSelectorTypeNames) (·.beamSelectorType) (fun c x => { c with beamSelectorType := x })]

/-- `ContinuousBeamConfig::from` (config_base_inl.h:102-153). -/
def ContinuousBeam.from (v : Param.Value) : Option ContinuousBeam := configFrom {} ContinuousBeam.members v

/-- `ContinuousBeamConfig::from` with a subconfig name (config_base_inl.h:155-168). -/
def ContinuousBeam.fromSub (v : Param.Value) (sub : String) : Option ContinuousBeam :=
  configFromSub {} ContinuousBeam.members v sub

/-- `ContinuousBeamConfig::isValid` (continuous_beam.cc:11-21). -/
def ContinuousBeam.isValid (c : ContinuousBeam) : Bool :=
  decide (0 < c.angleSigma ∧ 0 < c.rangeSigma ∧ 0 < c.scalingFree ∧ 0 < c.scalingOccupied)

/-- `CircularProjectorConfig` (circular_projector.h:11-29). -/
structure CircularProjector where
  minAngle : ℚ := 0
  maxAngle : ℚ := 0
  numCells : Int := 0
deriving DecidableEq

/-- `CircularProjectorConfig::memberMap` (circular_projector.cc:4-7). -/
def CircularProjector.members : List (ConfigMember CircularProjector) :=
  [.of "min_angle" (valueWithUnitFrom .radians) (·.minAngle) (fun c x => { c with minAngle := x }),
   .of "max_angle" (valueWithUnitFrom .radians) (·.maxAngle) (fun c x => { c with maxAngle := x }),
   .of "num_cells" Param.Value.asInt (·.numCells) (fun c x => { c with numCells := x })]

/-- `CircularProjectorConfig::from` (config_base_inl.h:102-153). -/
def CircularProjector.from (v : Param.Value) : Option CircularProjector := configFrom {} CircularProjector.members v

/-- `CircularProjectorConfig::isValid` (circular_projector.cc:9-23). -/
def CircularProjector.isValid (c : CircularProjector) : Bool :=
  decide (-kPiQ ≤ c.minAngle ∧ c.minAngle ≤ kPiQ ∧ -kPiQ ≤ c.maxAngle ∧ c.maxAngle ≤ kPiQ ∧
  c.minAngle < c.maxAngle ∧ 1 < c.numCells)

/-- `SphericalProjectorConfig` (spherical_projector.h:15-31). -/
structure SphericalProjector where
  elevation : CircularProjector := {}
  azimuth : CircularProjector := {}
deriving DecidableEq

/-- `SphericalProjectorConfig::memberMap` (spherical_projector.cc:100). -/
def SphericalProjector.members : List (ConfigMember SphericalProjector) :=
  [.of "elevation" CircularProjector.from (·.elevation) (fun c x => { c with elevation := x }),
   .of "azimuth" CircularProjector.from (·.azimuth) (fun c x => { c with azimuth := x })]

/-- `SphericalProjectorConfig::from` (config_base_inl.h:102-153). -/
def SphericalProjector.from (v : Param.Value) : Option SphericalProjector := configFrom {} SphericalProjector.members v

/-- `SphericalProjectorConfig::from` with a subconfig name (config_base_inl.h:155-168). -/
def SphericalProjector.fromSub (v : Param.Value) (sub : String) : Option SphericalProjector :=
  configFromSub {} SphericalProjector.members v sub

/-- `SphericalProjectorConfig::isValid` (spherical_projector.cc:102-104). -/
def SphericalProjector.isValid (c : SphericalProjector) : Bool :=
  decide (c.elevation.isValid = true ∧ c.azimuth.isValid = true)

/-- `OusterProjectorConfig` (ouster_projector.h:15-45). -/
structure OusterProjector where
  elevation : CircularProjector := {}
  azimuth : CircularProjector := {}
  lidarOriginToBeamOrigin : ℚ := 2767 / 100000
  lidarOriginToSensorOriginZOffset : ℚ := 3618 / 100000
deriving DecidableEq

/-- `OusterProjectorConfig::memberMap` (ouster_projector.cc:100-104). -/
def OusterProjector.members : List (ConfigMember OusterProjector) :=
  [.of "elevation" CircularProjector.from (·.elevation) (fun c x => { c with elevation := x }),
   .of "azimuth" CircularProjector.from (·.azimuth) (fun c x => { c with azimuth := x }),
   .of "lidar_origin_to_beam_origin" (valueWithUnitFrom .meters) (·.lidarOriginToBeamOrigin) (fun c x => { c with lidarOriginToBeamOrigin := x }),
   .of "lidar_origin_to_sensor_origin_z_offset" (valueWithUnitFrom .meters) (·.lidarOriginToSensorOriginZOffset) (fun c x => { c with lidarOriginToSensorOriginZOffset := x })]

/-- `OusterProjectorConfig::from` (config_base_inl.h:102-153). -/
def OusterProjector.from (v : Param.Value) : Option OusterProjector := configFrom {} OusterProjector.members v

/-- `OusterProjectorConfig::from` with a subconfig name (config_base_inl.h:155-168). -/
def OusterProjector.fromSub (v : Param.Value) (sub : String) : Option OusterProjector :=
  configFromSub {} OusterProjector.members v sub

/-- `OusterProjectorConfig::isValid` (ouster_projector.cc:106-108). -/
def OusterProjector.isValid (c : OusterProjector) : Bool :=
  decide (c.elevation.isValid = true ∧ c.azimuth.isValid = true)

/-- `PinholeCameraProjectorConfig` (pinhole_camera_projector.h:13-42). -/
structure PinholeCameraProjector where
  width : Int := 0
  height : Int := 0
  fx : ℚ := 0
  fy : ℚ := 0
  cx : ℚ := 0
  cy : ℚ := 0
deriving DecidableEq

/-- `PinholeCameraProjectorConfig::memberMap` (pinhole_camera_projector.cc:62-63). -/
def PinholeCameraProjector.members : List (ConfigMember PinholeCameraProjector) :=
  [.of "width" Param.Value.asInt (·.width) (fun c x => { c with width := x }),
   .of "height" Param.Value.asInt (·.height) (fun c x => { c with height := x }),
   .of "fx" readFloat (·.fx) (fun c x => { c with fx := x }),
   .of "fy" readFloat (·.fy) (fun c x => { c with fy := x }),
   .of "cx" readFloat (·.cx) (fun c x => { c with cx := x }),
   .of "cy" readFloat (·.cy) (fun c x => { c with cy := x })]

/-- `PinholeCameraProjectorConfig::from` (config_base_inl.h:102-153). -/
def PinholeCameraProjector.from (v : Param.Value) : Option PinholeCameraProjector := configFrom {} PinholeCameraProjector.members v

/-- `PinholeCameraProjectorConfig::from` with a subconfig name (config_base_inl.h:155-168). -/
def PinholeCameraProjector.fromSub (v : Param.Value) (sub : String) : Option PinholeCameraProjector :=
  configFromSub {} PinholeCameraProjector.members v sub

/-- `PinholeCameraProjectorConfig::isValid` (pinhole_camera_projector.cc:65-75). -/
def PinholeCameraProjector.isValid (c : PinholeCameraProjector) : Bool :=
  decide (0 < c.width ∧ 0 < c.height ∧ 0 < c.fx ∧ 0 < c.fy)

/-- `RosServerConfig` (ros_server.h:28-44). -/
structure RosServer where
  worldFrame : String := "odom"
  numThreads : Int
  loggingLevel : Int := 1
  allowResetMapService : Bool := false
deriving DecidableEq

/-- `RosServerConfig::memberMap` (ros_server.cc:17-21). -/
def RosServer.members : List (ConfigMember RosServer) :=
  [.of "world_frame" Param.Value.asStr (·.worldFrame) (fun c x => { c with worldFrame := x }),
   .of "num_threads" Param.Value.asInt (·.numThreads) (fun c x => { c with numThreads := x }),
   .of "logging_level" (TypeSelector.fromParams rosLoggingLevelNames) (·.loggingLevel) (fun c x => { c with loggingLevel := x }),
   .of "allow_reset_map_service" Param.Value.asBool (·.allowResetMapService) (fun c x => { c with allowResetMapService := x })]

/-- `RosServerConfig::from` (config_base_inl.h:102-153); `hw` is `std::thread::hardware_concurrency()`. -/
def RosServer.from (hw : Int) (v : Param.Value) : Option RosServer := configFrom { numThreads := max 1 hw } RosServer.members v

/-- `RosServerConfig::isValid` (ros_server.cc:23-31). -/
def RosServer.isValid (c : RosServer) : Bool :=
  decide (c.worldFrame ≠ "" ∧ 0 < c.numThreads ∧
  TypeSelector.isValid rosLoggingLevelNames c.loggingLevel = true)

/-- `RosInputBaseConfig` (ros_input_base.h:24-46). -/
structure RosInputBase where
  topicName : String := "scan"
  topicQueueLength : Int := 10
  measurementIntegratorNames : List String := []
  processingRetryPeriod : ℚ := 1 / 20
deriving DecidableEq

/-- `RosInputBaseConfig::memberMap` (ros_input_base.cc:8-12). -/
def RosInputBase.members : List (ConfigMember RosInputBase) :=
  [.of "topic_name" Param.Value.asStr (·.topicName) (fun c x => { c with topicName := x }),
   .of "topic_queue_length" Param.Value.asInt (·.topicQueueLength) (fun c x => { c with topicQueueLength := x }),
   .of "measurement_integrator_names" stringListFrom (·.measurementIntegratorNames) (fun c x => { c with measurementIntegratorNames := x }),
   .of "processing_retry_period" (valueWithUnitFrom .seconds) (·.processingRetryPeriod) (fun c x => { c with processingRetryPeriod := x })]

/-- `RosInputBaseConfig::from` (config_base_inl.h:102-153). -/
def RosInputBase.from (v : Param.Value) : Option RosInputBase := configFrom {} RosInputBase.members v

/-- `RosInputBaseConfig::isValid` (ros_input_base.cc:14-23). -/
def RosInputBase.isValid (c : RosInputBase) : Bool :=
  decide (c.topicName ≠ "" ∧ 0 < c.topicQueueLength ∧ c.measurementIntegratorNames ≠ [] ∧
  0 < c.processingRetryPeriod)

/-- `DepthImageTopicInputConfig` (depth_image_topic_input.h:22-69). -/
structure DepthImageTopicInput where
  topicName : String := ""
  topicQueueLength : Int := 10
  measurementIntegratorNames : List String := []
  processingRetryPeriod : ℚ := 1 / 20
  maxWaitForPose : ℚ := 1
  sensorFrameId : String := ""
  imageTransportHints : String := "raw"
  depthScaleFactor : ℚ := 1
  timeOffset : ℚ := 0
  projectedPointcloudTopicName : String := ""
deriving DecidableEq

/-- `DepthImageTopicInputConfig::memberMap` (depth_image_topic_input.cc:19-29). -/
def DepthImageTopicInput.members : List (ConfigMember DepthImageTopicInput) :=
  [.of "topic_name" Param.Value.asStr (·.topicName) (fun c x => { c with topicName := x }),
   .of "topic_queue_length" Param.Value.asInt (·.topicQueueLength) (fun c x => { c with topicQueueLength := x }),
   .of "measurement_integrator_names" stringListFrom (·.measurementIntegratorNames) (fun c x => { c with measurementIntegratorNames := x }),
   .of "processing_retry_period" (valueWithUnitFrom .seconds) (·.processingRetryPeriod) (fun c x => { c with processingRetryPeriod := x }),
   .of "max_wait_for_pose" (valueWithUnitFrom .seconds) (·.maxWaitForPose) (fun c x => { c with maxWaitForPose := x }),
   .of "sensor_frame_id" Param.Value.asStr (·.sensorFrameId) (fun c x => { c with sensorFrameId := x }),
   .of "image_transport_hints" Param.Value.asStr (·.imageTransportHints) (fun c x => { c with imageTransportHints := x }),
   .of "depth_scale_factor" readFloat (·.depthScaleFactor) (fun c x => { c with depthScaleFactor := x }),
   .of "time_offset" (valueWithUnitFrom .seconds) (·.timeOffset) (fun c x => { c with timeOffset := x }),
   .of "projected_pointcloud_topic_name" Param.Value.asStr (·.projectedPointcloudTopicName) (fun c x => { c with projectedPointcloudTopicName := x })]

/-- `DepthImageTopicInputConfig::from` (config_base_inl.h:102-153). -/
def DepthImageTopicInput.from (v : Param.Value) : Option DepthImageTopicInput := configFrom {} DepthImageTopicInput.members v

/-- `DepthImageTopicInputConfig::isValid` (depth_image_topic_input.cc:31-41). -/
def DepthImageTopicInput.isValid (c : DepthImageTopicInput) : Bool :=
  decide (c.topicName ≠ "" ∧ 0 < c.topicQueueLength ∧ c.measurementIntegratorNames ≠ [] ∧
  0 < c.processingRetryPeriod ∧ 0 ≤ c.maxWaitForPose)

/-- `PointcloudTopicInputConfig` (pointcloud_topic_input.h:33-89). -/
structure PointcloudTopicInput where
  topicName : String := ""
  topicType : Int := 0
  topicQueueLength : Int := 10
  measurementIntegratorNames : List String := []
  processingRetryPeriod : ℚ := 1 / 20
  maxWaitForPose : ℚ := 1
  sensorFrameId : String := ""
  timeOffset : ℚ := 0
  undistortMotion : Bool := false
  numUndistortionIntervals : Int := 100
  projectedRangeImageTopicName : String := ""
  undistortedPointcloudTopicName : String := ""
deriving DecidableEq

/-- `PointcloudTopicInputConfig::memberMap` (pointcloud_topic_input.cc:19-31). -/
def PointcloudTopicInput.members : List (ConfigMember PointcloudTopicInput) :=
  [.of "topic_name" Param.Value.asStr (·.topicName) (fun c x => { c with topicName := x }),
   .of "topic_type" (TypeSelector.fromParams pointcloudTopicTypeNames) (·.topicType) (fun c x => { c with topicType := x }),
   .of "topic_queue_length" Param.Value.asInt (·.topicQueueLength) (fun c x => { c with topicQueueLength := x }),
   .of "measurement_integrator_names" stringListFrom (·.measurementIntegratorNames) (fun c x => { c with measurementIntegratorNames := x }),
   .of "processing_retry_period" (valueWithUnitFrom .seconds) (·.processingRetryPeriod) (fun c x => { c with processingRetryPeriod := x }),
   .of "max_wait_for_pose" (valueWithUnitFrom .seconds) (·.maxWaitForPose) (fun c x => { c with maxWaitForPose := x }),
   .of "sensor_frame_id" Param.Value.asStr (·.sensorFrameId) (fun c x => { c with sensorFrameId := x }),
   .of "time_offset" (valueWithUnitFrom .seconds) (·.timeOffset) (fun c x => { c with timeOffset := x }),
   .of "undistort_motion" Param.Value.asBool (·.undistortMotion) (fun c x => { c with undistortMotion := x }),
   .of "num_undistortion_interpolation_intervals_per_cloud" Param.Value.asInt (·.numUndistortionIntervals) (fun c x => { c with numUndistortionIntervals := x }),
   .of "projected_range_image_topic_name" Param.Value.asStr (·.projectedRangeImageTopicName) (fun c x => { c with projectedRangeImageTopicName := x }),
   .of "undistorted_pointcloud_topic_name" Param.Value.asStr (·.undistortedPointcloudTopicName) (fun c x => { c with undistortedPointcloudTopicName := x })]

/-- `PointcloudTopicInputConfig::from` (config_base_inl.h:102-153). -/
def PointcloudTopicInput.from (v : Param.Value) : Option PointcloudTopicInput := configFrom {} PointcloudTopicInput.members v

/-- `PointcloudTopicInputConfig::isValid` (pointcloud_topic_input.cc:33-46). -/
def PointcloudTopicInput.isValid (c : PointcloudTopicInput) : Bool :=
  decide (c.topicName ≠ "" ∧ TypeSelector.isValid pointcloudTopicTypeNames c.topicType = true ∧
  0 < c.topicQueueLength ∧ c.measurementIntegratorNames ≠ [] ∧ 0 < c.processingRetryPeriod ∧
  0 ≤ c.maxWaitForPose ∧ 0 < c.numUndistortionIntervals)

/-- `CropMapOperationConfig` (crop_map_operation.h:18-33). -/
structure CropMapOperation where
  onceEvery : ℚ := 10
  bodyFrame : String := "body"
  removeBlocksBeyondDistance : ℚ := 0
deriving DecidableEq

/-- `CropMapOperationConfig::memberMap` (crop_map_operation.cc:12-15). -/
def CropMapOperation.members : List (ConfigMember CropMapOperation) :=
  [.of "once_every" (valueWithUnitFrom .seconds) (·.onceEvery) (fun c x => { c with onceEvery := x }),
   .of "body_frame" Param.Value.asStr (·.bodyFrame) (fun c x => { c with bodyFrame := x }),
   .of "remove_blocks_beyond_distance" (valueWithUnitFrom .meters) (·.removeBlocksBeyondDistance) (fun c x => { c with removeBlocksBeyondDistance := x })]

/-- `CropMapOperationConfig::from` (config_base_inl.h:102-153). -/
def CropMapOperation.from (v : Param.Value) : Option CropMapOperation := configFrom {} CropMapOperation.members v

/-- `CropMapOperationConfig::isValid` (crop_map_operation.cc:17-25). -/
def CropMapOperation.isValid (c : CropMapOperation) : Bool :=
  decide (0 < c.onceEvery ∧ c.bodyFrame ≠ "" ∧ 0 < c.removeBlocksBeyondDistance)

/-- `PublishMapOperationConfig` (publish_map_operation.h:18-36). -/
structure PublishMapOperation where
  onceEvery : ℚ := 2
  maxNumBlocksPerMsg : Int := 1000
  topic : String := "map"
deriving DecidableEq

/-- `PublishMapOperationConfig::memberMap` (publish_map_operation.cc:13-16). -/
def PublishMapOperation.members : List (ConfigMember PublishMapOperation) :=
  [.of "once_every" (valueWithUnitFrom .seconds) (·.onceEvery) (fun c x => { c with onceEvery := x }),
   .of "max_num_blocks_per_msg" Param.Value.asInt (·.maxNumBlocksPerMsg) (fun c x => { c with maxNumBlocksPerMsg := x }),
   .of "topic" Param.Value.asStr (·.topic) (fun c x => { c with topic := x })]

/-- `PublishMapOperationConfig::from` (config_base_inl.h:102-153). -/
def PublishMapOperation.from (v : Param.Value) : Option PublishMapOperation := configFrom {} PublishMapOperation.members v

/-- `PublishMapOperationConfig::isValid` (publish_map_operation.cc:18-26). -/
def PublishMapOperation.isValid (c : PublishMapOperation) : Bool :=
  decide (0 < c.onceEvery ∧ 0 < c.maxNumBlocksPerMsg ∧ c.topic ≠ "")

/-- `PublishPointcloudOperationConfig` (publish_pointcloud_operation.h:18-34). -/
structure PublishPointcloudOperation where
  onceEvery : ℚ := 1
  occupancyThresholdLogOdds : ℚ := 1 / 1000
  onlyPublishChangedBlocks : Bool := true
  topic : String := "obstacle_pointcloud"
deriving DecidableEq

/-- `PublishPointcloudOperationConfig::memberMap` (publish_pointcloud_operation.cc:17-21). -/
def PublishPointcloudOperation.members : List (ConfigMember PublishPointcloudOperation) :=
  [.of "once_every" (valueWithUnitFrom .seconds) (·.onceEvery) (fun c x => { c with onceEvery := x }),
   .of "occupancy_threshold_log_odds" readFloat (·.occupancyThresholdLogOdds) (fun c x => { c with occupancyThresholdLogOdds := x }),
   .of "only_publish_changed_blocks" Param.Value.asBool (·.onlyPublishChangedBlocks) (fun c x => { c with onlyPublishChangedBlocks := x }),
   .of "topic" Param.Value.asStr (·.topic) (fun c x => { c with topic := x })]

/-- `PublishPointcloudOperationConfig::from` (config_base_inl.h:102-153). -/
def PublishPointcloudOperation.from (v : Param.Value) : Option PublishPointcloudOperation := configFrom {} PublishPointcloudOperation.members v

/-- `PublishPointcloudOperationConfig::isValid` (publish_pointcloud_operation.cc:23-32; an exact number is never NaN). -/
def PublishPointcloudOperation.isValid (c : PublishPointcloudOperation) : Bool :=
  decide (0 < c.onceEvery ∧ c.topic ≠ "")

end Cfg

end Wavemap
