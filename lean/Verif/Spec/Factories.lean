import Verif.Spec.Config
import Verif.Model.Factories

/-!
# Specification: what a factory is asked for

A request is read off the parameters: which type they name and which settings they give. What a factory does then
depends only on whether there is a request and whether its settings are usable (`FactoryDoes`).
-/

namespace Wavemap

/-- What a factory does with a request: it makes the object that is requested if its settings are usable, aborts if
they are not, and returns a null pointer if nothing is requested. -/
def FactoryDoes {α : Type} (Requested Usable : α → Prop) (x : Made α) : Prop :=
  (∀ m, x = .made m ↔ Requested m ∧ Usable m) ∧ (x = .abort ↔ ∃ m, Requested m ∧ ¬Usable m) ∧
    (x = .null ↔ ¬∃ m, Requested m)

/-- The value of the entry `key` of the parameters. -/
def Param.Value.Entry (params : Param.Value) (key : String) (w : Param.Value) : Prop :=
  ∃ es, params = .map es ∧ (key, w) ∈ es

/-- The type that is asked for: the one of `names` that the parameter `Source` names or, if it names none of them, the
default type. -/
def Chooses (names : List String) (Source : Param.Value → Prop) (dflt : Option Int) (name : String) : Prop :=
  (name ∈ names ∧ ∃ w, Source w ∧ NamesType w name) ∨
    ((∀ s ∈ names, ¬∃ w, Source w ∧ NamesType w s) ∧ ∃ k : Nat, dflt = some (k : Int) ∧ names[k]? = some name)

/-- The map asked for: the type and the config that the parameters give. -/
def MapRequested (params : Param.Value) (dflt : Option Int) : MapObject → Prop
  | .hashedBlocks c => Chooses mapTypeNames (· = params) dflt "hashed_blocks" ∧ Cfg.MapBase.from params = some c
  | .octree c => Chooses mapTypeNames (· = params) dflt "octree" ∧ Cfg.VolumetricOctree.from params = some c
  | .waveletOctree c =>
    Chooses mapTypeNames (· = params) dflt "wavelet_octree" ∧ Cfg.WaveletOctree.from params = some c
  | .hashedWaveletOctree c =>
    Chooses mapTypeNames (· = params) dflt "hashed_wavelet_octree" ∧ Cfg.HashedWaveletOctree.from params = some c
  | .hashedChunkedWaveletOctree c =>
    Chooses mapTypeNames (· = params) dflt "hashed_chunked_wavelet_octree" ∧
      Cfg.HashedChunkedWaveletOctree.from params = some c

/-- A positive cell width, ordered log-odds bounds and a positive tree height within the limit of the octree (20
levels above the cells; the octree of a wavelet map has one level less). -/
def MapUsable : MapObject → Prop
  | .hashedBlocks c => 0 < c.minCellWidth ∧ c.minLogOdds < c.maxLogOdds
  | .octree c => 0 < c.minCellWidth ∧ c.minLogOdds < c.maxLogOdds ∧ 0 < c.treeHeight ∧ c.treeHeight ≤ 20
  | .waveletOctree c => 0 < c.minCellWidth ∧ c.minLogOdds < c.maxLogOdds ∧ 0 < c.treeHeight ∧ c.treeHeight ≤ 21
  | .hashedWaveletOctree c => 0 < c.minCellWidth ∧ c.minLogOdds < c.maxLogOdds ∧ 0 < c.treeHeight
  | .hashedChunkedWaveletOctree c =>
    0 < c.minCellWidth ∧ c.minLogOdds < c.maxLogOdds ∧ 0 < c.treeHeight ∧ c.treeHeight ≤ 9

/-- The projection model asked for in the entry `"projection_model"`. -/
def ProjectorRequested (params : Param.Value) (dflt : Option Int) : ProjectorObject → Prop
  | .spherical c =>
    Chooses projectorTypeNames (params.Entry "projection_model") dflt "spherical_projector" ∧
      ∃ w, params.Entry "projection_model" w ∧ Cfg.SphericalProjector.from w = some c
  | .ouster c =>
    Chooses projectorTypeNames (params.Entry "projection_model") dflt "ouster_projector" ∧
      ∃ w, params.Entry "projection_model" w ∧ Cfg.OusterProjector.from w = some c
  | .pinhole c =>
    Chooses projectorTypeNames (params.Entry "projection_model") dflt "pinhole_camera_projector" ∧
      ∃ w, params.Entry "projection_model" w ∧ Cfg.PinholeCameraProjector.from w = some c

/-- An interval of angles within half a turn to each side, divided into at least two cells. -/
def CircularUsable (c : Cfg.CircularProjector) : Prop :=
  -kPiQ ≤ c.minAngle ∧ c.minAngle < c.maxAngle ∧ c.maxAngle ≤ kPiQ ∧ 2 ≤ c.numCells

/-- Usable angles, or a positive image size and positive focal lengths. -/
def ProjectorUsable : ProjectorObject → Prop
  | .spherical c => CircularUsable c.elevation ∧ CircularUsable c.azimuth
  | .ouster c => CircularUsable c.elevation ∧ CircularUsable c.azimuth
  | .pinhole c => 0 < c.width ∧ 0 < c.height ∧ 0 < c.fx ∧ 0 < c.fy

/-- The measurement model asked for in the entry `"measurement_model"`. -/
def MeasurementModelRequested (params : Param.Value) (dflt : Option Int) : MeasurementModelObject → Prop
  | .continuousRay c =>
    Chooses measurementModelTypeNames (params.Entry "measurement_model") dflt "continuous_ray" ∧
      ∃ w, params.Entry "measurement_model" w ∧ Cfg.ContinuousRay.from w = some c
  | .continuousBeam c =>
    Chooses measurementModelTypeNames (params.Entry "measurement_model") dflt "continuous_beam" ∧
      ∃ w, params.Entry "measurement_model" w ∧ Cfg.ContinuousBeam.from w = some c

/-- Positive standard deviations and scaling factors. -/
def MeasurementModelUsable : MeasurementModelObject → Prop
  | .continuousRay c => 0 < c.rangeSigma ∧ 0 < c.scalingFree ∧ 0 < c.scalingOccupied
  | .continuousBeam c => 0 < c.angleSigma ∧ 0 < c.rangeSigma ∧ 0 < c.scalingFree ∧ 0 < c.scalingOccupied

/-- The integrators that a map can be used with: the first integrator for every kind of map, the others for one kind
of map each. -/
def Integrates (name : String) (map : MapObject) : Prop :=
  name = "fixed_resolution_integrator" ∨
    match map with
    | .hashedBlocks _ => False
    | .octree _ => name = "coarse_to_fine_integrator"
    | .waveletOctree _ => name = "wavelet_integrator"
    | .hashedWaveletOctree _ => name = "hashed_wavelet_integrator"
    | .hashedChunkedWaveletOctree _ => name = "hashed_chunked_wavelet_integrator"

/-- A usable integrator asked for in the entry `"integration_method"`, for a given map. -/
def IntegratorGood (params : Param.Value) (map : MapObject) (dflt : Option Int) : IntegratorObject → Prop
  | .rayTracing c =>
    Chooses integratorTypeNames (params.Entry "integration_method") dflt "ray_tracing_integrator" ∧
      (∃ w, params.Entry "integration_method" w ∧ Cfg.RayTracingIntegrator.from w = some c) ∧
      0 < c.minRange ∧ c.minRange < c.maxRange
  | .projective type c p m =>
    (∃ (k : Nat) (name : String), type = (k : Int) ∧ integratorTypeNames[k]? = some name ∧
      Chooses integratorTypeNames (params.Entry "integration_method") dflt name ∧ Integrates name map) ∧
      (∃ w, params.Entry "integration_method" w ∧ Cfg.ProjectiveIntegrator.from w = some c) ∧
      (0 < c.minRange ∧ c.minRange < c.maxRange ∧ 0 ≤ c.maxUpdateResolution ∧ 0 < c.terminationUpdateError) ∧
      (ProjectorRequested params none p ∧ ProjectorUsable p) ∧
      MeasurementModelRequested params none m ∧ MeasurementModelUsable m

/-- The map operation asked for. `Named` gives the type name. -/
def OperationRequested (params : Param.Value) : OperationObject → Prop
  | .threshold c => NamesType params "threshold_map" ∧ Cfg.ThresholdMapOperation.from params = some c
  | .prune c => NamesType params "prune_map" ∧ Cfg.PruneMapOperation.from params = some c
  | .publishMap c => NamesType params "publish_map" ∧ Cfg.PublishMapOperation.from params = some c
  | .publishPointcloud c =>
    NamesType params "publish_pointcloud" ∧ Cfg.PublishPointcloudOperation.from params = some c
  | .crop c => NamesType params "crop_map" ∧ Cfg.CropMapOperation.from params = some c

/-- The operations that do not depend on ROS. -/
def OperationObject.IsGeneral : OperationObject → Prop
  | .threshold _ | .prune _ => True
  | _ => False

/-- Positive periods, message sizes and distances, and names that are not empty. -/
def OperationUsable : OperationObject → Prop
  | .threshold c => 0 < c.onceEvery
  | .prune c => 0 < c.onceEvery
  | .publishMap c => 0 < c.onceEvery ∧ 0 < c.maxNumBlocksPerMsg ∧ c.topic ≠ ""
  | .publishPointcloud c => 0 < c.onceEvery ∧ c.topic ≠ ""
  | .crop c => 0 < c.onceEvery ∧ c.bodyFrame ≠ "" ∧ 0 < c.removeBlocksBeyondDistance

/-- The input asked for. -/
def InputRequested (params : Param.Value) : InputObject → Prop
  | .pointcloudTopic c => NamesType params "pointcloud_topic" ∧ Cfg.PointcloudTopicInput.from params = some c
  | .depthImageTopic c => NamesType params "depth_image_topic" ∧ Cfg.DepthImageTopicInput.from params = some c

/-- A topic, at least one integrator, positive queue length and periods. -/
def InputUsable : InputObject → Prop
  | .pointcloudTopic c =>
    c.topicName ≠ "" ∧ (0 ≤ c.topicType ∧ c.topicType < 3) ∧ 0 < c.topicQueueLength ∧
      c.measurementIntegratorNames ≠ [] ∧ 0 < c.processingRetryPeriod ∧ 0 ≤ c.maxWaitForPose ∧
      0 < c.numUndistortionIntervals
  | .depthImageTopic c =>
    c.topicName ≠ "" ∧ 0 < c.topicQueueLength ∧ c.measurementIntegratorNames ≠ [] ∧ 0 < c.processingRetryPeriod ∧
      0 ≤ c.maxWaitForPose

end Wavemap
