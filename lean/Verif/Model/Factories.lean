import Verif.Model.Configs

/-!
# Factories

Models `map_factory.cc`, `integrator_factory.cc`, `projector_factory.cc`, `measurement_model_factory.cc`,
`map_operation_factory.cc`, `map_ros_operation_factory.cc`, `ros_input_factory.cc` and `RosServer::addOperation`. An
object is modelled by its kind and the config it keeps; constructors abort (`CHECK`) on an invalid config.
-/

namespace Wavemap

/-- What a factory does: it makes an object, returns a null pointer or aborts the program (`CHECK` failure).
The factories are map_factory.cc, projector_factory.cc, measurement_model_factory.cc, integrator_factory.cc, map_operation_factory.cc, map_ros_operation_factory.cc and ros_input_factory.cc. -/
inductive Made (α : Type) where
  | made (a : α)
  | null
  | abort
deriving DecidableEq

/-- Change the type of object. Auxiliary: the cast to the base class pointer that the factories return (map_factory.cc:28-82, for instance). -/
def Made.map {α β : Type} (f : α → β) : Made α → Made β
  | .made a => .made (f a)
  | .null => .null
  | .abort => .abort

/-- `config.checkValid()` in the constructor (config_base.h:56-59), followed by the object. -/
def constructed {C : Type} (isValid : C → Bool) (c : C) : Made C := if isValid c then .made c else .abort

/-- The branch of a factory that loads a config and constructs the object from it, or returns `nullptr` if there
is no config. (map_factory.cc:28-82, for instance.) -/
def fromConfig {C : Type} (isValid : C → Bool) : Option C → Made C
  | some c => constructed isValid c
  | none => .null

/-- The map data structures with their configs (map_factory.cc:28-82). -/
inductive MapObject where
  | hashedBlocks (c : Cfg.MapBase)
  | octree (c : Cfg.VolumetricOctree)
  | waveletOctree (c : Cfg.WaveletOctree)
  | hashedWaveletOctree (c : Cfg.HashedWaveletOctree)
  | hashedChunkedWaveletOctree (c : Cfg.HashedChunkedWaveletOctree)
deriving DecidableEq

/-- Tree height accepted by the constructor of the octree: `CHECK_LE(max_height_, morton::kMaxTreeHeight<3>)`
(ndtree_inl.h:14-17, morton_encoding.h:11). -/
def maxNdtreeHeight : Int := 20

/-- `VolumetricOctree::VolumetricOctree` (volumetric_octree.h:55-56, 97): also the `CHECK` of its octree. -/
def Cfg.VolumetricOctree.constructible (c : Cfg.VolumetricOctree) : Bool :=
  c.isValid && decide (c.treeHeight ≤ maxNdtreeHeight)

/-- `WaveletOctree::WaveletOctree` (wavelet_octree.h:61-62, 110): its octree has height `tree_height - 1`. -/
def Cfg.WaveletOctree.constructible (c : Cfg.WaveletOctree) : Bool :=
  c.isValid && decide (c.treeHeight - 1 ≤ maxNdtreeHeight)

/-- `MapFactory::create(map_type, params)` (map_factory.cc:28-82). -/
def MapFactory.createType (type : Int) (params : Param.Value) : Made MapObject :=
  if type = 0 then (fromConfig (·.isValid) (Cfg.MapBase.from params)).map .hashedBlocks
  else if type = 1 then (fromConfig (·.constructible) (Cfg.VolumetricOctree.from params)).map .octree
  else if type = 2 then (fromConfig (·.constructible) (Cfg.WaveletOctree.from params)).map .waveletOctree
  else if type = 3 then (fromConfig (·.isValid) (Cfg.HashedWaveletOctree.from params)).map .hashedWaveletOctree
  else if type = 4 then
    (fromConfig (·.isValid) (Cfg.HashedChunkedWaveletOctree.from params)).map .hashedChunkedWaveletOctree
  else .null

/-- `MapFactory::create(params, default_map_type)` (map_factory.cc:12-26). -/
def MapFactory.create (params : Param.Value) (dflt : Option Int) : Made MapObject :=
  match TypeSelector.fromParams mapTypeNames params with
  | some type => MapFactory.createType type params
  | none =>
    match dflt with
    | some type => MapFactory.createType type params
    | none => .null

/-- The projection models with their configs (projector_factory.cc:27-63). -/
inductive ProjectorObject where
  | spherical (c : Cfg.SphericalProjector)
  | ouster (c : Cfg.OusterProjector)
  | pinhole (c : Cfg.PinholeCameraProjector)
deriving DecidableEq

/-- `ProjectorFactory::create(projector_type, params)` (projector_factory.cc:27-63). -/
def ProjectorFactory.createType (type : Int) (params : Param.Value) : Made ProjectorObject :=
  if type = 0 then (fromConfig (·.isValid) (Cfg.SphericalProjector.fromSub params "projection_model")).map .spherical
  else if type = 1 then (fromConfig (·.isValid) (Cfg.OusterProjector.fromSub params "projection_model")).map .ouster
  else if type = 2 then
    (fromConfig (·.isValid) (Cfg.PinholeCameraProjector.fromSub params "projection_model")).map .pinhole
  else .null

/-- `ProjectorFactory::create(params, default)` (projector_factory.cc:10-25). -/
def ProjectorFactory.create (params : Param.Value) (dflt : Option Int) : Made ProjectorObject :=
  match TypeSelector.fromSub projectorTypeNames params "projection_model" with
  | some type => ProjectorFactory.createType type params
  | none =>
    match dflt with
    | some type => ProjectorFactory.createType type params
    | none => .null

/-- The measurement models with their configs (measurement_model_factory.cc:33-67). -/
inductive MeasurementModelObject where
  | continuousRay (c : Cfg.ContinuousRay)
  | continuousBeam (c : Cfg.ContinuousBeam)
deriving DecidableEq

/-- `MeasurementModelFactory::create(type, ...)` (measurement_model_factory.cc:33-67): there is no case for the
type `constant_ray`. The images passed to the constructors have the dimensions of the projector, so the `CHECK`
in `ContinuousBeam`'s constructor (continuous_beam.h:63-64) holds. -/
def MeasurementModelFactory.createType (type : Int) (params : Param.Value) : Made MeasurementModelObject :=
  if type = 1 then (fromConfig (·.isValid) (Cfg.ContinuousRay.fromSub params "measurement_model")).map .continuousRay
  else if type = 2 then
    (fromConfig (·.isValid) (Cfg.ContinuousBeam.fromSub params "measurement_model")).map .continuousBeam
  else .null

/-- `MeasurementModelFactory::create(params, ...)` (measurement_model_factory.cc:10-31). -/
def MeasurementModelFactory.create (params : Param.Value) (dflt : Option Int) : Made MeasurementModelObject :=
  match TypeSelector.fromSub measurementModelTypeNames params "measurement_model" with
  | some type => MeasurementModelFactory.createType type params
  | none =>
    match dflt with
    | some type => MeasurementModelFactory.createType type params
    | none => .null

/-- The integrators with their configs and parts. The projective ones are distinguished by their type (integrator_factory.cc:38-161). -/
inductive IntegratorObject where
  | rayTracing (c : Cfg.RayTracingIntegrator)
  | projective (type : Int) (c : Cfg.ProjectiveIntegrator) (p : ProjectorObject) (m : MeasurementModelObject)
deriving DecidableEq

/-- The `dynamic_pointer_cast` of the map that a projective integrator does (integrator_factory.cc:87-159):
whether a map of this kind, or a null pointer, can be used. `FixedResolutionIntegrator` takes any map. -/
def integratorAcceptsMap (type : Int) : Option MapObject → Bool
  | some (.octree _) => type == 1 || type == 2
  | some (.waveletOctree _) => type == 1 || type == 3
  | some (.hashedWaveletOctree _) => type == 1 || type == 4
  | some (.hashedChunkedWaveletOctree _) => type == 1 || type == 5
  | some (.hashedBlocks _) => type == 1
  | none => type == 1

/-- `IntegratorFactory::create(integrator_type, params, occupancy_map, thread_pool)`
(integrator_factory.cc:38-161). The constructors abort on an invalid config and (`CHECK_NOTNULL`) on a null map. -/
def IntegratorFactory.createType (type : Int) (params : Param.Value) (map : Option MapObject) :
    Made IntegratorObject :=
  if type = 0 then
    match Cfg.RayTracingIntegrator.fromSub params "integration_method" with
    | some c => if c.isValid && map.isSome then .made (.rayTracing c) else .abort
    | none => .null
  else
    match Cfg.ProjectiveIntegrator.fromSub params "integration_method" with
    | none => .null
    | some c =>
      match ProjectorFactory.create params none with
      | .abort => .abort
      | .null => .null
      | .made p =>
        match MeasurementModelFactory.create params none with
        | .abort => .abort
        | .null => .null
        | .made m =>
          if integratorAcceptsMap type map then
            if c.isValid && map.isSome then .made (.projective type c p m) else .abort
          else .null

/-- `IntegratorFactory::create(params, occupancy_map, thread_pool, default)` (integrator_factory.cc:17-36). -/
def IntegratorFactory.create (params : Param.Value) (map : Option MapObject) (dflt : Option Int) :
    Made IntegratorObject :=
  match TypeSelector.fromSub integratorTypeNames params "integration_method" with
  | some type => IntegratorFactory.createType type params map
  | none =>
    match dflt with
    | some type => IntegratorFactory.createType type params map
    | none => .null

/-- The map operations with their configs (map_operation_factory.cc:20-52, map_ros_operation_factory.cc:27-72). -/
inductive OperationObject where
  | threshold (c : Cfg.ThresholdMapOperation)
  | prune (c : Cfg.PruneMapOperation)
  | publishMap (c : Cfg.PublishMapOperation)
  | publishPointcloud (c : Cfg.PublishPointcloudOperation)
  | crop (c : Cfg.CropMapOperation)
deriving DecidableEq

/-- The branch of an operation factory: the base class checks that there is a map
(map_operation_base.h:19-20), then the config is checked. -/
def operationFrom {C : Type} (isValid : C → Bool) (map : Option MapObject) : Option C → Made C
  | some c => if map.isSome && isValid c then .made c else .abort
  | none => .null

/-- `MapOperationFactory::create(operation_type, params, occupancy_map)` (map_operation_factory.cc:20-52). -/
def MapOperationFactory.createType (type : Int) (params : Param.Value) (map : Option MapObject) :
    Made OperationObject :=
  if ¬TypeSelector.isValid mapOperationTypeNames type then .null
  else if type = 0 then (operationFrom (·.isValid) map (Cfg.ThresholdMapOperation.from params)).map .threshold
  else if type = 1 then (operationFrom (·.isValid) map (Cfg.PruneMapOperation.from params)).map .prune
  else .null

/-- `MapOperationFactory::create(params, occupancy_map)` (map_operation_factory.cc:10-18). -/
def MapOperationFactory.create (params : Param.Value) (map : Option MapObject) : Made OperationObject :=
  match TypeSelector.fromParams mapOperationTypeNames params with
  | some type => MapOperationFactory.createType type params map
  | none => .null

/-- `MapRosOperationFactory::create(type, params, ...)` (map_ros_operation_factory.cc:27-72). -/
def MapRosOperationFactory.createType (type : Int) (params : Param.Value) (map : Option MapObject) :
    Made OperationObject :=
  if ¬TypeSelector.isValid mapRosOperationTypeNames type then .null
  else if type = 0 then (operationFrom (·.isValid) map (Cfg.PublishMapOperation.from params)).map .publishMap
  else if type = 1 then
    (operationFrom (·.isValid) map (Cfg.PublishPointcloudOperation.from params)).map .publishPointcloud
  else if type = 2 then (operationFrom (·.isValid) map (Cfg.CropMapOperation.from params)).map .crop
  else .null

/-- `RosServer::addOperation` (ros_server.cc:120-155): the ROS operations first, then the others. -/
def RosServer.addOperation (params : Param.Value) (map : Option MapObject) : Made OperationObject :=
  match Param.getTypeStr params with
  | none => .null
  | some name =>
    let rosType := TypeSelector.toTypeId mapRosOperationTypeNames name
    if TypeSelector.isValid mapRosOperationTypeNames rosType then
      MapRosOperationFactory.createType rosType params map
    else
      let type := TypeSelector.toTypeId mapOperationTypeNames name
      if TypeSelector.isValid mapOperationTypeNames type then MapOperationFactory.createType type params map
      else .null

/-- The input handlers with their configs (ros_input_factory.cc:11-62). -/
inductive InputObject where
  | pointcloudTopic (c : Cfg.PointcloudTopicInput)
  | depthImageTopic (c : Cfg.DepthImageTopicInput)
deriving DecidableEq

/-- The part of a pointcloud input config that its base class is constructed from
(pointcloud_topic_input.h:83-86). -/
def Cfg.PointcloudTopicInput.base (c : Cfg.PointcloudTopicInput) : Cfg.RosInputBase :=
  ⟨c.topicName, c.topicQueueLength, c.measurementIntegratorNames, c.processingRetryPeriod⟩

/-- The part of a depth image input config that its base class is constructed from
(depth_image_topic_input.h:63-66). -/
def Cfg.DepthImageTopicInput.base (c : Cfg.DepthImageTopicInput) : Cfg.RosInputBase :=
  ⟨c.topicName, c.topicQueueLength, c.measurementIntegratorNames, c.processingRetryPeriod⟩

/-- `RosInputFactory::create(params, ...)` (ros_input_factory.cc:11-62); the pipeline and transformer are not null.
Both the base class (ros_input_base.cc:25-31) and the derived class check their configs. -/
def RosInputFactory.create (params : Param.Value) : Made InputObject :=
  match TypeSelector.fromParams rosInputTypeNames params with
  | some type =>
    if type = 0 then
      (fromConfig (fun c => c.base.isValid && c.isValid) (Cfg.PointcloudTopicInput.from params)).map .pointcloudTopic
    else if type = 1 then
      (fromConfig (fun c => c.base.isValid && c.isValid) (Cfg.DepthImageTopicInput.from params)).map .depthImageTopic
    else .null
  | none => .null

end Wavemap
