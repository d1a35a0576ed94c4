import Mathlib.Data.Rat.Defs
import Mathlib.Algebra.Order.Ring.Rat

/-!
# Parameters, type selectors, values with units and configs

Models `config/param.h`, `config/type_selector.h` (+ `impl/type_selector_inl.h`), `config/value_with_unit.h`
(+ `.cc`, `impl/value_with_unit_inl.h`), `config/string_list.cc` and `config/config_base.h`
(+ `impl/config_base_inl.h`). `FloatingPoint` is exact `ℚ`; log messages are not modelled.
-/

namespace Wavemap

namespace Param

/-- `param::Value` (param.h:24-88): a boolean, an integer, a floating point number, a string, an array of
values or a map from names to values. A `std::map` is modelled by the list of its entries in key order; that
the keys of a map are distinct is `Value.Wf` (Props/Config.lean). Ints are unbounded here. -/
inductive Value where
  | bool (b : Bool)
  | int (i : Int)
  | float (x : ℚ)
  | str (s : String)
  | array (vs : List Value)
  | map (es : List (String × Value))

/-- `Value::as<bool>` (param.h:47-54). -/
def Value.asBool : Value → Option Bool
  | .bool b => some b
  | _ => none

/-- `Value::as<int>` (param.h:47-54). -/
def Value.asInt : Value → Option Int
  | .int i => some i
  | _ => none

/-- `Value::as<FloatingPoint>` (param.h:47-54). -/
def Value.asFloat : Value → Option ℚ
  | .float x => some x
  | _ => none

/-- `Value::as<std::string>` (param.h:47-54). -/
def Value.asStr : Value → Option String
  | .str s => some s
  | _ => none

/-- `Value::as<Array>` (param.h:47-54). -/
def Value.asArray : Value → Option (List Value)
  | .array vs => some vs
  | _ => none

/-- `Value::as<Map>` (param.h:47-54). -/
def Value.asMap : Value → Option (List (String × Value))
  | .map es => some es
  | _ => none

/-- `Value::getChild` (param.h:63-70). -/
def Value.getChild (v : Value) (key : String) : Option Value :=
  match v.asMap with
  | some es => es.lookup key
  | none => none

/-- `Value::hasChild` (param.h:57-62). -/
def Value.hasChild (v : Value) (key : String) : Bool :=
  match v.asMap with
  | some es => es.any (fun e => e.1 == key)
  | none => false

/-- `param::kTypeSelectorKey` (type_selector.h:10). -/
def typeSelectorKey : String := "type"

/-- `param::getTypeStr` (type_selector_inl.h:11-40): a string is the type name itself; a map names its type in
a string valued entry `"type"`; anything else has no type name. -/
def getTypeStr (v : Value) : Option String :=
  match v.asStr with
  | some s => some s
  | none =>
    match v.asMap with
    | some _ =>
      match v.getChild typeSelectorKey with
      | none => none
      | some t => t.asStr
    | none => none

end Param

/-! ## Type selectors -/

namespace TypeSelector

/-- `kInvalidTypeId` (type_selector.h:18). -/
def invalidTypeId : Int := -1

/-- `TypeSelector::isValid(type_id)` (type_selector_inl.h:75-79). `names` is the `names` array of the derived
selector. -/
def isValid (names : List String) (id : Int) : Bool := decide (0 ≤ id) && decide (id < names.length)

/-- `TypeSelector::toStr(type_id)` (type_selector_inl.h:81-89). -/
def toStr (names : List String) (id : Int) : String :=
  if isValid names id then
    match names[id.toNat]? with
    | some s => s
    | none => "Invalid"
  else "Invalid"

/-- Loop of `TypeSelector::toTypeId(name)` (type_selector_inl.h:94-99), from index `i` on. -/
def toTypeIdFrom (name : String) (i : Int) : List String → Int
  | [] => invalidTypeId
  | n :: ns => if name == n then i else toTypeIdFrom name (i + 1) ns

/-- `TypeSelector::toTypeId(name)` (type_selector_inl.h:91-101); also the constructor from a name (42-46). -/
def toTypeId (names : List String) (name : String) : Int := toTypeIdFrom name 0 names

/-- `TypeSelector::TypeSelector(type_id)` (type_selector_inl.h:48-53): invalid ids become `kInvalidTypeId`. -/
def ofTypeId (names : List String) (id : Int) : Int := if isValid names id then id else invalidTypeId

/-- `TypeSelector::from(type_name)` (type_selector_inl.h:103-117). The result is the id of the selector. -/
def fromName (names : List String) (name : String) : Option Int :=
  let id := toTypeId names name
  if isValid names id then some id else none

/-- `TypeSelector::from(params)` (type_selector_inl.h:119-132). -/
def fromParams (names : List String) (v : Param.Value) : Option Int :=
  match Param.getTypeStr v with
  | none => none
  | some s => fromName names s

/-- `TypeSelector::from(params, subconfig_name)` (type_selector_inl.h:134-146). -/
def fromSub (names : List String) (v : Param.Value) (sub : String) : Option Int :=
  match v.getChild sub with
  | some child => fromParams names child
  | none => none

end TypeSelector

/-! The `names` arrays of the selectors, in the order of their `Id` enums. -/

/-- `MapType::names` (map_base.h:14-31). -/
def mapTypeNames : List String :=
  ["hashed_blocks", "octree", "wavelet_octree", "hashed_wavelet_octree", "hashed_chunked_wavelet_octree"]

/-- `IntegratorType::names` (integrator_base.h:14-30). -/
def integratorTypeNames : List String :=
  ["ray_tracing_integrator", "fixed_resolution_integrator", "coarse_to_fine_integrator", "wavelet_integrator",
   "hashed_wavelet_integrator", "hashed_chunked_wavelet_integrator"]

/-- `ProjectorType::names` (projector_base.h:13-24). -/
def projectorTypeNames : List String := ["spherical_projector", "ouster_projector", "pinhole_camera_projector"]

/-- `MeasurementModelType::names` (measurement_model_base.h:13-20). -/
def measurementModelTypeNames : List String := ["constant_ray", "continuous_ray", "continuous_beam"]

/-- `BeamSelectorType::names` (measurement_model_base.h:22-28). -/
def beamSelectorTypeNames : List String := ["nearest_neighbor", "all_neighbors"]

/-- `MapOperationType::names` (map_operation_base.h:9-15). -/
def mapOperationTypeNames : List String := ["threshold_map", "prune_map"]

/-- `SiUnit::names` (value_with_unit.h:11-18). -/
def siUnitNames : List String := ["meters", "radians", "pixels", "seconds"]

/-- `UpdateType::names` (update_type.h:10-23). -/
def updateTypeNames : List String :=
  ["fully_unobserved", "fully_free", "free_or_unobserved", "possibly_occupied"]

/-- `Occupancy::names` (utils/query/occupancy.h:8-20). -/
def occupancyNames : List String := ["free", "occupied", "unobserved", "observed", "any"]

/-- `Adjacency::names` (utils/neighbors/adjacency.h:8-30). -/
def adjacencyNames : List String :=
  ["shared_vertex", "shared_edge", "shared_face", "shared_cube", "any_disjoint", "any", "none"]

/-- `LoggingLevel::names` (utils/logging_level.h:7-16). -/
def loggingLevelNames : List String := ["info", "warning", "error", "fatal"]

/-- `io::StorageFormat::names` (io/streamable_types.h:88-99). -/
def storageFormatNames : List String := ["wavelet_octree", "hashed_wavelet_octree", "hashed_blocks"]

/-- `RosInputType::names` (ros_input_base.h:16-22). -/
def rosInputTypeNames : List String := ["pointcloud_topic", "depth_image_topic"]

/-- `PointcloudTopicType::names` (pointcloud_topic_input.h:22-28). -/
def pointcloudTopicTypeNames : List String := ["PointCloud2", "ouster", "livox"]

/-- `MapRosOperationType::names` (map_ros_operation_types.h:7-14). -/
def mapRosOperationTypeNames : List String := ["publish_map", "publish_pointcloud", "crop_map"]

/-- `RosLoggingLevel::names` (wavemap_ros/utils/ros_logging_level.h:16-17). -/
def rosLoggingLevelNames : List String := ["debug", "info", "warning", "error", "fatal"]

/-- `VoxelColorMode::names` (wavemap_rviz_plugin/visuals/voxel_visual.h:33-39). -/
def voxelColorModeNames : List String := ["Height", "Probability", "Flat"]

/-- `SliceColorMode::names` (wavemap_rviz_plugin/visuals/slice_visual.h:25-31). -/
def sliceColorModeNames : List String := ["Probability", "Raw"]

/-- `CellSelectionMode::names` (wavemap_rviz_plugin/visuals/cell_selector.h:14-20). -/
def cellSelectionModeNames : List String := ["Surface", "Band"]

/-- `SourceMode::names` (wavemap_rviz_plugin/wavemap_map_display.h:20-26). -/
def sourceModeNames : List String := ["Topic", "File"]

/-! ## Values with units -/

/-- `kPi` (constants.h): the single precision number nearest to `π`, as an exact rational. -/
def kPiQ : ℚ := 13176795 / 4194304

/-- `SiUnit::Id` (value_with_unit.h:11-18). -/
inductive SiUnit where
  | meters | radians | pixels | seconds
deriving DecidableEq

/-- `UnitToSi` (value_with_unit.cc:9-27). The factors are the exact decimal numbers written in the source
(`1e-1f` is `1/10`), a simplification of their single precision roundings. -/
def unitToSi : List (String × ℚ × SiUnit) :=
  [("meters", 1, .meters), ("m", 1, .meters), ("decimeters", 1 / 10, .meters), ("dm", 1 / 10, .meters),
   ("centimeters", 1 / 100, .meters), ("cm", 1 / 100, .meters), ("millimeters", 1 / 1000, .meters),
   ("mm", 1 / 1000, .meters), ("radians", 1, .radians), ("rad", 1, .radians),
   ("degrees", kPiQ / 180, .radians), ("deg", kPiQ / 180, .radians), ("pixels", 1, .pixels), ("px", 1, .pixels),
   ("seconds", 1, .seconds), ("sec", 1, .seconds), ("s", 1, .seconds)]

/-- `param::getUnitToSi` (value_with_unit.cc:30-37). -/
def getUnitToSi (unit : String) : Option (ℚ × SiUnit) := unitToSi.lookup unit

/-- `ValueWithUnit<unit>::from` (value_with_unit_inl.h:12-61). -/
def valueWithUnitFrom (unit : SiUnit) (v : Param.Value) : Option ℚ :=
  match v.asMap with
  | none => none
  | some es =>
    match es with
    | [(paramUnit, paramValue)] =>
      match getUnitToSi paramUnit with
      | none => none
      | some (factor, siUnit) =>
        if siUnit ≠ unit then none
        else
          match paramValue.asFloat with
          | some x => some (x * factor)
          | none =>
            match paramValue.asInt with
            | some i => some ((i : ℚ) * factor)
            | none => none
    | _ => none

/-- `StringList::from` (string_list.cc:8-31). -/
def stringListFrom (v : Param.Value) : Option (List String) :=
  match v.asStr with
  | some s => some [s]
  | none =>
    match v.asArray with
    | some vs => some (vs.filterMap Param.Value.asStr)
    | none => none

/-! ## Loading configs -/

/-- `detail::loadParam` for `FloatingPoint` members (config_base_inl.h:47-73): the value read from a param,
`none` when the current value is kept. Ints are accepted. -/
def readFloat (v : Param.Value) : Option ℚ :=
  match v.asFloat with
  | some x => some x
  | none =>
    match v.asInt with
    | some i => some (i : ℚ)
    | none => none

/-- One entry of a config's `memberMap` (config_base.h:41-52): the member's name, how `detail::loadParam`
(config_base_inl.h:45-100) changes the config when the param of that name is loaded, and how `operator==`
(config_base.h:67-80) compares it. -/
structure ConfigMember (C : Type) where
  name : String
  load : Param.Value → C → C
  same : C → C → Bool

/-- A member of type `β` read by `read`: it is assigned if the param can be read as a `β`, else the config is
left as it is (config_base_inl.h:54-72 for primitive types, 85-98 for types with a `from` method). -/
def ConfigMember.of {C β : Type} [DecidableEq β] (name : String) (read : Param.Value → Option β)
    (get : C → β) (set : C → β → C) : ConfigMember C where
  name := name
  load v c := match read v with
    | some b => set c b
    | none => c
  same a b := decide (get a = get b)

/-- Body of the loop of `ConfigBase::from` (config_base_inl.h:117-150). -/
def loadEntry {C : Type} (members : List (ConfigMember C)) (c : C) (e : String × Param.Value) : C :=
  if e.1 == Param.typeSelectorKey then c
  else
    match members.find? (fun m => m.name == e.1) with
    | some m => m.load e.2 c
    | none => c

/-- `ConfigBase::from(params)` (config_base_inl.h:102-153). `dflt` is the default constructed config. -/
def configFrom {C : Type} (dflt : C) (members : List (ConfigMember C)) (v : Param.Value) : Option C :=
  match v.asMap with
  | none => none
  | some es => some (es.foldl (loadEntry members) dflt)

/-- `ConfigBase::from(params, subconfig_name)` (config_base_inl.h:155-168). -/
def configFromSub {C : Type} (dflt : C) (members : List (ConfigMember C)) (v : Param.Value) (sub : String) :
    Option C :=
  match v.getChild sub with
  | some child => configFrom dflt members child
  | none => none

/-- `ConfigBase::operator==` (config_base.h:67-80): all members compare equal. -/
def configEq {C : Type} (members : List (ConfigMember C)) (a b : C) : Bool := members.all (fun m => m.same a b)

end Wavemap
