import Verif.Model.Io
/-!
# The ROS server's map

Models the map handling of `interfaces/ros1/wavemap_ros/src/ros_server.cc`. `MapBase::Ptr` is a shared pointer: the server, its pipeline and the pipeline's
integrators and operations each hold one. A pointer is the number of a map object.
-/
namespace Wavemap

/-- `MapBase::clear` (map_base.h:88). -/
def AnyMap.clear : AnyMap → AnyMap
  | .hashedBlocks m => .hashedBlocks m.clear
  | .waveletOctree m => .waveletOctree m.clear
  | .hashedWavelet m => .hashedWavelet m.clear
  | .hashedChunked m => .hashedChunked m.clear
  | .volumetricOctree m => .volumetricOctree m.clear

/-- `MapBase::threshold` (map_base.h:75); `none` if a loop runs out of fuel. -/
def AnyMap.threshold : AnyMap → Option AnyMap
  | .hashedBlocks m => some (.hashedBlocks m.threshold)
  | .waveletOctree m => some (.waveletOctree m.threshold)
  | .hashedWavelet m => some (.hashedWavelet m.threshold)
  | .hashedChunked m => m.threshold.map .hashedChunked
  | .volumetricOctree m => some (.volumetricOctree m.threshold)

/-- `RosServer` (ros_server.h:46-95) with the files. -/
structure MapServer where
  /-- The map objects. They are never destroyed here; one that nothing points to has no effect. -/
  objects : List AnyMap
  /-- `occupancy_map_` -/
  current : Option Nat
  /-- The pointer held by the pipeline, its integrators and its operations (pipeline.h:26-30, ros_server.cc:63, 134-146): copied from `occupancy_map_` when
  they are created in the constructor. -/
  pipelineMap : Nat
  files : FileSystem
  /-- `config_.allow_reset_map_service` -/
  allowReset : Bool

namespace MapServer

/-- The constructor (ros_server.cc:41-90), for the map `m` made by the factory. -/
def create (m : AnyMap) (files : FileSystem) (allowReset : Bool) : MapServer := ⟨[m], some 0, 0, files, allowReset⟩

/-- The object a pointer points to. Auxiliary: `occupancy_map_` (ros_server.h) and the copies of it that the operations hold. -/
def object (s : MapServer) : Option Nat → Option AnyMap
  | none => none
  | some i => s.objects[i]?

/-- Change an object. Auxiliary: writing through one of the shared pointers of ros_server.h. -/
def change (s : MapServer) (i : Nat) (f : AnyMap → AnyMap) : MapServer := { s with objects := s.objects.modify i f }

/-- What happens to the server (ros_server.cc:157-205). -/
inductive Event where
  /-- A run of the pipeline: its integrators and operations change the pipeline's map. -/
  | pipeline (f : AnyMap → AnyMap)
  /-- The service `reset_map` -/
  | reset
  /-- The service `save_map`; `canOpen` and `room` as for `mapToFile` -/
  | save (path : String) (canOpen : Bool) (room : Nat)
  /-- The service `load_map` -/
  | load (path : String) (canOpen : Bool) (now : ℚ)

/-- The response of the service (true for a pipeline run) and the server afterwards; `none` if the process ends (a file that aborts the reader) or a loop runs
out of fuel. `reset_map`: ros_server.cc:172-191; `saveMap`: ros_server.cc:157-165, 193-198; `loadMap`: ros_server.cc:167-169, 200-205. -/
def step (s : MapServer) : Event → Option (Bool × MapServer)
  | .pipeline f => some (true, s.change s.pipelineMap f)
  | .reset =>
    if s.allowReset then
      match s.current with
      | none => some (true, s)
      | some i => some (true, s.change i AnyMap.clear)
    else some (false, s)
  | .save path canOpen room =>
    match s.current with
    | none => some (false, s)
    | some i =>
      match s.objects[i]? with
      | none => none -- not possible: pointers point to objects
      | some m =>
        match m.threshold with
        | none => none
        | some m' => (mapToFile s.files path canOpen room m').map fun r => (r.1, { s.change i (fun _ => m') with files := r.2 })
  | .load path canOpen now =>
    match fileToMap now s.files path canOpen (s.object s.current) with
    | some (.returned true (some m)) => some (true, { s with objects := s.objects ++ [m], current := some s.objects.length })
    | some (.returned true none) => none -- not possible: there is a map after a successful load
    | some (.returned false none) => some (false, { s with current := none })
    | some (.returned false (some _)) => some (false, s)
    | some .abort => none
    | none => none

/-- A history: the responses and the server afterwards (ros_server.cc:157-205). -/
def run (s : MapServer) : List Event → Option (List Bool × MapServer)
  | [] => some ([], s)
  | e :: es =>
    match s.step e with
    | none => none
    | some (r, s') => (s'.run es).map fun x => (r :: x.1, x.2)

end MapServer
end Wavemap
