import Verif.Model.InputQueue
/-!
# Processing recorded measurements

Models `interfaces/ros1/wavemap_ros/src/utils/rosbag_processor.cc`,
`interfaces/ros1/wavemap_ros/include/wavemap_ros/impl/rosbag_processor_inl.h`,
`interfaces/ros1/wavemap_ros/include/wavemap_ros/inputs/impl/pointcloud_topic_input_impl.h` and
`interfaces/ros1/wavemap_ros/app/rosbag_processor.cc`.

The bags are the list of the messages that `rosbag::View` iterates over and the topics of their connections; opening the files and merging them are
not modelled. What the processor does is recorded as a list of events. The half second of waiting before the first message (rosbag_processor.cc:47-50) is not
modelled: no message has been handled yet.
-/
namespace Wavemap

/-- `rosbag::MessageInstance`: topic, time of recording in nanoseconds, type and content. Used at rosbag_processor.cc:52-91. -/
structure BagMessage (D : Type) where
  topic : String
  time : Nat
  type : String
  data : D
deriving DecidableEq

/-- What the processor does (rosbag_processor.cc:41-92). -/
inductive BagEvent (D : Type) where
  /-- The callback of the input with this number is called with the message. -/
  | deliver (input : Nat) (msg : BagMessage D)
  /-- The message is published on the topic. -/
  | republish (topic : String) (msg : BagMessage D)
  /-- The time is published on `/clock`. -/
  | clock (time : Nat)
  /-- `ros::spinOnce()` -/
  | spin
deriving DecidableEq

/-- A callback in `callbacks_`: the number of its input and the type of the messages that it takes (rosbag_processor.h:49-55). -/
structure BagCallback where
  input : Nat
  type : String
deriving DecidableEq

/-- `RosbagProcessor` (rosbag_processor.h:49-55). The `std::map`s are lists of their entries; the entry with a key is the first one. -/
structure RosbagProcessor where
  callbacks : List (String × BagCallback) := []
  republishers : List (String × String) := []
  simulatedClock : Bool := false

namespace RosbagProcessor
variable {D : Type}

/-- `std::map::try_emplace`: an entry that exists is kept. Used at rosbag_processor_inl.h:15. -/
def tryEmplace {V : Type} (m : List (String × V)) (key : String) (value : V) : List (String × V) :=
  match m.lookup key with
  | some _ => m
  | none => m ++ [(key, value)]

/-- `addCallback` (rosbag_processor_inl.h:18-30). -/
def addCallback (p : RosbagProcessor) (topic : String) (callback : BagCallback) : RosbagProcessor :=
  { p with callbacks := tryEmplace p.callbacks topic callback }

/-- `addRepublisher` (rosbag_processor_inl.h:32-40). -/
def addRepublisher (p : RosbagProcessor) (bagTopic topic : String) : RosbagProcessor :=
  { p with republishers := tryEmplace p.republishers bagTopic topic }

/-- `enableSimulatedClock` (rosbag_processor.h:41-43). -/
def enableSimulatedClock (p : RosbagProcessor) : RosbagProcessor := { p with simulatedClock := true }

/-- The lambda of a callback (rosbag_processor_inl.h:24-28): `instantiate` returns a null pointer if the types differ, and it is dereferenced. -/
def call (callback : BagCallback) (msg : BagMessage D) : Outcome (List (BagEvent D)) :=
  if callback.type = msg.type then .done [.deliver callback.input msg] else .undefined

/-- Callbacks (rosbag_processor.cc:59-62). -/
def handleCallbacks (p : RosbagProcessor) (msg : BagMessage D) : Outcome (List (BagEvent D)) :=
  match p.callbacks.lookup msg.topic with
  | some callback => call callback msg
  | none => .done []

/-- Republishing (rosbag_processor.cc:65-69). -/
def handleRepublishing (p : RosbagProcessor) (msg : BagMessage D) : List (BagEvent D) :=
  match p.republishers.lookup msg.topic with
  | some topic => [.republish topic msg]
  | none => []

/-- The condition of the periodic tasks (rosbag_processor.cc:72-73), `kSideTasksDt` is 0.01 seconds. -/
def sideTasksDue (last time : Nat) : Outcome Bool :=
  if time < last then .done true else (addRosDuration last (10 ^ 7)).bind fun next => .done (decide (next < time))

/-- The periodic tasks (rosbag_processor.cc:74-87). -/
def sideTasks (p : RosbagProcessor) (time : Nat) : List (BagEvent D) := (if p.simulatedClock then [.clock time] else []) ++ [.spin]

/-- `processAll` (rosbag_processor.cc:52-91) from the `k`-th message on. `ok k` is `ros::ok()` before it, `last` is `side_tasks_last_timestamp`. Returns the returned
value and what was done. -/
def processFrom (p : RosbagProcessor) (ok : Nat → Bool) : Nat → Nat → List (BagMessage D) → Outcome (Bool × List (BagEvent D))
  | _, _, [] => .done (true, [])
  | k, last, msg :: msgs =>
    if ok k then
      (p.handleCallbacks msg).bind fun called =>
      (sideTasksDue last msg.time).bind fun due =>
      (processFrom p ok (k + 1) (if due then msg.time else last) msgs).bind fun rest =>
        .done (rest.1, called ++ p.handleRepublishing msg ++ (if due then p.sideTasks msg.time else []) ++ rest.2)
    else .done (false, [])

/-- `processAll` (rosbag_processor.cc:41-92). -/
def processAll (p : RosbagProcessor) (ok : Nat → Bool) (view : List (BagMessage D)) : Outcome (Bool × List (BagEvent D)) :=
  p.processFrom ok 0 0 view

end RosbagProcessor

/-! ## The application -/

/-- The kinds of inputs that the server can create. `livox` is `PointcloudTopicType::kLivox`, the other types of point cloud topics use the same message
(pointcloud_topic_input_impl.h:5-37). -/
inductive BagInputKind where
  | pointcloud (livox : Bool)
  | depthImage
  | other
deriving DecidableEq

/-- An input of the server: its kind and `getTopicName()` (ros_input_base.cc:34-37). -/
structure BagInput where
  kind : BagInputKind
  topic : String
deriving DecidableEq

/-- The type of the messages that the callback of an input takes (pointcloud_topic_input_impl.h:5-37, app/rosbag_processor.cc:44-57). `none` if no callback is
registered: for Livox inputs without `LIVOX_AVAILABLE`, and for other inputs. -/
def BagInput.messageType (livoxAvailable : Bool) (i : BagInput) : Option String :=
  match i.kind with
  | .pointcloud false => some "sensor_msgs/PointCloud2"
  | .pointcloud true => if livoxAvailable then some "livox_ros_driver2/CustomMsg" else none
  | .depthImage => some "sensor_msgs/Image"
  | .other => none

/-- The loop over the inputs (app/rosbag_processor.cc:42-66), from the `k`-th on. -/
def RosbagProcessor.addInputs (livoxAvailable : Bool) : Nat → List BagInput → RosbagProcessor → RosbagProcessor
  | _, [], p => p
  | k, i :: is, p =>
    RosbagProcessor.addInputs livoxAvailable (k + 1) is
      (match i.messageType livoxAvailable with
       | some type => p.addCallback i.topic ⟨k, type⟩
       | none => p)

/-- The set-up of the processor (app/rosbag_processor.cc:41-77). `connections` are the topics of the connections in the bags. -/
def RosbagProcessor.setup (livoxAvailable : Bool) (inputs : List BagInput) (connections : List String) : RosbagProcessor :=
  let p := ((RosbagProcessor.addInputs livoxAvailable 0 inputs {}).addRepublisher "/tf" "/tf").addRepublisher "/tf_static" "/tf_static"
  if "/clock" ∈ connections then p.addRepublisher "/clock" "/clock" else p.enableSimulatedClock

/-- What an input handler sees of the events: its callback and, when the node spins, its retry timer (ros_input_base.cc:34-37). `timer j` are the calls of
`processQueue` during the `j`-th spin. -/
def inputHistory {D E : Type} (input : Nat) (timer : Nat → List (Nat → E)) : Nat → List (BagEvent D) → List (InputEvent D E)
  | _, [] => []
  | j, .deliver i msg :: es => if i = input then .arrive msg.data :: inputHistory input timer j es else inputHistory input timer j es
  | j, .republish _ _ :: es => inputHistory input timer j es
  | j, .clock _ :: es => inputHistory input timer j es
  | j, .spin :: es => (timer j).map .process ++ inputHistory input timer (j + 1) es

/-- What becomes of the measurements of one input (app/rosbag_processor.cc:83-90): the messages still in its queue and the state of the map when the application has
finished. `none` if it returns early. `finish` is `runOperations(true)` and `prune`. -/
def processBag {D E M X W : Type} (p : RosbagProcessor) (ok : Nat → Bool) (view : List (BagMessage D)) (input : Nat) (timer : Nat → List (Nat → E))
    (accept : D → Outcome (Option M)) (step : E → M → M → Outcome (QueueStep X)) (run : X → W → W) (finish : W → W) (w : W) :
    Outcome (Option (List M × W)) :=
  (p.processAll ok view).bind fun r =>
    if r.1 then (runInput accept step run (inputHistory input timer 0 r.2) [] w).bind fun s => .done (some (s.1, finish s.2))
    else .done none

end Wavemap
