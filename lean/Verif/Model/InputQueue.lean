import Verif.Model.Undistortion
/-!
# The measurement inputs

Models `interfaces/ros1/wavemap_ros/src/inputs/{pointcloud_topic_input,depth_image_topic_input}.cc`,
`interfaces/ros1/wavemap_ros/src/utils/tf_transformer.cc` and
`interfaces/ros1/wavemap_ros_conversions/include/wavemap_ros_conversions/time_conversions.h`.

Callbacks and the retry timer run in one thread (`ros::spin()`, app/ros_server.cc:17), so a history is a sequence of messages that arrive and calls of
`processQueue`. The TF buffer is filled by another thread: it is a function of the call and the iteration of the loop, and constant during one
iteration. `W` is the state of the map and everything else the pipeline changes.
-/
namespace Wavemap

/-! ## Time and frames -/

/-- `nanoSecondsToRosTime` (time_conversions.h:7-11): the represented time in nanoseconds. The seconds are cut to 32 bits. -/
def rosTimeOf (nsec : Nat) : Nat := nsec / 10 ^ 9 % 2 ^ 32 * 10 ^ 9 + nsec % 10 ^ 9

/-- `nanoSecondsToSeconds` (time_conversions.h:12-15), exact. -/
def nanoSecondsToSeconds (nsec : Nat) : ℚ := (nsec : ℚ) / 10 ^ 9

/-- `TfTransformer::sanitizeFrameId` (tf_transformer.cc:36-42). -/
def sanitizeFrameId (s : String) : String :=
  match s.toList with
  | '/' :: cs => String.ofList cs
  | _ => s

/-- The transforms from sensor frames to the world frame that the TF buffer can compute, by frame and time in nanoseconds.
Queried at tf_transformer.cc:29-42, 64-73. -/
abbrev Tf (P : Type) := String → Nat → Option P

/-- `TfTransformer::lookupTransform` at a time stamp in nanoseconds (tf_transformer.cc:29-34, 64-73). -/
def Tf.lookup {P : Type} (tf : Tf P) (frame : String) (nsec : Nat) : Option P := tf (sanitizeFrameId frame) (rosTimeOf nsec)

/-! ## Draining a queue -/

/-- What one iteration of `processQueue` does with the oldest message (pointcloud_topic_input.cc:185-282, depth_image_topic_input.cc:67-130). -/
inductive QueueStep (X : Type) where
  /-- `return`: try again at the next call -/
  | wait
  /-- the message is removed without being integrated -/
  | discard
  /-- `runPipeline` is called with the measurement, then the message is removed -/
  | integrate (x : X)

variable {M X W : Type}

/-- The loop of `processQueue`. `step k oldest newest` is the `k`-th iteration; `newest` is `queue.back()`
(pointcloud_topic_input.cc:185-282, depth_image_topic_input.cc:67-130). -/
def drainQueue (step : Nat → M → M → Outcome (QueueStep X)) (run : X → W → W) : Nat → List M → W → Outcome (List M × W)
  | _, [], w => .done ([], w)
  | k, m :: ms, w =>
    (step k m ((m :: ms).getLast (List.cons_ne_nil _ _))).bind fun s =>
      match s with
      | .wait => .done (m :: ms, w)
      | .discard => drainQueue step run (k + 1) ms w
      | .integrate x => drainQueue step run (k + 1) ms (run x w)

/-- What happens to an input handler: a message arrives or `processQueue` is called. `env` is what the steps of that call see of the TF buffer
(pointcloud_topic_input.cc:79-282, depth_image_topic_input.cc:67-130). -/
inductive InputEvent (Msg E : Type) where
  | arrive (msg : Msg)
  | process (env : Nat → E)

/-- A history of an input handler. `accept` is the callback: the message that is appended to the queue, if any
(pointcloud_topic_input.cc:79-282, depth_image_topic_input.cc:67-130). -/
def runInput {Msg E : Type} (accept : Msg → Outcome (Option M)) (step : E → M → M → Outcome (QueueStep X)) (run : X → W → W) :
    List (InputEvent Msg E) → List M → W → Outcome (List M × W)
  | [], q, w => .done (q, w)
  | .arrive msg :: es, q, w => (accept msg).bind fun m => runInput accept step run es (q ++ m.toList) w
  | .process env :: es, q, w => (drainQueue (fun k => step (env k)) run 0 q w).bind fun r => runInput accept step run es r.1 r.2

/-! ## Point clouds -/

/-- The members of `PointcloudTopicInputConfig` that the handler uses (pointcloud_topic_input.h:33-89). Livox messages have their own type; times
are in seconds, `timeOffset` in nanoseconds. -/
structure CloudInputConfig where
  ouster : Bool
  maxWaitForPose : ℚ
  sensorFrameId : String
  timeOffset : Int
  undistortMotion : Bool
  intervals : Nat

/-- A message: `sensor_msgs::PointCloud2` with the names of its fields, or `livox_ros_driver2::CustomMsg`. Every point comes with its
time offset (the field `t` of an Ouster cloud). `stamp` is in nanoseconds. Used at pointcloud_topic_input.cc:79-180. -/
structure CloudMsg (Q : Type) where
  livox : Bool
  stamp : Nat
  frame : String
  fields : List String
  points : List (Q × Nat)

/-- `StampedPointcloud` (stamped_pointcloud.h:24-66) with its sensor frame. -/
structure StampedCloud (Q : Type) where
  frame : String
  cloud : Undistortion.Cloud Q

/-- The frame of a message (pointcloud_topic_input.cc:108-110, 169-171). -/
def CloudInputConfig.frameOf (c : CloudInputConfig) (frame : String) : String := if c.sensorFrameId = "" then frame else c.sensorFrameId

/-- `header.stamp + ros::Duration(time_offset)`: throws if the result is not representable, which ends the process.
Used at pointcloud_topic_input.cc:79-180. -/
def addRosDuration (stamp : Nat) (offset : Int) : Outcome Nat :=
  if 0 ≤ (stamp : Int) + offset ∧ (stamp : Int) + offset < 2 ^ 32 * 10 ^ 9 then .done ((stamp : Int) + offset).toNat else .abort

variable {P Q : Type}

/-- The callbacks (pointcloud_topic_input.cc:79-152 and 155-180): the cloud that is added to the queue. Comparing the name of the field after the
last one is undefined behaviour. A Livox offset is cast to 32 bits; if it does not fit the cast is undefined behaviour. -/
def acceptCloud (c : CloudInputConfig) (msg : CloudMsg Q) : Outcome (Option (StampedCloud Q)) :=
  if msg.points = [] then .done none
  else if msg.livox then
    if -2 ^ 31 ≤ c.timeOffset ∧ c.timeOffset < 2 ^ 31 then
      .done (some ⟨c.frameOf msg.frame, ⟨(((msg.stamp : Int) + c.timeOffset) % 2 ^ 64).toNat, msg.points⟩⟩)
    else .undefined
  else
    match msg.fields.dropWhile (· != "x") with
    | [] => .done none
    | [_] => .undefined
    | _ :: y :: rest =>
      if y ≠ "y" then .done none
      else
        match rest with
        | [] => .undefined
        | z :: _ =>
          if z ≠ "z" then .done none
          else (addRosDuration msg.stamp c.timeOffset).bind fun base =>
            let points := if c.undistortMotion ∧ c.ouster ∧ "t" ∈ msg.fields then msg.points else msg.points.map fun p => (p.1, 0)
            .done (some ⟨c.frameOf msg.frame, ⟨base, points⟩⟩)

/-- The body of `PointcloudTopicInput::processQueue` (pointcloud_topic_input.cc:185-282). The calls of `getStartTime` and `getEndTime` sort the points. The
measurement is the pose and the points in the sensor frame. -/
def cloudStep (c : CloudInputConfig) (ops : Undistortion.Transforms P Q) (sort : List (Q × Nat) → List (Q × Nat)) (tf : Tf P)
    (oldest newest : StampedCloud Q) : Outcome (QueueStep (P × List Q)) :=
  (Undistortion.Cloud.endTime ⟨newest.cloud.base, sort newest.cloud.points⟩).bind fun stop =>
  (Undistortion.Cloud.startTime ⟨oldest.cloud.base, sort oldest.cloud.points⟩).bind fun start =>
    if c.maxWaitForPose < nanoSecondsToSeconds (Undistortion.subTime stop start) then .done .discard
    else if c.undistortMotion then
      (Undistortion.undistortPointcloud ops sort (tf.lookup oldest.frame) c.intervals oldest.cloud).bind fun r =>
        match r with
        | .success x => .done (.integrate x)
        | .endTimeNotInTfBuffer => .done .wait
        | .startTimeNotInTfBuffer => .done .discard
        | .intermediateTimeNotInTfBuffer => .done .discard
    else
      match tf.lookup oldest.frame oldest.cloud.base with
      | none => .done .wait
      | some T => .done (.integrate (T, (sort oldest.cloud.points).map Prod.fst))

/-- `PointcloudTopicInput` from its creation on (pointcloud_topic_input.cc:79-282). -/
def runCloudInput (c : CloudInputConfig) (ops : Undistortion.Transforms P Q) (sort : List (Q × Nat) → List (Q × Nat)) (run : P × List Q → W → W)
    (events : List (InputEvent (CloudMsg Q) (Tf P))) (w : W) : Outcome (List (StampedCloud Q) × W) :=
  runInput (acceptCloud c) (cloudStep c ops sort) run events [] w

/-! ## Depth images -/

/-- The members of `DepthImageTopicInputConfig` that the queue handling uses (depth_image_topic_input.h:24-58). -/
structure DepthInputConfig where
  maxWaitForPose : ℚ
  sensorFrameId : String
  timeOffset : Int

/-- `sensor_msgs::Image`: its stamp (in nanoseconds), frame and data. Used at depth_image_topic_input.cc:67-130. -/
structure DepthMsg (D : Type) where
  stamp : Nat
  frame : String
  data : D
deriving DecidableEq

/-- The body of `DepthImageTopicInput::processQueue` (depth_image_topic_input.cc:67-130). `convert` is the conversion of the image (lines 97-108), `none` if
there is no result. Stamps of messages are below `2 ^ 32` seconds. -/
def depthStep {D Y : Type} (c : DepthInputConfig) (convert : D → Option Y) (tf : Tf P) (oldest newest : DepthMsg D) :
    Outcome (QueueStep (P × Y)) :=
  (addRosDuration oldest.stamp c.timeOffset).bind fun stamp =>
    match tf (sanitizeFrameId (if c.sensorFrameId = "" then oldest.frame else c.sensorFrameId)) stamp with
    | none =>
      if ((newest.stamp : ℚ) - oldest.stamp) / 10 ^ 9 < c.maxWaitForPose then .done .wait else .done .discard
    | some T =>
      match convert oldest.data with
      | none => .done .wait
      | some y => .done (.integrate (T, y))

/-- `DepthImageTopicInput` from its creation on; the callback appends every message (depth_image_topic_input.h:83-88). -/
def runDepthInput {D Y : Type} (c : DepthInputConfig) (convert : D → Option Y) (run : P × Y → W → W)
    (events : List (InputEvent (DepthMsg D) (Tf P))) (w : W) : Outcome (List (DepthMsg D) × W) :=
  runInput (fun m => .done (some m)) (depthStep c convert) run events [] w

end Wavemap
