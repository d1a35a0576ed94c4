import Mathlib.Algebra.Order.Field.Rat
/-!
# Motion undistortion of point clouds

Models `library/cpp/src/core/utils/undistortion/{stamped_pointcloud,pointcloud_undistortion}.cc`,
`interpolateComponentwise` of `library/cpp/include/wavemap/3rd_party/minkindr/impl/quat-transformation-inl.h` and
`interfaces/ros1/wavemap_ros/src/utils/pointcloud_undistorter.cc`.

Time stamps are `uint64_t` nanoseconds (`TimeAbsolute`, timestamps.h:5) and offsets `uint32_t` (`TimeOffset`, timestamps.h:6),
modelled by naturals with explicit wrap-around. Poses and points are abstract.
-/
namespace Wavemap

/-- What a call that may stop the process does. (`CHECK` in pointcloud_undistortion.cc and elsewhere.) -/
inductive Outcome (α : Type) where
  /-- It returns. -/
  | done (a : α)
  /-- A `CHECK` fails: the process is terminated. -/
  | abort
  /-- Undefined behaviour: an access out of bounds or an integer division by zero. -/
  | undefined
deriving DecidableEq

/-- Continue with the returned value. Auxiliary: the sequence of two statements, as in pointcloud_undistortion.cc:6-69. -/
def Outcome.bind {α β : Type} : Outcome α → (α → Outcome β) → Outcome β
  | .done a, f => f a
  | .abort, _ => .abort
  | .undefined, _ => .undefined

namespace Undistortion

/-- Unsigned 64-bit addition (`TimeAbsolute`, timestamps.h:5). -/
def addTime (a b : Nat) : Nat := (a + b) % 2 ^ 64

/-- Unsigned 64-bit subtraction (`TimeAbsolute`, timestamps.h:5). -/
def subTime (a b : Nat) : Nat := (a + 2 ^ 64 - b) % 2 ^ 64

/-- The operations of `Transformation3D` that are used: applying it to a point, its inverse, the default (identity) and the
interpolation formula of `interpolateComponentwise` (quat-transformation-inl.h:292-296). -/
structure Transforms (P Q : Type) where
  apply : P → Q → Q
  inverse : P → P
  identity : P
  interpolate : P → P → ℚ → P

variable {P Q : Type}

/-- `StampedPointcloud` (stamped_pointcloud.h:24-66): the time base and the points with their offsets. `sort` stands for
`std::sort` with the comparison by time offset (stamped_pointcloud.cc:36-44); the theorems hold for whatever order it gives to
points with equal offsets. -/
structure Cloud (Q : Type) where
  base : Nat
  points : List (Q × Nat)

/-- The time of a point (pointcloud_undistortion.cc:34-35). -/
def Cloud.time (c : Cloud Q) (p : Q × Nat) : Nat := addTime c.base p.2

/-- `getStartTime` (stamped_pointcloud.cc:21-24), for sorted points. -/
def Cloud.startTime (c : Cloud Q) : Outcome Nat :=
  match c.points.head? with
  | some p => .done (c.time p)
  | none => .undefined

/-- `getEndTime` (stamped_pointcloud.cc:31-34), for sorted points. -/
def Cloud.endTime (c : Cloud Q) : Outcome Nat :=
  match c.points.getLast? with
  | some p => .done (c.time p)
  | none => .undefined

/-- `interpolateComponentwise` (quat-transformation-inl.h:286-297) with the factor `num / den`. Both checks fail if the factor
is not a number or infinite (`den = 0`). -/
def interpolateComponentwise (ops : Transforms P Q) (l r : P) (num den : Nat) : Outcome P :=
  if den = 0 then .abort
  else if (num : ℚ) / den ≤ 1 then .done (ops.interpolate l r ((num : ℚ) / den))
  else .abort

/-- The inner `while` loop of `compensate_motion` (pointcloud_undistortion.cc:38-41). Each step increments the index, which
stays below the number of poses: `fuel` steps with `fuel` that number are enough. `none` is an access out of bounds. -/
def advance (buffer : List (Nat × P)) (time : Nat) : Nat → Nat → Option Nat
  | 0, left => some left
  | fuel + 1, left =>
    match buffer[left + 1]? with
    | none => none
    | some e => if e.1 < time ∧ left + 2 < buffer.length then advance buffer time fuel (left + 1) else some left

/-- Lines 40-53 of pointcloud_undistortion.cc: the index and the pose for a new time stamp. -/
def poseAt (ops : Transforms P Q) (buffer : List (Nat × P)) (time left : Nat) : Outcome (Nat × P) :=
  match advance buffer time buffer.length left with
  | none => .undefined
  | some left =>
    match buffer[left]?, buffer[left + 1]? with
    | some l, some r =>
      (interpolateComponentwise ops l.2 r.2 (subTime time l.1) (subTime r.1 l.1)).bind fun T => .done (left, T)
    | _, _ => .abort

/-- The poses the loop over the points uses (pointcloud_undistortion.cc:31-54): `previous`, `left` and `T` are
`previous_point_time`, `pose_left_idx` and `T_WCi`. -/
def poses (ops : Transforms P Q) (buffer : List (Nat × P)) (c : Cloud Q) : List (Q × Nat) → Nat → Nat → P → Outcome (List P)
  | [], _, _, _ => .done []
  | p :: ps, previous, left, T =>
    if c.time p = previous then (poses ops buffer c ps previous left T).bind fun Ts => .done (T :: Ts)
    else (poseAt ops buffer (c.time p) left).bind fun r =>
      (poses ops buffer c ps (c.time p) r.1 r.2).bind fun Ts => .done (r.2 :: Ts)

/-- The initial value of `previous_point_time` (pointcloud_undistortion.cc:25): `-1u` is an `unsigned int`. -/
def initialPreviousTime : Nat := 2 ^ 32 - 1

/-- `compensate_motion` (pointcloud_undistortion.cc:6-69) for sorted points: the median pose and the points in its frame. -/
def compensateSorted (ops : Transforms P Q) (buffer : List (Nat × P)) (c : Cloud Q) : Outcome (P × List Q) :=
  match buffer.head?, buffer.getLast? with
  | some first, some last =>
    c.startTime.bind fun start => c.endTime.bind fun stop =>
      if start < first.1 ∨ last.1 < stop then .abort
      else (poses ops buffer c c.points initialPreviousTime 0 ops.identity).bind fun Ts =>
        match Ts[c.points.length / 2]? with
        | none => .undefined
        | some median => .done (median, (c.points.zip Ts).map fun e => ops.apply (ops.inverse median) (ops.apply e.2 e.1.1))
  | _, _ => .undefined

/-- `compensate_motion` (pointcloud_undistortion.cc:6-69): the first use of the cloud sorts it (lines 13-14). -/
def compensateMotion (ops : Transforms P Q) (sort : List (Q × Nat) → List (Q × Nat)) (buffer : List (Nat × P)) (c : Cloud Q) :
    Outcome (P × List Q) :=
  compensateSorted ops buffer { c with points := sort c.points }

/-- `PointcloudUndistorter::Result` (pointcloud_undistorter.h:19-24), with the undistorted cloud. -/
inductive Result (α : Type) where
  | startTimeNotInTfBuffer
  | endTimeNotInTfBuffer
  | intermediateTimeNotInTfBuffer
  | success (a : α)
deriving DecidableEq

/-- The step size (pointcloud_undistorter.cc:23-25): a 32-bit unsigned division. -/
def stepSize (intervals : Nat) (first last : Nat) : Outcome Nat :=
  if intervals - 1 = 0 then .undefined else .done ((last + 2 ^ 32 - first) % 2 ^ 32 / (intervals - 1))

/-- `undistortPointcloud` (pointcloud_undistorter.cc:10-62). `lookup` is the transform of the sensor at a time stamp, if
available; `intervals` is positive (pointcloud_topic_input.cc:42-43). -/
def undistortPointcloud (ops : Transforms P Q) (sort : List (Q × Nat) → List (Q × Nat)) (lookup : Nat → Option P)
    (intervals : Nat) (c : Cloud Q) : Outcome (Result (P × List Q)) :=
  let c := { c with points := sort c.points }
  match c.points.head?, c.points.getLast? with
  | some first, some last =>
    (stepSize intervals first.2 last.2).bind fun step =>
      if (lookup (subTime (c.time first) step)).isNone then .done .startTimeNotInTfBuffer
      else if (lookup (addTime (c.time last) step)).isNone then .done .endTimeNotInTfBuffer
      else
        match (List.range (intervals + 1)).mapM fun i =>
          (lookup (addTime (c.time first) (i * step))).map fun T => (addTime (c.time first) (i * step), T) with
        | none => .done .intermediateTimeNotInTfBuffer
        | some buffer => (compensateSorted ops buffer c).bind fun r => .done (.success r)
  | _, _ => .undefined

end Undistortion
end Wavemap
