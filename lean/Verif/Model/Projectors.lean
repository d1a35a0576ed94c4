import Verif.Model.RangeBounds
import Mathlib.Analysis.Real.Pi.Bounds
/-!
# Projection models

Models `PinholeCameraProjector` and `SphericalProjector` (`integrator/projection_model/{pinhole_camera_projector,
spherical_projector}.h`, their `impl` files and `src/core/integrator/projection_model/*.cc`) and `approximate::atan2`
(`utils/math/approximate_trigonometry.h`), under `library/cpp`. `FloatingPoint` is `ℝ`. Not modelled: negative zeros. The
rest of the lidar projectors is in `LidarProjectors`.
-/
namespace Wavemap
noncomputable section

/-- A point or vector in 3D (`Point3D`, `Vector3D`, common.h). -/
abbrev Vec3 := Fin 3 → ℝ

/-- `R_C_W * (W_point - t_W_C)`: a world point in the sensor frame. Used at range_image_intersector_inl.h:11-71. -/
def toSensorFrame (R : Fin 3 → Vec3) (t p : Vec3) : Vec3 :=
  fun r => R r 0 * (p 0 - t 0) + R r 1 * (p 1 - t 1) + R r 2 * (p 2 - t 2)

/-- `C_aabb_corners[corner_idx]` (pinhole_camera_projector.cc:18-31, spherical_projector.cc:46-59). -/
def sensorFrameCorner (R : Fin 3 → Vec3) (t lo hi : Vec3) (corner : Fin 8) : Vec3 :=
  fun r => toSensorFrame R t lo r + (if corner.val.testBit 0 then R r 0 * (hi 0 - lo 0) else 0)
    + (if corner.val.testBit 1 then R r 1 * (hi 1 - lo 1) else 0)
    + (if corner.val.testBit 2 then R r 2 * (hi 2 - lo 2) else 0)

/-- The minimum over the corners (pinhole_camera_projector.cc:41-58); the initial value, the largest float, is above all
finite values. -/
def cornerMin (f : Fin 8 → ℝ) : ℝ := (List.finRange 8).foldl (fun a i => min a (f i)) (f 0)
/-- The maximum over the corners (pinhole_camera_projector.cc:41-58). -/
def cornerMax (f : Fin 8 → ℝ) : ℝ := (List.finRange 8).foldl (fun a i => max a (f i)) (f 0)

/-! ## Pinhole camera -/

/-- `PinholeCameraProjectorConfig` (pinhole_camera_projector.h:13-42). -/
structure PinholeConfig where
  width : Nat
  height : Nat
  fx : ℝ
  fy : ℝ
  cx : ℝ
  cy : ℝ

namespace PinholeConfig

/-- `isValid` (pinhole_camera_projector.cc:65-75). -/
def Valid (c : PinholeConfig) : Prop := 0 < c.width ∧ 0 < c.height ∧ 0 < c.fx ∧ 0 < c.fy

/-- `kEpsilon` (utils/data/constants.h:15). -/
def epsilon : ℝ := 1 / 1000000

/-- `cartesianToSensor` (pinhole_camera_projector_inl.h:7-13). -/
def cartesianToSensor (c : PinholeConfig) (p : Vec3) : SensorCoordinates :=
  let w := max (p 2) epsilon
  ⟨c.fx * p 0 / w + c.cx, c.fy * p 1 / w + c.cy, p 2⟩

/-- `sensorToCartesian` (pinhole_camera_projector_inl.h:15-24) with the cached products of pinhole_camera_projector.h:84-87. -/
def sensorToCartesian (c : PinholeConfig) (s : SensorCoordinates) : Vec3 :=
  let inv := 1 / (c.fx * c.fy)
  ![s.depth * inv * (c.fy * s.u - c.cx * c.fy), s.depth * inv * (c.fx * s.v - c.cy * c.fx), s.depth * inv * (c.fx * c.fy)]

/-- The pixel grid passed to `ProjectorBase` (pinhole_camera_projector.cc:6-11). -/
def grid : ImageGrid := ⟨1, 1, 0, 0⟩

/-- `cartesianToSensorAABB` (pinhole_camera_projector.cc:13-60). -/
def sensorBox (c : PinholeConfig) (R : Fin 3 → Vec3) (t lo hi : Vec3) : SensorBox :=
  let s := fun i => c.cartesianToSensor (sensorFrameCorner R t lo hi i)
  ⟨⟨cornerMin fun i => (s i).u, cornerMin fun i => (s i).v, cornerMin fun i => (s i).depth⟩,
   ⟨cornerMax fun i => (s i).u, cornerMax fun i => (s i).v, cornerMax fun i => (s i).depth⟩⟩

end PinholeConfig

/-! ## Spherical projection -/

/-- `approximate::atan` (approximate_trigonometry.h:10-41). -/
def approxAtan (x : ℝ) : ℝ :=
  let q := x * x
  x * (q * (q * (q * (q * (q * (-1172120 / 100000000) + 5265332 / 100000000) + (-11643287 / 100000000))
    + 19354346 / 100000000) + (-33262347 / 100000000)) + 99997726 / 100000000)

/-- `approximate::atan2` (approximate_trigonometry.h:43-78); `none` at the origin, where the code divides zero by zero. Zeros are positive zeros: if `x = 0` the
quotient `x / y` is a zero with the sign of `y`, which `copysign` sees. -/
def approxAtan2 (y x : ℝ) : Option ℝ :=
  if y = 0 ∧ x = 0 then none
  else
    let swap := |x| < |y|
    let input := if swap then x / y else y / x
    let res := approxAtan input
    let res := if swap then (if 0 < input ∨ (x = 0 ∧ 0 < y) then Real.pi / 2 else -(Real.pi / 2)) - res else res
    some (if x < 0 then (if 0 ≤ y then Real.pi else -Real.pi) + res else res)

/-- `SphericalProjector::cartesianToImage` (spherical_projector_inl.h:57-64): elevation and azimuth. -/
def sphericalToImage (p : Vec3) : Option (ℝ × ℝ) := do
  return (← approxAtan2 (p 2) (Real.sqrt (p 0 * p 0 + p 1 * p 1)), ← approxAtan2 (p 1) (p 0))

/-- The interval over one image axis in `cartesianToSensorAABB` (spherical_projector.cc:68-95). `periodic` is
`sensorAxisCouldBePeriodic()[axis]`; the two folds over part of the corners are nonempty when the interval wraps around. -/
def angleInterval (periodic : Bool) (a : Fin 8 → ℝ) : Option ℝ × Option ℝ :=
  let lo := cornerMin a
  let hi := cornerMax a
  if periodic = true ∧ Real.pi < hi - lo then
    ((List.finRange 8).foldl (fun m i => if 0 < a i then some (match m with | none => a i | some v => min v (a i)) else m) none,
     (List.finRange 8).foldl (fun m i => if 0 < a i then m else some (match m with | none => a i | some v => max v (a i))) none)
  else (some lo, some hi)

/-- The image part of `SphericalProjector::cartesianToSensorAABB` (spherical_projector.cc:61-95): intervals of elevation and
azimuth, from the image coordinates of the corners. -/
def sphericalImageBox (corners : Fin 8 → ℝ × ℝ) : (Option ℝ × Option ℝ) × (Option ℝ × Option ℝ) :=
  (angleInterval true fun i => (corners i).1, angleInterval true fun i => (corners i).2)

end
end Wavemap
