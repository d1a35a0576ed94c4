import Verif.Model.Projectors
/-!
# Lidar projection models

Models the rest of `SphericalProjector` and all of `OusterProjector` (`integrator/projection_model/{spherical_projector,ouster_projector}.h`, their `impl` files and
`src/core/integrator/projection_model/*.cc`, under `library/cpp`). `FloatingPoint` is `ℝ`. The class `CircularProjector` is used in tests only and not modelled.
-/
namespace Wavemap
noncomputable section

/-- `C_point.head<2>().norm()`. Used at spherical_projector_inl.h:60 and ouster_projector_inl.h:13. -/
def planarNorm (p : Vec3) : ℝ := Real.sqrt (p 0 * p 0 + p 1 * p 1)

/-- `norm()` of a vector in 3D. Used at spherical_projector_inl.h:9-14, 66-69. -/
def norm3 (p : Vec3) : ℝ := Real.sqrt (p 0 * p 0 + p 1 * p 1 + p 2 * p 2)

/-- `SphericalProjector::cartesianToSensor` (spherical_projector_inl.h:9-14) with `cartesianToSensorZ` (spherical_projector_inl.h:66-69); `none` on the vertical
axis, where the code divides zero by zero. -/
def sphericalToSensor (p : Vec3) : Option SensorCoordinates :=
  (sphericalToImage p).map fun i => ⟨i.1, i.2, norm3 p⟩

/-- `SphericalProjector::sensorToCartesian` (spherical_projector_inl.h:16-26). -/
def sphericalToCartesian (s : SensorCoordinates) : Vec3 :=
  ![s.depth * (Real.cos s.u * Real.cos s.v), s.depth * (Real.cos s.u * Real.sin s.v), s.depth * Real.sin s.u]

/-- The two offsets of `OusterProjectorConfig` (ouster_projector.h:21-28). -/
structure OusterOffsets where
  /-- `lidar_origin_to_beam_origin` -/
  beam : ℝ
  /-- `lidar_origin_to_sensor_origin_z_offset` -/
  z : ℝ

/-- `OusterProjector::cartesianToImage` (ouster_projector_inl.h:66-79). -/
def ousterToImage (o : OusterOffsets) (p : Vec3) : Option (ℝ × ℝ) := do
  let azimuth ← approxAtan2 (p 1) (p 0)
  let elevation ← approxAtan2 (p 2 - o.z) (planarNorm p - o.beam)
  return (elevation, azimuth)

/-- `OusterProjector::cartesianToSensorZ` (ouster_projector_inl.h:81-87). -/
def ousterDepth (o : OusterOffsets) (p : Vec3) : ℝ :=
  Real.sqrt ((planarNorm p - o.beam) * (planarNorm p - o.beam) + (p 2 - o.z) * (p 2 - o.z))

/-- `OusterProjector::cartesianToSensor` (ouster_projector_inl.h:7-21). -/
def ousterToSensor (o : OusterOffsets) (p : Vec3) : Option SensorCoordinates :=
  (ousterToImage o p).map fun i => ⟨i.1, i.2, ousterDepth o p⟩

/-- `OusterProjector::sensorToCartesian` (ouster_projector_inl.h:23-35). -/
def ousterToCartesian (o : OusterOffsets) (s : SensorCoordinates) : Vec3 :=
  let bx := s.depth * Real.cos s.u + o.beam
  let by' := s.depth * Real.sin s.u + o.z
  ![bx * Real.cos s.v, bx * Real.sin s.v, by']

/-- `AABB::minDistanceTo` of a point (aabb.h:40-43, 51-53, 82-85). -/
def boxMinDistance (lo hi t : Vec3) : ℝ := norm3 fun k => t k - min (max (t k) (lo k)) (hi k)

/-- `AABB::maxDistanceTo` of a point (aabb.h:44-49, 54-56, 86-89). -/
def boxMaxDistance (lo hi t : Vec3) : ℝ := norm3 fun k => t k - if (lo k + hi k) / 2 < t k then lo k else hi k

/-- The depth interval of `cartesianToSensorAABB`, the same for both lidars (spherical_projector.cc:43-44, ouster_projector.cc:43-44). -/
def lidarDepthInterval (lo hi t : Vec3) : ℝ × ℝ := (boxMinDistance lo hi t, boxMaxDistance lo hi t)

/-- `angle_math::normalize_near` (angle_normalization.h:11-18). -/
def normalizeNear (a : ℝ) : ℝ := if a < -Real.pi then a + 2 * Real.pi else if Real.pi < a then a - 2 * Real.pi else a

/-- The increment per pixel along an axis (spherical_projector.cc:11-14). -/
def pixelAngle (lo hi : ℝ) (cells : Int) : ℝ := (hi - lo) / ((cells - 1 : Int) : ℝ)

/-- One entry of `sensorAxisIsPeriodic` (spherical_projector.cc:21-34, ouster_projector.cc:21-34). -/
def axisIsPeriodic (lo hi : ℝ) (cells : Int) : Prop :=
  let difference := normalizeNear (hi + pixelAngle lo hi cells) - lo
  0 ≤ difference ∧ difference ≤ pixelAngle lo hi cells

end
end Wavemap
