import Verif.Model.FixedResolution
import Verif.Model.Iterate
import Verif.Model.Undistortion
/-!
# The ray-tracing integrator

Models `integrator/ray_tracing/ray_tracing_integrator.{h,cc}` with `ConstantRay` (`integrator/measurement_model/constant_ray.h`) and
`IntegratorBase::{isMeasurementValid, getEndPointOrMaxRange}` (`integrator/impl/integrator_base_inl.h`), under `library/cpp`. Coordinates are rational; the
(rounded) norm that the truncation uses is a parameter. A point with a NaN coordinate is `none`. Which axis a ray crosses first when several
boundaries coincide is left open (`RayCells`), so integration is a relation.
-/
namespace Wavemap

/-- `RayTracingIntegratorConfig` (ray_tracing_integrator.h:15-27). -/
structure RayTracingConfig where
  minRange : ℚ
  maxRange : ℚ

/-- `RayTracingIntegratorConfig::isValid` (ray_tracing_integrator.cc:8-16). -/
def RayTracingConfig.isValid (c : RayTracingConfig) : Bool :=
  decide (0 < c.minRange) && decide (0 < c.maxRange) && decide (c.minRange < c.maxRange)

/-- The default `ConstantRayConfig` (constant_ray.h:13-14), which the integrator uses. -/
def defaultConstantRay : ConstantRayConfig := ⟨85 / 100, -4 / 10⟩

/-- `isMeasurementValid(W_end_point - W_start_point)` (integrator_base_inl.h:5-25). -/
def rayMeasurementValid (start stop : Point 3) : Bool :=
  let sq := (stop 0 - start 0) ^ 2 + (stop 1 - start 1) ^ 2 + (stop 2 - start 2) ^ 2
  !(decide (sq < 1 / 1000 * (1 / 1000))) && !(decide (1000 * 1000 < sq))

/-- `getEndPointOrMaxRange` (integrator_base_inl.h:27-36). -/
def rayEndPoint (start stop : Point 3) (measured maxRange : ℚ) : Point 3 :=
  if maxRange < measured then fun k => start k + maxRange / measured * (stop k - start k) else stop

/-- The ray of one point of the cloud: the point and the cells that are visited, in order. Auxiliary for ray_tracing_integrator.cc:29-45. -/
structure TracedRay where
  point : Point 3
  cells : List (Index 3)
  now : Index 3 → ℚ

/-- The ray's updates (ray_tracing_integrator.cc:41-44). -/
def TracedRay.writes (w : ℚ) (r : TracedRay) : List CellWrite :=
  r.cells.map fun i => ⟨i, constantRayUpdate defaultConstantRay w r.point i, r.now i⟩

/-- The loop over the points (ray_tracing_integrator.cc:29-45): `norm start stop` is the measured distance. -/
inductive RaysOf (config : RayTracingConfig) (w : ℚ) (norm : Point 3 → Point 3 → ℚ) (start : Point 3) :
    List (Option (Point 3)) → List TracedRay → Prop
  | nil : RaysOf config w norm start [] []
  | nan {cloud rays} : RaysOf config w norm start cloud rays → RaysOf config w norm start (none :: cloud) rays
  | skip {q cloud rays} : rayMeasurementValid start q = false → RaysOf config w norm start cloud rays →
      RaysOf config w norm start (some q :: cloud) rays
  | ray {q cells now cloud rays} : rayMeasurementValid start q = true →
      RayCells (Ray.ofPoints start (rayEndPoint start q (norm start q) config.maxRange) w) cells → RaysOf config w norm start cloud rays →
      RaysOf config w norm start (some q :: cloud) (⟨q, cells, now⟩ :: rays)

/-- `integrate(PosedPointcloud)` (ray_tracing_integrator.cc:18-46), as a relation between the map before and what comes out; `start` and the points are
in the world frame. The points are transformed by `getPointsGlobal` (pointcloud.h:76-79), whose `transformVectorized` fails a check if there are none
(quat-transformation-inl.h:151-157). -/
inductive RayTraced (config : RayTracingConfig) (w : ℚ) (norm : Point 3 → Point 3 → ℚ) (poseValid : Bool) (start : Point 3)
    (cloud : List (Option (Point 3))) (m : AnyMap) : Outcome AnyMap → Prop
  | invalid : poseValid = false → RayTraced config w norm poseValid start cloud m (.done m)
  | empty : poseValid = true → cloud = [] → RayTraced config w norm poseValid start cloud m .abort
  | integrated {rays} : poseValid = true → cloud ≠ [] → RaysOf config w norm start cloud rays →
      RayTraced config w norm poseValid start cloud m (.done (m.writeCells (rays.flatMap (TracedRay.writes w))))

end Wavemap
