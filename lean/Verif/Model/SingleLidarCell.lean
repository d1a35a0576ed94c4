import Verif.Model.SingleCell
import Verif.Model.SingleLidar
/-!
# The update of a cell by a lidar in single precision

One cell in `FixedResolutionIntegrator::updateMap`, as in `Verif.Model.SingleCell`, for the spherical projector. The signs of coordinates that are zero are a parameter.
Files under `library/cpp/include/wavemap/core/integrator` and `library/cpp/src/core/integrator`.
-/
namespace Wavemap
namespace Single

/-- A number with the given sign bit if it is zero (`FloatingPoint`, common.h:13). -/
def Signed.with (negativeZero : Bool) (x : ℚ) : Signed := ⟨x, if x = 0 then negativeZero else decide (x < 0)⟩

/-- What `updateMap` reads: the angular grid, the pose of the map's frame in the sensor's frame, the range image, the measurement model and the range limits
(projective/fixed_resolution/fixed_resolution_integrator.cc:88-108, projective/projective_integrator.h:19-53). -/
structure LidarView where
  grid : Grid
  pose : Pose
  image : Image ℚ
  ray : RayConfig
  minRange : ℚ
  maxRange : ℚ

namespace LidarView

/-- `C_cell_center` (projective/fixed_resolution/fixed_resolution_integrator.cc:100-102). -/
def cellInSensor (v : LidarView) (minCellWidth : ℚ) (index : Index 3) : Point 3 := v.pose.transform (indexToCenterPoint index minCellWidth)

/-- `ProjectiveIntegrator::computeUpdate` (projective/impl/projective_integrator_inl.h:5-20) with `ContinuousRay::computeUpdate` for `kNearestNeighbor`
(measurement_model/impl/continuous_ray_inl.h:27-33, 50-68). `none` if the point has no pixel, where the code converts NaN to an integer. -/
def computeUpdate (logF sqrtF : ℚ → ℚ) (negativeZero : Fin 3 → Bool) (v : LidarView) (p : Point 3) : Option ℚ :=
  let depth := sphericalDepth sqrtF p
  if depth < v.minRange ∨ v.maxRange < depth then some 0
  else
    match sphericalToNearestIndex sqrtF v.grid fun k => Signed.with (negativeZero k) (p k) with
    | none => none
    | some i =>
      match v.image.at (i 0, i 1) with
      | none => some 0
      | some measured => v.ray.distanceUpdate logF depth measured

/-- What is added to the cell (projective/fixed_resolution/fixed_resolution_integrator.cc:103-106): nothing if the update is at most `kEpsilon`. -/
def cellChange (logF sqrtF : ℚ → ℚ) (negativeZero : Fin 3 → Bool) (v : LidarView) (minCellWidth : ℚ) (index : Index 3) : Option ℚ :=
  (v.computeUpdate logF sqrtF negativeZero (v.cellInSensor minCellWidth index)).map fun update => if kEpsilon < |update| then update else 0

end LidarView
end Single
end Wavemap
