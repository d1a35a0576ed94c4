import Verif.Model.SingleMeasurement
import Verif.Model.SinglePoses
import Verif.Model.SinglePrecision
/-!
# The update of a cell by a camera in single precision

One cell in `FixedResolutionIntegrator::updateMap`, from its index to the change of its value, for the pinhole camera and the continuous ray with the nearest pixel, with
every operation rounded. Files under `library/cpp/include/wavemap/core/integrator` and `library/cpp/src/core/integrator`.
-/
namespace Wavemap
namespace Single

/-- What `updateMap` reads: the camera, its pose from the map's frame (`getPoseInverse`), the range image, the measurement model and the range limits (projective/fixed_resolution/fixed_resolution_integrator.cc:88-108, projective/projective_integrator.h:19-53). -/
structure CameraView where
  camera : Pinhole
  pose : Pose
  image : Image ℚ
  ray : RayConfig
  minRange : ℚ
  maxRange : ℚ

namespace CameraView

/-- `C_cell_center` (projective/fixed_resolution/fixed_resolution_integrator.cc:100-102). -/
def cellInCamera (v : CameraView) (minCellWidth : ℚ) (index : Index 3) : Point 3 := v.pose.transform (indexToCenterPoint index minCellWidth)

/-- `ProjectiveIntegrator::computeUpdate` (projective/impl/projective_integrator_inl.h:5-20) with `ContinuousRay::computeUpdate` for `kNearestNeighbor`
(measurement_model/impl/continuous_ray_inl.h:27-33, 50-68). -/
def computeUpdate (logF : ℚ → ℚ) (v : CameraView) (p : Point 3) : Option ℚ :=
  let depth := v.camera.cartesianToSensorZ p
  if depth < v.minRange ∨ v.maxRange < depth then some 0
  else
    let i := v.camera.cartesianToNearestIndex p
    match v.image.at (i 0, i 1) with
    | none => some 0
    | some measured => v.ray.distanceUpdate logF depth measured

/-- What is added to the cell (projective/fixed_resolution/fixed_resolution_integrator.cc:103-106): nothing if the update is at most `kEpsilon`. -/
def cellChange (logF : ℚ → ℚ) (v : CameraView) (minCellWidth : ℚ) (index : Index 3) : Option ℚ :=
  (v.computeUpdate logF (v.cellInCamera minCellWidth index)).map fun update => if kEpsilon < |update| then update else 0

end CameraView
end Single
end Wavemap
