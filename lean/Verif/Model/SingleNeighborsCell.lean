import Verif.Model.SingleCell
import Verif.Model.SingleNeighbors
import Verif.Model.SingleClearing
/-!
# The update of a cell by the four nearest pixels of a depth image in single precision

One cell in `FixedResolutionIntegrator::updateMap`, as in `Verif.Model.SingleCell`, for a camera and the continuous ray with `BeamSelectorType::kAllNeighbors`.
Files under `library/cpp/include/wavemap/core/integrator` and `library/cpp/src/core/integrator`.
-/
namespace Wavemap
namespace Single
namespace CameraView

/-- `ProjectiveIntegrator::computeUpdate` (projective/impl/projective_integrator_inl.h:5-20) with `ContinuousRay::computeUpdate` for `kAllNeighbors`
(measurement_model/impl/continuous_ray_inl.h:34-43). -/
def computeUpdateAll (logF : ℚ → ℚ) (v : CameraView) (p : Point 3) : Option ℚ :=
  let depth := v.camera.cartesianToSensorZ p
  if depth < v.minRange ∨ v.maxRange < depth then some 0
  else v.ray.updateAll logF Grid.pinhole v.image (v.camera.cartesianToImage p) depth

/-- What is added to the cell (projective/fixed_resolution/fixed_resolution_integrator.cc:103-106): nothing if the update is at most `kEpsilon`. -/
def cellChangeAll (logF : ℚ → ℚ) (v : CameraView) (minCellWidth : ℚ) (index : Index 3) : Option ℚ :=
  (v.computeUpdateAll logF (v.cellInCamera minCellWidth index)).map fun update => if kEpsilon < |update| then update else 0

end CameraView

/-- The body of the loop (projective/fixed_resolution/fixed_resolution_integrator.cc:100-106). `none` if the update is not finite. -/
def Frame.updateCellAll (logF : ℚ → ℚ) (f : Frame) (m : HashedBlocks) (index : Index 3) : Option HashedBlocks :=
  (f.view.computeUpdateAll logF (f.view.cellInCamera m.config.minCellWidth index)).map fun update =>
    if kEpsilon < |update| then Rounded.hashedBlocksAdd fl m index update else m

/-- `updateMap` (projective/fixed_resolution/fixed_resolution_integrator.cc:88-108). -/
def Frame.updateMapAll (logF : ℚ → ℚ) (m : HashedBlocks) (f : Frame) : Option HashedBlocks := do
  (← gridIndices f.minIndex f.maxIndex).foldlM (f.updateCellAll logF) m

end Single
end Wavemap
