import Verif.Model.SingleNeighbors
import Verif.Model.SingleLidarClearing
/-!
# The update of cells by the four nearest pixels of a range image in single precision

As in `Verif.Model.SingleLidarCell` and `Verif.Model.SingleLidarClearing`, for `BeamSelectorType::kAllNeighbors`.
Files under `library/cpp/include/wavemap/core/integrator` and `library/cpp/src/core/integrator`.
-/
namespace Wavemap
namespace Single
namespace LidarView

/-- `ProjectiveIntegrator::computeUpdate` (projective/impl/projective_integrator_inl.h:5-20) with `ContinuousRay::computeUpdate` for `kAllNeighbors`
(measurement_model/impl/continuous_ray_inl.h:34-43). `none` if the point has no azimuth, where the code converts NaN to integers. -/
def computeUpdateAll (logF sqrtF : ℚ → ℚ) (negativeZero : Fin 3 → Bool) (v : LidarView) (p : Point 3) : Option ℚ :=
  let depth := sphericalDepth sqrtF p
  if depth < v.minRange ∨ v.maxRange < depth then some 0
  else
    match sphericalToImage sqrtF fun k => Signed.with (negativeZero k) (p k) with
    | none => none
    | some image => v.ray.updateAll logF v.grid v.image image depth

/-- What is added to the cell (projective/fixed_resolution/fixed_resolution_integrator.cc:103-106): nothing if the update is at most `kEpsilon`. -/
def cellChangeAll (logF sqrtF : ℚ → ℚ) (negativeZero : Fin 3 → Bool) (v : LidarView) (minCellWidth : ℚ) (index : Index 3) : Option ℚ :=
  (v.computeUpdateAll logF sqrtF negativeZero (v.cellInSensor minCellWidth index)).map fun update => if kEpsilon < |update| then update else 0

end LidarView

/-- The body of the loop (projective/fixed_resolution/fixed_resolution_integrator.cc:100-106). `none` if NaN is converted to an index or the update is not finite. -/
def Scan.updateCellAll (logF sqrtF : ℚ → ℚ) (f : Scan) (m : HashedBlocks) (index : Index 3) : Option HashedBlocks :=
  (f.view.computeUpdateAll logF sqrtF (f.negativeZero index) (f.view.cellInSensor m.config.minCellWidth index)).map fun update =>
    if kEpsilon < |update| then Rounded.hashedBlocksAdd fl m index update else m

/-- `updateMap` (projective/fixed_resolution/fixed_resolution_integrator.cc:88-108). -/
def Scan.updateMapAll (logF sqrtF : ℚ → ℚ) (m : HashedBlocks) (f : Scan) : Option HashedBlocks := do
  (← gridIndices f.minIndex f.maxIndex).foldlM (f.updateCellAll logF sqrtF) m

end Single
end Wavemap
