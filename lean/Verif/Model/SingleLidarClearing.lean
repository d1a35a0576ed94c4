import Verif.Model.SingleLidarCell
import Verif.Model.SingleMaps
import Verif.Model.WaveletIntegrator
/-!
# Integrating lidar scans into a map in single precision

`FixedResolutionIntegrator::updateMap` (library/cpp/src/core/integrator/projective/fixed_resolution/fixed_resolution_integrator.cc) for the spherical projector, the continuous ray
with the nearest pixel and a map of hashed blocks, with every operation rounded. The box of cells is given: it is computed when the scan is imported (C66). The signs of
coordinates that are zero are a parameter.
-/
namespace Wavemap
namespace Single

/-- One range image: what `updateMap` reads, and `aabb_min_index` and `aabb_max_index` (projective/fixed_resolution/fixed_resolution_integrator.cc:88-96). -/
structure Scan where
  view : LidarView
  minIndex : Index 3
  maxIndex : Index 3
  negativeZero : Index 3 → Fin 3 → Bool

namespace Scan

/-- The body of the loop (projective/fixed_resolution/fixed_resolution_integrator.cc:100-106). `none` if NaN is converted to an index or the update is not finite. -/
def updateCell (logF sqrtF : ℚ → ℚ) (f : Scan) (m : HashedBlocks) (index : Index 3) : Option HashedBlocks :=
  (f.view.computeUpdate logF sqrtF (f.negativeZero index) (f.view.cellInSensor m.config.minCellWidth index)).map fun update =>
    if kEpsilon < |update| then Rounded.hashedBlocksAdd fl m index update else m

/-- `updateMap` (projective/fixed_resolution/fixed_resolution_integrator.cc:88-108). -/
def updateMap (logF sqrtF : ℚ → ℚ) (m : HashedBlocks) (f : Scan) : Option HashedBlocks := do
  (← gridIndices f.minIndex f.maxIndex).foldlM (f.updateCell logF sqrtF) m

end Scan
end Single
end Wavemap
