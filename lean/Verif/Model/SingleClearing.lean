import Verif.Model.SingleCell
import Verif.Model.SingleMaps
import Verif.Model.WaveletIntegrator
/-!
# Integrating depth images into a map in single precision

`FixedResolutionIntegrator::updateMap` (library/cpp/src/core/integrator/projective/fixed_resolution/fixed_resolution_integrator.cc) for the pinhole camera, the continuous ray
with the nearest pixel and a map of hashed blocks, with every operation rounded. The box of cells is given: it is computed when the image is imported (C66).
-/
namespace Wavemap
namespace Single

/-- One depth image: what `updateMap` reads, and `aabb_min_index` and `aabb_max_index` (projective/fixed_resolution/fixed_resolution_integrator.cc:88-96). -/
structure Frame where
  view : CameraView
  minIndex : Index 3
  maxIndex : Index 3

namespace Frame

/-- The body of the loop (projective/fixed_resolution/fixed_resolution_integrator.cc:100-106). `none` if the update is not finite. -/
def updateCell (logF : ℚ → ℚ) (f : Frame) (m : HashedBlocks) (index : Index 3) : Option HashedBlocks :=
  (f.view.computeUpdate logF (f.view.cellInCamera m.config.minCellWidth index)).map fun update =>
    if kEpsilon < |update| then Rounded.hashedBlocksAdd fl m index update else m

/-- `updateMap` (projective/fixed_resolution/fixed_resolution_integrator.cc:88-108). -/
def updateMap (logF : ℚ → ℚ) (m : HashedBlocks) (f : Frame) : Option HashedBlocks := do
  (← gridIndices f.minIndex f.maxIndex).foldlM (f.updateCell logF) m

end Frame
end Single
end Wavemap
