import Verif.Model.SingleNeighborsCell
import Verif.Model.SingleLidarNeighborsCell
/-!
# Integrating the measurements of several sensors into one map in single precision

`Pipeline::runIntegrators` (library/cpp/include/wavemap/pipeline/impl/pipeline_inl.h) with fixed-resolution integrators for cameras and lidars that share a map of hashed blocks.
Every measurement is handed to its integrators one after the other, and the map operations run in between, so a history is a list of integrations and operations.
-/
namespace Wavemap
namespace Single

/-- One call of `integrate` (library/cpp/include/wavemap/pipeline/impl/pipeline_inl.h:11-13): a depth image or a scan, with the beam selector of its integrator
(`BeamSelectorType::kNearestNeighbor` or `kAllNeighbors`, library/cpp/include/wavemap/core/integrator/measurement_model/continuous_ray.h). Or an operation on the map that
`runOperations` starts (library/cpp/src/pipeline/pipeline.cc:68-72). -/
inductive Integration
  | nearestImage (f : Frame)
  | allImage (f : Frame)
  | nearestScan (f : Scan)
  | allScan (f : Scan)
  | threshold
  | prune

/-- The update of the map by one integration (library/cpp/src/core/integrator/projective/fixed_resolution/fixed_resolution_integrator.cc:88-108) or by
`HashedBlocks::threshold` and `HashedBlocks::prune` (library/cpp/include/wavemap/core/map/hashed_blocks.h:30-32, library/cpp/src/core/map/hashed_blocks.cc:15-23). -/
def Integration.updateMap (logF sqrtF : ℚ → ℚ) (m : HashedBlocks) : Integration → Option HashedBlocks
  | nearestImage f => f.updateMap logF m
  | allImage f => f.updateMapAll logF m
  | nearestScan f => f.updateMap logF sqrtF m
  | allScan f => f.updateMapAll logF sqrtF m
  | threshold => some (HashedBlocks.threshold m)
  | prune => some (HashedBlocks.prune m)

/-- All integrations, in order (library/cpp/include/wavemap/pipeline/impl/pipeline_inl.h:8-19). -/
def integrateAll (logF sqrtF : ℚ → ℚ) (m : HashedBlocks) (history : List Integration) : Option HashedBlocks :=
  history.foldlM (Integration.updateMap logF sqrtF) m

end Single
end Wavemap
