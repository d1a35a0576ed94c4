import Verif.Model.SingleMeasurement
import Verif.Model.SingleCamera
/-!
# Updates from the four nearest pixels in single precision

`BeamSelectorType::kAllNeighbors`, and the nearest pixel with its offset, of the continuous ray and the continuous beam, with every operation rounded. Files under
`library/cpp/include/wavemap/core/integrator`. The order of the multiplications in a product with a diagonal matrix does not matter: there are no sums in it.
-/
namespace Wavemap
namespace Single

namespace Grid

/-- `imageToNearestIndices` (projection_model/impl/projector_base_inl.h:41-59): the four columns in order. The casts to `IndexElement` are assumed not to overflow. -/
def imageToNearestIndices (g : Grid) (image : Point 2) : List Idx2 :=
  let r := g.imageToIndexReal image
  [(⌊r 0⌋, ⌊r 1⌋), (⌈r 0⌉, ⌊r 1⌋), (⌊r 0⌋, ⌈r 1⌉), (⌈r 0⌉, ⌈r 1⌉)]

/-- `imageToNearestIndicesAndOffsets` (projection_model/impl/projector_base_inl.h:61-90). Rounding a float to an integer is exact. -/
def imageToNearestIndicesAndOffsets (g : Grid) (image : Point 2) : List (Idx2 × Point 2) :=
  let r := g.imageToIndexReal image
  (g.imageToNearestIndices image).map fun i => (i, ![fl (g.scale 0 * fl (i.1 - r 0)), fl (g.scale 1 * fl (i.2 - r 1))])

end Grid

/-- `PinholeCameraProjector::imageOffsetToErrorSquaredNorm` (projection_model/impl/pinhole_camera_projector_inl.h:26-45). -/
def pinholeErrorSquared (offset : Point 2) : ℚ := fl (fl (offset 0 * offset 0) + fl (offset 1 * offset 1))

/-- `imageOffsetToErrorSquaredNorm` of the spherical and the Ouster projector (projection_model/impl/spherical_projector_inl.h:28-55,
projection_model/impl/ouster_projector_inl.h:37-64); `cosF` is `std::cos` and `elevation` the first coordinate of the linearization point. -/
def lidarErrorSquared (cosF : ℚ → ℚ) (elevation : ℚ) (offset : Point 2) : ℚ :=
  let cosSq := fl (cosF elevation * cosF elevation)
  fl (fl (offset 0 * offset 0) + fl (cosSq * fl (offset 1 * offset 1)))

/-- `update += ...` over the neighbours (measurement_model/impl/continuous_ray_inl.h:35-43, measurement_model/impl/continuous_beam_inl.h:106-113): undefined if one of the terms is. -/
def sumUpdates (l : List (Option ℚ)) : Option ℚ := l.foldl (fun acc u => do return fl ((← acc) + (← u))) (some 0)

/-- `ContinuousRay::computeBeamUpdate` (measurement_model/impl/continuous_ray_inl.h:50-68). -/
def RayConfig.beamUpdate (logF : ℚ → ℚ) (c : RayConfig) (im : Image ℚ) (depth : ℚ) (i : Idx2) : Option ℚ :=
  match im.at i with
  | none => some 0
  | some measured => c.distanceUpdate logF depth measured

/-- `ContinuousRay::computeUpdate` with `kAllNeighbors` (measurement_model/impl/continuous_ray_inl.h:34-43). -/
def RayConfig.updateAll (logF : ℚ → ℚ) (c : RayConfig) (g : Grid) (im : Image ℚ) (image : Point 2) (depth : ℚ) : Option ℚ :=
  sumUpdates ((g.imageToNearestIndices image).map (c.beamUpdate logF im depth))

/-- `ContinuousBeam::computeBeamUpdateNearestNeighbor` (measurement_model/impl/continuous_beam_inl.h:50-73); `errSq` is `imageOffsetToErrorSquaredNorm` at the image
coordinates. The image of the offsets has the size of the range image. -/
def BeamConfig.updateNearest (logF sqrtF : ℚ → ℚ) (c : BeamConfig) (g : Grid) (errSq : Point 2 → ℚ) (im : Image ℚ) (offsets : Image (Point 2)) (image : Point 2) (depth : ℚ) :
    Option ℚ :=
  let io := g.imageToNearestIndexAndOffset image
  match im.at (io.1 0, io.1 1), offsets.at (io.1 0, io.1 1) with
  | some measured, some off => c.beamUpdate logF sqrtF depth (errSq fun k => fl (off k - io.2 k)) measured
  | _, _ => some 0

/-- The measured distance and the offset of one neighbour (measurement_model/impl/continuous_beam_inl.h:84-97): zero and the uncorrected offset for a neighbour outside the image. -/
def neighborBeam (im : Image ℚ) (offsets : Image (Point 2)) (io : Idx2 × Point 2) : ℚ × Point 2 :=
  match im.at io.1, offsets.at io.1 with
  | some measured, some off => (measured, fun k => fl (io.2 k - off k))
  | _, _ => (0, io.2)

/-- `ContinuousBeam::computeBeamUpdateAllNeighbors` (measurement_model/impl/continuous_beam_inl.h:75-114). -/
def BeamConfig.updateAll (logF sqrtF : ℚ → ℚ) (c : BeamConfig) (g : Grid) (errSq : Point 2 → ℚ) (im : Image ℚ) (offsets : Image (Point 2)) (image : Point 2) (depth : ℚ) :
    Option ℚ :=
  sumUpdates ((g.imageToNearestIndicesAndOffsets image).map fun io =>
    let b := neighborBeam im offsets io
    c.beamUpdate logF sqrtF depth (errSq b.2) b.1)

end Single
end Wavemap
