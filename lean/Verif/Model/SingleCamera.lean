import Verif.Model.SingleInterpolate
import Mathlib.Data.Fin.VecNotation
/-!
# Image grids and the pinhole camera in single precision

The functions of `ProjectorBase` that convert between image coordinates and pixels, and the projection of `PinholeCameraProjector`, as in `Verif.Model.Measurement` and
`Verif.Model.Projectors`, with every operation rounded. Files under `library/cpp/include/wavemap/core/integrator/projection_model` and
`library/cpp/src/core/integrator/projection_model`. Not modelled here: the fusing of multiplications and additions by the compiler.
-/
namespace Wavemap
namespace Single

/-- `index_to_image_scale_factor_` and `image_offset_` of `ProjectorBase` (projector_base.h:115-119). -/
structure Grid where
  scale : Point 2
  offset : Point 2

namespace Grid

/-- `imageToIndexReal` (projector_base_inl.h:115-119), with `image_to_index_scale_factor_` (projector_base.h:117-118). -/
def imageToIndexReal (g : Grid) (image : Point 2) : Point 2 := fun i => fl (fl (image i - g.offset i) * fl (1 / g.scale i))

/-- `imageToNearestIndex` (projector_base_inl.h:7-13). The cast to `IndexElement` is assumed not to overflow. -/
def imageToNearestIndex (g : Grid) (image : Point 2) : Index 2 := fun i => cppRound (g.imageToIndexReal image i)

/-- `imageToNearestIndexAndOffset` (projector_base_inl.h:31-39). Rounding a float to an integer is exact. -/
def imageToNearestIndexAndOffset (g : Grid) (image : Point 2) : Index 2 × Point 2 :=
  (g.imageToNearestIndex image, fun i => fl (fl (cppRound (g.imageToIndexReal image i) - g.imageToIndexReal image i) * g.scale i))

/-- `indexToImage` (projector_base_inl.h:92-97). -/
def indexToImage (g : Grid) (index : Index 2) : Point 2 := fun i => fl (fl (fl (index i) * g.scale i) + g.offset i)

/-- The grid of the spherical and the Ouster projector (spherical_projector.cc:8-17, ouster_projector.cc:8-17); row `i = 0` is the elevation, `i = 1` the azimuth. -/
def lidar (minAngle maxAngle : Point 2) (numCells : Index 2) : Grid where
  scale := fun i => fl (fl (maxAngle i - minAngle i) / fl (numCells i - 1 : Int))
  offset := minAngle

/-- The grid of the pinhole camera (pinhole_camera_projector.cc:8-9). -/
def pinhole : Grid where
  scale := fun _ => 1
  offset := fun _ => 0

end Grid

/-- `PinholeCameraProjectorConfig` (pinhole_camera_projector.h:13-42). -/
structure Pinhole where
  width : Int
  height : Int
  fx : ℚ
  fy : ℚ
  cx : ℚ
  cy : ℚ

namespace Pinhole

/-- `isValid` (pinhole_camera_projector.cc:65-75). -/
def Valid (c : Pinhole) : Prop := 0 < c.width ∧ 0 < c.height ∧ 0 < c.fx ∧ 0 < c.fy

/-- `fxfy_` (pinhole_camera_projector.h:84). -/
def fxfy (c : Pinhole) : ℚ := fl (c.fx * c.fy)

/-- `fxfy_inv_` (pinhole_camera_projector.h:85). -/
def fxfyInv (c : Pinhole) : ℚ := fl (1 / c.fxfy)

/-- `cxfy_` (pinhole_camera_projector.h:86). -/
def cxfy (c : Pinhole) : ℚ := fl (c.cx * c.fy)

/-- `cyfx_` (pinhole_camera_projector.h:87). -/
def cyfx (c : Pinhole) : ℚ := fl (c.cy * c.fx)

/-- The image coordinates of `cartesianToSensor` (pinhole_camera_projector_inl.h:7-14). -/
def cartesianToImage (c : Pinhole) (p : Point 3) : Point 2 :=
  ![fl (fl (fl (c.fx * p 0) / max (p 2) kEpsilon) + c.cx), fl (fl (fl (c.fy * p 1) / max (p 2) kEpsilon) + c.cy)]

/-- The depth of `cartesianToSensor` (pinhole_camera_projector_inl.h:13) and `cartesianToSensorZ` (pinhole_camera_projector.h:70-72). -/
def cartesianToSensorZ (_c : Pinhole) (p : Point 3) : ℚ := p 2

/-- `sensorToCartesian` (pinhole_camera_projector_inl.h:16-25). -/
def sensorToCartesian (c : Pinhole) (image : Point 2) (depth : ℚ) : Point 3 :=
  let s := fl (depth * c.fxfyInv)
  ![fl (s * fl (fl (c.fy * image 0) - c.cxfy)), fl (s * fl (fl (c.fx * image 1) - c.cyfx)), fl (s * c.fxfy)]

/-- `cartesianToNearestIndex` (projector_base.h:105-107). -/
def cartesianToNearestIndex (c : Pinhole) (p : Point 3) : Index 2 := Grid.pinhole.imageToNearestIndex (c.cartesianToImage p)

/-- `getMinImageCoordinates` and `getMaxImageCoordinates` (projector_base.h:45-50) of a camera constructed in memory whose contents are `memory`: the constructor
(pinhole_camera_projector.cc:6-11) calls `indexToImage` of its base class to compute the arguments of the base class's constructor, so that the scale factor and the offset
are not set yet. -/
def imageRange (memory : Grid) (c : Pinhole) : Point 2 × Point 2 :=
  (memory.indexToImage ![0, 0], memory.indexToImage ![c.width - 1, c.height - 1])

end Pinhole
end Single
end Wavemap
