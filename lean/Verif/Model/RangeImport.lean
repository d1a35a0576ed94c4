import Verif.Model.Measurement
/-!
# Importing measurements into the range image

Models `ProjectiveIntegrator::{integrate, importPointcloud, importRangeImage}` (`src/core/integrator/projective/
projective_integrator.cc`), `IntegratorBase::isMeasurementValid` (`integrator/impl/integrator_base_inl.h`) and the initial
value carried by `Image` (`data_structure/image.h`), under `library/cpp`. `FloatingPoint` is `ℝ`; a point with a NaN
coordinate is `none`. The projection model is a parameter.
-/
namespace Wavemap
noncomputable section

/-- A point of a point cloud; `none` has a NaN coordinate. The points that projective_integrator.cc:34-50 reads. -/
abbrev CloudPoint := Option (ℝ × ℝ × ℝ)

/-- `IntegratorBase::isMeasurementValid` (integrator_base_inl.h:5-25). -/
def isMeasurementValid (p : CloudPoint) : Bool :=
  match p with
  | none => false
  | some (x, y, z) =>
    let sq := x * x + y * y + z * z
    if sq < 1 / 1000 * (1 / 1000) then false
    else if 1000 * 1000 < sq then false
    else true

/-- The projection model as used by the import: `cartesianToSensor` and the pixel grid of `ProjectorBase` (projective_integrator.cc:52-89). -/
structure Projector where
  rows : Nat
  cols : Nat
  grid : ImageGrid
  cartesianToSensor : ℝ × ℝ × ℝ → SensorCoordinates

/-- `posed_range_image_` and `beam_offset_image_` (projective_integrator.h:88-89). `initial` is the range image's
`initial_value_` (image.h:80-81); the beam offsets start at and reset to zero. -/
structure RangeState where
  range : Image ℝ
  initial : ℝ
  offset : Image (ℝ × ℝ)

/-- The images as constructed by the factory (src/core/integrator/integrator_factory.cc:72-75). -/
def RangeState.init (P : Projector) : RangeState :=
  ⟨⟨P.rows, P.cols, fun _ _ => 0⟩, 0, ⟨P.rows, P.cols, fun _ _ => (0, 0)⟩⟩

/-- The body of the import loop (projective_integrator.cc:61-88). -/
def importPoint (P : Projector) (minRange : ℝ) (st : RangeState) (p : CloudPoint) : RangeState :=
  match p with
  | none => st
  | some q =>
    if isMeasurementValid (some q) then
      let s := P.cartesianToSensor q
      let io := P.grid.nearestIndexAndOffset s.u s.v
      match st.range.at io.1 with
      | none => st
      | some old =>
        if old < minRange ∨ s.depth < old then
          { st with range := st.range.set io.1 s.depth, offset := st.offset.set io.1 io.2 }
        else st
    else st

/-- `importPointcloud` (projective_integrator.cc:52-89). -/
def importPointcloud (P : Projector) (minRange : ℝ) (st : RangeState) (cloud : List CloudPoint) : RangeState :=
  cloud.foldl (importPoint P minRange)
    { st with range := st.range.setToConstant st.initial, offset := st.offset.setToConstant (0, 0) }

/-- `importRangeImage` (projective_integrator.cc:91-99): the input's initial value is copied along. -/
def importRangeImage (st : RangeState) (input : Image ℝ) (inputInitial : ℝ) : RangeState :=
  ⟨input, inputInitial, st.offset.setToConstant (0, 0)⟩

/-- `integrate(PosedPointcloud)` up to `updateMap` (projective_integrator.cc:25-32): `false` if the measurement is
ignored. -/
def integratePointcloud (P : Projector) (minRange : ℝ) (poseValid : Bool) (st : RangeState) (cloud : List CloudPoint) :
    Bool × RangeState :=
  if poseValid then (true, importPointcloud P minRange st cloud) else (false, st)

/-- `integrate(PosedImage)` up to `updateMap` (projective_integrator.cc:34-50). -/
def integrateRangeImage (P : Projector) (poseValid : Bool) (st : RangeState) (input : Image ℝ) (inputInitial : ℝ) :
    Bool × RangeState :=
  if input.rows ≠ P.rows ∨ input.cols ≠ P.cols then (false, st)
  else if poseValid then (true, importRangeImage st input inputInitial) else (false, st)

end
end Wavemap
