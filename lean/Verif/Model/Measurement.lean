import Mathlib.Analysis.SpecialFunctions.Log.Basic
import Mathlib.Analysis.SpecialFunctions.Sqrt
import Mathlib.Algebra.Order.Floor.Ring
import Verif.Model.Conversions
/-!
# Measurement models

Models `integrator/measurement_model/{approximate_gaussian_distribution,constant_ray,continuous_ray,continuous_beam}.h`
with their `impl` files and `src/core/integrator/measurement_model/*.cc`, the index arithmetic of
`integrator/projection_model/impl/projector_base_inl.h`, and `ProjectiveIntegrator::computeUpdate`
(under `library/cpp`). `FloatingPoint` is `ℝ` here (the code takes logarithms and square roots); an update whose logarithm
would not be finite, which trips the `DCHECK` at continuous_ray_inl.h:85 and continuous_beam_inl.h:154, is `none`.
-/
namespace Wavemap
noncomputable section

/-- `ApproximateGaussianDistribution::cumulative` (approximate_gaussian_distribution.h:12-26). -/
def gaussCumulative (t : ℝ) : ℝ :=
  if t < -3 then 0
  else if t ≤ -1 then 1 / 48 * (t + 3) * (t + 3) * (t + 3)
  else if t < 1 then 1 / 2 + 1 / 24 * t * (t + 3) * (3 - t)
  else if t ≤ 3 then 1 - 1 / 48 * (3 - t) * (3 - t) * (3 - t)
  else 1

/-- `std::log(p / (1.f - p))` with its `DCHECK` (continuous_ray_inl.h:83-86, 90-93, continuous_beam_inl.h:153-155). -/
def logOddsUpdate (p : ℝ) : Option ℝ := if 0 < p ∧ p < 1 then some (Real.log (p / (1 - p))) else none

/-- `range_contrib` (continuous_ray_inl.h:75-77, continuous_beam_inl.h:139-145), with `f` the offset in sigmas. -/
def rangeContrib (f : ℝ) : ℝ := gaussCumulative f - 1 / 2 * gaussCumulative (f - 3) - 1 / 2

/-- An image index (`Index2D`, common.h). -/
abbrev Idx2 := Int × Int

/-- `Image<PixelT>` (data_structure/image.h:13-82): dimensions and pixels. -/
structure Image (α : Type) where
  rows : Nat
  cols : Nat
  px : Nat → Nat → α

namespace Image
variable {α : Type}

/-- `isIndexWithinBounds` (image.h:54-57). -/
def inBounds (im : Image α) (i : Idx2) : Bool :=
  decide (0 ≤ i.1) && decide (0 ≤ i.2) && decide (i.1 < im.rows) && decide (i.2 < im.cols)

/-- `at` (image.h:59-70): `none` is an access outside the image. -/
def «at» (im : Image α) (i : Idx2) : Option α := if im.inBounds i then some (im.px i.1.toNat i.2.toNat) else none

/-- `at(index) = v` (image.h:59-64), for an index within the bounds. -/
def set (im : Image α) (i : Idx2) (v : α) : Image α :=
  { im with px := fun x y => if (x : Int) = i.1 ∧ (y : Int) = i.2 then v else im.px x y }

/-- `setToConstant` (image.h:42). -/
def setToConstant (im : Image α) (v : α) : Image α := { im with px := fun _ _ => v }

/-- `transform` (image.h:72-77). -/
def transform {β : Type} (im : Image α) (f : α → β) : Image β := ⟨im.rows, im.cols, fun x y => f (im.px x y)⟩

end Image

/-- `SensorCoordinates`: image coordinates and depth (common.h:57-60). -/
structure SensorCoordinates where
  u : ℝ
  v : ℝ
  depth : ℝ

/-- `std::round` on reals: ties away from zero. Used at projector_base_inl.h:7-39. -/
def roundR (x : ℝ) : Int := if 0 ≤ x then ⌊x + 1 / 2⌋ else ⌈x - 1 / 2⌉

/-- The affine map between image coordinates and pixel indices of `ProjectorBase` (projector_base.h:115-119). -/
structure ImageGrid where
  scaleU : ℝ
  scaleV : ℝ
  offsetU : ℝ
  offsetV : ℝ

namespace ImageGrid

/-- `imageToIndexReal` (projector_base_inl.h:115-119), row. -/
def indexRealU (g : ImageGrid) (u : ℝ) : ℝ := (u - g.offsetU) * (1 / g.scaleU)
/-- `imageToIndexReal` (projector_base_inl.h:115-119), column. -/
def indexRealV (g : ImageGrid) (v : ℝ) : ℝ := (v - g.offsetV) * (1 / g.scaleV)

/-- `imageToNearestIndex` (projector_base_inl.h:7-13). -/
def nearestIndex (g : ImageGrid) (u v : ℝ) : Idx2 := (roundR (g.indexRealU u), roundR (g.indexRealV v))
/-- `imageToFloorIndex` (projector_base_inl.h:15-21). -/
def floorIndex (g : ImageGrid) (u v : ℝ) : Idx2 := (⌊g.indexRealU u⌋, ⌊g.indexRealV v⌋)
/-- `imageToCeilIndex` (projector_base_inl.h:23-29). -/
def ceilIndex (g : ImageGrid) (u v : ℝ) : Idx2 := (⌈g.indexRealU u⌉, ⌈g.indexRealV v⌉)

/-- `imageToNearestIndices` (projector_base_inl.h:41-59): the four columns in order. -/
def nearestIndices (g : ImageGrid) (u v : ℝ) : List Idx2 :=
  let lo := g.floorIndex u v
  let hi := g.ceilIndex u v
  [(lo.1, lo.2), (hi.1, lo.2), (lo.1, hi.2), (hi.1, hi.2)]

/-- `indexToImage` (projector_base_inl.h:92-97). -/
def indexToImage (g : ImageGrid) (i : Idx2) : ℝ × ℝ := (i.1 * g.scaleU + g.offsetU, i.2 * g.scaleV + g.offsetV)

/-- `imageToNearestIndexAndOffset` (projector_base_inl.h:31-39). -/
def nearestIndexAndOffset (g : ImageGrid) (u v : ℝ) : Idx2 × (ℝ × ℝ) :=
  (g.nearestIndex u v,
    (((roundR (g.indexRealU u) : ℝ) - g.indexRealU u) * g.scaleU,
     ((roundR (g.indexRealV v) : ℝ) - g.indexRealV v) * g.scaleV))

/-- `imageToNearestIndicesAndOffsets` (projector_base_inl.h:61-90). -/
def nearestIndicesAndOffsets (g : ImageGrid) (u v : ℝ) : List (Idx2 × (ℝ × ℝ)) :=
  (g.nearestIndices u v).map fun i =>
    (i, (g.scaleU * ((i.1 : ℝ) - g.indexRealU u), g.scaleV * ((i.2 : ℝ) - g.indexRealV v)))

end ImageGrid

/-- `BeamSelectorType` (measurement_model_base.h:22-28). -/
inductive BeamSelector where
  | nearestNeighbor | allNeighbors
  deriving DecidableEq

/-- Sum of optional updates: undefined as soon as one of them is. Auxiliary for the sum at continuous_beam_inl.h:33-114. -/
def sumUpdates (l : List (Option ℝ)) : Option ℝ := l.foldl (fun acc u => do return (← acc) + (← u)) (some 0)

/-! ## Constant ray -/

/-- `ConstantRayConfig` (constant_ray.h:12-25): any values are accepted. -/
structure ConstantRayConfig where
  logOddsOccupied : ℚ
  logOddsFree : ℚ

/-- `ConstantRay::computeUpdate` (constant_ray.h:46-52) with `updateCachedVariables` (constant_ray.h:66-70). -/
def constantRayUpdate (c : ConstantRayConfig) (minCellWidth : ℚ) (endPoint : Point 3) (index : Index 3) : ℚ :=
  if index = pointToNearestIndex endPoint (1 / minCellWidth) then c.logOddsOccupied else c.logOddsFree

/-! ## Continuous ray -/

/-- `ContinuousRayConfig` (continuous_ray.h:16-42). -/
structure ContinuousRayConfig where
  rangeSigma : ℝ
  scalingFree : ℝ
  scalingOccupied : ℝ
  beamSelector : BeamSelector

namespace ContinuousRayConfig

/-- `isValid` (continuous_ray.cc). -/
def Valid (c : ContinuousRayConfig) : Prop := 0 < c.rangeSigma ∧ 0 < c.scalingFree ∧ 0 < c.scalingOccupied

/-- `range_threshold_front_` (continuous_ray.h:75). -/
def thresholdFront (c : ContinuousRayConfig) : ℝ := 3 * c.rangeSigma
/-- `range_threshold_back_` (continuous_ray.h:76). -/
def thresholdBack (c : ContinuousRayConfig) : ℝ := 6 * c.rangeSigma

/-- `computeFullBeamUpdate` (continuous_ray_inl.h:70-87). -/
def fullBeamUpdate (c : ContinuousRayConfig) (distance measured : ℝ) : Option ℝ :=
  let f := (distance - measured) / c.rangeSigma
  let contrib := rangeContrib f
  let scaled := if contrib < 0 then c.scalingFree * contrib else c.scalingOccupied * contrib
  logOddsUpdate (scaled + 1 / 2)

/-- `computeFreeSpaceBeamUpdate` (continuous_ray_inl.h:89-94). -/
def freeSpaceUpdate (c : ContinuousRayConfig) : Option ℝ := logOddsUpdate (-1 / 2 * c.scalingFree + 1 / 2)

/-- The part of `computeBeamUpdate` after the pixel is read (continuous_ray_inl.h:59-67). -/
def distanceUpdate (c : ContinuousRayConfig) (depth measured : ℝ) : Option ℝ :=
  if c.thresholdBack < depth - measured then some 0
  else if depth < measured - c.thresholdFront then c.freeSpaceUpdate
  else c.fullBeamUpdate depth measured

/-- `computeBeamUpdate` (continuous_ray_inl.h:50-68). -/
def beamUpdate (c : ContinuousRayConfig) (im : Image ℝ) (depth : ℝ) (i : Idx2) : Option ℝ :=
  match im.at i with
  | none => some 0
  | some measured => c.distanceUpdate depth measured

/-- `computeWorstCaseApproximationError` (continuous_ray_inl.h:7-25) for `UpdateType::kPossiblyOccupied`. -/
def worstCaseErrorOccupied (c : ContinuousRayConfig) (cellBoundingRadius : ℝ) : ℝ :=
  3 / 8 * c.scalingOccupied / c.rangeSigma * cellBoundingRadius

/-- `computeUpdate` (continuous_ray_inl.h:27-48). -/
def computeUpdate (c : ContinuousRayConfig) (g : ImageGrid) (im : Image ℝ) (s : SensorCoordinates) : Option ℝ :=
  match c.beamSelector with
  | .nearestNeighbor => c.beamUpdate im s.depth (g.nearestIndex s.u s.v)
  | .allNeighbors => sumUpdates ((g.nearestIndices s.u s.v).map (c.beamUpdate im s.depth))

end ContinuousRayConfig

/-! ## Continuous beam -/

/-- `ContinuousBeamConfig` (continuous_beam.h:19-51). -/
structure ContinuousBeamConfig where
  angleSigma : ℝ
  rangeSigma : ℝ
  scalingFree : ℝ
  scalingOccupied : ℝ
  beamSelector : BeamSelector

namespace ContinuousBeamConfig

/-- `isValid` (continuous_beam.cc:11-21). -/
def Valid (c : ContinuousBeamConfig) : Prop :=
  0 < c.angleSigma ∧ 0 < c.rangeSigma ∧ 0 < c.scalingFree ∧ 0 < c.scalingOccupied

/-- `angle_threshold_` (continuous_beam.h:90). -/
def angleThreshold (c : ContinuousBeamConfig) : ℝ := 6 * c.angleSigma
/-- `range_threshold_front` (continuous_beam.h:93). -/
def thresholdFront (c : ContinuousBeamConfig) : ℝ := 3 * c.rangeSigma
/-- `range_threshold_back_` (continuous_beam.h:94). -/
def thresholdBack (c : ContinuousBeamConfig) : ℝ := 6 * c.rangeSigma

/-- `computeBeamUpdate` (continuous_beam_inl.h:116-157); `errSq` is the squared image error norm. -/
def beamUpdate (c : ContinuousBeamConfig) (distance errSq measured : ℝ) : Option ℝ :=
  if c.angleThreshold * c.angleThreshold < errSq ∨ measured + c.thresholdBack < distance then some 0
  else
    let g := Real.sqrt errSq / c.angleSigma
    let angleContrib := 1 - gaussCumulative (g - 3)
    let free := distance < measured - c.thresholdFront
    let contrib := (if free then -1 / 2 else rangeContrib ((distance - measured) / c.rangeSigma)) * angleContrib
    let scaled := if free ∨ contrib < 0 then c.scalingFree * contrib else c.scalingOccupied * contrib
    logOddsUpdate (scaled + 1 / 2)

/-- `computeUpdate` (continuous_beam_inl.h:33-114). `errSq lin offset` is `imageOffsetToErrorSquaredNorm`. For the
four-neighbour variant, a neighbour outside the image keeps `measured_distance = 0` and its uncorrected offset
(continuous_beam_inl.h:75-114). -/
def computeUpdate (c : ContinuousBeamConfig) (g : ImageGrid) (errSq : ℝ × ℝ → ℝ × ℝ → ℝ) (im : Image ℝ)
    (offsets : Image (ℝ × ℝ)) (s : SensorCoordinates) : Option ℝ :=
  match c.beamSelector with
  | .nearestNeighbor =>
    let io := g.nearestIndexAndOffset s.u s.v
    match im.at io.1, offsets.at io.1 with
    | some measured, some off =>
      c.beamUpdate s.depth (errSq (s.u, s.v) (off.1 - io.2.1, off.2 - io.2.2)) measured
    | _, _ => some 0
  | .allNeighbors =>
    sumUpdates <| (g.nearestIndicesAndOffsets s.u s.v).map fun io =>
      match im.at io.1, offsets.at io.1 with
      | some measured, some off =>
        c.beamUpdate s.depth (errSq (s.u, s.v) (io.2.1 - off.1, io.2.2 - off.2)) measured
      | _, _ => c.beamUpdate s.depth (errSq (s.u, s.v) io.2) 0

end ContinuousBeamConfig

/-! ## The projective integrator's range gate -/

/-- `ProjectiveIntegratorConfig` (projective_integrator.h:19-53). -/
structure ProjectiveIntegratorConfig where
  minRange : ℝ
  maxRange : ℝ
  maxUpdateResolution : ℝ
  terminationUpdateError : ℝ

/-- `ProjectiveIntegratorConfig::isValid` (projective_integrator.cc:13-23). -/
def ProjectiveIntegratorConfig.Valid (c : ProjectiveIntegratorConfig) : Prop :=
  0 < c.minRange ∧ 0 < c.maxRange ∧ c.minRange < c.maxRange ∧ 0 ≤ c.maxUpdateResolution ∧ 0 < c.terminationUpdateError

/-- `ProjectiveIntegrator::computeUpdate` (projective_integrator_inl.h:5-20), after `cartesianToSensor`; `model` is the
measurement model's `computeUpdate`. -/
def projectiveUpdate (c : ProjectiveIntegratorConfig) (model : SensorCoordinates → Option ℝ) (s : SensorCoordinates) :
    Option ℝ := if s.depth < c.minRange ∨ c.maxRange < s.depth then some 0 else model s

end
end Wavemap
