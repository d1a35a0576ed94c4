import Verif.Model.Probability
import Verif.Model.Measurement
/-!
# The measurement models in single precision

The update of one cell by one beam, as in `Verif.Model.Measurement`, with every operation rounded. Files under
`library/cpp/include/wavemap/core/integrator/measurement_model`. The functions `std::log` and `std::sqrt` of the C++ standard library are parameters. Numbers that are too
large or too small for a `float`, the projection of the cell (`Verif.Model.SingleCamera`) and the fusing of multiplications and additions by the compiler are not modelled here.
-/
namespace Wavemap
namespace Single

/-- `ApproximateGaussianDistribution::cumulative` (approximate_gaussian_distribution.h:13-27). Products are taken from left to right. -/
def cumulative (t : ℚ) : ℚ :=
  let tPlusThree := fl (t + 3)
  let threeMinT := fl (3 - t)
  if t < -3 then 0
  else if t ≤ -1 then fl (fl (fl (fl (1 / 48) * tPlusThree) * tPlusThree) * tPlusThree)
  else if t < 1 then fl (1 / 2 + fl (fl (fl (fl (1 / 24) * t) * tPlusThree) * threeMinT))
  else if t ≤ 3 then fl (1 - fl (fl (fl (fl (1 / 48) * threeMinT) * threeMinT) * threeMinT))
  else 1

/-- `range_contrib` (impl/continuous_ray_inl.h:75-77, impl/continuous_beam_inl.h:142-144), with `f` the offset in sigmas. -/
def rangeContrib (f : ℚ) : ℚ :=
  fl (fl (cumulative f - fl (1 / 2 * cumulative (fl (f - 3)))) - 1 / 2)

/-- `std::log(p / (1.f - p))` with its `DCHECK` (impl/continuous_ray_inl.h:83-86, 90-93, impl/continuous_beam_inl.h:153-156); `logF` is `std::log`. `none` is a result that
is not finite: the logarithm of zero, of infinity or of a negative number. -/
def logOdds (logF : ℚ → ℚ) (p : ℚ) : Option ℚ :=
  match probabilityToOddsSingle p with
  | none => none
  | some odds => if 0 < odds then some (logF odds) else none

/-- `ContinuousRayConfig` (continuous_ray.h:16-51), without the beam selector. -/
structure RayConfig where
  rangeSigma : ℚ
  scalingFree : ℚ
  scalingOccupied : ℚ

namespace RayConfig

/-- `range_threshold_front_` (continuous_ray.h:75). -/
def thresholdFront (c : RayConfig) : ℚ := fl (3 * c.rangeSigma)
/-- `range_threshold_back_` (continuous_ray.h:76). -/
def thresholdBack (c : RayConfig) : ℚ := fl (6 * c.rangeSigma)

/-- `p` in `computeFullBeamUpdate` (impl/continuous_ray_inl.h:73-83). -/
def fullProbability (c : RayConfig) (distance measured : ℚ) : ℚ :=
  let f := fl (fl (distance - measured) / c.rangeSigma)
  let contrib := rangeContrib f
  let scaled := if contrib < 0 then fl (c.scalingFree * contrib) else fl (c.scalingOccupied * contrib)
  fl (scaled + 1 / 2)

/-- `p` in `computeFreeSpaceBeamUpdate` (impl/continuous_ray_inl.h:90). -/
def freeProbability (c : RayConfig) : ℚ := fl (fl (-1 / 2 * c.scalingFree) + 1 / 2)

/-- `computeFullBeamUpdate` (impl/continuous_ray_inl.h:70-87). -/
def fullBeamUpdate (logF : ℚ → ℚ) (c : RayConfig) (distance measured : ℚ) : Option ℚ := logOdds logF (c.fullProbability distance measured)

/-- `computeFreeSpaceBeamUpdate` (impl/continuous_ray_inl.h:89-94). -/
def freeSpaceUpdate (logF : ℚ → ℚ) (c : RayConfig) : Option ℚ := logOdds logF c.freeProbability

/-- The part of `computeBeamUpdate` after the pixel is read (impl/continuous_ray_inl.h:59-67). -/
def distanceUpdate (logF : ℚ → ℚ) (c : RayConfig) (depth measured : ℚ) : Option ℚ :=
  if c.thresholdBack < fl (depth - measured) then some 0
  else if depth < fl (measured - c.thresholdFront) then c.freeSpaceUpdate logF
  else c.fullBeamUpdate logF depth measured

end RayConfig

/-- `ContinuousBeamConfig` (continuous_beam.h:19-51), without the beam selector. -/
structure BeamConfig where
  angleSigma : ℚ
  rangeSigma : ℚ
  scalingFree : ℚ
  scalingOccupied : ℚ

namespace BeamConfig

/-- `angle_threshold_squared` (continuous_beam.h:90-92). -/
def angleThresholdSquared (c : BeamConfig) : ℚ := fl (fl (6 * c.angleSigma) * fl (6 * c.angleSigma))
/-- `range_threshold_front` (continuous_beam.h:93). -/
def thresholdFront (c : BeamConfig) : ℚ := fl (3 * c.rangeSigma)
/-- `range_threshold_back_` (continuous_beam.h:94). -/
def thresholdBack (c : BeamConfig) : ℚ := fl (6 * c.rangeSigma)

/-- `p` in `computeBeamUpdate` (impl/continuous_beam_inl.h:127-153); `sqrtF` is `std::sqrt` and `errSq` the squared image error norm. -/
def probability (sqrtF : ℚ → ℚ) (c : BeamConfig) (distance errSq measured : ℚ) : ℚ :=
  let g := fl (sqrtF errSq / c.angleSigma)
  let angleContrib := fl (1 - cumulative (fl (g - 3)))
  let free := distance < fl (measured - c.thresholdFront)
  let range := if free then -1 / 2 else rangeContrib (fl (fl (distance - measured) / c.rangeSigma))
  let contribs := fl (range * angleContrib)
  let scaled := if free ∨ contribs < 0 then fl (c.scalingFree * contribs) else fl (c.scalingOccupied * contribs)
  fl (scaled + 1 / 2)

/-- `computeBeamUpdate` (impl/continuous_beam_inl.h:116-157). -/
def beamUpdate (logF sqrtF : ℚ → ℚ) (c : BeamConfig) (distance errSq measured : ℚ) : Option ℚ :=
  if c.angleThresholdSquared < errSq ∨ fl (measured + c.thresholdBack) < distance then some 0
  else logOdds logF (c.probability sqrtF distance errSq measured)

end BeamConfig
end Single
end Wavemap
