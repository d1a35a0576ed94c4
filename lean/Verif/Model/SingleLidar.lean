import Verif.Model.SingleCamera
/-!
# Lidar projections in single precision

`approximate::atan2` and the projection of `SphericalProjector`, as in `Verif.Model.Projectors` and `Verif.Model.LidarProjectors`, with every operation rounded and with
the signs of zeros. Files under `library/cpp/include/wavemap/core`. `std::fma` rounds once. `std::sqrt` is a parameter. Not modelled here: the fusing of other
multiplications and additions by the compiler.
-/
namespace Wavemap
namespace Single

/-- `kPi` (common.h:65): the single precision number nearest to `π`. -/
def kPi : ℚ := 13176795 / 4194304

/-- `kHalfPi` (common.h:67). -/
def kHalfPi : ℚ := 13176795 / 8388608

/-- `approximate::atan` (utils/math/approximate_trigonometry.h:10-41), with the constants rounded. -/
def approxAtan (x : ℚ) : ℚ :=
  let xSq := fl (x * x)
  let u := fl (xSq * fl (-1172120 / 100000000) + fl (5265332 / 100000000))
  let u := fl (xSq * u + fl (-11643287 / 100000000))
  let u := fl (xSq * u + fl (19354346 / 100000000))
  let u := fl (xSq * u + fl (-33262347 / 100000000))
  let u := fl (xSq * u + fl (99997726 / 100000000))
  fl (x * u)

/-- A float with the sign of its zero: `negative` is the sign bit (`FloatingPoint`, common.h:13). -/
structure Signed where
  value : ℚ
  negative : Bool

/-- The sign bit of a number that is not zero is that of its value (`FloatingPoint`, common.h:13). -/
def Signed.Ok (s : Signed) : Prop := (s.value < 0 → s.negative = true) ∧ (0 < s.value → s.negative = false)

/-- A number whose zero is the positive one (`FloatingPoint`, common.h:13). -/
def Signed.of (x : ℚ) : Signed := ⟨x, decide (x < 0)⟩

/-- `std::copysign` of a positive magnitude, as it is called in utils/math/approximate_trigonometry.h:68-72. -/
def copysign (magnitude : ℚ) (negative : Bool) : ℚ := if negative then -magnitude else magnitude

/-- `approximate::atan2` (utils/math/approximate_trigonometry.h:43-78); `none` at the origin, where the code divides zero by zero. The sign bit of a quotient is the
exclusive or of the signs. -/
def approxAtan2 (y x : Signed) : Option ℚ :=
  if y.value = 0 ∧ x.value = 0 then none
  else
    let swap := |x.value| < |y.value|
    let atanInput := if swap then fl (x.value / y.value) else fl (y.value / x.value)
    let res := approxAtan atanInput
    let res := if swap then fl (copysign kHalfPi (x.negative ^^ y.negative) - res) else res
    some (if x.value < 0 then fl (copysign kPi y.negative + res) else res)

/-- `C_point.head<2>().norm()` (projection_model/impl/spherical_projector_inl.h:59-60). -/
def planarNorm (sqrtF : ℚ → ℚ) (p : Point 3) : ℚ := sqrtF (fl (fl (p 0 * p 0) + fl (p 1 * p 1)))

/-- `SphericalProjector::cartesianToSensorZ` (projection_model/impl/spherical_projector_inl.h:67-70); Eigen adds the squares of the last two coordinates first. -/
def sphericalDepth (sqrtF : ℚ → ℚ) (p : Point 3) : ℚ := sqrtF (fl (fl (p 0 * p 0) + fl (fl (p 1 * p 1) + fl (p 2 * p 2))))

/-- `SphericalProjector::cartesianToImage` (projection_model/impl/spherical_projector_inl.h:57-65): elevation and azimuth. A norm is never a negative zero. -/
def sphericalToImage (sqrtF : ℚ → ℚ) (p : Fin 3 → Signed) : Option (Point 2) := do
  let elevation ← approxAtan2 (p 2) (Signed.of (planarNorm sqrtF fun k => (p k).value))
  let azimuth ← approxAtan2 (p 1) (p 0)
  return ![elevation, azimuth]

/-- The two offsets of `OusterProjectorConfig` (projection_model/ouster_projector.h:21-28). -/
structure OusterOffsets where
  /-- `lidar_origin_to_beam_origin` -/
  beam : ℚ
  /-- `lidar_origin_to_sensor_origin_z_offset` -/
  z : ℚ

/-- `B_point` (projection_model/impl/ouster_projector_inl.h:12-14, 71-73, 83-85). -/
def ousterBeamPoint (sqrtF : ℚ → ℚ) (o : OusterOffsets) (p : Point 3) : Point 2 := ![fl (planarNorm sqrtF p - o.beam), fl (p 2 - o.z)]

/-- `OusterProjector::cartesianToImage` (projection_model/impl/ouster_projector_inl.h:66-79). A difference of equal numbers is a positive zero. -/
def ousterToImage (sqrtF : ℚ → ℚ) (o : OusterOffsets) (p : Fin 3 → Signed) : Option (Point 2) := do
  let b := ousterBeamPoint sqrtF o fun k => (p k).value
  let azimuth ← approxAtan2 (p 1) (p 0)
  let elevation ← approxAtan2 (Signed.of (b 1)) (Signed.of (b 0))
  return ![elevation, azimuth]

/-- `OusterProjector::cartesianToSensorZ` (projection_model/impl/ouster_projector_inl.h:81-87). -/
def ousterDepth (sqrtF : ℚ → ℚ) (o : OusterOffsets) (p : Point 3) : ℚ :=
  let b := ousterBeamPoint sqrtF o p
  sqrtF (fl (fl (b 0 * b 0) + fl (b 1 * b 1)))

/-- `cartesianToNearestIndex` (projection_model/projector_base.h:105-107) of the spherical projector. -/
def sphericalToNearestIndex (sqrtF : ℚ → ℚ) (g : Grid) (p : Fin 3 → Signed) : Option (Index 2) :=
  (sphericalToImage sqrtF p).map g.imageToNearestIndex

end Single
end Wavemap
