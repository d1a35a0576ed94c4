import Verif.Model.SingleCamera
/-!
# Poses in single precision

The functions of minkindr and Eigen that apply poses to points, as in `Verif.Model.Poses`, with every operation rounded. Files under
`library/cpp/include/wavemap/3rd_party/minkindr/impl`. The quaternion functions of Eigen, which is not part of the repository, are modelled after Eigen 3.4
(`Eigen/src/Geometry/Quaternion.h`); sums are taken from left to right. Not modelled here: the fusing of multiplications and additions by the compiler.
-/
namespace Wavemap
namespace Single

/-- `Eigen::Quaternion<float>`, with the real part first as in the constructor. Part of Eigen, used by rotation-quaternion-inl.h. -/
structure Quat where
  w : ℚ
  x : ℚ
  y : ℚ
  z : ℚ

namespace Quat

/-- `Quaternion::vec`. Part of Eigen, used by rotation-quaternion-inl.h. -/
def vec (q : Quat) : Point 3 := ![q.x, q.y, q.z]

/-- `Vector3::cross`. Part of Eigen, used by rotation-quaternion-inl.h. -/
def cross (a b : Point 3) : Point 3 :=
  ![fl (fl (a 1 * b 2) - fl (a 2 * b 1)), fl (fl (a 2 * b 0) - fl (a 0 * b 2)), fl (fl (a 0 * b 1) - fl (a 1 * b 0))]

/-- `rotate` (rotation-quaternion-inl.h:316-322), which is Eigen's `_transformVector`: `uv = vec × v; uv += uv; v + w uv + vec × uv`. -/
def rotate (q : Quat) (v : Point 3) : Point 3 :=
  let c := cross q.vec v
  let uv : Point 3 := fun k => fl (c k + c k)
  fun k => fl (fl (v k + fl (q.w * uv k)) + cross q.vec uv k)

/-- `conjugated` and `inverse` (rotation-quaternion-inl.h:292-314); the check of the norm is that of the quaternion itself. -/
def inverse (q : Quat) : Quat := ⟨q.w, -q.x, -q.y, -q.z⟩

/-- `Quaternion::squaredNorm`. Part of Eigen, used by rotation-quaternion-inl.h. -/
def squaredNorm (q : Quat) : ℚ := fl (fl (fl (fl (q.x * q.x) + fl (q.y * q.y)) + fl (q.z * q.z)) + fl (q.w * q.w))

/-- `Quaternion::inverse`: the conjugate divided by the squared norm, and zero if that is zero. Part of Eigen, used by rotation-quaternion-inl.h. -/
def eigenInverse (q : Quat) : Quat :=
  if 0 < q.squaredNorm then ⟨fl (q.w / q.squaredNorm), fl (-q.x / q.squaredNorm), fl (-q.y / q.squaredNorm), fl (-q.z / q.squaredNorm)⟩ else ⟨0, 0, 0, 0⟩

/-- `inverseRotate` (rotation-quaternion-inl.h:344-350). -/
def inverseRotate (q : Quat) (v : Point 3) : Point 3 := q.eigenInverse.rotate v

end Quat

/-- `Transformation3D` (common.h:44). -/
structure Pose where
  q : Quat
  t : Point 3

namespace Pose

/-- `transform` and `operator*` of a pose and a point (quat-transformation-inl.h:144-149, 159-164). -/
def transform (T : Pose) (p : Point 3) : Point 3 := fun k => fl (T.q.rotate p k + T.t k)

/-- `inverse` (quat-transformation-inl.h:194-199). -/
def inverse (T : Pose) : Pose := ⟨T.q.inverse, fun k => -T.q.inverseRotate T.t k⟩

/-- `inverseTransform` (quat-transformation-inl.h:177-181). -/
def inverseTransform (T : Pose) (p : Point 3) : Point 3 := T.q.inverseRotate fun k => fl (p k - T.t k)

end Pose
end Single
end Wavemap
