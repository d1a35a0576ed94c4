import Verif.Model.Projectors
import Verif.Model.Undistortion
import Mathlib.Analysis.SpecialFunctions.Trigonometric.Inverse
import Mathlib.Analysis.SpecialFunctions.Pow.Real
import Mathlib.Analysis.SpecialFunctions.Sqrt
/-!
# Rotations, poses and posed measurements

Models `RotationQuaternionTemplate` and `QuatTransformationTemplate` of the bundled minkindr
(`library/cpp/include/wavemap/3rd_party/minkindr/{rotation-quaternion,quat-transformation}.h` and their `impl` files), `PosedObject`
(`core/data_structure/posed_object.h`), `PosedPointcloud::getPointsGlobal` (`core/data_structure/pointcloud.h`) and the pose conversion of
`interfaces/ros1/wavemap_ros_conversions/.../geometry_msg_conversions.h`. The scalar type is `ℝ`. The quaternion functions of Eigen, which is not part of
the repository, are modelled after Eigen 3.4 (`Eigen/src/Geometry/Quaternion.h`). Not modelled: random rotations, the nearest rotation matrix by singular
value decomposition, printing and casts between floating-point types.
-/
namespace Wavemap
noncomputable section

/-- `Eigen::Quaternion`, with the real part first as in the constructor. Part of Eigen, used by rotation-quaternion-inl.h. -/
@[ext] structure Quat where
  w : ℝ
  x : ℝ
  y : ℝ
  z : ℝ

/-- A 3x3 matrix, by rows. Part of Eigen, used by rotation-quaternion-inl.h. -/
abbrev Mat3 := Fin 3 → Vec3

/-- `Eigen`'s matrix-vector product. Part of Eigen, used by rotation-quaternion-inl.h. -/
def Mat3.mulVec (m : Mat3) (v : Vec3) : Vec3 := fun r => m r 0 * v 0 + m r 1 * v 1 + m r 2 * v 2

/-- `Eigen`'s matrix product. Part of Eigen, used by rotation-quaternion-inl.h. -/
def Mat3.mul (a b : Mat3) : Mat3 := fun r c => a r 0 * b 0 c + a r 1 * b 1 c + a r 2 * b 2 c

/-- `Matrix::determinant` for 3x3 matrices. Part of Eigen, used by rotation-quaternion-inl.h. -/
def Mat3.det (m : Mat3) : ℝ :=
  m 0 0 * (m 1 1 * m 2 2 - m 1 2 * m 2 1) - m 0 1 * (m 1 0 * m 2 2 - m 1 2 * m 2 0) + m 0 2 * (m 1 0 * m 2 1 - m 1 1 * m 2 0)

/-- `Vector3::cross`. Part of Eigen, used by rotation-quaternion-inl.h. -/
def cross (a b : Vec3) : Vec3 := ![a 1 * b 2 - a 2 * b 1, a 2 * b 0 - a 0 * b 2, a 0 * b 1 - a 1 * b 0]

namespace Quat

/-! ## Eigen's quaternions -/

/-- `Quaternion::Identity`. Part of Eigen, used by rotation-quaternion-inl.h. -/
def identity : Quat := ⟨1, 0, 0, 0⟩

/-- `Quaternion::vec` and `RotationQuaternionTemplate::imaginary` (rotation-quaternion-inl.h:190-195). -/
def imaginary (q : Quat) : Vec3 := ![q.x, q.y, q.z]

/-- `Quaternion::squaredNorm`. Part of Eigen, used by rotation-quaternion-inl.h. -/
def squaredNorm (q : Quat) : ℝ := q.w * q.w + q.x * q.x + q.y * q.y + q.z * q.z

/-- `Quaternion::dot`. Part of Eigen, used by rotation-quaternion-inl.h. -/
def dot (a b : Quat) : ℝ := a.w * b.w + a.x * b.x + a.y * b.y + a.z * b.z

/-- All coefficients times a number. Part of Eigen, used by rotation-quaternion-inl.h. -/
def scale (c : ℝ) (q : Quat) : Quat := ⟨c * q.w, c * q.x, c * q.y, c * q.z⟩

/-- The sum of all coefficients. Part of Eigen, used by rotation-quaternion-inl.h. -/
def add (a b : Quat) : Quat := ⟨a.w + b.w, a.x + b.x, a.y + b.y, a.z + b.z⟩

/-- `operator*` of two `Eigen::Quaternion`s. Part of Eigen, used by rotation-quaternion-inl.h. -/
def product (a b : Quat) : Quat :=
  ⟨a.w * b.w - a.x * b.x - a.y * b.y - a.z * b.z,
   a.w * b.x + a.x * b.w + a.y * b.z - a.z * b.y,
   a.w * b.y + a.y * b.w + a.z * b.x - a.x * b.z,
   a.w * b.z + a.z * b.w + a.x * b.y - a.y * b.x⟩

/-- `Quaternion::normalize`. Part of Eigen, used by rotation-quaternion-inl.h. -/
def normalize (q : Quat) : Quat := q.scale (1 / Real.sqrt q.squaredNorm)

/-- `Quaternion::_transformVector`: `uv = vec × v; uv += uv; v + w uv + vec × uv`. Part of Eigen, used by rotation-quaternion-inl.h. -/
def transformVector (q : Quat) (v : Vec3) : Vec3 :=
  let uv : Vec3 := fun k => cross q.imaginary v k + cross q.imaginary v k
  fun k => v k + q.w * uv k + cross q.imaginary uv k

/-- `Quaternion::toRotationMatrix`. Part of Eigen, used by rotation-quaternion-inl.h. -/
def toRotationMatrix (q : Quat) : Mat3 :=
  ![![1 - (2 * q.y * q.y + 2 * q.z * q.z), 2 * q.y * q.x - 2 * q.z * q.w, 2 * q.z * q.x + 2 * q.y * q.w],
    ![2 * q.y * q.x + 2 * q.z * q.w, 1 - (2 * q.x * q.x + 2 * q.z * q.z), 2 * q.z * q.y - 2 * q.x * q.w],
    ![2 * q.z * q.x - 2 * q.y * q.w, 2 * q.z * q.y + 2 * q.x * q.w, 1 - (2 * q.x * q.x + 2 * q.y * q.y)]]

/-- `Quaternion::inverse`: the conjugate divided by the squared norm, and zero if that is zero. Part of Eigen, used by rotation-quaternion-inl.h. -/
def eigenInverse (q : Quat) : Quat :=
  let n2 := q.squaredNorm
  if 0 < n2 then ⟨q.w / n2, -q.x / n2, -q.y / n2, -q.z / n2⟩ else ⟨0, 0, 0, 0⟩

/-- The quaternion of a rotation matrix (`quaternionbase_assign_impl<Other, 3, 3>::run`). The three cases of the second branch are written out:
`i` is the index of the largest entry of the diagonal. Part of Eigen, used by rotation-quaternion-inl.h. -/
def ofMatrix (m : Mat3) : Quat :=
  let t := m 0 0 + m 1 1 + m 2 2
  if 0 < t then
    let r := Real.sqrt (t + 1)
    let s := 1 / 2 / r
    ⟨1 / 2 * r, (m 2 1 - m 1 2) * s, (m 0 2 - m 2 0) * s, (m 1 0 - m 0 1) * s⟩
  else
    let i : Fin 3 := if m 0 0 < m 1 1 then 1 else 0
    let i : Fin 3 := if m i i < m 2 2 then 2 else i
    match i with
    | 0 =>
      let r := Real.sqrt (m 0 0 - m 1 1 - m 2 2 + 1)
      let s := 1 / 2 / r
      ⟨(m 2 1 - m 1 2) * s, 1 / 2 * r, (m 1 0 + m 0 1) * s, (m 2 0 + m 0 2) * s⟩
    | 1 =>
      let r := Real.sqrt (m 1 1 - m 2 2 - m 0 0 + 1)
      let s := 1 / 2 / r
      ⟨(m 0 2 - m 2 0) * s, (m 0 1 + m 1 0) * s, 1 / 2 * r, (m 2 1 + m 1 2) * s⟩
    | 2 =>
      let r := Real.sqrt (m 2 2 - m 0 0 - m 1 1 + 1)
      let s := 1 / 2 / r
      ⟨(m 1 0 - m 0 1) * s, (m 0 2 + m 2 0) * s, (m 1 2 + m 2 1) * s, 1 / 2 * r⟩

/-- `Quaternion::slerp`; `eps` is `NumTraits<Scalar>::epsilon()`. Part of Eigen, used at quat-transformation-inl.h:295. -/
def slerp (eps : ℝ) (a : Quat) (t : ℝ) (b : Quat) : Quat :=
  let d := a.dot b
  let absD := |d|
  let theta := Real.arccos absD
  let scale0 := if 1 - eps ≤ absD then 1 - t else Real.sin ((1 - t) * theta) / Real.sin theta
  let scale1 := if 1 - eps ≤ absD then t else Real.sin (t * theta) / Real.sin theta
  let scale1 := if d < 0 then -scale1 else scale1
  (a.scale scale0).add (b.scale scale1)

/-! ## minkindr's rotations -/

/-- `EPS<Scalar>::normalization_value()` (rotation-quaternion-inl.h:36-52). -/
def normalizationTolerance : ℝ := 1 / 10000

/-- The constructors from components and from an `Eigen::Quaternion`, and `setValues` (rotation-quaternion-inl.h:59-87, 204-220): `CHECK_NEAR` of the
squared norm and one. -/
def make (q : Quat) : Outcome Quat :=
  if q.squaredNorm ≤ 1 + normalizationTolerance ∧ 1 - normalizationTolerance ≤ q.squaredNorm then .done q else .abort

/-- `isValidRotationMatrix` (rotation-quaternion-inl.h:542-564). -/
def isValidRotationMatrix (threshold : ℝ) (m : Mat3) : Prop :=
  |m.det - 1| ≤ threshold ∧
    ∀ r c, |(m r 0 * m c 0 + m r 1 * m c 1 + m r 2 * m c 2) - (if r = c then 1 else 0)| ≤ threshold

open Classical in
/-- The constructor from a rotation matrix (rotation-quaternion-inl.h:115-120); `eps` is `EPS<Scalar>::value()`. -/
def fromMatrix (eps : ℝ) (m : Mat3) : Outcome Quat := if isValidRotationMatrix eps m then .done (ofMatrix m) else .abort

/-- `conjugated` and `inverse` (rotation-quaternion-inl.h:292-314). -/
def inverse (q : Quat) : Outcome Quat := make ⟨q.w, -q.x, -q.y, -q.z⟩

/-- `rotate` (rotation-quaternion-inl.h:316-322). -/
def rotate (q : Quat) (v : Vec3) : Vec3 := q.transformVector v

/-- `rotateVectorized` (rotation-quaternion-inl.h:324-331), where the columns are the vectors. -/
def rotateVectorized (q : Quat) (vs : List Vec3) : Outcome (List Vec3) :=
  if 0 < vs.length then .done (vs.map q.toRotationMatrix.mulVec) else .abort

/-- `inverseRotate` (rotation-quaternion-inl.h:344-350). -/
def inverseRotate (q : Quat) (v : Vec3) : Vec3 := q.eigenInverse.transformVector v

/-- `normalizationHelper` (rotation-quaternion-inl.h:575-586). -/
def normalizationHelper (q : Quat) : Quat := if normalizationTolerance < |q.squaredNorm - 1| then q.normalize else q

/-- `operator*` of two rotations (rotation-quaternion-inl.h:420-436). -/
def mul (a b : Quat) : Outcome Quat := make (a.product b).normalizationHelper

/-- `getRotationMatrix` (rotation-quaternion-inl.h:452-456). -/
def getRotationMatrix (q : Quat) : Mat3 := q.toRotationMatrix

/-- `getUnique` (rotation-quaternion-inl.h:222-253). -/
def getUnique (q : Quat) : Outcome Quat :=
  let negated := make ⟨-q.w, -q.x, -q.y, -q.z⟩
  if 0 < q.w then .done q else if q.w < 0 then negated
  else if 0 < q.x then .done q else if q.x < 0 then negated
  else if 0 < q.y then .done q else if q.y < 0 then negated
  else if 0 < q.z then .done q else negated

/-- `arcSinXOverX` (rotation-quaternion-inl.h:98-104) with `threshold` the fourth root of the machine precision (lines 91-96). -/
def arcSinXOverX (threshold x : ℝ) : ℝ := if |x| < threshold then 1 + x * x * (1 / 6) else Real.arcsin x / x

/-- The Euclidean norm of a vector. Part of Eigen, used by rotation-quaternion-inl.h. -/
def vecNorm (v : Vec3) : ℝ := Real.sqrt (v 0 * v 0 + v 1 * v 1 + v 2 * v 2)

/-- `log` (rotation-quaternion-inl.h:470-513); `threshold` as in `arcSinXOverX`. -/
def log (threshold : ℝ) (q : Quat) : Vec3 :=
  let a := q.imaginary
  let na := vecNorm a
  let eta := q.w
  let scale :=
    if |eta| < na then
      if 0 ≤ eta then Real.arccos eta / na else -Real.arccos (-eta) / na
    else if 0 < eta then arcSinXOverX threshold na else -arcSinXOverX threshold na
  fun k => a k * (2 * scale)

/-- `exp` (rotation-quaternion-inl.h:515-534); `threshold` is the fourth root of the machine precision of `double`. -/
def exp (threshold : ℝ) (dx : Vec3) : Outcome Quat :=
  let theta := vecNorm dx
  let na := if theta < threshold then 1 / 2 + theta * theta * (1 / 48) else Real.sin (theta * (1 / 2)) / theta
  make ⟨Real.cos (theta * (1 / 2)), dx 0 * na, dx 1 * na, dx 2 * na⟩

end Quat

/-! ## Poses -/

/-- `QuatTransformationTemplate` (quat-transformation.h): `Transformation3D` (common.h:44). -/
@[ext] structure Pose where
  q : Quat
  t : Vec3

namespace Pose

/-- The default constructor and `setIdentity` (quat-transformation-inl.h:35-38, 75-79). -/
def identity : Pose := ⟨Quat.identity, fun _ => 0⟩

/-- The constructors from an `Eigen::Quaternion` and a position (quat-transformation-inl.h:45-48, 55-58). -/
def make (q : Quat) (t : Vec3) : Outcome Pose := q.make.bind fun q => .done ⟨q, t⟩

/-- The constructor from a transformation matrix (quat-transformation-inl.h:60-64), given by its first three rows. -/
def fromMatrix (eps : ℝ) (m : Mat3) (t : Vec3) : Outcome Pose := (Quat.fromMatrix eps m).bind fun q => .done ⟨q, t⟩

/-- `operator*` of two poses (quat-transformation-inl.h:136-142). -/
def mul (a b : Pose) : Outcome Pose := (a.q.mul b.q).bind fun q => .done ⟨q, fun k => a.t k + a.q.rotate b.t k⟩

/-- `transform` and `operator*` of a pose and a point (quat-transformation-inl.h:144-149, 159-164). -/
def transform (T : Pose) (p : Vec3) : Vec3 := fun k => T.q.rotate p k + T.t k

/-- `transformVectorized` (quat-transformation-inl.h:151-157). -/
def transformVectorized (T : Pose) (ps : List Vec3) : Outcome (List Vec3) :=
  if 0 < ps.length then (T.q.rotateVectorized ps).bind fun vs => .done (vs.map fun v k => v k + T.t k) else .abort

/-- `transform4` (quat-transformation-inl.h:166-175): homogeneous coordinates. -/
def transform4 (T : Pose) (p : Vec3) (h : ℝ) : Vec3 × ℝ := (fun k => T.q.rotate p k + h * T.t k, h)

/-- `inverseTransform` (quat-transformation-inl.h:177-181). -/
def inverseTransform (T : Pose) (p : Vec3) : Vec3 := T.q.inverseRotate fun k => p k - T.t k

/-- `inverseTransform4` (quat-transformation-inl.h:183-192). -/
def inverseTransform4 (T : Pose) (p : Vec3) (h : ℝ) : Vec3 × ℝ := (T.q.inverseRotate (fun k => p k - T.t k * h), h)

/-- `inverse` (quat-transformation-inl.h:194-199). -/
def inverse (T : Pose) : Outcome Pose := T.q.inverse.bind fun q => .done ⟨q, fun k => -T.q.inverseRotate T.t k⟩

/-- `getTransformationMatrix` (quat-transformation-inl.h:111-120) applied to a point: the upper three rows. -/
def matrixTransform (T : Pose) (p : Vec3) : Vec3 := fun k => T.q.getRotationMatrix.mulVec p k + T.t k

/-- `interpolateComponentwise` (quat-transformation-inl.h:286-297). -/
def interpolate (eps : ℝ) (a b : Pose) (lambda : ℝ) : Outcome Pose :=
  if 0 ≤ lambda ∧ lambda ≤ 1 then make (a.q.slerp eps lambda b.q) (fun k => a.t k + lambda * (b.t k - a.t k)) else .abort

end Pose

/-! ## Posed measurements -/

/-- The members of `PosedObject` (posed_object.h:44-47). -/
structure PosedObject where
  pose : Pose
  poseInverse : Pose
  rotationMatrix : Mat3
  rotationMatrixInverse : Mat3

/-- `setPose` (posed_object.h:24-29). -/
def PosedObject.setPose (T : Pose) : Outcome PosedObject :=
  T.inverse.bind fun i => .done ⟨T, i, T.q.getRotationMatrix, i.q.getRotationMatrix⟩

/-- `getOrigin` (posed_object.h:31). -/
def PosedObject.origin (o : PosedObject) : Vec3 := o.pose.t

/-- `PosedPointcloud::getPointsGlobal` (pointcloud.h:76-79). -/
def PosedObject.pointsGlobal (o : PosedObject) (points : List Vec3) : Outcome (List Vec3) := o.pose.transformVectorized points

/-- `transformMsgToTransformation3D` (geometry_msg_conversions.h:44-55): the message's rotation is not normalised. -/
def transformMsgToPose (w x y z : ℝ) (translation : Vec3) : Outcome Pose := (Quat.make ⟨w, x, y, z⟩).bind fun q => .done ⟨q, translation⟩

end
end Wavemap
