import Verif.Model.Average
import Verif.Model.Quaternion
import Verif.Model.Helpers
import Mathlib.LinearAlgebra.Matrix.PosDef
import Mathlib.LinearAlgebra.Matrix.NonsingularInverse

/-!
Model of almath/scenegraph/qigeometry.h and almath/scenegraph/almathqigeometry.hpp: the transforms of
`qi::geometry` and their conversions.

Simplifications. `double` and `float` are exact real arithmetic. The structures of `qi::geometry` are not
part of /repo; their fields are those that the code initialises in order. Eigen's quaternions and matrices
are modelled by what they compute: see Model/Average.lean for the conversions between quaternions and
matrices. An unguarded division by zero is an undefined outcome.
-/

namespace AlMath.Qi

open Average

/-- `qi::geometry::Vector3`, in the order of almath/scenegraph/qigeometry.h:19-22 (`makeVector3`). -/
@[ext] structure Vector3 where
  x : ℝ
  y : ℝ
  z : ℝ

/-- `qi::geometry::Quaternion`, in the order of almath/scenegraph/qigeometry.h:29-32
(`makeQuaternion`). -/
@[ext] structure Quaternion where
  x : ℝ
  y : ℝ
  z : ℝ
  w : ℝ

/-- `qi::geometry::Transform`, in the order of almath/scenegraph/qigeometry.h:73-77
(`makeTransform`). -/
@[ext] structure Transform where
  rotation : Quaternion
  translation : Vector3

/-- The fields as Eigen's quaternion (`Eigen::Map<Eigen::Quaterniond>`,
almath/scenegraph/qigeometry.h:37, 51, 62, 92, 103-104). -/
def Quaternion.toEigen (q : Quaternion) : EQuat := ⟨![q.x, q.y, q.z], q.w⟩

/-- Assignment of the fields through Eigen's quaternion (`Eigen::Map<Eigen::Quaterniond>`,
almath/scenegraph/qigeometry.h:37, 105, 124). -/
def Quaternion.ofEigen (q : EQuat) : Quaternion := ⟨q.vec 0, q.vec 1, q.vec 2, q.w⟩

/-- The fields as Eigen's vector (`Eigen::Map<Eigen::Vector3d>`, almath/scenegraph/qigeometry.h:39, 91,
101-102). -/
def Vector3.toEigen (v : Vector3) : Fin 3 → ℝ := ![v.x, v.y, v.z]

/-- Assignment of the fields through Eigen's vector (`Eigen::Map<Eigen::Vector3d>`,
almath/scenegraph/qigeometry.h:106, 125). -/
def Vector3.ofEigen (v : Fin 3 → ℝ) : Vector3 := ⟨v 0, v 1, v 2⟩

open Classical in
/-- Eigen's `normalized` of vectors, used in almath/scenegraph/qigeometry.h:39. Of
zero it is undefined here: it divides by zero before Eigen 3.3 and gives zero since. -/
noncomputable def normalizedVec (v : Fin 3 → ℝ) : Res (Fin 3 → ℝ) :=
  let n := √(v 0 * v 0 + v 1 * v 1 + v 2 * v 2)
  if n = 0 then .ub else .ok fun i => v i / n

/-- almath/scenegraph/qigeometry.h:34-41 (`makeQuaternionFromAngleAxis`), with Eigen's assignment of an
`AngleAxisd` to a quaternion. -/
noncomputable def makeQuaternionFromAngleAxis (angle : ℝ) (axis : Vector3) : Res Quaternion :=
  (normalizedVec axis.toEigen).map fun n =>
    .ofEigen ⟨fun i => Real.sin (0.5 * angle) * n i, Real.cos (0.5 * angle)⟩

/-- almath/scenegraph/qigeometry.h:49-52 (`norm`). -/
noncomputable def norm (r : Quaternion) : ℝ := √(r.toEigen.dot r.toEigen)

/-- almath/scenegraph/qigeometry.h:54-57 (`isNormalized`). -/
def isNormalized (r : Quaternion) (epsilon : ℝ) : Prop := |norm r - 1| < epsilon

/-- almath/scenegraph/qigeometry.h:60-71 (`normalize`, `normalized`). -/
noncomputable def normalized (r : Quaternion) : Res Quaternion := r.toEigen.normalize.map .ofEigen

/-- A matrix and a translation (`Eigen::Affine3d`, almath/scenegraph/qigeometry.h:86). -/
structure Affine where
  linear : Matrix (Fin 3) (Fin 3) ℝ
  translation : Fin 3 → ℝ

open Classical in
/-- almath/scenegraph/qigeometry.h:86-93 (`toEigenAffine3d`). -/
noncomputable def toEigenAffine3d (tf : Transform) : Res Affine :=
  if isNormalized tf.rotation 1e-5 then
    .ok ⟨Matrix.of tf.rotation.toEigen.toRotationMatrix, tf.translation.toEigen⟩
  else .ub

/-- Eigen's product of quaternions, used in almath/scenegraph/qigeometry.h:105. -/
noncomputable def mulQuat (a b : EQuat) : EQuat :=
  ⟨![a.w * b.vec 0 + a.vec 0 * b.w + a.vec 1 * b.vec 2 - a.vec 2 * b.vec 1,
      a.w * b.vec 1 + a.vec 1 * b.w + a.vec 2 * b.vec 0 - a.vec 0 * b.vec 2,
      a.w * b.vec 2 + a.vec 2 * b.w + a.vec 0 * b.vec 1 - a.vec 1 * b.vec 0],
    a.w * b.w - a.vec 0 * b.vec 0 - a.vec 1 * b.vec 1 - a.vec 2 * b.vec 2⟩

/-- Eigen's `cross`, used by its product of a quaternion and a vector,
almath/scenegraph/qigeometry.h:106. -/
def cross (a b : Fin 3 → ℝ) : Fin 3 → ℝ :=
  ![a 1 * b 2 - a 2 * b 1, a 2 * b 0 - a 0 * b 2, a 0 * b 1 - a 1 * b 0]

/-- Eigen's product of a quaternion and a vector (`_transformVector`), used in
almath/scenegraph/qigeometry.h:106. -/
noncomputable def rotateVec (q : EQuat) (v : Fin 3 → ℝ) : Fin 3 → ℝ :=
  let uv := cross q.vec v
  let uv := uv + uv
  v + q.w • uv + cross q.vec uv

open Classical in
/-- almath/scenegraph/qigeometry.h:96-108 (`operator*`). -/
noncomputable def mul (lhs rhs : Transform) : Res Transform :=
  if isNormalized lhs.rotation 1e-5 then
    if isNormalized rhs.rotation 1e-5 then
      let lv := lhs.translation.toEigen
      let rv := rhs.translation.toEigen
      let lq := lhs.rotation.toEigen
      let rq := rhs.rotation.toEigen
      .ok ⟨.ofEigen (mulQuat lq rq), .ofEigen (lv + rotateVec lq rv)⟩
    else .ub
  else .ub

/-- Sum of the squares of the coefficients of the 4x4 matrix of an affine map (Eigen's
`cwiseAbs2().sum()`, used by `isApprox` in almath/scenegraph/qigeometry.h:115). -/
noncomputable def squaredNorm (a : Affine) (corner : ℝ) : ℝ :=
  (∑ i, ∑ j, a.linear i j ^ 2) + (∑ i, a.translation i ^ 2) + corner ^ 2

/-- almath/scenegraph/qigeometry.h:111-116 (`isNear`), with Eigen's `isApprox`. -/
noncomputable def isNear (lhs rhs : Transform) (epsilon : ℝ) : Res Prop :=
  (toEigenAffine3d lhs).bind fun la =>
    (toEigenAffine3d rhs).map fun ra =>
      squaredNorm ⟨la.linear - ra.linear, la.translation - ra.translation⟩ 0 ≤
        epsilon * epsilon * min (squaredNorm la 1) (squaredNorm ra 1)

open Classical in
/-- Eigen's `inverse` of an affine map, used in almath/scenegraph/qigeometry.h:123. -/
noncomputable def Affine.inverse (a : Affine) : Res Affine :=
  if a.linear.det = 0 then .ub
  else .ok ⟨a.linear⁻¹, -(a.linear⁻¹.mulVec a.translation)⟩

open Classical in
/-- Eigen's `rotation` of an affine map, the rotation of its polar decomposition (computed with a
singular value decomposition, not modelled), used in almath/scenegraph/qigeometry.h:124. -/
noncomputable def Affine.rotation (a : Affine) : Res (Matrix (Fin 3) (Fin 3) ℝ) :=
  if h : ∃ r : Matrix (Fin 3) (Fin 3) ℝ, r.transpose * r = 1 ∧ r.det = 1 ∧
      (r.transpose * a.linear).PosSemidef then .ok h.choose
  else .ub

/-- almath/scenegraph/qigeometry.h:120-127 (`inverse`). -/
noncomputable def inverse (tf : Transform) : Res Transform :=
  (toEigenAffine3d tf).bind fun a =>
    a.inverse.bind fun inv =>
      inv.rotation.bind fun r =>
        (ofMatrix r).map fun q => ⟨.ofEigen q, .ofEigen inv.translation⟩

/-- almath/scenegraph/almathqigeometry.hpp:23-32 (`transformFromQiTransform`). -/
noncomputable def transformFromQiTransform (r : Transform) : AlMath.Transform :=
  let almathQuat : Quat := ⟨r.rotation.w, r.rotation.x, r.rotation.y, r.rotation.z⟩
  { almathQuat.toTransform with r14 := r.translation.x, r24 := r.translation.y, r34 := r.translation.z }

/-- almath/scenegraph/almathqigeometry.hpp:34-41 (`qiTransformFromALMath`). -/
noncomputable def qiTransformFromALMath (tf : AlMath.Transform) : Res Transform :=
  (toEigenQuaternion tf).map fun q => ⟨.ofEigen q, .ofEigen ![tf.r14, tf.r24, tf.r34]⟩

/-- almath/scenegraph/almathqigeometry.hpp:44-48 (`pose2DFromQiTransform`). -/
noncomputable def pose2DFromQiTransform (r : Transform) : Pose2D :=
  pose2DFromTransform (transformFromQiTransform r)

/-- almath/scenegraph/almathqigeometry.hpp:50-57 (`qiTransformFromPose2D`). -/
noncomputable def qiTransformFromPose2D (pose : Pose2D) : Res Transform :=
  (Quat.fromAngleAndAxis pose.theta 0 0 1).map fun quat =>
    ⟨⟨quat.x, quat.y, quat.z, quat.w⟩, ⟨pose.x, pose.y, 0⟩⟩

end AlMath.Qi
