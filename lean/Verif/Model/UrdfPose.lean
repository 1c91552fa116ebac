import Verif.Basic

/-!
Model of the numerical part of src/scenegraph/urdf.cpp and almath/scenegraph/urdfeigen.h: poses
(`origin` elements) and inertials.

Simplifications. `double` is exact real arithmetic. Eigen is trusted: vectors, 3x3 matrices and
their products are Mathlib's; a unit quaternion is represented by its rotation matrix
(`Quaterniond::inverse` is the transposed matrix, `quaternion * vector` is the product by the
matrix, `quaternion.matrix()` is the matrix); an isometry by its linear and translation parts.
The text of an attribute that holds three numbers is represented by the numbers, conversion to
text and back being exact; text that is not three numbers is `bad`.
-/

namespace AlMath.Urdf

open Matrix

/-- almath/scenegraph/urdf.h:65 (`Array3d`), also Eigen's `Vector3d`. -/
abbrev Array3d := Fin 3 → ℝ

/-- Eigen's `Matrix3d`, as used in almath/scenegraph/urdfeigen.h:34. -/
abbrev Matrix3d := Matrix (Fin 3) (Fin 3) ℝ

/-- almath/scenegraph/urdf.h:67-69 (`is_zero`). -/
def isZero (a : Array3d) : Prop := a 0 = 0 ∧ a 1 = 0 ∧ a 2 = 0

/-- almath/scenegraph/urdf.h:71-73 (`is_ones`). -/
def isOnes (a : Array3d) : Prop := a 0 = 1 ∧ a 1 = 1 ∧ a 2 = 1

/-- Rotation matrix of Eigen's `AngleAxisd(a, UnitX())`, used in
almath/scenegraph/urdfeigen.h:19. -/
noncomputable def rotX (a : ℝ) : Matrix3d :=
  !![1, 0, 0; 0, Real.cos a, -Real.sin a; 0, Real.sin a, Real.cos a]

/-- Rotation matrix of Eigen's `AngleAxisd(a, UnitY())`, used in
almath/scenegraph/urdfeigen.h:18. -/
noncomputable def rotY (a : ℝ) : Matrix3d :=
  !![Real.cos a, 0, Real.sin a; 0, 1, 0; -Real.sin a, 0, Real.cos a]

/-- Rotation matrix of Eigen's `AngleAxisd(a, UnitZ())`, used in
almath/scenegraph/urdfeigen.h:17. -/
noncomputable def rotZ (a : ℝ) : Matrix3d :=
  !![Real.cos a, -Real.sin a, 0; Real.sin a, Real.cos a, 0; 0, 0, 1]

/-- almath/scenegraph/urdfeigen.h:15-20 (`eigenQuaternionFromUrdfRpy`), the quaternion being
represented by its rotation matrix. -/
noncomputable def quatFromRpy (rpy : Array3d) : Matrix3d :=
  rotZ (rpy 2) * rotY (rpy 1) * rotX (rpy 0)

open Classical in
/-- Eigen's `MatrixBase::eulerAngles(2, 1, 0)` (release 3.3), called in
almath/scenegraph/urdfeigen.h:24. `EIGEN_PI` is modelled by the real number. -/
noncomputable def eulerAngles210 (m : Matrix3d) : Array3d :=
  let res0 := atan2 (m 1 0) (m 0 0)
  let c2 := √(m 2 2 * m 2 2 + m 2 1 * m 2 1)
  let flipped := res0 < 0
  let z := if flipped then res0 + Real.pi else res0
  let y := if flipped then atan2 (-m 2 0) (-c2) else atan2 (-m 2 0) c2
  let s1 := Real.sin z
  let c1 := Real.cos z
  let x := atan2 (s1 * m 0 2 - c1 * m 1 2) (c1 * m 1 1 - s1 * m 0 1)
  ![z, y, x]

/-- almath/scenegraph/urdfeigen.h:22-26 (`urdfRpyFromEigenMatrix3`). -/
noncomputable def rpyFromMatrix (m : Matrix3d) : Array3d :=
  let ypr := eulerAngles210 m
  ![ypr 2, ypr 1, ypr 0]

/-- almath/scenegraph/urdf.h:279-295 (`Pose`). -/
@[ext] structure UPose where
  xyz : Array3d
  rpy : Array3d

/-- almath/scenegraph/urdf.h:282 (default constructor of `Pose`). -/
def UPose.zero : UPose := ⟨![0, 0, 0], ![0, 0, 0]⟩

/-- almath/scenegraph/urdf.h:304-306 (`is_identity`). -/
def UPose.isIdentity (p : UPose) : Prop := isZero p.xyz ∧ isZero p.rpy

open Classical in
/-- src/scenegraph/urdf.cpp:111-125 (`Pose::inverse`). -/
noncomputable def UPose.inverse (p : UPose) : UPose :=
  if isZero p.rpy then ⟨![-p.xyz 0, -p.xyz 1, -p.xyz 2], ![0, 0, 0]⟩
  else
    let newMat := (quatFromRpy p.rpy)ᵀ
    if ¬ isZero p.xyz then ⟨-(newMat *ᵥ p.xyz), rpyFromMatrix newMat⟩
    else ⟨![0, 0, 0], rpyFromMatrix newMat⟩

open Classical in
/-- src/scenegraph/urdf.cpp:127-141 (`operator*` of poses). -/
noncomputable def UPose.mul (lhs rhs : UPose) : UPose :=
  let lhsQuat := quatFromRpy lhs.rpy
  let rpy :=
    if isZero lhs.rpy then rhs.rpy
    else if isZero rhs.rpy then lhs.rpy
    else rpyFromMatrix (lhsQuat * quatFromRpy rhs.rpy)
  ⟨lhs.xyz + lhsQuat *ᵥ rhs.xyz, rpy⟩

/-- An XML attribute read with `Array3dTranslator` (src/scenegraph/urdf.cpp:66-97): missing,
text that is not three numbers, or three numbers. -/
inductive Attr where
  | absent
  | bad
  | val (a : Array3d)

/-- The attributes of an `origin` element (read in src/scenegraph/urdf.cpp:150-153). -/
structure OriginElem where
  xyz : Attr
  rpy : Attr

/-- src/scenegraph/urdf.cpp:143-148 (`get_pose_child_array3d`). -/
def getPoseChild : Attr → Res Array3d
  | .absent => .ok ![0, 0, 0]
  | .bad => .throws
  | .val a => .ok a

/-- src/scenegraph/urdf.cpp:150-153 (`Pose::from_ptree` of an element; the order of evaluation
of the two arguments does not matter, both outcomes being an exception). -/
def UPose.fromElem (e : OriginElem) : Res UPose :=
  (getPoseChild e.xyz).bind fun xyz => (getPoseChild e.rpy).bind fun rpy => .ok ⟨xyz, rpy⟩

/-- src/scenegraph/urdf.cpp:155-157 (`Pose::from_ptree` of an optional element). -/
def UPose.fromPtree : Option OriginElem → Res UPose
  | some e => UPose.fromElem e
  | none => .ok UPose.zero

open Classical in
/-- src/scenegraph/urdf.cpp:159-167 (`Pose::to_ptree`). -/
noncomputable def UPose.toPtree (p : UPose) : Option OriginElem :=
  if isZero p.xyz ∧ isZero p.rpy then none
  else some ⟨if ¬ isZero p.xyz then .val p.xyz else .absent,
    if ¬ isZero p.rpy then .val p.rpy else .absent⟩

/-- Eigen's `Isometry3d` and `AffineCompact` transforms, by their linear and translation parts
(used in almath/scenegraph/urdfeigen.h:28 and src/scenegraph/urdf.cpp:819). -/
@[ext] structure ETransform where
  linear : Matrix3d
  translation : Array3d

/-- Product of Eigen transforms (used in src/scenegraph/urdf.cpp:829-831). -/
def ETransform.mul (a b : ETransform) : ETransform :=
  ⟨a.linear * b.linear, a.linear *ᵥ b.translation + a.translation⟩

/-- almath/scenegraph/urdfeigen.h:28-32 (`toEigenTransform`). -/
noncomputable def toEigenTransform (p : UPose) : ETransform := ⟨quatFromRpy p.rpy, p.xyz⟩

/-- The numbers of an `inertial` element other than its origin (read in
src/scenegraph/urdf.cpp:253-265). The attributes are taken to be present and well formed. -/
structure InertialData where
  mass : ℝ
  ixx : ℝ
  ixy : ℝ
  ixz : ℝ
  iyy : ℝ
  iyz : ℝ
  izz : ℝ

/-- almath/scenegraph/urdfeigen.h:34-43 (`toEigenMatrix3`). -/
def toEigenMatrix3 (i : InertialData) : Matrix3d :=
  !![i.ixx, i.ixy, i.ixz; i.ixy, i.iyy, i.iyz; i.ixz, i.iyz, i.izz]

/-- almath/scenegraph/urdfeigen.h:46-72 (`addPointMassInertia`); the result is the new value of
`output`. -/
def addPointMassInertia (mass : ℝ) (p : Array3d) (o : Matrix3d) : Matrix3d :=
  !![o 0 0 + mass * (p 1 ^ 2 + p 2 ^ 2), o 0 1 + -mass * p 0 * p 1, o 0 2 + -mass * p 0 * p 2;
     o 1 0 + -mass * p 0 * p 1, o 1 1 + mass * (p 0 ^ 2 + p 2 ^ 2), o 1 2 + -mass * p 1 * p 2;
     o 2 0 + -mass * p 0 * p 2, o 2 1 + -mass * p 1 * p 2, o 2 2 + mass * (p 0 ^ 2 + p 1 ^ 2)]

open Classical in
/-- almath/scenegraph/urdfeigen.h:80-115 (`squashInertial`); the results are the new values of
`mass_c`, `pose_c`, `inertia_c`. The division by a zero mass is undefined. -/
noncomputable def squashInertial (massA : ℝ) (poseA : ETransform) (inertiaA : Matrix3d)
    (massB : ℝ) (poseB : ETransform) (inertiaB : Matrix3d) : Res (ℝ × ETransform × Matrix3d) :=
  let massC := massA + massB
  if massC = 0 then .ub
  else
    let poseC : ETransform := ⟨poseA.linear,
      massC⁻¹ • (massA • poseA.translation + massB • poseB.translation)⟩
    let displA := poseC.translation - poseA.translation
    let c1 := addPointMassInertia massA (poseC.linearᵀ *ᵥ displA) inertiaA
    let rotCB := poseC.linearᵀ * poseB.linear
    let c2 := c1 + rotCBᵀ * inertiaB * rotCB
    let displB := poseC.translation - poseB.translation
    .ok (massC, poseC, addPointMassInertia massB (poseC.linearᵀ *ᵥ displB) c2)

/-- almath/scenegraph/urdfeigen.h:117-137 (`urdfInertialToEigen`); the results are the new
values of `mass`, `com_a`, `inertia_a`. -/
noncomputable def urdfInertialToEigen (origin : UPose) (i : InertialData) :
    ℝ × Array3d × Matrix3d :=
  let tab := toEigenTransform origin
  (i.mass, tab.translation, tab.linearᵀ * toEigenMatrix3 i * tab.linear)

end AlMath.Urdf
