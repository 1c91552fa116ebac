import Verif.Lemmas.Rodrigues

/-!
C06: every rotation factory yields a proper rotation about the stated axis.

Specification: `IsRot` (RᵀR = 1, det R = 1) and `rodrigues n a`, the rotation by `a`
about the unit axis `n`.
-/

namespace AlMath

open Spec Matrix

theorem mat_mul (a b : Rotation) : (Rotation.mul a b).mat = a.mat * b.mat := by
  ext i j
  fin_cases i <;> fin_cases j <;>
    simp [Rotation.mul, Rotation.mulAssign, Rotation.mulAssignBody, Rotation.mat,
      Matrix.mul_apply, Fin.sum_univ_three]

theorem lenSq_ex : lenSq ![1, 0, 0] = 1 := by simp [lenSq]
theorem lenSq_ey : lenSq ![0, 1, 0] = 1 := by simp [lenSq]
theorem lenSq_ez : lenSq ![0, 0, 1] = 1 := by simp [lenSq]

theorem C06_rotX (a : ℝ) : (Rotation.fromRotX a).mat = rodrigues ![1, 0, 0] a := by
  rw [rodrigues_coord]
  ext i j
  fin_cases i <;> fin_cases j <;> simp [Rotation.fromRotX, Rotation.mat, Rotation.one]

theorem C06_rotY (a : ℝ) : (Rotation.fromRotY a).mat = rodrigues ![0, 1, 0] a := by
  rw [rodrigues_coord]
  ext i j
  fin_cases i <;> fin_cases j <;> simp [Rotation.fromRotY, Rotation.mat, Rotation.one]

theorem C06_rotZ (a : ℝ) : (Rotation.fromRotZ a).mat = rodrigues ![0, 0, 1] a := by
  rw [rodrigues_coord]
  ext i j
  fin_cases i <;> fin_cases j <;> simp [Rotation.fromRotZ, Rotation.mat, Rotation.one]

/-- rotationFromRotX/Y/Z are proper rotations, fix their axis, and compose by
adding angles. -/
theorem C06_rotXYZ (a b : ℝ) :
    (IsRot (Rotation.fromRotX a).mat ∧ Rotation.act (Rotation.fromRotX a) ⟨1, 0, 0⟩ = ⟨1, 0, 0⟩ ∧
      Rotation.mul (Rotation.fromRotX a) (Rotation.fromRotX b) = Rotation.fromRotX (a + b)) ∧
    (IsRot (Rotation.fromRotY a).mat ∧ Rotation.act (Rotation.fromRotY a) ⟨0, 1, 0⟩ = ⟨0, 1, 0⟩ ∧
      Rotation.mul (Rotation.fromRotY a) (Rotation.fromRotY b) = Rotation.fromRotY (a + b)) ∧
    (IsRot (Rotation.fromRotZ a).mat ∧ Rotation.act (Rotation.fromRotZ a) ⟨0, 0, 1⟩ = ⟨0, 0, 1⟩ ∧
      Rotation.mul (Rotation.fromRotZ a) (Rotation.fromRotZ b) = Rotation.fromRotZ (a + b)) := by
  refine ⟨⟨?_, ?_, ?_⟩, ⟨?_, ?_, ?_⟩, ⟨?_, ?_, ?_⟩⟩
  · rw [C06_rotX]; exact rodrigues_isRot lenSq_ex a
  · simp [Rotation.act, Rotation.fromRotX, Rotation.one]
  · apply Rotation.mat_injective
    rw [mat_mul, C06_rotX, C06_rotX, C06_rotX, rodrigues_add lenSq_ex]
  · rw [C06_rotY]; exact rodrigues_isRot lenSq_ey a
  · simp [Rotation.act, Rotation.fromRotY, Rotation.one]
  · apply Rotation.mat_injective
    rw [mat_mul, C06_rotY, C06_rotY, C06_rotY, rodrigues_add lenSq_ey]
  · rw [C06_rotZ]; exact rodrigues_isRot lenSq_ez a
  · simp [Rotation.act, Rotation.fromRotZ, Rotation.one]
  · apply Rotation.mat_injective
    rw [mat_mul, C06_rotZ, C06_rotZ, C06_rotZ, rodrigues_add lenSq_ez]

/-- The constants are the factories at π and π/2. -/
theorem C06_constants :
    Rotation.fromRotXPi = Rotation.fromRotX Real.pi ∧
    Rotation.fromRotYPi = Rotation.fromRotY Real.pi ∧
    Rotation.fromRotZPi = Rotation.fromRotZ Real.pi ∧
    Rotation.fromRotZHalfPi = Rotation.fromRotZ (Real.pi / 2) := by
  refine ⟨?_, ?_, ?_, ?_⟩ <;> ext <;>
    simp [Rotation.fromRotXPi, Rotation.fromRotX, Rotation.fromRotYPi, Rotation.fromRotY,
      Rotation.fromRotZPi, Rotation.fromRotZ, Rotation.fromRotZHalfPi, Rotation.one]

/-- rotationFrom3DRotation is Rz · Ry · Rx, a proper rotation. -/
theorem C06_from3DRotation (wx wy wz : ℝ) :
    (Rotation.from3DRotation wx wy wz).mat =
      rodrigues ![0, 0, 1] wz * rodrigues ![0, 1, 0] wy * rodrigues ![1, 0, 0] wx ∧
    IsRot (Rotation.from3DRotation wx wy wz).mat := by
  have h : (Rotation.from3DRotation wx wy wz).mat =
      rodrigues ![0, 0, 1] wz * rodrigues ![0, 1, 0] wy * rodrigues ![1, 0, 0] wx := by
    rw [← C06_rotX, ← C06_rotY, ← C06_rotZ, ← mat_mul, ← mat_mul]; rfl
  refine ⟨h, ?_⟩
  rw [h]
  exact ((rodrigues_isRot lenSq_ez _).mul (rodrigues_isRot lenSq_ey _)).mul
    (rodrigues_isRot lenSq_ex _)

/-- rotationFromAngleDirection of a unit direction is Rodrigues' rotation. -/
theorem C06_fromAngleDirection (a x y z : ℝ) (h : x * x + y * y + z * z = 1) :
    ∃ r, Rotation.fromAngleDirection a x y z = .ok r ∧ r.mat = rodrigues ![x, y, z] a ∧
      IsRot r.mat := by
  have hr : (Rotation.angleDirectionMatrix a x y z).mat = rodrigues ![x, y, z] a := by
    rw [rodrigues_coord]
    ext i j
    fin_cases i <;> fin_cases j <;> simp [Rotation.angleDirectionMatrix, Rotation.mat]
    · linear_combination (1 - Real.cos a) * h
    · ring
    · ring
    · ring
    · linear_combination (1 - Real.cos a) * h
    · ring
    · ring
    · ring
    · linear_combination (1 - Real.cos a) * h
  refine ⟨Rotation.angleDirectionMatrix a x y z, ?_, hr, ?_⟩
  · unfold Rotation.fromAngleDirection
    simp only [h]
    norm_num
  · rw [hr]; exact rodrigues_isRot (by simp [lenSq, dotProduct, Fin.sum_univ_three, h]) a

theorem toRotation_isRot (w x y z : ℝ) (h : w * w + x * x + y * y + z * z = 1) :
    IsRot (Quat.toRotation ⟨w, x, y, z⟩).mat := by
  unfold Rotation.mat Quat.toRotation
  rw [isRot_coord]
  simp only
  refine ⟨⟨?_, ?_, ?_, ?_, ?_, ?_⟩, ?_⟩
  · linear_combination (4 * (y ^ 2 + z ^ 2)) * h
  · linear_combination (4 * (x ^ 2 + z ^ 2)) * h
  · linear_combination (4 * (x ^ 2 + y ^ 2)) * h
  · linear_combination (-4 * x * y) * h
  · linear_combination (-4 * x * z) * h
  · linear_combination (-4 * y * z) * h
  · linear_combination (4 * (x ^ 2 + y ^ 2 + z ^ 2)) * h

/-- rotationFromQuaternion (four floats, or a Quaternion) of a unit quaternion is
a proper rotation; both overloads agree for every quaternion. -/
theorem C06_fromQuaternion (q : Quat) :
    Rotation.fromQuaternion4 q.w q.x q.y q.z = Quat.toRotation q ∧
    (q.w * q.w + q.x * q.x + q.y * q.y + q.z * q.z = 1 → IsRot (Quat.toRotation q).mat) := by
  refine ⟨?_, toRotation_isRot q.w q.x q.y q.z⟩
  ext <;> simp [Rotation.fromQuaternion4, Quat.toRotation] <;> ring

/-- The Transform factories have the rotation part of the Rotation factories and
zero translation (or the given one). -/
theorem C06_transform (a wx wy wz x y z : ℝ) (q : Quat) :
    Transform.fromRotX a = transformFromRotation (Rotation.fromRotX a) ∧
    Transform.fromRotY a = transformFromRotation (Rotation.fromRotY a) ∧
    Transform.fromRotZ a = transformFromRotation (Rotation.fromRotZ a) ∧
    Transform.from3DRotation wx wy wz =
      transformFromRotation (Rotation.from3DRotation wx wy wz) ∧
    Transform.fromPosition6 x y z wx wy wz =
      transformFromRotationPosition3D (Rotation.from3DRotation wx wy wz) ⟨x, y, z⟩ ∧
    Quat.toTransform q = transformFromRotation (Quat.toRotation q) := by
  refine ⟨?_, ?_, ?_, ?_, ?_, ?_⟩ <;> ext <;>
    simp [Transform.fromRotX, Transform.fromRotY, Transform.fromRotZ, Transform.from3DRotation,
      Transform.fromPosition6, transformFromRotation, transformFromRotationInPlace,
      transformFromRotationPosition3D, Rotation.fromRotX,
      Rotation.fromRotY, Rotation.fromRotZ, Rotation.from3DRotation, Transform.one, Rotation.one,
      Transform.mulAssign, Transform.mulAssignBody, Rotation.mulAssign, Rotation.mulAssignBody,
      Quat.toTransform, Quat.toRotation]

theorem C06_transform_rigid (a wx wy wz x y z : ℝ) :
    IsRigid (Transform.fromRotX a) ∧ IsRigid (Transform.fromRotY a) ∧
    IsRigid (Transform.fromRotZ a) ∧ IsRigid (Transform.from3DRotation wx wy wz) ∧
    IsRigid (Transform.fromPosition6 x y z wx wy wz) := by
  obtain ⟨h1, h2, h3, h4, h5, _⟩ := C06_transform a wx wy wz x y z Quat.one
  rw [h1, h2, h3, h4, h5]
  exact ⟨(C06_rotXYZ a a).1.1, (C06_rotXYZ a a).2.1.1, (C06_rotXYZ a a).2.2.1,
    (C06_from3DRotation wx wy wz).2, (C06_from3DRotation wx wy wz).2⟩

/-- transformFromRotVec: the axis masks 1, 2, 4 give the rotation by the angle
about x, y, z; every other mask gives no rotation; the translation is the given
one. -/
theorem C06_fromRotVec (axis : ℤ) (a : ℝ) (m : Position3D) :
    (transformFromRotVec axis a m).trans = m.vec ∧
    (transformFromRotVec axis a m).rotMat =
      (if axis = 1 then rodrigues ![1, 0, 0] a
       else if axis = 2 then rodrigues ![0, 1, 0] a
       else if axis = 4 then rodrigues ![0, 0, 1] a else 1) ∧
    IsRigid (transformFromRotVec axis a m) := by
  have h2 : (transformFromRotVec axis a m).rotMat =
      (if axis = 1 then rodrigues ![1, 0, 0] a
       else if axis = 2 then rodrigues ![0, 1, 0] a
       else if axis = 4 then rodrigues ![0, 0, 1] a else 1) := by
    unfold transformFromRotVec
    split_ifs
    · rw [← C06_rotX]; rfl
    · rw [← C06_rotY]; rfl
    · rw [← C06_rotZ]; rfl
    · ext i j
      fin_cases i <;> fin_cases j <;> simp [Transform.rotMat, Transform.one]
  refine ⟨?_, h2, ?_⟩
  · simp only [transformFromRotVec, Transform.trans, Position3D.vec]
    split_ifs <;> rfl
  · unfold IsRigid
    rw [h2]
    split_ifs
    · exact rodrigues_isRot lenSq_ex a
    · exact rodrigues_isRot lenSq_ey a
    · exact rodrigues_isRot lenSq_ez a
    · exact IsRot.one

/-! ### Non-trivial instances -/

example : ∃ r, Rotation.fromAngleDirection 1 0.6 0 0.8 = .ok r ∧ IsRot r.mat := by
  obtain ⟨r, h, _, h'⟩ := C06_fromAngleDirection 1 0.6 0 0.8 (by norm_num)
  exact ⟨r, h, h'⟩
example : IsRot (Quat.toRotation ⟨0.5, 0.5, 0.5, 0.5⟩).mat :=
  (C06_fromQuaternion ⟨0.5, 0.5, 0.5, 0.5⟩).2 (by norm_num)

end AlMath
