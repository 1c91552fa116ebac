import Verif.Model.QiGeometry
import Verif.Props.C64
import Verif.Props.C17
import Mathlib.Analysis.Real.Pi.Bounds
import Mathlib.Algebra.Order.Star.Real

/-!
C68: transforms of `qi::geometry`.
-/

namespace AlMath.Spec

open Matrix
open scoped Quaternion

/-- The transform stands for the rigid motion `p ↦ R p + t`. Not in /repo: specification. -/
def QiMotion (tf : Qi.Transform) (R : Mat3) (t : Vec3) : Prop :=
  Represents (quat tf.rotation.w tf.rotation.x tf.rotation.y tf.rotation.z) R ∧
    t = ![tf.translation.x, tf.translation.y, tf.translation.z]

/-- Squared Frobenius distance of two rigid motions, as 4x4 matrices. Not in /repo: specification. -/
noncomputable def motionDistSq (R : Mat3) (t : Vec3) (S : Mat3) (u : Vec3) : ℝ :=
  ((R - S) * (R - S)ᵀ).trace + lenSq (t - u)

end AlMath.Spec

namespace AlMath

open Average Spec Matrix
open scoped Quaternion

namespace Qi

theorem toQuat_toEigen (q : Quaternion) : toQuat q.toEigen = quat q.w q.x q.y q.z := rfl

theorem quat_ofEigen (q : EQuat) :
    quat (Quaternion.ofEigen q).w (Quaternion.ofEigen q).x (Quaternion.ofEigen q).y
      (Quaternion.ofEigen q).z = toQuat q := rfl

theorem norm_eq (q : Quaternion) : norm q = √(Quaternion.normSq (quat q.w q.x q.y q.z)) := by
  unfold norm
  rw [EQuat.dot_eq, quatDot_self, toQuat_toEigen]

theorem norm_one {q : Quaternion} {R : Mat3} (h : Represents (quat q.w q.x q.y q.z) R) : norm q = 1 := by
  rw [norm_eq, h.1, Real.sqrt_one]

theorem isNormalized_one {q : Quaternion} {R : Mat3} (h : Represents (quat q.w q.x q.y q.z) R) {e : ℝ}
    (he : 0 < e) : isNormalized q e := by
  unfold isNormalized
  rw [norm_one h]
  simpa using he

theorem toQuat_mulQuat (a b : EQuat) : toQuat (mulQuat a b) = toQuat a * toQuat b := by
  ext <;> simp [toQuat_def, mulQuat] <;> ring

theorem rotateVec_eq {q : EQuat} (h : Quaternion.normSq (toQuat q) = 1) (v : Fin 3 → ℝ) :
    rotateVec q v = quatRotate (toQuat q) v := by
  rw [Quaternion.normSq_def'] at h
  simp only [toQuat_def, quat_re, quat_imI, quat_imJ, quat_imK] at h
  unfold quatRotate
  ext i
  fin_cases i
  · simp [rotateVec, cross, toQuat_def, vecHead, vecTail]
    linear_combination (-v 0) * h
  · simp [rotateVec, cross, toQuat_def, vecHead, vecTail]
    linear_combination (-v 1) * h
  · simp [rotateVec, cross, toQuat_def, vecHead, vecTail]
    linear_combination (-v 2) * h

theorem toEigenAffine3d_eq {tf : Transform} {R : Mat3} {t : Vec3} (h : QiMotion tf R t) :
    toEigenAffine3d tf = .ok ⟨R, t⟩ := by
  unfold toEigenAffine3d
  rw [if_pos (isNormalized_one h.1 (by norm_num))]
  have e : Matrix.of tf.rotation.toEigen.toRotationMatrix = R :=
    Represents.mat_unique (toRotationMatrix_spec tf.rotation.toEigen h.1.1) h.1
  rw [e, h.2]
  rfl

/-- C68: the product of two transforms is the composition of the motions they stand for. -/
theorem C68_mul {a b : Transform} {R S : Mat3} {t u : Vec3} (ha : QiMotion a R t) (hb : QiMotion b S u) :
    ∃ c, mul a b = .ok c ∧ QiMotion c (R * S) (t + R *ᵥ u) := by
  unfold mul
  rw [if_pos (isNormalized_one ha.1 (by norm_num)), if_pos (isNormalized_one hb.1 (by norm_num))]
  refine ⟨_, rfl, ?_, ?_⟩
  · rw [quat_ofEigen, toQuat_mulQuat]
    exact Represents.mul ha.1 hb.1
  · have := rotateVec_eq (q := a.rotation.toEigen) ha.1.1 b.translation.toEigen
    dsimp only [Vector3.ofEigen]
    rw [this, toQuat_toEigen, ha.1.2, ha.2, hb.2]
    ext i
    fin_cases i <;> rfl

theorem rotation_eq {R : Mat3} (hR : IsRot R) (t : Fin 3 → ℝ) : Affine.rotation ⟨R, t⟩ = .ok R := by
  have hex : ∃ r : Matrix (Fin 3) (Fin 3) ℝ, r.transpose * r = 1 ∧ r.det = 1 ∧
      (r.transpose * R).PosSemidef := ⟨R, hR.1, hR.2, by rw [hR.1]; exact Matrix.PosSemidef.one⟩
  unfold Affine.rotation
  rw [dif_pos hex]
  obtain ⟨h1, -, h3⟩ := hex.choose_spec
  generalize hex.choose = r at h1 h3
  congr 1
  have h1' : r * r.transpose = 1 := mul_eq_one_comm.mp h1
  -- S = rᵀ R is symmetric, orthogonal and positive
  set S := r.transpose * R with hS
  have hsym : S.transpose = S := by
    have := h3.isHermitian
    rwa [Matrix.IsHermitian, Matrix.conjTranspose_eq_transpose_of_trivial] at this
  have horth : S.transpose * S = 1 := by
    rw [hS, Matrix.transpose_mul, Matrix.transpose_transpose, Matrix.mul_assoc, ← Matrix.mul_assoc r,
      h1', Matrix.one_mul, hR.1]
  have hSS : S * S = 1 := by rwa [hsym] at horth
  have hS1 : S = 1 := by
    -- every vector v = S w - w is sent to -v, hence is zero
    have key : ∀ w : Fin 3 → ℝ, S *ᵥ w = w := by
      intro w
      have hv : S *ᵥ (S *ᵥ w - w) = -(S *ᵥ w - w) := by
        rw [Matrix.mulVec_sub, Matrix.mulVec_mulVec, hSS, Matrix.one_mulVec]
        abel
      have hp := h3.dotProduct_mulVec_nonneg (S *ᵥ w - w)
      rw [hv] at hp
      have h0 : (S *ᵥ w - w) ⬝ᵥ (S *ᵥ w - w) = 0 := by
        have h1 : 0 ≤ (S *ᵥ w - w) ⬝ᵥ (S *ᵥ w - w) := by
          rw [dotProduct]
          exact Finset.sum_nonneg fun i _ => mul_self_nonneg _
        have h2 : 0 ≤ -((S *ᵥ w - w) ⬝ᵥ (S *ᵥ w - w)) := by
          simpa [dotProduct_neg] using hp
        linarith
      have := dotProduct_self_eq_zero.mp h0
      exact sub_eq_zero.mp this
    ext i j
    have := congrFun (key (Pi.single j 1)) i
    rw [Matrix.mulVec_single_one] at this
    rw [Matrix.one_apply]
    simpa [Pi.single_apply, eq_comm] using this
  have : R = r * S := by rw [hS, ← Matrix.mul_assoc, h1', Matrix.one_mul]
  rw [this, hS1, Matrix.mul_one]

/-- Eigen's conversion gives a quaternion of the rotation. -/
theorem ofMatrix_eq {R : Mat3} (hR : IsRot R) : ∃ q, ofMatrix R = .ok q ∧ Represents (toQuat q) R := by
  have hm : (⟨R 0 0, R 0 1, R 0 2, 0, R 1 0, R 1 1, R 1 2, 0, R 2 0, R 2 1, R 2 2, 0⟩ :
      AlMath.Transform).rotMat = R := by
    ext i j
    fin_cases i <;> fin_cases j <;> rfl
  obtain ⟨q, h1, h2⟩ := toEigenQuaternion_spec
    ⟨R 0 0, R 0 1, R 0 2, 0, R 1 0, R 1 1, R 1 2, 0, R 2 0, R 2 1, R 2 2, 0⟩ (by
      unfold IsRigid
      rwa [hm])
  rw [hm] at h2
  refine ⟨q, ?_, h2⟩
  rw [← h1]
  unfold toEigenQuaternion
  congr 1
  ext i j
  fin_cases i <;> fin_cases j <;> rfl

theorem isRot_transpose {R : Mat3} (hR : IsRot R) : IsRot Rᵀ :=
  ⟨by rw [Matrix.transpose_transpose]; exact mul_eq_one_comm.mp hR.1, by
    rw [Matrix.det_transpose]; exact hR.2⟩

/-- C68: the inverse of a transform is the inverse motion. -/
theorem C68_inverse {a : Transform} {R : Mat3} {t : Vec3} (ha : QiMotion a R t) :
    ∃ c, inverse a = .ok c ∧ QiMotion c Rᵀ (-(Rᵀ *ᵥ t)) := by
  have hR := (Represents.isRot ha.1)
  have hinv : R⁻¹ = Rᵀ := Matrix.inv_eq_left_inv hR.1
  obtain ⟨q, h1, h2⟩ := ofMatrix_eq (isRot_transpose hR)
  refine ⟨⟨.ofEigen q, .ofEigen (-(Rᵀ *ᵥ t))⟩, ?_, ?_, ?_⟩
  · unfold inverse
    rw [toEigenAffine3d_eq ha]
    simp only [Res.bind, Affine.inverse, hR.2, one_ne_zero, if_false, hinv,
      rotation_eq (isRot_transpose hR), h1, Res.map]
  · rw [quat_ofEigen]
    exact h2
  · ext i
    fin_cases i <;> rfl

theorem sum_sq_eq (R : Mat3) : (∑ i, ∑ j, R i j ^ 2) = (R * Rᵀ).trace := by
  simp [Matrix.trace, Matrix.mul_apply, pow_two]

theorem squaredNorm_one {R : Mat3} (hR : IsRot R) (t : Vec3) : squaredNorm ⟨R, t⟩ 1 = 4 + lenSq t := by
  unfold squaredNorm
  dsimp only
  rw [sum_sq_eq, mul_eq_one_comm.mp hR.1]
  simp [lenSq, dotProduct, pow_two]
  ring

/-- C68: nearness compares the distance of the motions, as 4x4 matrices, to a tolerance which is
relative to the smaller one. -/
theorem C68_isNear {a b : Transform} {R S : Mat3} {t u : Vec3} (ha : QiMotion a R t)
    (hb : QiMotion b S u) (eps : ℝ) :
    isNear a b eps =
      .ok (motionDistSq R t S u ≤ eps ^ 2 * min (4 + lenSq t) (4 + lenSq u)) := by
  unfold isNear
  rw [toEigenAffine3d_eq ha, toEigenAffine3d_eq hb]
  simp only [Res.bind, Res.map]
  rw [squaredNorm_one (Represents.isRot ha.1), squaredNorm_one (Represents.isRot hb.1), ← pow_two]
  have : squaredNorm ⟨R - S, t - u⟩ 0 = motionDistSq R t S u := by
    unfold squaredNorm motionDistSq
    dsimp only
    rw [sum_sq_eq]
    simp [lenSq, dotProduct, pow_two]
  rw [this]

/-- C68: a transform is near any transform for the same motion, and nearness is symmetric. -/
theorem C68_isNear_refl_symm {a b : Transform} {R S : Mat3} {t u : Vec3} (ha : QiMotion a R t)
    (hb : QiMotion b S u) (eps : ℝ) :
    (R = S → t = u → ∃ p, isNear a b eps = .ok p ∧ p) ∧ isNear a b eps = isNear b a eps := by
  have h0 : ∀ v : Vec3, 0 ≤ lenSq v := fun v => by
    unfold lenSq dotProduct
    exact Finset.sum_nonneg fun i _ => mul_self_nonneg _
  constructor
  · rintro rfl rfl
    refine ⟨_, C68_isNear ha hb eps, ?_⟩
    have : motionDistSq R t R t = 0 := by simp [motionDistSq, lenSq]
    rw [this, min_self]
    have := h0 t
    positivity
  · rw [C68_isNear ha hb, C68_isNear hb ha, min_comm]
    have : motionDistSq R t S u = motionDistSq S u R t := by
      unfold motionDistSq
      congr 1
      · rw [← neg_sub S R, Matrix.transpose_neg, neg_mul_neg]
      · rw [← neg_sub u t, lenSq, lenSq, neg_dotProduct_neg]
    rw [this]

/-- A translation. -/
theorem translation_motion (x : ℝ) : QiMotion ⟨⟨0, 0, 0, 1⟩, ⟨x, 0, 0⟩⟩ 1 ![x, 0, 0] := by
  refine ⟨?_, rfl⟩
  rw [represents_iff]
  refine ⟨by norm_num, ?_⟩
  ext i j
  fin_cases i <;> fin_cases j <;> norm_num

/-- The tolerance is not a distance: whatever the tolerance, translations arbitrarily far from each
other are near. -/
theorem C68_isNear_relative (eps d : ℝ) (he : 0 < eps) : ∃ a b : Transform, ∃ t u : Vec3,
    QiMotion a 1 t ∧ QiMotion b 1 u ∧ u - t = ![d, 0, 0] ∧ ∃ p, isNear a b eps = .ok p ∧ p := by
  have h1 : 0 ≤ |d| / eps := by positivity
  refine ⟨_, _, _, _, translation_motion (|d| / eps + |d|), translation_motion (|d| / eps + |d| + d), ?_,
    _, C68_isNear (translation_motion _) (translation_motion _) eps, ?_⟩
  · ext i
    fin_cases i <;> simp
  · have hd : motionDistSq 1 ![|d| / eps + |d|, 0, 0] 1 ![|d| / eps + |d| + d, 0, 0] = d ^ 2 := by
      simp [motionDistSq, lenSq, dotProduct, Fin.sum_univ_three]
      ring
    have hl : ∀ x : ℝ, |d| / eps ≤ x → (|d| / eps) ^ 2 ≤ 4 + lenSq ![x, 0, 0] := by
      intro x hx
      have : lenSq ![x, 0, 0] = x ^ 2 := by
        simp [lenSq, dotProduct, Fin.sum_univ_three]
        ring
      rw [this]
      nlinarith
    rw [hd]
    have hm := le_min (hl (|d| / eps + |d|) (by linarith [abs_nonneg d]))
      (hl (|d| / eps + |d| + d) (by linarith [neg_abs_le d]))
    calc d ^ 2 = eps ^ 2 * (|d| / eps) ^ 2 := by
          field_simp
          rw [sq_abs]
      _ ≤ _ := mul_le_mul_of_nonneg_left hm (by positivity)

/-- C68: the conversion to an AL transform keeps the motion. -/
theorem C68_toALMath {a : Transform} {R : Mat3} {t : Vec3} (ha : QiMotion a R t) :
    (transformFromQiTransform a).rotMat = R ∧ (transformFromQiTransform a).trans = t := by
  obtain ⟨h1, h2⟩ := ha
  rw [represents_iff] at h1
  rw [h1.2, h2]
  exact ⟨rfl, rfl⟩

/-- C68: the conversion of a rigid AL transform keeps the motion, and both conversions together give
back the transform. -/
theorem C68_ofALMath (tf : AlMath.Transform) (h : IsRigid tf) :
    ∃ a, qiTransformFromALMath tf = .ok a ∧ QiMotion a tf.rotMat tf.trans ∧
      transformFromQiTransform a = tf := by
  obtain ⟨q, h1, h2⟩ := toEigenQuaternion_spec tf h
  have hm : QiMotion ⟨.ofEigen q, .ofEigen ![tf.r14, tf.r24, tf.r34]⟩ tf.rotMat tf.trans := ⟨h2, rfl⟩
  refine ⟨_, ?_, hm, ?_⟩
  · unfold qiTransformFromALMath
    rw [h1]
    rfl
  · exact Transform.ext_parts (C68_toALMath hm).1 (C68_toALMath hm).2

/-- C68: the conversion back gives the same transform up to the sign of its quaternion. -/
theorem C68_roundtrip {a : Transform} {R : Mat3} {t : Vec3} (ha : QiMotion a R t) :
    ∃ b, qiTransformFromALMath (transformFromQiTransform a) = .ok b ∧
      b.translation = a.translation ∧
      (b.rotation = a.rotation ∨ b.rotation =
        ⟨-a.rotation.x, -a.rotation.y, -a.rotation.z, -a.rotation.w⟩) := by
  obtain ⟨e1, e2⟩ := C68_toALMath ha
  obtain ⟨b, h1, h2, -⟩ := C68_ofALMath (transformFromQiTransform a) (by
    unfold IsRigid
    rw [e1]
    exact Represents.isRot ha.1)
  rw [e1, e2] at h2
  refine ⟨b, h1, ?_, ?_⟩
  · have := h2.2.symm.trans ha.2
    ext
    · simpa using congrFun this 0
    · simpa using congrFun this 1
    · simpa using congrFun this 2
  · rcases Represents.unique h2.1 ha.1 with e | e
    · left
      ext
      · simpa using congrArg QuaternionAlgebra.imI e
      · simpa using congrArg QuaternionAlgebra.imJ e
      · simpa using congrArg QuaternionAlgebra.imK e
      · simpa using congrArg QuaternionAlgebra.re e
    · right
      ext
      · simpa using congrArg QuaternionAlgebra.imI e
      · simpa using congrArg QuaternionAlgebra.imJ e
      · simpa using congrArg QuaternionAlgebra.imK e
      · simpa using congrArg QuaternionAlgebra.re e

/-- The quaternion of a turn about a unit axis. -/
theorem represents_turn (n : Vec3) (hn : lenSq n = 1) (angle : ℝ) :
    Represents (quat (Real.cos (0.5 * angle)) (n 0 * Real.sin (0.5 * angle))
      (n 1 * Real.sin (0.5 * angle)) (n 2 * Real.sin (0.5 * angle))) (rodrigues n angle) := by
  have h := Real.sin_sq_add_cos_sq (0.5 * angle)
  have ha : angle = 2 * (0.5 * angle) := by ring
  have hc : Real.cos angle = 1 - 2 * Real.sin (0.5 * angle) ^ 2 := by
    conv_lhs => rw [ha, Real.cos_two_mul]
    linear_combination 2 * Real.sin_sq_add_cos_sq (0.5 * angle)
  have hs : Real.sin angle = 2 * Real.sin (0.5 * angle) * Real.cos (0.5 * angle) := by
    conv_lhs => rw [ha, Real.sin_two_mul]
  simp [lenSq, dotProduct, Fin.sum_univ_three] at hn
  rw [represents_iff]
  refine ⟨by linear_combination h + Real.sin (0.5 * angle) ^ 2 * hn, ?_⟩
  rw [rodrigues, hc, hs]
  ext i j
  fin_cases i <;> fin_cases j <;>
    simp [skew, Matrix.mul_apply, Fin.sum_univ_three] <;> ring

/-- C68: a planar pose becomes the turn about the vertical axis and the horizontal translation; the
pose read back is the same, its angle being brought to (-pi, pi]. -/
theorem C68_pose2D (p : Pose2D) : ∃ a, qiTransformFromPose2D p = .ok a ∧
    QiMotion a (rodrigues ![0, 0, 1] p.theta) ![p.x, p.y, 0] ∧
    (pose2DFromQiTransform a).x = p.x ∧ (pose2DFromQiTransform a).y = p.y ∧
    -Real.pi < (pose2DFromQiTransform a).theta ∧ (pose2DFromQiTransform a).theta ≤ Real.pi ∧
    ∃ k : ℤ, (pose2DFromQiTransform a).theta = p.theta + k * (2 * Real.pi) := by
  have hn : lenSq ![0, 0, 1] = 1 := by simp [lenSq, dotProduct, Fin.sum_univ_three]
  obtain ⟨h1, -⟩ := fromAngleAndAxis_ok p.theta ![0, 0, 1] hn
  have hm : QiMotion ⟨⟨0 * Real.sin (0.5 * p.theta), 0 * Real.sin (0.5 * p.theta),
      1 * Real.sin (0.5 * p.theta), Real.cos (0.5 * p.theta)⟩, ⟨p.x, p.y, 0⟩⟩
      (rodrigues ![0, 0, 1] p.theta) ![p.x, p.y, 0] := ⟨represents_turn ![0, 0, 1] hn p.theta, rfl⟩
  refine ⟨_, ?_, hm, rfl, rfl, (atan2_mem _ _).1, (atan2_mem _ _).2, ?_⟩
  · unfold qiTransformFromPose2D
    have : Quat.fromAngleAndAxis p.theta 0 0 1 = _ := h1
    rw [this]
    rfl
  · have hr := (C68_toALMath hm).1
    have e21 : (transformFromQiTransform ⟨⟨0 * Real.sin (0.5 * p.theta), 0 * Real.sin (0.5 * p.theta),
        1 * Real.sin (0.5 * p.theta), Real.cos (0.5 * p.theta)⟩, ⟨p.x, p.y, 0⟩⟩).r21 =
        Real.sin p.theta := by
      have := congrFun (congrFun hr 1) 0
      simpa [Transform.rotMat, rodrigues, skew, Matrix.mul_apply, Fin.sum_univ_three] using this
    have e11 : (transformFromQiTransform ⟨⟨0 * Real.sin (0.5 * p.theta), 0 * Real.sin (0.5 * p.theta),
        1 * Real.sin (0.5 * p.theta), Real.cos (0.5 * p.theta)⟩, ⟨p.x, p.y, 0⟩⟩).r11 =
        Real.cos p.theta := by
      have := congrFun (congrFun hr 0) 0
      simpa [Transform.rotMat, rodrigues, skew, Matrix.mul_apply, Fin.sum_univ_three] using this
    unfold pose2DFromQiTransform pose2DFromTransform
    dsimp only
    rw [e21, e11]
    have hu := atan2_unit (y := Real.sin p.theta) (x := Real.cos p.theta)
      (by linear_combination Real.sin_sq_add_cos_sq p.theta)
    generalize atan2 (Real.sin p.theta) (Real.cos p.theta) = th at hu
    obtain ⟨k, hk⟩ := Real.Angle.angle_eq_iff_two_pi_dvd_sub.mp
      (Real.Angle.cos_sin_inj hu.1 hu.2)
    exact ⟨k, by linarith⟩

/-- C68: the quaternion of a turn about any axis that is not zero. -/
theorem C68_angleAxis (angle : ℝ) (axis : Vector3) (h : axis ≠ ⟨0, 0, 0⟩) :
    ∃ q, makeQuaternionFromAngleAxis angle axis = .ok q ∧ Represents (quat q.w q.x q.y q.z)
      (rodrigues ((√(lenSq ![axis.x, axis.y, axis.z]))⁻¹ • ![axis.x, axis.y, axis.z]) angle) := by
  have hl : lenSq ![axis.x, axis.y, axis.z] = axis.x * axis.x + axis.y * axis.y + axis.z * axis.z := by
    simp [lenSq, dotProduct, Fin.sum_univ_three]
  rw [hl]
  have hpos : 0 < axis.x * axis.x + axis.y * axis.y + axis.z * axis.z := by
    by_contra hc
    apply h
    have hx := mul_self_nonneg axis.x
    have hy := mul_self_nonneg axis.y
    have hz := mul_self_nonneg axis.z
    ext
    · exact mul_self_eq_zero.mp (by linarith)
    · exact mul_self_eq_zero.mp (by linarith)
    · exact mul_self_eq_zero.mp (by linarith)
  set N := √(axis.x * axis.x + axis.y * axis.y + axis.z * axis.z) with hN
  have hN0 : 0 < N := Real.sqrt_pos.mpr hpos
  have hNN : N * N = axis.x * axis.x + axis.y * axis.y + axis.z * axis.z :=
    Real.mul_self_sqrt hpos.le
  have ok : makeQuaternionFromAngleAxis angle axis = .ok ⟨Real.sin (0.5 * angle) * (axis.x / N),
      Real.sin (0.5 * angle) * (axis.y / N), Real.sin (0.5 * angle) * (axis.z / N),
      Real.cos (0.5 * angle)⟩ := by
    have hN' : √(axis.toEigen 0 * axis.toEigen 0 + axis.toEigen 1 * axis.toEigen 1 +
        axis.toEigen 2 * axis.toEigen 2) = N := rfl
    simp only [makeQuaternionFromAngleAxis, normalizedVec, hN', hN0.ne', if_false, Res.map]
    rfl
  refine ⟨_, ok, ?_⟩
  have hu : lenSq (N⁻¹ • ![axis.x, axis.y, axis.z]) = 1 := by
    simp [lenSq, dotProduct, Fin.sum_univ_three]
    field_simp
    linear_combination -hNN
  have := represents_turn _ hu angle
  convert this using 2
  all_goals simp
  all_goals ring

/-- C68: normalisation of a quaternion that is not zero gives the unit quaternion in the same
direction, which is then recognised as such. -/
theorem C68_normalized (r : Quaternion) (h : r ≠ ⟨0, 0, 0, 0⟩) : ∃ q, normalized r = .ok q ∧
    (∃ c : ℝ, 0 < c ∧ quat q.w q.x q.y q.z = c • quat r.w r.x r.y r.z) ∧
    Quaternion.normSq (quat q.w q.x q.y q.z) = 1 ∧ ∀ eps > 0, isNormalized q eps := by
  have h0 : toQuat r.toEigen ≠ 0 := by
    intro h0
    apply h
    ext
    · simpa [toQuat_toEigen] using congrArg QuaternionAlgebra.imI h0
    · simpa [toQuat_toEigen] using congrArg QuaternionAlgebra.imJ h0
    · simpa [toQuat_toEigen] using congrArg QuaternionAlgebra.imK h0
    · simpa [toQuat_toEigen] using congrArg QuaternionAlgebra.re h0
  obtain ⟨q, c, h1, h2, h3, h4⟩ := normalize_spec r.toEigen h0
  refine ⟨.ofEigen q, by rw [normalized, h1]; rfl, ⟨c, h2, h3⟩, h4, fun eps he => ?_⟩
  unfold isNormalized
  rw [norm_eq, quat_ofEigen, h4, Real.sqrt_one]
  simpa using he

/-- Transforms whose quaternion is not almost normalised violate an assertion everywhere. -/
theorem C68_unnormalised (a b : Transform)
    (h : 1e-5 ≤ |√(Quaternion.normSq (quat a.rotation.w a.rotation.x a.rotation.y a.rotation.z)) - 1|) :
    mul a b = .ub ∧ mul b a = .ub ∧ inverse a = .ub ∧
      (∀ eps, isNear a b eps = .ub) ∧ ∀ eps, isNear b a eps = .ub := by
  have hn : ¬ isNormalized a.rotation 1e-5 := by
    unfold isNormalized
    rw [norm_eq]
    exact not_lt.mpr h
  have ha : toEigenAffine3d a = .ub := by rw [toEigenAffine3d, if_neg hn]
  refine ⟨by rw [mul, if_neg hn], ?_, by rw [inverse, ha]; rfl, fun eps => ?_, fun eps => ?_⟩
  · rw [mul, if_neg hn]
    split <;> rfl
  · rw [isNear, ha]
    rfl
  · rw [isNear, ha]
    unfold toEigenAffine3d
    split <;> rfl

/-- Almost normalised is not enough for a sequence of products: the product of two accepted transforms
may be one that is not accepted. -/
theorem C68_drift : ∃ a c : Transform, mul a a = .ok c ∧ mul c a = .ub := by
  have hn : ∀ w : ℝ, 0 ≤ w → norm ⟨0, 0, 0, w⟩ = w := by
    intro w hw
    simp [norm, EQuat.dot, Quaternion.toEigen, Real.sqrt_mul_self hw]
  have h1 : isNormalized ⟨0, 0, 0, 1 + 9e-6⟩ 1e-5 := by
    unfold isNormalized
    rw [hn _ (by norm_num)]
    norm_num [abs_lt]
  refine ⟨⟨⟨0, 0, 0, 1 + 9e-6⟩, ⟨0, 0, 0⟩⟩,
    ⟨⟨0, 0, 0, (1 + 9e-6) * (1 + 9e-6)⟩, ⟨0, 0, 0⟩⟩, ?_, ?_⟩
  · rw [mul, if_pos h1, if_pos h1]
    simp [mulQuat, rotateVec, cross, Quaternion.ofEigen, Quaternion.toEigen, Vector3.ofEigen,
      Vector3.toEigen]
  · rw [mul, if_neg]
    unfold isNormalized
    rw [hn _ (by norm_num)]
    norm_num [abs_lt]

/-- Helper of the examples: a turn about x and a translation. Not in /repo: specification. -/
def sampleQi : Transform := ⟨⟨0.6, 0, 0, 0.8⟩, ⟨1, 2, 3⟩⟩

theorem sampleQi_motion :
    QiMotion sampleQi !![1, 0, 0; 0, 0.28, -0.96; 0, 0.96, 0.28] ![1, 2, 3] := by
  refine ⟨?_, rfl⟩
  rw [represents_iff]
  refine ⟨by norm_num [sampleQi], ?_⟩
  ext i j
  fin_cases i <;> fin_cases j <;> norm_num [sampleQi]

/-- C68_mul and C68_inverse apply to a turn that is not a symmetry: multiplying by the inverse gives the
identity motion. -/
example : ∃ b c, inverse sampleQi = .ok b ∧ mul sampleQi b = .ok c ∧ QiMotion c 1 0 := by
  obtain ⟨b, h1, h2⟩ := C68_inverse sampleQi_motion
  obtain ⟨c, h3, h4⟩ := C68_mul sampleQi_motion h2
  refine ⟨b, c, h1, h3, ?_⟩
  have hR := mul_eq_one_comm.mp (Represents.isRot sampleQi_motion.1).1
  rwa [Matrix.mulVec_neg, Matrix.mulVec_mulVec, hR, Matrix.one_mulVec, add_neg_cancel] at h4

/-- C68_isNear, C68_isNear_refl_symm: the sample is near the one with the opposite quaternion. -/
example : ∃ p, isNear sampleQi ⟨⟨-0.6, 0, 0, -0.8⟩, ⟨1, 2, 3⟩⟩ 0 = .ok p ∧ p := by
  have h : QiMotion ⟨⟨-0.6, 0, 0, -0.8⟩, ⟨1, 2, 3⟩⟩ !![1, 0, 0; 0, 0.28, -0.96; 0, 0.96, 0.28]
      ![1, 2, 3] := by
    have := Represents.neg sampleQi_motion.1
    refine ⟨?_, rfl⟩
    convert this using 1
    ext <;> norm_num [sampleQi]
  exact (C68_isNear_refl_symm sampleQi_motion h 0).1 rfl rfl

/-- C68_toALMath, C68_ofALMath, C68_roundtrip: the sample through the conversions. -/
example : ∃ b, qiTransformFromALMath (transformFromQiTransform sampleQi) = .ok b ∧
    (b = sampleQi ∨ b = ⟨⟨-0.6, -0, -0, -0.8⟩, ⟨1, 2, 3⟩⟩) := by
  obtain ⟨b, h1, h2, h3⟩ := C68_roundtrip sampleQi_motion
  refine ⟨b, h1, ?_⟩
  rcases h3 with h3 | h3
  · exact .inl (Transform.ext h3 h2)
  · exact .inr (Transform.ext h3 h2)

/-- C68_angleAxis and C68_normalized apply to an axis and a quaternion of norm 5. -/
example : (∃ q, makeQuaternionFromAngleAxis 1 ⟨3, 0, 4⟩ = .ok q) ∧
    ∃ q, normalized ⟨3, 0, 0, 4⟩ = .ok q ∧ isNormalized q 1e-9 := by
  obtain ⟨q, h, -⟩ := C68_angleAxis 1 ⟨3, 0, 4⟩ (by simp)
  obtain ⟨q', h', -, -, h''⟩ := C68_normalized ⟨3, 0, 0, 4⟩ (by simp)
  exact ⟨⟨q, h⟩, q', h', h'' _ (by norm_num)⟩

/-- C68_unnormalised applies to the zero quaternion. -/
example : inverse ⟨⟨0, 0, 0, 0⟩, ⟨1, 2, 3⟩⟩ = .ub :=
  (C68_unnormalised _ sampleQi (by
    have : quat 0 0 0 0 = 0 := by ext <;> rfl
    rw [this]
    norm_num)).2.2.1

end Qi

end AlMath
