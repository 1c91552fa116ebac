import Verif.Props.C09
import Verif.Lemmas.Rodrigues
import Verif.Lemmas.QuatRot

/-!
C23: changeReference* rotate by the rotation part. C61: position6DFromTransformDiff.
C62: rotations from axes.
-/

namespace AlMath

open Spec Matrix

namespace Spec

/-- Linear part of a velocity. Not in /repo: specification. -/
def linVel (v : Velocity6D) : Vec3 := ![v.xd, v.yd, v.zd]

/-- Angular part of a velocity. Not in /repo: specification. -/
def angVelocity (v : Velocity6D) : Vec3 := ![v.wxd, v.wyd, v.wzd]

/-- Linear part of a 6D position. Not in /repo: specification. -/
def linPos (v : Position6D) : Vec3 := ![v.x, v.y, v.z]

/-- Angular part of a 6D position. Not in /repo: specification. -/
def angPos (v : Position6D) : Vec3 := ![v.wx, v.wy, v.wz]

end Spec

/-! ### C23 -/

/-- Each changeReference function is multiplication by the rotation part, each
Transpose variant by its transpose; translation of the frame plays no role. -/
theorem C23_rotates (h t : Transform) (p : Position3D) (v : Velocity6D) (q : Position6D) :
    (changeReferencePosition3D h p).vec = h.rotMat *ᵥ p.vec ∧
    (changeReferencePosition3DInPlace h p).vec = h.rotMat *ᵥ p.vec ∧
    linVel (changeReferenceVelocity6D h v) = h.rotMat *ᵥ linVel v ∧
    angVelocity (changeReferenceVelocity6D h v) = h.rotMat *ᵥ angVelocity v ∧
    linPos (changeReferencePosition6D h q) = h.rotMat *ᵥ linPos q ∧
    angPos (changeReferencePosition6D h q) = h.rotMat *ᵥ angPos q ∧
    (changeReferenceTransform h t).rotMat = h.rotMat * t.rotMat ∧
    (changeReferenceTransform h t).trans = h.rotMat *ᵥ t.trans := by
  refine ⟨?_, ?_, ?_, ?_, ?_, ?_, ?_, ?_⟩
  case refine_7 =>
    ext i j
    fin_cases i <;> fin_cases j <;>
      simp [changeReferenceTransform, Transform.rotMat, Matrix.mul_apply, Fin.sum_univ_three]
  all_goals
    ext i
    fin_cases i <;>
      simp [changeReferencePosition3D, changeReferencePosition3DInPlace, changeReferenceVelocity6D,
        changeReferencePosition6D, changeReferenceTransform, Transform.rotMat, Position3D.vec,
        linVel, angVelocity, linPos, angPos, Transform.trans, Matrix.mulVec, dotProduct,
        Fin.sum_univ_three] <;> ring

theorem C23_rotates_transpose (h t : Transform) (p : Position3D) (v : Velocity6D)
    (q : Position6D) :
    (changeReferenceTransposePosition3D h p).vec = h.rotMatᵀ *ᵥ p.vec ∧
    (changeReferenceTransposePosition3DInPlace h p).vec = h.rotMatᵀ *ᵥ p.vec ∧
    linVel (changeReferenceTransposeVelocity6D h v) = h.rotMatᵀ *ᵥ linVel v ∧
    angVelocity (changeReferenceTransposeVelocity6D h v) = h.rotMatᵀ *ᵥ angVelocity v ∧
    linPos (changeReferenceTransposePosition6D h q) = h.rotMatᵀ *ᵥ linPos q ∧
    angPos (changeReferenceTransposePosition6D h q) = h.rotMatᵀ *ᵥ angPos q ∧
    (changeReferenceTransposeTransform h t).rotMat = h.rotMatᵀ * t.rotMat ∧
    (changeReferenceTransposeTransform h t).trans = h.rotMatᵀ *ᵥ t.trans := by
  refine ⟨?_, ?_, ?_, ?_, ?_, ?_, ?_, ?_⟩
  case refine_7 =>
    ext i j
    fin_cases i <;> fin_cases j <;>
      simp [changeReferenceTransposeTransform, Transform.rotMat, Matrix.mul_apply,
        Fin.sum_univ_three]
  all_goals
    ext i
    fin_cases i <;>
      simp [changeReferenceTransposePosition3D, changeReferenceTransposePosition3DInPlace,
        changeReferenceTransposeVelocity6D,
        changeReferenceTransposePosition6D, changeReferenceTransposeTransform, Transform.rotMat,
        Position3D.vec, Matrix.vecHead, Matrix.vecTail,
        linVel, angVelocity, linPos, angPos, Transform.trans, Matrix.mulVec, dotProduct,
        Fin.sum_univ_three] <;> ring

/-- For rigid frames the Transpose variants undo, and are undone by, the direct
ones. -/
theorem C23_undo (h t : Transform) (hr : IsRigid h) (p : Position3D) (v : Velocity6D)
    (q : Position6D) :
    (changeReferenceTransposePosition3D h (changeReferencePosition3D h p) = p ∧
      changeReferencePosition3D h (changeReferenceTransposePosition3D h p) = p) ∧
    (changeReferenceTransposePosition3DInPlace h (changeReferencePosition3DInPlace h p) = p ∧
      changeReferencePosition3DInPlace h (changeReferenceTransposePosition3DInPlace h p) = p) ∧
    (changeReferenceTransposeVelocity6D h (changeReferenceVelocity6D h v) = v ∧
      changeReferenceVelocity6D h (changeReferenceTransposeVelocity6D h v) = v) ∧
    (changeReferenceTransposePosition6D h (changeReferencePosition6D h q) = q ∧
      changeReferencePosition6D h (changeReferenceTransposePosition6D h q) = q) ∧
    (changeReferenceTransposeTransform h (changeReferenceTransform h t) = t ∧
      changeReferenceTransform h (changeReferenceTransposeTransform h t) = t) := by
  have e := hr.eqs
  have c11 := e.c11
  have c22 := e.c22
  have c33 := e.c33
  have c12 := e.c12
  have c13 := e.c13
  have c23 := e.c23
  have r11 := e.r11
  have r22 := e.r22
  have r33 := e.r33
  have r12 := e.r12
  have r13 := e.r13
  have r23 := e.r23
  have k1 : ∀ x y z : ℝ,
      (h.r11 * (h.r11 * x + h.r12 * y + h.r13 * z) + h.r21 * (h.r21 * x + h.r22 * y + h.r23 * z)
        + h.r31 * (h.r31 * x + h.r32 * y + h.r33 * z) = x) ∧
      (h.r12 * (h.r11 * x + h.r12 * y + h.r13 * z) + h.r22 * (h.r21 * x + h.r22 * y + h.r23 * z)
        + h.r32 * (h.r31 * x + h.r32 * y + h.r33 * z) = y) ∧
      (h.r13 * (h.r11 * x + h.r12 * y + h.r13 * z) + h.r23 * (h.r21 * x + h.r22 * y + h.r23 * z)
        + h.r33 * (h.r31 * x + h.r32 * y + h.r33 * z) = z) := by
    intro x y z
    refine ⟨?_, ?_, ?_⟩
    · linear_combination x * c11 + y * c12 + z * c13
    · linear_combination x * c12 + y * c22 + z * c23
    · linear_combination x * c13 + y * c23 + z * c33
  have k2 : ∀ x y z : ℝ,
      (h.r11 * (h.r11 * x + h.r21 * y + h.r31 * z) + h.r12 * (h.r12 * x + h.r22 * y + h.r32 * z)
        + h.r13 * (h.r13 * x + h.r23 * y + h.r33 * z) = x) ∧
      (h.r21 * (h.r11 * x + h.r21 * y + h.r31 * z) + h.r22 * (h.r12 * x + h.r22 * y + h.r32 * z)
        + h.r23 * (h.r13 * x + h.r23 * y + h.r33 * z) = y) ∧
      (h.r31 * (h.r11 * x + h.r21 * y + h.r31 * z) + h.r32 * (h.r12 * x + h.r22 * y + h.r32 * z)
        + h.r33 * (h.r13 * x + h.r23 * y + h.r33 * z) = z) := by
    intro x y z
    refine ⟨?_, ?_, ?_⟩
    · linear_combination x * r11 + y * r12 + z * r13
    · linear_combination x * r12 + y * r22 + z * r23
    · linear_combination x * r13 + y * r23 + z * r33
  refine ⟨⟨?_, ?_⟩, ⟨?_, ?_⟩, ⟨?_, ?_⟩, ⟨?_, ?_⟩, ⟨?_, ?_⟩⟩ <;> ext <;>
    first
    | exact (k1 _ _ _).1
    | exact (k1 _ _ _).2.1
    | exact (k1 _ _ _).2.2
    | exact (k2 _ _ _).1
    | exact (k2 _ _ _).2.1
    | exact (k2 _ _ _).2.2

/-- Norms and dot products are preserved by both. -/
theorem C23_norm (h : Transform) (hr : IsRigid h) (p q : Position3D) (v : Velocity6D) :
    Position3D.dot (changeReferencePosition3D h p) (changeReferencePosition3D h q) =
      Position3D.dot p q ∧
    Position3D.norm (changeReferencePosition3D h p) = Position3D.norm p ∧
    Position3D.norm (changeReferenceTransposePosition3D h p) = Position3D.norm p ∧
    Velocity6D.norm (changeReferenceVelocity6D h v) = Velocity6D.norm v ∧
    Velocity6D.norm (changeReferenceTransposeVelocity6D h v) = Velocity6D.norm v := by
  have e := hr.eqs
  have c11 := e.c11
  have c22 := e.c22
  have c33 := e.c33
  have c12 := e.c12
  have c13 := e.c13
  have c23 := e.c23
  have r11 := e.r11
  have r22 := e.r22
  have r33 := e.r33
  have r12 := e.r12
  have r13 := e.r13
  have r23 := e.r23
  have d : ∀ p q, Position3D.dot (changeReferencePosition3D h p) (changeReferencePosition3D h q) =
      Position3D.dot p q := by
    intro p q
    simp only [Position3D.dot, changeReferencePosition3D]
    linear_combination (p.x * q.x) * c11 + (p.y * q.y) * c22 + (p.z * q.z) * c33 +
      (p.x * q.y + p.y * q.x) * c12 + (p.x * q.z + p.z * q.x) * c13 +
      (p.y * q.z + p.z * q.y) * c23
  have d' : ∀ p q, Position3D.dot (changeReferenceTransposePosition3D h p)
      (changeReferenceTransposePosition3D h q) = Position3D.dot p q := by
    intro p q
    simp only [Position3D.dot, changeReferenceTransposePosition3D]
    linear_combination (p.x * q.x) * r11 + (p.y * q.y) * r22 + (p.z * q.z) * r33 +
      (p.x * q.y + p.y * q.x) * r12 + (p.x * q.z + p.z * q.x) * r13 +
      (p.y * q.z + p.z * q.y) * r23
  refine ⟨d p q, ?_, ?_, ?_, ?_⟩
  · have := d p p
    simp only [Position3D.dot] at this
    simp only [Position3D.norm]
    rw [this]
  · have := d' p p
    simp only [Position3D.dot] at this
    simp only [Position3D.norm]
    rw [this]
  · have h1 := d ⟨v.xd, v.yd, v.zd⟩ ⟨v.xd, v.yd, v.zd⟩
    have h2 := d ⟨v.wxd, v.wyd, v.wzd⟩ ⟨v.wxd, v.wyd, v.wzd⟩
    simp only [Position3D.dot, changeReferencePosition3D] at h1 h2
    simp only [Velocity6D.norm, changeReferenceVelocity6D]
    congr 1
    linear_combination h1 + h2
  · have h1 := d' ⟨v.xd, v.yd, v.zd⟩ ⟨v.xd, v.yd, v.zd⟩
    have h2 := d' ⟨v.wxd, v.wyd, v.wzd⟩ ⟨v.wxd, v.wyd, v.wzd⟩
    simp only [Position3D.dot, changeReferenceTransposePosition3D] at h1 h2
    simp only [Velocity6D.norm, changeReferenceTransposeVelocity6D]
    congr 1
    linear_combination h1 + h2

/-- changeReferencePose2D by `θ` then `-θ` is the identity; it keeps the heading and
the distance to the origin; the in-place version agrees; angles add. -/
theorem C23_pose2d (a b : ℝ) (p : Pose2D) :
    Pose2D.changeReference (-a) (Pose2D.changeReference a p) = p ∧
    Pose2D.changeReference b (Pose2D.changeReference a p) = Pose2D.changeReference (a + b) p ∧
    Pose2D.changeReferenceInPlace a p = Pose2D.changeReference a p ∧
    (Pose2D.changeReference a p).theta = p.theta ∧
    Pose2D.norm (Pose2D.changeReference a p) = Pose2D.norm p := by
  have h := Real.sin_sq_add_cos_sq a
  refine ⟨?_, ?_, rfl, rfl, ?_⟩
  · ext
    · simp only [Pose2D.changeReference, Real.cos_neg, Real.sin_neg]
      linear_combination p.x * h
    · simp only [Pose2D.changeReference, Real.cos_neg, Real.sin_neg]
      linear_combination p.y * h
    · rfl
  · ext
    · simp only [Pose2D.changeReference, Real.cos_add, Real.sin_add]; ring
    · simp only [Pose2D.changeReference, Real.cos_add, Real.sin_add]; ring
    · rfl
  · simp only [Pose2D.norm, Pose2D.changeReference]
    congr 1
    linear_combination (p.x * p.x + p.y * p.y) * h

/-- With the same object as input and output the two-argument version is wrong
(the in-place version exists for that). -/
theorem C23_pose2d_alias : ∃ a p, Pose2D.changeReferenceAliased a p ≠ Pose2D.changeReference a p := by
  refine ⟨Real.pi / 2, ⟨1, 0, 0⟩, fun h => ?_⟩
  have := congrArg Pose2D.y h
  simp [Pose2D.changeReferenceAliased, Pose2D.changeReference] at this

/-! ### C61 -/

/-- Every rotation is a rotation by an angle in [0, π] about a unit axis. -/
theorem rot_axis_angle {R : Mat3} (hR : IsRot R) :
    ∃ n a, lenSq n = 1 ∧ 0 ≤ a ∧ a ≤ Real.pi ∧ R = rodrigues n a := by
  have hR' := hR
  rw [mat3_eta R] at hR'
  obtain ⟨w, x, y, z, hw, hn, h1, h2, h3, h4, h5, h6, h7, h8, h9⟩ := quat_of_rot hR'.eqs
  have hw1 : w ≤ 1 := by nlinarith [mul_self_nonneg x, mul_self_nonneg y, mul_self_nonneg z]
  by_cases h0 : x * x + y * y + z * z = 0
  · refine ⟨![1, 0, 0], 0, by simp [lenSq], le_refl _, Real.pi_pos.le, ?_⟩
    have hx : x = 0 := by nlinarith [mul_self_nonneg x, mul_self_nonneg y, mul_self_nonneg z]
    have hy : y = 0 := by nlinarith [mul_self_nonneg x, mul_self_nonneg y, mul_self_nonneg z]
    have hz : z = 0 := by nlinarith [mul_self_nonneg x, mul_self_nonneg y, mul_self_nonneg z]
    rw [rodrigues_zero, mat3_eta R, h1, h2, h3, h4, h5, h6, h7, h8, h9, hx, hy, hz]
    ext i j; fin_cases i <;> fin_cases j <;> simp
  · set m := √(x * x + y * y + z * z) with hm
    have hpos : 0 < x * x + y * y + z * z := lt_of_le_of_ne
      (by linarith [mul_self_nonneg x, mul_self_nonneg y, mul_self_nonneg z]) (Ne.symm h0)
    have hmpos : 0 < m := Real.sqrt_pos.2 hpos
    have hm2 : m ^ 2 = x * x + y * y + z * z := Real.sq_sqrt hpos.le
    have hsin : Real.sin (Real.arccos w) = m := by
      rw [Real.sin_arccos, hm]; congr 1; linarith
    have hcos : Real.cos (Real.arccos w) = w := Real.cos_arccos (by linarith) hw1
    refine ⟨![x / m, y / m, z / m], 2 * Real.arccos w, ?_, ?_, ?_, ?_⟩
    · simp only [lenSq, dotProduct, Fin.sum_univ_three]
      simp
      field_simp
      linarith
    · linarith [Real.arccos_nonneg w]
    · have := Real.arccos_le_pi_div_two.2 hw
      linarith
    · rw [rodrigues_coord, Real.sin_two_mul, Real.cos_two_mul, hsin, hcos]
      have e : 1 - (2 * w ^ 2 - 1) = 2 * m ^ 2 := by rw [hm2]; linarith
      rw [e, mat3_eta R, h1, h2, h3, h4, h5, h6, h7, h8, h9]
      ext i j
      fin_cases i <;> fin_cases j <;> simp <;> field_simp <;> ring

/-- Zero for equal rotations and positions; the linear part is the difference of
the translations; the angular part is `sin a` times the axis `n`, for the angle `a`
and unit axis `n` of the rotation that takes the current orientation to the target
(such `n`, `a` always exist). -/
theorem C61_diff (c t : Transform) (hc : IsRigid c) (ht : IsRigid t) :
    linPos (position6DFromTransformDiff c t) = t.trans - c.trans ∧
    (∃ n a, lenSq n = 1 ∧ 0 ≤ a ∧ a ≤ Real.pi ∧ t.rotMat = rodrigues n a * c.rotMat) ∧
    (∀ n a, t.rotMat = rodrigues n a * c.rotMat →
      angPos (position6DFromTransformDiff c t) = Real.sin a • n) := by
  refine ⟨?_, ?_, ?_⟩
  · ext i
    fin_cases i <;> simp [linPos, position6DFromTransformDiff, Transform.trans]
  · obtain ⟨n, a, hn, h0, hp, h⟩ := rot_axis_angle (ht.mul hc.transpose)
    refine ⟨n, a, hn, h0, hp, ?_⟩
    rw [← h, Matrix.mul_assoc, hc.1, Matrix.mul_one]
  · intro n a h
    have hM : t.rotMat * c.rotMatᵀ = rodrigues n a := by
      rw [h, Matrix.mul_assoc, mul_eq_one_comm.1 hc.1, Matrix.mul_one]
    have e : ∀ i j, (t.rotMat * c.rotMatᵀ) i j = rodrigues ![n 0, n 1, n 2] a i j := by
      intro i j; rw [hM, ← vec3_eta]
    rw [rodrigues_coord] at e
    have e01 := e 0 1
    have e10 := e 1 0
    have e02 := e 0 2
    have e20 := e 2 0
    have e12 := e 1 2
    have e21 := e 2 1
    simp [Matrix.mul_apply, Fin.sum_univ_three, Transform.rotMat] at e01 e10 e02 e20 e12 e21
    ext i
    fin_cases i <;> simp [angPos, position6DFromTransformDiff] <;> norm_num <;> linarith

/-- In particular: zero exactly when positions agree and the relative rotation is
the identity or a half turn; the norm of the angular part is the sine of the angle. -/
theorem C61_zero (c t : Transform) (hc : IsRigid c) (ht : IsRigid t) :
    position6DFromTransformDiff c c = Position6D.zero ∧
    (∀ n a, lenSq n = 1 → t.rotMat = rodrigues n a * c.rotMat →
      lenSq (angPos (position6DFromTransformDiff c t)) = Real.sin a ^ 2) ∧
    ∀ n a, lenSq n = 1 → t.rotMat = rodrigues n a * c.rotMat →
      (position6DFromTransformDiff c t = Position6D.zero ↔ t.trans = c.trans ∧ Real.sin a = 0) := by
  refine ⟨?_, ?_, ?_⟩
  · ext <;> simp [position6DFromTransformDiff, Position6D.zero] <;> ring_nf <;> simp
  · intro n a hn h
    rw [(C61_diff c t hc ht).2.2 n a h]
    unfold lenSq at hn ⊢
    rw [smul_dotProduct, dotProduct_smul, hn]
    simp; ring
  · intro n a hn h
    obtain ⟨h1, -, h3⟩ := C61_diff c t hc ht
    have h4 := h3 n a h
    constructor
    · intro e
      rw [e] at h1 h4
      have z1 : linPos Position6D.zero = 0 := by ext i; fin_cases i <;> rfl
      have z2 : angPos Position6D.zero = 0 := by ext i; fin_cases i <;> rfl
      refine ⟨(sub_eq_zero.1 (h1.symm.trans z1)), ?_⟩
      rcases smul_eq_zero.1 (h4.symm.trans z2) with h5 | h5
      · exact h5
      · rw [h5] at hn
        simp [lenSq] at hn
    · rintro ⟨e1, e2⟩
      rw [e1, sub_self] at h1
      rw [e2, zero_smul] at h4
      ext
      · exact congrFun h1 0
      · exact congrFun h1 1
      · exact congrFun h1 2
      · exact congrFun h4 0
      · exact congrFun h4 1
      · exact congrFun h4 2

/-! ### C62 -/

namespace Spec

/-- Unit, mutually orthogonal vectors. Not in /repo: specification. -/
def Orthonormal2 (u v : Vec3) : Prop := u ⬝ᵥ u = 1 ∧ v ⬝ᵥ v = 1 ∧ u ⬝ᵥ v = 0

end Spec

/-- rotationFromAxesXYZ is the matrix with the given columns; the two-axis versions
complete an orthonormal pair to the only proper rotation with these columns. -/
theorem C62_axes (u v w : Position3D) :
    ((rotationFromAxesXYZ u v w).mat.col 0 = u.vec ∧ (rotationFromAxesXYZ u v w).mat.col 1 = v.vec ∧
      (rotationFromAxesXYZ u v w).mat.col 2 = w.vec) ∧
    (Orthonormal2 u.vec v.vec →
      (IsRot (rotationFromAxesXY u v).mat ∧ (rotationFromAxesXY u v).mat.col 0 = u.vec ∧
        (rotationFromAxesXY u v).mat.col 1 = v.vec) ∧
      (IsRot (rotationFromAxesXZ u v).mat ∧ (rotationFromAxesXZ u v).mat.col 0 = u.vec ∧
        (rotationFromAxesXZ u v).mat.col 2 = v.vec) ∧
      (IsRot (rotationFromAxesYZ u v).mat ∧ (rotationFromAxesYZ u v).mat.col 1 = u.vec ∧
        (rotationFromAxesYZ u v).mat.col 2 = v.vec)) := by
  refine ⟨⟨?_, ?_, ?_⟩, fun h => ?_⟩
  · ext i; fin_cases i <;> rfl
  · ext i; fin_cases i <;> rfl
  · ext i; fin_cases i <;> rfl
  obtain ⟨h1, h2, h3⟩ := h
  simp [Position3D.vec, dotProduct, Fin.sum_univ_three] at h1 h2 h3
  obtain ⟨a, b, c⟩ := u
  obtain ⟨d, e, f⟩ := v
  simp only at h1 h2 h3
  have hcr : (b * f - c * e) ^ 2 + (c * d - a * f) ^ 2 + (a * e - b * d) ^ 2 = 1 := by
    have : (b * f - c * e) ^ 2 + (c * d - a * f) ^ 2 + (a * e - b * d) ^ 2 =
      (a * a + b * b + c * c) * (d * d + e * e + f * f) - (a * d + b * e + c * f) ^ 2 := by ring
    rw [this, h1, h2, h3]; norm_num
  refine ⟨⟨?_, ?_, ?_⟩, ⟨?_, ?_, ?_⟩, ⟨?_, ?_, ?_⟩⟩
  all_goals
    first
    | (ext i; fin_cases i <;> rfl)
    | (unfold Rotation.mat
       rw [isRot_coord]
       simp only [rotationFromAxesXY, rotationFromAxesXZ, rotationFromAxesYZ, rotationFromAxesXYZ,
         Position3D.cross]
       refine ⟨⟨?_, ?_, ?_, ?_, ?_, ?_⟩, ?_⟩ <;> linarith)

/-- Two proper rotations with two equal columns (in the same places) are equal. -/
theorem C62_unique (R S : Mat3) (hR : IsRot R) (hS : IsRot S) (i j : Fin 3) (hij : i ≠ j)
    (h1 : R.col i = S.col i) (h2 : R.col j = S.col j) : R = S := by
  have third : ∀ p q k : Fin 3, (∀ m, R m p = S m p) → (∀ m, R m q = S m q) →
      (∀ m, R m k = S m k) → (p = 0 ∧ q = 1 ∧ k = 2) → R = S := by
    rintro p q k hp hq hk ⟨rfl, rfl, rfl⟩
    ext m n
    fin_cases n
    · exact hp m
    · exact hq m
    · exact hk m
  have k1 : ∀ k, R k i = S k i := fun k => congrFun h1 k
  have k2 : ∀ k, R k j = S k j := fun k => congrFun h2 k
  have e : RotEqs (R 0 0) (R 0 1) (R 0 2) (R 1 0) (R 1 1) (R 1 2) (R 2 0) (R 2 1) (R 2 2) :=
    IsRot.eqs (by rw [← mat3_eta]; exact hR)
  have e' : RotEqs (S 0 0) (S 0 1) (S 0 2) (S 1 0) (S 1 1) (S 1 2) (S 2 0) (S 2 1) (S 2 2) :=
    IsRot.eqs (by rw [← mat3_eta]; exact hS)
  have c01 : (∀ k, R k 0 = S k 0) → (∀ k, R k 1 = S k 1) → R = S := by
    intro a b
    refine third 0 1 2 a b (fun m => ?_) ⟨rfl, rfl, rfl⟩
    fin_cases m
    · show R 0 2 = S 0 2
      rw [← e.kc, ← e'.kc]; simp only [a, b]
    · show R 1 2 = S 1 2
      rw [← e.kf, ← e'.kf]; simp only [a, b]
    · show R 2 2 = S 2 2
      rw [← e.ki, ← e'.ki]; simp only [a, b]
  have c02 : (∀ k, R k 0 = S k 0) → (∀ k, R k 2 = S k 2) → R = S := by
    intro a b
    refine third 0 1 2 a (fun m => ?_) b ⟨rfl, rfl, rfl⟩
    fin_cases m
    · show R 0 1 = S 0 1
      rw [← e.kb, ← e'.kb]; simp only [a, b]
    · show R 1 1 = S 1 1
      rw [← e.ke, ← e'.ke]; simp only [a, b]
    · show R 2 1 = S 2 1
      rw [← e.kh, ← e'.kh]; simp only [a, b]
  have c12 : (∀ k, R k 1 = S k 1) → (∀ k, R k 2 = S k 2) → R = S := by
    intro a b
    refine third 0 1 2 (fun m => ?_) a b ⟨rfl, rfl, rfl⟩
    fin_cases m
    · show R 0 0 = S 0 0
      rw [← e.ka, ← e'.ka]; simp only [a, b]
    · show R 1 0 = S 1 0
      rw [← e.kd, ← e'.kd]; simp only [a, b]
    · show R 2 0 = S 2 0
      rw [← e.kg, ← e'.kg]; simp only [a, b]
  fin_cases i <;> fin_cases j
  · exact absurd rfl hij
  · exact c01 k1 k2
  · exact c02 k1 k2
  · exact c01 k2 k1
  · exact absurd rfl hij
  · exact c12 k1 k2
  · exact c02 k2 k1
  · exact c12 k2 k1
  · exact absurd rfl hij

/-! ### The hypotheses can be met -/

example : IsRigid ⟨0, -1, 0, 3, 1, 0, 0, -2, 0, 0, 1, 5⟩ := exampleRigid

example : Orthonormal2 (⟨0, 3 / 5, 4 / 5⟩ : Position3D).vec (⟨1, 0, 0⟩ : Position3D).vec := by
  simp [Orthonormal2, Position3D.vec, dotProduct, Fin.sum_univ_three]; norm_num

end AlMath
