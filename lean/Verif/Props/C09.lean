import Verif.Props.C04
import Verif.Props.C07
import Mathlib.LinearAlgebra.CrossProduct

/-!
C09: transforms form a group. C10: all inverse entry points agree.
C11: in-place and aliased forms agree. C12: rigid transforms are isometries.
-/

namespace AlMath

open Spec Matrix

theorem Transform.mat_injective {a b : Transform} (h : a.mat = b.mat) : a = b := by
  have key : ∀ i j, a.mat i j = b.mat i j := fun i j => by rw [h]
  ext
  · simpa [Transform.mat] using key 0 0
  · simpa [Transform.mat] using key 0 1
  · simpa [Transform.mat] using key 0 2
  · simpa [Transform.mat] using key 0 3
  · simpa [Transform.mat] using key 1 0
  · simpa [Transform.mat] using key 1 1
  · simpa [Transform.mat] using key 1 2
  · simpa [Transform.mat] using key 1 3
  · simpa [Transform.mat] using key 2 0
  · simpa [Transform.mat] using key 2 1
  · simpa [Transform.mat] using key 2 2
  · simpa [Transform.mat] using key 2 3

theorem Transform.rotMat_mul (a b : Transform) :
    (Transform.mul a b).rotMat = a.rotMat * b.rotMat := by
  ext i j
  fin_cases i <;> fin_cases j <;>
    simp [Transform.rotMat, Transform.mul, Matrix.mul_apply, Fin.sum_univ_three]

theorem Transform.rotMat_inverse (a : Transform) :
    (Transform.inverse a).rotMat = a.rotMatᵀ := by
  ext i j
  fin_cases i <;> fin_cases j <;>
    simp [Transform.rotMat, Transform.inverse, Transform.inverseOutBody]

/-- Composition is 4x4 matrix multiplication and the default transform is the
identity matrix. -/
theorem C09_mul_mat (a b : Transform) :
    (Transform.mul a b).mat = a.mat * b.mat ∧ Transform.one.mat = 1 := by
  constructor
  · ext i j
    fin_cases i <;> fin_cases j <;>
      simp [Transform.mat, Transform.mul, Matrix.mul_apply, Fin.sum_univ_four]
  · ext i j
    fin_cases i <;> fin_cases j <;> simp [Transform.mat, Transform.one]

theorem C09_assoc (a b c : Transform) :
    Transform.mul (Transform.mul a b) c = Transform.mul a (Transform.mul b c) := by
  apply Transform.mat_injective
  simp only [(C09_mul_mat _ _).1, Matrix.mul_assoc]

theorem C09_one (a : Transform) :
    Transform.mul Transform.one a = a ∧ Transform.mul a Transform.one = a := by
  constructor <;> apply Transform.mat_injective <;>
    simp [(C09_mul_mat _ _).1, (C09_mul_mat Transform.one Transform.one).2]

/-- Rigid transforms are closed under composition and inverse. -/
theorem C09_closed (a b : Transform) (ha : IsRigid a) :
    IsRigid Transform.one ∧ IsRigid (Transform.inverse a) ∧
    (IsRigid b → IsRigid (Transform.mul a b)) := by
  refine ⟨?_, ?_, fun hb => ?_⟩
  · unfold IsRigid Transform.rotMat Transform.one; rw [isRot_coord]; norm_num
  · unfold IsRigid; rw [Transform.rotMat_inverse]; exact ha.transpose
  · unfold IsRigid; rw [Transform.rotMat_mul]; exact ha.mul hb

/-- transformInverse is a two-sided inverse on rigid transforms, hence equals the
matrix inverse; and it is a right inverse only on matrices with orthonormal rows
(so the rigidity hypothesis is needed). -/
theorem C09_inverse (a : Transform) (ha : IsRigid a) :
    Transform.mul a (Transform.inverse a) = Transform.one ∧
    Transform.mul (Transform.inverse a) a = Transform.one ∧
    (Transform.inverse a).mat = a.mat⁻¹ := by
  have q := ha.eqs
  have h2 : Transform.mul (Transform.inverse a) a = Transform.one := by
    ext <;> simp [Transform.mul, Transform.inverse, Transform.inverseOutBody, Transform.one] <;>
      linarith [q.c11, q.c22, q.c33, q.c12, q.c13, q.c23]
  have h1 : Transform.mul a (Transform.inverse a) = Transform.one := by
    apply Transform.mat_injective
    rw [(C09_mul_mat _ _).1, (C09_mul_mat a a).2]
    apply mul_eq_one_comm.1
    rw [← (C09_mul_mat _ _).1, h2, (C09_mul_mat a a).2]
  refine ⟨h1, h2, ?_⟩
  symm
  apply Matrix.inv_eq_left_inv
  rw [← (C09_mul_mat _ _).1, h2, (C09_mul_mat a a).2]

theorem C09_inverse_needs_orthogonal (a : Transform)
    (h : Transform.mul (Transform.inverse a) a = Transform.one) :
    a.rotMatᵀ * a.rotMat = 1 := by
  rw [← Transform.rotMat_inverse, ← Transform.rotMat_mul, h]
  ext i j; fin_cases i <;> fin_cases j <;> simp [Transform.rotMat, Transform.one]

/-- inverse of a product, double inverse -/
theorem C09_inverse_mul (a b : Transform) (ha : IsRigid a) (hb : IsRigid b) :
    Transform.inverse (Transform.mul a b) =
      Transform.mul (Transform.inverse b) (Transform.inverse a) ∧
    Transform.inverse (Transform.inverse a) = a := by
  constructor
  · apply Transform.mat_injective
    rw [(C09_mul_mat _ _).1, (C09_inverse _ ((C09_closed a b ha).2.2 hb)).2.2,
      (C09_inverse a ha).2.2, (C09_inverse b hb).2.2, (C09_mul_mat _ _).1, Matrix.mul_inv_rev]
  · apply Transform.mat_injective
    have hi := (C09_closed a a ha).2.1
    rw [(C09_inverse _ hi).2.2]
    apply Matrix.inv_eq_left_inv
    rw [← (C09_mul_mat _ _).1, (C09_inverse a ha).1, (C09_mul_mat a a).2]

/-! ### C10 -/

/-- All inverse entry points return the same value, on every transform. -/
theorem C10_inverse_agree (t o : Transform) :
    Transform.inverseOutBody (fun _ => t) o = Transform.inverse t ∧
    Transform.invertInPlace t = Transform.inverse t ∧
    Transform.pinv t = Transform.inverse t := by
  refine ⟨?_, ?_, ?_⟩ <;> ext <;>
    simp [Transform.inverse, Transform.inverseOutBody, Transform.invertInPlace, Transform.pinv]

theorem Transform.mulAssign_eq (a b : Transform) :
    Transform.mulAssign a b = Transform.mul a b := by
  ext <;> simp only [Transform.mulAssign, Transform.mulAssignBody, Transform.mul]

/-- `T1 * transformDiff(T1, T2) = T2`, `transformDiff(T, T) = 1`, and transformDiff
is the composition of the inverse of the first with the second. -/
theorem C10_diff (a b : Transform) :
    Transform.diff a b = Transform.mul (Transform.inverse a) b ∧
    (IsRigid a → Transform.mul a (Transform.diff a b) = b ∧
      Transform.diff a a = Transform.one ∧
      ∀ x, Transform.mul a x = b → x = Transform.diff a b) := by
  have h0 : ∀ c, Transform.diff a c = Transform.mul (Transform.inverse a) c := by
    intro c
    rw [Transform.diff, Transform.mulAssign_eq, (C10_inverse_agree a a).2.1]
  refine ⟨h0 b, fun ha => ⟨?_, ?_, ?_⟩⟩
  · rw [h0, ← C09_assoc, (C09_inverse a ha).1, (C09_one b).1]
  · rw [h0, (C09_inverse a ha).2.1]
  · rintro x rfl
    rw [h0, ← C09_assoc, (C09_inverse a ha).2.1, (C09_one x).1]

/-! ### C11 -/

/-- `x *= y` agrees with `x * y`, distinct operands or `x *= x`, for the five types. -/
theorem C11_mulAssign :
    (∀ a b : Rotation, Rotation.mulAssign a b = Rotation.mul a b ∧
      (Rotation.mulAssign a b).mat = a.mat * b.mat ∧
      Rotation.mulAssignSelf a = Rotation.mul a a) ∧
    (∀ a b : Transform, Transform.mulAssign a b = Transform.mul a b ∧
      Transform.mulAssignSelf a = Transform.mul a a) ∧
    (∀ a b : Quat, Quat.mulAssign a b = Quat.mul a b ∧ Quat.mulAssignSelf a = Quat.mul a a) ∧
    (∀ a b : Pose2D, Pose2D.mulAssign a b = Pose2D.mul a b ∧
      Pose2D.mulAssignSelf a = Pose2D.mul a a) ∧
    (∀ a b : Displacement, Displacement.mulAssign a b = Displacement.mul a b ∧
      Displacement.mulAssignSelf a = Displacement.mul a a) := by
  refine ⟨fun a b => ⟨rfl, mat_mul a b, rfl⟩, fun a b => ⟨Transform.mulAssign_eq a b, ?_⟩, fun a b => ⟨?_, ?_⟩,
    fun a b => ⟨(C04_inplace a b).1, (C04_inplace a b).2.1⟩, fun a b => ⟨rfl, ?_⟩⟩
  · exact Transform.mulAssign_eq a a
  · ext <;> simp only [Quat.mulAssign, Quat.mulAssignBody, Quat.mul]
  · ext <;> simp only [Quat.mulAssignSelf, Quat.mulAssign, Quat.mulAssignBody, Quat.mul]
  · ext <;> simp [Displacement.mulAssignSelf, Displacement.mul, Displacement.mulAssign,
      Displacement.mulAssignBody]

/-- Two-argument output functions give the functional result on distinct objects,
whatever the previous content of the output. -/
theorem C11_output_functions (t o : Transform) (q q' : Quat) (p r res : Position3D) :
    Transform.inverseOutBody (fun _ => t) o = Transform.inverse t ∧
    Transform.preMultiply t o = Transform.mul t o ∧
    Quat.inverseOutBody (fun _ => q) q' = Quat.inverse q ∧
    crossProductOut (fun _ => p) (fun _ => r) res = Position3D.cross p r := by
  refine ⟨(C10_inverse_agree t o).1, ?_, ?_, ?_⟩
  · ext <;> simp only [Transform.preMultiply, Transform.preMultiplyBody, Transform.mul]
  · ext <;> simp [Quat.inverseOutBody, Quat.inverse]
  · ext <;> simp [crossProductOut, Position3D.cross]

/-- Aliased output functions: quaternionInverse is safe, but
`transformInverse(t, t)`, `transformPreMultiply(t, t)` and
`crossProduct(p, q, p)` are not: each has an input on which the aliased call
leaves something other than the functional result. -/
theorem C11_alias_hazards :
    (∀ q, Quat.inverseOutBody id q = Quat.inverse q) ∧
    (∃ t, IsRigid t ∧ Transform.inverseOutBody id t ≠ Transform.inverse t) ∧
    (∃ t, IsRigid t ∧ Transform.preMultiplyBody id t ≠ Transform.mul t t) ∧
    (∃ p q, crossProductOut id (fun _ => q) p ≠ Position3D.cross p q) := by
  refine ⟨fun q => ?_, ⟨⟨0, -1, 0, 0, 1, 0, 0, 0, 0, 0, 1, 0⟩, ?_, ?_⟩,
    ⟨⟨0, -1, 0, 0, 1, 0, 0, 0, 0, 0, 1, 0⟩, ?_, ?_⟩,
    ⟨⟨1, 0, 0⟩, ⟨0, 1, 1⟩, ?_⟩⟩
  · ext <;> simp [Quat.inverseOutBody, Quat.inverse]
  · unfold IsRigid Transform.rotMat; rw [isRot_coord]; norm_num
  · intro h
    have := congrArg Transform.r21 h
    norm_num [Transform.inverse, Transform.inverseOutBody] at this
  · unfold IsRigid Transform.rotMat; rw [isRot_coord]; norm_num
  · intro h
    have := congrArg Transform.r12 h
    norm_num [Transform.preMultiplyBody, Transform.mul] at this
  · intro h
    have := congrArg Position3D.y h
    have := congrArg Position3D.z h
    simp [crossProductOut, Position3D.cross] at *

/-! ### C12 -/

theorem act_vec (t : Transform) (p : Position3D) :
    (Transform.act t p).vec = t.rotMat *ᵥ p.vec + t.trans := by
  ext i
  fin_cases i <;> simp [Transform.act, Position3D.vec, Transform.rotMat, Transform.trans,
    Matrix.mulVec, dotProduct, Fin.sum_univ_three] <;> ring

theorem ract_vec (r : Rotation) (p : Position3D) :
    (Rotation.act r p).vec = r.mat *ᵥ p.vec := by
  ext i
  fin_cases i <;> simp [Rotation.act, Position3D.vec, Rotation.mat,
    Matrix.mulVec, dotProduct, Fin.sum_univ_three]

/-- Applying a transform is applying its homogeneous matrix; it is a group action. -/
theorem C12_action (a b : Transform) (p : Position3D) :
    (Transform.act a p).vec = a.rotMat *ᵥ p.vec + a.trans ∧
    Transform.act (Transform.mul a b) p = Transform.act a (Transform.act b p) ∧
    Transform.act Transform.one p = p ∧
    (IsRigid a → Transform.act (Transform.inverse a) (Transform.act a p) = p ∧
      Transform.act a (Transform.act (Transform.inverse a) p) = p) := by
  have hm : ∀ a b : Transform, Transform.act (Transform.mul a b) p =
      Transform.act a (Transform.act b p) := by
    intro a b
    ext <;> simp only [Transform.act, Transform.mul] <;> ring
  have h1 : Transform.act Transform.one p = p := by
    ext <;> simp [Transform.act, Transform.one]
  refine ⟨act_vec a p, hm a b, h1, fun ha => ⟨?_, ?_⟩⟩
  · rw [← hm, (C09_inverse a ha).2.1, h1]
  · rw [← hm, (C09_inverse a ha).1, h1]

theorem C12_rotation_action (a b : Rotation) (p : Position3D) :
    (Rotation.act a p).vec = a.mat *ᵥ p.vec ∧
    Rotation.act (Rotation.mul a b) p = Rotation.act a (Rotation.act b p) ∧
    Rotation.act Rotation.one p = p ∧
    Rotation.applyRotation a p = Rotation.act a p := by
  refine ⟨ract_vec a p, ?_, ?_, ?_⟩
  · ext <;> simp only [Rotation.act, Rotation.mul, Rotation.mulAssign, Rotation.mulAssignBody] <;>
      ring
  · ext <;> simp [Rotation.act, Rotation.one]
  · ext <;> simp [Rotation.act, Rotation.applyRotation] <;> ring

/-- A proper rotation matrix preserves dot products and commutes with cross products. -/
theorem IsRot.dot {R : Mat3} (h : IsRot R) (u v : Vec3) : (R *ᵥ u) ⬝ᵥ (R *ᵥ v) = u ⬝ᵥ v := by
  rw [Matrix.dotProduct_mulVec, ← Matrix.mulVec_transpose, Matrix.mulVec_mulVec, h.1,
    Matrix.one_mulVec]

theorem mat3_eta (R : Mat3) :
    R = !![R 0 0, R 0 1, R 0 2; R 1 0, R 1 1, R 1 2; R 2 0, R 2 1, R 2 2] := by
  ext i j; fin_cases i <;> fin_cases j <;> rfl

theorem IsRot.cross {R : Mat3} (h : IsRot R) (u v : Vec3) :
    crossProduct (R *ᵥ u) (R *ᵥ v) = R *ᵥ (crossProduct u v) := by
  have q : RotEqs (R 0 0) (R 0 1) (R 0 2) (R 1 0) (R 1 1) (R 1 2) (R 2 0) (R 2 1) (R 2 2) :=
    IsRot.eqs (by rw [← mat3_eta]; exact h)
  ext i
  fin_cases i <;> simp [cross_apply, Matrix.mulVec, dotProduct, Fin.sum_univ_three]
  · rw [← q.ka, ← q.kb, ← q.kc]; ring
  · rw [← q.kd, ← q.ke, ← q.kf]; ring
  · rw [← q.kg, ← q.kh, ← q.ki]; ring

/-- Rigid transforms preserve distances, and dot and cross products of difference
vectors. -/
theorem C12_isometry (t : Transform) (ht : IsRigid t) (p q r s : Position3D) :
    Position3D.distance (Transform.act t p) (Transform.act t q) = Position3D.distance p q ∧
    ((Transform.act t p).vec - (Transform.act t q).vec) ⬝ᵥ
      ((Transform.act t r).vec - (Transform.act t s).vec) =
      (p.vec - q.vec) ⬝ᵥ (r.vec - s.vec) ∧
    crossProduct ((Transform.act t p).vec - (Transform.act t q).vec)
      ((Transform.act t r).vec - (Transform.act t s).vec) =
      t.rotMat *ᵥ crossProduct (p.vec - q.vec) (r.vec - s.vec) := by
  have hd : ∀ p q : Position3D, (Transform.act t p).vec - (Transform.act t q).vec =
      t.rotMat *ᵥ (p.vec - q.vec) := by
    intro p q
    rw [act_vec, act_vec, Matrix.mulVec_sub]; abel
  have hdist : ∀ p q : Position3D, Position3D.distance p q =
      √((p.vec - q.vec) ⬝ᵥ (p.vec - q.vec)) := by
    intro p q
    simp [Position3D.distance, Position3D.distanceSquared, Position3D.vec, dotProduct,
      Fin.sum_univ_three]
  refine ⟨?_, ?_, ?_⟩
  · rw [hdist, hdist, hd, IsRot.dot ht]
  · rw [hd, hd, IsRot.dot ht]
  · rw [hd, hd, IsRot.cross ht]

/-- Rotations preserve norms, dot products and cross products of positions, in
terms of the library's own functions. -/
theorem C12_rotation_isometry (R : Rotation) (hR : IsRot R.mat) (p q : Position3D) :
    Position3D.norm (Rotation.act R p) = Position3D.norm p ∧
    Position3D.dot (Rotation.act R p) (Rotation.act R q) = Position3D.dot p q ∧
    Position3D.cross (Rotation.act R p) (Rotation.act R q) =
      Rotation.act R (Position3D.cross p q) := by
  have hv : ∀ p q : Position3D, Position3D.dot p q = p.vec ⬝ᵥ q.vec := by
    intro p q
    simp [Position3D.dot, Position3D.vec, dotProduct, Fin.sum_univ_three]
  have hn : ∀ p : Position3D, Position3D.norm p = √(p.vec ⬝ᵥ p.vec) := by
    intro p
    simp [Position3D.norm, Position3D.vec, dotProduct, Fin.sum_univ_three, pow_two]
  have hinj : ∀ p q : Position3D, p.vec = q.vec → p = q := by
    intro p q h
    have h0 := congrFun h 0; have h1 := congrFun h 1; have h2 := congrFun h 2
    simp [Position3D.vec] at h0 h1 h2
    ext <;> assumption
  have hc : ∀ p q : Position3D, (Position3D.cross p q).vec = crossProduct p.vec q.vec := by
    intro p q
    ext i; fin_cases i <;> simp [Position3D.cross, Position3D.vec, cross_apply]
  refine ⟨?_, ?_, ?_⟩
  · rw [hn, hn, ract_vec, IsRot.dot hR]
  · rw [hv, hv, ract_vec, ract_vec, IsRot.dot hR]
  · apply hinj; rw [hc, ract_vec, ract_vec, ract_vec, hc, IsRot.cross hR]

/-! ### Non-trivial instances -/

/-- a rigid transform that is neither the identity nor a pure translation -/
theorem exampleRigid : IsRigid ⟨0, -1, 0, 3, 1, 0, 0, -2, 0, 0, 1, 5⟩ := by
  unfold IsRigid Transform.rotMat; rw [isRot_coord]; norm_num

example : Transform.mul ⟨0, -1, 0, 3, 1, 0, 0, -2, 0, 0, 1, 5⟩
    (Transform.inverse ⟨0, -1, 0, 3, 1, 0, 0, -2, 0, 0, 1, 5⟩) = Transform.one :=
  (C09_inverse _ exampleRigid).1
example : IsRigid (Transform.mul ⟨0, -1, 0, 3, 1, 0, 0, -2, 0, 0, 1, 5⟩
    (Transform.fromRotX 0.3)) :=
  (C09_closed _ _ exampleRigid).2.2 ((C06_transform_rigid 0.3 0 0 0 0 0 0).1)

end AlMath
