import Verif.Model.UrdfPose
import Verif.Lemmas.Euler

/-!
C59: URDF poses compose like rigid transforms.
-/

namespace AlMath

open Matrix Urdf

namespace Spec

/-- Homogeneous matrix with the given rotation and translation parts. Not in /repo:
specification. -/
def homog (R : Mat3) (t : Vec3) : Mat4 :=
  !![R 0 0, R 0 1, R 0 2, t 0; R 1 0, R 1 1, R 1 2, t 1; R 2 0, R 2 1, R 2 2, t 2; 0, 0, 0, 1]

/-- The rotation of URDF roll, pitch and yaw angles: about the fixed axes x, then y, then z. Not
in /repo: specification. -/
noncomputable def rpyRot (a : Vec3) : Mat3 :=
  rodrigues ![0, 0, 1] (a 2) * rodrigues ![0, 1, 0] (a 1) * rodrigues ![1, 0, 0] (a 0)

/-- The homogeneous matrix of an URDF pose. Not in /repo: specification. -/
noncomputable def poseMat (p : UPose) : Mat4 := homog (rpyRot p.rpy) p.xyz

end Spec

open Spec

theorem rotX_eq (a : ℝ) : rotX a = rodrigues ![1, 0, 0] a := by
  ext i j
  fin_cases i <;> fin_cases j <;> simp [rotX, rodrigues, skew, Matrix.mul_apply, Fin.sum_univ_three]

theorem rotY_eq (a : ℝ) : rotY a = rodrigues ![0, 1, 0] a := by
  ext i j
  fin_cases i <;> fin_cases j <;> simp [rotY, rodrigues, skew, Matrix.mul_apply, Fin.sum_univ_three]

theorem rotZ_eq (a : ℝ) : rotZ a = rodrigues ![0, 0, 1] a := by
  ext i j
  fin_cases i <;> fin_cases j <;> simp [rotZ, rodrigues, skew, Matrix.mul_apply, Fin.sum_univ_three]

theorem quatFromRpy_eq (a : Vec3) : quatFromRpy a = rpyRot a := by
  rw [quatFromRpy, rpyRot, rotX_eq, rotY_eq, rotZ_eq]

theorem isRot_rotX (a : ℝ) : IsRot (rotX a) := by
  have h := Real.sin_sq_add_cos_sq a
  refine isRot_coord.2 ⟨⟨?_, ?_, ?_, ?_, ?_, ?_⟩, ?_⟩ <;> nlinarith

theorem isRot_rotY (a : ℝ) : IsRot (rotY a) := by
  have h := Real.sin_sq_add_cos_sq a
  refine isRot_coord.2 ⟨⟨?_, ?_, ?_, ?_, ?_, ?_⟩, ?_⟩ <;> nlinarith

theorem isRot_rotZ (a : ℝ) : IsRot (rotZ a) := by
  have h := Real.sin_sq_add_cos_sq a
  refine isRot_coord.2 ⟨⟨?_, ?_, ?_, ?_, ?_, ?_⟩, ?_⟩ <;> nlinarith

theorem isRot_rpy (a : Vec3) : IsRot (rpyRot a) := by
  rw [← quatFromRpy_eq]
  exact ((isRot_rotZ _).mul (isRot_rotY _)).mul (isRot_rotX _)

theorem isZero_iff (a : Vec3) : isZero a ↔ a = 0 := by
  constructor
  · rintro ⟨h0, h1, h2⟩
    ext i; fin_cases i <;> assumption
  · rintro rfl
    exact ⟨rfl, rfl, rfl⟩

theorem vec_zero : (![0, 0, 0] : Vec3) = 0 := by
  ext i; fin_cases i <;> rfl

theorem rpyRot_zero : rpyRot 0 = 1 := by
  simp [rpyRot, rodrigues]

/-! ### Euler angles -/

theorem euler_core {R : Mat3} (hR : IsRot R) {z y c1 s1 rho : ℝ} (hc : Real.cos z = c1)
    (hs : Real.sin z = s1) (ha : R 0 0 = rho * c1) (hd : R 1 0 = rho * s1)
    (hcy : Real.cos y = rho) (hsy : Real.sin y = -R 2 0) :
    R = rotZ z * rotY y *
      rotX (atan2 (s1 * R 0 2 - c1 * R 1 2) (c1 * R 1 1 - s1 * R 0 1)) := by
  have h1 : c1 * c1 + s1 * s1 = 1 := by
    rw [← hc, ← hs]; nlinarith [Real.sin_sq_add_cos_sq z]
  have hM : IsRot ((rotZ z)ᵀ * R) := (isRot_rotZ z).transpose.mul hR
  have key : (rotZ z)ᵀ * R =
      !![rho, c1 * R 0 1 + s1 * R 1 1, c1 * R 0 2 + s1 * R 1 2;
         0, c1 * R 1 1 - s1 * R 0 1, -(s1 * R 0 2 - c1 * R 1 2);
         R 2 0, R 2 1, R 2 2] := by
    ext i j
    fin_cases i <;> fin_cases j <;>
      simp [rotZ, Matrix.mul_apply, Fin.sum_univ_three, hc, hs, ha, hd] <;>
      first
      | (ring_nf; done)
      | linear_combination rho * h1
  rw [key] at hM
  set X := c1 * R 1 1 - s1 * R 0 1 with hX
  set S := s1 * R 0 2 - c1 * R 1 2 with hS
  have q := hM.eqs
  have hu : X * X + S * S = 1 := by linarith [q.r22]
  obtain ⟨hcx, hsx⟩ := atan2_unit hu
  have e : rotY y * rotX (atan2 S X) = (rotZ z)ᵀ * R := by
    rw [key]
    ext i j
    fin_cases i <;> fin_cases j <;>
      simp [rotX, rotY, Matrix.mul_apply, Fin.sum_univ_three, hcx, hsx, hcy, hsy]
    · linear_combination q.kb
    · linear_combination q.kc
    · linear_combination q.kh
    · linear_combination q.ki
  rw [Matrix.mul_assoc, e, ← Matrix.mul_assoc, mul_eq_one_comm.1 (isRot_rotZ z).1, Matrix.one_mul]

/-- The contract of `eulerAngles(2, 1, 0)`: the angles found give back the rotation. -/
theorem rpyRot_rpyFromMatrix {R : Mat3} (hR : IsRot R) : rpyRot (rpyFromMatrix R) = R := by
  rw [← quatFromRpy_eq]
  have q : RotEqs (R 0 0) (R 0 1) (R 0 2) (R 1 0) (R 1 1) (R 1 2) (R 2 0) (R 2 1) (R 2 2) := by
    apply IsRot.eqs
    convert hR using 1
    ext i j; fin_cases i <;> fin_cases j <;> rfl
  have e1 : R 2 2 * R 2 2 + R 2 1 * R 2 1 = R 0 0 * R 0 0 + R 1 0 * R 1 0 := by
    linarith [q.r33, q.c11]
  set r := √(R 0 0 * R 0 0 + R 1 0 * R 1 0) with hr
  have hr2 : r * r = R 0 0 * R 0 0 + R 1 0 * R 1 0 :=
    Real.mul_self_sqrt (by nlinarith [mul_self_nonneg (R 0 0), mul_self_nonneg (R 1 0)])
  have hc := atan2_cos (R 1 0) (R 0 0)
  have hs := atan2_sin (R 1 0) (R 0 0)
  rw [← hr] at hc hs
  set z0 := atan2 (R 1 0) (R 0 0) with hz0
  unfold quatFromRpy rpyFromMatrix eulerAngles210
  simp only [Matrix.cons_val_zero, Matrix.cons_val_one, Matrix.cons_val_two, Matrix.head_cons,
    Matrix.tail_cons, e1, ← hr, ← hz0, Matrix.cons_val]
  by_cases hf : z0 < 0
  · simp only [if_pos hf]
    have hy : (-r) * (-r) + (-R 2 0) * (-R 2 0) = 1 := by linarith [q.c11]
    obtain ⟨h1, h2⟩ := atan2_unit hy
    refine (euler_core hR rfl rfl ?_ ?_ h1 h2).symm
    · rw [Real.cos_add_pi]; linarith
    · rw [Real.sin_add_pi]; linarith
  · simp only [if_neg hf]
    have hy : r * r + (-R 2 0) * (-R 2 0) = 1 := by linarith [q.c11]
    obtain ⟨h1, h2⟩ := atan2_unit hy
    exact (euler_core hR rfl rfl hc.symm hs.symm h1 h2).symm

/-! ### Homogeneous matrices -/

theorem homog_mul (A B : Mat3) (s t : Vec3) :
    homog A s * homog B t = homog (A * B) (A *ᵥ t + s) := by
  ext i j
  fin_cases i <;> fin_cases j <;>
    simp [homog, Matrix.mul_apply, Fin.sum_univ_four, Fin.sum_univ_three, Matrix.mulVec,
      dotProduct]

theorem homog_one : homog 1 0 = 1 := by
  ext i j
  fin_cases i <;> fin_cases j <;> simp [homog]

theorem homog_inj {A B : Mat3} {s t : Vec3} (h : homog A s = homog B t) : A = B ∧ s = t := by
  have key : ∀ i j : Fin 4, homog A s i j = homog B t i j := by intro i j; rw [h]
  refine ⟨?_, ?_⟩
  · ext i j
    fin_cases i <;> fin_cases j
    exacts [key 0 0, key 0 1, key 0 2, key 1 0, key 1 1, key 1 2, key 2 0, key 2 1, key 2 2]
  · ext i
    fin_cases i
    exacts [key 0 3, key 1 3, key 2 3]

theorem homog_cancel {R : Mat3} (hR : IsRot R) (t : Vec3) :
    homog Rᵀ (-(Rᵀ *ᵥ t)) * homog R t = 1 ∧ homog R t * homog Rᵀ (-(Rᵀ *ᵥ t)) = 1 := by
  have h : homog Rᵀ (-(Rᵀ *ᵥ t)) * homog R t = 1 := by
    rw [homog_mul, hR.1, add_neg_cancel, homog_one]
  exact ⟨h, mul_eq_one_comm.1 h⟩

theorem poseMat_zero : poseMat UPose.zero = 1 := by
  rw [poseMat, UPose.zero]
  simp only [vec_zero]
  rw [rpyRot_zero, homog_one]

/-! ### Theorems -/

/-- The matrix of a product of poses is the product of the matrices. -/
theorem C59_mul (p q : UPose) : poseMat (p.mul q) = poseMat p * poseMat q := by
  unfold poseMat
  rw [homog_mul, UPose.mul, quatFromRpy_eq]
  simp only
  rw [add_comm]
  congr 1
  rw [isZero_iff, isZero_iff]
  split_ifs with h1 h2
  · rw [h1, rpyRot_zero, Matrix.one_mul]
  · rw [h2, rpyRot_zero, Matrix.mul_one]
  · rw [rpyRot_rpyFromMatrix ((isRot_rpy _).mul (by rw [quatFromRpy_eq]; exact isRot_rpy _)),
      quatFromRpy_eq]

/-- The matrix of the inverse pose is the inverse matrix. -/
theorem C59_inverse (p : UPose) : poseMat p.inverse = (poseMat p)⁻¹ ∧
    poseMat p.inverse * poseMat p = 1 ∧ poseMat p * poseMat p.inverse = 1 := by
  have hR := isRot_rpy p.rpy
  have e : poseMat p.inverse = homog (rpyRot p.rpy)ᵀ (-((rpyRot p.rpy)ᵀ *ᵥ p.xyz)) := by
    unfold poseMat UPose.inverse
    rw [isZero_iff, isZero_iff]
    split_ifs with h1 h2
    · simp only [vec_zero]
      rw [h1, rpyRot_zero, Matrix.transpose_one, Matrix.one_mulVec]
      congr 1
      ext i; fin_cases i <;> rfl
    · simp only
      rw [rpyRot_rpyFromMatrix (by rw [quatFromRpy_eq]; exact hR.transpose), quatFromRpy_eq,
        vec_zero, h2, Matrix.mulVec_zero, neg_zero]
    · simp only
      rw [rpyRot_rpyFromMatrix (by rw [quatFromRpy_eq]; exact hR.transpose), quatFromRpy_eq]
  have h := homog_cancel hR p.xyz
  rw [← e] at h
  refine ⟨(Matrix.inv_eq_left_inv h.1).symm, h.1, h.2⟩

/-- `toEigenTransform` is the pose's matrix, and Eigen's product of transforms the product of
the matrices. -/
theorem C59_toEigen (p q : UPose) :
    homog (toEigenTransform p).linear (toEigenTransform p).translation = poseMat p ∧
    homog ((toEigenTransform p).mul (toEigenTransform q)).linear
      ((toEigenTransform p).mul (toEigenTransform q)).translation = poseMat p * poseMat q := by
  simp only [toEigenTransform, ETransform.mul, poseMat, quatFromRpy_eq, homog_mul, and_self]

/-- The angles extracted from a rotation matrix are those of that rotation. -/
theorem C59_rpy (R : Mat3) (hR : IsRot R) : rpyRot (rpyFromMatrix R) = R :=
  rpyRot_rpyFromMatrix hR

/-- Conversion to XML omits the element exactly for the zero pose, never writes malformed
attributes, and reading back gives the same pose. -/
theorem C59_xml (p : UPose) :
    (p.toPtree = none ↔ p = UPose.zero) ∧ UPose.fromPtree p.toPtree = .ok p ∧
    (p.isIdentity ↔ p = UPose.zero) := by
  have hz : isZero p.xyz ∧ isZero p.rpy ↔ p = UPose.zero := by
    rw [isZero_iff, isZero_iff, UPose.ext_iff]
    simp only [UPose.zero, vec_zero]
  refine ⟨?_, ?_, hz⟩
  · unfold UPose.toPtree
    rw [← hz]
    split_ifs with h <;> simp [h]
  · unfold UPose.toPtree
    split_ifs with h h1 h2 h2
    · rw [hz.1 h]; rfl
    all_goals
      simp only [UPose.fromPtree, UPose.fromElem, getPoseChild, Res.bind_ok, vec_zero, Res.ok.injEq]
      try (ext : 1 <;> simp_all [isZero_iff])

/-- Reading an origin throws exactly when one of its attributes is malformed; a missing element
or attribute reads as zero. -/
theorem C59_read (o : Option OriginElem) :
    (UPose.fromPtree o = .throws ↔ ∃ e, o = some e ∧ (e.xyz = .bad ∨ e.rpy = .bad)) ∧
    UPose.fromPtree o ≠ .ub ∧ UPose.fromPtree none = .ok UPose.zero ∧
    (∀ a, UPose.fromPtree (some ⟨.val a, .absent⟩) = .ok ⟨a, 0⟩) ∧
    (∀ a, UPose.fromPtree (some ⟨.absent, .val a⟩) = .ok ⟨0, a⟩) := by
  refine ⟨?_, ?_, rfl, ?_, ?_⟩
  · cases o with
    | none => simp [UPose.fromPtree]
    | some e =>
      obtain ⟨x, r⟩ := e
      cases x <;> cases r <;> simp [UPose.fromPtree, UPose.fromElem, getPoseChild]
  · cases o with
    | none => simp [UPose.fromPtree]
    | some e =>
      obtain ⟨x, r⟩ := e
      cases x <;> cases r <;> simp [UPose.fromPtree, UPose.fromElem, getPoseChild]
  · intro a; simp [UPose.fromPtree, UPose.fromElem, getPoseChild, vec_zero]
  · intro a; simp [UPose.fromPtree, UPose.fromElem, getPoseChild, vec_zero]

/-- A full turn is written although it stands for the identity: the test is on the numbers, not
on the transform. -/
theorem C59_full_turn_written :
    poseMat ⟨0, ![2 * Real.pi, 0, 0]⟩ = 1 ∧ UPose.toPtree ⟨0, ![2 * Real.pi, 0, 0]⟩ ≠ none := by
  refine ⟨?_, ?_⟩
  · rw [poseMat]
    have : rpyRot ![2 * Real.pi, 0, 0] = 1 := by
      simp [rpyRot, rodrigues]
    simp only [this, homog_one]
  · rw [Ne, (C59_xml _).1, UPose.ext_iff]
    intro h
    have := congrFun h.2 0
    simp [UPose.zero, Real.pi_ne_zero] at this

/-- The hypothesis of `C59_rpy` holds for a quarter turn about z. -/
example : IsRot !![0, -1, 0; 1, 0, 0; 0, 0, 1] := by
  refine isRot_coord.2 ⟨⟨?_, ?_, ?_, ?_, ?_, ?_⟩, ?_⟩ <;> norm_num

end AlMath
