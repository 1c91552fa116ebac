import Verif.Props.C59
import Verif.Model.Urdf

/-!
C50: merging inertials. The merge keeps mass and centre of mass; it keeps the rotational inertia
only for special relative orientations, since the inertia of the second body is rotated the wrong
way.
-/

namespace AlMath

open Matrix Urdf

namespace Spec

/-- Inertia of a unit point mass at `d` about the origin. Not in /repo: specification. -/
def pointInertia (d : Vec3) : Mat3 := (d ⬝ᵥ d) • 1 - Matrix.vecMulVec d d

/-- Rotational inertia about the point `o`, in world axes, of a body with mass `m`, centre of
mass at the origin of the frame `T` and inertia `I` about it in the axes of `T` (parallel axis
theorem). Not in /repo: specification. -/
noncomputable def inertiaAbout (m : ℝ) (T : ETransform) (I : Mat3) (o : Vec3) : Mat3 :=
  T.linear * I * T.linearᵀ + m • pointInertia (T.translation - o)

end Spec

open Spec

theorem pointInertia_conj {R : Mat3} (hR : IsRot R) (d : Vec3) :
    R * pointInertia (Rᵀ *ᵥ d) * Rᵀ = pointInertia d := by
  have h1 : R * Rᵀ = 1 := mul_eq_one_comm.1 hR.1
  have h2 : (Rᵀ *ᵥ d) ⬝ᵥ (Rᵀ *ᵥ d) = d ⬝ᵥ d := by
    rw [Matrix.dotProduct_mulVec, Matrix.vecMul_transpose, Matrix.mulVec_mulVec, h1,
      Matrix.one_mulVec]
  have h3 : R * Matrix.vecMulVec (Rᵀ *ᵥ d) (Rᵀ *ᵥ d) * Rᵀ = Matrix.vecMulVec d d := by
    rw [Matrix.mul_vecMulVec, Matrix.mulVec_mulVec, h1, Matrix.one_mulVec, Matrix.vecMulVec_mul,
      Matrix.vecMul_transpose, Matrix.mulVec_mulVec, h1, Matrix.one_mulVec]
  rw [pointInertia, h2, Matrix.mul_sub, Matrix.sub_mul, h3, Matrix.mul_smul, Matrix.mul_one,
    Matrix.smul_mul, h1]
  rfl

theorem addPoint_eq (m : ℝ) (p : Vec3) (o : Mat3) :
    addPointMassInertia m p o = o + m • pointInertia p := by
  ext i j
  fin_cases i <;> fin_cases j <;>
    simp [addPointMassInertia, pointInertia, Matrix.vecMulVec, dotProduct, Fin.sum_univ_three] <;>
    first
    | ring1
    | (left; ring1)

theorem parallel {a b : ℝ} {ca cb cc : Vec3} (h : (a + b) • cc = a • ca + b • cb) (o : Vec3) :
    a • pointInertia (cc - ca) + b • pointInertia (cc - cb) + (a + b) • pointInertia (cc - o) =
      a • pointInertia (ca - o) + b • pointInertia (cb - o) := by
  have e : ∀ i, (a + b) * cc i = a * ca i + b * cb i := fun i => congrFun h i
  have e0 := e 0; have e1 := e 1; have e2 := e 2
  ext i j
  fin_cases i <;> fin_cases j <;>
    simp [pointInertia, Matrix.vecMulVec, dotProduct, Fin.sum_univ_three]
  · linear_combination (-2) * (o 1 - cc 1) * e1 - 2 * (o 2 - cc 2) * e2
  · linear_combination (o 0 - cc 0) * e1 + (o 1 - cc 1) * e0
  · linear_combination (o 0 - cc 0) * e2 + (o 2 - cc 2) * e0
  · linear_combination (o 0 - cc 0) * e1 + (o 1 - cc 1) * e0
  · linear_combination (-2) * (o 0 - cc 0) * e0 - 2 * (o 2 - cc 2) * e2
  · linear_combination (o 1 - cc 1) * e2 + (o 2 - cc 2) * e1
  · linear_combination (o 0 - cc 0) * e2 + (o 2 - cc 2) * e0
  · linear_combination (o 1 - cc 1) * e2 + (o 2 - cc 2) * e1
  · linear_combination (-2) * (o 0 - cc 0) * e0 - 2 * (o 1 - cc 1) * e1

/-- `addPointMassInertia` adds the inertia of the point mass. -/
theorem C50_addPointMassInertia (m : ℝ) (p : Vec3) (o : Mat3) :
    addPointMassInertia m p o = o + m • pointInertia p := addPoint_eq m p o

/-- Merging fails exactly for a zero total mass; otherwise total mass and first moment of mass
are kept. -/
theorem C50_mass_and_moment (ma mb : ℝ) (A B : ETransform) (Ia Ib : Mat3) :
    (ma + mb = 0 → squashInertial ma A Ia mb B Ib = .ub) ∧
    (ma + mb ≠ 0 → ∃ mc C Ic, squashInertial ma A Ia mb B Ib = .ok (mc, C, Ic) ∧ mc = ma + mb ∧
      mc • C.translation = ma • A.translation + mb • B.translation ∧ C.linear = A.linear) := by
  refine ⟨fun h => by simp only [squashInertial, if_pos h], fun h => ?_⟩
  refine ⟨ma + mb, ⟨A.linear, (ma + mb)⁻¹ • (ma • A.translation + mb • B.translation)⟩, _,
    by simp only [squashInertial, if_neg h]; rfl, rfl, ?_, rfl⟩
  simp only
  rw [smul_smul, mul_inv_cancel₀ h, one_smul]

theorem squash_about {ma mb : ℝ} {A B : ETransform} {Ia Ib : Mat3} (hA : IsRot A.linear)
    {mc : ℝ} {C : ETransform} {Ic : Mat3}
    (h : squashInertial ma A Ia mb B Ib = .ok (mc, C, Ic)) (o : Vec3) :
    inertiaAbout mc C Ic o = inertiaAbout ma A Ia o + mb • pointInertia (B.translation - o) +
      A.linear * ((A.linearᵀ * B.linear)ᵀ * Ib * (A.linearᵀ * B.linear)) * A.linearᵀ := by
  have hm : ma + mb ≠ 0 := by
    intro h0
    rw [(C50_mass_and_moment ma mb A B Ia Ib).1 h0] at h
    cases h
  obtain ⟨mc', C', Ic', e, rfl, hmom, hlin⟩ := (C50_mass_and_moment ma mb A B Ia Ib).2 hm
  rw [e] at h
  simp only [Res.ok.injEq, Prod.mk.injEq] at h
  obtain ⟨rfl, rfl, rfl⟩ := h
  simp only [squashInertial, if_neg hm, Res.ok.injEq, Prod.mk.injEq] at e
  obtain ⟨-, hC, hI⟩ := e
  have hp := parallel hmom o
  have ht : (ma + mb)⁻¹ • (ma • A.translation + mb • B.translation) = C'.translation := by
    rw [← hC]
  rw [← hI, ht]
  simp only [addPoint_eq, inertiaAbout]
  rw [show (C'.linear) = A.linear from hlin]
  simp only [Matrix.mul_add, Matrix.add_mul, Matrix.mul_smul, Matrix.smul_mul,
    pointInertia_conj hA]
  rw [eq_sub_of_add_eq' hp]
  abel

/-- The rotational inertia about every point is kept exactly when the inertia of the second body
is the same rotated either way by the relative orientation. -/
theorem C50_inertia_iff (ma mb : ℝ) (A B : ETransform) (Ia Ib : Mat3) (hA : IsRot A.linear)
    (mc : ℝ) (C : ETransform) (Ic : Mat3)
    (h : squashInertial ma A Ia mb B Ib = .ok (mc, C, Ic)) :
    (∀ o, inertiaAbout mc C Ic o = inertiaAbout ma A Ia o + inertiaAbout mb B Ib o) ↔
      (A.linearᵀ * B.linear)ᵀ * Ib * (A.linearᵀ * B.linear) =
        (A.linearᵀ * B.linear) * Ib * (A.linearᵀ * B.linear)ᵀ := by
  have h1 : A.linear * A.linearᵀ = 1 := mul_eq_one_comm.1 hA.1
  have key : B.linear * Ib * B.linearᵀ = A.linear * ((A.linearᵀ * B.linear) * Ib *
      (A.linearᵀ * B.linear)ᵀ) * A.linearᵀ := by
    rw [Matrix.transpose_mul, Matrix.transpose_transpose]
    have : A.linear * (A.linearᵀ * B.linear * Ib * (B.linearᵀ * A.linear)) * A.linearᵀ =
        (A.linear * A.linearᵀ) * (B.linear * Ib * B.linearᵀ) * (A.linear * A.linearᵀ) := by
      simp only [Matrix.mul_assoc]
    rw [this, h1, Matrix.one_mul, Matrix.mul_one]
  have cancel : ∀ X Y : Mat3, A.linear * X * A.linearᵀ = A.linear * Y * A.linearᵀ → X = Y := by
    intro X Y e
    have e' := congrArg (fun M => A.linearᵀ * M * A.linear) e
    have : ∀ Z : Mat3, A.linearᵀ * (A.linear * Z * A.linearᵀ) * A.linear = Z := by
      intro Z
      have : A.linearᵀ * (A.linear * Z * A.linearᵀ) * A.linear =
          (A.linearᵀ * A.linear) * Z * (A.linearᵀ * A.linear) := by
        simp only [Matrix.mul_assoc]
      rw [this, hA.1, Matrix.one_mul, Matrix.mul_one]
    simpa only [this] using e'
  constructor
  · intro ho
    have e := ho 0
    rw [squash_about hA h] at e
    apply cancel
    rw [← key]
    have e2 : inertiaAbout ma A Ia 0 + inertiaAbout mb B Ib 0 = inertiaAbout ma A Ia 0 +
        mb • pointInertia (B.translation - 0) + B.linear * Ib * B.linearᵀ := by
      rw [inertiaAbout, inertiaAbout]; abel
    rw [e2] at e
    exact add_left_cancel e
  · intro hr o
    rw [squash_about hA h, hr, ← key, inertiaAbout, inertiaAbout]
    abel

/-- The inertia is kept when the two frames have the same orientation. Missing for the full
property: other orientations, for which it fails (`C50_orientation_wrong`). -/
theorem C50_same_orientation_partial (ma mb : ℝ) (A B : ETransform) (Ia Ib : Mat3)
    (hA : IsRot A.linear) (hAB : A.linear = B.linear) (hm : ma + mb ≠ 0) :
    ∃ mc C Ic, squashInertial ma A Ia mb B Ib = .ok (mc, C, Ic) ∧
      ∀ o, inertiaAbout mc C Ic o = inertiaAbout ma A Ia o + inertiaAbout mb B Ib o := by
  obtain ⟨mc, C, Ic, e, -⟩ := (C50_mass_and_moment ma mb A B Ia Ib).2 hm
  refine ⟨mc, C, Ic, e, (C50_inertia_iff ma mb A B Ia Ib hA mc C Ic e).2 ?_⟩
  rw [← hAB, hA.1]; simp

/-- Two unit masses at the same place, the second turned about z by the angle of cosine 3/5:
the inertia is not kept, about any point. -/
theorem C50_orientation_wrong :
    ∃ A B : ETransform, ∃ Ia Ib : Mat3, ∃ mc C Ic, IsRot A.linear ∧ IsRot B.linear ∧
      squashInertial 1 A Ia 1 B Ib = .ok (mc, C, Ic) ∧
      ∀ o, inertiaAbout mc C Ic o ≠ inertiaAbout 1 A Ia o + inertiaAbout 1 B Ib o := by
  set A : ETransform := ⟨1, 0⟩ with hA
  set B : ETransform := ⟨!![3/5, -4/5, 0; 4/5, 3/5, 0; 0, 0, 1], 0⟩ with hB
  set Ib : Mat3 := !![1, 0, 0; 0, 2, 0; 0, 0, 3] with hIb
  have rA : IsRot A.linear := IsRot.one
  have rB : IsRot B.linear := by
    refine isRot_coord.2 ⟨⟨?_, ?_, ?_, ?_, ?_, ?_⟩, ?_⟩ <;> norm_num
  obtain ⟨mc, C, Ic, e, -⟩ := (C50_mass_and_moment 1 1 A B 1 Ib).2 (by norm_num)
  refine ⟨A, B, 1, Ib, mc, C, Ic, rA, rB, e, ?_⟩
  intro o ho
  rw [squash_about rA e, inertiaAbout, inertiaAbout] at ho
  have h01 := congrFun (congrFun ho 0) 1
  simp [hA, hB, hIb, Matrix.mul_apply, Fin.sum_univ_three, Matrix.vecHead, Matrix.vecTail] at h01
  simp [Matrix.vecMul, dotProduct, Fin.sum_univ_three] at h01
  linarith

/-- `urdfInertialToEigen` returns the mass and the centre of mass; the inertia it returns is the
one in the link's axes exactly when rotating either way gives the same. -/
theorem C50_toEigen_iff (p : UPose) (i : InertialData) :
    (urdfInertialToEigen p i).1 = i.mass ∧ (urdfInertialToEigen p i).2.1 = p.xyz ∧
    ((urdfInertialToEigen p i).2.2 = rpyRot p.rpy * toEigenMatrix3 i * (rpyRot p.rpy)ᵀ ↔
      (rpyRot p.rpy)ᵀ * toEigenMatrix3 i * rpyRot p.rpy =
        rpyRot p.rpy * toEigenMatrix3 i * (rpyRot p.rpy)ᵀ) := by
  refine ⟨rfl, rfl, ?_⟩
  rw [urdfInertialToEigen, toEigenTransform, quatFromRpy_eq]

/-- A body turned by an eighth of a turn about z: the inertia returned by `urdfInertialToEigen`
is not the one in the link's axes. -/
theorem C50_toEigen_wrong :
    (urdfInertialToEigen ⟨0, ![0, 0, Real.pi / 4]⟩ ⟨1, 1, 0, 0, 2, 0, 3⟩).2.2 ≠
      rpyRot ![0, 0, Real.pi / 4] * toEigenMatrix3 ⟨1, 1, 0, 0, 2, 0, 3⟩ *
        (rpyRot ![0, 0, Real.pi / 4])ᵀ := by
  rw [Ne, (C50_toEigen_iff ⟨0, ![0, 0, Real.pi / 4]⟩ ⟨1, 1, 0, 0, 2, 0, 3⟩).2.2]
  intro h
  have h01 := congrFun (congrFun h 0) 1
  have e : rpyRot ![0, 0, Real.pi / 4] = rotZ (Real.pi / 4) := by
    rw [rpyRot, rotZ_eq]
    simp [rodrigues]
  simp only [e] at h01
  have h2 : √(2:ℝ) * √2 = 2 := by norm_num
  simp [rotZ, toEigenMatrix3, Matrix.mul_apply, Fin.sum_univ_three] at h01
  nlinarith

/-- The hypotheses of the theorems hold for two bodies in different places. -/
example : ∃ mc C Ic, squashInertial 1 ⟨1, ![0, 0, 0]⟩ 1 2 ⟨1, ![3, 0, 0]⟩ 1 = .ok (mc, C, Ic) ∧
    IsRot (1 : Mat3) := by
  obtain ⟨mc, C, Ic, e, -⟩ := (C50_mass_and_moment 1 2 ⟨1, ![0, 0, 0]⟩ ⟨1, ![3, 0, 0]⟩ 1 1).2
    (by norm_num)
  exact ⟨mc, C, Ic, e, IsRot.one⟩

/-! ### Merging into a massless link -/

theorem fromElem_some {x r : Attr} {p : UPose} (h : UPose.fromPtree (some ⟨x, r⟩) = .ok p) :
    getPoseChild x = .ok p.xyz ∧ getPoseChild r = .ok p.rpy := by
  simp only [UPose.fromPtree, UPose.fromElem, Res.bind_eq_ok, Res.ok.injEq] at h
  obtain ⟨a, ha, b, hb, rfl⟩ := h
  exact ⟨ha, hb⟩

theorem putXyz_pose {o : Option OriginElem} {p : UPose} (x : Vec3) (h : UPose.fromPtree o = .ok p) :
    UPose.fromPtree (putXyz x o) = .ok ⟨x, p.rpy⟩ := by
  cases o with
  | none =>
    simp only [UPose.fromPtree, Res.ok.injEq] at h
    subst h
    rfl
  | some e =>
    obtain ⟨a, b⟩ := e
    obtain ⟨-, h2⟩ := fromElem_some h
    simp only [putXyz, UPose.fromPtree, UPose.fromElem, h2, Res.bind_ok]
    rfl

theorem putRpy_pose {o : Option OriginElem} {p : UPose} (x : Vec3) (h : UPose.fromPtree o = .ok p) :
    UPose.fromPtree (putRpy x o) = .ok ⟨p.xyz, x⟩ := by
  cases o with
  | none =>
    simp only [UPose.fromPtree, Res.ok.injEq] at h
    subst h
    rfl
  | some e =>
    obtain ⟨a, b⟩ := e
    obtain ⟨h1, -⟩ := fromElem_some h
    simp only [putRpy, UPose.fromPtree, UPose.fromElem, h1, Res.bind_ok]
    rfl

/-- When the parent link has no inertial, the one of the child is moved to it with the same mass
and inertia. Its pose in the parent frame is right exactly when a zero new position or orientation
was already so in the child. -/
theorem C50_massless_iff (jo : Option OriginElem) (c : UInertial) (a b : UPose)
    (ha : UPose.fromPtree jo = .ok a) (hb : UPose.fromPtree c.origin = .ok b) :
    ∃ i p, mergeInertial jo c none = .ok i ∧ i.data = c.data ∧ UPose.fromPtree i.origin = .ok p ∧
      (poseMat p = poseMat a * poseMat b ↔
        (a.xyz + rpyRot a.rpy *ᵥ b.xyz = 0 → b.xyz = 0) ∧
        (rpyRot a.rpy * rpyRot b.rpy = 1 → rpyRot b.rpy = 1)) := by
  classical
  have hmul : poseMat a * poseMat b =
      homog (rpyRot a.rpy * rpyRot b.rpy) (a.xyz + rpyRot a.rpy *ᵥ b.xyz) := by
    rw [poseMat, poseMat, homog_mul, add_comm]
  set x : Vec3 := a.xyz + rpyRot a.rpy *ᵥ b.xyz with hx
  set R : Mat3 := rpyRot a.rpy * rpyRot b.rpy with hR
  have hrot : IsRot R := (isRot_rpy _).mul (isRot_rpy _)
  have hT : (toEigenTransform a).mul (toEigenTransform b) = ⟨R, x⟩ := by
    simp only [toEigenTransform, ETransform.mul, quatFromRpy_eq, hR, hx, add_comm]
  have key : ∀ (p : UPose), (poseMat p = homog R x ↔ rpyRot p.rpy = R ∧ p.xyz = x) := by
    intro p
    constructor
    · intro h; exact homog_inj h
    · rintro ⟨h1, h2⟩; rw [poseMat, h1, h2]
  have hm : mergeInertial jo c none = .ok ⟨putPose ⟨R, x⟩ c.origin, c.data⟩ := by
    simp only [mergeInertial, ha, hb, Res.bind_ok, hT]
  by_cases h1 : x = 0
  · by_cases h2 : R = 1
    · refine ⟨_, b, hm, rfl, by simp [putPose, h1, h2, hb], ?_⟩
      rw [hmul, key]
      simp only [h1, h2, true_imp_iff]
      tauto
    · refine ⟨_, ⟨b.xyz, rpyFromMatrix R⟩, hm, rfl, ?_, ?_⟩
      · simp only [putPose, h1, h2, ne_eq, not_true, not_false_iff, if_true, if_false]
        exact putRpy_pose _ hb
      · rw [hmul, key]
        simp only [h1, h2, rpyRot_rpyFromMatrix hrot, true_imp_iff, true_and, false_imp_iff, and_true]
  · by_cases h2 : R = 1
    · refine ⟨_, ⟨x, b.rpy⟩, hm, rfl, ?_, ?_⟩
      · simp only [putPose, h1, h2, ne_eq, not_true, not_false_iff, if_true, if_false]
        exact putXyz_pose _ hb
      · rw [hmul, key]
        simp only [h1, h2, true_imp_iff, and_true, false_imp_iff, true_and]
    · refine ⟨_, ⟨x, rpyFromMatrix R⟩, hm, rfl, ?_, ?_⟩
      · simp only [putPose, h1, h2, ne_eq, not_false_iff, if_true]
        exact putRpy_pose _ (putXyz_pose _ hb)
      · rw [hmul, key]
        simp only [h1, h2, rpyRot_rpyFromMatrix hrot, false_imp_iff, and_true]

/-- The new pose is wrong when the child inertial is brought exactly to the origin of the parent:
its old position is kept. -/
theorem C50_massless_wrong : ∃ (jo : Option OriginElem) (c : UInertial) (i : UInertial) (a b p : UPose),
    UPose.fromPtree jo = .ok a ∧ UPose.fromPtree c.origin = .ok b ∧
    mergeInertial jo c none = .ok i ∧ UPose.fromPtree i.origin = .ok p ∧
    poseMat a * poseMat b = 1 ∧ p.xyz = ![0, 0, 1] := by
  have ha : UPose.fromPtree (some ⟨.val ![0, 0, -1], .absent⟩) = .ok ⟨![0, 0, -1], ![0, 0, 0]⟩ := rfl
  have hb : UPose.fromPtree (some ⟨.val ![0, 0, 1], .absent⟩) = .ok ⟨![0, 0, 1], ![0, 0, 0]⟩ := rfl
  have hlin : rpyRot ![0, 0, 0] = 1 := by rw [vec_zero]; exact rpyRot_zero
  have hT : (toEigenTransform ⟨![0, 0, -1], ![0, 0, 0]⟩).mul (toEigenTransform ⟨![0, 0, 1], ![0, 0, 0]⟩) =
      ⟨1, 0⟩ := by
    simp only [toEigenTransform, ETransform.mul, quatFromRpy_eq, hlin, Matrix.one_mul, Matrix.one_mulVec,
      ETransform.mk.injEq, true_and]
    ext i; fin_cases i <;> simp
  refine ⟨_, ⟨some ⟨.val ![0, 0, 1], .absent⟩, ⟨1, 1, 0, 0, 1, 0, 1⟩⟩,
    ⟨some ⟨.val ![0, 0, 1], .absent⟩, ⟨1, 1, 0, 0, 1, 0, 1⟩⟩, _, _, _, ha, hb, ?_, hb, ?_, rfl⟩
  · simp only [mergeInertial, ha, hb, Res.bind_ok, hT, putPose]
    simp
  · rw [← (C59_toEigen _ _).2, hT]
    exact homog_one

end AlMath
