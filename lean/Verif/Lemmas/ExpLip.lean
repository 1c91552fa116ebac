import Verif.Props.C102
import Mathlib.Analysis.SpecialFunctions.Exponential
import Mathlib.Analysis.Calculus.MeanValue
import Mathlib.Analysis.Matrix.Normed

/-!
The exponential of a twist changes no faster than the twist.
-/

namespace AlMath

open Spec NormedSpace F32

theorem exp_path_gen {𝔸 : Type*} [NormedRing 𝔸] [NormedAlgebra ℝ 𝔸] [CompleteSpace 𝔸] (f : 𝔸 →L[ℝ] ℝ) (A B : 𝔸) (s : ℝ) :
    HasDerivAt (fun s : ℝ => f (exp (s • A) * exp ((1 - s) • B))) (f (exp (s • A) * (A - B) * exp ((1 - s) • B))) s := by
  have h1 := hasDerivAt_exp_smul_const (𝕂 := ℝ) A s
  have h0 : HasDerivAt (fun s : ℝ => 1 - s) (-1) s := by simpa using (hasDerivAt_id s).const_sub 1
  have h2 : HasDerivAt (fun s : ℝ => exp ((1 - s) • B)) ((-1 : ℝ) • (B * exp ((1 - s) • B))) s :=
    HasDerivAt.scomp s (hasDerivAt_exp_smul_const' (𝕂 := ℝ) B (1 - s)) h0
  have h4 := f.hasFDerivAt.comp_hasDerivAt s (h1.mul h2)
  refine HasDerivAt.congr_deriv h4 ?_
  congr 1
  rw [neg_smul, one_smul, mul_neg, ← sub_eq_add_neg, mul_sub, sub_mul, mul_assoc _ B]

open scoped Matrix.Norms.Operator in
theorem exp_path_deriv (A B : Matrix (Fin 4) (Fin 4) ℝ) (i q : Fin 4) (s : ℝ) :
    HasDerivAt (fun s : ℝ => (exp (s • A) * exp ((1 - s) • B)) i q) ((exp (s • A) * (A - B) * exp ((1 - s) • B)) i q) s :=
  exp_path_gen (Matrix.entryLinearMap ℝ ℝ i q).toContinuousLinearMap A B s

theorem dot_le_sqrt {a b c x y z : ℝ} (h : a ^ 2 + b ^ 2 + c ^ 2 = 1) : |a * x + b * y + c * z| ≤ √(x ^ 2 + y ^ 2 + z ^ 2) := by
  apply Real.abs_le_sqrt
  nlinarith [sq_nonneg (a * y - b * x), sq_nonneg (a * z - c * x), sq_nonneg (b * z - c * y)]

theorem cross_le_sqrt (a b c x y z : ℝ) : √((b * z - c * y) ^ 2 + (c * x - a * z) ^ 2 + (a * y - b * x) ^ 2) ≤
    √(a ^ 2 + b ^ 2 + c ^ 2) * √(x ^ 2 + y ^ 2 + z ^ 2) := by
  rw [← Real.sqrt_mul (by positivity)]
  apply Real.sqrt_le_sqrt
  nlinarith [sq_nonneg (a * x + b * y + c * z)]

theorem sqrt_add_le (a b c x y z : ℝ) : √((a + x) ^ 2 + (b + y) ^ 2 + (c + z) ^ 2) ≤
    √(a ^ 2 + b ^ 2 + c ^ 2) + √(x ^ 2 + y ^ 2 + z ^ 2) := by
  apply Real.sqrt_le_iff.2
  refine ⟨by positivity, ?_⟩
  have h1 : √(a ^ 2 + b ^ 2 + c ^ 2) ^ 2 = a ^ 2 + b ^ 2 + c ^ 2 := Real.sq_sqrt (by positivity)
  have h2 : √(x ^ 2 + y ^ 2 + z ^ 2) ^ 2 = x ^ 2 + y ^ 2 + z ^ 2 := Real.sq_sqrt (by positivity)
  have h3 : a * x + b * y + c * z ≤ √(a ^ 2 + b ^ 2 + c ^ 2) * √(x ^ 2 + y ^ 2 + z ^ 2) := by
    rw [← Real.sqrt_mul (by positivity)]
    apply Real.le_sqrt_of_sq_le
    nlinarith [sq_nonneg (a * y - b * x), sq_nonneg (a * z - c * x), sq_nonneg (b * z - c * y)]
  nlinarith

/-- The exponential of a twist is a rigid motion, and its translation is no longer than the linear velocity. -/
theorem exp_shape (m : Velocity6D) : ∃ T : Transform, exp (twist m) = T.mat ∧ IsRot T.rotMat ∧
    T.r14 ^ 2 + T.r24 ^ 2 + T.r34 ^ 2 ≤ m.xd ^ 2 + m.yd ^ 2 + m.zd ^ 2 := by
  have hr := exp_isRot m
  by_cases h : angSpeed m = 0
  · have e := exp_zero m h
    refine ⟨_, e, ?_, ?_⟩
    · convert hr using 1
      ext i j
      rw [Matrix.of_apply, e, mat_rot]
    · have hsq := angSpeed_sq m
      rw [h] at hsq
      have hx : m.wxd = 0 := by nlinarith [mul_self_nonneg m.wxd, mul_self_nonneg m.wyd, mul_self_nonneg m.wzd]
      have hy : m.wyd = 0 := by nlinarith [mul_self_nonneg m.wxd, mul_self_nonneg m.wyd, mul_self_nonneg m.wzd]
      have hz : m.wzd = 0 := by nlinarith [mul_self_nonneg m.wxd, mul_self_nonneg m.wyd, mul_self_nonneg m.wzd]
      simp [expMatrix, hx, hy, hz]
  · have e := exp_coef m h
    have hT := exp_trans_le m h
    refine ⟨_, e, ?_, ?_⟩
    · convert hr using 1
      ext i j
      rw [Matrix.of_apply, e, mat_rot]
    · rw [e] at hT
      exact hT

/-- Not in /repo: specification. Helper of the proofs: length of the difference of the angular velocities. -/
noncomputable def angDist (m w : Velocity6D) : ℝ := √((m.wxd - w.wxd) ^ 2 + (m.wyd - w.wyd) ^ 2 + (m.wzd - w.wzd) ^ 2)

/-- Not in /repo: specification. Helper of the proofs: length of the difference of the linear velocities. -/
noncomputable def linDist (m w : Velocity6D) : ℝ := √((m.xd - w.xd) ^ 2 + (m.yd - w.yd) ^ 2 + (m.zd - w.zd) ^ 2)

theorem path_shape (m : Velocity6D) (s : ℝ) : ∃ T : Transform, exp (s • twist m) = T.mat ∧ IsRot T.rotMat ∧
    T.r14 ^ 2 + T.r24 ^ 2 + T.r34 ^ 2 ≤ s ^ 2 * (m.xd ^ 2 + m.yd ^ 2 + m.zd ^ 2) := by
  obtain ⟨T, h1, h2, h3⟩ := exp_shape (Velocity6D.smul m s)
  refine ⟨T, by rw [← twist_smul, h1], h2, h3.trans (le_of_eq ?_)⟩
  simp only [Velocity6D.smul]
  ring

theorem row_unit {P : Matrix (Fin 3) (Fin 3) ℝ} (hP : IsRot P) (i : Fin 3) : P i 0 ^ 2 + P i 1 ^ 2 + P i 2 ^ 2 = 1 := by
  have h := congrFun (congrFun (show P * P.transpose = 1 from mul_eq_one_comm.1 hP.1) i) i
  rw [Matrix.mul_apply, Fin.sum_univ_three, Matrix.one_apply_eq] at h
  simp only [Matrix.transpose_apply] at h
  linarith

theorem col_unit {P : Matrix (Fin 3) (Fin 3) ℝ} (hP : IsRot P) (j : Fin 3) : P 0 j ^ 2 + P 1 j ^ 2 + P 2 j ^ 2 = 1 := by
  have h := congrFun (congrFun hP.1 j) j
  rw [Matrix.mul_apply, Fin.sum_univ_three, Matrix.one_apply_eq] at h
  simp only [Matrix.transpose_apply] at h
  linarith

theorem path_le (A B : Matrix (Fin 4) (Fin 4) ℝ) (i q : Fin 4) (C : ℝ)
    (h : ∀ s : ℝ, 0 ≤ s → s ≤ 1 → |(exp (s • A) * (A - B) * exp ((1 - s) • B)) i q| ≤ C) : |exp A i q - exp B i q| ≤ C := by
  have := Convex.norm_image_sub_le_of_norm_hasDerivWithin_le (𝕜 := ℝ) (s := Set.Icc 0 1) (C := C)
    (f := fun s : ℝ => (exp (s • A) * exp ((1 - s) • B)) i q)
    (fun s _ => (exp_path_deriv A B i q s).hasDerivWithinAt)
    (fun s hs => by rw [Real.norm_eq_abs]; exact h s hs.1 hs.2) (convex_Icc 0 1) (Set.left_mem_Icc.2 zero_le_one)
    (Set.right_mem_Icc.2 zero_le_one)
  simpa using this

/-- Rotation part. -/
theorem exp_lip_rot (m w : Velocity6D) (i j : Fin 3) :
    |exp (twist m) i.castSucc j.castSucc - exp (twist w) i.castSucc j.castSucc| ≤ angDist m w := by
  refine path_le _ _ _ _ _ fun s _ _ => ?_
  obtain ⟨T, e1, r1, -⟩ := path_shape m s
  obtain ⟨U, e2, r2, -⟩ := path_shape w (1 - s)
  rw [e1, e2]
  have hr := row_unit r1 i
  have hc := col_unit r2 j
  have e : (T.mat * (twist m - twist w) * U.mat) i.castSucc j.castSucc =
      T.rotMat i 0 * ((m.wyd - w.wyd) * U.rotMat 2 j - (m.wzd - w.wzd) * U.rotMat 1 j) +
      T.rotMat i 1 * ((m.wzd - w.wzd) * U.rotMat 0 j - (m.wxd - w.wxd) * U.rotMat 2 j) +
      T.rotMat i 2 * ((m.wxd - w.wxd) * U.rotMat 1 j - (m.wyd - w.wyd) * U.rotMat 0 j) := by
    fin_cases i <;> fin_cases j <;>
      simp [Matrix.mul_apply, Fin.sum_univ_succ, twist, Transform.mat, Transform.rotMat] <;> ring
  rw [e]
  refine (dot_le_sqrt hr).trans ((cross_le_sqrt _ _ _ _ _ _).trans ?_)
  rw [hc, Real.sqrt_one, mul_one]
  exact le_rfl

/-- Translation part. -/
theorem exp_lip_trans (m w : Velocity6D) (i : Fin 3) :
    |exp (twist m) i.castSucc 3 - exp (twist w) i.castSucc 3| ≤
      angDist m w * √(w.xd ^ 2 + w.yd ^ 2 + w.zd ^ 2) + linDist m w := by
  refine path_le _ _ _ _ _ fun s h0 h1 => ?_
  obtain ⟨T, e1, r1, -⟩ := path_shape m s
  obtain ⟨U, e2, r2, l2⟩ := path_shape w (1 - s)
  rw [e1, e2]
  have hr := row_unit r1 i
  have e : (T.mat * (twist m - twist w) * U.mat) i.castSucc 3 =
      T.rotMat i 0 * (((m.wyd - w.wyd) * U.r34 - (m.wzd - w.wzd) * U.r24) + (m.xd - w.xd)) +
      T.rotMat i 1 * (((m.wzd - w.wzd) * U.r14 - (m.wxd - w.wxd) * U.r34) + (m.yd - w.yd)) +
      T.rotMat i 2 * (((m.wxd - w.wxd) * U.r24 - (m.wyd - w.wyd) * U.r14) + (m.zd - w.zd)) := by
    fin_cases i <;>
      simp [Matrix.mul_apply, Fin.sum_univ_succ, twist, Transform.mat, Transform.rotMat] <;> ring
  rw [e]
  refine (dot_le_sqrt hr).trans ((sqrt_add_le _ _ _ _ _ _).trans (add_le_add ((cross_le_sqrt _ _ _ _ _ _).trans ?_) le_rfl))
  refine mul_le_mul le_rfl (Real.sqrt_le_sqrt (l2.trans ?_)) (Real.sqrt_nonneg _) (Real.sqrt_nonneg _)
  refine mul_le_of_le_one_left (by positivity) ?_
  nlinarith

end AlMath
