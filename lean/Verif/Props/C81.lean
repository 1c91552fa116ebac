import Verif.Props.C17

/-!
C81: matrix to quaternion, for matrices that are not exactly rotations.
-/

namespace AlMath

open Spec Matrix

/-- The last lines of quaternionFromTransform, for the vector it has computed. -/
theorem fromTransform_tail (t : Transform) : ∃ k : Position3D, Quat.fromTransform t =
    if √(k.x ^ 2 + k.y ^ 2 + k.z ^ 2) = 0 then .ok Quat.one
    else
      if 1 - (0.5 * √(if t.r11 + t.r22 + t.r33 + 1 < 0 then 0 else t.r11 + t.r22 + t.r33 + 1)) ^ 2 < 0
      then .ub
      else .ok ⟨0.5 * √(if t.r11 + t.r22 + t.r33 + 1 < 0 then 0 else t.r11 + t.r22 + t.r33 + 1),
        √(1 - (0.5 * √(if t.r11 + t.r22 + t.r33 + 1 < 0 then 0 else t.r11 + t.r22 + t.r33 + 1)) ^ 2) /
          √(k.x ^ 2 + k.y ^ 2 + k.z ^ 2) * k.x,
        √(1 - (0.5 * √(if t.r11 + t.r22 + t.r33 + 1 < 0 then 0 else t.r11 + t.r22 + t.r33 + 1)) ^ 2) /
          √(k.x ^ 2 + k.y ^ 2 + k.z ^ 2) * k.y,
        √(1 - (0.5 * √(if t.r11 + t.r22 + t.r33 + 1 < 0 then 0 else t.r11 + t.r22 + t.r33 + 1)) ^ 2) /
          √(k.x ^ 2 + k.y ^ 2 + k.z ^ 2) * k.z⟩ := ⟨_, rfl⟩

/-- The square root of the last lines is of a negative number exactly when the trace exceeds 3. -/
theorem fromTransform_dom (u : ℝ) :
    1 - (0.5 * √(if u + 1 < 0 then 0 else u + 1)) ^ 2 < 0 ↔ 3 < u := by
  rw [mul_pow, Real.sq_sqrt (by split_ifs <;> linarith)]
  split_ifs <;> constructor <;> intro h <;> linarith

/-- Whatever the matrix, when quaternionFromTransform returns numbers they form a unit quaternion
with non-negative scalar part. -/
theorem C81_unit (t : Transform) (q : Quat) (h : Quat.fromTransform t = .ok q) :
    IsUnitQuat q ∧ 0 ≤ q.w := by
  obtain ⟨k, e⟩ := fromTransform_tail t
  rw [e] at h
  split_ifs at h with h1 h2
  · cases h; simp [IsUnitQuat, Quat.one]
  all_goals
    cases h
    refine ⟨?_, by positivity⟩
    simp only [IsUnitQuat]
    set n := √(k.x ^ 2 + k.y ^ 2 + k.z ^ 2) with hn
    have hn2 : n ^ 2 = k.x ^ 2 + k.y ^ 2 + k.z ^ 2 := Real.sq_sqrt (by positivity)
    set w := 0.5 * √_ with hw
    have hs : √(1 - w ^ 2) ^ 2 = 1 - w ^ 2 := Real.sq_sqrt (by linarith)
    set s := √(1 - w ^ 2)
    have : s / n * k.x * (s / n * k.x) + s / n * k.y * (s / n * k.y) + s / n * k.z * (s / n * k.z) =
        s ^ 2 := by
      have : s / n * k.x * (s / n * k.x) + s / n * k.y * (s / n * k.y) + s / n * k.z * (s / n * k.z) =
        s ^ 2 * ((k.x ^ 2 + k.y ^ 2 + k.z ^ 2) / n ^ 2) := by field_simp
      rw [this, ← hn2, div_self (pow_ne_zero 2 h1), mul_one]
    linarith

/-- It does return numbers when the diagonal adds up to at most 3, as that of a rotation does.
When it adds up to more, all it can return without a NaN is the identity. -/
theorem C81_defined (t : Transform) :
    (t.r11 + t.r22 + t.r33 ≤ 3 → ∃ q, Quat.fromTransform t = .ok q) ∧
    (3 < t.r11 + t.r22 + t.r33 → Quat.fromTransform t = .ub ∨ Quat.fromTransform t = .ok Quat.one) := by
  obtain ⟨k, e⟩ := fromTransform_tail t
  rw [e]
  simp only [fromTransform_dom]
  constructor
  · intro h
    rw [if_neg (not_lt.2 h)]
    split_ifs <;> exact ⟨_, rfl⟩
  · intro h
    rw [if_pos h]
    split_ifs <;> simp

/-- isTransform, with its default tolerance, accepts matrices for which quaternionFromTransform
gives NaN: the identity scaled by `1 + d`, for any positive `d` up to a hundred-thousandth. -/
theorem C81_nan (d : ℝ) (h0 : 0 < d) (h1 : d ≤ 0.00001) (x y z : ℝ) :
    Transform.isTransform ⟨1 + d, 0, 0, x, 0, 1 + d, 0, y, 0, 0, 1 + d, z⟩ Transform.defaultEps ∧
      Quat.fromTransform ⟨1 + d, 0, 0, x, 0, 1 + d, 0, y, 0, 0, 1 + d, z⟩ = .ub := by
  constructor
  · simp only [Transform.isTransform, Transform.defaultEps, Transform.determinant, not_lt, gt_iff_lt,
      abs_le]
    have : d * d ≤ 0.00001 * 0.00001 := mul_self_le_mul_self h0.le h1
    have : d * d * d ≤ 0.00001 * 0.00001 * 0.00001 := mul_le_mul this h1 h0.le (by norm_num)
    have : 0 < d * d * d := by positivity
    refine ⟨⟨?_, ?_⟩, ⟨?_, ?_⟩, ⟨?_, ?_⟩, ⟨?_, ?_⟩, ⟨?_, ?_⟩, ⟨?_, ?_⟩, ⟨?_, ?_⟩⟩ <;>
      norm_num <;> nlinarith
  · simp only [Quat.fromTransform, Quat.fromTransformSelect]
    rw [if_neg, if_pos]
    · have := (fromTransform_dom (1 + d + (1 + d) + (1 + d))).2 (by linarith)
      exact this
    · intro h
      rw [Real.sqrt_eq_zero (by positivity)] at h
      simp at h
      exact h0.ne' (by linarith)

/-- The rotation of a small angle is lost: the matrix with sine `s` and with cosine rounded to 1,
which differs from the exact rotation by less than `s²`, gives the identity quaternion. -/
theorem C81_small_angle (s : ℝ) (hs : |s| ≤ 1) :
    IsRigid ⟨√(1 - s ^ 2), -s, 0, 0, s, √(1 - s ^ 2), 0, 0, 0, 0, 1, 0⟩ ∧ 1 - √(1 - s ^ 2) ≤ s ^ 2 ∧
      Quat.fromTransform ⟨1, -s, 0, 0, s, 1, 0, 0, 0, 0, 1, 0⟩ = .ok Quat.one := by
  have h2 : s ^ 2 ≤ 1 := by rw [← sq_abs]; nlinarith [abs_nonneg s]
  have hq : √(1 - s ^ 2) ^ 2 = 1 - s ^ 2 := Real.sq_sqrt (by linarith)
  have hq0 := Real.sqrt_nonneg (1 - s ^ 2)
  refine ⟨?_, ?_, ?_⟩
  · refine ⟨?_, ?_⟩
    · ext i j
      fin_cases i <;> fin_cases j <;>
        simp [Transform.rotMat, Matrix.mul_apply, Fin.sum_univ_three] <;> nlinarith
    · simp [Transform.rotMat, Matrix.det_fin_three]
      nlinarith
  · nlinarith
  · obtain ⟨k, e⟩ := fromTransform_tail ⟨1, -s, 0, 0, s, 1, 0, 0, 0, 0, 1, 0⟩
    rw [e]
    have h4 : √(1 + 1 + 1 + 1 : ℝ) = 2 := by
      rw [show (1 + 1 + 1 + 1 : ℝ) = 2 ^ 2 by norm_num, Real.sqrt_sq (by norm_num)]
    simp only
    rw [if_neg (by norm_num : ¬ (1 + 1 + 1 + 1 : ℝ) < 0), h4]
    norm_num [Quat.one]

/-- A scaled identity within the tolerance; a rotation of 3-4-5 sine whose cosine is dropped. -/
example : Quat.fromTransform ⟨1.00001, 0, 0, 1, 0, 1.00001, 0, 2, 0, 0, 1.00001, 3⟩ = .ub := by
  have := (C81_nan 0.00001 (by norm_num) le_rfl 1 2 3).2
  norm_num at this ⊢
  exact this

example : ∃ q, Quat.fromTransform ⟨0.8, -0.6, 0, 1, 0.6, 0.9, 0, 2, 0, 0, 1, 3⟩ = .ok q ∧
    IsUnitQuat q := by
  obtain ⟨q, h⟩ := (C81_defined ⟨0.8, -0.6, 0, 1, 0.6, 0.9, 0, 2, 0, 0, 1, 3⟩).1 (by norm_num)
  exact ⟨q, h, (C81_unit _ _ h).1⟩

example : Quat.fromTransform ⟨1, -0.6, 0, 0, 0.6, 1, 0, 0, 0, 0, 1, 0⟩ = .ok Quat.one :=
  (C81_small_angle 0.6 (by rw [abs_of_pos] <;> norm_num)).2.2

end AlMath
