import Verif.Lemmas.Rot

/-! Properties of Rodrigues' formula (the specification of "rotation by an angle
about a unit axis"). -/

namespace AlMath.Spec

open Matrix

/-- Coordinates of Rodrigues' formula. -/
theorem rodrigues_coord (x y z a : ℝ) :
    rodrigues ![x, y, z] a =
      !![1 - (1 - Real.cos a) * (y * y + z * z), -(Real.sin a) * z + (1 - Real.cos a) * (x * y),
          Real.sin a * y + (1 - Real.cos a) * (x * z);
         Real.sin a * z + (1 - Real.cos a) * (x * y), 1 - (1 - Real.cos a) * (x * x + z * z),
          -(Real.sin a) * x + (1 - Real.cos a) * (y * z);
         -(Real.sin a) * y + (1 - Real.cos a) * (x * z),
          Real.sin a * x + (1 - Real.cos a) * (y * z),
          1 - (1 - Real.cos a) * (x * x + y * y)] := by
  ext i j
  fin_cases i <;> fin_cases j <;>
    simp [rodrigues, skew, Matrix.mul_apply, Fin.sum_univ_three, Matrix.one_apply,
      -mul_eq_mul_left_iff] <;> ring

theorem vec3_eta (n : Vec3) : n = ![n 0, n 1, n 2] := by
  ext i; fin_cases i <;> rfl

theorem rodrigues_isRot {n : Vec3} (hn : lenSq n = 1) (a : ℝ) : IsRot (rodrigues n a) := by
  rw [vec3_eta n] at hn ⊢
  generalize n 0 = x at *
  generalize n 1 = y at *
  generalize n 2 = z at *
  have hn : x * x + y * y + z * z = 1 := by
    simpa [lenSq, dotProduct, Fin.sum_univ_three] using hn
  rw [rodrigues_coord, isRot_coord]
  have h := Real.sin_sq_add_cos_sq a
  set s := Real.sin a
  set c := Real.cos a
  have hz : z * z = 1 - x * x - y * y := by linarith
  have hs : s ^ 2 = 1 - c ^ 2 := by linarith
  refine ⟨⟨?_, ?_, ?_, ?_, ?_, ?_⟩, ?_⟩
  · linear_combination ((1 - c) ^ 2 * (y * y + z * z)) * hn + (y * y + z * z) * h
  · linear_combination ((1 - c) ^ 2 * (x * x + z * z)) * hn + (x * x + z * z) * h
  · linear_combination ((1 - c) ^ 2 * (x * x + y * y)) * hn + (x * x + y * y) * h
  · linear_combination (-(1 - c) ^ 2 * (x * y)) * hn - (x * y) * h
  · linear_combination (-(1 - c) ^ 2 * (x * z)) * hn - (x * z) * h
  · linear_combination (-(1 - c) ^ 2 * (y * z)) * hn - (y * z) * h
  · have h1 : (1 - (1 - c) * (y * y + z * z)) = c * (y * y + z * z) + x * x := by
      linear_combination (-1 : ℝ) * hn
    have h2 : (1 - (1 - c) * (x * x + z * z)) = c * (x * x + z * z) + y * y := by
      linear_combination (-1 : ℝ) * hn
    have h3 : (1 - (1 - c) * (x * x + y * y)) = c * (x * x + y * y) + z * z := by
      linear_combination (-1 : ℝ) * hn
    rw [h1, h2, h3]
    have : s * s = 1 - c * c := by linarith
    have hx4 : ∀ k : ℝ, k * (z * z) = k * (1 - x * x - y * y) := fun k => by rw [hz]
    ring_nf
    have e1 : s ^ 2 = 1 - c ^ 2 := hs
    have z2 : z ^ 2 = 1 - x ^ 2 - y ^ 2 := by linarith
    have z4 : z ^ 4 = (1 - x ^ 2 - y ^ 2) ^ 2 := by rw [← z2]; ring
    have z6 : z ^ 6 = (1 - x ^ 2 - y ^ 2) ^ 3 := by rw [← z2]; ring
    simp only [e1, z2, z4, z6]
    ring

theorem rodrigues_axis {n : Vec3} (a : ℝ) : rodrigues n a *ᵥ n = n := by
  rw [vec3_eta n, rodrigues_coord]
  ext i
  fin_cases i <;> simp [Matrix.mulVec, dotProduct, Fin.sum_univ_three] <;> ring

theorem rodrigues_zero (n : Vec3) : rodrigues n 0 = 1 := by
  simp [rodrigues]

theorem skew_cube {n : Vec3} (hn : lenSq n = 1) : skew n * (skew n * skew n) = -skew n := by
  rw [vec3_eta n] at hn ⊢
  have hn : n 0 * n 0 + n 1 * n 1 + n 2 * n 2 = 1 := by
    simpa [lenSq, dotProduct, Fin.sum_univ_three] using hn
  ext i j
  fin_cases i <;> fin_cases j <;>
    simp [skew, Matrix.mul_apply, Fin.sum_univ_three]
  · ring
  · linear_combination (n 2) * hn
  · linear_combination (-n 1) * hn
  · linear_combination (-n 2) * hn
  · ring
  · linear_combination (n 0) * hn
  · linear_combination (n 1) * hn
  · linear_combination (-n 0) * hn
  · ring

/-- Rotations about the same axis add their angles. -/
theorem rodrigues_add {n : Vec3} (hn : lenSq n = 1) (a b : ℝ) :
    rodrigues n a * rodrigues n b = rodrigues n (a + b) := by
  have h3 := skew_cube hn
  have h4 : (skew n * skew n) * (skew n * skew n) = -(skew n * skew n) := by
    rw [Matrix.mul_assoc, h3, Matrix.mul_neg]
  have h3' : (skew n * skew n) * skew n = -skew n := by rw [Matrix.mul_assoc, h3]
  unfold rodrigues
  simp only [Matrix.add_mul, Matrix.mul_add, Matrix.one_mul, Matrix.mul_one, Matrix.smul_mul,
    Matrix.mul_smul, h3, h3', h4, Real.sin_add, Real.cos_add, smul_neg, smul_smul]
  module

/-- The rotation by `-a` is the transpose. -/
theorem rodrigues_neg (n : Vec3) (a : ℝ) : rodrigues n (-a) = (rodrigues n a)ᵀ := by
  rw [vec3_eta n, rodrigues_coord, rodrigues_coord]
  ext i j
  fin_cases i <;> fin_cases j <;> simp

/-- The trace determines the cosine of the angle. -/
theorem rodrigues_trace {n : Vec3} (hn : lenSq n = 1) (a : ℝ) :
    (rodrigues n a).trace = 1 + 2 * Real.cos a := by
  rw [vec3_eta n] at hn ⊢
  have hn : n 0 * n 0 + n 1 * n 1 + n 2 * n 2 = 1 := by
    simpa [lenSq, dotProduct, Fin.sum_univ_three] using hn
  rw [rodrigues_coord]
  simp [Matrix.trace, Fin.sum_univ_three]
  linear_combination (-2 * (1 - Real.cos a)) * hn

end AlMath.Spec
