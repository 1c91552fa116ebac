import Verif.Spec.Matrix

/-! Coordinate form of `IsRot` and the polynomial identities of a rotation. -/

namespace AlMath.Spec

open Matrix

/-- Every polynomial identity between the entries of a proper rotation that the
proofs need. -/
structure RotEqs (a b c d e f g h i : ℝ) : Prop where
  c11 : a * a + d * d + g * g = 1
  c22 : b * b + e * e + h * h = 1
  c33 : c * c + f * f + i * i = 1
  c12 : a * b + d * e + g * h = 0
  c13 : a * c + d * f + g * i = 0
  c23 : b * c + e * f + h * i = 0
  r11 : a * a + b * b + c * c = 1
  r22 : d * d + e * e + f * f = 1
  r33 : g * g + h * h + i * i = 1
  r12 : a * d + b * e + c * f = 0
  r13 : a * g + b * h + c * i = 0
  r23 : d * g + e * h + f * i = 0
  ka : e * i - f * h = a
  kb : f * g - d * i = b
  kc : d * h - e * g = c
  kd : c * h - b * i = d
  ke : a * i - c * g = e
  kf : b * g - a * h = f
  kg : b * f - c * e = g
  kh : c * d - a * f = h
  ki : a * e - b * d = i
  det : a * e * i + b * f * g + c * d * h - a * f * h - b * d * i - c * e * g = 1

theorem isRot_coord {a b c d e f g h i : ℝ} :
    IsRot !![a, b, c; d, e, f; g, h, i] ↔
      (a * a + d * d + g * g = 1 ∧ b * b + e * e + h * h = 1 ∧ c * c + f * f + i * i = 1 ∧
       a * b + d * e + g * h = 0 ∧ a * c + d * f + g * i = 0 ∧ b * c + e * f + h * i = 0) ∧
      a * e * i + b * f * g + c * d * h - a * f * h - b * d * i - c * e * g = 1 := by
  unfold IsRot
  rw [Matrix.det_fin_three]
  constructor
  · rintro ⟨h1, h2⟩
    have key : ∀ p q : Fin 3, ((!![a, b, c; d, e, f; g, h, i])ᵀ *
        !![a, b, c; d, e, f; g, h, i]) p q = (1 : Mat3) p q := by
      intro p q; rw [h1]
    have k00 := key 0 0; have k11 := key 1 1; have k22 := key 2 2
    have k01 := key 0 1; have k02 := key 0 2; have k12 := key 1 2
    simp [Matrix.mul_apply, Fin.sum_univ_three] at k00 k11 k22 k01 k02 k12 h2
    refine ⟨⟨k00, k11, k22, k01, k02, k12⟩, ?_⟩
    linarith
  · rintro ⟨⟨h1, h2, h3, h4, h5, h6⟩, hd⟩
    refine ⟨?_, ?_⟩
    · ext p q
      fin_cases p <;> fin_cases q <;>
        simp [Matrix.mul_apply, Fin.sum_univ_three] <;> linarith
    · simp; linarith

theorem IsRot.eqs {a b c d e f g h i : ℝ} (hR : IsRot !![a, b, c; d, e, f; g, h, i]) :
    RotEqs a b c d e f g h i := by
  have hc := isRot_coord.1 hR
  obtain ⟨⟨c11, c22, c33, c12, c13, c23⟩, det⟩ := hc
  have hrow : !![a, b, c; d, e, f; g, h, i] * (!![a, b, c; d, e, f; g, h, i])ᵀ = 1 :=
    mul_eq_one_comm.1 hR.1
  have key : ∀ p q : Fin 3, (!![a, b, c; d, e, f; g, h, i] *
      (!![a, b, c; d, e, f; g, h, i])ᵀ) p q = (1 : Mat3) p q := by
    intro p q; rw [hrow]
  have r11 := key 0 0; have r22 := key 1 1; have r33 := key 2 2
  have r12 := key 0 1; have r13 := key 0 2; have r23 := key 1 2
  simp [Matrix.mul_apply, Fin.sum_univ_three] at r11 r22 r33 r12 r13 r23
  -- Mᵀ = M⁻¹ = adjugate
  have ka : e * i - f * h = a := by
    linear_combination a * det - (e * i - f * h) * c11 - (f * g - d * i) * c12
      - (d * h - e * g) * c13
  have kb : f * g - d * i = b := by
    linear_combination b * det - (e * i - f * h) * c12 - (f * g - d * i) * c22
      - (d * h - e * g) * c23
  have kc : d * h - e * g = c := by
    linear_combination c * det - (e * i - f * h) * c13 - (f * g - d * i) * c23
      - (d * h - e * g) * c33
  have kd : c * h - b * i = d := by
    linear_combination d * det - (c * h - b * i) * c11 - (a * i - c * g) * c12
      - (b * g - a * h) * c13
  have ke : a * i - c * g = e := by
    linear_combination e * det - (c * h - b * i) * c12 - (a * i - c * g) * c22
      - (b * g - a * h) * c23
  have kf : b * g - a * h = f := by
    linear_combination f * det - (c * h - b * i) * c13 - (a * i - c * g) * c23
      - (b * g - a * h) * c33
  have kg : b * f - c * e = g := by
    linear_combination g * det - (b * f - c * e) * c11 - (c * d - a * f) * c12
      - (a * e - b * d) * c13
  have kh : c * d - a * f = h := by
    linear_combination h * det - (b * f - c * e) * c12 - (c * d - a * f) * c22
      - (a * e - b * d) * c23
  have ki : a * e - b * d = i := by
    linear_combination i * det - (b * f - c * e) * c13 - (c * d - a * f) * c23
      - (a * e - b * d) * c33
  exact ⟨c11, c22, c33, c12, c13, c23, r11, r22, r33, r12, r13, r23,
    ka, kb, kc, kd, ke, kf, kg, kh, ki, det⟩

theorem IsRot.one : IsRot 1 := by simp [IsRot]

theorem IsRot.mul {A B : Mat3} (hA : IsRot A) (hB : IsRot B) : IsRot (A * B) := by
  refine ⟨?_, ?_⟩
  · rw [Matrix.transpose_mul, Matrix.mul_assoc, ← Matrix.mul_assoc Aᵀ, hA.1, Matrix.one_mul, hB.1]
  · rw [Matrix.det_mul, hA.2, hB.2, one_mul]

theorem IsRot.transpose {A : Mat3} (hA : IsRot A) : IsRot Aᵀ := by
  refine ⟨?_, ?_⟩
  · rw [Matrix.transpose_transpose]; exact mul_eq_one_comm.1 hA.1
  · rw [Matrix.det_transpose, hA.2]

theorem Rotation.eqs {r : Rotation} (h : IsRot r.mat) :
    RotEqs r.r11 r.r12 r.r13 r.r21 r.r22 r.r23 r.r31 r.r32 r.r33 := IsRot.eqs h

theorem IsRigid.eqs {t : Transform} (h : IsRigid t) :
    RotEqs t.r11 t.r12 t.r13 t.r21 t.r22 t.r23 t.r31 t.r32 t.r33 := IsRot.eqs h

theorem Rotation.mat_injective : Function.Injective Rotation.mat := by
  intro a b h
  have key : ∀ p q : Fin 3, a.mat p q = b.mat p q := by intro p q; rw [h]
  ext
  exacts [key 0 0, key 0 1, key 0 2, key 1 0, key 1 1, key 1 2, key 2 0, key 2 1, key 2 2]

end AlMath.Spec
