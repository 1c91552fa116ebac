import Verif.Lemmas.Rot

/-! Facts about `atan2` and the Euler angle extraction. -/

namespace AlMath

open Spec

theorem atan2_cos (y x : ℝ) : √(x * x + y * y) * Real.cos (atan2 y x) = x := by
  have h := Complex.norm_mul_cos_arg (⟨x, y⟩ : ℂ)
  have hn : ‖(⟨x, y⟩ : ℂ)‖ = √(x * x + y * y) := by
    rw [Complex.norm_def, Complex.normSq_mk]
  rw [hn] at h; exact h

theorem atan2_sin (y x : ℝ) : √(x * x + y * y) * Real.sin (atan2 y x) = y := by
  have h := Complex.norm_mul_sin_arg (⟨x, y⟩ : ℂ)
  have hn : ‖(⟨x, y⟩ : ℂ)‖ = √(x * x + y * y) := by
    rw [Complex.norm_def, Complex.normSq_mk]
  rw [hn] at h; exact h

theorem atan2_unit {y x : ℝ} (h : x * x + y * y = 1) :
    Real.cos (atan2 y x) = x ∧ Real.sin (atan2 y x) = y := by
  have h1 := atan2_cos y x
  have h2 := atan2_sin y x
  rw [h, Real.sqrt_one, one_mul] at h1 h2
  exact ⟨h1, h2⟩

theorem atan2_mem (y x : ℝ) : -Real.pi < atan2 y x ∧ atan2 y x ≤ Real.pi :=
  Complex.arg_mem_Ioc _

theorem atan2_mem_right {y x : ℝ} (h : 0 ≤ x) :
    -(Real.pi / 2) ≤ atan2 y x ∧ atan2 y x ≤ Real.pi / 2 := by
  have := Complex.abs_arg_le_pi_div_two_iff (z := (⟨x, y⟩ : ℂ)).2 h
  exact abs_le.1 this

/-- `atan2 (r sin a) (r cos a) = a` for `r > 0` and `a` in `(-π, π]`. -/
theorem atan2_polar {r a : ℝ} (hr : 0 < r) (h1 : -Real.pi < a) (h2 : a ≤ Real.pi) :
    atan2 (r * Real.sin a) (r * Real.cos a) = a := by
  have := Complex.arg_mul_cos_add_sin_mul_I hr (θ := a) ⟨h1, h2⟩
  have h : (⟨r * Real.cos a, r * Real.sin a⟩ : ℂ) =
      (r : ℂ) * (Complex.cos a + Complex.sin a * Complex.I) := by
    apply Complex.ext <;> simp [← Complex.ofReal_cos, ← Complex.ofReal_sin]
  unfold atan2
  rw [h, this]

end AlMath
