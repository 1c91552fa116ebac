import Verif.Model.FloatLog
import Verif.Lemmas.FloatExp
import Mathlib.Analysis.SpecialFunctions.Trigonometric.Bounds
import Mathlib.Analysis.SpecialFunctions.Complex.Arg
import Mathlib.Analysis.Calculus.MeanValue
import Mathlib.Analysis.Real.Pi.Bounds

/-!
Errors of the coefficients of `transformLogarithm`: what does not involve rounding.
-/

namespace AlMath.F32

/-! ### The coefficient of the square of the twist -/

/-- The exact coefficient, times the square of the angle. Helper of the proofs. Not in /repo: specification. -/
noncomputable def logL (x : ℝ) : ℝ := 1 - x * (1 + Real.cos x) / (2 * Real.sin x)

/-- Its derivative. Helper of the proofs. Not in /repo: specification. -/
noncomputable def logL' (x : ℝ) : ℝ := (1 + Real.cos x) * (x - Real.sin x) / (2 * Real.sin x ^ 2)

theorem logL_deriv {x : ℝ} (h : Real.sin x ≠ 0) : HasDerivAt logL (logL' x) x := by
  have h1 : HasDerivAt (fun x => x * (1 + Real.cos x)) (1 * (1 + Real.cos x) + x * (-Real.sin x)) x :=
    (hasDerivAt_id x).mul ((Real.hasDerivAt_cos x).const_add 1)
  have h2 : HasDerivAt (fun x => 2 * Real.sin x) (2 * Real.cos x) x := (Real.hasDerivAt_sin x).const_mul 2
  have h3 := (h1.div h2 (mul_ne_zero two_ne_zero h)).const_sub 1
  suffices e0 : logL' x = -(((1 * (1 + Real.cos x) + x * -Real.sin x) * (2 * Real.sin x) -
      x * (1 + Real.cos x) * (2 * Real.cos x)) / (2 * Real.sin x) ^ 2) by
    rw [e0]; exact h3
  unfold logL'
  have e := Real.sin_sq_add_cos_sq x
  generalize Real.sin x = s at *
  generalize Real.cos x = c at *
  field_simp
  linear_combination (-x) * e

theorem logL'_half {y : ℝ} (h : Real.sin y ≠ 0) (h2 : Real.cos y ≠ 0) :
    logL' (2 * y) = (y - Real.sin y * Real.cos y) / (2 * Real.sin y ^ 2) := by
  unfold logL'
  rw [Real.sin_two_mul, Real.cos_two_mul]
  generalize Real.sin y = s at *
  generalize Real.cos y = c at *
  field_simp
  ring

theorem sin_cos_le {y : ℝ} (h0 : 0 ≤ y) : Real.sin y * Real.cos y ≤ y := by
  have h1 := Real.sin_le (x := 2 * y) (by linarith)
  rw [Real.sin_two_mul] at h1
  linarith

theorem logL'_le {x : ℝ} (h0 : 0 < x) (h1 : x < Real.pi) : |logL' x| ≤ 2 := by
  obtain ⟨y, rfl⟩ : ∃ y, x = 2 * y := ⟨x / 2, by ring⟩
  have y0 : 0 < y := by linarith
  have y1 : y < Real.pi / 2 := by linarith
  have s0 := Real.sin_pos_of_pos_of_lt_pi y0 (by linarith [Real.pi_pos])
  have c0 := Real.cos_pos_of_mem_Ioo (x := y) ⟨by linarith, y1⟩
  have hsc := sin_cos_le y0.le
  rw [logL'_half s0.ne' c0.ne', abs_div, abs_of_nonneg (by linarith : 0 ≤ y - Real.sin y * Real.cos y),
    abs_of_pos (by positivity), div_le_iff₀ (by positivity)]
  have e := Real.sin_sq_add_cos_sq y
  rcases le_or_gt y 1 with h | h
  · have ht : y * Real.cos y ≤ Real.sin y := by
      have := Real.le_tan y0.le y1
      rwa [Real.tan_eq_sin_div_cos, le_div_iff₀ c0] at this
    have hc : 0.4 ≤ Real.cos y := by
      have := Real.cos_bound (x := y) (by rwa [abs_of_pos y0])
      rw [abs_of_pos y0] at this
      have k2 : y ^ 2 ≤ 1 := by nlinarith
      have k4 : y ^ 4 ≤ 1 := by nlinarith [sq_nonneg (y ^ 2)]
      have := (abs_le.1 this).1
      norm_num at this ⊢
      linarith
    have s1 := Real.sin_le_one y
    have k : (y - Real.sin y * Real.cos y) * Real.cos y ≤ Real.sin y * Real.sin y ^ 2 := by nlinarith
    nlinarith [mul_pos s0 s0]
  · have hp := Real.pi_lt_d2
    have hs : 0.63 ≤ Real.sin y := by
      have h2 := Real.mul_le_sin y0.le y1.le
      have : 0.63 ≤ 2 / Real.pi * y := by
        rw [div_mul_eq_mul_div, le_div_iff₀ Real.pi_pos]
        norm_num at *
        linarith
      linarith
    have := mul_pos s0 c0
    nlinarith

theorem logL_sub {x y : ℝ} (hx : 0 < x) (hx2 : x < Real.pi) (hy : 0 < y) (hy2 : y < Real.pi) :
    |logL x - logL y| ≤ 2 * |x - y| := by
  have hc : Convex ℝ (Set.Ioo 0 Real.pi) := convex_Ioo _ _
  exact hc.norm_image_sub_le_of_norm_hasDerivWithin_le (f := logL) (f' := logL')
    (fun t ht => (logL_deriv (Real.sin_pos_of_pos_of_lt_pi ht.1 ht.2).ne').hasDerivWithinAt)
    (fun t ht => logL'_le ht.1 ht.2) ⟨hy, hy2⟩ ⟨hx, hx2⟩

theorem logL_bounds {x : ℝ} (h0 : 0 < x) (h1 : x < Real.pi) : 0 ≤ logL x ∧ logL x ≤ 1 ∧ logL x ≤ x := by
  have s0 := Real.sin_pos_of_pos_of_lt_pi h0 h1
  have c1 := Real.neg_one_le_cos x
  have c2 := Real.cos_le_one x
  have k : 0 ≤ x * (1 + Real.cos x) / (2 * Real.sin x) := div_nonneg (mul_nonneg h0.le (by linarith)) (by positivity)
  have ub : logL x ≤ 1 := by unfold logL; linarith
  refine ⟨?_, ub, ?_⟩
  · have y1 : x / 2 < Real.pi / 2 := by linarith
    have c0 := Real.cos_pos_of_mem_Ioo (x := x / 2) ⟨by linarith, y1⟩
    have s1 := Real.sin_pos_of_pos_of_lt_pi (x := x / 2) (by linarith) (by linarith [Real.pi_pos])
    have ht := Real.le_tan (x := x / 2) (by linarith) y1
    rw [Real.tan_eq_sin_div_cos, le_div_iff₀ c0] at ht
    have e1 := Real.sin_two_mul (x / 2)
    have e2 := Real.cos_two_mul (x / 2)
    rw [mul_div_cancel₀ _ two_ne_zero] at e1 e2
    unfold logL
    rw [sub_nonneg, div_le_one (by positivity), e1, e2]
    nlinarith
  · rcases le_or_gt 1 x with h | h
    · linarith
    · unfold logL
      rw [sub_le_iff_le_add, ← sub_le_iff_le_add', le_div_iff₀ (by positivity)]
      have hc := Real.one_sub_sq_div_two_le_cos (x := x)
      have hs := Real.sin_le h0.le
      have hs2 : 0.6 * x ≤ Real.sin x := by
        have h2 := Real.mul_le_sin h0.le (by linarith [Real.pi_gt_three])
        have hp := Real.pi_lt_d2
        have : 0.6 * x ≤ 2 / Real.pi * x := by
          refine mul_le_mul_of_nonneg_right ?_ h0.le
          rw [le_div_iff₀ Real.pi_pos]
          norm_num at *
          linarith
        linarith
      nlinarith [mul_pos h0 h0, mul_pos (mul_pos h0 h0) h0]

/-! ### The angle -/

theorem arg_near {c s θ ρ : ℝ} (h0 : 0 < θ) (h1 : θ < Real.pi) (hs : 0 < s) (hρ : ρ ≤ 0.01)
    (h : (c - Real.cos θ) ^ 2 + (s - Real.sin θ) ^ 2 ≤ ρ ^ 2) (ρ0 : 0 ≤ ρ) :
    ∃ r φ, Complex.arg ⟨c, s⟩ = φ ∧ 0 < φ ∧ φ < Real.pi ∧ c = r * Real.cos φ ∧ s = r * Real.sin φ ∧ |r - 1| ≤ ρ ∧
      |φ - θ| ≤ 1.6 * ρ := by
  obtain ⟨z, hz⟩ : ∃ z : ℂ, z = ⟨c, s⟩ := ⟨_, rfl⟩
  have z0 : z ≠ 0 := by
    intro h; rw [h] at hz
    have := congrArg Complex.im hz
    simp only [Complex.zero_im] at this
    linarith
  have φ0 : 0 < Complex.arg z := by
    rcases (Complex.arg_nonneg_iff.2 (show 0 ≤ z.im by rw [hz]; exact hs.le)).eq_or_lt with h | h
    · rw [eq_comm, Complex.arg_eq_zero_iff] at h
      rw [hz] at h
      exact absurd h.2 hs.ne'
    · exact h
  have φ1 : Complex.arg z < Real.pi := by
    rcases (Complex.arg_le_pi z).eq_or_lt with h | h
    · rw [Complex.arg_eq_pi_iff, hz] at h
      exact absurd h.2 hs.ne'
    · exact h
  have hc : c = ‖z‖ * Real.cos (Complex.arg z) := by rw [Complex.norm_mul_cos_arg, hz]
  have hs' : s = ‖z‖ * Real.sin (Complex.arg z) := by rw [Complex.norm_mul_sin_arg, hz]
  have r0 : 0 < ‖z‖ := norm_pos_iff.2 z0
  refine ⟨‖z‖, Complex.arg z, by rw [hz], φ0, φ1, hc, hs', ?_, ?_⟩
  · generalize ‖z‖ = r at *
    generalize Complex.arg z = φ at *
    have e1 := Real.sin_sq_add_cos_sq θ
    have e2 := Real.sin_sq_add_cos_sq φ
    have k : (r - 1) ^ 2 ≤ ρ ^ 2 := by
      have e3 : (c - Real.cos θ) ^ 2 + (s - Real.sin θ) ^ 2 =
          r ^ 2 + 1 - 2 * r * (Real.cos φ * Real.cos θ + Real.sin φ * Real.sin θ) := by
        rw [hc, hs']
        linear_combination r ^ 2 * e2 + e1
      rw [← Real.cos_sub] at e3
      nlinarith [Real.cos_le_one (φ - θ)]
    exact abs_le_of_sq_le_sq k ρ0 |> fun h => by simpa using h
  · generalize ‖z‖ = r at *
    generalize Complex.arg z = φ at *
    have e1 := Real.sin_sq_add_cos_sq θ
    have e2 := Real.sin_sq_add_cos_sq φ
    have d : (r * Real.cos (φ - θ) - 1) ^ 2 + (r * Real.sin (φ - θ)) ^ 2 ≤ ρ ^ 2 := by
      have e4 := Real.sin_sq_add_cos_sq (φ - θ)
      have e3 : (c - Real.cos θ) ^ 2 + (s - Real.sin θ) ^ 2 =
          r ^ 2 + 1 - 2 * r * (Real.cos φ * Real.cos θ + Real.sin φ * Real.sin θ) := by
        rw [hc, hs']
        linear_combination r ^ 2 * e2 + e1
      rw [← Real.cos_sub] at e3
      nlinarith
    have a1 : |r * Real.cos (φ - θ) - 1| ≤ ρ := by
      refine abs_le_of_sq_le_sq ?_ ρ0
      nlinarith [sq_nonneg (r * Real.sin (φ - θ))]
    have a2 : |r * Real.sin (φ - θ)| ≤ ρ := by
      refine abs_le_of_sq_le_sq ?_ ρ0
      nlinarith [sq_nonneg (r * Real.cos (φ - θ) - 1)]
    have r1 : 1 - ρ ≤ r := by
      have := (abs_le.1 a1).1
      nlinarith [Real.cos_le_one (φ - θ)]
    have cp : 0 < Real.cos (φ - θ) := by
      have := (abs_le.1 a1).1
      have : 0 < r * Real.cos (φ - θ) := by linarith
      exact (mul_pos_iff_of_pos_left r0).1 this
    have hh : |φ - θ| ≤ Real.pi / 2 := by
      by_contra hcon
      push Not at hcon
      have hlt : |φ - θ| < Real.pi := by rw [abs_lt]; constructor <;> linarith
      have := Real.cos_neg_of_pi_div_two_lt_of_lt hcon (by linarith)
      rw [Real.cos_abs] at this
      linarith
    have m := Real.mul_abs_le_abs_sin hh
    rw [abs_mul, abs_of_pos r0] at a2
    have hp := Real.pi_lt_d2
    have hp0 := Real.pi_pos
    have b0 := abs_nonneg (φ - θ)
    have b1 := abs_nonneg (Real.sin (φ - θ))
    have m2 : 2 * |φ - θ| ≤ Real.pi * |Real.sin (φ - θ)| := by
      have := mul_le_mul_of_nonneg_left m hp0.le
      rwa [← mul_assoc, mul_div_cancel₀ _ hp0.ne'] at this
    nlinarith

end AlMath.F32
