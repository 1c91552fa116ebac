import Verif.Lemmas.ExpLip
import Verif.Model.FloatMean

/-!
C103: the exponential of the logarithm of a transform, and the mean of two transforms, in single precision.
-/

namespace AlMath.F32

open AlMath.Spec NormedSpace Spec Matrix

theorem sqrt_three_le {a b c q : ℝ} (ha : |a| ≤ q) (hb : |b| ≤ q) (hc : |c| ≤ q) : √(a ^ 2 + b ^ 2 + c ^ 2) ≤ 1.7321 * q := by
  have q0 := (abs_nonneg _).trans ha
  apply Real.sqrt_le_iff.2
  refine ⟨by positivity, ?_⟩
  have h1 : a ^ 2 ≤ q ^ 2 := sq_le_sq' (abs_le.1 ha).1 (abs_le.1 ha).2
  have h2 : b ^ 2 ≤ q ^ 2 := sq_le_sq' (abs_le.1 hb).1 (abs_le.1 hb).2
  have h3 : c ^ 2 ≤ q ^ 2 := sq_le_sq' (abs_le.1 hc).1 (abs_le.1 hc).2
  have h4 : (1.7321 * q) ^ 2 = 3.00017041 * q ^ 2 := by ring
  rw [h4]
  linarith [sq_nonneg q]

theorem angSpeed_eq (m : AlMath.Velocity6D) : angSpeed m = √(m.wxd ^ 2 + m.wyd ^ 2 + m.wzd ^ 2) := by
  rw [angSpeed, lenSq_angVel]
  simp only [pow_two]

theorem angSpeed_le_add (w m : AlMath.Velocity6D) : angSpeed w ≤ angSpeed m + angDist w m := by
  have := sqrt_add_le m.wxd m.wyd m.wzd (w.wxd - m.wxd) (w.wyd - m.wyd) (w.wzd - m.wzd)
  rw [add_sub_cancel, add_sub_cancel, add_sub_cancel] at this
  rw [angSpeed_eq, angSpeed_eq]
  exact this

theorem angDist_comm (w m : AlMath.Velocity6D) : angDist w m = angDist m w := by
  unfold angDist
  congr 1
  ring

/-- Not in /repo: specification. Helper of the proofs: length of the linear velocity. -/
noncomputable def linSpeed (m : AlMath.Velocity6D) : ℝ := √(m.xd ^ 2 + m.yd ^ 2 + m.zd ^ 2)

/-- Exponential in single precision of a velocity near another one. -/
theorem exp_near (l : Libm) (hl : l.Accurate) (pow3 : F32 → F64) (hp : Pow3Accurate pow3) (w m : AlMath.Velocity6D)
    {α β W : ℝ} (hα : angDist w m ≤ α) (hβ : linDist w m ≤ β) (h1 : angSpeed m ≤ 3.15) (h2 : α ≤ 1)
    (hx : |w.xd| ≤ W) (hy : |w.yd| ≤ W) (hz : |w.zd| ≤ W) (hW : W ≤ 2 ^ 60) :
    ∃ A v, velocityExponential l pow3 (ofVelocity w) = Transform.ofMat A v ∧
      (∀ i j : Fin 3, |A i j - exp (twist m) i.castSucc j.castSucc| ≤ α + 2 ^ (-17 : ℤ) * (5 / 4)) ∧
      (∀ i : Fin 3, |v i - exp (twist m) i.castSucc 3| ≤
        α * linSpeed m + β + (2 ^ (-16 : ℤ) + 2 ^ (-19 : ℤ) / angSpeed w) * W + 2 ^ (-70 : ℤ)) ∧
      (angSpeed w < 0.00099 → ∀ i : Fin 3, |v i - exp (twist m) i.castSucc 3| ≤
        α * linSpeed m + β + 2 ^ (-18 : ℤ) * W + 2 ^ (-70 : ℤ)) := by
  have s := angSpeed_le_add w m
  have s2 : angSpeed w ≤ 4.15 := by norm_num at h1 ⊢; linarith
  obtain ⟨A, v, e, k1, k2, k3⟩ := C101_exp l hl pow3 hp w W (s2.trans (by norm_num)) hx hy hz hW
  have t : ∀ i : Fin 3, |exp (twist w) i.castSucc 3 - exp (twist m) i.castSucc 3| ≤ α * linSpeed m + β := fun i =>
    (exp_lip_trans w m i).trans (add_le_add (mul_le_mul_of_nonneg_right hα (Real.sqrt_nonneg _)) hβ)
  refine ⟨A, v, e, fun i j => ?_, fun i => ?_, fun h i => ?_⟩
  · have := abs_sub_le (A i j) (exp (twist w) i.castSucc j.castSucc) (exp (twist m) i.castSucc j.castSucc)
    have r := (exp_lip_rot w m i j).trans hα
    have := k1 i j
    norm_num at *
    linarith
  · have := abs_sub_le (v i) (exp (twist w) i.castSucc 3) (exp (twist m) i.castSucc 3)
    have := t i
    have := k2 i
    linarith
  · have := abs_sub_le (v i) (exp (twist w) i.castSucc 3) (exp (twist m) i.castSucc 3)
    have := t i
    have := k3 h i
    linarith

theorem linSpeed_smul (m : AlMath.Velocity6D) {d : ℝ} (hd : 0 ≤ d) : linSpeed (AlMath.Velocity6D.smul m d) = d * linSpeed m := by
  unfold linSpeed
  simp only [AlMath.Velocity6D.smul]
  have : (m.xd * d) ^ 2 + (m.yd * d) ^ 2 + (m.zd * d) ^ 2 = d ^ 2 * (m.xd ^ 2 + m.yd ^ 2 + m.zd ^ 2) := by ring
  rw [this, Real.sqrt_mul (sq_nonneg d), Real.sqrt_sq hd]

theorem angSpeed_scale (m : AlMath.Velocity6D) {d : ℝ} (hd : 0 ≤ d) : angSpeed (AlMath.Velocity6D.smul m d) = d * angSpeed m := by
  rw [angSpeed_eq, angSpeed_eq]
  simp only [AlMath.Velocity6D.smul]
  have : (m.wxd * d) ^ 2 + (m.wyd * d) ^ 2 + (m.wzd * d) ^ 2 = d ^ 2 * (m.wxd ^ 2 + m.wyd ^ 2 + m.wzd ^ 2) := by ring
  rw [this, Real.sqrt_mul (sq_nonneg d), Real.sqrt_sq hd]

theorem le_linSpeed (m : AlMath.Velocity6D) : |m.xd| ≤ linSpeed m ∧ |m.yd| ≤ linSpeed m ∧ |m.zd| ≤ linSpeed m := by
  refine ⟨Real.abs_le_sqrt ?_, Real.abs_le_sqrt ?_, Real.abs_le_sqrt ?_⟩ <;>
    linarith [sq_nonneg m.xd, sq_nonneg m.yd, sq_nonneg m.zd]

/-- Exponential of a velocity near a multiple of another one, whose errors are in proportion. -/
theorem exp_scaled (l : Libm) (hl : l.Accurate) (pow3 : F32 → F64) (hp : Pow3Accurate pow3) (w m : AlMath.Velocity6D)
    {d θ p V β : ℝ} (hd : 0 ≤ d) (hd1 : d ≤ 1) (hθ : angSpeed m = θ) (θ0 : 0.0011 ≤ θ) (θ1 : θ ≤ 3.15)
    (p0 : 2 / 10 ^ 7 ≤ θ * p) (p1 : p ≤ 0.0073)
    (a1 : |w.wxd - m.wxd * d| ≤ d * (17 * (θ * p)) + 1 / 10 ^ 25) (a2 : |w.wyd - m.wyd * d| ≤ d * (17 * (θ * p)) + 1 / 10 ^ 25)
    (a3 : |w.wzd - m.wzd * d| ≤ d * (17 * (θ * p)) + 1 / 10 ^ 25)
    (b1 : |w.xd - m.xd * d| ≤ d * β + 1 / 10 ^ 25) (b2 : |w.yd - m.yd * d| ≤ d * β + 1 / 10 ^ 25)
    (b3 : |w.zd - m.zd * d| ≤ d * β + 1 / 10 ^ 25) (β0 : 0 ≤ β) (hV : linSpeed m ≤ V) (hVβ : V + β ≤ 2 ^ 59) :
    ∃ A v, velocityExponential l pow3 (ofVelocity w) = Transform.ofMat A v ∧
      (∀ i j : Fin 3, |A i j - exp (twist (AlMath.Velocity6D.smul m d)) i.castSucc j.castSucc| ≤
        29.5 * (θ * p) + 2 ^ (-17 : ℤ) * (5 / 4)) ∧
      (∀ i : Fin 3, |v i - exp (twist (AlMath.Velocity6D.smul m d)) i.castSucc 3| ≤
        29.5 * (θ * p) * V + 1.7321 * β + (2 ^ (-16 : ℤ) + 2 ^ (-18 : ℤ) / θ) * (V + β) + 2 ^ (-69 : ℤ)) := by
  have V0 : 0 ≤ V := (Real.sqrt_nonneg _).trans hV
  have hα : angDist w (AlMath.Velocity6D.smul m d) ≤ 1.7321 * (d * (17 * (θ * p)) + 1 / 10 ^ 25) := sqrt_three_le a1 a2 a3
  have hβ : linDist w (AlMath.Velocity6D.smul m d) ≤ 1.7321 * (d * β + 1 / 10 ^ 25) := sqrt_three_le b1 b2 b3
  have sm := angSpeed_scale m hd
  have lm := linSpeed_smul m hd
  rw [hθ] at sm
  have tri := angSpeed_le_add (AlMath.Velocity6D.smul m d) w
  rw [angDist_comm] at tri
  have tp : θ * p ≤ θ * 0.0073 := mul_le_mul_of_nonneg_left p1 (by linarith)
  have dtp : d * (θ * p) ≤ d * (θ * 0.0073) := mul_le_mul_of_nonneg_left tp hd
  have dtp1 : d * (θ * p) ≤ 1 * (θ * p) := mul_le_mul_of_nonneg_right hd1 (by linarith)
  have dθ : d * θ ≤ 1 * θ := mul_le_mul_of_nonneg_right hd1 (by linarith)
  obtain ⟨c1, c2, c3⟩ := le_linSpeed m
  have W : ∀ {x y : ℝ}, |x - y * d| ≤ d * β + 1 / 10 ^ 25 → |y| ≤ linSpeed m → |x| ≤ d * (V + β) + 1 / 10 ^ 25 := by
    intro x y h1 h2
    have k := le_of_err h1
    rw [abs_mul, abs_of_nonneg hd] at k
    have := mul_le_mul_of_nonneg_right (h2.trans hV) hd
    linarith
  have dV : d * (V + β) ≤ 1 * (V + β) := mul_le_mul_of_nonneg_right hd1 (by linarith)
  obtain ⟨A, v, e, k1, k2, k3⟩ := exp_near l hl pow3 hp w (AlMath.Velocity6D.smul m d) hα hβ
    (by rw [sm]; linarith) (by norm_num at *; linarith) (W b1 c1) (W b2 c2) (W b3 c3) (by norm_num at hVβ ⊢; linarith)
  refine ⟨A, v, e, fun i j => (k1 i j).trans ?_, fun i => ?_⟩
  · norm_num at *
    linarith
  · rw [lm] at k2 k3
    have r1 : 1.7321 * (d * (17 * (θ * p)) + 1 / 10 ^ 25) * (d * linSpeed m) ≤ 29.5 * (θ * p) * V := by
      refine mul_le_mul ?_ ?_ (mul_nonneg hd (Real.sqrt_nonneg _)) (by linarith)
      · norm_num at *
        linarith
      · calc d * linSpeed m ≤ 1 * V := mul_le_mul hd1 hV (Real.sqrt_nonneg _) (by norm_num)
          _ = V := one_mul V
    have dβ : d * β ≤ 1 * β := mul_le_mul_of_nonneg_right hd1 β0
    by_cases hs : angSpeed w < 0.00099
    · refine (k3 hs i).trans ?_
      have : 0 ≤ 2 ^ (-18 : ℤ) / θ * (V + β) := by positivity
      rw [add_mul]
      norm_num at *
      linarith
    · refine (k2 i).trans ?_
      have hs' : 0.00099 ≤ angSpeed w := not_lt.1 hs
      have w0 : 0 < angSpeed w := by norm_num at hs'; linarith
      have s1 : 0.7 * (d * θ) ≤ angSpeed w := by
        rw [sm] at tri
        norm_num at tri dtp hα hs' ⊢
        linarith
      have d0 : (d * (V + β) + 1 / 10 ^ 25) / angSpeed w ≤ 1.43 / θ * (V + β) + 1 / 10 ^ 21 := by
        rw [div_le_iff₀ w0]
        have q1 : d ≤ 1.43 / θ * angSpeed w := by
          rw [div_mul_eq_mul_div, le_div_iff₀ (by norm_num at θ0; linarith)]
          norm_num at s1 ⊢
          linarith
        have q2 := mul_le_mul_of_nonneg_right q1 (show 0 ≤ V + β by linarith)
        norm_num at hs' q2 ⊢
        linarith
      have e1 : (2 ^ (-16 : ℤ) + 2 ^ (-19 : ℤ) / angSpeed w) * (d * (V + β) + 1 / 10 ^ 25) =
          2 ^ (-16 : ℤ) * (d * (V + β) + 1 / 10 ^ 25) + 2 ^ (-19 : ℤ) * ((d * (V + β) + 1 / 10 ^ 25) / angSpeed w) := by ring
      have e2 : 2 ^ (-18 : ℤ) / θ * (V + β) = 2 ^ (-18 : ℤ) * (1 / θ * (V + β)) := by ring
      have e3 : 1.43 / θ * (V + β) = 1.43 * (1 / θ * (V + β)) := by ring
      have g0 : 0 ≤ 1 / θ * (V + β) := by positivity
      rw [e1, add_mul, e2]
      rw [e3] at d0
      generalize 1 / θ * (V + β) = g at *
      generalize (d * (V + β) + 1 / 10 ^ 25) / angSpeed w = g' at *
      norm_num at r1 d0 ⊢
      linarith

/-- The linear velocity is at most π / 2 times the translation of the exponential. -/
theorem lin_le (m : AlMath.Velocity6D) (h0 : angSpeed m ≠ 0) (h1 : angSpeed m ≤ Real.pi) {T : ℝ}
    (hT : exp (twist m) 0 3 ^ 2 + exp (twist m) 1 3 ^ 2 + exp (twist m) 2 3 ^ 2 ≤ T ^ 2) (T0 : 0 ≤ T) : linSpeed m ≤ 1.571 * T := by
  have hsq := angSpeed_sq m
  have t0 : 0 ≤ angSpeed m := Real.sqrt_nonneg _
  rw [exp_coef m h0] at hT
  change (AlMath.expMatrix _ _ _ m).r14 ^ 2 + (AlMath.expMatrix _ _ _ m).r24 ^ 2 + (AlMath.expMatrix _ _ _ m).r34 ^ 2 ≤ _ at hT
  generalize angSpeed m = θ at *
  have hs := Real.sin_sq_add_cos_sq θ
  have pi0 := Real.pi_pos
  have pi1 := Real.pi_lt_d6
  have hc : 0.4052 * θ ^ 2 ≤ 2 - 2 * Real.cos θ := by
    have k1 := Real.mul_le_sin (x := θ / 2) (by linarith) (by linarith)
    have k2 : Real.cos θ = 1 - 2 * Real.sin (θ / 2) ^ 2 := by
      have := Real.cos_two_mul (θ / 2)
      have := Real.sin_sq_add_cos_sq (θ / 2)
      rw [mul_div_cancel₀ θ two_ne_zero] at *
      linarith
    have k3 := pow_le_pow_left₀ (by positivity) k1 2
    have k4 : 2 / Real.pi * (θ / 2) = θ / Real.pi := by field_simp
    rw [k4, div_pow] at k3
    have k5 : 0.1013 * θ ^ 2 ≤ θ ^ 2 / Real.pi ^ 2 := by
      rw [le_div_iff₀ (by positivity)]
      have : Real.pi ^ 2 ≤ 3.1416 ^ 2 := pow_le_pow_left₀ pi0.le (by norm_num at *; linarith) 2
      have := mul_le_mul_of_nonneg_left this (sq_nonneg θ)
      have q0 := sq_nonneg θ
      norm_num at this ⊢
      linarith
    rw [k2]
    norm_num at *
    linarith
  have hl : linSpeed m ^ 2 = m.xd ^ 2 + m.yd ^ 2 + m.zd ^ 2 := Real.sq_sqrt (by positivity)
  have main : 0.4052 * linSpeed m ^ 2 ≤ T ^ 2 := by
    refine le_trans ?_ hT
    rw [hl]
    simp only [AlMath.expMatrix]
    have e1 : Real.sin θ / θ = 1 - (θ - Real.sin θ) / θ ^ 3 * (m.wxd * m.wxd + m.wyd * m.wyd + m.wzd * m.wzd) := by
      rw [← hsq]; field_simp; ring
    have e2 : -(1 - 0.4052) ≤ (((1 - Real.cos θ) / θ ^ 2) ^ 2 + ((θ - Real.sin θ) / θ ^ 3) ^ 2 *
        (m.wxd * m.wxd + m.wyd * m.wyd + m.wzd * m.wzd) - 2 * ((θ - Real.sin θ) / θ ^ 3)) *
          (m.wxd * m.wxd + m.wyd * m.wyd + m.wzd * m.wzd) := by
      have : (((1 - Real.cos θ) / θ ^ 2) ^ 2 + ((θ - Real.sin θ) / θ ^ 3) ^ 2 * θ ^ 2 - 2 * ((θ - Real.sin θ) / θ ^ 3)) * θ ^ 2 =
          (Real.sin θ ^ 2 + Real.cos θ ^ 2 + 1 - 2 * Real.cos θ - θ ^ 2) / θ ^ 2 := by field_simp; ring
      rw [← hsq, this, hs, le_div_iff₀ (by positivity)]
      linarith
    have e3 : ((1 - Real.cos θ) / θ ^ 2) ^ 2 + ((θ - Real.sin θ) / θ ^ 3) ^ 2 *
        (m.wxd * m.wxd + m.wyd * m.wyd + m.wzd * m.wzd) - 2 * ((θ - Real.sin θ) / θ ^ 3) ≤ 0 := by
      have hc' := Real.one_sub_sq_div_two_le_cos (x := θ)
      have : ((1 - Real.cos θ) / θ ^ 2) ^ 2 + ((θ - Real.sin θ) / θ ^ 3) ^ 2 * θ ^ 2 - 2 * ((θ - Real.sin θ) / θ ^ 3) =
          (Real.sin θ ^ 2 + Real.cos θ ^ 2 + 1 - 2 * Real.cos θ - θ ^ 2) / θ ^ 4 := by field_simp; ring
      rw [← hsq, this, hs]
      exact div_nonpos_of_nonpos_of_nonneg (by linarith) (by positivity)
    rw [e1]
    generalize (1 - Real.cos θ) / θ ^ 2 = C at *
    generalize (θ - Real.sin θ) / θ ^ 3 = d at *
    obtain ⟨x, y, z, a, b, c⟩ := m
    simp only at *
    have b2 : (b * z - c * y) ^ 2 + (c * x - a * z) ^ 2 + (a * y - b * x) ^ 2 ≤ (a * a + b * b + c * c) * (x ^ 2 + y ^ 2 + z ^ 2) := by
      linarith [sq_nonneg (a * x + b * y + c * z)]
    have b3 := mul_le_mul_of_nonneg_right e2 (show 0 ≤ x ^ 2 + y ^ 2 + z ^ 2 by positivity)
    have b4 := mul_le_mul_of_nonpos_left b2 e3
    linarith
  refine abs_le_of_sq_le_sq' (a := linSpeed m) ?_ (by positivity) |>.2
  have := sq_nonneg T
  norm_num at main ⊢
  linarith

theorem sq_sum_le {a b c q : ℝ} (ha : |a| ≤ q) (hb : |b| ≤ q) (hc : |c| ≤ q) : a ^ 2 + b ^ 2 + c ^ 2 ≤ (1.7321 * q) ^ 2 := by
  have h1 : a ^ 2 ≤ q ^ 2 := sq_le_sq' (abs_le.1 ha).1 (abs_le.1 ha).2
  have h2 : b ^ 2 ≤ q ^ 2 := sq_le_sq' (abs_le.1 hb).1 (abs_le.1 hb).2
  have h3 : c ^ 2 ≤ q ^ 2 := sq_le_sq' (abs_le.1 hc).1 (abs_le.1 hc).2
  have h4 : (1.7321 * q) ^ 2 = 3.00017041 * q ^ 2 := by ring
  rw [h4]
  linarith [sq_nonneg q]

/-- The exponential of the logarithm of a matrix near a rigid motion, in single precision, is near that matrix. -/
theorem C103_exp_log (l : Libm) (hl : l.Accurate) (pow3 : F32 → F64) (hp3 : Pow3Accurate pow3) {atan2 : F32 → F32 → F32}
    (ha : Atan2Accurate atan2) {pow2 : F32 → F64} (hp : Pow2Accurate pow2) (m : AlMath.Velocity6D)
    (h : angSpeed m ≤ Real.pi) (hs : 0.0011 ≤ Real.sin (angSpeed m)) (A : Matrix (Fin 3) (Fin 3) ℝ)
    (v : Fin 3 → ℝ) (ε δ V : ℝ) (hε : ε ≤ 2 ^ (-17 : ℤ))
    (hA : ∀ i j : Fin 3, |A i j - exp (twist m) i.castSucc j.castSucc| ≤ ε)
    (hv : ∀ i : Fin 3, |v i - exp (twist m) i.castSucc 3| ≤ δ) (hV : ∀ i, |v i| ≤ V) (hδ : 100 * δ ≤ V) (hV2 : V ≤ 2 ^ 55) :
    ∃ C u, velocityExponential l pow3 (transformLogarithm atan2 pow2 (Transform.ofMat A v)) = Transform.ofMat C u ∧
      (∀ i j, |C i j - A i j| ≤ 2 ^ 7 * (angSpeed m / Real.sin (angSpeed m)) * (ε + 2 ^ (-22 : ℤ))) ∧
      (∀ i, |u i - v i| ≤ 2 ^ 11 * (angSpeed m / Real.sin (angSpeed m) + 1 / angSpeed m) * (ε + 2 ^ (-22 : ℤ)) * V +
        16 * δ + 2 ^ (-66 : ℤ)) := by
  obtain ⟨w, ew, w1, w2⟩ := C102_log ha hp m h hs A v ε δ V hε hA hv hV (hV2.trans (by norm_num))
  have ε0 : 0 ≤ ε := (abs_nonneg _).trans (hA 0 0)
  have δ0 : 0 ≤ δ := (abs_nonneg _).trans (hv 0)
  have V0 : 0 ≤ V := by linarith
  have t0 : 0 ≤ angSpeed m := Real.sqrt_nonneg _
  have tσ := Real.sin_le t0
  have σ1 := Real.sin_le_one (angSpeed m)
  have pi1 := Real.pi_lt_d6
  have hT : ∀ i : Fin 3, |exp (twist m) i.castSucc 3| ≤ V + δ := fun i => by
    have := abs_sub_abs_le_abs_sub (exp (twist m) i.castSucc 3) (v i)
    rw [abs_sub_comm] at this
    have := hv i
    have := hV i
    linarith
  have hL := lin_le m (by norm_num at hs; linarith) h (sq_sum_le (hT 0) (hT 1) (hT 2)) (by positivity)
  generalize hθ : angSpeed m = θ at *
  generalize hE : ε + 2 ^ (-22 : ℤ) = E at *
  have E0 : 2 ^ (-22 : ℤ) ≤ E := by rw [← hE]; linarith
  have E1 : E ≤ 7.88 / 10 ^ 6 := by rw [← hE]; norm_num at hε ⊢; linarith
  generalize Real.sin θ = σ at *
  have σ0 : 0 < σ := by norm_num at hs; linarith
  have p1 : E / σ ≤ 0.0073 := by
    rw [div_le_iff₀ σ0]
    norm_num at hs E1 ⊢
    linarith
  have k : θ / σ * E = θ * (E / σ) := by ring
  have kE : E ≤ θ * (E / σ) := by
    rw [← k]
    have : 1 ≤ θ / σ := (one_le_div σ0).2 tσ
    have := mul_le_mul_of_nonneg_right this ((two_zpow_pos (-22)).le.trans E0)
    linarith
  have w1 : ∀ i, |angVel w i - angVel m i| ≤ 2 ^ 4 * (θ * (E / σ)) := fun i => (w1 i).trans_eq (by ring)
  have w2 : ∀ i, |![w.xd, w.yd, w.zd] i - ![m.xd, m.yd, m.zd] i| ≤ 2 ^ 8 * (θ * (E / σ)) * V + 8 * δ + 2 ^ (-70 : ℤ) :=
    fun i => (w2 i).trans_eq (by rw [← k]; ring)
  have k7 : (2 : ℝ) ^ 7 * (θ / σ) * E = 2 ^ 7 * (θ * (E / σ)) := by ring
  have k11 : (2 : ℝ) ^ 11 * (θ / σ + 1 / θ) * E * V = 2 ^ 11 * (θ * (E / σ) * V) + 2 ^ 11 * (1 / θ * V * E) := by ring
  rw [k7, k11]
  have kp : θ * (E / σ) ≤ 0.0231 := by
    have := mul_le_mul_of_nonneg_left p1 t0
    norm_num at this h ⊢
    linarith
  have kE0 : 0 ≤ θ * (E / σ) := by positivity
  have kV := mul_le_mul_of_nonneg_right kp V0
  have β0 : 0 ≤ 2 ^ 8 * (θ * (E / σ)) * V + 8 * δ + 2 ^ (-70 : ℤ) := by positivity
  have m1 : AlMath.Velocity6D.smul m 1 = m := by simp [AlMath.Velocity6D.smul]
  have h17 : 2 ^ 4 * (θ * (E / σ)) ≤ 1 * (17 * (θ * (E / σ))) + 1 / 10 ^ 25 := by norm_num; linarith
  have hVβ : 2.75 * V + (2 ^ 8 * (θ * (E / σ)) * V + 8 * δ + 2 ^ (-70 : ℤ)) ≤ 8.77 * V + 2 ^ (-70 : ℤ) := by
    norm_num at kV ⊢
    linarith
  obtain ⟨C, u, eu, c1, c2⟩ := exp_scaled l hl pow3 hp3 w m (d := 1) (θ := θ) (p := E / σ) (V := 2.75 * V)
    (β := 2 ^ 8 * (θ * (E / σ)) * V + 8 * δ + 2 ^ (-70 : ℤ)) zero_le_one le_rfl hθ (hs.trans tσ)
    (by norm_num at h ⊢; linarith) (by norm_num at E0 ⊢; linarith) p1
    (by rw [mul_one]; exact (w1 0).trans h17) (by rw [mul_one]; exact (w1 1).trans h17) (by rw [mul_one]; exact (w1 2).trans h17)
    (by rw [mul_one, one_mul]; exact (w2 0).trans (by norm_num)) (by rw [mul_one, one_mul]; exact (w2 1).trans (by norm_num))
    (by rw [mul_one, one_mul]; exact (w2 2).trans (by norm_num)) β0 (by norm_num at hL ⊢; linarith)
    (hVβ.trans (by norm_num at hV2 ⊢; linarith))
  rw [m1] at c1 c2
  refine ⟨C, u, by rw [ew, eu], fun i j => ?_, fun i => ?_⟩
  · have := abs_sub_le (C i j) (exp (twist m) i.castSucc j.castSucc) (A i j)
    have q1 := hA i j
    rw [abs_sub_comm] at q1
    have q2 := c1 i j
    have q3 : ε ≤ E := by rw [← hE]; linarith [two_zpow_pos (-22)]
    norm_num at q2 E0 ⊢
    linarith
  · have := abs_sub_le (u i) (exp (twist m) i.castSucc 3) (v i)
    have q1 := hv i
    rw [abs_sub_comm] at q1
    have q2 := c2 i
    have θ0 : 0 < θ := σ0.trans_le tσ
    have q3 : (2 ^ (-16 : ℤ) + 2 ^ (-18 : ℤ) / θ) * (2.75 * V + (2 ^ 8 * (θ * (E / σ)) * V + 8 * δ + 2 ^ (-70 : ℤ))) ≤
        (2 ^ (-16 : ℤ) + 2 ^ (-18 : ℤ) / θ) * (8.77 * V + 2 ^ (-70 : ℤ)) := mul_le_mul_of_nonneg_left hVβ (by positivity)
    have q4 : (2 ^ (-16 : ℤ) + 2 ^ (-18 : ℤ) / θ) * (8.77 * V + 2 ^ (-70 : ℤ)) =
        2 ^ (-16 : ℤ) * 8.77 * V + 8.77 * 2 ^ (-18 : ℤ) * (1 / θ * V) + 2 ^ (-86 : ℤ) + 2 ^ (-88 : ℤ) * (1 / θ) := by
      field_simp
      norm_num
      ring
    have q5 : 1 / θ ≤ 1000 := by
      rw [div_le_iff₀ θ0]
      norm_num at hs
      linarith
    have g0 : 0 ≤ 1 / θ * V := by positivity
    have q6 := mul_le_mul_of_nonneg_left E0 g0
    have q7 := mul_le_mul_of_nonneg_right (E0.trans kE) V0
    have q8 := q2.trans (add_le_add (add_le_add le_rfl (q3.trans_eq q4)) le_rfl)
    clear q2 q3 q4 c1 c2 w1 w2 hA hv hV hT hL
    generalize 1 / θ * V * E = g2 at *
    generalize 1 / θ * V = g3 at *
    generalize 1 / θ = g4 at *
    generalize θ * (E / σ) = g5 at *
    have q9 : 29.5 * g5 * (2.75 * V) + 1.7321 * (2 ^ 8 * g5 * V + 8 * δ + 2 ^ (-70 : ℤ)) = 524.5426 * (g5 * V) + 1.7321 * (8 * δ + 2 ^ (-70 : ℤ)) := by
      norm_num
      ring
    rw [q9] at q8
    have n0 : 0 ≤ g5 * V := by positivity
    clear q9 kV hVβ β0 hV2 E1 h17 k7 k11
    generalize g5 * V = g1 at *
    norm_num at q8 q6 q7 q5 ⊢
    linarith

namespace Spec

/-- Rotation of the exponential of a twist. Not in /repo: specification. -/
noncomputable def expRot (m : AlMath.Velocity6D) : Mat3 := Matrix.of fun i j => exp (twist m) i.castSucc j.castSucc

/-- Translation of the exponential of a twist. Not in /repo: specification. -/
noncomputable def expTrans (m : AlMath.Velocity6D) : Vec3 := fun i => exp (twist m) i.castSucc 3

end Spec

theorem scale_round {x y d a b : ℝ} (hd : 0 ≤ d) (hd1 : d ≤ 1) (h : |x - y| ≤ a) (hy : |y| ≤ b) (hb : a + b ≤ 2 ^ 60) :
    mul (fin x) (fin d) = fin (rnd (x * d)) ∧ |rnd (x * d) - y * d| ≤ d * (a + 1 / 16777216 * (a + b)) + 1 / 10 ^ 25 := by
  have k : |x| ≤ a + b := by have := le_of_err h; linarith
  have k2 : |x * d| ≤ d * (a + b) := by
    rw [abs_mul, abs_of_nonneg hd, mul_comm]
    exact mul_le_mul_of_nonneg_left k hd
  have k3 : d * (a + b) ≤ 1 * (a + b) := mul_le_mul_of_nonneg_right hd1 ((abs_nonneg _).trans k)
  refine ⟨mul_fin (k2.trans (by norm_num at hb ⊢; linarith)), ?_⟩
  have h1 := rnd_bnd (x * d)
  have h2 : |x * d - y * d| ≤ d * a := by
    rw [← sub_mul, abs_mul, abs_of_nonneg hd, mul_comm]
    exact mul_le_mul_of_nonneg_left h hd
  have h3 := abs_sub_le (rnd (x * d)) (x * d) (y * d)
  linarith

theorem le_angSpeed (m : AlMath.Velocity6D) : |m.wxd| ≤ angSpeed m ∧ |m.wyd| ≤ angSpeed m ∧ |m.wzd| ≤ angSpeed m := by
  rw [angSpeed_eq]
  refine ⟨Real.abs_le_sqrt ?_, Real.abs_le_sqrt ?_, Real.abs_le_sqrt ?_⟩ <;>
    linarith [sq_nonneg m.wxd, sq_nonneg m.wyd, sq_nonneg m.wzd]

/-- A velocity near another one, scaled. -/
theorem scale_near (w m : AlMath.Velocity6D) {d a b : ℝ} (hd : 0 ≤ d) (hd1 : d ≤ 1) (h1 : ∀ i, |angVel w i - angVel m i| ≤ a)
    (h2 : ∀ i, |![w.xd, w.yd, w.zd] i - ![m.xd, m.yd, m.zd] i| ≤ b) {V : ℝ} (hV : linSpeed m ≤ V) (ha : a + angSpeed m ≤ 2 ^ 60)
    (hb : b + V ≤ 2 ^ 60) :
    ∃ w', Velocity6D.smul (ofVelocity w) (fin d) = ofVelocity w' ∧
      (|w'.wxd - m.wxd * d| ≤ d * (a + 1 / 16777216 * (a + angSpeed m)) + 1 / 10 ^ 25 ∧
      |w'.wyd - m.wyd * d| ≤ d * (a + 1 / 16777216 * (a + angSpeed m)) + 1 / 10 ^ 25 ∧
      |w'.wzd - m.wzd * d| ≤ d * (a + 1 / 16777216 * (a + angSpeed m)) + 1 / 10 ^ 25) ∧
      |w'.xd - m.xd * d| ≤ d * (b + 1 / 16777216 * (b + V)) + 1 / 10 ^ 25 ∧
      |w'.yd - m.yd * d| ≤ d * (b + 1 / 16777216 * (b + V)) + 1 / 10 ^ 25 ∧
      |w'.zd - m.zd * d| ≤ d * (b + 1 / 16777216 * (b + V)) + 1 / 10 ^ 25 := by
  obtain ⟨a1, a2, a3⟩ := le_angSpeed m
  obtain ⟨b1, b2, b3⟩ := le_linSpeed m
  obtain ⟨e1, r1⟩ := scale_round (x := w.wxd) (y := m.wxd) hd hd1 (h1 0) a1 ha
  obtain ⟨e2, r2⟩ := scale_round (x := w.wyd) (y := m.wyd) hd hd1 (h1 1) a2 ha
  obtain ⟨e3, r3⟩ := scale_round (x := w.wzd) (y := m.wzd) hd hd1 (h1 2) a3 ha
  obtain ⟨e4, r4⟩ := scale_round (x := w.xd) (y := m.xd) hd hd1 (h2 0) (b1.trans hV) hb
  obtain ⟨e5, r5⟩ := scale_round (x := w.yd) (y := m.yd) hd hd1 (h2 1) (b2.trans hV) hb
  obtain ⟨e6, r6⟩ := scale_round (x := w.zd) (y := m.zd) hd hd1 (h2 2) (b3.trans hV) hb
  refine ⟨⟨rnd (w.xd * d), rnd (w.yd * d), rnd (w.zd * d), rnd (w.wxd * d), rnd (w.wyd * d), rnd (w.wzd * d)⟩, ?_,
    ⟨r1, r2, r3⟩, r4, r5, r6⟩
  rw [Velocity6D.smul, ofVelocity, ofVelocity]
  simp only [e1, e2, e3, e4, e5, e6]

theorem fro_le_three {A : Mat3} {c : ℝ} (h : ∀ i j, |A i j| ≤ c) : fro A ≤ 3 * c := by
  have hc : 0 ≤ c := (abs_nonneg _).trans (h 0 0)
  rw [← fro_const c hc]
  exact fro_mono fun i j => by rw [Matrix.of_apply, abs_of_nonneg hc]; exact h i j

theorem vlen_three {v : Vec3} {c : ℝ} (h : ∀ i, |v i| ≤ c) : vlen v ≤ 1.7321 * c := by
  rw [vlen, Fin.sum_univ_three]
  exact sqrt_three_le (h 0) (h 1) (h 2)

/-- The exponential of the scaled logarithm of a matrix near a rigid motion. -/
theorem mean_tail (l : Libm) (hl : l.Accurate) (pow3 : F32 → F64) (hp3 : Pow3Accurate pow3) {atan2 : F32 → F32 → F32}
    (ha : Atan2Accurate atan2) {pow2 : F32 → F64} (hp : Pow2Accurate pow2) (m : AlMath.Velocity6D)
    (h : angSpeed m ≤ Real.pi) (hs : 0.0025 ≤ Real.sin (angSpeed m)) (A : Mat3) (v : Vec3) {d E L : ℝ} (hd : 0 ≤ d) (hd1 : d ≤ 1)
    (E0 : 2 ^ (-18 : ℤ) ≤ E) (E1 : E ≤ 2 ^ (-17 : ℤ)) (L0 : 2 ^ (-40 : ℤ) ≤ L) (L1 : L ≤ 2 ^ 54)
    (hA : fro (A - expRot m) ≤ E - 2 ^ (-22 : ℤ)) (hv : vlen (v - expTrans m) ≤ 2 * E * L) (hT : vlen (expTrans m) ≤ 2.0001 * L) :
    ∃ C u, velocityExponential l pow3 (Velocity6D.smul (transformLogarithm atan2 pow2 (Transform.ofMat A v)) (fin d)) =
        Transform.ofMat C u ∧
      fro (C - expRot (AlMath.Velocity6D.smul m d)) ≤ 96 * (angSpeed m / Real.sin (angSpeed m)) * E ∧
      vlen (u - expTrans (AlMath.Velocity6D.smul m d)) ≤ (1870 * (angSpeed m / Real.sin (angSpeed m)) + 28 / angSpeed m) * E * L := by
  have hA' : ∀ i j : Fin 3, |A i j - exp (twist m) i.castSucc j.castSucc| ≤ E - 2 ^ (-22 : ℤ) := fun i j =>
    (abs_le_fro (A - expRot m) i j).trans hA
  have hv' : ∀ i : Fin 3, |v i - exp (twist m) i.castSucc 3| ≤ 2 * E * L := fun i => (abs_le_vlen (v - expTrans m) i).trans hv
  have L0' : 0 < L := (two_zpow_pos _).trans_le L0
  have E0' : 0 < E := (two_zpow_pos _).trans_le E0
  have EL : E * L ≤ 2 ^ (-17 : ℤ) * L := mul_le_mul_of_nonneg_right E1 L0'.le
  have hV : ∀ i, |v i| ≤ 2.01 * L := fun i => by
    have := le_of_err (hv' i)
    have k2 := (abs_le_vlen (expTrans m) i).trans hT
    have k3 : |exp (twist m) i.castSucc 3| ≤ 2.0001 * L := k2
    norm_num at EL k3 ⊢
    linarith
  obtain ⟨w, ew, w1, w2⟩ := C102_log ha hp m h (by norm_num at hs ⊢; linarith) A v (E - 2 ^ (-22 : ℤ)) (2 * E * L) (2.01 * L)
    (by linarith [two_zpow_pos (-22)]) hA' hv' hV (by norm_num at L1 ⊢; linarith)
  rw [sub_add_cancel] at w1 w2
  have t0 : 0 ≤ angSpeed m := Real.sqrt_nonneg _
  have tσ := Real.sin_le t0
  have σ1 := Real.sin_le_one (angSpeed m)
  have pi1 := Real.pi_lt_d6
  have hL : linSpeed m ≤ 1.571 * (2.0001 * L) := by
    refine lin_le m (by norm_num at hs; linarith) h ?_ (by positivity)
    have := pow_le_pow_left₀ (vlen_nonneg _) hT 2
    rw [vlen_sq, Fin.sum_univ_three] at this
    exact this
  clear hA hv hT hA' hv' hV
  have sn := scale_near w m (d := d) (V := 3.143 * L) hd hd1 w1 w2 (by norm_num at hL ⊢; linarith)
  generalize hθ : angSpeed m = θ at *
  generalize Real.sin θ = σ at *
  have σ0 : 0 < σ := by norm_num at hs; linarith
  have p1 : E / σ ≤ 0.0031 := by
    rw [div_le_iff₀ σ0]
    norm_num at hs E1 ⊢
    linarith
  have kE : E ≤ θ * (E / σ) := by
    have : 1 ≤ θ / σ := (one_le_div σ0).2 tσ
    have := mul_le_mul_of_nonneg_right this E0'.le
    have k : θ / σ * E = θ * (E / σ) := by ring
    linarith
  have kp : θ * (E / σ) ≤ 0.0098 := by
    have := mul_le_mul_of_nonneg_left p1 t0
    norm_num at this h ⊢
    linarith
  have kθ : θ * E ≤ θ * (E / σ) := by
    refine mul_le_mul_of_nonneg_left ?_ t0
    rw [le_div_iff₀ σ0]
    have := mul_le_mul_of_nonneg_left σ1 E0'.le
    linarith
  have k4 : (2 : ℝ) ^ 4 * (θ / σ) * E = 16 * (θ * (E / σ)) := by ring
  have k8 : (2 : ℝ) ^ 8 * (θ / σ) * E * (2.01 * L) + 8 * (2 * E * L) = 514.56 * (θ * (E / σ) * L) + 16 * (E * L) := by ring
  rw [k4, k8] at sn
  have g0 : 0 ≤ θ * (E / σ) * L := by positivity
  have kL := mul_le_mul_of_nonneg_right kp L0'.le
  have kEL := mul_le_mul_of_nonneg_right kE L0'.le
  have tiny : 2 ^ (-70 : ℤ) ≤ 2 ^ (-12 : ℤ) * (E * L) := by
    have := mul_le_mul E0 L0 (two_zpow_pos _).le E0'.le
    norm_num at this ⊢
    linarith
  have ang : 16 * (θ * (E / σ)) + 1 / 16777216 * (16 * (θ * (E / σ)) + θ) ≤ 17 * (θ * (E / σ)) := by
    have := mul_le_mul_of_nonneg_left E0 t0
    norm_num at this ⊢
    linarith
  have lin : 514.56 * (θ * (E / σ) * L) + 16 * (E * L) + 2 ^ (-70 : ℤ) +
      1 / 16777216 * (514.56 * (θ * (E / σ) * L) + 16 * (E * L) + 2 ^ (-70 : ℤ) + 3.143 * L) ≤ 532 * (θ * (E / σ) * L) := by
    have := mul_le_mul_of_nonneg_right E0 L0'.le
    norm_num at this tiny ⊢
    linarith
  obtain ⟨w', e', ⟨a1, a2, a3⟩, b1, b2, b3⟩ := sn (by norm_num at h ⊢; linarith) (by norm_num at kL EL tiny L1 ⊢; linarith)
  have up : ∀ {x y : ℝ}, x ≤ y → d * x + 1 / 10 ^ 25 ≤ d * y + 1 / 10 ^ 25 := fun hxy => by
    have := mul_le_mul_of_nonneg_left hxy hd
    linarith
  have hVβ : 3.143 * L + 532 * (θ * (E / σ) * L) ≤ 8.4 * L := by
    norm_num at kL ⊢
    linarith
  obtain ⟨C, u, eu, c1, c2⟩ := exp_scaled l hl pow3 hp3 w' m (d := d) (θ := θ) (p := E / σ) (V := 3.143 * L)
    (β := 532 * (θ * (E / σ) * L)) hd hd1 hθ (by norm_num at hs ⊢; linarith)
    (by norm_num at h ⊢; linarith) (by norm_num at E0 ⊢; linarith) (p1.trans (by norm_num))
    (a1.trans (up ang)) (a2.trans (up ang)) (a3.trans (up ang)) (b1.trans (up lin)) (b2.trans (up lin)) (b3.trans (up lin))
    (by positivity) (by norm_num at hL ⊢; linarith) (hVβ.trans (by norm_num at L1 ⊢; linarith))
  refine ⟨C, u, by rw [ew, e', eu], ?_, ?_⟩
  · have k96 : 96 * (θ / σ) * E = 3 * (32 * (θ * (E / σ))) := by ring
    rw [k96]
    refine fro_le_three fun i j => (c1 i j).trans ?_
    norm_num at E0 ⊢
    linarith
  · have kk : (1870 * (θ / σ) + 28 / θ) * E * L = 1870 * (θ * (E / σ) * L) + 28 * (1 / θ * L * E) := by ring
    rw [kk]
    have θ0 : 0 < θ := σ0.trans_le tσ
    have q3 : (2 ^ (-16 : ℤ) + 2 ^ (-18 : ℤ) / θ) * (3.143 * L + 532 * (θ * (E / σ) * L)) ≤
        (2 ^ (-16 : ℤ) + 2 ^ (-18 : ℤ) / θ) * (8.4 * L) := mul_le_mul_of_nonneg_left hVβ (by positivity)
    have q4 : (2 ^ (-16 : ℤ) + 2 ^ (-18 : ℤ) / θ) * (8.4 * L) = 8.4 * 2 ^ (-16 : ℤ) * L + 8.4 * 2 ^ (-18 : ℤ) * (1 / θ * L) := by
      ring
    have q6 := mul_le_mul_of_nonneg_left E0 (show 0 ≤ 1 / θ * L by positivity)
    have q7 := mul_le_mul_of_nonneg_right (E0.trans kE) L0'.le
    rw [q4] at q3
    have q9 : 29.5 * (θ * (E / σ)) * (3.143 * L) = 92.7185 * (θ * (E / σ) * L) := by ring
    refine (vlen_three (c := 1075 * (θ * (E / σ) * L) + 16 * (1 / θ * L * E)) fun i => (c2 i).trans ?_).trans ?_
    · rw [q9]
      have g2p : 0 ≤ 1 / θ * L * E := by positivity
      clear c1 c2 a1 a2 a3 b1 b2 b3 sn lin ang k8 hVβ up
      generalize θ * (E / σ) * L = g1 at *
      generalize 1 / θ * L * E = g2 at *
      generalize 1 / θ * L = g3 at *
      generalize E * L = g4 at *
      norm_num at q3 q6 q7 tiny kEL ⊢
      linarith
    · have : 0 ≤ 1 / θ * L * E := by positivity
      norm_num at this ⊢
      linarith

theorem trans_le_linSpeed (m : AlMath.Velocity6D) : vlen (expTrans m) ≤ linSpeed m := by
  obtain ⟨T, h1, -, h3⟩ := exp_shape m
  rw [vlen, Fin.sum_univ_three]
  refine Real.sqrt_le_sqrt ?_
  have e : ∀ i : Fin 3, expTrans m i = T.mat i.castSucc 3 := fun i => by rw [expTrans, h1]
  rw [e, e, e]
  exact h3

/-- Product of two transforms near rigid motions. -/
theorem transform_mul_near {A B P Q : Mat3} {v w s t : Vec3} {e e' f g : ℝ} (hP : Pᵀ * P = 1) (hQ : Qᵀ * Q = 1)
    (hA : fro (A - P) ≤ e) (hB : fro (B - Q) ≤ e') (he : e ≤ 1) (he' : e' ≤ 1) (hv : vlen (v - s) ≤ f) (hw : vlen (w - t) ≤ g)
    (hv' : vlen v ≤ 2 ^ 119) (hw' : vlen w ≤ 2 ^ 119) (hr : ∀ i, Rep (v i)) :
    ∃ C u, Transform.mul (Transform.ofMat A v) (Transform.ofMat B w) = Transform.ofMat C u ∧
      fro (C - P * Q) ≤ e + e' + e * e' + 2 ^ (-19 : ℤ) ∧
      vlen (u - (P *ᵥ t + s)) ≤ e * vlen w + g + f + (2 ^ (-19 : ℤ) * vlen w + 2 ^ (-24 : ℤ) * vlen v + 2 ^ (-146 : ℤ)) := by
  obtain ⟨C, hC, hCe⟩ := mul_near hP hQ hA hB he he'
  obtain ⟨u, hu, hue⟩ := affine_near hP hA he hw hv hw' hv' fun i => (hr i).grid
  refine ⟨C, u, ?_, hCe, hue⟩
  rw [Transform.mul, Transform.ofMat, Transform.ofMat, Transform.ofMat]
  dsimp only
  rw [hC, ← hu 0, ← hu 1, ← hu 2]
  rfl

open Classical in
/-- The mean of two transforms near rigid motions, in single precision. -/
theorem C103_mean (l : Libm) (hl : l.Accurate) (pow3 : F32 → F64) (hp3 : Pow3Accurate pow3) {atan2 : F32 → F32 → F32}
    (ha : Atan2Accurate atan2) {pow2 : F32 → F64} (hp : Pow2Accurate pow2) (A B P Q : Mat3) (v w s t : Vec3) (e L d : ℝ)
    (hP : Pᵀ * P = 1) (hQ : Qᵀ * Q = 1) (hA : fro (A - P) ≤ e) (hB : fro (B - Q) ≤ e) (he : e ≤ 2 ^ (-19 : ℤ))
    (hv : vlen (v - s) ≤ e * L) (hw : vlen (w - t) ≤ e * L) (hvL : vlen v ≤ L) (hwL : vlen w ≤ L) (L0 : 2 ^ (-40 : ℤ) ≤ L)
    (L1 : L ≤ 2 ^ 54) (hr : ∀ i, Rep (v i)) (m : AlMath.Velocity6D) (h : angSpeed m ≤ Real.pi)
    (hs : 0.0025 ≤ Real.sin (angSpeed m)) (hm1 : expRot m = Pᵀ * Q) (hm2 : expTrans m = Pᵀ *ᵥ (t - s)) (hd : 0 ≤ d) (hd1 : d ≤ 1) :
    ∃ C u, transformMean l atan2 pow2 pow3 (Transform.ofMat A v) (Transform.ofMat B w) (fin d) = .ok (Transform.ofMat C u) ∧
      fro (C - P * expRot (AlMath.Velocity6D.smul m d)) ≤
        2 ^ 7 * (angSpeed m / Real.sin (angSpeed m)) * (2 * e + 2 ^ (-18 : ℤ)) ∧
      vlen (u - (P *ᵥ expTrans (AlMath.Velocity6D.smul m d) + s)) ≤
        2 ^ 11 * (angSpeed m / Real.sin (angSpeed m) + 1 / angSpeed m) * (2 * e + 2 ^ (-18 : ℤ)) * L := by
  have e0 : 0 ≤ e := (fro_nonneg _).trans hA
  have L0' : 0 < L := (two_zpow_pos _).trans_le L0
  have he1 : e ≤ 1 := he.trans (by norm_num)
  obtain ⟨C, u, hD, hC, hu⟩ := C82_diff A B P Q v w s t e (e * L) e (e * L) L hP hQ hA hB he1 he1 hv hw hvL hwL
    (L1.trans (by norm_num))
  have ee : e * e ≤ e * 2 ^ (-19 : ℤ) := mul_le_mul_of_nonneg_left he e0
  have eL : e * L ≤ 2 ^ (-19 : ℤ) * L := mul_le_mul_of_nonneg_right he L0'.le
  have hP' : (Pᵀ)ᵀ * Pᵀ = 1 := by rw [transpose_transpose]; exact mul_eq_one_comm.1 hP
  have hE : ∃ E, 2 * e + 2 ^ (-18 : ℤ) = E := ⟨_, rfl⟩
  obtain ⟨E, hE⟩ := hE
  have E0 : 2 ^ (-18 : ℤ) ≤ E := by rw [← hE]; linarith
  have E1 : E ≤ 2 ^ (-17 : ℤ) := by rw [← hE]; norm_num at he ⊢; linarith
  have hT : vlen (expTrans m) ≤ 2.0001 * L := by
    rw [hm2, vlen_rot hP']
    have e1 : t - s = (-(w - t) + w) + ((v - s) + -v) := by abel
    have k1 := vlen_add (-(w - t) + w) ((v - s) + -v)
    have k2 := vlen_add (-(w - t)) w
    have k3 := vlen_add (v - s) (-v)
    rw [vlen_neg] at k2 k3
    rw [e1]
    refine k1.trans ((add_le_add k2 k3).trans ?_)
    norm_num at eL ⊢
    linarith
  obtain ⟨C', u', h1, h2, h3⟩ := mean_tail l hl pow3 hp3 ha hp m h hs C u hd hd1 E0 E1 L0 L1
    (by rw [hm1, ← hE]; norm_num at hC ee he ⊢; linarith)
    (by
      rw [hm2]
      have : 2 * E * L = 2 * (2 * (e * L)) + 2 * 2 ^ (-18 : ℤ) * L := by rw [← hE]; ring
      rw [this]
      have : (2 * e + 2 ^ (-18 : ℤ)) * L = 2 * (e * L) + 2 ^ (-18 : ℤ) * L := by ring
      rw [this] at hu
      norm_num at hu L0 ⊢
      linarith) hT
  clear hC hu hB hw hwL hQ
  have hR : (expRot (AlMath.Velocity6D.smul m d))ᵀ * expRot (AlMath.Velocity6D.smul m d) = 1 := (exp_isRot _).1
  have hl1 : vlen (expTrans (AlMath.Velocity6D.smul m d)) ≤ 3.15 * L := by
    refine (trans_le_linSpeed _).trans ?_
    rw [linSpeed_smul m hd]
    have k1 : linSpeed m ≤ 1.571 * (2.0001 * L) := by
      refine lin_le m (fun h0 => ?_) h ?_ (by positivity)
      · rw [h0, Real.sin_zero] at hs
        norm_num at hs
      · have := pow_le_pow_left₀ (vlen_nonneg _) hT 2
        rw [vlen_sq, Fin.sum_univ_three] at this
        exact this
    have k2 : d * linSpeed m ≤ 1 * linSpeed m := mul_le_mul_of_nonneg_right hd1 (Real.sqrt_nonneg _)
    norm_num at k1 ⊢
    linarith
  have t0 : 0 ≤ angSpeed m := Real.sqrt_nonneg _
  have tσ := Real.sin_le t0
  have pi1 := Real.pi_lt_d6
  have E0' : 0 < E := (two_zpow_pos _).trans_le E0
  rw [hE]
  clear hT
  generalize expTrans (AlMath.Velocity6D.smul m d) = τ at *
  generalize expRot (AlMath.Velocity6D.smul m d) = R at *
  generalize angSpeed m = θ at *
  generalize Real.sin θ = σ at *
  have σ0 : 0 < σ := by norm_num at hs; linarith
  have θ0 : 0 < θ := σ0.trans_le tσ
  have kp : θ / σ * E ≤ 0.0097 := by
    rw [div_mul_eq_mul_div, div_le_iff₀ σ0]
    have := mul_le_mul (h.trans pi1.le) E1 E0'.le (by norm_num)
    norm_num at this hs ⊢
    linarith
  have kE : E ≤ θ / σ * E := by
    have : 1 ≤ θ / σ := (one_le_div σ0).2 tσ
    have := mul_le_mul_of_nonneg_right this E0'.le
    linarith
  have i1 : 1 / θ ≤ 400 := by
    rw [div_le_iff₀ θ0]
    norm_num at hs
    linarith
  have hu' : vlen u' ≤ 22 * L := by
    have k1 := vlen_add (u' - τ) τ
    rw [sub_add_cancel] at k1
    have k2 : (1870 * (θ / σ) + 28 / θ) * E * L = 1870 * (θ / σ * E * L) + 28 * (1 / θ * (E * L)) := by ring
    have k3 := mul_le_mul_of_nonneg_right kp L0'.le
    have k4 := mul_le_mul_of_nonneg_right i1 (show 0 ≤ E * L by positivity)
    have k5 := mul_le_mul_of_nonneg_right E1 L0'.le
    rw [k2] at h3
    generalize 1 / θ * (E * L) = g at *
    norm_num at k3 k5 hl1 ⊢
    linarith
  obtain ⟨C2, u2, hm, m1, m2⟩ := transform_mul_near hP hR hA h2 he1 (by linarith) hv h3 (hvL.trans (L1.trans (by norm_num)))
    (hu'.trans (by norm_num at L1 ⊢; linarith)) hr
  refine ⟨C2, u2, ?_, m1.trans ?_, m2.trans ?_⟩
  · have hno : ¬ (lt (fin 1) (fin d) ∨ lt (fin d) (fin 0)) := by
      rintro (k | k)
      · exact absurd (show (1 : ℝ) < d from k) (not_lt.2 hd1)
      · exact absurd (show d < 0 from k) (not_lt.2 hd)
    rw [transformMean, if_neg hno]
    rw [Transform.diff] at hD
    simp only
    rw [hD, h1, hm]
  · have k1 : e * (96 * (θ / σ) * E) ≤ 1 * (96 * (θ / σ) * E) * 2 ^ (-19 : ℤ) := by
      have := mul_le_mul_of_nonneg_right he (show 0 ≤ 96 * (θ / σ) * E by positivity)
      linarith
    norm_num at k1 E0 ⊢
    have k2 : 0 ≤ θ / σ * E := by positivity
    have k3 : 2 * e ≤ E := by rw [← hE]; norm_num
    linarith
  · have k1 : e * vlen u' ≤ e * (22 * L) := mul_le_mul_of_nonneg_left hu' e0
    have k2 : e * L ≤ E / 2 * L := mul_le_mul_of_nonneg_right (by rw [← hE]; linarith [two_zpow_pos (-18)]) L0'.le
    have k3 := mul_le_mul_of_nonneg_right kE L0'.le
    have k4 := mul_le_mul_of_nonneg_right E0 L0'.le
    have k5 : 0 ≤ 1 / θ * E * L := by positivity
    have k6 : (1870 * (θ / σ) + 28 / θ) * E * L = 1870 * (θ / σ * E * L) + 28 * (1 / θ * E * L) := by ring
    have k7 : 2 ^ 11 * (θ / σ + 1 / θ) * E * L = 2 ^ 11 * (θ / σ * E * L) + 2 ^ 11 * (1 / θ * E * L) := by ring
    have k8 : (2 : ℝ) ^ (-146 : ℤ) ≤ 2 ^ (-60 : ℤ) := by norm_num
    have k9 := mul_le_mul E0 L0 (two_zpow_pos _).le E0'.le
    rw [k6, k7]
    clear hD h1 hm m1 m2 h2 h3 hr hA hR hP hP' hm1 hm2
    generalize (2 : ℝ) ^ (-146 : ℤ) = q at *
    generalize 1 / θ * E * L = g1 at *
    generalize θ / σ * E * L = g2 at *
    norm_num at k4 k8 k9 ⊢
    linarith

open Classical in
/-- A factor outside of [0, 1] is refused, whatever the transforms. -/
theorem C103_throws (l : Libm) (atan2 : F32 → F32 → F32) (pow2 pow3 : F32 → F64) (a b : Transform) (d : F32)
    (h : d = pinf ∨ d = ninf ∨ ∃ x, d = fin x ∧ (1 < x ∨ x < 0)) : transformMean l atan2 pow2 pow3 a b d = .throws := by
  rw [transformMean, if_pos]
  rcases h with rfl | rfl | ⟨x, rfl, h⟩
  · left; simp [lt]
  · right; simp [lt]
  · exact h

open Classical in
/-- A factor that is not a number is not refused: the result is a transform without a single number. -/
theorem C103_nan (l : Libm) (atan2 : F32 → F32 → F32) (pow2 pow3 : F32 → F64) (a b : Transform) :
    transformMean l atan2 pow2 pow3 a b nan =
      .ok ⟨⟨nan, nan, nan, nan, nan, nan, nan, nan, nan⟩, nan, nan, nan⟩ := by
  have h : ¬ (lt (fin 1) nan ∨ lt nan (fin 0)) := by simp [lt]
  rw [transformMean, if_neg h]
  obtain ⟨h12, h13, h21, h23, h31, h32, h14, h24, h34⟩ := C101_nan l pow3
    (Velocity6D.smul (transformLogarithm atan2 pow2 (Transform.mul (Transform.inverse a) b)) nan) (Or.inl (mul_nan _))
  dsimp only
  generalize velocityExponential l pow3
    (Velocity6D.smul (transformLogarithm atan2 pow2 (Transform.mul (Transform.inverse a) b)) nan) = T at *
  simp only [Transform.mul, Rotation.mul, dot, h12, h13, h21, h23, h31, h32, h14, h24, h34, mul_nan, add_nan, nan_add]

/-! ### Examples -/

/-- A rigid motion of 1.5 radians about the third axis, its elements rounded to single precision. -/
theorem rounded_exp : let m : AlMath.Velocity6D := ⟨1, 0, 0, 0, 0, 3 / 2⟩
    (∀ i j, |rnd (expRot m i j) - expRot m i j| ≤ 2 ^ (-23 : ℤ)) ∧ (∀ i, |rnd (expTrans m i) - expTrans m i| ≤ 2 ^ (-23 : ℤ)) ∧
      vlen (expTrans m) ≤ 1 := by
  intro m
  have hv : vlen (expTrans m) ≤ 1 := by
    refine (trans_le_linSpeed m).trans ?_
    rw [linSpeed]
    norm_num [m]
  have key : ∀ x : ℝ, |x| ≤ 1 → |rnd x - x| ≤ 2 ^ (-23 : ℤ) := fun x hx => by
    refine (rnd_bnd x).trans ?_
    norm_num
    linarith
  exact ⟨fun i j => key _ (rot_entry_le (exp_isRot m) i j), fun i => key _ ((abs_le_vlen _ i).trans hv), hv⟩

/-- There and back. -/
example : let m : AlMath.Velocity6D := ⟨1, 0, 0, 0, 0, 3 / 2⟩
    ∃ C u, velocityExponential Libm.rounded pow3Rounded (transformLogarithm Libm.rounded.atan2 pow2Rounded
        (Transform.ofMat (Matrix.of fun i j => rnd (expRot m i j)) fun i => rnd (expTrans m i))) = Transform.ofMat C u ∧
      (∀ i j, |C i j - rnd (expRot m i j)| ≤ 2 ^ (-13 : ℤ)) ∧ ∀ i, |u i - rnd (expTrans m i)| ≤ 2 ^ (-8 : ℤ) := by
  intro m
  have hs : angSpeed m = 3 / 2 := angSpeed_z _ (by norm_num) _ _ _
  have s1 := sin_three_halves
  have q : 3 / 2 / Real.sin (3 / 2) ≤ 1.7 := by
    norm_num at s1 ⊢
    rw [div_le_iff₀ (by linarith)]
    linarith
  obtain ⟨r1, r2, r3⟩ := rounded_exp
  obtain ⟨C, u, h1, h2, h3⟩ := C103_exp_log _ rounded_accurate _ pow3Rounded_accurate atan2Rounded_accurate pow2Rounded_accurate
    m (by rw [hs]; linarith [Real.pi_gt_three]) (by rw [hs]; norm_num at s1 ⊢; linarith)
    (Matrix.of fun i j => rnd (expRot m i j)) (fun i => rnd (expTrans m i)) (2 ^ (-23 : ℤ)) (2 ^ (-23 : ℤ)) 2 (by norm_num)
    r1 r2 (fun i => by
      have k1 := le_of_err (r2 i)
      have k2 := (abs_le_vlen _ i).trans r3
      norm_num at k1 ⊢
      linarith) (by norm_num) (by norm_num)
  rw [hs] at h2 h3
  refine ⟨C, u, h1, fun i j => (h2 i j).trans ?_, fun i => (h3 i).trans ?_⟩
  · norm_num at q ⊢
    linarith
  · norm_num at q ⊢
    linarith

open Classical in
/-- Half way between the identity and a rigid motion of 1.5 radians, its elements rounded to single precision. -/
example : let m : AlMath.Velocity6D := ⟨1, 0, 0, 0, 0, 3 / 2⟩
    ∃ C u, transformMean Libm.rounded Libm.rounded.atan2 pow2Rounded pow3Rounded (Transform.ofMat 1 0)
        (Transform.ofMat (Matrix.of fun i j => rnd (expRot m i j)) fun i => rnd (expTrans m i)) (fin (1 / 2)) =
          .ok (Transform.ofMat C u) ∧
      fro (C - expRot ⟨1 / 2, 0, 0, 0, 0, 3 / 4⟩) ≤ 2 ^ (-8 : ℤ) ∧ vlen (u - expTrans ⟨1 / 2, 0, 0, 0, 0, 3 / 4⟩) ≤ 2 ^ (-3 : ℤ) := by
  intro m
  have hs : angSpeed m = 3 / 2 := angSpeed_z _ (by norm_num) _ _ _
  have s1 := sin_three_halves
  have q : 3 / 2 / Real.sin (3 / 2) ≤ 1.7 := by
    norm_num at s1 ⊢
    rw [div_le_iff₀ (by linarith)]
    linarith
  obtain ⟨r1, r2, r3⟩ := rounded_exp
  have z0 : vlen (0 : Vec3) = 0 := by simp [vlen]
  have f0 : fro (0 : Mat3) = 0 := by simp [fro]
  have rw' : vlen ((fun i => rnd (expTrans m i)) - expTrans m) ≤ 1.7321 * 2 ^ (-23 : ℤ) := vlen_three r2
  obtain ⟨C, u, h1, h2, h3⟩ := C103_mean _ rounded_accurate _ pow3Rounded_accurate atan2Rounded_accurate pow2Rounded_accurate
    1 (Matrix.of fun i j => rnd (expRot m i j)) 1 (expRot m) 0 (fun i => rnd (expTrans m i)) 0 (expTrans m) (2 ^ (-21 : ℤ)) 2 (1 / 2)
    (by simp) (exp_isRot m).1 (by rw [sub_self, f0]; positivity)
    ((fro_le_three (c := 2 ^ (-23 : ℤ)) r1).trans (by norm_num)) (by norm_num)
    (by rw [sub_self, z0]; positivity) (rw'.trans (by norm_num)) (by rw [z0]; norm_num)
    (by
      have k := vlen_add ((fun i => rnd (expTrans m i)) - expTrans m) (expTrans m)
      rw [sub_add_cancel] at k
      norm_num at rw' ⊢
      linarith) (by norm_num) (by norm_num) (fun i => Rep.zero) m
    (by rw [hs]; linarith [Real.pi_gt_three]) (by rw [hs]; norm_num at s1 ⊢; linarith) (by simp) (by simp) (by norm_num) (by norm_num)
  have e : AlMath.Velocity6D.smul m (1 / 2) = ⟨1 / 2, 0, 0, 0, 0, 3 / 4⟩ := by
    norm_num [AlMath.Velocity6D.smul, m]
  rw [e, hs] at h2 h3
  rw [one_mul] at h2
  rw [one_mulVec, add_zero] at h3
  refine ⟨C, u, h1, h2.trans ?_, h3.trans ?_⟩
  · norm_num at q ⊢
    linarith
  · norm_num at q ⊢
    linarith

open Classical in
example : transformMean Libm.rounded Libm.rounded.atan2 pow2Rounded pow3Rounded (Transform.ofMat 1 0) (Transform.ofMat 1 0)
    (fin (3 / 2)) = .throws := C103_throws _ _ _ _ _ _ _ (.inr (.inr ⟨_, rfl, .inl (by norm_num)⟩))

end AlMath.F32
