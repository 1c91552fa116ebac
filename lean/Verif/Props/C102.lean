import Verif.Lemmas.FloatLogEntry
import Verif.Props.C21

/-!
C102: the logarithm of a transform in single precision, for angles whose sine is not below the threshold of the library. The
errors of the matrix are multiplied by at most a few times the angle over its sine.
-/

namespace AlMath.F32

open AlMath.Spec NormedSpace Spec

theorem LogCoef.ang {θ σ p φ s k c l L : ℝ} (h : LogCoef θ σ p φ s k c l L) {D n : ℝ} (hn : |n| ≤ 1)
    (hD : |D - 2 * σ * n| ≤ 2 * (σ * p)) : Near (mul (fin k) (fin D)) (θ * n) (13 * (θ * p)) := by
  have h1 := h.kD hn hD
  obtain ⟨t1, t2⟩ := h.tp
  have n1 : |θ * n| ≤ 3.15 := by
    rw [abs_mul, abs_of_pos (by linarith [h.θ0])]
    have := mul_le_mul h.θ1 hn (abs_nonneg _) (by norm_num)
    linarith
  refine Near.rounded h1 n1 ?_ ?_ <;> norm_num at * <;> linarith

theorem mul_swap (a b : F32) : mul a b = mul b a := by
  cases a <;> cases b <;> simp [mul, _root_.mul_comm]

/-- What the main branch computes. -/
theorem log_main (atan2 : F32 → F32 → F32) (pow2 : F32 → F64) (h : Transform) (v : Velocity6D) {si co angle coeff c2 l : F32}
    (h1 : logSi h.r = si) (h2 : logCo h.r = co) (h3 : atan2 si co = angle) (h4 : ¬ lt si (round 0.001))
    (h5 : div angle (mul (fin 2) si) = coeff) (h6 : F64.toFloat (pow2 coeff) = c2) (h7 : logLambda si co angle = l) :
    transformLogarithmInPlace atan2 pow2 h v =
    { xd := add (add (mul h.r24 (sub (mul (mul (mul c2 (sub h.r.r13 h.r.r31)) (sub h.r.r32 h.r.r23)) l)
              (mul (mul (fin 0.5) coeff) (sub h.r.r12 h.r.r21))))
            (mul h.r34 (sub (mul (mul (mul c2 (sub h.r.r12 h.r.r21)) (sub h.r.r23 h.r.r32)) l)
              (mul (mul (fin 0.5) coeff) (sub h.r.r13 h.r.r31)))))
          (mul h.r14 (add (mul (mul c2 (add (mul (sub h.r.r13 h.r.r31) (sub h.r.r31 h.r.r13))
              (mul (sub h.r.r12 h.r.r21) (sub h.r.r21 h.r.r12)))) l) (fin 1)))
      yd := add (add (mul h.r24 (add (mul (mul c2 (add (mul (sub h.r.r23 h.r.r32) (sub h.r.r32 h.r.r23))
              (mul (sub h.r.r12 h.r.r21) (sub h.r.r21 h.r.r12)))) l) (fin 1)))
            (mul h.r14 (sub (mul (mul (mul c2 (sub h.r.r31 h.r.r13)) (sub h.r.r23 h.r.r32)) l)
              (mul (mul (fin 0.5) coeff) (sub h.r.r21 h.r.r12)))))
          (mul h.r34 (sub (mul (mul (mul c2 (sub h.r.r21 h.r.r12)) (sub h.r.r13 h.r.r31)) l)
            (mul (mul (fin 0.5) coeff) (sub h.r.r23 h.r.r32))))
      zd := add (add (mul h.r34 (add (mul (mul c2 (add (mul (sub h.r.r23 h.r.r32) (sub h.r.r32 h.r.r23))
              (mul (sub h.r.r13 h.r.r31) (sub h.r.r31 h.r.r13)))) l) (fin 1)))
            (mul h.r14 (sub (mul (mul (mul c2 (sub h.r.r21 h.r.r12)) (sub h.r.r32 h.r.r23)) l)
              (mul (mul (fin 0.5) coeff) (sub h.r.r31 h.r.r13)))))
          (mul h.r24 (sub (mul (mul (mul c2 (sub h.r.r12 h.r.r21)) (sub h.r.r31 h.r.r13)) l)
            (mul (mul (fin 0.5) coeff) (sub h.r.r32 h.r.r23))))
      wxd := mul coeff (sub h.r.r32 h.r.r23)
      wyd := mul coeff (sub h.r.r13 h.r.r31)
      wzd := mul coeff (sub h.r.r21 h.r.r12) } := by
  subst h1 h2 h3 h5 h6 h7
  unfold transformLogarithmInPlace
  simp only []
  rw [if_neg h4]
  rfl

/-- The test on the angle falls through between the threshold and a half turn less the threshold. -/
theorem logLambda_third {s c a l : ℝ} (a1 : 0.00105 ≤ a) (a2 : a ≤ 3.14055) (el : div (mul (fin 0.5) (sub (mul (fin 2) (fin s))
    (mul (fin a) (add (fin 1) (fin c))))) (mul (mul (fin a) (fin a)) (fin s)) = fin l) :
    logLambda (fin s) (fin c) (fin a) = fin l := by
  obtain ⟨κ, eκ, κ1, κ2⟩ := threshold
  norm_num at a1 a2 κ1 κ2
  have e3 : piF = 13176795 / 4194304 := rfl
  have e1 : ¬ lt (fin a) (fin κ) := by
    simp only [lt]
    linarith
  have b : |piF - κ| ≤ 4 := by
    rw [e3, abs_le]
    constructor <;> linarith
  have e2 : ¬ lt (sub (fin piF) (fin κ)) (fin a) := by
    rw [sub_fin (b.trans (by norm_num))]
    simp only [lt, not_lt]
    have r := (abs_le.1 (rnd_bnd (piF - κ))).1
    have : 1 / 16777216 * |piF - κ| ≤ 1 / 16777216 * 4 := mul_le_mul_of_nonneg_left b (by norm_num)
    rw [e3] at *
    norm_num at r this ⊢
    linarith
  have b' : |-piF + κ| ≤ 4 := by rwa [neg_add_eq_sub, abs_sub_comm]
  have e4 : ¬ lt (fin a) (add (neg (fin piF)) (fin κ)) := by
    rw [neg, add_fin (b'.trans (by norm_num))]
    simp only [lt, not_lt]
    have r := (abs_le.1 (rnd_bnd (-piF + κ))).2
    have : 1 / 16777216 * |-piF + κ| ≤ 1 / 16777216 * 4 := mul_le_mul_of_nonneg_left b' (by norm_num)
    rw [e3] at *
    norm_num at r this ⊢
    linarith
  unfold logLambda
  rw [eκ, if_neg e1, if_neg (by tauto), el]

/-- The coefficient of the square of the rotation vector, against its exact value. -/
theorem logL_round {θ σ η p φ s c r l : ℝ} (hθ : 0 < θ) (hθ2 : θ < Real.pi) (hη : 4 / 16777216 ≤ η) (hη2 : η ≤ 8 / 10 ^ 6)
    (hs : 0.0011 ≤ σ) (σθ : σ ≤ θ) (hp : p = η / σ) (sσ : |s - σ| ≤ 2.85 * η) (hφ : |φ - θ| ≤ 1.6 * (3.36 * η)) (φ0 : 0 < φ)
    (φ1 : φ < Real.pi) (ec : c = r * Real.cos φ) (es' : s = r * Real.sin φ) (hr : |r - 1| ≤ 3.36 * η)
    (hl : |l * (φ * φ * s) - 0.5 * (2 * s - φ * (1 + c))| ≤ 23 / 16777216 * φ) :
    |l * φ ^ 2 - logL θ| ≤ 18.8 * (θ * p) := by
  obtain ⟨s3, s4⟩ := abs_le.1 sσ
  obtain ⟨φ2, φ3⟩ := abs_le.1 hφ
  obtain ⟨r1, r2⟩ := abs_le.1 hr
  norm_num at hη hη2 hs s3 s4 φ2 φ3 r1 r2
  have σ0 : 0 < σ := by linarith
  have s0 : 0 < s := by linarith
  have d1 := logL_sub φ0 φ1 hθ hθ2
  have d2 : |l * φ ^ 2 - logL φ| ≤ (23 / 16777216 + 3.36 * η / 2) * (φ / s) := by
    have sp := Real.sin_pos_of_pos_of_lt_pi φ0 φ1
    have r0 : r ≠ 0 := by intro h0; linarith
    have e : l * φ ^ 2 - logL φ = ((l * (φ * φ * s) - 0.5 * (2 * s - φ * (1 + c))) - φ * (1 - r) / 2) / s := by
      unfold logL
      rw [ec, es']
      generalize Real.sin φ = S at *
      generalize Real.cos φ = C at *
      have : S ≠ 0 := sp.ne'
      field_simp
      norm_num
      ring
    rw [e, abs_div, abs_of_pos s0, ← mul_div_assoc, div_le_div_iff_of_pos_right s0]
    refine (abs_sub _ _).trans ?_
    have e2 : |φ * (1 - r) / 2| ≤ φ * (3.36 * η) / 2 := by
      rw [abs_div, abs_mul, abs_of_pos φ0, abs_of_pos (show (0 : ℝ) < 2 by norm_num), abs_sub_comm]
      exact div_le_div_of_nonneg_right (mul_le_mul_of_nonneg_left hr φ0.le) (by norm_num)
    linarith
  have d3 : φ / s ≤ 1.07 * (θ / σ) := by
    rw [← mul_div_assoc, div_le_div_iff₀ s0 σ0]
    have k1 : φ ≤ 1.041 * θ := by norm_num; linarith
    have k2 : 0.978 * σ ≤ s := by norm_num; linarith
    calc φ * σ ≤ 1.041 * θ * σ := mul_le_mul_of_nonneg_right k1 σ0.le
      _ ≤ 1.07 * θ * (0.978 * σ) := by nlinarith [mul_nonneg hθ.le σ0.le]
      _ ≤ 1.07 * θ * s := mul_le_mul_of_nonneg_left k2 (by positivity)
  have d4 : θ / σ * η = θ * p := by rw [hp]; ring
  have d5 : 1 ≤ θ / σ := by rw [le_div_iff₀ σ0]; linarith
  have d6 : η ≤ θ * p := by
    rw [← d4]
    exact le_mul_of_one_le_left (by linarith) d5
  have d7 : (23 / 16777216 + 3.36 * η / 2) * (φ / s) ≤ 7.97 * (θ * p) := by
    calc (23 / 16777216 + 3.36 * η / 2) * (φ / s) ≤ 7.43 * η * (1.07 * (θ / σ)) := by
          refine mul_le_mul ?_ d3 (div_nonneg φ0.le s0.le) (by linarith)
          norm_num
          linarith
      _ = 7.9501 * (θ / σ * η) := by ring
      _ ≤ _ := by rw [d4]; linarith
  have d8 := abs_add_le (l * φ ^ 2 - logL φ) (logL φ - logL θ)
  rw [sub_add_sub_cancel] at d8
  have d9 : 2 * |φ - θ| ≤ 10.752 * η := by norm_num at hφ ⊢; linarith
  norm_num at d2 d7 d9 ⊢
  linarith

/-- The sine and the angle, from the differences of the entries. -/
theorem log_angle {θ σ η D1 D2 D3 n1 n2 n3 c : ℝ} (hθ : 0 ≤ θ) (hθ2 : θ ≤ Real.pi) (hσ : σ = Real.sin θ) (hs : 0.0011 ≤ σ)
    (hn : n1 ^ 2 + n2 ^ 2 + n3 ^ 2 = 1)
    (hη : 4 / 16777216 ≤ η) (hη2 : η ≤ 8 / 10 ^ 6) (h1 : |D1 - 2 * σ * n1| ≤ 2 * η)
    (h2 : |D2 - 2 * σ * n2| ≤ 2 * η) (h3 : |D3 - 2 * σ * n3| ≤ 2 * η) (hc : |c - Real.cos θ| ≤ 1.75 * η) :
    ∃ s r φ, mul (fin 0.5) (sqrt (add (add (mul (fin D1) (fin D1)) (mul (fin D2) (fin D2))) (mul (fin D3) (fin D3)))) = fin s ∧
      Rep s ∧ |s - σ| ≤ 2.85 * η ∧ (D1 / (2 * s)) ^ 2 + (D2 / (2 * s)) ^ 2 + (D3 / (2 * s)) ^ 2 ≤ 1.01 ∧
      Complex.arg ⟨c, s⟩ = φ ∧ 0 < φ ∧ φ < Real.pi ∧ c = r * Real.cos φ ∧ s = r * Real.sin φ ∧ |r - 1| ≤ 3.36 * η ∧
      |φ - θ| ≤ 1.6 * (3.36 * η) := by
  have σ1 : σ ≤ 1 := by rw [hσ]; exact Real.sin_le_one θ
  have θπ : θ < Real.pi := by
    rcases hθ2.lt_or_eq with h | h
    · exact h
    · rw [h, Real.sin_pi] at hσ
      norm_num at hs
      linarith
  have θ0 : 0 < θ := by
    rcases hθ.lt_or_eq with h | h
    · exact h
    · rw [← h, Real.sin_zero] at hσ
      norm_num at hs
      linarith
  obtain ⟨t, ht⟩ : ∃ t, t = Real.sqrt (D1 * D1 + D2 * D2 + D3 * D3) := ⟨_, rfl⟩
  have t0 : 0 ≤ t := by rw [ht]; exact Real.sqrt_nonneg _
  have tt : t ^ 2 = D1 * D1 + D2 * D2 + D3 * D3 := by
    rw [ht, Real.sq_sqrt (by linarith [mul_self_nonneg D1, mul_self_nonneg D2, mul_self_nonneg D3])]
  have td := norm_diff hn (by norm_num at hs; linarith) h1 h2 h3 t0 tt
  obtain ⟨td1, td2⟩ := abs_le.1 td
  norm_num at hη hη2 hs td1 td2
  obtain ⟨s, es, rs, hs1⟩ := si_fin tt (by norm_num; linarith) (by linarith)
  obtain ⟨s1, s2⟩ := abs_le.1 hs1
  norm_num at s1 s2
  have sσ : |s - σ| ≤ 2.85 * η := by
    rw [abs_le]
    constructor <;> norm_num <;> linarith
  obtain ⟨s3, s4⟩ := abs_le.1 sσ
  norm_num at s3 s4
  have s0 : 0 < s := by linarith
  have hρ : (c - Real.cos θ) ^ 2 + (s - Real.sin θ) ^ 2 ≤ (3.36 * η) ^ 2 := by
    rw [← hσ]
    have q1 : (c - Real.cos θ) ^ 2 ≤ (1.75 * η) ^ 2 := sq_le_sq' (abs_le.1 hc).1 (abs_le.1 hc).2
    have q2 : (s - σ) ^ 2 ≤ (2.85 * η) ^ 2 := sq_le_sq' (abs_le.1 sσ).1 (abs_le.1 sσ).2
    have q3 : 0 ≤ η ^ 2 := sq_nonneg η
    norm_num [mul_pow] at q1 q2 ⊢
    linarith
  obtain ⟨r, φ, eφ, φ0, φ1, ec, es', hr, hφ⟩ := arg_near θ0 θπ s0 (by norm_num; linarith) hρ (by linarith)
  refine ⟨s, r, φ, es, rs, sσ, ?_, eφ, φ0, φ1, ec, es', hr, hφ⟩
  have e : (D1 / (2 * s)) ^ 2 + (D2 / (2 * s)) ^ 2 + (D3 / (2 * s)) ^ 2 = t ^ 2 / (2 * s) ^ 2 := by rw [tt]; ring
  rw [e, div_le_iff₀ (by positivity)]
  have k1 : t ≤ 1.001 * (2 * s) := by norm_num; linarith
  have k2 := mul_le_mul k1 k1 t0 (by positivity)
  have k3 : 0 ≤ s ^ 2 := sq_nonneg s
  norm_num at k2 ⊢
  nlinarith

/-- The coefficients, from the differences of the entries. -/
theorem log_coef {atan2 : F32 → F32 → F32} (ha : Atan2Accurate atan2) {pow2 : F32 → F64} (hp : Pow2Accurate pow2)
    {θ η D1 D2 D3 n1 n2 n3 c : ℝ} (hθ : 0 ≤ θ) (hθ2 : θ ≤ Real.pi) (hs : 0.0011 ≤ Real.sin θ) (hn : n1 ^ 2 + n2 ^ 2 + n3 ^ 2 = 1)
    (hη : 4 / 16777216 ≤ η) (hη2 : η ≤ 8 / 10 ^ 6) (h1 : |D1 - 2 * Real.sin θ * n1| ≤ 2 * η)
    (h2 : |D2 - 2 * Real.sin θ * n2| ≤ 2 * η) (h3 : |D3 - 2 * Real.sin θ * n3| ≤ 2 * η) (rc : Rep c)
    (hc : |c - Real.cos θ| ≤ 1.75 * η) :
    ∃ φ s a k c2 l, mul (fin 0.5) (sqrt (add (add (mul (fin D1) (fin D1)) (mul (fin D2) (fin D2))) (mul (fin D3) (fin D3)))) =
        fin s ∧ ¬ lt (fin s) (round 0.001) ∧ atan2 (fin s) (fin c) = fin a ∧ div (fin a) (mul (fin 2) (fin s)) = fin k ∧
      F64.toFloat (pow2 (fin k)) = fin c2 ∧ logLambda (fin s) (fin c) (fin a) = fin l ∧ |c2| ≤ 10 ^ 7 ∧
      (D1 / (2 * s)) ^ 2 + (D2 / (2 * s)) ^ 2 + (D3 / (2 * s)) ^ 2 ≤ 1.01 ∧
      LogCoef θ (Real.sin θ) (η / Real.sin θ) φ s k c2 l (logL θ) := by
  obtain ⟨σ, hσ⟩ : ∃ σ, σ = Real.sin θ := ⟨_, rfl⟩
  rw [← hσ] at hs h1 h2 h3 ⊢
  have σ1 : σ ≤ 1 := by rw [hσ]; exact Real.sin_le_one θ
  have σθ : σ ≤ θ := by rw [hσ]; exact Real.sin_le hθ
  have θπ : θ ≤ Real.pi - 0.0011 := by
    have := Real.sin_le (x := Real.pi - θ) (by linarith)
    rw [Real.sin_pi_sub, ← hσ] at this
    linarith
  obtain ⟨s, r, φ, es, rs, sσ, hDE, eφ, φ0, φ1, ec, es', hr, hφ⟩ := log_angle hθ hθ2 hσ hs hn hη hη2 h1 h2 h3 hc
  clear h1 h2 h3 hn
  have pi1 := Real.pi_lt_d6
  have pi2 := Real.pi_gt_d6
  norm_num at hη hη2 hs θπ
  obtain ⟨s3, s4⟩ := abs_le.1 sσ
  norm_num at s3 s4
  obtain ⟨κ, eκ, κ1, κ2⟩ := threshold
  norm_num at κ1 κ2
  have hlt : ¬ lt (fin s) (round 0.001) := by
    rw [eκ]
    simp only [lt]
    linarith
  clear eκ κ1 κ2
  obtain ⟨φ2, φ3⟩ := abs_le.1 hφ
  norm_num at φ2 φ3
  obtain ⟨c3, c4⟩ := abs_le.1 hc
  have cc1 := Real.neg_one_le_cos θ
  have cc2 := Real.cos_le_one θ
  norm_num at c3 c4
  obtain ⟨a, ea, ra, haa⟩ := ha s c rs rc (by norm_num; linarith) (by linarith) (by rw [abs_le]; constructor <;> linarith)
  rw [eφ, show (2 : ℝ) ^ (-22 : ℤ) = 4 / 16777216 by norm_num] at haa
  obtain ⟨a1, a2⟩ := abs_le.1 haa
  norm_num at a1 a2
  obtain ⟨r1, r2⟩ := abs_le.1 hr
  norm_num at r1 r2
  have sφ : s ≤ 1.01 * φ := by
    rw [es']
    have r3 : r ≤ 1.01 := by norm_num; linarith
    exact (mul_le_mul_of_nonneg_left (Real.sin_le φ0.le) (by linarith)).trans (mul_le_mul_of_nonneg_right r3 φ0.le)
  have φg : 0.001 ≤ φ := by norm_num at sφ ⊢; linarith
  obtain ⟨k, ek, rk, hk⟩ := k_fin haa φg (by norm_num; linarith) (show 0.001 ≤ s by norm_num; linarith)
    (by norm_num; linarith)
  obtain ⟨c2, ec2, -, bc2, hc2⟩ := c2_fin hp rk hk φg (by norm_num; linarith) (show 0.001 ≤ s by norm_num; linarith) sφ
  obtain ⟨l, el, -, hl⟩ := lam_fin haa φg (by norm_num; linarith) (show 0.001 ≤ s by norm_num; linarith) sφ
    (by norm_num; linarith) (show -1.01 ≤ c by norm_num; linarith) (by norm_num; linarith)
  have eL : logLambda (fin s) (fin c) (fin a) = fin l :=
    logLambda_third (by norm_num; linarith) (by norm_num; linarith) el
  refine ⟨φ, s, a, k, c2, l, es, hlt, ea, ek, ec2, eL, bc2, hDE, ?_⟩
  · have σ0 : 0 < σ := by linarith
    obtain ⟨p, hp⟩ : ∃ p, p = η / σ := ⟨_, rfl⟩
    have σp : σ * p = η := by rw [hp]; field_simp
    have p0 : 0 < p := by rw [hp]; exact div_pos (by linarith) σ0
    obtain ⟨L0, L1, L2⟩ := logL_bounds (show 0 < θ by linarith) (by linarith)
    rw [← hp]
    refine ⟨by norm_num; linarith, by norm_num; linarith, by norm_num; linarith, σ1, σθ, by rw [σp]; norm_num; linarith, ?_,
      by rw [σp]; exact sσ, by rw [σp]; exact hφ.trans (by norm_num; linarith), hk, hc2, ?_, L0, L1, L2⟩
    · rw [hp, div_le_iff₀ σ0]
      norm_num
      linarith
    · exact logL_round (by linarith) (by linarith) (by norm_num; linarith) (by norm_num; linarith) (by norm_num; linarith) σθ hp
        sσ hφ φ0 φ1 ec es' hr hl

/-- The exact logarithm, in the terms of the code. -/
theorem log_exact (m : AlMath.Velocity6D) (h : angSpeed m ≤ Real.pi) (hs : 0.0011 ≤ Real.sin (angSpeed m)) :
    ∃ (H : AlMath.Transform) (n1 n2 n3 : ℝ), H.mat = exp (twist m) ∧ n1 ^ 2 + n2 ^ 2 + n3 ^ 2 = 1 ∧
      m.wxd = angSpeed m * n1 ∧ m.wyd = angSpeed m * n2 ∧ m.wzd = angSpeed m * n3 ∧
      H.r32 - H.r23 = 2 * Real.sin (angSpeed m) * n1 ∧ H.r13 - H.r31 = 2 * Real.sin (angSpeed m) * n2 ∧
      H.r21 - H.r12 = 2 * Real.sin (angSpeed m) * n3 ∧ 0.5 * (H.r11 + H.r22 + H.r33 - 1) = Real.cos (angSpeed m) ∧
      m.xd = H.r24 * (logL (angSpeed m) * n2 * n1 - angSpeed m * (-n3) / 2) +
        H.r34 * (logL (angSpeed m) * (-n3) * (-n1) - angSpeed m * n2 / 2) + H.r14 * (1 - logL (angSpeed m) * (n2 ^ 2 + (-n3) ^ 2)) ∧
      m.yd = H.r24 * (1 - logL (angSpeed m) * ((-n1) ^ 2 + (-n3) ^ 2)) +
        H.r14 * (logL (angSpeed m) * (-n2) * (-n1) - angSpeed m * n3 / 2) +
        H.r34 * (logL (angSpeed m) * n3 * n2 - angSpeed m * (-n1) / 2) ∧
      m.zd = H.r34 * (1 - logL (angSpeed m) * ((-n1) ^ 2 + n2 ^ 2)) +
        H.r14 * (logL (angSpeed m) * n3 * n1 - angSpeed m * (-n2) / 2) +
        H.r24 * (logL (angSpeed m) * (-n3) * (-n2) - angSpeed m * n1 / 2) := by
  have hs' : 0.001 ≤ Real.sin (angSpeed m) := by norm_num at hs ⊢; linarith
  have ht0 : 0 ≤ angSpeed m := Real.sqrt_nonneg _
  have hge : 0.001 ≤ angSpeed m := hs'.trans (Real.sin_le ht0)
  have hsq := angSpeed_sq m
  have e1 := (C21_log_exp m ⟨0, 0, 0, 0, 0, 0⟩ (Or.inr ⟨h, hs'⟩)).1
  have e2 := C20_exp m (Or.inr hge)
  have e3 := velocityExponential_eq m
  rw [if_pos hge] at e3
  generalize angSpeed m = θ at *
  have θ0 : θ ≠ 0 := by intro h0; rw [h0] at hge; norm_num at hge
  have s0 : Real.sin θ ≠ 0 := by intro h0; rw [h0] at hs; norm_num at hs
  generalize hH : AlMath.velocityExponential m = H at *
  have d1 : H.r32 - H.r23 = 2 * (Real.sin θ / θ) * m.wxd := by rw [e3]; simp only [AlMath.expMatrix]; ring
  have d2 : H.r13 - H.r31 = 2 * (Real.sin θ / θ) * m.wyd := by rw [e3]; simp only [AlMath.expMatrix]; ring
  have d3 : H.r21 - H.r12 = 2 * (Real.sin θ / θ) * m.wzd := by rw [e3]; simp only [AlMath.expMatrix]; ring
  have hsi : AlMath.logSi H = Real.sin θ := by
    unfold AlMath.logSi
    rw [d1, d2, d3]
    have : 2 * (Real.sin θ / θ) * m.wxd * (2 * (Real.sin θ / θ) * m.wxd) + 2 * (Real.sin θ / θ) * m.wyd *
        (2 * (Real.sin θ / θ) * m.wyd) + 2 * (Real.sin θ / θ) * m.wzd * (2 * (Real.sin θ / θ) * m.wzd) =
        (2 * Real.sin θ) ^ 2 := by
      have h1 : Real.sin θ / θ * θ = Real.sin θ := by field_simp
      generalize Real.sin θ / θ = q at h1 ⊢
      rw [← h1]
      linear_combination (-4 * q ^ 2) * hsq
    rw [this, Real.sqrt_sq (by linarith)]
    ring
  have hco : AlMath.logCo H = Real.cos θ := by
    have h1 : (1 - Real.cos θ) / (θ * θ) * θ ^ 2 = 1 - Real.cos θ := by field_simp
    unfold AlMath.logCo
    rw [e3]
    simp only [AlMath.expMatrix]
    norm_num
    linear_combination ((1 - Real.cos θ) / (θ * θ)) * hsq - h1
  obtain ⟨-, hlog⟩ := log_regular H ⟨0, 0, 0, 0, 0, 0⟩ ht0 h hsi hco hs'
  rw [e1] at hlog
  have hk : ∀ a : ℝ, θ / (2 * Real.sin θ) * (2 * (Real.sin θ / θ) * a) = a := by
    intro a; field_simp
  rw [d1, d2, d3, hk, hk, hk] at hlog
  have hL : 0.5 * (2 * Real.sin θ - θ * (1 + Real.cos θ)) / (θ * θ * Real.sin θ) = logL θ / θ ^ 2 := by
    unfold logL
    field_simp
    norm_num
  rw [hL] at hlog
  refine ⟨H, m.wxd / θ, m.wyd / θ, m.wzd / θ, e2, ?_, ?_, ?_, ?_, ?_, ?_, ?_, ?_, ?_, ?_, ?_⟩
  · field_simp
    linarith
  · field_simp
  · field_simp
  · field_simp
  · rw [d1]; ring
  · rw [d2]; ring
  · rw [d3]; ring
  · exact hco
  · have := congrArg AlMath.Velocity6D.xd hlog
    simp only [] at this
    rw [this]
    clear this hlog e1 d1 d2 d3 hsi hco e2 hH e3
    field_simp
    norm_num
    ring
  · have := congrArg AlMath.Velocity6D.yd hlog
    simp only [] at this
    rw [this]
    clear this hlog e1 d1 d2 d3 hsi hco e2 hH e3
    field_simp
    norm_num
    ring
  · have := congrArg AlMath.Velocity6D.zd hlog
    simp only [] at this
    rw [this]
    clear this hlog e1 d1 d2 d3 hsi hco e2 hH e3
    field_simp
    norm_num
    ring

theorem rot_entry_le {P : Matrix (Fin 3) (Fin 3) ℝ} (hP : IsRot P) (i j : Fin 3) : |P i j| ≤ 1 := by
  have h2 : P i j ^ 2 ≤ 1 := by
    have h3 : (P.transpose * P) j j = 1 := by rw [hP.1, Matrix.one_apply_eq]
    rw [Matrix.mul_apply] at h3
    rw [← h3]
    calc P i j ^ 2 = P.transpose j i * P i j := by rw [Matrix.transpose_apply, pow_two]
      _ ≤ _ := Finset.single_le_sum (f := fun k => P.transpose j k * P k j)
        (fun k _ => by rw [Matrix.transpose_apply]; exact mul_self_nonneg _) (Finset.mem_univ i)
  exact abs_le_one_iff_mul_self_le_one.2 (by rwa [← pow_two])

/-- One component of the linear velocity: the entries of the inverse of the Jacobian within `45 τ`, the translation within
`δ`. -/
theorem log_row {f g h : F32} {J K L x y z x' y' z' V δ τ : ℝ} (hf : Near f J (45 * τ)) (hg : Near g K (45 * τ))
    (hh : Near h L (45 * τ)) (hJ : |J| ≤ 2.6) (hK : |K| ≤ 2.6) (hL : |L| ≤ 2.6) (hx : |x| ≤ V) (hy : |y| ≤ V) (hz : |z| ≤ V)
    (hV : V ≤ 2 ^ 60) (hτ : 4 / 16777216 ≤ τ) (hτ2 : τ ≤ 0.024) (kx : |x - x'| ≤ δ) (ky : |y - y'| ≤ δ) (kz : |z - z'| ≤ δ) :
    ∃ w, add (add (mul (fin x) f) (mul (fin y) g)) (mul (fin z) h) = fin w ∧
      |w - (x' * J + y' * K + z' * L)| ≤ 2 ^ 8 * (τ * V) + 8 * δ + 2 ^ (-70 : ℤ) := by
  have V0 : 0 ≤ V := (abs_nonneg x).trans hx
  rw [mul_swap _ f, mul_swap _ g, mul_swap _ h]
  have l3 : (2.6 : ℝ) ≤ 3 := by norm_num
  obtain ⟨w, ew, -, hw⟩ := row_near hf hg hh (hJ.trans l3) (hK.trans l3) (hL.trans l3) hx hy hz hV (by norm_num at *; linarith)
    le_rfl
  refine ⟨w, ew, ?_⟩
  have b1 : |J * (x - x')| ≤ 2.6 * δ := by rw [abs_mul]; exact mul_le_mul hJ kx (abs_nonneg _) (by norm_num)
  have b2 : |K * (y - y')| ≤ 2.6 * δ := by rw [abs_mul]; exact mul_le_mul hK ky (abs_nonneg _) (by norm_num)
  have b3 : |L * (z - z')| ≤ 2.6 * δ := by rw [abs_mul]; exact mul_le_mul hL kz (abs_nonneg _) (by norm_num)
  have e : w - (x' * J + y' * K + z' * L) =
      (w - (J * x + K * y + L * z)) + (J * (x - x') + K * (y - y') + L * (z - z')) := by ring
  have t := mul_le_mul_of_nonneg_right hτ V0
  have δ0 : 0 ≤ δ := (abs_nonneg _).trans kx
  rw [e]
  generalize J * (x - x') = X at *
  generalize K * (y - y') = Y at *
  generalize L * (z - z') = Z at *
  have k1 := abs_add_le (w - (J * x + K * y + L * z)) (X + Y + Z)
  have k2 := abs_add_three X Y Z
  have e2 : 45 * τ * V = 45 * (τ * V) := by ring
  rw [e2] at hw
  have t0 : 0 ≤ τ * V := mul_nonneg (by linarith) V0
  have w1 : (1 : ℝ) / 10 ^ 24 ≤ 2 ^ (-70 : ℤ) := by norm_num
  generalize τ * V = T at *
  generalize |X + Y + Z| = q at *
  norm_num at hw b1 b2 b3 w1 t ⊢
  linarith

/-- The three components of the linear velocity. -/
theorem log_rows {θ σ p φ s k c2 l L Dx Dy Dz n1 n2 n3 V δ τ : ℝ} (LC : LogCoef θ σ p φ s k c2 l L) (hτ : τ = θ * p)
    (bc2 : |c2| ≤ 10 ^ 7) (hDE : (Dx / (2 * s)) ^ 2 + (Dy / (2 * s)) ^ 2 + (Dz / (2 * s)) ^ 2 ≤ 1.01)
    (hn : n1 ^ 2 + n2 ^ 2 + n3 ^ 2 = 1) (b1 : |n1| ≤ 1) (b2 : |n2| ≤ 1) (b3 : |n3| ≤ 1)
    (k1 : |Dx - 2 * σ * n1| ≤ 2 * (σ * p)) (k2 : |Dy - 2 * σ * n2| ≤ 2 * (σ * p)) (k3 : |Dz - 2 * σ * n3| ≤ 2 * (σ * p))
    {v t : Fin 3 → ℝ} (hV : ∀ i, |v i| ≤ V) (hV2 : V ≤ 2 ^ 60) (htr : ∀ i, |v i - t i| ≤ δ) :
    ∃ wx wy wz, add (add (mul (fin (v 1)) (sub (mul (mul (mul (fin c2) (fin Dy)) (fin Dx)) (fin l)) (mul (mul (fin 0.5) (fin k)) (fin (-Dz))))) (mul (fin (v 2)) (sub (mul (mul (mul (fin c2) (fin (-Dz))) (fin (-Dx))) (fin l)) (mul (mul (fin 0.5) (fin k)) (fin Dy)))))
        (mul (fin (v 0)) (add (mul (mul (fin c2) (add (mul (fin Dy) (fin (-Dy))) (mul (fin (-Dz)) (fin Dz)))) (fin l)) (fin 1))) = fin wx ∧
      add (add (mul (fin (v 1)) (add (mul (mul (fin c2) (add (mul (fin (-Dx)) (fin Dx)) (mul (fin (-Dz)) (fin Dz)))) (fin l)) (fin 1))) (mul (fin (v 0)) (sub (mul (mul (mul (fin c2) (fin (-Dy))) (fin (-Dx))) (fin l)) (mul (mul (fin 0.5) (fin k)) (fin Dz)))))
        (mul (fin (v 2)) (sub (mul (mul (mul (fin c2) (fin Dz)) (fin Dy)) (fin l)) (mul (mul (fin 0.5) (fin k)) (fin (-Dx))))) = fin wy ∧
      add (add (mul (fin (v 2)) (add (mul (mul (fin c2) (add (mul (fin (-Dx)) (fin Dx)) (mul (fin Dy) (fin (-Dy))))) (fin l)) (fin 1))) (mul (fin (v 0)) (sub (mul (mul (mul (fin c2) (fin Dz)) (fin Dx)) (fin l)) (mul (mul (fin 0.5) (fin k)) (fin (-Dy))))))
        (mul (fin (v 1)) (sub (mul (mul (mul (fin c2) (fin (-Dz))) (fin (-Dy))) (fin l)) (mul (mul (fin 0.5) (fin k)) (fin Dx)))) = fin wz ∧
      |wx - (t 1 * (L * n2 * n1 - θ * (-n3) / 2) + t 2 * (L * (-n3) * (-n1) - θ * n2 / 2) +
        t 0 * (1 - L * (n2 ^ 2 + (-n3) ^ 2)))| ≤ 2 ^ 8 * (τ * V) + 8 * δ + 2 ^ (-70 : ℤ) ∧
      |wy - (t 1 * (1 - L * ((-n1) ^ 2 + (-n3) ^ 2)) + t 0 * (L * (-n2) * (-n1) - θ * n3 / 2) +
        t 2 * (L * n3 * n2 - θ * (-n1) / 2))| ≤ 2 ^ 8 * (τ * V) + 8 * δ + 2 ^ (-70 : ℤ) ∧
      |wz - (t 2 * (1 - L * ((-n1) ^ 2 + n2 ^ 2)) + t 0 * (L * n3 * n1 - θ * (-n2) / 2) +
        t 1 * (L * (-n3) * (-n2) - θ * n1 / 2))| ≤ 2 ^ 8 * (τ * V) + 8 * δ + 2 ^ (-70 : ℤ) := by
  have θ1 := LC.θ1
  have ht0 : 0 ≤ θ := by have := LC.θ0; norm_num at this; linarith
  have p0 := LC.p0
  have τ1 : 4 / 16777216 ≤ τ := by
    rw [hτ]
    exact LC.u.trans (mul_le_mul_of_nonneg_right LC.σθ p0.le)
  have τ2 : τ ≤ 0.024 := by
    rw [hτ]
    have := mul_le_mul θ1 LC.p1 p0.le (by norm_num)
    norm_num at this ⊢
    linarith
  have L0 := LC.L0
  have L1 := LC.L1
  have flip : ∀ {D n : ℝ}, |D - 2 * σ * n| ≤ 2 * (σ * p) → |-D - 2 * σ * (-n)| ≤ 2 * (σ * p) := fun {D n} h => by
    rw [show -D - 2 * σ * (-n) = -(D - 2 * σ * n) by ring, abs_neg]; exact h
  have m1 := flip k1
  have m2 := flip k2
  have m3 := flip k3
  have g1 : |(-n1)| ≤ 1 := by rwa [abs_neg]
  have g2 : |(-n2)| ≤ 1 := by rwa [abs_neg]
  have g3 : |(-n3)| ≤ 1 := by rwa [abs_neg]
  have z1 := sq_nonneg n1
  have z2 := sq_nonneg n2
  have z3 := sq_nonneg n3
  have y1 := sq_nonneg (Dx / (2 * s))
  have y2 := sq_nonneg (Dy / (2 * s))
  have y3 := sq_nonneg (Dz / (2 * s))
  have sqn : ∀ D : ℝ, (-D / (2 * s)) ^ 2 = (D / (2 * s)) ^ 2 := fun D => by ring
  have i12 : n1 ^ 2 + n2 ^ 2 ≤ 1 := by linarith
  have i13 : n1 ^ 2 + n3 ^ 2 ≤ 1 := by linarith
  have i23 : n2 ^ 2 + n3 ^ 2 ≤ 1 := by linarith
  have j12 : (Dx / (2 * s)) ^ 2 + (Dy / (2 * s)) ^ 2 ≤ 1.01 := by linarith
  have j13 : (Dx / (2 * s)) ^ 2 + (Dz / (2 * s)) ^ 2 ≤ 1.01 := by linarith
  have j23 : (Dy / (2 * s)) ^ 2 + (Dz / (2 * s)) ^ 2 ≤ 1.01 := by linarith
  have o12 := LC.off bc2 b2 k2 b1 k1 g3 m3
  have o13 := LC.off bc2 g3 m3 g1 m1 b2 k2
  have o11 := LC.diag bc2 b2 k2 g3 m3 (by rw [neg_sq]; exact i23) (by rw [sqn]; exact j23)
  have o22 := LC.diag bc2 g1 m1 g3 m3 (by rw [neg_sq, neg_sq]; exact i13) (by rw [sqn, sqn]; exact j13)
  have o21 := LC.off bc2 g2 m2 g1 m1 b3 k3
  have o23 := LC.off bc2 b3 k3 b2 k2 g1 m1
  have o33 := LC.diag bc2 g1 m1 b2 k2 (by rw [neg_sq]; exact i12) (by rw [sqn]; exact j12)
  have o31 := LC.off bc2 b3 k3 b1 k1 g2 m2
  have o32 := LC.off bc2 g3 m3 g2 m2 b1 k1
  rw [← hτ] at o12 o13 o11 o22 o21 o23 o33 o31 o32
  simp only [neg_neg] at o11 o22 o33
  have bo : ∀ n m o : ℝ, |n| ≤ 1 → |m| ≤ 1 → |o| ≤ 1 → |L * n * m - θ * o / 2| ≤ 2.6 := fun n m o hn hm ho => by
    have j1 : |L * n * m| ≤ 1 := by
      rw [abs_mul, abs_mul, abs_of_nonneg L0]
      have := mul_le_mul (mul_le_mul L1 hn (abs_nonneg _) (by norm_num)) hm (abs_nonneg _) (by norm_num)
      linarith
    have j2 : |θ * o / 2| ≤ 1.575 := by
      rw [abs_div, abs_mul, abs_of_nonneg ht0, abs_two]
      have := mul_le_mul θ1 ho (abs_nonneg _) (by norm_num)
      norm_num at this ⊢
      linarith
    refine (abs_sub _ _).trans ((add_le_add j1 j2).trans ?_)
    norm_num
  have bd : ∀ q : ℝ, 0 ≤ q → q ≤ 1 → |1 - L * q| ≤ 2.6 := fun q h0 h1 => by
    have j1 := mul_nonneg L0 h0
    have j2 := mul_le_mul L1 h1 h0 (by norm_num)
    rw [abs_le]
    constructor <;> norm_num <;> linarith
  obtain ⟨wxd, ex, hxd⟩ := log_row o12 o13 o11 (bo _ _ _ b2 b1 g3) (bo _ _ _ g3 g1 b2)
    (bd _ (by positivity) (by rw [neg_sq]; exact i23)) (hV 1) (hV 2) (hV 0) hV2 τ1 τ2 (htr 1) (htr 2) (htr 0)
  obtain ⟨wyd, ey, hyd⟩ := log_row o22 o21 o23 (bd _ (by positivity) (by rw [neg_sq, neg_sq]; exact i13)) (bo _ _ _ g2 g1 b3)
    (bo _ _ _ b3 b2 g1) (hV 1) (hV 0) (hV 2) hV2 τ1 τ2 (htr 1) (htr 0) (htr 2)
  obtain ⟨wzd, ez, hzd⟩ := log_row o33 o31 o32 (bd _ (by positivity) (by rw [neg_sq]; exact i12)) (bo _ _ _ b3 b1 g2)
    (bo _ _ _ g3 g2 b1) (hV 2) (hV 0) (hV 1) hV2 τ1 τ2 (htr 2) (htr 0) (htr 1)
  exact ⟨wxd, wyd, wzd, ex, ey, ez, hxd, hyd, hzd⟩

/-- The logarithm of a matrix near the exponential of a twist, in single precision. -/
theorem C102_log {atan2 : F32 → F32 → F32} (ha : Atan2Accurate atan2) {pow2 : F32 → F64} (hp : Pow2Accurate pow2)
    (m : AlMath.Velocity6D) (h : angSpeed m ≤ Real.pi) (hs : 0.0011 ≤ Real.sin (angSpeed m)) (A : Matrix (Fin 3) (Fin 3) ℝ)
    (v : Fin 3 → ℝ) (ε δ V : ℝ) (hε : ε ≤ 2 ^ (-17 : ℤ))
    (hA : ∀ i j : Fin 3, |A i j - exp (twist m) i.castSucc j.castSucc| ≤ ε)
    (hv : ∀ i : Fin 3, |v i - exp (twist m) i.castSucc 3| ≤ δ) (hV : ∀ i, |v i| ≤ V) (hV2 : V ≤ 2 ^ 60) :
    ∃ w, transformLogarithm atan2 pow2 (Transform.ofMat A v) = ofVelocity w ∧
      (∀ i, |angVel w i - angVel m i| ≤ 2 ^ 4 * (angSpeed m / Real.sin (angSpeed m)) * (ε + 2 ^ (-22 : ℤ))) ∧
      (∀ i, |![w.xd, w.yd, w.zd] i - ![m.xd, m.yd, m.zd] i| ≤
        2 ^ 8 * (angSpeed m / Real.sin (angSpeed m)) * (ε + 2 ^ (-22 : ℤ)) * V + 8 * δ + 2 ^ (-70 : ℤ)) := by
  obtain ⟨H, n1, n2, n3, hH, hn, w1, w2, w3, d1, d2, d3, hc, x1, x2, x3⟩ := log_exact m h hs
  have hrot : ∀ i j : Fin 3, |A i j - H.rotMat i j| ≤ ε := fun i j => by rw [← mat_rot, hH]; exact hA i j
  have htr : ∀ i : Fin 3, |v i - H.trans i| ≤ δ := fun i => by rw [← mat_trans, hH]; exact hv i
  have hR : IsRot H.rotMat := by
    have := exp_isRot m
    rw [← hH] at this
    convert this using 1
    ext i j
    rw [Matrix.of_apply, mat_rot]
  have ε0 : 0 ≤ ε := (abs_nonneg _).trans (hrot 0 0)
  have ht0 : 0 ≤ angSpeed m := Real.sqrt_nonneg _
  clear hA hv hH
  generalize angSpeed m = θ at *
  have hσ1 := Real.sin_le_one θ
  have θσ := Real.sin_le ht0
  have σ0 : 0 < Real.sin θ := by norm_num at hs; linarith
  have b1 : |n1| ≤ 1 := abs_le_one_iff_mul_self_le_one.2 (by nlinarith [sq_nonneg n2, sq_nonneg n3])
  have b2 : |n2| ≤ 1 := abs_le_one_iff_mul_self_le_one.2 (by nlinarith [sq_nonneg n1, sq_nonneg n3])
  have b3 : |n3| ≤ 1 := abs_le_one_iff_mul_self_le_one.2 (by nlinarith [sq_nonneg n2, sq_nonneg n1])
  have dle : ∀ n : ℝ, |n| ≤ 1 → |2 * Real.sin θ * n| ≤ 2 := fun n hn => by
    rw [abs_mul, abs_of_pos (by linarith)]
    have := mul_le_mul (show 2 * Real.sin θ ≤ 2 by linarith) hn (abs_nonneg _) (by norm_num)
    linarith
  have hε2 : ε ≤ 0.01 := hε.trans (by norm_num)
  obtain ⟨η, hη⟩ : ∃ η, η = ε + 2 ^ (-22 : ℤ) := ⟨_, rfl⟩
  have η1 : 4 / 16777216 ≤ η := by rw [hη]; norm_num; linarith
  have η2 : η ≤ 8 / 10 ^ 6 := by rw [hη]; norm_num at hε ⊢; linarith
  obtain ⟨q1, -, k1⟩ := entry_diff_fin (hrot 2 1) (hrot 1 2) (show |H.r32 - H.r23| ≤ 2 by rw [d1]; exact dle n1 b1) hε2
  obtain ⟨q2, -, k2⟩ := entry_diff_fin (hrot 0 2) (hrot 2 0) (show |H.r13 - H.r31| ≤ 2 by rw [d2]; exact dle n2 b2) hε2
  obtain ⟨q3, -, k3⟩ := entry_diff_fin (hrot 1 0) (hrot 0 1) (show |H.r21 - H.r12| ≤ 2 by rw [d3]; exact dle n3 b3) hε2
  have k1' : |rnd (A 2 1 - A 1 2) - 2 * Real.sin θ * n1| ≤ 2 * η := by
    rw [← d1]; refine k1.trans ?_; rw [hη]; norm_num; linarith
  have k2' : |rnd (A 0 2 - A 2 0) - 2 * Real.sin θ * n2| ≤ 2 * η := by
    rw [← d2]; refine k2.trans ?_; rw [hη]; norm_num; linarith
  have k3' : |rnd (A 1 0 - A 0 1) - 2 * Real.sin θ * n3| ≤ 2 * η := by
    rw [← d3]; refine k3.trans ?_; rw [hη]; norm_num; linarith
  clear k1 k2 k3
  generalize rnd (A 2 1 - A 1 2) = Dx at *
  generalize rnd (A 0 2 - A 2 0) = Dy at *
  generalize rnd (A 1 0 - A 0 1) = Dz at *
  obtain ⟨c, ec, rc, hc2⟩ := co_fin (hrot 0 0) (hrot 1 1) (hrot 2 2) (rot_entry_le hR 0 0) (rot_entry_le hR 1 1) (rot_entry_le hR 2 2) hε2
  have hc3 : |c - Real.cos θ| ≤ 1.75 * η := by
    rw [← hc]; refine hc2.trans ?_; rw [hη]; norm_num; linarith
  obtain ⟨φ, s, a, k, c2, l, es, hlt, ea, ek, ec2, el, bc2, hDE, LC⟩ := log_coef ha hp ht0 h hs hn η1 η2 k1' k2' k3' rc hc3
  obtain ⟨p, hp'⟩ : ∃ p, p = η / Real.sin θ := ⟨_, rfl⟩
  have σp : Real.sin θ * p = η := by rw [hp']; field_simp
  rw [← hp'] at LC
  rw [← σp] at k1' k2' k3'
  have e16 : 2 ^ 4 * (θ / Real.sin θ) * (ε + 2 ^ (-22 : ℤ)) = 2 ^ 4 * (θ * p) := by rw [← hη, hp']; ring
  have e256 : 2 ^ 8 * (θ / Real.sin θ) * (ε + 2 ^ (-22 : ℤ)) * V = 2 ^ 8 * (θ * p * V) := by rw [← hη, hp']; ring
  rw [e16, e256]
  have b : 13 * (θ * p) ≤ 2 ^ 4 * (θ * p) := mul_le_mul_of_nonneg_right (by norm_num) (mul_nonneg ht0 LC.p0.le)
  obtain ⟨wx, ewx, -, hwx⟩ := LC.ang b1 k1'
  obtain ⟨wy, ewy, -, hwy⟩ := LC.ang b2 k2'
  obtain ⟨wz, ewz, -, hwz⟩ := LC.ang b3 k3'
  obtain ⟨wxd, wyd, wzd, ex, ey, ez, hxd, hyd, hzd⟩ := log_rows LC rfl bc2 hDE hn b1 b2 b3 k1' k2' k3' hV hV2 htr
  have q1' : sub (fin (A 1 2)) (fin (A 2 1)) = fin (-Dx) := by rw [sub_swap, q1, neg]
  have q2' : sub (fin (A 2 0)) (fin (A 0 2)) = fin (-Dy) := by rw [sub_swap, q2, neg]
  have q3' : sub (fin (A 0 1)) (fin (A 1 0)) = fin (-Dz) := by rw [sub_swap, q3, neg]
  refine ⟨⟨wxd, wyd, wzd, wx, wy, wz⟩, ?_, ?_, ?_⟩
  · unfold transformLogarithm
    rw [log_main atan2 pow2 (Transform.ofMat A v) _ (si := fin s) (co := fin c) (angle := fin a) (coeff := fin k)
      (c2 := fin c2) (l := fin l) ?_ ec ea hlt ek ec2 el]
    · simp only [Transform.ofMat, Rotation.ofMat, ofVelocity]
      rw [q1, q2, q3, q1', q2', q3', ex, ey, ez, ewx, ewy, ewz]
    · simp only [logSi, Transform.ofMat, Rotation.ofMat]
      rw [q1, q2, q3]
      exact es
  · intro i
    fin_cases i
    · change |wx - m.wxd| ≤ _
      rw [w1]
      exact hwx.trans b
    · change |wy - m.wyd| ≤ _
      rw [w2]
      exact hwy.trans b
    · change |wz - m.wzd| ≤ _
      rw [w3]
      exact hwz.trans b
  · intro i
    fin_cases i
    · change |wxd - m.xd| ≤ _
      rw [x1]
      exact hxd
    · change |wyd - m.yd| ≤ _
      rw [x2]
      exact hyd
    · change |wzd - m.zd| ≤ _
      rw [x3]
      exact hzd

/-- The translation of the exponential of a twist is no longer than the linear velocity. -/
theorem exp_trans_le (m : AlMath.Velocity6D) (h : angSpeed m ≠ 0) :
    exp (twist m) 0 3 ^ 2 + exp (twist m) 1 3 ^ 2 + exp (twist m) 2 3 ^ 2 ≤ m.xd ^ 2 + m.yd ^ 2 + m.zd ^ 2 := by
  have hsq := angSpeed_sq m
  rw [exp_coef m h]
  change (AlMath.expMatrix _ _ _ m).r14 ^ 2 + (AlMath.expMatrix _ _ _ m).r24 ^ 2 + (AlMath.expMatrix _ _ _ m).r34 ^ 2 ≤ _
  generalize angSpeed m = θ at *
  have hc := Real.one_sub_sq_div_two_le_cos (x := θ)
  have hs := Real.sin_sq_add_cos_sq θ
  simp only [AlMath.expMatrix]
  have e1 : Real.sin θ / θ = 1 - (θ - Real.sin θ) / θ ^ 3 * (m.wxd * m.wxd + m.wyd * m.wyd + m.wzd * m.wzd) := by
    rw [← hsq]; field_simp; ring
  have e2 : ((1 - Real.cos θ) / θ ^ 2) ^ 2 + ((θ - Real.sin θ) / θ ^ 3) ^ 2 *
      (m.wxd * m.wxd + m.wyd * m.wyd + m.wzd * m.wzd) - 2 * ((θ - Real.sin θ) / θ ^ 3) ≤ 0 := by
    have : ((1 - Real.cos θ) / θ ^ 2) ^ 2 + ((θ - Real.sin θ) / θ ^ 3) ^ 2 * θ ^ 2 - 2 * ((θ - Real.sin θ) / θ ^ 3) =
        (Real.sin θ ^ 2 + Real.cos θ ^ 2 + 1 - 2 * Real.cos θ - θ ^ 2) / θ ^ 4 := by field_simp; ring
    rw [← hsq, this, hs]
    exact div_nonpos_of_nonpos_of_nonneg (by linarith) (by positivity)
  rw [e1]
  generalize (1 - Real.cos θ) / θ ^ 2 = C at *
  generalize (θ - Real.sin θ) / θ ^ 3 = d at *
  obtain ⟨x, y, z, a, b, c⟩ := m
  simp only at *
  have b2 : 0 ≤ (b * z - c * y) ^ 2 + (c * x - a * z) ^ 2 + (a * y - b * x) ^ 2 := by positivity
  have := mul_nonpos_of_nonneg_of_nonpos b2 e2
  linarith

/-- Logarithm of the exponential, both in single precision. -/
theorem C102_log_exp (l : Libm) (hl : l.Accurate) (pow3 : F32 → F64) (hp3 : Pow3Accurate pow3) {atan2 : F32 → F32 → F32}
    (ha : Atan2Accurate atan2) {pow2 : F32 → F64} (hp : Pow2Accurate pow2)
    (m : AlMath.Velocity6D) (V : ℝ) (h : angSpeed m ≤ Real.pi) (hs : 0.0011 ≤ Real.sin (angSpeed m)) (hx : |m.xd| ≤ V)
    (hy : |m.yd| ≤ V) (hz : |m.zd| ≤ V) (hV : V ≤ 2 ^ 59) :
    ∃ w, transformLogarithm atan2 pow2 (velocityExponential l pow3 (ofVelocity m)) = ofVelocity w ∧
      (∀ i, |angVel w i - angVel m i| ≤ 2 ^ (-15 : ℤ) * (1 + angSpeed m) * (angSpeed m / Real.sin (angSpeed m))) ∧
      (∀ i, |![w.xd, w.yd, w.zd] i - ![m.xd, m.yd, m.zd] i| ≤
        (2 ^ (-10 : ℤ) * (1 + angSpeed m) * (angSpeed m / Real.sin (angSpeed m)) + 2 ^ (-16 : ℤ) / angSpeed m) * V +
          2 ^ (-66 : ℤ)) := by
  have V0 := (abs_nonneg _).trans hx
  have pi1 := Real.pi_lt_d6
  have t0 : 0 ≤ angSpeed m := Real.sqrt_nonneg _
  have tσ := Real.sin_le t0
  have σ0 : 0 < Real.sin (angSpeed m) := by norm_num at hs; linarith
  have hT := exp_trans_le m (by norm_num at hs; intro h0; rw [h0, Real.sin_zero] at hs; norm_num at hs)
  obtain ⟨A, v, e, hA, hv, -⟩ := C101_exp l hl pow3 hp3 m V (h.trans (by norm_num; linarith)) hx hy hz (hV.trans (by norm_num))
  have T : ∀ i : Fin 3, |exp (twist m) i.castSucc 3| ≤ 1.7321 * V := by
    intro i
    refine abs_le_of_sq_le_sq ?_ (by positivity)
    have a1 : m.xd ^ 2 ≤ V ^ 2 := sq_le_sq' (abs_le.1 hx).1 (abs_le.1 hx).2
    have a2 : m.yd ^ 2 ≤ V ^ 2 := sq_le_sq' (abs_le.1 hy).1 (abs_le.1 hy).2
    have a3 : m.zd ^ 2 ≤ V ^ 2 := sq_le_sq' (abs_le.1 hz).1 (abs_le.1 hz).2
    have b1 := sq_nonneg (exp (twist m) 0 3)
    have b2 := sq_nonneg (exp (twist m) 1 3)
    have b3 := sq_nonneg (exp (twist m) 2 3)
    have b4 := sq_nonneg V
    have : (1.7321 * V) ^ 2 = 3.00017041 * V ^ 2 := by ring
    rw [this]
    fin_cases i
    · change exp (twist m) 0 3 ^ 2 ≤ _; linarith
    · change exp (twist m) 1 3 ^ 2 ≤ _; linarith
    · change exp (twist m) 2 3 ^ 2 ≤ _; linarith
  clear hT hx hy hz
  have hm := h
  generalize hθ : angSpeed m = θ at h hs t0 tσ σ0 hA hv ⊢
  obtain ⟨δ, hδ⟩ : ∃ δ, δ = (2 ^ (-16 : ℤ) + 2 ^ (-19 : ℤ) / θ) * V + 2 ^ (-70 : ℤ) := ⟨_, rfl⟩
  rw [← hδ] at hv
  norm_num at hs
  have θ1 : 0.0011 ≤ θ := by norm_num; linarith
  have θ2 : θ ≤ 3.15 := by norm_num; linarith
  have θ0 : 0 < θ := by linarith
  obtain ⟨g, hg⟩ : ∃ g, g = V / θ := ⟨_, rfl⟩
  have gV : g ≤ V * (10000 / 11) := by
    rw [hg, div_le_iff₀ θ0]
    norm_num at θ1
    have := mul_le_mul_of_nonneg_left θ1 V0
    linarith
  have δ1 : δ = 2 ^ (-16 : ℤ) * V + 2 ^ (-19 : ℤ) * g + 2 ^ (-70 : ℤ) := by rw [hδ, hg]; ring
  have hV' : ∀ i, |v i| ≤ 1.734 * V + 2 ^ (-70 : ℤ) := by
    intro i
    have := le_of_err (hv i)
    have := T i
    rw [δ1] at *
    norm_num at *
    linarith
  obtain ⟨w, k1, k2, k3⟩ := C102_log ha hp m hm (by rw [hθ]; norm_num; linarith) A v _ δ (1.734 * V + 2 ^ (-70 : ℤ))
    (by norm_num at θ2 ⊢; linarith) hA hv hV' (by norm_num at hV ⊢; linarith)
  rw [hθ] at k2 k3
  obtain ⟨κ, hκ⟩ : ∃ κ, κ = θ / Real.sin θ := ⟨_, rfl⟩
  have κ1 : 1 ≤ κ := by rw [hκ, le_div_iff₀ σ0]; linarith
  have κ2 : κ ≤ 3.15 * (10000 / 11) := by
    rw [hκ, div_le_iff₀ σ0]
    norm_num at θ2 ⊢
    linarith
  rw [← hκ] at k2 k3 ⊢
  have κθ : κ * θ ≤ κ * 3.15 := mul_le_mul_of_nonneg_left θ2 (by linarith)
  have κθ0 : 0 ≤ κ * θ := by positivity
  refine ⟨w, by rw [e, k1], fun i => (k2 i).trans ?_, fun i => (k3 i).trans ?_⟩
  · clear k2 k3 hA hv hV' T
    norm_num at κθ ⊢
    nlinarith
  · clear k2 k3 hA hv hV' T
    have e1 : 2 ^ (-16 : ℤ) / θ * V = 2 ^ (-16 : ℤ) * g := by rw [hg]; ring
    rw [add_mul, e1, δ1]
    have κV : V ≤ κ * V := le_mul_of_one_le_left V0 κ1
    have κθV : 0 ≤ κ * θ * V := by positivity
    have e2 : 2 ^ 8 * κ * (2 ^ (-20 : ℤ) + 2 ^ (-19 : ℤ) * θ + 2 ^ (-22 : ℤ)) * (1.734 * V + 2 ^ (-70 : ℤ)) =
      2 ^ 8 * ((2 ^ (-20 : ℤ) + 2 ^ (-22 : ℤ)) * (1.734 * (κ * V) + 2 ^ (-70 : ℤ) * κ) +
        2 ^ (-19 : ℤ) * (1.734 * (κ * θ * V) + 2 ^ (-70 : ℤ) * (κ * θ))) := by ring
    have e3 : 2 ^ (-10 : ℤ) * (1 + θ) * κ * V = 2 ^ (-10 : ℤ) * (κ * V + κ * θ * V) := by ring
    rw [e2, e3]
    generalize κ * V = a at *
    generalize κ * θ * V = b at *
    generalize κ * θ = c at *
    norm_num at κθ κ2 ⊢
    linarith

/-- Exact on transforms without rotation, if `atan2(0, 1)` and `pow(0, 2)` are zero. -/
theorem C102_translation (atan2 : F32 → F32 → F32) (pow2 : F32 → F64) (ha : atan2 (fin 0) (fin 1) = fin 0)
    (hp : pow2 (fin 0) = fin 0) (x y z : ℝ) (hx : Rep x) (hy : Rep y) (hz : Rep z) :
    transformLogarithm atan2 pow2 (Transform.ofMat 1 ![x, y, z]) = ⟨fin x, fin y, fin z, fin 0, fin 0, fin 0⟩ := by
  obtain ⟨κ, eκ, κ1, κ2⟩ := threshold
  norm_num at κ1 κ2
  have hn : neg (fin 0) = fin 0 := by simp [neg]
  have h00 : sub (fin 0) (fin 0) = fin 0 := by rw [sub, hn, add_zero_fin Rep.zero]
  have hs : sqrt (fin 0) = fin 0 := by
    rw [sqrt, if_neg (lt_irrefl _), Real.sqrt_zero, round_rep Rep.zero]
  have e1 : logSi (Transform.ofMat 1 ![x, y, z]).r = fin 0 := by
    simp [logSi, Transform.ofMat, Rotation.ofMat, h00, mul_zero_fin, add_zero_fin Rep.zero, hs]
  have r2 : Rep 2 := ⟨1, 1, by norm_num, by norm_num, by norm_num, by norm_num⟩
  have r3 : Rep 3 := ⟨3, 0, by norm_num, by norm_num, by norm_num, by norm_num⟩
  have a1 : add (fin 1) (fin 1) = fin 2 := by
    rw [add, show (1 : ℝ) + 1 = 2 by norm_num, round_rep r2]
  have a2 : add (fin 2) (fin 1) = fin 3 := by
    rw [add, show (2 : ℝ) + 1 = 3 by norm_num, round_rep r3]
  have a3 : sub (fin 3) (fin 1) = fin 2 := by
    rw [sub, neg, add, show (3 : ℝ) + -1 = 2 by norm_num, round_rep r2]
  have a4 : mul (fin 0.5) (fin 2) = fin 1 := by
    rw [mul, show (0.5 : ℝ) * 2 = 1 by norm_num, round_rep Rep.one]
  have e2 : logCo (Transform.ofMat 1 ![x, y, z]).r = fin 1 := by
    simp only [logCo, Transform.ofMat, Rotation.ofMat, Matrix.one_apply_eq, a1, a2, a3, a4]
  have t1 : lt (fin 0) (fin κ) := by
    simp only [lt]; linarith
  have t2 : lt (sub (fin 1) (fin κ)) (fin 1) := by
    have b : |1 - κ| ≤ 1 := by rw [abs_le]; constructor <;> linarith
    rw [sub_fin (b.trans (by norm_num))]
    simp only [lt]
    have := (abs_le.1 (rnd_bnd (1 - κ))).2
    norm_num at this
    linarith
  have e3 : div (fin 0) (add (mul (fin 2) (fin 0)) (fin κ)) = fin 0 := by
    have rκ : Rep κ := by
      have b : |(0.001 : ℝ)| ≤ 2 ^ 127 := by rw [abs_of_pos (by norm_num)]; norm_num
      rw [round_fin b] at eκ
      injection eκ with eκ
      rw [← eκ]
      exact rnd_rep b
    rw [mul_zero_fin, zero_add_fin rκ, div, if_neg (by linarith), zero_div, round_rep Rep.zero]
  have e4 : ∃ q, logLambda (fin 0) (fin 1) (fin 0) = fin q := by
    unfold logLambda
    rw [eκ, if_pos t1, div, if_neg (by norm_num)]
    exact ⟨_, round_fin (by norm_num)⟩
  obtain ⟨q, eq⟩ := e4
  have e5 : F64.toFloat (fin 0) = fin 0 := round_rep Rep.zero
  unfold transformLogarithm transformLogarithmInPlace
  simp only []
  rw [e1, e2, ha, eκ, if_pos t1, if_pos t2, e3]
  unfold logTail
  rw [hp, e5, eq]
  simp [logAngular, Transform.ofMat, Rotation.ofMat, h00, mul_zero_fin, zero_mul_fin, add_zero_fin Rep.zero, zero_add_fin Rep.one, mul_one_fin hx,
    mul_one_fin hy, mul_one_fin hz, zero_add_fin hx, add_zero_fin hy, add_zero_fin hz]

/-- A NaN off the diagonal reaches all the components, whatever the functions of `<cmath>` return. -/
theorem C102_nan (atan2 : F32 → F32 → F32) (pow2 : F32 → F64) (h : Transform)
    (hn : h.r.r12 = nan ∨ h.r.r13 = nan ∨ h.r.r21 = nan ∨ h.r.r23 = nan ∨ h.r.r31 = nan ∨ h.r.r32 = nan) :
    transformLogarithm atan2 pow2 h = ⟨nan, nan, nan, nan, nan, nan⟩ := by
  have e1 : logSi h.r = nan := by
    unfold logSi
    rcases hn with h | h | h | h | h | h <;> rw [h] <;> simp [nan_mul, nan_add, add_nan, nan_sub, sub_nan, sqrt, mul_nan]
  unfold transformLogarithm
  rw [log_main atan2 pow2 h _ e1 rfl rfl (by simp [lt]) (coeff := nan) (by
    rw [mul_nan]; cases atan2 nan (logCo h.r) <;> rfl) rfl rfl]
  simp [nan_mul, nan_add, add_nan, nan_sub, sub_nan, mul_nan]

/-! ### Examples -/

/-- A correctly rounded square. Helper of the proofs. Not in /repo: specification. -/
noncomputable def pow2Rounded : F32 → F64
  | fin x => F64.round (x ^ 2)
  | _ => nan

theorem pow2Rounded_accurate : Pow2Accurate pow2Rounded := by
  intro x _ h1 h2
  have x0 : 0 < x := lt_of_lt_of_le (two_zpow_pos _) h1
  have x3 : 2 ^ (-4 : ℤ) ≤ x ^ 2 := by
    have := pow_le_pow_left₀ (two_zpow_pos (-2)).le h1 2
    refine le_trans ?_ this
    norm_num
  have x3' : x ^ 2 ≤ 2 ^ 24 := by
    have := pow_le_pow_left₀ x0.le h2 2
    refine this.trans ?_
    norm_num
  have p : 0 < x ^ 2 := by positivity
  refine ⟨F64.rnd (x ^ 2), F64.round_fin ?_, ?_⟩
  · rw [abs_of_pos p]
    exact x3'.trans (pow_le_pow_right₀ (by norm_num) (by norm_num))
  · have r := F64.rnd_gen (x ^ 2)
    rw [abs_of_pos p] at r
    have w : (2 : ℝ) ^ (-1075 : ℤ) ≤ 2 ^ (-61 : ℤ) := two_zpow_le (by norm_num)
    have w1 : (2 : ℝ) ^ (-61 : ℤ) = 2 ^ (-57 : ℤ) * 2 ^ (-4 : ℤ) := by rw [← zpow_add₀ (by norm_num)]; norm_num
    have w2 := mul_le_mul_of_nonneg_left x3 (two_zpow_pos (-57)).le
    have w3 : (2 : ℝ) ^ (-53 : ℤ) + 2 ^ (-57 : ℤ) ≤ 2 ^ (-50 : ℤ) := by norm_num
    have w4 := mul_le_mul_of_nonneg_right w3 p.le
    rw [add_mul] at w4
    linarith

theorem atan2Rounded_accurate : Atan2Accurate Libm.rounded.atan2 := by
  intro y x _ _ y0 y1 hx
  have h : |Complex.arg ⟨x, y⟩| ≤ 7 / 2 := (Complex.abs_arg_le_pi _).trans (by linarith [Real.pi_lt_d2])
  have h2 : |Complex.arg ⟨x, y⟩| ≤ 2 ^ 127 := h.trans (by norm_num)
  refine ⟨rnd (Complex.arg ⟨x, y⟩), round_fin h2, rnd_rep h2, ?_⟩
  have y0' : 0 < y := lt_of_lt_of_le (two_zpow_pos _) y0
  have a0 : 0 ≤ Complex.arg ⟨x, y⟩ := Complex.arg_nonneg_iff.2 y0'.le
  have k := Real.sin_le a0
  have nz : (⟨x, y⟩ : ℂ) ≠ 0 := by
    intro h0
    have := congrArg Complex.im h0
    simp at this
    linarith
  rw [Complex.sin_arg] at k
  have n1 : ‖(⟨x, y⟩ : ℂ)‖ ≤ 4 := by
    refine (Complex.norm_le_abs_re_add_abs_im _).trans ?_
    simp only [abs_of_pos y0']
    linarith
  have n0 : 0 < ‖(⟨x, y⟩ : ℂ)‖ := norm_pos_iff.2 nz
  rw [div_le_iff₀ n0] at k
  have k2 := k.trans (mul_le_mul_of_nonneg_left n1 a0)
  have r := rnd_bnd (Complex.arg ⟨x, y⟩)
  rw [abs_of_nonneg a0] at r
  generalize Complex.arg ⟨x, y⟩ = a at *
  refine r.trans ?_
  simp only at k2
  norm_num at y0 ⊢
  linarith

theorem sin_three_halves : 0.9 ≤ Real.sin (3 / 2) := by
  have h := Real.mul_le_sin (x := 3 / 2) (by norm_num) (by linarith [Real.pi_gt_three])
  refine le_trans ?_ h
  have := Real.pi_lt_d2
  have p := Real.pi_pos
  rw [div_mul_eq_mul_div, le_div_iff₀ p]
  norm_num at this ⊢
  linarith

/-- 1.5 radians about the third axis, with a linear speed: there and back. -/
example : ∃ w, transformLogarithm Libm.rounded.atan2 pow2Rounded (velocityExponential Libm.rounded pow3Rounded
      (ofVelocity ⟨1, 0, 0, 0, 0, 3 / 2⟩)) = ofVelocity w ∧ |w.wzd - 3 / 2| ≤ 2 ^ (-12 : ℤ) ∧ |w.xd - 1| ≤ 2 ^ (-7 : ℤ) := by
  have hs : angSpeed ⟨1, 0, 0, 0, 0, 3 / 2⟩ = 3 / 2 := angSpeed_z _ (by norm_num) _ _ _
  have s1 := sin_three_halves
  have q : 3 / 2 / Real.sin (3 / 2) ≤ 1.7 := by
    norm_num at s1 ⊢
    rw [div_le_iff₀ (by linarith)]
    linarith
  obtain ⟨w, h1, h2, h3⟩ := C102_log_exp _ rounded_accurate _ pow3Rounded_accurate atan2Rounded_accurate pow2Rounded_accurate
    ⟨1, 0, 0, 0, 0, 3 / 2⟩ 1 (by rw [hs]; linarith [Real.pi_gt_three]) (by rw [hs]; norm_num at s1 ⊢; linarith)
    (by norm_num) (by norm_num) (by norm_num) (by norm_num)
  rw [hs] at h2 h3
  refine ⟨w, h1, (h2 2).trans ?_, (h3 0).trans ?_⟩
  · norm_num at q ⊢
    linarith
  · norm_num at q ⊢
    linarith

/-- The exact exponential of a twist of 1.5 radians. -/
example : ∃ w, transformLogarithm Libm.rounded.atan2 pow2Rounded (Transform.ofMat
      (Matrix.of fun i j : Fin 3 => exp (twist ⟨0, 0, 0, 0, 0, 3 / 2⟩) i.castSucc j.castSucc) ![0, 0, 0]) = ofVelocity w ∧
    |w.wzd - 3 / 2| ≤ 2 ^ (-17 : ℤ) := by
  have hs : angSpeed ⟨0, 0, 0, 0, 0, 3 / 2⟩ = 3 / 2 := angSpeed_z _ (by norm_num) _ _ _
  have s1 := sin_three_halves
  have q : 3 / 2 / Real.sin (3 / 2) ≤ 1.7 := by
    norm_num at s1 ⊢
    rw [div_le_iff₀ (by linarith)]
    linarith
  have e := exp_coef ⟨0, 0, 0, 0, 0, 3 / 2⟩ (by rw [hs]; norm_num)
  obtain ⟨w, h1, h2, -⟩ := C102_log atan2Rounded_accurate pow2Rounded_accurate ⟨0, 0, 0, 0, 0, 3 / 2⟩
    (by rw [hs]; linarith [Real.pi_gt_three]) (by rw [hs]; norm_num at s1 ⊢; linarith)
    (Matrix.of fun i j : Fin 3 => exp (twist ⟨0, 0, 0, 0, 0, 3 / 2⟩) i.castSucc j.castSucc) ![0, 0, 0] 0 0 0 (by norm_num)
    (by intro i j; simp)
    (by intro i; rw [e, mat_trans]; fin_cases i <;> simp [AlMath.expMatrix, AlMath.Transform.trans])
    (by intro i; fin_cases i <;> simp) (by norm_num)
  rw [hs] at h2
  refine ⟨w, h1, (h2 2).trans ?_⟩
  norm_num at q ⊢
  linarith

example : transformLogarithm Libm.rounded.atan2 pow2Rounded (Transform.ofMat 1 ![1, 2, 3]) =
    ⟨fin 1, fin 2, fin 3, fin 0, fin 0, fin 0⟩ := by
  refine C102_translation _ _ ?_ ?_ 1 2 3 Rep.one ⟨1, 1, by norm_num, by norm_num, by norm_num, by norm_num⟩
    ⟨3, 0, by norm_num, by norm_num, by norm_num, by norm_num⟩
  · change round (Complex.arg ⟨1, 0⟩) = _
    have : (⟨1, 0⟩ : ℂ) = 1 := rfl
    rw [this, Complex.arg_one, round_rep Rep.zero]
  · change F64.round (0 ^ 2) = _
    rw [show (0 : ℝ) ^ 2 = 0 by norm_num]
    exact (F64.round_fin (by norm_num)).trans (by rw [F64.rnd_zero])

example : transformLogarithm Libm.rounded.atan2 pow2Rounded ⟨⟨fin 1, nan, fin 0, fin 0, fin 1, fin 0, fin 0, fin 0, fin 1⟩,
    fin 1, fin 0, fin 0⟩ = ⟨nan, nan, nan, nan, nan, nan⟩ := C102_nan _ _ _ (Or.inl rfl)

end AlMath.F32
