import Verif.Props.C20
import Verif.Lemmas.QuatRot
import Verif.Lemmas.Euler
import Mathlib.Analysis.Real.Pi.Bounds

/-!
C21: exp (log H) = H. Proved when the sine of the rotation angle is at least
0.001, and for pure translations; the library is wrong (not only rounded) outside:
witnesses are given.
-/

namespace AlMath

open Spec Matrix

/-- The division in `logTail` never has a zero denominator: when its branch is reached,
neither the angle nor the sine is zero. -/
theorem logTail_guard (h : Transform)
    (h1 : ¬ atan2 (logSi h) (logCo h) < 0.001)
    (h2 : ¬ (atan2 (logSi h) (logCo h) > piF - 0.001 ∨ atan2 (logSi h) (logCo h) < -piF + 0.001)) :
    atan2 (logSi h) (logCo h) ≠ 0 ∧ logSi h ≠ 0 := by
  constructor
  · intro h0; rw [h0] at h1; norm_num at h1
  · intro h0
    rw [h0] at h1 h2
    unfold atan2 at h1 h2
    have e : (⟨logCo h, 0⟩ : ℂ) = ((logCo h : ℝ) : ℂ) := rfl
    rw [e] at h1 h2
    rcases le_or_gt 0 (logCo h) with hc | hc
    · rw [Complex.arg_ofReal_of_nonneg hc] at h1; norm_num at h1
    · rw [Complex.arg_ofReal_of_neg hc] at h2
      apply h2
      left
      have := Real.pi_gt_d6
      unfold piF
      norm_num at this ⊢
      linarith

/-- Coefficients of the inverse of the left Jacobian. -/
theorem jac_coeffs {t : ℝ} (ht : t ≠ 0) (hs : Real.sin t ≠ 0) :
    let CC := (1 - Real.cos t) / (t * t)
    let dSC := (t - Real.sin t) / t ^ 3
    let l := 0.5 * (2 * Real.sin t - t * (1 + Real.cos t)) / (t * t * Real.sin t)
    CC - 0.5 = t ^ 2 * (CC * l - 0.5 * dSC) ∧ dSC - 0.5 * CC + l * (1 - t ^ 2 * dSC) = 0 := by
  have h := Real.sin_sq_add_cos_sq t
  generalize Real.sin t = s at *
  generalize Real.cos t = c at *
  constructor
  · field_simp
    norm_num
    linear_combination (-t / 2) * h
  · field_simp
    norm_num
    ring

/-- The value of the logarithm in its main branch, for an angle `t` with
`sin t ≥ 0.001`. -/
theorem log_regular (h : Transform) (v0 : Velocity6D) {t : ℝ} (ht0 : 0 ≤ t) (htpi : t ≤ Real.pi)
    (hsi : logSi h = Real.sin t) (hco : logCo h = Real.cos t) (hs : 0.001 ≤ Real.sin t) :
    let k := t / (2 * Real.sin t)
    let l := 0.5 * (2 * Real.sin t - t * (1 + Real.cos t)) / (t * t * Real.sin t)
    let wx := k * (h.r32 - h.r23)
    let wy := k * (h.r13 - h.r31)
    let wz := k * (h.r21 - h.r12)
    0.001 ≤ t ∧ transformLogarithmInPlace h v0 =
      ⟨h.r14 - 0.5 * (wy * h.r34 - wz * h.r24)
          + l * (wx * (wy * h.r24 + wz * h.r34) - (wy * wy + wz * wz) * h.r14),
        h.r24 - 0.5 * (wz * h.r14 - wx * h.r34)
          + l * (wy * (wx * h.r14 + wz * h.r34) - (wx * wx + wz * wz) * h.r24),
        h.r34 - 0.5 * (wx * h.r24 - wy * h.r14)
          + l * (wz * (wx * h.r14 + wy * h.r24) - (wx * wx + wy * wy) * h.r34),
        wx, wy, wz⟩ := by
  intro k l wx wy wz
  have hpi : 0 < Real.pi := Real.pi_pos
  have hge : 0.001 ≤ t := hs.trans (Real.sin_le ht0)
  have hle : 0.001 ≤ Real.pi - t := by
    have := Real.sin_le (x := Real.pi - t) (by linarith)
    rw [Real.sin_pi_sub] at this
    linarith
  have hpf : Real.pi < piF := by
    have := Real.pi_lt_d20
    unfold piF
    linarith
  have hang : atan2 (logSi h) (logCo h) = t := by
    rw [hsi, hco]
    have := atan2_polar (r := 1) (a := t) one_pos (by linarith) htpi
    simpa using this
  refine ⟨hge, ?_⟩
  unfold transformLogarithmInPlace logTail
  simp only []
  rw [hang, hsi, hco, if_neg (not_lt.2 hs), if_neg (not_lt.2 hge), if_neg (by
    rintro (h1 | h1)
    · linarith
    · linarith)]
  ext <;> simp only [k, l, wx, wy, wz] <;> ring

/-- Rotation angle of a rotation, from its unit quaternion. -/
theorem rot_angle (h : Transform) (hr : IsRigid h) :
    logSi h ^ 2 + logCo h ^ 2 = 1 := by
  have q := hr.eqs
  obtain ⟨w, x, y, z, hw, hn, h1, h2, h3, h4, h5, h6, h7, h8, h9⟩ := quat_of_rot q
  unfold logSi logCo
  rw [mul_pow, Real.sq_sqrt (by
    linarith [mul_self_nonneg (h.r32 - h.r23), mul_self_nonneg (h.r13 - h.r31),
      mul_self_nonneg (h.r21 - h.r12)])]
  rw [h1, h2, h3, h4, h5, h6, h7, h8, h9]
  norm_num
  have e : w * w = 1 - x * x - y * y - z * z := by linarith
  linear_combination (4 * (x * x + y * y + z * z)) * e

/-- **C21**, main range: for a rigid transform whose rotation angle has a sine of
at least 0.001, the exponential of the logarithm is the transform; the logarithm has
the canonical angular speed, between 0.001 and π. Also exact for translations.
Missing for the full property: angles with a sine below 0.001, where the library
is wrong (see the next theorems). -/
theorem C21_exp_log_partial (h : Transform) (hr : IsRigid h)
    (hreg : 0.001 ≤ logSi h ∨ h.rotMat = 1) :
    velocityExponential (transformLogarithm h) = h ∧
    0 ≤ angSpeed (transformLogarithm h) ∧ angSpeed (transformLogarithm h) ≤ Real.pi ∧
    Real.sin (angSpeed (transformLogarithm h)) = logSi h ∧
    Real.cos (angSpeed (transformLogarithm h)) = logCo h := by
  rcases hreg with hs | h1
  · have hu := rot_angle h hr
    obtain ⟨t, ht0, htpi, hst, hct⟩ : ∃ t, 0 ≤ t ∧ t ≤ Real.pi ∧ Real.sin t = logSi h ∧
        Real.cos t = logCo h := by
      have hsi0 : 0 ≤ logSi h := le_trans (by norm_num) hs
      have hb := Real.arccos_nonneg (logCo h)
      refine ⟨Real.arccos (logCo h), hb, Real.arccos_le_pi _, ?_, ?_⟩
      · rw [Real.sin_arccos, ← Real.sqrt_sq hsi0]
        congr 1; linarith
      · exact Real.cos_arccos (by nlinarith [sq_nonneg (logSi h)])
          (by nlinarith [sq_nonneg (logSi h)])
    obtain ⟨hge, hlog⟩ := log_regular h Velocity6D.zero ht0 htpi hst.symm hct.symm (hst ▸ hs)
    have htne : t ≠ 0 := by intro h0; rw [h0] at hge; norm_num at hge
    have hsne : Real.sin t ≠ 0 := by
      intro h0; rw [hst] at h0; rw [h0] at hs; norm_num at hs
    obtain ⟨E1, E2⟩ := jac_coeffs htne hsne
    have hsq : 4 * Real.sin t ^ 2 = (h.r32 - h.r23) * (h.r32 - h.r23) +
        (h.r13 - h.r31) * (h.r13 - h.r31) + (h.r21 - h.r12) * (h.r21 - h.r12) := by
      rw [hst]; unfold logSi
      rw [mul_pow, Real.sq_sqrt (by
        linarith [mul_self_nonneg (h.r32 - h.r23), mul_self_nonneg (h.r13 - h.r31),
          mul_self_nonneg (h.r21 - h.r12)])]
      ring
    have hspeed : angSpeed (transformLogarithm h) = t := by
      unfold angSpeed transformLogarithm
      rw [lenSq_angVel, hlog]
      simp only []
      rw [show ∀ k a b c : ℝ, k * a * (k * a) + k * b * (k * b) + k * c * (k * c) =
        k ^ 2 * (a * a + b * b + c * c) from fun _ _ _ _ => by ring, ← hsq,
        show (t / (2 * Real.sin t)) ^ 2 * (4 * Real.sin t ^ 2) = t ^ 2 by field_simp; ring,
        Real.sqrt_sq ht0]
    refine ⟨?_, by rw [hspeed]; exact ht0, by rw [hspeed]; exact htpi, by rw [hspeed, hst],
      by rw [hspeed, hct]⟩
    rw [velocityExponential_eq, hspeed, if_pos hge]
    unfold transformLogarithm
    rw [hlog]
    -- rotation part, through the unit quaternion
    have q := hr.eqs
    obtain ⟨w, x, y, z, hw, hn, h1, h2, h3, h4, h5, h6, h7, h8, h9⟩ := quat_of_rot q
    have hc : Real.cos t = 1 - 2 * (x * x + y * y + z * z) := by
      rw [hct]; unfold logCo; rw [h1, h5, h9]; ring
    have hs2 : Real.sin t ^ 2 = 4 * w ^ 2 * (x * x + y * y + z * z) := by
      have := hsq
      rw [h8, h6, h3, h7, h4, h2] at this
      linarith
    have hw0 : w ≠ 0 := by
      rintro rfl; apply hsne
      have : Real.sin t ^ 2 = 0 := by rw [hs2]; ring
      exact pow_eq_zero_iff two_ne_zero |>.1 this
    set k := t / (2 * Real.sin t) with hk
    set CC := (1 - Real.cos t) / (t * t) with hCC
    set SC := Real.sin t / t with hSC
    set dSC := (t - Real.sin t) / t ^ 3 with hdSC
    set l := 0.5 * (2 * Real.sin t - t * (1 + Real.cos t)) / (t * t * Real.sin t) with hl
    have e1 : SC * (2 * k) = 1 := by rw [hSC, hk]; field_simp
    have e2 : CC * (8 * k ^ 2 * w ^ 2) = 1 := by
      have hN : 1 - Real.cos t = 2 * (x * x + y * y + z * z) := by rw [hc]; ring
      rw [hCC, hk, hN]; field_simp
      rw [hs2]; ring
    have e3 : SC = 1 - t ^ 2 * dSC := by rw [hSC, hdSC]; field_simp; ring
    have e4 : t ^ 2 = k ^ 2 * ((h.r32 - h.r23) * (h.r32 - h.r23) +
        (h.r13 - h.r31) * (h.r13 - h.r31) + (h.r21 - h.r12) * (h.r21 - h.r12)) := by
      rw [← hsq, hk]; field_simp; ring
    clear_value k CC SC dSC l
    have d1 : h.r32 - h.r23 = 4 * w * x := by rw [h8, h6]; ring
    have d2 : h.r13 - h.r31 = 4 * w * y := by rw [h3, h7]; ring
    have d3 : h.r21 - h.r12 = 4 * w * z := by rw [h4, h2]; ring
    rw [e4] at E1 E2 e3
    have e5 : SC = 1 - dSC * (k ^ 2 * ((h.r32 - h.r23) * (h.r32 - h.r23) +
        (h.r13 - h.r31) * (h.r13 - h.r31) + (h.r21 - h.r12) * (h.r21 - h.r12))) := by
      rw [e3]; ring
    ext
    · simp only [expMatrix]
      rw [d2, d3, h1]
      linear_combination (-2 * (y ^ 2 + z ^ 2)) * e2
    · simp only [expMatrix]
      rw [d1, d2, d3, h2]
      linear_combination (2 * x * y) * e2 - (2 * w * z) * e1
    · simp only [expMatrix]
      rw [d1, d2, d3, h3]
      linear_combination (2 * x * z) * e2 + (2 * w * y) * e1
    · simp only [expMatrix]
      rw [e5]
      generalize h.r32 - h.r23 = a1 at *
      generalize h.r13 - h.r31 = a2 at *
      generalize h.r21 - h.r12 = a3 at *
      linear_combination (k * (a2 * h.r34 - a3 * h.r24)) * E1 +
        (k ^ 2 * (a1 * (a2 * h.r24 + a3 * h.r34) - (a2 * a2 + a3 * a3) * h.r14)) * E2
    · simp only [expMatrix]
      rw [d1, d2, d3, h4]
      linear_combination (2 * x * y) * e2 + (2 * w * z) * e1
    · simp only [expMatrix]
      rw [d1, d3, h5]
      linear_combination (-2 * (x ^ 2 + z ^ 2)) * e2
    · simp only [expMatrix]
      rw [d1, d2, d3, h6]
      linear_combination (2 * y * z) * e2 - (2 * w * x) * e1
    · simp only [expMatrix]
      rw [e5]
      generalize h.r32 - h.r23 = a1 at *
      generalize h.r13 - h.r31 = a2 at *
      generalize h.r21 - h.r12 = a3 at *
      linear_combination (k * (a3 * h.r14 - a1 * h.r34)) * E1 +
        (k ^ 2 * (a2 * (a1 * h.r14 + a3 * h.r34) - (a1 * a1 + a3 * a3) * h.r24)) * E2
    · simp only [expMatrix]
      rw [d1, d2, d3, h7]
      linear_combination (2 * x * z) * e2 - (2 * w * y) * e1
    · simp only [expMatrix]
      rw [d1, d2, d3, h8]
      linear_combination (2 * y * z) * e2 + (2 * w * x) * e1
    · simp only [expMatrix]
      rw [d1, d2, h9]
      linear_combination (-2 * (x ^ 2 + y ^ 2)) * e2
    · simp only [expMatrix]
      rw [e5]
      generalize h.r32 - h.r23 = a1 at *
      generalize h.r13 - h.r31 = a2 at *
      generalize h.r21 - h.r12 = a3 at *
      linear_combination (k * (a1 * h.r24 - a2 * h.r14)) * E1 +
        (k ^ 2 * (a3 * (a1 * h.r14 + a2 * h.r24) - (a1 * a1 + a2 * a2) * h.r34)) * E2
  · have e : ∀ i j, h.rotMat i j = (1 : Mat3) i j := fun i j => by rw [h1]
    have e11 : h.r11 = 1 := by simpa [Transform.rotMat] using e 0 0
    have e12 : h.r12 = 0 := by simpa [Transform.rotMat] using e 0 1
    have e13 : h.r13 = 0 := by simpa [Transform.rotMat] using e 0 2
    have e21 : h.r21 = 0 := by simpa [Transform.rotMat] using e 1 0
    have e22 : h.r22 = 1 := by simpa [Transform.rotMat] using e 1 1
    have e23 : h.r23 = 0 := by simpa [Transform.rotMat] using e 1 2
    have e31 : h.r31 = 0 := by simpa [Transform.rotMat] using e 2 0
    have e32 : h.r32 = 0 := by simpa [Transform.rotMat] using e 2 1
    have e33 : h.r33 = 1 := by simpa [Transform.rotMat] using e 2 2
    have hsi : logSi h = 0 := by unfold logSi; rw [e12, e13, e21, e23, e31, e32]; simp
    have hco : logCo h = 1 := by unfold logCo; rw [e11, e22, e33]; norm_num
    have hlog : transformLogarithm h = ⟨h.r14, h.r24, h.r34, 0, 0, 0⟩ := by
      unfold transformLogarithm transformLogarithmInPlace logTail
      simp only []
      rw [hsi, hco, if_pos (by norm_num), if_pos (by norm_num)]
      ext <;> simp [e12, e13, e21, e23, e31, e32]
    have hsp : angSpeed (transformLogarithm h) = 0 := by
      rw [hlog]; unfold angSpeed; rw [lenSq_angVel]; simp
    refine ⟨?_, by rw [hsp], by rw [hsp]; exact Real.pi_pos.le, by rw [hsp, hsi]; simp,
      by rw [hsp, hco]; simp⟩
    rw [velocityExponential_eq, hsp, hlog, if_neg (by norm_num)]
    ext <;> simp [expMatrix, e11, e12, e13, e21, e22, e23, e31, e32, e33]

/-- The converse: the logarithm recovers every velocity whose angular speed is at
most π with a sine of at least 0.001, and every pure translation; and then it does
not depend on the previous content of the output. -/
theorem C21_log_exp (m v0 : Velocity6D)
    (hm : angVel m = 0 ∨ (angSpeed m ≤ Real.pi ∧ 0.001 ≤ Real.sin (angSpeed m))) :
    transformLogarithmInPlace (velocityExponential m) v0 = m ∧
    transformLogarithm (velocityExponential m) = m := by
  suffices h : ∀ v0, transformLogarithmInPlace (velocityExponential m) v0 = m from
    ⟨h v0, h _⟩
  clear v0
  intro v0
  have hsq := angSpeed_sq m
  rcases hm with h0 | ⟨htpi, hs⟩
  · have hx : m.wxd = 0 := by simpa [angVel] using congrFun h0 0
    have hy : m.wyd = 0 := by simpa [angVel] using congrFun h0 1
    have hz : m.wzd = 0 := by simpa [angVel] using congrFun h0 2
    have hsp : angSpeed m = 0 := by
      unfold angSpeed; rw [lenSq_angVel, hx, hy, hz]; simp
    rw [velocityExponential_eq, hsp, if_neg (by norm_num)]
    have hE : expMatrix 0.5 (1 - 0 * 0 / 6) 0.166666667 m =
        ⟨1, 0, 0, m.xd, 0, 1, 0, m.yd, 0, 0, 1, m.zd⟩ := by
      ext <;> simp [expMatrix, hx, hy, hz]
    rw [hE]
    have hsi : logSi ⟨1, 0, 0, m.xd, 0, 1, 0, m.yd, 0, 0, 1, m.zd⟩ = 0 := by
      unfold logSi; simp
    have hco : logCo ⟨1, 0, 0, m.xd, 0, 1, 0, m.yd, 0, 0, 1, m.zd⟩ = 1 := by
      unfold logCo; norm_num
    unfold transformLogarithmInPlace logTail
    simp only []
    rw [hsi, hco, if_pos (by norm_num), if_pos (by norm_num)]
    ext <;> simp [hx, hy, hz]
  · set t := angSpeed m with ht
    have ht0 : 0 ≤ t := Real.sqrt_nonneg _
    have hge : 0.001 ≤ t := hs.trans (Real.sin_le ht0)
    have htne : t ≠ 0 := by intro h0; rw [h0] at hge; norm_num at hge
    have hsne : Real.sin t ≠ 0 := by intro h0; rw [h0] at hs; norm_num at hs
    rw [velocityExponential_eq, ← ht, if_pos hge]
    obtain ⟨E1, E2⟩ := jac_coeffs htne hsne
    set CC := (1 - Real.cos t) / (t * t) with hCC
    set SC := Real.sin t / t with hSC
    set dSC := (t - Real.sin t) / t ^ 3 with hdSC
    set H := expMatrix CC SC dSC m with hH
    have d1 : H.r32 - H.r23 = 2 * SC * m.wxd := by simp only [hH, expMatrix]; ring
    have d2 : H.r13 - H.r31 = 2 * SC * m.wyd := by simp only [hH, expMatrix]; ring
    have d3 : H.r21 - H.r12 = 2 * SC * m.wzd := by simp only [hH, expMatrix]; ring
    have hsi : logSi H = Real.sin t := by
      unfold logSi
      rw [d1, d2, d3]
      have : 2 * SC * m.wxd * (2 * SC * m.wxd) + 2 * SC * m.wyd * (2 * SC * m.wyd) +
          2 * SC * m.wzd * (2 * SC * m.wzd) = (2 * Real.sin t) ^ 2 := by
        have h1 : SC * t = Real.sin t := by rw [hSC]; field_simp
        rw [← h1]
        linear_combination (-4 * SC ^ 2) * hsq
      rw [this, Real.sqrt_sq (by linarith)]
      ring
    have hco : logCo H = Real.cos t := by
      have h1 : CC * t ^ 2 = 1 - Real.cos t := by rw [hCC]; field_simp
      unfold logCo
      simp only [hH, expMatrix]
      norm_num
      linear_combination CC * hsq - h1
    obtain ⟨-, hlog⟩ := log_regular H v0 ht0 htpi hsi hco hs
    rw [hlog, d1, d2, d3]
    have hk : ∀ a : ℝ, t / (2 * Real.sin t) * (2 * SC * a) = a := by
      intro a; rw [hSC]; field_simp
    rw [hk, hk, hk]
    set l := 0.5 * (2 * Real.sin t - t * (1 + Real.cos t)) / (t * t * Real.sin t) with hl
    have e3 : SC = 1 - t ^ 2 * dSC := by rw [hSC, hdSC]; field_simp; ring
    rw [hsq] at E1 E2 e3
    clear_value CC dSC l SC
    subst e3
    ext
    · simp only [hH, expMatrix]
      linear_combination (m.wyd * m.zd - m.wzd * m.yd) * E1 +
        (m.wxd * (m.wyd * m.yd + m.wzd * m.zd) -
          (m.wyd * m.wyd + m.wzd * m.wzd) * m.xd) * E2
    · simp only [hH, expMatrix]
      linear_combination (m.wzd * m.xd - m.wxd * m.zd) * E1 +
        (m.wyd * (m.wxd * m.xd + m.wzd * m.zd) -
          (m.wxd * m.wxd + m.wzd * m.wzd) * m.yd) * E2
    · simp only [hH, expMatrix]
      linear_combination (m.wxd * m.yd - m.wyd * m.xd) * E1 +
        (m.wzd * (m.wxd * m.xd + m.wyd * m.yd) -
          (m.wxd * m.wxd + m.wyd * m.wyd) * m.zd) * E2
    all_goals rfl

/-! ### Where the property fails -/

/-- A rotation of 0.0005 rad about z. -/
noncomputable def smallTurn : Transform :=
  ⟨Real.cos 0.0005, -Real.sin 0.0005, 0, 0, Real.sin 0.0005, Real.cos 0.0005, 0, 0, 0, 0, 1, 0⟩

/-- The half turn about the bisector of x and y. -/
noncomputable def halfTurn : Transform := ⟨0, 1, 0, 0, 1, 0, 0, 0, 0, 0, -1, 0⟩

/-- For small rotations the logarithm is about half of what it should be: the
property fails (not because of rounding). -/
theorem C21_small_angle_wrong : IsRigid smallTurn ∧
    (transformLogarithm smallTurn).wzd ≤ 0.00025 ∧
    velocityExponential (transformLogarithm smallTurn) ≠ smallTurn := by
  have hsc := Real.sin_sq_add_cos_sq 0.0005
  have hs1 : Real.sin 0.0005 ≤ 0.0005 := Real.sin_le (by norm_num)
  have hs2 : 0.0003 ≤ Real.sin 0.0005 := by
    have h1 := Real.mul_le_sin (x := 0.0005) (by norm_num) (by linarith [Real.pi_gt_three])
    refine le_trans ?_ h1
    have hp := Real.pi_lt_d2
    have hp0 := Real.pi_pos
    rw [div_mul_eq_mul_div, le_div_iff₀ hp0]
    linarith
  have hc : 1 - 0.001 < Real.cos 0.0005 := by
    have := Real.one_sub_sq_div_two_le_cos (x := 0.0005)
    norm_num at this ⊢
    linarith
  have hsi : logSi smallTurn = Real.sin 0.0005 := by
    unfold logSi smallTurn
    simp only []
    rw [show (0 - 0) * (0 - 0) + (0 - 0) * (0 - 0) + (Real.sin 0.0005 - -Real.sin 0.0005) *
      (Real.sin 0.0005 - -Real.sin 0.0005) = (2 * Real.sin 0.0005) ^ 2 by ring,
      Real.sqrt_sq (by linarith)]
    ring
  have hco : logCo smallTurn = Real.cos 0.0005 := by
    unfold logCo smallTurn; ring
  have hang : atan2 (Real.sin 0.0005) (Real.cos 0.0005) = 0.0005 := by
    have := atan2_polar (r := 1) (a := 0.0005) one_pos (by linarith [Real.pi_gt_three])
      (by linarith [Real.pi_gt_three])
    simpa using this
  have hlog : ∃ w, w ≤ 0.00025 ∧ 0 ≤ w ∧
      (transformLogarithm smallTurn).wxd = 0 ∧ (transformLogarithm smallTurn).wyd = 0 ∧
      (transformLogarithm smallTurn).wzd = w := by
    refine ⟨0.0005 / (2 * Real.sin 0.0005 + 0.001) * (2 * Real.sin 0.0005), ?_, by positivity, ?_⟩
    · rw [div_mul_eq_mul_div, div_le_iff₀ (by linarith)]
      linarith
    · unfold transformLogarithm transformLogarithmInPlace logTail
      simp only []
      rw [hsi, hco, hang, if_pos (by linarith), if_pos hc]
      simp only [smallTurn]
      refine ⟨by ring, by ring, by ring⟩
  obtain ⟨w, hw1, hw0, hx, hy, hz⟩ := hlog
  refine ⟨?_, by rw [hz]; exact hw1, ?_⟩
  · unfold IsRigid Transform.rotMat smallTurn
    rw [isRot_coord]
    simp only []
    refine ⟨⟨?_, ?_, ?_, ?_, ?_, ?_⟩, ?_⟩ <;> linarith
  · intro he
    have h21 := congrArg Transform.r21 he
    have hsp : angSpeed (transformLogarithm smallTurn) = w := by
      unfold angSpeed
      rw [lenSq_angVel, hx, hy, hz, show 0 * 0 + 0 * 0 + w * w = w ^ 2 by ring,
        Real.sqrt_sq hw0]
    rw [velocityExponential_eq, hsp, if_neg (by norm_num; linarith)] at h21
    simp only [expMatrix] at h21
    rw [hx, hz, show smallTurn.r21 = Real.sin 0.0005 from rfl] at h21
    nlinarith [mul_nonneg hw0 hw0]

/-- Half turns about an axis that is not (nearly) a coordinate axis have a zero
logarithm, or whatever the output held before for the in-place version. -/
theorem C21_half_turn_wrong (v0 : Velocity6D) : IsRigid halfTurn ∧
    (transformLogarithmInPlace halfTurn v0).wxd = v0.wxd ∧
    (transformLogarithmInPlace halfTurn v0).wyd = v0.wyd ∧
    (transformLogarithmInPlace halfTurn v0).wzd = v0.wzd ∧
    velocityExponential (transformLogarithm halfTurn) = Transform.one ∧
    velocityExponential (transformLogarithm halfTurn) ≠ halfTurn := by
  have hsi : logSi halfTurn = 0 := by unfold logSi halfTurn; simp
  have hco : logCo halfTurn = -1 := by unfold logCo halfTurn; norm_num
  have hlog : ∀ v, transformLogarithmInPlace halfTurn v = ⟨0, 0, 0, v.wxd, v.wyd, v.wzd⟩ := by
    intro v
    unfold transformLogarithmInPlace
    simp only []
    rw [hsi, hco, if_pos (by norm_num), if_neg (by norm_num), if_pos (by norm_num),
      if_neg (by simp only [halfTurn]; norm_num), if_neg (by simp only [halfTurn]; norm_num),
      if_neg (by simp only [halfTurn]; norm_num)]
    ext <;> simp [logTail, halfTurn]
  have h1 : velocityExponential (transformLogarithm halfTurn) = Transform.one := by
    have : transformLogarithm halfTurn = Velocity6D.zero := by
      unfold transformLogarithm; rw [hlog]; rfl
    rw [this]
    exact (C20_rigid Velocity6D.zero (Or.inl (by
      ext i; fin_cases i <;> simp [angVel, Velocity6D.zero]))).1
  refine ⟨?_, by rw [hlog], by rw [hlog], by rw [hlog], h1, ?_⟩
  · unfold IsRigid Transform.rotMat halfTurn
    rw [isRot_coord]
    norm_num
  · rw [h1]; intro he
    have := congrArg Transform.r11 he
    simp [Transform.one, halfTurn] at this

/-! ### The hypotheses can be met -/

/-- A quarter turn about z followed by a translation. -/
example : IsRigid ⟨0, -1, 0, 1, 1, 0, 0, 2, 0, 0, 1, 3⟩ ∧
    0.001 ≤ logSi ⟨0, -1, 0, 1, 1, 0, 0, 2, 0, 0, 1, 3⟩ := by
  constructor
  · unfold IsRigid Transform.rotMat
    rw [isRot_coord]; norm_num
  · unfold logSi
    rw [show ((0:ℝ) - 0) * (0 - 0) + (0 - 0) * (0 - 0) + (1 - -1) * (1 - -1) = 2 ^ 2 by norm_num,
      Real.sqrt_sq (by norm_num)]
    norm_num

/-- A screw of 1.5 rad. -/
example : angSpeed ⟨1, 2, 3, 0, 0, 1.5⟩ ≤ Real.pi ∧
    0.001 ≤ Real.sin (angSpeed ⟨1, 2, 3, 0, 0, 1.5⟩) := by
  rw [angSpeed_z _ (by norm_num)]
  have hp := Real.pi_gt_three
  refine ⟨by linarith, ?_⟩
  have h1 := Real.mul_le_sin (x := 1.5) (by norm_num) (by linarith)
  refine le_trans ?_ h1
  have hp' := Real.pi_lt_d2
  rw [div_mul_eq_mul_div, le_div_iff₀ Real.pi_pos]
  linarith

end AlMath
