import Verif.Model.FloatAxis
import Verif.Props.C83
import Verif.Props.C84
import Verif.Props.C87
import Mathlib.Analysis.SpecialFunctions.Trigonometric.Inverse
import Mathlib.Analysis.SpecialFunctions.Trigonometric.Deriv

/-!
C88: quaternions from and to an angle and an axis in single precision.
-/

namespace AlMath.F32

open AlMath.Spec Matrix Quaternion

/-- The quaternion with a given real part and vector part. Not in /repo: specification. -/
def qv (w : ℝ) (v : Vec3) : ℍ[ℝ] := quat w (v 0) (v 1) (v 2)

/-- The unit quaternion of the rotation by `2 t` about the unit vector `n`. Not in /repo: specification. -/
noncomputable def axisQuat (n : Vec3) (t : ℝ) : ℍ[ℝ] := qv (Real.cos t) (Real.sin t • n)

theorem qv_norm_sq (w : ℝ) (v : Vec3) : ‖qv w v‖ ^ 2 = w ^ 2 + vlen v ^ 2 := by
  rw [hnorm_sq, vlen_sq, Fin.sum_univ_three]
  simp only [qv, quat_re, quat_imI, quat_imJ, quat_imK]
  ring

theorem qv_sub (w z : ℝ) (v u : Vec3) : qv w v - qv z u = qv (w - z) (v - u) := by
  ext <;> simp only [qv, re_sub, imI_sub, imJ_sub, imK_sub, quat_re, quat_imI, quat_imJ, quat_imK, Pi.sub_apply]

theorem qv_norm_le (w : ℝ) (v : Vec3) : ‖qv w v‖ ≤ |w| + vlen v := by
  refine sq_le_of (add_nonneg (abs_nonneg _) (vlen_nonneg _)) ?_
  rw [qv_norm_sq, add_sq, sq_abs]
  nlinarith [mul_nonneg (abs_nonneg w) (vlen_nonneg v)]

theorem axisQuat_norm {n : Vec3} (hn : vlen n = 1) (t : ℝ) : ‖axisQuat n t‖ = 1 := by
  refine (pow_left_inj₀ (norm_nonneg _) zero_le_one two_ne_zero).1 ?_
  have h : vlen (Real.sin t • n) ^ 2 = Real.sin t ^ 2 := by
    have e : vlen (Real.sin t • n) ^ 2 = Real.sin t ^ 2 * vlen n ^ 2 := by
      rw [vlen_sq, vlen_sq, Finset.mul_sum]
      exact Finset.sum_congr rfl fun i _ => by rw [Pi.smul_apply, smul_eq_mul, mul_pow]
    rw [e, hn, one_pow, mul_one]
  rw [axisQuat, qv_norm_sq, h, one_pow, Real.cos_sq_add_sin_sq]

/-- The matrix of the quaternion is the rotation. -/
theorem axisQuat_mat {n : Vec3} (hn : vlen n = 1) (t : ℝ) : quatMat (axisQuat n t) = rodrigues n (2 * t) := by
  have hl : lenSq n = 1 := by rw [lenSq_vlen, hn, one_pow]
  rw [quatMat_eq (axisQuat_norm hn t), ← axisMat_unit hl]
  have h := Real.sin_sq_add_cos_sq t
  have hl' : n 0 ^ 2 + n 1 ^ 2 + n 2 ^ 2 = 1 := by
    rw [← Fin.sum_univ_three fun i => n i ^ 2, ← vlen_sq, hn, one_pow]
  have e0 : n 0 ^ 2 = 1 - n 1 ^ 2 - n 2 ^ 2 := by linarith
  have e1 : Real.cos t ^ 2 = 1 - Real.sin t ^ 2 := by linarith
  ext i j
  fin_cases i <;> fin_cases j <;>
    simp [polyMat, axisQuat, qv, axisMat, skew, vecMulVec_apply, Real.cos_two_mul, Real.sin_two_mul] <;> ring_nf <;>
    simp only [e0, e1] <;> ring

/-- Near unit quaternions have near matrices. -/
theorem quatMat_lip {r p : ℍ[ℝ]} (hr : ‖r‖ = 1) (hp : ‖p‖ = 1) : fro (quatMat r - quatMat p) ≤ 3 * ‖r - p‖ := by
  refine sq_le_of (by positivity) ?_
  have h1 := hnorm_sq r
  have h2 := hnorm_sq p
  have h3 := hnorm_sq (r - p)
  rw [hr, one_pow] at h1
  rw [hp, one_pow] at h2
  rw [mul_pow, h3]
  simp only [re_sub, imI_sub, imJ_sub, imK_sub]
  set c := r.re * p.re + r.imI * p.imI + r.imJ * p.imJ + r.imK * p.imK with hc
  have e1 : (r.re - p.re) ^ 2 + (r.imI - p.imI) ^ 2 + (r.imJ - p.imJ) ^ 2 + (r.imK - p.imK) ^ 2 = 2 * (1 - c) := by
    rw [hc]; linarith
  have e2 : fro (quatMat r - quatMat p) ^ 2 = 8 * (1 - c ^ 2) := by
    have : fro (quatMat r - quatMat p) ^ 2 =
        3 * (r.re ^ 2 + r.imI ^ 2 + r.imJ ^ 2 + r.imK ^ 2) ^ 2 + 3 * (p.re ^ 2 + p.imI ^ 2 + p.imJ ^ 2 + p.imK ^ 2) ^ 2 +
          2 * (r.re ^ 2 + r.imI ^ 2 + r.imJ ^ 2 + r.imK ^ 2) * (p.re ^ 2 + p.imI ^ 2 + p.imJ ^ 2 + p.imK ^ 2) -
          8 * c ^ 2 := by
      rw [fro_sq, hc]
      simp [quatMat, Fin.sum_univ_three]
      ring
    rw [this, ← h1, ← h2]
    ring
  rw [e1, e2]
  nlinarith [sq_nonneg (c - 1)]

theorem axisQuat_lip (n : Vec3) (hn : vlen n = 1) (s t : ℝ) : ‖axisQuat n s - axisQuat n t‖ ≤ 2 * |s - t| := by
  rw [axisQuat, axisQuat, qv_sub, ← sub_smul]
  refine (qv_norm_le _ _).trans ?_
  have h1 : |Real.cos s - Real.cos t| ≤ |s - t| := by
    simpa [Real.dist_eq] using Real.lipschitzWith_cos.dist_le_mul s t
  have h2 : |Real.sin s - Real.sin t| ≤ |s - t| := by
    simpa [Real.dist_eq] using Real.lipschitzWith_sin.dist_le_mul s t
  have h3 : vlen ((Real.sin s - Real.sin t) • n) = |Real.sin s - Real.sin t| := by
    rcases le_total 0 (Real.sin s - Real.sin t) with h | h
    · rw [vlen_smul _ h, hn, mul_one, abs_of_nonneg h]
    · rw [← vlen_neg, ← neg_smul, vlen_smul _ (by linarith), hn, mul_one, abs_of_nonpos h]
  rw [h3]
  linarith

/-- Half of a finite angle. -/
theorem half_near {a : ℝ} (ha : Rep a) : ∃ h, mul (fin (1 / 2)) (fin a) = fin h ∧ Rep h ∧ |h - a / 2| ≤ 2 ^ (-149 : ℤ) := by
  have hb : |1 / 2 * a| ≤ 2 ^ 127 := by
    rw [abs_mul, abs_of_pos (by norm_num)]
    have := ha.lt
    norm_num at this ⊢
    linarith
  refine ⟨rnd (1 / 2 * a), mul_fin hb, rnd_rep hb, ?_⟩
  rw [show a / 2 = 1 / 2 * a by ring]
  by_cases h : |a| < 2 ^ (-125 : ℤ)
  · have h1 := rnd_abs (x := 1 / 2 * a) (by
      rw [abs_mul, abs_of_pos (by norm_num)]
      have : (2 : ℝ) ^ (-125 : ℤ) = 2 * 2 ^ (-126 : ℤ) := by norm_num
      rw [this] at h
      generalize (2 : ℝ) ^ (-126 : ℤ) = w at *
      linarith)
    exact h1.trans (two_zpow_le (by norm_num))
  · obtain ⟨m, e, h1, h2, h3, rfl⟩ := ha
    have he : -148 ≤ e := by
      by_contra hc
      have : e = -149 := by omega
      subst this
      apply h
      have hm : |(m : ℝ)| < 2 ^ 24 := by exact_mod_cast h1
      rw [abs_mul, abs_of_pos (two_zpow_pos _)]
      calc |(m : ℝ)| * 2 ^ (-149 : ℤ) < 2 ^ 24 * 2 ^ (-149 : ℤ) := mul_lt_mul_of_pos_right hm (two_zpow_pos _)
        _ = 2 ^ (-125 : ℤ) := by norm_num
    have hg : Grid (1 / 2 * (m * (2 : ℝ) ^ e)) := by
      refine ⟨m, e - 1, h1, by omega, ?_⟩
      rw [zpow_sub_one₀ (by norm_num)]
      ring
    rw [rnd_of_grid hg, sub_self, abs_zero]
    exact (two_zpow_pos _).le

/-- An axis near a unit vector gives a quaternion near that of the rotation. -/
theorem C88_from (m : Libm) (hm : m.Accurate) (a : ℝ) (ha : Rep a) (v n : Vec3) (hv : ∀ i, Rep (v i)) (hn : vlen n = 1)
    (d : ℝ) (hd : vlen (v - n) ≤ d) (hd1 : d ≤ 1 / 8) :
    ∃ q, Quat.fromAngleAndAxis m (fin a) (fin (v 0)) (fin (v 1)) (fin (v 2)) = .ok (Quat.ofH q) ∧ RepH q ∧
      ‖q - axisQuat n (a / 2)‖ ≤ d + 2 ^ (-20 : ℤ) := by
  have hd0 : 0 ≤ d := (vlen_nonneg _).trans hd
  obtain ⟨h, e1, rh, e2⟩ := half_near ha
  obtain ⟨c', c1, c2, c3⟩ := hm.cos h rh
  obtain ⟨s', s1, s2, s3⟩ := hm.sin h rh
  have h1 : |Real.cos h - Real.cos (a / 2)| ≤ |h - a / 2| := by
    simpa [Real.dist_eq] using Real.lipschitzWith_cos.dist_le_mul h (a / 2)
  have h2 : |Real.sin h - Real.sin (a / 2)| ≤ |h - a / 2| := by
    simpa [Real.dist_eq] using Real.lipschitzWith_sin.dist_le_mul h (a / 2)
  have w : (2 : ℝ) ^ (-149 : ℤ) ≤ 1 / 16777216 := by
    have := two_zpow_le (show (-149 : ℤ) ≤ -24 by norm_num)
    rwa [two_neg24] at this
  have e23 : (2 : ℝ) ^ (-23 : ℤ) = 2 / 16777216 := by norm_num
  have kc : |c' - Real.cos (a / 2)| ≤ 3 / 16777216 := by
    have := abs_add_le (c' - Real.cos h) (Real.cos h - Real.cos (a / 2))
    rw [sub_add_sub_cancel] at this
    rw [e23] at c3
    generalize (2 : ℝ) ^ (-149 : ℤ) = η at *
    linarith
  have ks : |s' - Real.sin (a / 2)| ≤ 3 / 16777216 := by
    have := abs_add_le (s' - Real.sin h) (Real.sin h - Real.sin (a / 2))
    rw [sub_add_sub_cancel] at this
    rw [e23] at s3
    generalize (2 : ℝ) ^ (-149 : ℤ) = η at *
    linarith
  have hv2 : vlen v ≤ 9 / 8 := by
    have := vlen_add (v - n) n
    rw [sub_add_cancel, hn] at this
    linarith
  have hs := Real.abs_sin_le_one (a / 2)
  have hmul : ∀ i, Near (mul (fin (v i)) (m.sin (fin h))) (v i * Real.sin (a / 2)) (5 / 16777216) := fun i =>
    Near.mul (Near.of_rep (hv i)) ⟨s', s1, s2, ks⟩ ((abs_le_vlen v i).trans hv2) hs _ (by norm_num) (by norm_num)
  choose q' q1 q2 q3 using hmul
  have hq : ‖qv c' q' - axisQuat n (a / 2)‖ ≤ d + 13 / 16777216 := by
    rw [axisQuat, qv_sub]
    refine (qv_norm_le _ _).trans ?_
    have k1 : vlen (q' - Real.sin (a / 2) • v) ≤ 2 * (5 / 16777216) := by
      refine (vlen_mono fun i => ?_).trans (vlen_const _ (by norm_num))
      rw [abs_of_pos (show (0 : ℝ) < 5 / 16777216 by norm_num), Pi.sub_apply, Pi.smul_apply, smul_eq_mul, mul_comm]
      exact q3 i
    have k2 : vlen (Real.sin (a / 2) • (v - n)) ≤ d := by
      refine (vlen_mono fun i => ?_).trans hd
      rw [Pi.smul_apply, smul_eq_mul, abs_mul]
      exact mul_le_of_le_one_left (abs_nonneg _) hs
    have k3 := vlen_add (q' - Real.sin (a / 2) • v) (Real.sin (a / 2) • (v - n))
    rw [smul_sub, sub_add_sub_cancel, ← smul_sub] at k3
    linarith
  have hqn : |‖qv c' q'‖ - 1| ≤ d + 13 / 16777216 := by
    rw [← axisQuat_norm hn (a / 2)]
    exact (abs_norm_sub_norm_le _ _).trans hq
  obtain ⟨n1, n2⟩ := abs_le.1 hqn
  have hrep : RepH (qv c' q') := ⟨c2, q2 0, q2 1, q2 2⟩
  obtain ⟨r, r1, -, -⟩ := C83_normalize (qv c' q') hrep
    (le_trans (two_zpow_le (show (-126 : ℤ) ≤ -1 by norm_num)) (by norm_num; linarith))
    (le_trans (show _ ≤ (2 : ℝ) by linarith) (by norm_num))
  refine ⟨qv c' q', ?_, hrep, hq.trans (by norm_num)⟩
  unfold Quat.fromAngleAndAxis
  have e3 : (⟨m.cos (fin h), mul (fin (v 0)) (m.sin (fin h)), mul (fin (v 1)) (m.sin (fin h)),
      mul (fin (v 2)) (m.sin (fin h))⟩ : Quat) = Quat.ofH (qv c' q') := by
    rw [c1, q1, q1, q1]
    rfl
  simp only [e1]
  rw [e3, r1]
  rfl

/-- The matrix of that quaternion is near the rotation by the angle about the unit vector. -/
theorem C88_matrix (m : Libm) (hm : m.Accurate) (a : ℝ) (ha : Rep a) (v n : Vec3) (hv : ∀ i, Rep (v i)) (hn : vlen n = 1)
    (d : ℝ) (hd : vlen (v - n) ≤ d) (hd1 : d ≤ 1 / 8) :
    ∃ q A, Quat.fromAngleAndAxis m (fin a) (fin (v 0)) (fin (v 1)) (fin (v 2)) = .ok q ∧
      Quat.toRotation q = Rotation.ofMat A ∧ fro (A - rodrigues n a) ≤ 14 * d + 2 ^ (-16 : ℤ) := by
  obtain ⟨q, h1, -, h2⟩ := C88_from m hm a ha v n hv hn d hd hd1
  have hd0 : 0 ≤ d := (vlen_nonneg _).trans hd
  have e20 : (2 : ℝ) ^ (-20 : ℤ) = 1 / 1048576 := by norm_num
  rw [e20] at h2
  obtain ⟨-, A, h3, -, h4⟩ := C83_rotation q _ _ (axisQuat_norm hn (a / 2)) h2 (by linarith)
  refine ⟨_, A, h1, h3, ?_⟩
  rw [axisQuat_mat hn, mul_div_cancel₀ a two_ne_zero] at h4
  refine h4.trans ?_
  norm_num
  nlinarith

/-! ### Angle and axis of a quaternion -/

/-- Rounding to double precision does not go beyond 1. -/
theorem F64.rnd_le_one {x : ℝ} (h0 : 0 ≤ x) (h1 : x ≤ 1) : F64.rnd x ≤ 1 := by
  by_cases hx : x = 0
  · rw [hx, F64.rnd_zero]
    exact zero_le_one
  have hl : F64.lastBit x ≤ 0 := by
    have hp : 0 < |x| := abs_pos.2 hx
    have : Int.log 2 |x| < 1 :=
      (Int.lt_zpow_iff_log_lt (by norm_num) hp).1 (by rw [abs_of_nonneg h0]; norm_num; linarith)
    exact max_le (by omega) (by norm_num)
  have hp := two_zpow_pos (F64.lastBit x)
  have e : ((2 ^ (-F64.lastBit x).toNat : ℤ) : ℝ) * (2 : ℝ) ^ F64.lastBit x = 1 := by
    have : ((-F64.lastBit x).toNat : ℤ) = -F64.lastBit x := Int.toNat_of_nonneg (by omega)
    push_cast
    rw [← zpow_natCast, this, ← zpow_add₀ (by norm_num), neg_add_cancel, zpow_zero]
  have h2 := nearestInt_min (x / (2 : ℝ) ^ F64.lastBit x) (2 ^ (-F64.lastBit x).toNat)
  rw [F64.rnd, ← e]
  refine mul_le_mul_of_nonneg_right ?_ hp.le
  have h3 : x / (2 : ℝ) ^ F64.lastBit x ≤ ((2 ^ (-F64.lastBit x).toNat : ℤ) : ℝ) := by
    rw [div_le_iff₀ hp, e]
    exact h1
  rw [abs_of_nonneg (sub_nonneg.2 h3)] at h2
  linarith [le_abs_self ((nearestInt (x / (2 : ℝ) ^ F64.lastBit x) : ℝ) - x / (2 : ℝ) ^ F64.lastBit x)]

/-- The square root of `1 - w²`. -/
theorem sinAngle_fin {w : ℝ} (hw : |w| ≤ 1) :
    ∃ s, F64.toFloat (F64.sqrt (F64.sub (fin 1) (F64.sq (fin w)))) = fin s ∧ Rep s ∧ 0 ≤ s ∧ s ≤ 1 := by
  have one : (1 : ℝ) ≤ 2 ^ 1000 := one_le_pow₀ (by norm_num)
  have hr : ∀ x : ℝ, 0 ≤ x → x ≤ 1 → F64.round x = fin (F64.rnd x) ∧ 0 ≤ F64.rnd x ∧ F64.rnd x ≤ 1 := fun x h0 h1 =>
    ⟨F64.round_fin (by rw [abs_of_nonneg h0]; exact h1.trans one), F64.rnd_nonneg h0, F64.rnd_le_one h0 h1⟩
  have hw2 : w * w ≤ 1 := by
    rw [← abs_mul_abs_self]
    nlinarith [abs_nonneg w]
  obtain ⟨a1, a2, a3⟩ := hr (w * w) (mul_self_nonneg w) hw2
  obtain ⟨b1, b2, b3⟩ := hr (1 + -F64.rnd (w * w)) (by linarith) (by linarith)
  obtain ⟨c1, c2, c3⟩ := hr (√(F64.rnd (1 + -F64.rnd (w * w)))) (Real.sqrt_nonneg _) (Real.sqrt_le_one.2 b3)
  have h127 : |F64.rnd (√(F64.rnd (1 + -F64.rnd (w * w))))| ≤ 2 ^ 127 := by
    rw [abs_of_nonneg c2]
    exact c3.trans (by norm_num)
  refine ⟨rnd (F64.rnd (√(F64.rnd (1 + -F64.rnd (w * w))))), ?_, rnd_rep h127, le_rnd_of_le Rep.zero.grid c2,
    rnd_le_of_le Rep.one.grid c3⟩
  simp only [F64.sq, F64.mul, a1, F64.sub, neg, F64.add, b1, F64.sqrt, if_neg (not_lt.2 b2), c1, F64.toFloat,
    round_fin h127]

theorem const_near {c : ℝ} (h0 : 0 < c) (h1 : c ≤ 1) : ∃ k, round c = fin k ∧ |k - c| ≤ c / 10000000 + 2 ^ (-150 : ℤ) := by
  have hc : |c| ≤ 2 ^ 127 := by rw [abs_of_pos h0]; exact h1.trans (by norm_num)
  refine ⟨rnd c, round_fin hc, (rnd_gen c).trans ?_⟩
  rw [two_neg24, abs_of_pos h0]
  linarith

/-- A relative and an absolute error of each component. -/
theorem vlen_two {u z : Vec3} {δ η : ℝ} (hδ : 0 ≤ δ) (hη : 0 ≤ η) (h : ∀ i, |u i - z i| ≤ δ * |z i| + η) :
    vlen (u - z) ≤ δ * vlen z + 2 * η := by
  have k1 : vlen (u - z) ≤ vlen (δ • (fun i => |z i|) + fun _ => η) := vlen_mono fun i => (h i).trans (le_abs_self _)
  have k2 := vlen_add (δ • (fun i => |z i|)) fun _ => η
  rw [vlen_smul _ hδ, vlen_abs] at k2
  linarith [vlen_const η hη]

/-- The last step: a unit vector `n` such that `√(1 - w²) n` is near the vector part. -/
theorem axis_finish {w a e κ : ℝ} {v n : Vec3} {p : ℍ[ℝ]} (hw : |w| ≤ 1) (hn : vlen n = 1) (hp : ‖p‖ = 1)
    (he : ‖qv w v - p‖ ≤ e) (ha : |a - 2 * Real.arccos w| ≤ 25 / 16777216) (h : vlen (√(1 - w ^ 2) • n - v) ≤ κ) :
    fro (rodrigues n a - quatMat p) ≤ 3 * (e + κ + 2 / 1000000) := by
  obtain ⟨w1, w2⟩ := abs_le.1 hw
  have h1 : ‖axisQuat n (a / 2) - p‖ ≤ e + κ + 2 / 1000000 := by
    have k1 := axisQuat_lip n hn (a / 2) (Real.arccos w)
    have k2 : |a / 2 - Real.arccos w| ≤ 25 / 2 / 16777216 := by
      rw [show a / 2 - Real.arccos w = (a - 2 * Real.arccos w) / 2 by ring, abs_div, abs_two]
      linarith
    have k3 : ‖axisQuat n (Real.arccos w) - qv w v‖ ≤ κ := by
      rw [axisQuat, Real.cos_arccos w1 w2, Real.sin_arccos, qv_sub, sub_self]
      refine (qv_norm_le _ _).trans ?_
      rwa [abs_zero, zero_add]
    have k4 : axisQuat n (a / 2) - p = (axisQuat n (a / 2) - axisQuat n (Real.arccos w)) +
        (axisQuat n (Real.arccos w) - qv w v) + (qv w v - p) := by abel
    rw [k4]
    refine (norm_add₃_le).trans ?_
    linarith
  have h2 := quatMat_lip (axisQuat_norm hn (a / 2)) hp
  rw [axisQuat_mat hn, mul_div_cancel₀ a two_ne_zero] at h2
  linarith

theorem sqrt_gap {w e : ℝ} {v : Vec3} {p : ℍ[ℝ]} (hw : |w| ≤ 1) (hp : ‖p‖ = 1) (he : ‖qv w v - p‖ ≤ e) :
    |√(1 - w ^ 2) - vlen v| ≤ √(2 * e + e ^ 2) := by
  have he0 : 0 ≤ e := (norm_nonneg _).trans he
  have h1 : |‖qv w v‖ - 1| ≤ e := by
    rw [← hp]
    exact (abs_norm_sub_norm_le _ _).trans he
  obtain ⟨h1, h2⟩ := abs_le.1 h1
  have h3 := qv_norm_sq w v
  have hw2 : w ^ 2 ≤ 1 := (sq_le_one_iff_abs_le_one w).2 hw
  have h4 : √(1 - w ^ 2) ^ 2 = 1 - w ^ 2 := Real.sq_sqrt (by linarith)
  have h5 := Real.sqrt_nonneg (1 - w ^ 2)
  have h6 := vlen_nonneg v
  have h7 := norm_nonneg (qv w v)
  refine Real.abs_le_sqrt ?_
  generalize √(1 - w ^ 2) = s at *
  generalize vlen v = t at *
  generalize ‖qv w v‖ = N at *
  rcases le_total t s with h | h
  · nlinarith
  · nlinarith

open Classical in
/-- Angle and axis of a quaternion near a unit quaternion. The angle is badly determined when the real part is near 1. -/
theorem C88_to (acos : F32 → F32) (hac : AcosAccurate acos) (w : ℝ) (v : Vec3) (hw : Rep w) (hv : ∀ i, Rep (v i))
    (p : ℍ[ℝ]) (hp : ‖p‖ = 1) (e : ℝ) (he : ‖qv w v - p‖ ≤ e) (he1 : e ≤ 1 / 8) (hw1 : |w| ≤ 1) :
    ∃ a u, Quat.toAngleAndAxis acos (Quat.ofH (qv w v)) = .ok (fin a, Position3D.ofVec u) ∧ Rep a ∧ (∀ i, Rep (u i)) ∧
      -(1 / 100000) ≤ a ∧ a ≤ 7 ∧ 0 < vlen u ∧
      fro (rodrigues ((1 / vlen u) • u) a - quatMat p) ≤ 3 * (e + √(2 * e + e ^ 2) + 21 / 100000) := by
  have he0 : 0 ≤ e := (norm_nonneg _).trans he
  have hgap := sqrt_gap hw1 hp he
  have hq1 : |‖qv w v‖ - 1| ≤ e := by
    rw [← hp]
    exact (abs_norm_sub_norm_le _ _).trans he
  obtain ⟨q1, q2⟩ := abs_le.1 hq1
  have hvl : vlen v ≤ 9 / 8 := by
    refine le_trans (sq_le_of (norm_nonneg (qv w v)) ?_) (show ‖qv w v‖ ≤ 9 / 8 by linarith)
    rw [qv_norm_sq]
    nlinarith [sq_nonneg w]
  obtain ⟨r, r1, -, -⟩ := C83_normalize (qv w v) ⟨hw, hv 0, hv 1, hv 2⟩
    (le_trans (two_zpow_le (show (-126 : ℤ) ≤ -1 by norm_num)) (by norm_num; linarith))
    (le_trans (show _ ≤ (2 : ℝ) by linarith) (by norm_num))
  -- the angle
  obtain ⟨t, t1, t2, t3⟩ := hac.value w hw hw1
  have hpi : |Real.arccos w| ≤ 16 / 5 := by
    rw [abs_of_nonneg (Real.arccos_nonneg _)]
    exact (Real.arccos_le_pi w).trans (by linarith [Real.pi_lt_d2])
  have e21 : (2 : ℝ) ^ (-21 : ℤ) = 8 / 16777216 := by norm_num
  rw [e21] at t3
  obtain ⟨a, a1, a2, a3⟩ := Near.mul (Near.of_rep (show Rep 2 from ⟨2, 0, by norm_num, by norm_num, by norm_num, by norm_num⟩))
    (show Near (acos (fin w)) (Real.arccos w) (8 / 16777216) from ⟨t, t1, t2, t3⟩) (M := 2) (by norm_num) hpi
    (25 / 16777216) (by norm_num) (by norm_num)
  have ha0 := Real.arccos_nonneg w
  obtain ⟨a4, a5⟩ := abs_le.1 a3
  have ha6 : -(1 / 100000) ≤ a := by linarith
  have ha7 : a ≤ 7 := by
    rw [abs_of_nonneg ha0] at hpi
    linarith
  -- the divisor
  obtain ⟨s, s1, s2, s3, s4⟩ := sinAngle_fin hw1
  obtain ⟨k, k1, k2⟩ := const_near (c := 5 / 10000) (by norm_num) (by norm_num)
  obtain ⟨l, l1, l2⟩ := const_near (c := 1 / 10000) (by norm_num) (by norm_num)
  have w150 : (2 : ℝ) ^ (-150 : ℤ) ≤ 1 / 1099511627776 := by
    have := two_zpow_le (show (-150 : ℤ) ≤ -40 by norm_num)
    refine this.trans (le_of_eq ?_)
    norm_num
  have η0 := two_zpow_pos (-150)
  have hdiv : ∃ s', (if lt (abs (fin s)) (round (5 / 10000)) then fin 1 else fin s : F32) = fin s' ∧ 49 / 100000 ≤ s' ∧ s' ≤ 1 := by
    rw [k1]
    by_cases hlt : lt (abs (fin s)) (fin k)
    · exact ⟨1, if_pos hlt, by norm_num, le_refl _⟩
    · refine ⟨s, if_neg hlt, ?_, s4⟩
      have : k ≤ |s| := not_lt.1 hlt
      rw [abs_of_nonneg s3] at this
      have := (abs_le.1 k2).1
      linarith
  obtain ⟨s', d1, d2, d3⟩ := hdiv
  have hs0 : 0 < s' := by linarith
  -- the axis
  set z : Vec3 := (1 / s') • v with hz
  have hzi : ∀ i, v i / s' = z i := fun i => by rw [hz, Pi.smul_apply, smul_eq_mul]; ring
  have hzl : vlen z * s' = vlen v := by
    rw [hz, vlen_smul _ (by positivity)]
    field_simp
  have hzb : vlen z ≤ 2500 := by
    by_contra hc
    push Not at hc
    nlinarith
  have hz127 : ∀ i, |z i| ≤ 2 ^ 127 := fun i => ((abs_le_vlen z i).trans hzb).trans (by norm_num)
  set u : Vec3 := fun i => rnd (z i) with hu
  have hdu : ∀ i, div (fin (v i)) (fin s') = fin (u i) := fun i => by
    rw [div, if_neg hs0.ne', hzi, round_fin (hz127 i)]
  have hur : ∀ i, Rep (u i) := fun i => rnd_rep (hz127 i)
  have herr : vlen (u - z) ≤ 1 / 16777216 * vlen z + 2 * 2 ^ (-150 : ℤ) := by
    refine vlen_two (by norm_num) η0.le fun i => ?_
    have := rnd_gen (z i)
    rwa [two_neg24] at this
  have hzn := vlen_nonneg z
  have huz : vlen u ≤ vlen z + vlen (u - z) := by
    have := vlen_add z (u - z)
    rwa [add_sub_cancel] at this
  have hzu : vlen z ≤ vlen u + vlen (u - z) := by
    have := vlen_add u (z - u)
    rwa [add_sub_cancel, ← vlen_neg (z - u), neg_sub] at this
  obtain ⟨N, N1, -, N2, N3⟩ := norm3_fin u (by
    have : vlen u ≤ 3000 := by linarith
    exact this.trans (by norm_num))
  have e149 : (2 : ℝ) ^ (-149 : ℤ) = 2 * 2 ^ (-150 : ℤ) := by norm_num
  have e23 : (2 : ℝ) ^ (-23 : ℤ) = 2 / 16777216 := by norm_num
  rw [e149, e23] at N3
  obtain ⟨N4, N5⟩ := abs_le.1 N3
  obtain ⟨l3, l4⟩ := abs_le.1 l2
  have eval : Quat.toAngleAndAxis acos (Quat.ofH (qv w v)) =
      if lt (fin N) (fin l) then Res.ok (fin a, ⟨fin 1, fin 0, fin 0⟩) else Res.ok (fin a, ⟨fin (u 0), fin (u 1), fin (u 2)⟩) := by
    have f1 : (Quat.ofH (qv w v)).w = fin w := rfl
    have f2 : (Quat.ofH (qv w v)).x = fin (v 0) := rfl
    have f3 : (Quat.ofH (qv w v)).y = fin (v 1) := rfl
    have f4 : (Quat.ofH (qv w v)).z = fin (v 2) := rfl
    rw [Quat.toAngleAndAxis, r1]
    simp only [Res.bind_ok]
    rw [f1, f2, f3, f4, s1, d1, hdu, hdu, hdu, N1, a1, l1]
  rw [eval]
  have hvn := vlen_nonneg v
  by_cases hlt : lt (fin N) (fin l)
  · rw [if_pos hlt]
    have hNl : N < l := hlt
    have hvs : vlen v ≤ 101 / 1000000 := by
      have h1 : vlen z ≤ 101 / 1000000 := by
        generalize (2 : ℝ) ^ (-150 : ℤ) = η at *
        linarith
      rw [← hzl]
      nlinarith
    have hn1 : vlen ![1, 0, 0] = 1 := by simp [vlen, Fin.sum_univ_three]
    refine ⟨a, ![1, 0, 0], rfl, a2, ?_, ha6, ha7, by rw [hn1]; exact one_pos, ?_⟩
    · intro i
      fin_cases i
      exacts [Rep.one, Rep.zero, Rep.zero]
    rw [hn1, div_one, one_smul]
    have h1 : vlen (√(1 - w ^ 2) • ![1, 0, 0] - v) ≤ √(2 * e + e ^ 2) + 202 / 1000000 := by
      have g1 := vlen_add (√(1 - w ^ 2) • ![1, 0, 0]) (-v)
      rw [vlen_smul _ (Real.sqrt_nonneg _), vlen_neg, hn1, mul_one, ← sub_eq_add_neg] at g1
      have := (abs_le.1 hgap).2
      linarith
    exact (axis_finish hw1 hn1 hp he a3 h1).trans (by linarith)
  · rw [if_neg hlt]
    have hNl : l ≤ N := not_lt.1 hlt
    have hup : 0 < vlen u := by
      generalize (2 : ℝ) ^ (-150 : ℤ) = η at *
      linarith
    refine ⟨a, u, rfl, a2, hur, ha6, ha7, hup, ?_⟩
    have hn1 : vlen ((1 / vlen u) • u) = 1 := by
      rw [vlen_smul _ (by positivity)]
      field_simp
    have h1 : vlen (√(1 - w ^ 2) • ((1 / vlen u) • u) - v) ≤ √(2 * e + e ^ 2) + 202 / 1000000 := by
      set n : Vec3 := (1 / vlen u) • u with hn
      have hun : u = vlen u • n := by
        rw [hn, smul_smul, mul_one_div_cancel hup.ne', one_smul]
      have hvz : v = s' • z := by
        rw [hz, smul_smul, mul_one_div_cancel hs0.ne', one_smul]
      have e1 : √(1 - w ^ 2) • n - v = (√(1 - w ^ 2) - vlen v) • n + ((vlen v - s' * vlen u) • n + s' • (u - z)) := by
        have : s' • (u - z) = (s' * vlen u) • n - v := by
          rw [smul_sub, ← hvz]
          nth_rewrite 1 [hun]
          rw [smul_smul]
        rw [this, sub_smul, sub_smul]
        abel
      have sm : ∀ c : ℝ, vlen (c • n) = |c| := fun c => by
        rcases le_total 0 c with h | h
        · rw [vlen_smul _ h, hn1, mul_one, abs_of_nonneg h]
        · rw [← vlen_neg, ← neg_smul, vlen_smul _ (by linarith), hn1, mul_one, abs_of_nonpos h]
      have g1 := vlen_add ((√(1 - w ^ 2) - vlen v) • n) ((vlen v - s' * vlen u) • n + s' • (u - z))
      have g2 := vlen_add ((vlen v - s' * vlen u) • n) (s' • (u - z))
      rw [sm] at g1 g2
      rw [vlen_smul _ hs0.le] at g2
      have g3 : |vlen v - s' * vlen u| ≤ s' * vlen (u - z) := by
        rw [← hzl, mul_comm s', ← sub_mul, abs_mul, abs_of_pos hs0, mul_comm]
        refine mul_le_mul_of_nonneg_left ?_ hs0.le
        rw [abs_le]
        constructor <;> linarith
      have g4 : s' * vlen (u - z) ≤ 1 / 1000000 := by
        have : s' * vlen (u - z) ≤ s' * (1 / 16777216 * vlen z + 2 * 2 ^ (-150 : ℤ)) := mul_le_mul_of_nonneg_left herr hs0.le
        have h2 : s' * (2 : ℝ) ^ (-150 : ℤ) ≤ 2 ^ (-150 : ℤ) := mul_le_of_le_one_left η0.le d3
        generalize (2 : ℝ) ^ (-150 : ℤ) = η at *
        linarith
      rw [e1]
      linarith
    exact (axis_finish hw1 hn1 hp he a3 h1).trans (by linarith)

/-- A normalised quaternion, as `normalize` computes them, has an angle and an axis within 1/200 of its rotation
if its real part is not beyond 1. -/
theorem C88_normalised (acos : F32 → F32) (hac : AcosAccurate acos) (q : ℍ[ℝ]) (hq : RepH q)
    (hl : 2 ^ (-126 : ℤ) ≤ ‖q‖) (hu : ‖q‖ ≤ 2 ^ 125) :
    ∃ r, Quat.normalize (Quat.ofH q) = .ok (Quat.ofH r) ∧ (|r.re| ≤ 1 →
      ∃ a u, Quat.toAngleAndAxis acos (Quat.ofH r) = .ok (fin a, Position3D.ofVec u) ∧ 0 < vlen u ∧
        fro (rodrigues ((1 / vlen u) • u) a - quatMat ((1 / ‖q‖) • q)) ≤ 1 / 200) := by
  obtain ⟨r, h1, h2, h3⟩ := C83_normalize q hq hl hu
  refine ⟨r, h1, fun h => ?_⟩
  have h0 : 0 < ‖q‖ := lt_of_lt_of_le (two_zpow_pos _) hl
  have hp : ‖(1 / ‖q‖) • q‖ = 1 := by
    rw [norm_smul, Real.norm_of_nonneg (by positivity)]
    field_simp
  have er : r = qv r.re ![r.imI, r.imJ, r.imK] := by ext <;> rfl
  have e20 : (2 : ℝ) ^ (-20 : ℤ) = 1 / 1048576 := by norm_num
  rw [e20, er] at h3
  obtain ⟨a, u, k1, -, -, -, -, k2, k3⟩ := C88_to acos hac r.re ![r.imI, r.imJ, r.imK] h2.1
    (by intro i; fin_cases i; exacts [h2.2.1, h2.2.2.1, h2.2.2.2]) _ hp _ h3 (by norm_num) h
  refine ⟨a, u, by rw [← er] at k1; exact k1, k2, k3.trans ?_⟩
  have : √(2 * (1 / 1048576) + (1 / 1048576) ^ 2) ≤ 139 / 100000 := Real.sqrt_le_iff.2 ⟨by norm_num, by norm_num⟩
  linarith

theorem Rep.above_one {w : ℝ} (h : Rep w) (h1 : 1 < |w|) : 1 + 2 ^ (-23 : ℤ) ≤ |w| := by
  obtain ⟨m, e, h2, -, -, rfl⟩ := h
  have hm : |(m : ℝ)| < 2 ^ 24 := by exact_mod_cast h2
  rw [abs_mul, abs_of_pos (two_zpow_pos e)] at h1 ⊢
  have he : -23 ≤ e := by
    by_contra hc
    push Not at hc
    have h3 : (2 : ℝ) ^ e ≤ 2 ^ (-24 : ℤ) := two_zpow_le (by omega)
    have : |(m : ℝ)| * 2 ^ e ≤ 2 ^ 24 * 2 ^ (-24 : ℤ) := mul_le_mul hm.le h3 (two_zpow_pos _).le (by norm_num)
    norm_num at this
    linarith
  obtain ⟨k, rfl⟩ : ∃ k : ℕ, e = -23 + k := ⟨(e + 23).toNat, by omega⟩
  have e1 : (2 : ℝ) ^ (-23 + (k : ℤ)) = ((2 ^ k : ℤ) : ℝ) * 2 ^ (-23 : ℤ) := by
    rw [zpow_add₀ (by norm_num), zpow_natCast, mul_comm]
    push_cast
    ring
  rw [e1] at h1 ⊢
  have e2 : |(m : ℝ)| * (((2 ^ k : ℤ) : ℝ) * 2 ^ (-23 : ℤ)) = ((|m| * 2 ^ k : ℤ) : ℝ) * 2 ^ (-23 : ℤ) := by
    push_cast
    ring
  rw [e2] at h1 ⊢
  generalize |m| * 2 ^ k = j at *
  have h3 : (8388608 : ℝ) < j := by
    norm_num at h1
    linarith
  have h4 : (8388609 : ℤ) ≤ j := by
    have : (8388608 : ℤ) < j := by exact_mod_cast h3
    omega
  have h5 : (8388609 : ℝ) ≤ j := by exact_mod_cast h4
  norm_num
  linarith

/-- Angle and axis are NaN when the real part is beyond 1. -/
theorem C88_nan (acos : F32 → F32) (hac : AcosAccurate acos) (q : ℍ[ℝ]) (hq : RepH q) (hu : ‖q‖ ≤ 2 ^ 126)
    (h : 1 < |q.re|) : Quat.toAngleAndAxis acos (Quat.ofH q) = .ok (nan, ⟨nan, nan, nan⟩) := by
  obtain ⟨n, hn, -, -, hz⟩ := C83_norm q hq hu
  have hq0 : q ≠ 0 := by
    rintro rfl
    rw [re_zero, abs_zero] at h
    linarith
  have hn0 : ¬ eq (fin n) (fin 0) := fun hc => hq0 (hz.1 hc)
  obtain ⟨r, hr⟩ : ∃ r, Quat.normalize (Quat.ofH q) = .ok r := by
    rw [Quat.normalize, hn, if_neg hn0, Quat.div, if_neg hn0]
    exact ⟨_, rfl⟩
  have hw := hq.1.above_one h
  have e23 : (2 : ℝ) ^ (-23 : ℤ) = 1 / 8388608 := by norm_num
  rw [e23] at hw
  have hw128 : |q.re| ≤ 2 ^ 128 := hq.1.lt.le
  obtain ⟨s, s1, s2⟩ := sq_double hw128
  have hθ := theta_le
  have hθ2 : (2 : ℝ) ^ (-400 : ℤ) ≤ 2 ^ (-60 : ℤ) := two_zpow_le (by norm_num)
  have e60 : (2 : ℝ) ^ (-60 : ℤ) = 1 / 1152921504606846976 := by norm_num
  have e53 : (2 : ℝ) ^ (-53 : ℤ) = 1 / 9007199254740992 := by norm_num
  have hθ3 := hθ.trans hθ2
  rw [e60] at hθ3
  rw [e53] at s2
  have hs1 : 1 + 1 / 8388608 ≤ s := by
    have h1 := (abs_le.1 s2).1
    have h2 : (1 + 1 / 8388608) ^ 2 ≤ q.re ^ 2 := by
      rw [← sq_abs q.re]
      exact pow_le_pow_left₀ (by norm_num) hw 2
    norm_num at h2
    generalize (2 : ℝ) ^ (-1075 : ℤ) = θ at *
    linarith
  have hs2 : |1 + -s| ≤ 2 ^ 1000 := by
    have h1 := (abs_le.1 s2).2
    have h2 : q.re ^ 2 ≤ 2 ^ 256 := by
      rw [← sq_abs q.re]
      calc |q.re| ^ 2 ≤ (2 ^ 128) ^ 2 := pow_le_pow_left₀ (abs_nonneg _) hw128 2
        _ = 2 ^ 256 := by norm_num
    have h3 : (2 : ℝ) ^ 256 * 4 ≤ 2 ^ 1000 := by
      rw [show (4 : ℝ) = 2 ^ 2 by norm_num, ← pow_add]
      exact pow_le_pow_right₀ (by norm_num) (by norm_num)
    have h4 : (1 : ℝ) ≤ 2 ^ 256 := one_le_pow₀ (by norm_num)
    rw [abs_of_neg (by linarith)]
    generalize (2 : ℝ) ^ 256 = P at *
    generalize (2 : ℝ) ^ 1000 = R at *
    generalize (2 : ℝ) ^ (-1075 : ℤ) = θ at *
    linarith
  have hneg : F64.rnd (1 + -s) < 0 := by
    have h1 := (abs_le.1 (F64.rnd_gen (1 + -s))).2
    rw [abs_of_neg (by linarith), e53] at h1
    generalize (2 : ℝ) ^ (-1075 : ℤ) = θ at *
    linarith
  have hS : F64.toFloat (F64.sqrt (F64.sub (fin 1) (F64.sq (fin q.re)))) = nan := by
    rw [s1]
    simp only [F64.sub, neg, F64.add, F64.round_fin hs2, F64.sqrt, if_pos hneg, F64.toFloat]
  have e1 : (Quat.ofH q).w = fin q.re := rfl
  have hdiv : ∀ x, div x nan = nan := fun x => by cases x <;> rfl
  have hN : norm3 nan nan nan = nan := rfl
  have hab : abs nan = nan := rfl
  have hm : mul (fin 2) nan = nan := rfl
  have l1 : ∀ x, ¬ lt nan x := fun x => by cases x <;> simp [lt]
  rw [Quat.toAngleAndAxis, hr]
  simp only [Res.bind_ok]
  rw [e1, hS, hab, if_neg (l1 _), hdiv, hdiv, hdiv, hN, if_neg (l1 _), hac.domain _ h, hm]

/-- Quaternions whose norm is 1 up to rounding are not changed by `normalize`. -/
theorem normalize_fixed (q : ℍ[ℝ]) (hq : RepH q) (h1 : 1 - 1 / 67108864 ≤ ‖q‖ ^ 2) (h2 : ‖q‖ ^ 2 ≤ 1 + 1 / 8388608) :
    Quat.normalize (Quat.ofH q) = .ok (Quat.ofH q) := by
  have hN : ‖q‖ ≤ 2 := by nlinarith [norm_nonneg q]
  obtain ⟨k1, k2, k3, k4⟩ := abs_le_hnorm q
  obtain ⟨s, hs, he⟩ := sumsq_double k1 k2 k3 k4 (hN.trans (by norm_num))
  rw [← hnorm_sq] at he
  have h390 : (2 : ℝ) ^ (-390 : ℤ) ≤ 2 ^ (-80 : ℤ) := two_zpow_le (by norm_num)
  have e80 : (2 : ℝ) ^ (-80 : ℤ) = 1 / 1208925819614629174706176 := by norm_num
  have e50 : (2 : ℝ) ^ (-50 : ℤ) = 1 / 1125899906842624 := by norm_num
  have e53 : (2 : ℝ) ^ (-53 : ℤ) = 1 / 9007199254740992 := by norm_num
  rw [e80] at h390
  rw [e50] at he
  obtain ⟨he1, he2⟩ := abs_le.1 he
  generalize (2 : ℝ) ^ (-390 : ℤ) = η at *
  have s1 : 1 - 1 / 67108864 - 1 / 562949953421312 ≤ s := by linarith
  have s2 : s ≤ 1 + 1 / 8388608 + 1 / 562949953421312 - 1 / 2251799813685248 := by linarith
  have r1 : 1 - 1 / 67108864 ≤ √s := Real.le_sqrt_of_sq_le (by norm_num; linarith)
  have r2 : √s ≤ 1 + 1 / 16777216 - 1 / 1125899906842624 := Real.sqrt_le_iff.2 ⟨by norm_num, by norm_num; linarith⟩
  have hr := F64.rnd_gen (√s)
  rw [abs_of_nonneg (Real.sqrt_nonneg s), e53] at hr
  obtain ⟨hr1, hr2⟩ := abs_le.1 hr
  have hθ : (2 : ℝ) ^ (-1075 : ℤ) ≤ 1 / 1208925819614629174706176 := by
    rw [← e80]
    exact two_zpow_le (by norm_num)
  generalize (2 : ℝ) ^ (-1075 : ℤ) = θ at *
  have g3 : 1 - 1 / 40000000 ≤ F64.rnd (√s) := by linarith
  have g4 : F64.rnd (√s) < 1 + 1 / 16777216 := by linarith
  have hd1 : rnd (F64.rnd (√s)) = 1 := by
    by_cases hc : 1 ≤ F64.rnd (√s)
    · rw [rnd_eq (k := 0) (m := 8388608) (by rw [abs_of_pos (by linarith)]; norm_num; exact hc)
        (by rw [abs_of_pos (by linarith)]; norm_num; linarith) (by norm_num)
        (by rw [abs_lt]; norm_num; constructor <;> linarith)]
      norm_num
    · push Not at hc
      rw [rnd_eq (k := -1) (m := 16777216) (by rw [abs_of_pos (by linarith)]; norm_num; linarith)
        (by rw [abs_of_pos (by linarith)]; norm_num; linarith) (by norm_num)
        (by rw [abs_lt]; norm_num; constructor <;> linarith)]
      norm_num
  have two : (2 : ℝ) ≤ 2 ^ 1000 := by
    calc (2 : ℝ) = 2 ^ 1 := by norm_num
      _ ≤ 2 ^ 1000 := pow_le_pow_right₀ (by norm_num) (by norm_num)
  have b1 : |√s| ≤ 2 ^ 1000 := by
    rw [abs_of_nonneg (Real.sqrt_nonneg s)]
    exact (show _ ≤ (2 : ℝ) by linarith).trans two
  have b2 : |F64.rnd (√s)| ≤ 2 ^ 127 := by
    rw [abs_of_nonneg (by linarith)]
    exact (show _ ≤ (2 : ℝ) by linarith).trans (by norm_num)
  have hnorm : Quat.norm (Quat.ofH q) = fin 1 := by
    simp only [Quat.norm, Quat.ofH]
    rw [hs, F64.sqrt, if_neg (by linarith), F64.round_fin b1, F64.toFloat, F32.round_fin b2, hd1]
  have hne : ¬ eq (fin 1) (fin 0) := one_ne_zero
  have hd : div (fin 1) (fin 1) = fin 1 := by
    rw [div, if_neg one_ne_zero, div_one, round_rep Rep.one]
  have hm : ∀ {x : ℝ}, Rep x → mul (fin x) (fin 1) = fin x := by
    intro x hx
    rw [mul, mul_one, round_rep hx]
  rw [Quat.normalize, hnorm, if_neg hne, Quat.div, if_neg hne, hd]
  simp only [Quat.smul, Quat.ofH, hm hq.1, hm hq.2.1, hm hq.2.2.1, hm hq.2.2.2]

theorem rep_over {m : ℤ} {e : ℤ} (h1 : |m| < 2 ^ 24) (h2 : -149 ≤ e) (h3 : e ≤ 104) : Rep (m * (2 : ℝ) ^ e) :=
  ⟨m, e, h1, h2, h3, rfl⟩

/-- A quaternion which `normalize` keeps, times its inverse, has a real part beyond 1, and so no angle and no axis. -/
theorem C88_product_nan (acos : F32 → F32) (hac : AcosAccurate acos) :
    ∃ q, Quat.normalize q = .ok q ∧
      Quat.toAngleAndAxis acos (Quat.mul q (Quat.inverse q)) = .ok (nan, ⟨nan, nan, nan⟩) := by
  have rep24 : ∀ m : ℤ, |m| < 2 ^ 24 → Rep (m / 16777216) := fun m hm => by
    have := rep_over (e := -24) hm (by norm_num) (by norm_num)
    rwa [two_neg24, mul_one_div] at this
  have w1 : Rep (2744 / 4096) := by
    have := rep24 11239424 (by norm_num)
    norm_num at this ⊢
    exact this
  have x1 : Rep (1 / 4096) := by
    have := rep24 4096 (by norm_num)
    norm_num at this ⊢
    exact this
  have y1 : Rep (3041 / 4096) := by
    have := rep24 12455936 (by norm_num)
    norm_num at this ⊢
    exact this
  set q : ℍ[ℝ] := quat (2744 / 4096) (1 / 4096) (3041 / 4096) 0 with hqd
  have hq : RepH q := ⟨w1, x1, y1, Rep.zero⟩
  have hn : ‖q‖ ^ 2 = 1 + 1 / 8388608 := by
    rw [hnorm_sq]
    simp only [hqd, quat_re, quat_imI, quat_imJ, quat_imK]
    norm_num
  refine ⟨Quat.ofH q, normalize_fixed q hq (by rw [hn]; norm_num) (by rw [hn]), ?_⟩
  have einv : Quat.inverse (Quat.ofH q) = Quat.ofH (star q) := by
    simp [Quat.inverse, Quat.ofH, neg]
  rw [einv]
  have hN : ‖q‖ ≤ 2 := by nlinarith [norm_nonneg q]
  obtain ⟨r, h1, h2, h3⟩ := C83_mul q (star q) (by
    rw [norm_star]
    calc ‖q‖ * ‖q‖ ≤ 2 * 2 := mul_le_mul hN hN (norm_nonneg _) (by norm_num)
      _ ≤ 2 ^ 124 := by norm_num)
  have hre : r.re = 1 + 1 / 8388608 := by
    have e : (Quat.mul (Quat.ofH q) (Quat.ofH (star q))).w = fin r.re := by rw [h1]; rfl
    have ra : round (2744 / 4096 * (2744 / 4096)) = fin (2744 / 4096 * (2744 / 4096)) :=
      round_rep (by have := rep24 7529536 (by norm_num); norm_num at this ⊢; exact this)
    have rb : round (1 / 4096 * -(1 / 4096)) = fin (1 / 4096 * -(1 / 4096)) :=
      round_rep (by have := rep24 (-1) (by norm_num); norm_num at this ⊢; exact this)
    have rc : round (3041 / 4096 * -(3041 / 4096)) = fin (3041 / 4096 * -(3041 / 4096)) :=
      round_rep (by have := rep24 (-9247681) (by norm_num); norm_num at this ⊢; exact this)
    have rd : round (0 * -0) = fin (0 * -0) := round_rep (by simpa using Rep.zero)
    have re : round (2744 / 4096 * (2744 / 4096) + -(1 / 4096 * -(1 / 4096))) =
        fin (2744 / 4096 * (2744 / 4096) + -(1 / 4096 * -(1 / 4096))) :=
      round_rep (by have := rep24 7529537 (by norm_num); norm_num at this ⊢; exact this)
    have rf : round (2744 / 4096 * (2744 / 4096) + -(1 / 4096 * -(1 / 4096)) + -(3041 / 4096 * -(3041 / 4096))) =
        fin (2744 / 4096 * (2744 / 4096) + -(1 / 4096 * -(1 / 4096)) + -(3041 / 4096 * -(3041 / 4096))) :=
      round_rep (by
        have := rep_over (m := 8388609) (e := -23) (by norm_num) (by norm_num) (by norm_num)
        norm_num at this ⊢
        exact this)
    have rg : round (2744 / 4096 * (2744 / 4096) + -(1 / 4096 * -(1 / 4096)) + -(3041 / 4096 * -(3041 / 4096)) + -(0 * -0)) =
        fin (1 + 1 / 8388608) := by
      have : (2744 / 4096 * (2744 / 4096) + -(1 / 4096 * -(1 / 4096)) + -(3041 / 4096 * -(3041 / 4096)) + -(0 * -0) : ℝ) =
          1 + 1 / 8388608 := by norm_num
      rw [this]
      exact round_rep (by
        have := rep_over (m := 8388609) (e := -23) (by norm_num) (by norm_num) (by norm_num)
        norm_num at this ⊢
        exact this)
    have e2 : (Quat.mul (Quat.ofH q) (Quat.ofH (star q))).w = fin (1 + 1 / 8388608) := by
      simp only [Quat.mul, Quat.ofH, hqd, quat_re, quat_imI, quat_imJ, quat_imK, re_star, imI_star, imJ_star, imK_star]
      simp only [mul, ra, rb, rc, rd, sub, neg, add, re, rf, rg]
    rw [e] at e2
    exact F32.fin.inj e2
  have hr2 : ‖r‖ ≤ 2 ^ 126 := by
    have k1 := norm_add_le (r - q * star q) (q * star q)
    rw [sub_add_cancel, norm_mul, norm_star] at k1
    rw [norm_star] at h3
    have w : (2 : ℝ) ^ (-146 : ℤ) ≤ 1 := zpow_le_one_of_nonpos₀ (by norm_num) (by norm_num)
    have w2 : (2 : ℝ) ^ (-20 : ℤ) ≤ 1 := zpow_le_one_of_nonpos₀ (by norm_num) (by norm_num)
    have k2 : ‖q‖ * ‖q‖ ≤ 4 := by nlinarith [norm_nonneg q]
    have k3 : (2 : ℝ) ^ (-20 : ℤ) * (‖q‖ * ‖q‖) ≤ 1 * 4 := mul_le_mul w2 k2 (by positivity) zero_le_one
    refine (show ‖r‖ ≤ 16 by linarith).trans (by norm_num)
  rw [h1]
  exact C88_nan acos hac r h2 hr2 (by rw [hre, abs_of_pos (by norm_num)]; norm_num)

theorem e53_eq : (2 : ℝ) ^ (-53 : ℤ) = 1 / 9007199254740992 := by norm_num

/-- The divisor of `angleAndAxisRotationFromQuaternion` for the real part `1 - 3 / 2^24`. -/
theorem sinAngle_witness : ∃ s, F64.toFloat (F64.sqrt (F64.sub (fin 1) (F64.sq (fin (16777213 / 16777216))))) = fin s ∧
    598 / 1000000 ≤ s ∧ s ≤ 5981 / 10000000 := by
  have one : (1 : ℝ) ≤ 2 ^ 1000 := one_le_pow₀ (by norm_num)
  have hθ : (2 : ℝ) ^ (-1075 : ℤ) ≤ 1 / 1208925819614629174706176 := by
    rw [show (1 : ℝ) / 1208925819614629174706176 = 2 ^ (-80 : ℤ) by norm_num]
    exact two_zpow_le (by norm_num)
  have hη : (2 : ℝ) ^ (-150 : ℤ) ≤ 1 / 1208925819614629174706176 := by
    rw [show (1 : ℝ) / 1208925819614629174706176 = 2 ^ (-80 : ℤ) by norm_num]
    exact two_zpow_le (by norm_num)
  set p : ℝ := 16777213 / 16777216 * (16777213 / 16777216) with hp
  have hpv : p = 281474876047369 / 281474976710656 := by rw [hp]; norm_num
  have p1 := abs_le.1 (F64.rnd_gen p)
  rw [abs_of_pos (by rw [hpv]; norm_num), e53_eq] at p1
  set a := F64.rnd p
  have q1 := abs_le.1 (F64.rnd_gen (1 + -a))
  have a1 : 35762 / 100000000000 ≤ 1 + -a := by
    generalize (2 : ℝ) ^ (-1075 : ℤ) = θ at *
    linarith [p1.2]
  have a2 : 1 + -a ≤ 35763 / 100000000000 := by
    generalize (2 : ℝ) ^ (-1075 : ℤ) = θ at *
    linarith [p1.1]
  rw [abs_of_pos (by linarith), e53_eq] at q1
  set b := F64.rnd (1 + -a)
  have b1 : 357619 / 1000000000000 ≤ b := by
    generalize (2 : ℝ) ^ (-1075 : ℤ) = θ at *
    linarith [q1.1]
  have b2 : b ≤ 357631 / 1000000000000 := by
    generalize (2 : ℝ) ^ (-1075 : ℤ) = θ at *
    linarith [q1.2]
  have c1 : 59801 / 100000000 ≤ √b := Real.le_sqrt_of_sq_le (by norm_num; linarith)
  have c2 : √b ≤ 59803 / 100000000 := Real.sqrt_le_iff.2 ⟨by norm_num, by norm_num; linarith⟩
  have r1 := abs_le.1 (F64.rnd_gen (√b))
  rw [abs_of_nonneg (Real.sqrt_nonneg b), e53_eq] at r1
  set c := F64.rnd (√b)
  have d1 : 598009 / 1000000000 ≤ c := by
    generalize (2 : ℝ) ^ (-1075 : ℤ) = θ at *
    linarith [r1.1]
  have d2 : c ≤ 598031 / 1000000000 := by
    generalize (2 : ℝ) ^ (-1075 : ℤ) = θ at *
    linarith [r1.2]
  have t1 := abs_le.1 (rnd_gen c)
  rw [abs_of_pos (by linarith), two_neg24] at t1
  have f1 : F64.round p = fin a := F64.round_fin (by
    rw [abs_of_pos (by rw [hpv]; norm_num), hpv]
    exact le_trans (by norm_num) one)
  have f2 : F64.round (1 + -a) = fin b := F64.round_fin (by
    rw [abs_of_pos (by linarith)]
    exact le_trans (show _ ≤ (1 : ℝ) by linarith) one)
  have f3 : F64.round (√b) = fin c := F64.round_fin (by
    rw [abs_of_nonneg (Real.sqrt_nonneg b)]
    exact le_trans (show _ ≤ (1 : ℝ) by linarith) one)
  have f4 : round c = fin (rnd c) := round_fin (by
    rw [abs_of_nonneg (by linarith)]
    exact le_trans (show _ ≤ (1 : ℝ) by linarith) (by norm_num))
  refine ⟨rnd c, ?_, ?_, ?_⟩
  · simp only [F64.sq, F64.mul, ← hp, f1, F64.sub, neg, F64.add, f2, F64.sqrt, if_neg (not_lt.2 (show 0 ≤ b by linarith)), f3,
      F64.toFloat, f4]
  · generalize (2 : ℝ) ^ (-150 : ℤ) = η at *
    linarith [t1.1]
  · generalize (2 : ℝ) ^ (-150 : ℤ) = η at *
    linarith [t1.2]

/-- The axis of a quaternion which `normalize` keeps need not be a unit vector: its squared length can exceed 1.3,
and `rotationFromAngleDirection` refuses it. -/
theorem C88_axis_not_unit (acos : F32 → F32) :
    ∃ q a u, Quat.normalize q = .ok q ∧ Quat.toAngleAndAxis acos q = .ok (a, Position3D.ofVec u) ∧
      13 / 10 ≤ vlen u ^ 2 ∧ ∀ m, Rotation.fromAngleDirection m a (fin (u 0)) (fin (u 1)) (fin (u 2)) = .throws := by
  have hw : Rep (16777213 / 16777216) := by
    have := rep_over (m := 16777213) (e := -24) (by norm_num) (by norm_num) (by norm_num)
    norm_num at this ⊢
    exact this
  have hx : Rep (724 / 1048576) := by
    have := rep_over (m := 724) (e := -20) (by norm_num) (by norm_num) (by norm_num)
    norm_num at this ⊢
    exact this
  set q : ℍ[ℝ] := quat (16777213 / 16777216) (724 / 1048576) 0 0 with hqd
  have hq : RepH q := ⟨hw, hx, Rep.zero, Rep.zero⟩
  have hn : ‖q‖ ^ 2 = (16777213 / 16777216) ^ 2 + (724 / 1048576) ^ 2 := by
    rw [hnorm_sq]
    simp only [hqd, quat_re, quat_imI, quat_imJ, quat_imK]
    norm_num
  have hfix := normalize_fixed q hq (by rw [hn]; norm_num) (by rw [hn]; norm_num)
  obtain ⟨s, s1, s2, s3⟩ := sinAngle_witness
  obtain ⟨k, k1, k2⟩ := const_near (c := 5 / 10000) (by norm_num) (by norm_num)
  obtain ⟨l, l1, l2⟩ := const_near (c := 1 / 10000) (by norm_num) (by norm_num)
  have w150 : (2 : ℝ) ^ (-150 : ℤ) ≤ 1 / 1099511627776 := by
    have := two_zpow_le (show (-150 : ℤ) ≤ -40 by norm_num)
    refine this.trans (le_of_eq ?_)
    norm_num
  have hs0 : 0 < s := by linarith
  have z1 : 1154 / 1000 ≤ 724 / 1048576 / s := by
    rw [le_div_iff₀ hs0]
    linarith
  have z2 : 724 / 1048576 / s ≤ 1155 / 1000 := by
    rw [div_le_iff₀ hs0]
    linarith
  have hz : |724 / 1048576 / s| ≤ 2 ^ 127 := by
    rw [abs_of_pos (by linarith)]
    exact le_trans z2 (by norm_num)
  have x1 := abs_le.1 (rnd_gen (724 / 1048576 / s))
  rw [abs_of_pos (by linarith), two_neg24] at x1
  set x := rnd (724 / 1048576 / s) with hxd
  have x2 : 1153 / 1000 ≤ x := by
    generalize (2 : ℝ) ^ (-150 : ℤ) = η at *
    linarith [x1.1]
  have x3 : x ≤ 1156 / 1000 := by
    generalize (2 : ℝ) ^ (-150 : ℤ) = η at *
    linarith [x1.2]
  have hux : div (fin (724 / 1048576)) (fin s) = fin x := by rw [div, if_neg hs0.ne', round_fin hz]
  have hu0 : div (fin 0) (fin s) = fin 0 := by rw [div, if_neg hs0.ne', zero_div, round_rep Rep.zero]
  have hul : vlen ![x, 0, 0] ^ 2 = x ^ 2 := by simp [vlen_sq, Fin.sum_univ_three]
  have hul2 : vlen ![x, 0, 0] = x := by
    simp [vlen, Fin.sum_univ_three, Real.sqrt_sq (show 0 ≤ x by linarith)]
  obtain ⟨N, N1, -, N2, N3⟩ := norm3_fin ![x, 0, 0] (by rw [hul2]; exact x3.trans (by norm_num))
  have e149 : (2 : ℝ) ^ (-149 : ℤ) = 2 * 2 ^ (-150 : ℤ) := by norm_num
  have e23 : (2 : ℝ) ^ (-23 : ℤ) = 2 / 16777216 := by norm_num
  rw [e149, e23, hul2] at N3
  have g1 : ¬ lt (abs (fin s)) (fin k) := by
    refine not_lt.2 ?_
    rw [abs_of_pos hs0]
    have := (abs_le.1 k2).2
    linarith
  have g2 : ¬ lt (fin N) (fin l) := by
    refine not_lt.2 ?_
    have h1 := (abs_le.1 l2).2
    have h2 := (abs_le.1 N3).1
    generalize (2 : ℝ) ^ (-150 : ℤ) = η at *
    linarith
  have hx2 : 13 / 10 ≤ vlen ![x, 0, 0] ^ 2 := by
    rw [hul]
    nlinarith
  refine ⟨Quat.ofH q, mul (fin 2) (acos (fin (16777213 / 16777216))), ![x, 0, 0], hfix, ?_, hx2, fun m => C87_throws m _ _ (by rw [hul2]; exact x3.trans (by norm_num)) ?_⟩
  · rw [Quat.toAngleAndAxis, hfix]
    simp only [Res.bind_ok]
    have f1 : (Quat.ofH q).w = fin (16777213 / 16777216) := rfl
    have f2 : (Quat.ofH q).x = fin (724 / 1048576) := rfl
    have f3 : (Quat.ofH q).y = fin 0 := rfl
    have f4 : (Quat.ofH q).z = fin 0 := rfl
    have N4 : norm3 (fin x) (fin 0) (fin 0) = fin N := N1
    rw [f1, f2, f3, f4, s1, k1, if_neg g1, hux, hu0, N4, l1, if_neg g2]
    rfl
  · rw [abs_of_pos (by linarith)]
    linarith

/-- What is assumed of the arc cosine can be satisfied: by rounding the exact values. Not in /repo: specification. -/
noncomputable def acosRounded : F32 → F32
  | fin w => if |w| ≤ 1 then round (Real.arccos w) else nan
  | _ => nan

theorem acosRounded_accurate : AcosAccurate acosRounded where
  value w _ hw := by
    have h : |Real.arccos w| ≤ 16 / 5 := by
      rw [abs_of_nonneg (Real.arccos_nonneg _)]
      exact (Real.arccos_le_pi w).trans (by linarith [Real.pi_lt_d2])
    have h1 := rnd_gen (Real.arccos w)
    have h2 : |Real.arccos w| ≤ 2 ^ 127 := h.trans (by norm_num)
    refine ⟨rnd (Real.arccos w), ?_, rnd_rep h2, h1.trans ?_⟩
    · rw [acosRounded, if_pos hw, round_fin h2]
    have h3 : (2 : ℝ) ^ (-150 : ℤ) ≤ 2 ^ (-24 : ℤ) := two_zpow_le (by norm_num)
    have k : (2 : ℝ) ^ (-21 : ℤ) = 8 * 2 ^ (-24 : ℤ) := by norm_num
    have k0 : (0 : ℝ) < 2 ^ (-24 : ℤ) := two_zpow_pos _
    rw [k]
    generalize (2 : ℝ) ^ (-24 : ℤ) = u at *
    have := mul_le_mul_of_nonneg_left h k0.le
    linarith
  domain w hw := by rw [acosRounded, if_neg (not_le.2 hw)]

/-- One radian about the third axis. -/
example : ∃ q A, Quat.fromAngleAndAxis Libm.rounded (fin 1) (fin 0) (fin 0) (fin 1) = .ok q ∧
    Quat.toRotation q = Rotation.ofMat A ∧ fro (A - rodrigues ![0, 0, 1] 1) ≤ 14 * 0 + 2 ^ (-16 : ℤ) := by
  have h := C88_matrix _ rounded_accurate 1 Rep.one ![0, 0, 1] ![0, 0, 1]
    (by intro i; fin_cases i; exacts [Rep.zero, Rep.zero, Rep.one]) (by simp [vlen, Fin.sum_univ_three])
    0 (by simp [vlen]) (by norm_num)
  simpa using h

/-- An axis with rounded components. -/
example : ∃ q, Quat.fromAngleAndAxis Libm.rounded (fin 1) (fin 0) (fin (1023 / 1024)) (fin 0) = .ok (Quat.ofH q) ∧ RepH q ∧
    ‖q - axisQuat ![0, 1, 0] (1 / 2)‖ ≤ 1 / 1024 + 2 ^ (-20 : ℤ) := by
  have h := C88_from _ rounded_accurate 1 Rep.one ![0, 1023 / 1024, 0] ![0, 1, 0]
    (by
      intro i
      fin_cases i
      exacts [Rep.zero, ⟨1023, -10, by norm_num, by norm_num, by norm_num, by norm_num⟩, Rep.zero])
    (by simp [vlen, Fin.sum_univ_three])
    (1 / 1024) (by
      rw [show ((![0, 1023 / 1024, 0] : Vec3) - ![0, 1, 0]) = ![0, -(1 / 1024), 0] by
        ext i; fin_cases i <;> simp <;> norm_num]
      simp [vlen, Fin.sum_univ_three, Real.sqrt_sq_eq_abs]) (by norm_num)
  simpa using h

/-- Half a turn about the first axis. -/
example : ∃ a u, Quat.toAngleAndAxis acosRounded (Quat.ofH (qv 0 ![1, 0, 0])) = .ok (fin a, Position3D.ofVec u) ∧ Rep a ∧
    (∀ i, Rep (u i)) ∧ -(1 / 100000) ≤ a ∧ a ≤ 7 ∧ 0 < vlen u ∧
      fro (rodrigues ((1 / vlen u) • u) a - quatMat (qv 0 ![1, 0, 0])) ≤ 3 * (0 + √(2 * 0 + 0 ^ 2) + 21 / 100000) := by
  refine C88_to _ acosRounded_accurate 0 ![1, 0, 0] Rep.zero (by intro i; fin_cases i; exacts [Rep.one, Rep.zero, Rep.zero])
    _ ?_ 0 (by simp) (by norm_num) (by simp)
  have h := qv_norm_sq 0 ![1, 0, 0]
  simp [vlen, Fin.sum_univ_three] at h
  exact h.resolve_right (by linarith [norm_nonneg (qv 0 ![1, 0, 0])])

/-- The quaternion 1 + i. -/
example : ∃ r, Quat.normalize (Quat.ofH (quat 1 1 0 0)) = .ok (Quat.ofH r) ∧ (|r.re| ≤ 1 →
      ∃ a u, Quat.toAngleAndAxis acosRounded (Quat.ofH r) = .ok (fin a, Position3D.ofVec u) ∧ 0 < vlen u ∧
        fro (rodrigues ((1 / vlen u) • u) a - quatMat ((1 / ‖quat 1 1 0 0‖) • quat 1 1 0 0)) ≤ 1 / 200) := by
  have hn : ‖quat 1 1 0 0‖ ^ 2 = 2 := by
    rw [hnorm_sq]
    simp only [quat_re, quat_imI, quat_imJ, quat_imK]
    norm_num
  refine C88_normalised _ acosRounded_accurate _ ⟨Rep.one, Rep.one, Rep.zero, Rep.zero⟩ ?_ ?_
  · exact (zpow_le_one_of_nonpos₀ (by norm_num) (by norm_num)).trans
      (show (1 : ℝ) ≤ _ by nlinarith [norm_nonneg (quat 1 1 0 0)])
  · exact (show _ ≤ (2 : ℝ) by nlinarith [norm_nonneg (quat 1 1 0 0)]).trans (by norm_num)

/-- The quaternion 2. -/
example : Quat.toAngleAndAxis acosRounded (Quat.ofH (quat 2 0 0 0)) = .ok (nan, ⟨nan, nan, nan⟩) := by
  have hn : ‖quat 2 0 0 0‖ ^ 2 = 4 := by
    rw [hnorm_sq]
    simp only [quat_re, quat_imI, quat_imJ, quat_imK]
    norm_num
  exact C88_nan _ acosRounded_accurate _
    ⟨⟨2, 0, by norm_num, by norm_num, by norm_num, by norm_num [quat_re]⟩, Rep.zero, Rep.zero, Rep.zero⟩
    ((show _ ≤ (2 : ℝ) by nlinarith [norm_nonneg (quat 2 0 0 0)]).trans (by norm_num)) (by norm_num [quat_re])

/-- The witnesses exist for the arc cosine above. -/
example : ∃ q, Quat.normalize q = .ok q ∧
    Quat.toAngleAndAxis acosRounded (Quat.mul q (Quat.inverse q)) = .ok (nan, ⟨nan, nan, nan⟩) :=
  C88_product_nan _ acosRounded_accurate

end AlMath.F32
