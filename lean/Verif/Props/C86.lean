import Verif.Props.C85

/-!
C86: angles from matrices in single precision.
-/

namespace AlMath.F32

open AlMath.Spec Matrix

/-- A direction computed from a vector near one that is almost a unit vector. -/
theorem unit_dir {z w : ℂ} {θ ε κ u : ℝ} (hz : ‖z - w‖ ≤ ε) (hw : ‖w‖ ≤ 1) (hκ : 1 - κ ≤ ‖w‖) (hu : 0 ≤ u)
    (h : ‖(‖z‖ : ℂ) * Complex.exp (θ * Complex.I) - z‖ ≤ u * ‖z‖) :
    ‖Complex.exp (θ * Complex.I) - w‖ ≤ 2 * ε + κ + u * (1 + ε) := by
  have e : Complex.exp (θ * Complex.I) - w = ((1 - ‖z‖ : ℝ) : ℂ) * Complex.exp (θ * Complex.I) +
      (((‖z‖ : ℂ) * Complex.exp (θ * Complex.I) - z) + (z - w)) := by
    push_cast
    ring
  have h1 := norm_add_le (((1 - ‖z‖ : ℝ) : ℂ) * Complex.exp (θ * Complex.I))
    (((‖z‖ : ℂ) * Complex.exp (θ * Complex.I) - z) + (z - w))
  have h2 := norm_add_le ((‖z‖ : ℂ) * Complex.exp (θ * Complex.I) - z) (z - w)
  rw [norm_mul, Complex.norm_exp_ofReal_mul_I, mul_one, Complex.norm_real] at h1
  have h3 := norm_sub_norm_le z w
  have h4 := norm_sub_norm_le w z
  rw [norm_sub_rev] at h4
  have h5 : ‖1 - ‖z‖‖ ≤ ε + κ := by
    rw [Real.norm_eq_abs, abs_le]
    constructor <;> linarith
  have h6 : u * ‖z‖ ≤ u * (1 + ε) := mul_le_mul_of_nonneg_left (by linarith) hu
  rw [e]
  linarith

/-- `c a - s b`, computed. -/
theorem pair_sub {c s c' s' a b : ℝ} (hc : |c' - c| ≤ 2 ^ (-23 : ℤ)) (hs : |s' - s| ≤ 2 ^ (-23 : ℤ)) (c1 : |c| ≤ 1)
    (s1 : |s| ≤ 1) (ha : |a| ≤ 5 / 4) (hb : |b| ≤ 5 / 4) :
    ∃ t, sub (mul (fin c') (fin a)) (mul (fin s') (fin b)) = fin t ∧ Rep t ∧ |t - (c * a - s * b)| ≤ 2 ^ (-20 : ℤ) := by
  have hc2 := le_of_err hc
  have hs2 := le_of_err hs
  have w : (2 : ℝ) ^ (-148 : ℤ) ≤ 2 ^ (-40 : ℤ) := two_zpow_le (by norm_num)
  have e23 : (2 : ℝ) ^ (-23 : ℤ) = 1 / 8388608 := by norm_num
  rw [e23] at hc hs hc2 hs2
  have p1 : |c'| * |a| ≤ (1 + 1 / 8388608) * (5 / 4) := mul_le_mul (by linarith) ha (abs_nonneg _) (by norm_num)
  have p2 : |s'| * |b| ≤ (1 + 1 / 8388608) * (5 / 4) := mul_le_mul (by linarith) hb (abs_nonneg _) (by norm_num)
  obtain ⟨t, h1, h2, h3⟩ := det2_fin (a := c') (b := s') (x := b) (y := a) (le_trans (by linarith) (show (3 : ℝ) ≤ 2 ^ 125 by norm_num))
  refine ⟨t, h1, h2, ?_⟩
  have e : t - (c * a - s * b) = (t - (c' * a - s' * b)) + ((c' - c) * a - (s' - s) * b) := by ring
  have q1 := abs_add_le (t - (c' * a - s' * b)) ((c' - c) * a - (s' - s) * b)
  have q2 := abs_sub ((c' - c) * a) ((s' - s) * b)
  rw [abs_mul, abs_mul] at q2
  have q3 : |c' - c| * |a| ≤ 1 / 8388608 * (5 / 4) := mul_le_mul hc ha (abs_nonneg _) (by norm_num)
  have q4 : |s' - s| * |b| ≤ 1 / 8388608 * (5 / 4) := mul_le_mul hs hb (abs_nonneg _) (by norm_num)
  rw [e]
  have e22 : (2 : ℝ) ^ (-22 : ℤ) = 1 / 4194304 := by norm_num
  have e20 : (2 : ℝ) ^ (-20 : ℤ) = 1 / 1048576 := by norm_num
  have e40 : (2 : ℝ) ^ (-40 : ℤ) = 1 / 1099511627776 := by norm_num
  rw [e40] at w
  rw [e22] at h3
  rw [e20]
  generalize (2 : ℝ) ^ (-148 : ℤ) = η at *
  linarith

/-- `c a + s b`, computed. -/
theorem pair_add {c s c' s' a b : ℝ} (hc : |c' - c| ≤ 2 ^ (-23 : ℤ)) (hs : |s' - s| ≤ 2 ^ (-23 : ℤ)) (c1 : |c| ≤ 1)
    (s1 : |s| ≤ 1) (ha : |a| ≤ 5 / 4) (hb : |b| ≤ 5 / 4) :
    ∃ t, add (mul (fin c') (fin a)) (mul (fin s') (fin b)) = fin t ∧ Rep t ∧ |t - (c * a + s * b)| ≤ 2 ^ (-20 : ℤ) := by
  obtain ⟨t, h1, h2, h3⟩ := pair_sub (s := s) (s' := s') (b := -b) hc hs c1 s1 ha (by rwa [abs_neg])
  refine ⟨t, ?_, h2, by rwa [mul_neg, sub_neg_eq_add] at h3⟩
  have hb' : |s' * b| ≤ 2 ^ 127 := by
    have := le_of_err hs
    rw [abs_mul]
    have h4 : |s'| ≤ 2 := this.trans (by norm_num; linarith)
    exact (mul_le_mul h4 hb (abs_nonneg _) (by norm_num)).trans (by norm_num)
  rw [← h1, mul_fin hb', sub, mul_fin (x := s') (y := -b) (by rwa [mul_neg, abs_neg]), mul_neg, rnd_neg, neg, neg_neg]

theorem mix_sq {c s x y : ℝ} (h : s ^ 2 + c ^ 2 = 1) : (c * x + s * y) ^ 2 ≤ x ^ 2 + y ^ 2 := by
  have : (c * x + s * y) ^ 2 + (c * y - s * x) ^ 2 = (s ^ 2 + c ^ 2) * (x ^ 2 + y ^ 2) := by ring
  rw [h] at this
  linarith [sq_nonneg (c * y - s * x)]

theorem cnorm_sq (z : ℂ) : ‖z‖ ^ 2 = z.re ^ 2 + z.im ^ 2 := by
  rw [Complex.sq_norm, Complex.normSq_apply]
  ring

theorem cnorm_real (t : ℝ) : ‖(⟨t, 0⟩ : ℂ)‖ = |t| := by
  rw [← Real.norm_eq_abs, ← Complex.norm_real]
  rfl

theorem cnorm_imag (t : ℝ) : ‖(⟨0, t⟩ : ℂ)‖ = |t| := by
  have : ‖(⟨0, t⟩ : ℂ)‖ ^ 2 = |t| ^ 2 := by rw [cnorm_sq, sq_abs]; simp
  exact (pow_left_inj₀ (norm_nonneg _) (abs_nonneg _) two_ne_zero).1 this

/-- Entries of a matrix near a rotation. -/
theorem entry_le {A P : Mat3} {e : ℝ} (hP : IsRot P) (hA : fro (A - P) ≤ e) (he : e ≤ 1 / 32) (i j : Fin 3) :
    |A i j| ≤ 5 / 4 := by
  have h1 := (abs_le_fro (A - P) i j).trans hA
  have h2 : P i j ^ 2 ≤ 1 := by
    have h3 : (Pᵀ * P) j j = 1 := by rw [hP.1, Matrix.one_apply_eq]
    rw [Matrix.mul_apply] at h3
    rw [← h3]
    calc P i j ^ 2 = Pᵀ j i * P i j := by rw [transpose_apply, pow_two]
      _ ≤ _ := Finset.single_le_sum (f := fun k => Pᵀ j k * P k j)
        (fun k _ => by rw [transpose_apply]; exact mul_self_nonneg _) (Finset.mem_univ i)
  have h3 : |P i j| ≤ 1 := abs_le_one_iff_mul_self_le_one.2 (by rwa [← pow_two])
  rw [Matrix.sub_apply] at h1
  have := le_of_err h1
  linarith

/-- From almost right cosines and sines to an almost right matrix. -/
theorem assemble {B : Mat3} (hB : IsRot B) {x y δ η : ℝ} (h00 : |Real.cos y - B 0 0| ≤ δ) (h20 : |Real.sin y + B 2 0| ≤ δ)
    (h11 : |Real.cos x - B 1 1| ≤ δ) (h12 : |Real.sin x + B 1 2| ≤ δ) (h10 : |B 1 0| ≤ η) :
    fro (turnY y * turnX x - B) ^ 2 ≤ 4 * δ ^ 2 + η ^ 2 + 4 * (2 * δ + η) ^ 2 := by
  have hη : 0 ≤ η := (abs_nonneg _).trans h10
  have hδ : 0 ≤ δ := (abs_nonneg _).trans h00
  have hb : ∀ i j, |B i j| ≤ 1 := by
    intro i j
    have h2 : B i j ^ 2 ≤ 1 := by
      have h3 : (Bᵀ * B) j j = 1 := by rw [hB.1, Matrix.one_apply_eq]
      rw [Matrix.mul_apply] at h3
      rw [← h3]
      calc B i j ^ 2 = Bᵀ j i * B i j := by rw [transpose_apply, pow_two]
        _ ≤ _ := Finset.single_le_sum (f := fun k => Bᵀ j k * B k j)
          (fun k _ => by rw [transpose_apply]; exact mul_self_nonneg _) (Finset.mem_univ i)
    exact abs_le_one_iff_mul_self_le_one.2 (by rwa [← pow_two])
  have hB' : B = !![B 0 0, B 0 1, B 0 2; B 1 0, B 1 1, B 1 2; B 2 0, B 2 1, B 2 2] := by
    ext i j; fin_cases i <;> fin_cases j <;> rfl
  have q := IsRot.eqs (hB' ▸ hB)
  have cx := Real.abs_cos_le_one x
  have sx := Real.abs_sin_le_one x
  have key : ∀ p q r s t u v : ℝ, |p| ≤ 1 → |q - s| ≤ δ → |p - r| ≤ δ → |s| ≤ 1 → |t| ≤ η → |u| ≤ 1 →
      v = r * s + t * u → (p * q - v) ^ 2 ≤ (2 * δ + η) ^ 2 := by
    intro p q r s t u v hp hq hr hs ht hu hv
    rw [← sq_abs]
    refine pow_le_pow_left₀ (abs_nonneg _) ?_ 2
    have e : p * q - v = p * (q - s) + ((p - r) * s - t * u) := by rw [hv]; ring
    have k1 := abs_add_le (p * (q - s)) ((p - r) * s - t * u)
    have k2 := abs_sub ((p - r) * s) (t * u)
    rw [abs_mul] at k1
    rw [abs_mul, abs_mul] at k2
    have k3 : |p| * |q - s| ≤ 1 * δ := mul_le_mul hp hq (abs_nonneg _) zero_le_one
    have k4 : |p - r| * |s| ≤ δ * 1 := mul_le_mul hr hs (abs_nonneg _) hδ
    have k5 : |t| * |u| ≤ η * 1 := mul_le_mul ht hu (abs_nonneg _) hη
    rw [e]
    linarith
  have sq : ∀ {a b : ℝ}, |a| ≤ b → a ^ 2 ≤ b ^ 2 := by
    intro a b h
    rw [← sq_abs]
    exact pow_le_pow_left₀ (abs_nonneg _) h 2
  have n20 : |B 2 0| ≤ 1 := hb 2 0
  -- entry (0,1): sy * sx
  have k01 := key (Real.sin x) (Real.sin y) (-B 1 2) (-B 2 0) (-B 1 0) (B 2 2) (B 0 1) sx
    (by rwa [sub_neg_eq_add]) (by rwa [sub_neg_eq_add]) (by rw [abs_neg]; exact hb _ _) (by rwa [abs_neg]) (hb _ _)
    (by linarith [q.kb])
  have k02 := key (Real.cos x) (Real.sin y) (B 1 1) (-B 2 0) (B 1 0) (B 2 1) (B 0 2) cx
    (by rwa [sub_neg_eq_add]) h11 (by rw [abs_neg]; exact hb _ _) h10 (hb _ _) (by linarith [q.kc])
  have k21 := key (Real.sin x) (Real.cos y) (-B 1 2) (B 0 0) (B 1 0) (B 0 2) (B 2 1) sx
    h00 (by rwa [sub_neg_eq_add]) (hb _ _) h10 (hb _ _) (by linarith [q.kh])
  have k22 := key (Real.cos x) (Real.cos y) (B 1 1) (B 0 0) (-B 1 0) (B 0 1) (B 2 2) cx
    h00 h11 (hb _ _) (by rwa [abs_neg]) (hb _ _) (by linarith [q.ki])
  have l00 := sq h00
  have l20 := sq h20
  have l11 := sq h11
  have l12 := sq h12
  have l10 := sq h10
  rw [fro_sq, turnX_eq, turnY_eq]
  simp [Fin.sum_univ_three, Matrix.mul_apply]
  linarith [show (Real.sin y * Real.sin x - B 0 1) ^ 2 = (Real.sin x * Real.sin y - B 0 1) ^ 2 by ring,
    show (Real.sin y * Real.cos x - B 0 2) ^ 2 = (Real.cos x * Real.sin y - B 0 2) ^ 2 by ring,
    show (Real.cos y * Real.sin x - B 2 1) ^ 2 = (Real.sin x * Real.cos y - B 2 1) ^ 2 by ring,
    show (Real.cos y * Real.cos x - B 2 2) ^ 2 = (Real.cos x * Real.cos y - B 2 2) ^ 2 by ring,
    show (-Real.sin y - B 2 0) ^ 2 = (Real.sin y + B 2 0) ^ 2 by ring,
    show (-Real.sin x - B 1 2) ^ 2 = (Real.sin x + B 1 2) ^ 2 by ring]

/-- Two entries of a column or a row of a matrix near a rotation, and of the turned rotation. -/
theorem turned_near {c s p q r x y z t e : ℝ} (h1 : s ^ 2 + c ^ 2 = 1) (ht : |t - (c * p + s * q)| ≤ 2 ^ (-20 : ℤ))
    (he : (p - x) ^ 2 + (q - y) ^ 2 + (r - z) ^ 2 ≤ e ^ 2) (he0 : 0 ≤ e) :
    ‖(⟨t, r⟩ : ℂ) - ⟨c * x + s * y, z⟩‖ ≤ e + 2 ^ (-20 : ℤ) := by
  have e1 : (⟨t, r⟩ : ℂ) - ⟨c * x + s * y, z⟩ =
      ⟨t - (c * p + s * q), 0⟩ + ⟨c * (p - x) + s * (q - y), r - z⟩ := by
    apply Complex.ext
    · simp; ring
    · simp
  rw [e1]
  refine (norm_add_le _ _).trans ?_
  rw [cnorm_real, add_comm]
  refine add_le_add (sq_le_of he0 ?_) ht
  rw [cnorm_sq]
  have := mix_sq (x := p - x) (y := q - y) h1
  dsimp only
  linarith

/-- The constants of the following theorem. -/
theorem euler_const {e δ η : ℝ} (he0 : 0 ≤ e) (he : e ≤ 1 / 32) (hη : η = e + 2 ^ (-18 : ℤ))
    (hδ : δ = 2 * (e + 2 ^ (-19 : ℤ)) + η ^ 2 + 2 ^ (-21 : ℤ) * (1 + (e + 2 ^ (-19 : ℤ)))) :
    4 * δ ^ 2 + η ^ 2 + 4 * (2 * δ + η) ^ 2 ≤ (12 * e + 2 ^ (-15 : ℤ)) ^ 2 := by
  have e18 : (2 : ℝ) ^ (-18 : ℤ) = 1 / 262144 := by norm_num
  have e19 : (2 : ℝ) ^ (-19 : ℤ) = 1 / 524288 := by norm_num
  have e21 : (2 : ℝ) ^ (-21 : ℤ) = 1 / 2097152 := by norm_num
  have e15 : (2 : ℝ) ^ (-15 : ℤ) = 8 / 262144 := by norm_num
  rw [e18] at hη
  rw [e19, e21] at hδ
  rw [e15]
  have h0 : 0 ≤ η := by linarith
  have h1 : η ^ 2 ≤ 1 / 31 * η := by
    rw [pow_two]
    exact mul_le_mul_of_nonneg_right (by linarith) h0
  have hd0 : 0 ≤ δ := by rw [hδ]; positivity
  have hd : δ ≤ 33 / 16 * e + 5 / 1048576 := by
    rw [hδ]
    linarith
  have k1 : δ ^ 2 ≤ (33 / 16 * e + 5 / 1048576) ^ 2 := pow_le_pow_left₀ hd0 hd 2
  have k2 : (2 * δ + η) ^ 2 ≤ (41 / 8 * e + 14 / 1048576) ^ 2 := pow_le_pow_left₀ (by linarith) (by linarith) 2
  rw [hη]
  nlinarith

/-- The angles of a matrix near a rotation are finite and give back the rotation, also when the rotation is a
gimbal lock. -/
theorem C86_euler (m : Libm) (hm : m.Accurate) (A P : Mat3) (hA : ∀ i j, Rep (A i j)) (hP : IsRot P) (e : ℝ)
    (hAP : fro (A - P) ≤ e) (he : e ≤ 1 / 32) :
    ∃ x y z, Rotation3D.fromRotation m (Rotation.ofMat A) = ⟨fin x, fin y, fin z⟩ ∧ Rep x ∧ Rep y ∧ Rep z ∧
      |x| ≤ 4 ∧ |y| ≤ 4 ∧ |z| ≤ 4 ∧ fro (turnZ z * turnY y * turnX x - P) ≤ 12 * e + 2 ^ (-15 : ℤ) := by
  have he0 : 0 ≤ e := (fro_nonneg _).trans hAP
  have hle := entry_le hP hAP he
  have hS : fro (A - P) ^ 2 ≤ e ^ 2 := pow_le_pow_left₀ (fro_nonneg _) hAP 2
  rw [fro_sq] at hS
  simp only [Fin.sum_univ_three, Matrix.sub_apply] at hS
  obtain ⟨z, z1, z2, z3, z4⟩ := hm.atan2 (A 1 0) (A 0 0) (hA _ _) (hA _ _)
  obtain ⟨c', c1, c2, c3⟩ := hm.cos z z2
  obtain ⟨s', s1, s2, s3⟩ := hm.sin z z2
  have hc := Real.abs_cos_le_one z
  have hs := Real.abs_sin_le_one z
  have hcs := Real.sin_sq_add_cos_sq z
  have zre := (Complex.abs_re_le_norm _).trans z4
  have zim := (Complex.abs_im_le_norm _).trans z4
  have expr : ∀ r : ℝ, ((r : ℂ) * Complex.exp (z * Complex.I)).re = r * Real.cos z := by
    intro r; rw [Complex.re_ofReal_mul, Complex.exp_ofReal_mul_I_re]
  have expi : ∀ r : ℝ, ((r : ℂ) * Complex.exp (z * Complex.I)).im = r * Real.sin z := by
    intro r; rw [Complex.im_ofReal_mul, Complex.exp_ofReal_mul_I_im]
  rw [Complex.sub_re, expr] at zre
  rw [Complex.sub_im, expi] at zim
  dsimp only at zre zim
  -- the turned rotation
  have hB : IsRot ((turnZ z)ᵀ * P) := (turnZ_rot z).transpose.mul hP
  have b0 : ∀ j, ((turnZ z)ᵀ * P) 0 j = Real.cos z * P 0 j + Real.sin z * P 1 j := by
    intro j; rw [turnZ_eq]; simp [Matrix.mul_apply, Fin.sum_univ_three]
  have b1 : ∀ j, ((turnZ z)ᵀ * P) 1 j = Real.cos z * P 1 j - Real.sin z * P 0 j := by
    intro j; rw [turnZ_eq]; simp [Matrix.mul_apply, Fin.sum_univ_three]; ring
  have b2 : ∀ j, ((turnZ z)ᵀ * P) 2 j = P 2 j := by
    intro j; rw [turnZ_eq]; simp [Matrix.mul_apply, Fin.sum_univ_three]
  have hcol : ((turnZ z)ᵀ * P) 0 0 ^ 2 + ((turnZ z)ᵀ * P) 1 0 ^ 2 + ((turnZ z)ᵀ * P) 2 0 ^ 2 = 1 := by
    have h : (((turnZ z)ᵀ * P)ᵀ * ((turnZ z)ᵀ * P)) 0 0 = 1 := by rw [hB.1, Matrix.one_apply_eq]
    rw [Matrix.mul_apply, Fin.sum_univ_three] at h
    simp only [Matrix.transpose_apply ((turnZ z)ᵀ * P)] at h
    linarith
  have hrow : ((turnZ z)ᵀ * P) 1 0 ^ 2 + ((turnZ z)ᵀ * P) 1 1 ^ 2 + ((turnZ z)ᵀ * P) 1 2 ^ 2 = 1 := by
    have h : (((turnZ z)ᵀ * P) * ((turnZ z)ᵀ * P)ᵀ) 1 1 = 1 := by rw [mul_eq_one_comm.1 hB.1, Matrix.one_apply_eq]
    rw [Matrix.mul_apply, Fin.sum_univ_three] at h
    simp only [Matrix.transpose_apply ((turnZ z)ᵀ * P)] at h
    linarith
  -- its second entry in the first column is small
  have hη : |((turnZ z)ᵀ * P) 1 0| ≤ e + 2 ^ (-18 : ℤ) := by
    rw [b1]
    have e1 : Real.cos z * P 1 0 - Real.sin z * P 0 0 =
        (Real.sin z * (‖(⟨A 0 0, A 1 0⟩ : ℂ)‖ * Real.cos z - A 0 0) -
          Real.cos z * (‖(⟨A 0 0, A 1 0⟩ : ℂ)‖ * Real.sin z - A 1 0)) -
        (Real.cos z * (A 1 0 - P 1 0) + Real.sin z * (P 0 0 - A 0 0)) := by ring
    have hn : ‖(⟨A 0 0, A 1 0⟩ : ℂ)‖ ≤ 5 / 2 := by
      have : (⟨A 0 0, A 1 0⟩ : ℂ) = ⟨A 0 0, 0⟩ + ⟨0, A 1 0⟩ := by apply Complex.ext <;> simp
      rw [this]
      refine (norm_add_le _ _).trans ?_
      rw [cnorm_real, cnorm_imag]
      linarith [hle 0 0, hle 1 0]
    have k0 : (0 : ℝ) < 2 ^ (-21 : ℤ) := two_zpow_pos _
    have k18 : (2 : ℝ) ^ (-18 : ℤ) = 8 * 2 ^ (-21 : ℤ) := by norm_num
    have hn2 := mul_le_mul_of_nonneg_left hn k0.le
    have l1 : |Real.cos z * (A 1 0 - P 1 0) + Real.sin z * (P 0 0 - A 0 0)| ≤ e := by
      refine sq_le_of he0 ?_
      rw [sq_abs]
      have := mix_sq (x := A 1 0 - P 1 0) (y := P 0 0 - A 0 0) hcs
      linarith [sq_nonneg (A 2 0 - P 2 0), sq_nonneg (A 0 1 - P 0 1), sq_nonneg (A 1 1 - P 1 1), sq_nonneg (A 2 1 - P 2 1),
        sq_nonneg (A 0 2 - P 0 2), sq_nonneg (A 1 2 - P 1 2), sq_nonneg (A 2 2 - P 2 2),
        show (P 0 0 - A 0 0) ^ 2 = (A 0 0 - P 0 0) ^ 2 by ring]
    rw [e1, k18]
    generalize ‖(⟨A 0 0, A 1 0⟩ : ℂ)‖ = ρ at *
    refine (abs_sub _ _).trans ?_
    have l2 := abs_sub (Real.sin z * (ρ * Real.cos z - A 0 0)) (Real.cos z * (ρ * Real.sin z - A 1 0))
    rw [abs_mul, abs_mul] at l2
    have l3 := mul_le_of_le_one_left (abs_nonneg (ρ * Real.cos z - A 0 0)) hs
    have l4 := mul_le_of_le_one_left (abs_nonneg (ρ * Real.sin z - A 1 0)) hc
    generalize (2 : ℝ) ^ (-21 : ℤ) = u at *
    linarith
  have hη2 : ((turnZ z)ᵀ * P) 1 0 ^ 2 ≤ (e + 2 ^ (-18 : ℤ)) ^ 2 := by
    rw [← sq_abs]
    exact pow_le_pow_left₀ (abs_nonneg _) hη 2
  have hunit : ∀ w : ℂ, ‖w‖ ^ 2 = 1 - ((turnZ z)ᵀ * P) 1 0 ^ 2 → ‖w‖ ≤ 1 ∧ 1 - (e + 2 ^ (-18 : ℤ)) ^ 2 ≤ ‖w‖ := by
    intro w hw
    have h1 : ‖w‖ ≤ 1 := sq_le_of zero_le_one (by rw [hw]; linarith [sq_nonneg (((turnZ z)ᵀ * P) 1 0)])
    refine ⟨h1, ?_⟩
    have h2 : ‖w‖ ^ 2 ≤ ‖w‖ := by
      rw [pow_two]
      exact mul_le_of_le_one_left (norm_nonneg _) h1
    linarith
  -- second angle
  obtain ⟨t, t1, t2, t3⟩ := pair_add c3 s3 hc hs (hle 0 0) (hle 1 0)
  obtain ⟨y, y1, y2, y3, y4⟩ := hm.atan2 (-A 2 0) t (hA 2 0).neg t2
  have ny := turned_near (r := -A 2 0) (z := -P 2 0) (x := P 0 0) (y := P 1 0) (e := e) hcs t3 (by
    linarith [sq_nonneg (A 0 1 - P 0 1), sq_nonneg (A 1 1 - P 1 1), sq_nonneg (A 2 1 - P 2 1),
        sq_nonneg (A 0 2 - P 0 2), sq_nonneg (A 1 2 - P 1 2), sq_nonneg (A 2 2 - P 2 2),
        show (-A 2 0 - -P 2 0) ^ 2 = (A 2 0 - P 2 0) ^ 2 by ring]) he0
  obtain ⟨wy1, wy2⟩ := hunit ⟨Real.cos z * P 0 0 + Real.sin z * P 1 0, -P 2 0⟩ (by
    rw [cnorm_sq]
    dsimp only
    rw [b0, b2] at hcol
    linarith [neg_sq (P 2 0)])
  -- first angle
  obtain ⟨p, p1, p2, p3⟩ := pair_sub s3 c3 hs hc (hle 0 2) (hle 1 2)
  obtain ⟨q, q1, q2, q3⟩ := pair_sub c3 s3 hc hs (hle 1 1) (hle 0 1)
  obtain ⟨x, x1, x2, x3, x4⟩ := hm.atan2 p q p2 q2
  obtain ⟨wx1, wx2⟩ := hunit ⟨Real.cos z * P 1 1 - Real.sin z * P 0 1, -(Real.cos z * P 1 2 - Real.sin z * P 0 2)⟩ (by
    rw [cnorm_sq]
    dsimp only
    rw [b1 1, b1 2] at hrow
    linarith [neg_sq (Real.cos z * P 1 2 - Real.sin z * P 0 2)])
  have nx : ‖(⟨q, p⟩ : ℂ) - ⟨Real.cos z * P 1 1 - Real.sin z * P 0 1, -(Real.cos z * P 1 2 - Real.sin z * P 0 2)⟩‖ ≤
      e + 2 ^ (-19 : ℤ) := by
    have e1 : (⟨q, p⟩ : ℂ) - ⟨Real.cos z * P 1 1 - Real.sin z * P 0 1, -(Real.cos z * P 1 2 - Real.sin z * P 0 2)⟩ =
        (⟨q - (Real.cos z * A 1 1 - Real.sin z * A 0 1), 0⟩ + ⟨0, p - (Real.sin z * A 0 2 - Real.cos z * A 1 2)⟩) +
          ⟨Real.cos z * (A 1 1 - P 1 1) + Real.sin z * (P 0 1 - A 0 1),
            Real.cos z * (P 1 2 - A 1 2) + Real.sin z * (A 0 2 - P 0 2)⟩ := by
      apply Complex.ext
      · simp; ring
      · simp; ring
    have l1 : ‖(⟨Real.cos z * (A 1 1 - P 1 1) + Real.sin z * (P 0 1 - A 0 1),
            Real.cos z * (P 1 2 - A 1 2) + Real.sin z * (A 0 2 - P 0 2)⟩ : ℂ)‖ ≤ e := by
      refine sq_le_of he0 ?_
      rw [cnorm_sq]
      dsimp only
      have m1 := mix_sq (x := A 1 1 - P 1 1) (y := P 0 1 - A 0 1) hcs
      have m2 := mix_sq (x := P 1 2 - A 1 2) (y := A 0 2 - P 0 2) hcs
      linarith [sq_nonneg (A 0 0 - P 0 0), sq_nonneg (A 1 0 - P 1 0), sq_nonneg (A 2 0 - P 2 0), sq_nonneg (A 2 1 - P 2 1),
        sq_nonneg (A 2 2 - P 2 2), show (P 0 1 - A 0 1) ^ 2 = (A 0 1 - P 0 1) ^ 2 by ring,
        show (P 1 2 - A 1 2) ^ 2 = (A 1 2 - P 1 2) ^ 2 by ring]
    rw [e1]
    have l2 := norm_add_le ((⟨q - (Real.cos z * A 1 1 - Real.sin z * A 0 1), 0⟩ : ℂ) +
        ⟨0, p - (Real.sin z * A 0 2 - Real.cos z * A 1 2)⟩)
      ⟨Real.cos z * (A 1 1 - P 1 1) + Real.sin z * (P 0 1 - A 0 1),
            Real.cos z * (P 1 2 - A 1 2) + Real.sin z * (A 0 2 - P 0 2)⟩
    have l3 := norm_add_le (⟨q - (Real.cos z * A 1 1 - Real.sin z * A 0 1), 0⟩ : ℂ)
        ⟨0, p - (Real.sin z * A 0 2 - Real.cos z * A 1 2)⟩
    rw [cnorm_real, cnorm_imag] at l3
    have k : (2 : ℝ) ^ (-19 : ℤ) = 2 ^ (-20 : ℤ) + 2 ^ (-20 : ℤ) := by norm_num
    rw [k]
    generalize (2 : ℝ) ^ (-20 : ℤ) = u at *
    linarith
  have ny' := ny.trans (show e + (2 : ℝ) ^ (-20 : ℤ) ≤ e + 2 ^ (-19 : ℤ) by
    have : (2 : ℝ) ^ (-20 : ℤ) ≤ 2 ^ (-19 : ℤ) := two_zpow_le (by norm_num)
    linarith only [this])
  have dy := unit_dir ny' wy1 wy2 (by positivity) y4
  have dx := unit_dir nx wx1 wx2 (by positivity) x4
  have cre : ∀ θ : ℝ, (Complex.exp (θ * Complex.I)).re = Real.cos θ := Complex.exp_ofReal_mul_I_re
  have cim : ∀ θ : ℝ, (Complex.exp (θ * Complex.I)).im = Real.sin θ := Complex.exp_ofReal_mul_I_im
  have yre := (Complex.abs_re_le_norm _).trans dy
  have yim := (Complex.abs_im_le_norm _).trans dy
  have xre := (Complex.abs_re_le_norm _).trans dx
  have xim := (Complex.abs_im_le_norm _).trans dx
  rw [Complex.sub_re, cre] at yre xre
  rw [Complex.sub_im, cim] at yim xim
  dsimp only at yre yim xre xim
  rw [sub_neg_eq_add] at yim xim
  rw [← b0] at yre
  rw [← b2 0] at yim
  rw [← b1] at xre xim
  have fin1 := assemble hB yre yim xre xim hη
  have fin2 := fin1.trans (euler_const he0 he rfl rfl)
  refine ⟨x, y, z, ?_, x2, y2, z2, x3, y3, z3, ?_⟩
  · simp only [Rotation3D.fromRotation, Rotation.ofMat, z1, c1, s1, t1, p1, q1, neg, x1, y1]
  · have e1 : turnZ z * turnY y * turnX x - P = turnZ z * (turnY y * turnX x - (turnZ z)ᵀ * P) := by
      rw [mul_sub, ← mul_assoc, ← mul_assoc, mul_eq_one_comm.1 (turnZ_rot z).1, one_mul]
    rw [e1, fro_rot_mul (turnZ_rot z).1]
    exact sq_le_of (by positivity) fin2

/-- The matrix of the angles of a matrix. -/
theorem C86_back (m : Libm) (hm : m.Accurate) (A P : Mat3) (hA : ∀ i j, Rep (A i j)) (hP : IsRot P) (e : ℝ)
    (hAP : fro (A - P) ≤ e) (he : e ≤ 1 / 32) :
    ∃ B, Rotation.from3D m (Rotation3D.fromRotation m (Rotation.ofMat A)).wx (Rotation3D.fromRotation m (Rotation.ofMat A)).wy
        (Rotation3D.fromRotation m (Rotation.ofMat A)).wz = Rotation.ofMat B ∧
      fro (B - P) ≤ 12 * e + 2 ^ (-14 : ℤ) ∧ fro (B - A) ≤ 13 * e + 2 ^ (-14 : ℤ) := by
  obtain ⟨x, y, z, h1, h2, h3, h4, -, -, -, h5⟩ := C86_euler m hm A P hA hP e hAP he
  obtain ⟨B, b1, -, b2⟩ := C85_from3D m hm x y z h2 h3 h4
  rw [h1]
  have k := fro_add (B - turnZ z * turnY y * turnX x) (turnZ z * turnY y * turnX x - P)
  rw [sub_add_sub_cancel] at k
  have k2 := fro_add (B - P) (P - A)
  rw [sub_add_sub_cancel] at k2
  have k3 : fro (P - A) = fro (A - P) := by rw [← fro_neg, neg_sub]
  have u : (2 : ℝ) ^ (-15 : ℤ) + 2 ^ (-17 : ℤ) ≤ 2 ^ (-14 : ℤ) := by norm_num
  generalize (2 : ℝ) ^ (-15 : ℤ) = v1 at *
  generalize (2 : ℝ) ^ (-17 : ℤ) = v2 at *
  generalize (2 : ℝ) ^ (-14 : ℤ) = v3 at *
  exact ⟨B, b1, by linarith, by linarith⟩

/-- Angles, matrix, angles: the rotation is kept, whatever the angles. -/
theorem C86_roundtrip (m : Libm) (hm : m.Accurate) (x y z : ℝ) (hx : Rep x) (hy : Rep y) (hz : Rep z) :
    ∃ x' y' z', Rotation3D.fromRotation m (Rotation.from3D m (fin x) (fin y) (fin z)) = ⟨fin x', fin y', fin z'⟩ ∧
      |x'| ≤ 4 ∧ |y'| ≤ 4 ∧ |z'| ≤ 4 ∧
      fro (turnZ z' * turnY y' * turnX x' - turnZ z * turnY y * turnX x) ≤ 2 ^ (-13 : ℤ) := by
  obtain ⟨B, b1, b2, b3⟩ := C85_from3D m hm x y z hx hy hz
  obtain ⟨x', y', z', h1, -, -, -, h2, h3, h4, h5⟩ := C86_euler m hm B _ b2
    (((turnZ_rot z).mul (turnY_rot y)).mul (turnX_rot x)) _ b3 (by norm_num)
  rw [b1]
  exact ⟨x', y', z', h1, h2, h3, h4, h5.trans (by norm_num)⟩

/-! ### Examples -/

/-- A gimbal lock: the second angle is a right angle, up to rounding. -/
example : ∃ x' y' z', Rotation3D.fromRotation Libm.rounded
      (Rotation.from3D Libm.rounded (fin 1) (fin (13176795 * 2 ^ (-23 : ℤ))) (fin 1)) = ⟨fin x', fin y', fin z'⟩ ∧
      fro (turnZ z' * turnY y' * turnX x' - turnZ 1 * turnY (13176795 * 2 ^ (-23 : ℤ)) * turnX 1) ≤ 2 ^ (-13 : ℤ) := by
  obtain ⟨x', y', z', h1, -, -, -, h2⟩ := C86_roundtrip Libm.rounded rounded_accurate 1 (13176795 * 2 ^ (-23 : ℤ)) 1
    Rep.one ⟨13176795, -23, by norm_num, by norm_num, by norm_num, by norm_num⟩ Rep.one
  exact ⟨x', y', z', h1, h2⟩

/-- The matrix of an exact gimbal lock. -/
example : ∃ x y z, Rotation3D.fromRotation Libm.rounded (Rotation.ofMat !![0, 0, 1; 0, 1, 0; -1, 0, 0]) =
      ⟨fin x, fin y, fin z⟩ ∧ fro (turnZ z * turnY y * turnX x - !![0, 0, 1; 0, 1, 0; -1, 0, 0]) ≤ 2 ^ (-15 : ℤ) := by
  obtain ⟨x, y, z, h1, -, -, -, -, -, -, h2⟩ := C86_euler Libm.rounded rounded_accurate !![0, 0, 1; 0, 1, 0; -1, 0, 0]
    !![0, 0, 1; 0, 1, 0; -1, 0, 0]
    (by intro i j; fin_cases i <;> fin_cases j <;> simp [Rep.zero, Rep.one, Rep.one.neg])
    (by rw [isRot_coord]; norm_num) 0 (by rw [sub_self]; simp [fro]) (by norm_num)
  exact ⟨x, y, z, h1, by rwa [mul_zero, zero_add] at h2⟩

end AlMath.F32
