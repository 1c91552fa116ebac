import Verif.Lemmas.FloatNear
import Verif.Lemmas.Rodrigues
import Verif.Props.C82
import Verif.Props.C85

/-!
C87: matrices from an angle and an axis in single precision.
-/

namespace AlMath.F32

open AlMath.Spec Matrix

/-- `t1 + t2 x²`. -/
theorem diag_near {t1 t2 x : F32} {c p : ℝ} (h1 : Near t1 c (2 / 16777216)) (h2 : Near t2 (1 - c) (5 / 16777216))
    (hx : Near x p 0) (hc : |c| ≤ 1) (hp : |p| ≤ 33 / 32) :
    Near (add t1 (mul t2 (mul x x))) (c + (1 - c) * (p * p)) (16 / 16777216) := by
  have hc2 : |1 - c| ≤ 2 := (abs_sub _ _).trans (by rw [abs_one]; linarith)
  have hpp : |p * p| ≤ 17 / 16 + 1 / 1024 := by
    rw [abs_mul]
    exact (mul_le_mul hp hp (abs_nonneg _) (by norm_num)).trans (by norm_num)
  have k1 := Near.mul hx hx hp hp (5 / 4 / 16777216) (by norm_num) (by norm_num)
  have k2 := Near.mul h2 k1 hc2 hpp (41 / 4 / 16777216) (by norm_num) (by norm_num)
  refine Near.add h1 k2 (M := 13 / 4) ?_ _ (by norm_num) (by norm_num)
  refine (abs_add_le _ _).trans ?_
  have : |(1 - c) * (p * p)| ≤ 2 * (17 / 16 + 1 / 1024) := by
    rw [abs_mul]
    exact mul_le_mul hc2 hpp (abs_nonneg _) (by norm_num)
  linarith

/-- `t2 x y ± t8 z`. -/
theorem off_near {t8 t2 x y z : F32} {c s p q r : ℝ} (h1 : Near t8 s (2 / 16777216)) (h2 : Near t2 (1 - c) (5 / 16777216))
    (hx : Near x p 0) (hy : Near y q 0) (hz : Near z r 0) (hc : |c| ≤ 1) (hs : |s| ≤ 1) (hp : |p| ≤ 33 / 32)
    (hq : |q| ≤ 33 / 32) (hr : |r| ≤ 33 / 32) :
    Near (add (mul (mul t2 x) y) (mul t8 z)) ((1 - c) * p * q + s * r) (17 / 16777216) ∧
    Near (sub (mul (mul t2 x) y) (mul t8 z)) ((1 - c) * p * q - s * r) (17 / 16777216) := by
  have hc2 : |1 - c| ≤ 2 := (abs_sub _ _).trans (by rw [abs_one]; linarith)
  have hcp : |(1 - c) * p| ≤ 33 / 16 := by
    rw [abs_mul]
    exact (mul_le_mul hc2 hp (abs_nonneg _) (by norm_num)).trans (by norm_num)
  have hcpq : |(1 - c) * p * q| ≤ 35 / 16 := by
    rw [abs_mul]
    exact (mul_le_mul hcp hq (abs_nonneg _) (by norm_num)).trans (by norm_num)
  have hsr : |s * r| ≤ 33 / 32 := by
    rw [abs_mul]
    exact (mul_le_mul hs hr (abs_nonneg _) (by norm_num)).trans (by norm_num)
  have k1 := Near.mul h2 hx hc2 hp (30 / 4 / 16777216) (by norm_num) (by norm_num)
  have k2 := Near.mul k1 hy hcp hq (40 / 4 / 16777216) (by norm_num) (by norm_num)
  have k3 := Near.mul h1 hz hs hr (13 / 4 / 16777216) (by norm_num) (by norm_num)
  exact ⟨Near.add k2 k3 (M := 13 / 4) ((abs_add_le _ _).trans (by linarith)) _ (by norm_num) (by norm_num),
    Near.sub k2 k3 (M := 13 / 4) ((abs_sub _ _).trans (by linarith)) _ (by norm_num) (by norm_num)⟩

/-- What is computed for the axis `v`, exactly. Helper of the proofs. Not in /repo: specification. -/
noncomputable def axisMat (v : Vec3) (a : ℝ) : Mat3 :=
  Real.cos a • 1 + (Real.sin a • skew v + (1 - Real.cos a) • vecMulVec v v)

theorem axisMat_unit {n : Vec3} (hn : lenSq n = 1) (a : ℝ) : axisMat n a = rodrigues n a := by
  have hn' : n 0 * n 0 + n 1 * n 1 + n 2 * n 2 = 1 := by
    simpa [lenSq, dotProduct, Fin.sum_univ_three] using hn
  have hr := rodrigues_coord (n 0) (n 1) (n 2) a
  rw [← vec3_eta n] at hr
  rw [hr, axisMat]
  ext i j
  fin_cases i <;> fin_cases j <;> simp [skew, vecMulVec_apply] <;>
    first | ring1 | exact Or.inl (mul_comm _ _) | linear_combination (1 - Real.cos a) * hn'

theorem fro_skew (w : Vec3) : fro (skew w) ≤ 3 / 2 * vlen w := by
  refine sq_le_of (mul_nonneg (by norm_num) (vlen_nonneg _)) ?_
  rw [mul_pow, vlen_sq, fro_sq]
  simp [skew, Fin.sum_univ_three]
  nlinarith [sq_nonneg (w 0), sq_nonneg (w 1), sq_nonneg (w 2)]

theorem fro_outer (v w : Vec3) : fro (vecMulVec v w) = vlen v * vlen w := by
  have : fro (vecMulVec v w) ^ 2 = (vlen v * vlen w) ^ 2 := by
    rw [mul_pow, vlen_sq, vlen_sq, fro_sq]
    simp [vecMulVec_apply, Fin.sum_univ_three]
    ring
  exact (pow_left_inj₀ (fro_nonneg _) (mul_nonneg (vlen_nonneg _) (vlen_nonneg _)) two_ne_zero).1 this

theorem fro_smul_le (c : ℝ) (A : Mat3) : fro (c • A) = |c| * fro A := by
  rcases le_total 0 c with h | h
  · rw [fro_smul c h, abs_of_nonneg h]
  · rw [← fro_neg, ← neg_smul, fro_smul (-c) (by linarith), abs_of_nonpos h]

theorem lenSq_vlen (v : Vec3) : lenSq v = vlen v ^ 2 := by
  rw [vlen_sq, lenSq, dotProduct]
  simp [pow_two]

theorem axisMat_near {v n : Vec3} {d : ℝ} (hn : lenSq n = 1) (hd : vlen (v - n) ≤ d) (hd1 : d ≤ 1 / 8) (a : ℝ) :
    fro (axisMat v a - rodrigues n a) ≤ 6 * d := by
  have hn1 : vlen n = 1 := by
    rw [lenSq_vlen] at hn
    exact (pow_left_inj₀ (vlen_nonneg _) zero_le_one two_ne_zero).1 (by rw [hn, one_pow])
  have hd0 : 0 ≤ d := (vlen_nonneg _).trans hd
  have e : axisMat v a - axisMat n a = Real.sin a • skew (v - n) +
      (1 - Real.cos a) • (vecMulVec (v - n) (v - n) + (vecMulVec (v - n) n + vecMulVec n (v - n))) := by
    ext i j
    fin_cases i <;> fin_cases j <;> simp [axisMat, skew, vecMulVec_apply] <;> ring
  rw [← axisMat_unit hn, e]
  refine (fro_add _ _).trans ?_
  rw [fro_smul_le, fro_smul_le]
  have h1 := fro_skew (v - n)
  have h2 := fro_add (vecMulVec (v - n) (v - n)) (vecMulVec (v - n) n + vecMulVec n (v - n))
  have h3 := fro_add (vecMulVec (v - n) n) (vecMulVec n (v - n))
  rw [fro_outer] at h2
  rw [fro_outer, fro_outer, hn1, mul_one, one_mul] at h3
  have h4 : vlen (v - n) * vlen (v - n) ≤ 1 / 8 * d := mul_le_mul (hd.trans hd1) hd (vlen_nonneg _) (by norm_num)
  have hc2 : |1 - Real.cos a| ≤ 2 := (abs_sub _ _).trans (by rw [abs_one]; linarith [Real.abs_cos_le_one a])
  have k1 : |Real.sin a| * fro (skew (v - n)) ≤ 1 * (3 / 2 * d) :=
    mul_le_mul (Real.abs_sin_le_one a) (h1.trans (by linarith)) (fro_nonneg _) zero_le_one
  have k2 : |1 - Real.cos a| * fro (vecMulVec (v - n) (v - n) + (vecMulVec (v - n) n + vecMulVec n (v - n))) ≤
      2 * (17 / 8 * d) := mul_le_mul hc2 (h2.trans (by linarith)) (fro_nonneg _) (by norm_num)
  linarith

theorem norm_dot {v : Vec3} (h : vlen v ≤ 2 ^ 62) :
    ∃ d, dot (fin (v 0)) (fin (v 1)) (fin (v 2)) (fin (v 0)) (fin (v 1)) (fin (v 2)) = fin d ∧
      |d - vlen v ^ 2| ≤ 2 ^ (-22 : ℤ) * vlen v ^ 2 + 2 ^ (-148 : ℤ) := by
  have e : |v 0| * |v 0| + |v 1| * |v 1| + |v 2| * |v 2| = vlen v ^ 2 := by
    rw [vlen_sq, Fin.sum_univ_three, ← sq_abs (v 0), ← sq_abs (v 1), ← sq_abs (v 2)]
    ring
  obtain ⟨d, h1, -, h2⟩ := dot_fin (a := v 0) (b := v 1) (c := v 2) (x := v 0) (y := v 1) (z := v 2) (by
    rw [e]
    calc vlen v ^ 2 ≤ (2 ^ 62) ^ 2 := pow_le_pow_left₀ (vlen_nonneg _) h 2
      _ ≤ 2 ^ 125 := by norm_num)
  rw [e] at h2
  refine ⟨d, h1, ?_⟩
  have e2 : v 0 * v 0 + v 1 * v 1 + v 2 * v 2 = vlen v ^ 2 := by
    rw [vlen_sq, Fin.sum_univ_three]
    ring
  rwa [e2] at h2

theorem const_hi : ∃ k, round (100001 / 100000) = fin k ∧ |k - 100001 / 100000| ≤ 1 / 16000000 := by
  refine ⟨rnd (100001 / 100000), round_fin (by norm_num), ?_⟩
  have h := rnd_gen (100001 / 100000)
  have w : (2 : ℝ) ^ (-150 : ℤ) ≤ 2 ^ (-40 : ℤ) := two_zpow_le (by norm_num)
  rw [two_neg24, abs_of_pos (show (0 : ℝ) < 100001 / 100000 by norm_num)] at h
  refine h.trans ?_
  have e40 : (2 : ℝ) ^ (-40 : ℤ) = 1 / 1099511627776 := by norm_num
  rw [e40] at w
  generalize (2 : ℝ) ^ (-150 : ℤ) = η at *
  linarith

theorem const_lo : ∃ k, round (99999 / 100000) = fin k ∧ |k - 99999 / 100000| ≤ 1 / 16000000 := by
  refine ⟨rnd (99999 / 100000), round_fin (by norm_num), ?_⟩
  have h := rnd_gen (99999 / 100000)
  have w : (2 : ℝ) ^ (-150 : ℤ) ≤ 2 ^ (-40 : ℤ) := two_zpow_le (by norm_num)
  rw [two_neg24, abs_of_pos (show (0 : ℝ) < 99999 / 100000 by norm_num)] at h
  refine h.trans ?_
  have e40 : (2 : ℝ) ^ (-40 : ℤ) = 1 / 1099511627776 := by norm_num
  rw [e40] at w
  generalize (2 : ℝ) ^ (-150 : ℤ) = η at *
  linarith

/-- An axis that is almost a unit vector is accepted and the matrix is near the rotation about it. -/
theorem C87_direction (m : Libm) (hm : m.Accurate) (a : ℝ) (ha : Rep a) (v n : Vec3) (hv : ∀ i, Rep (v i))
    (hl : |vlen v ^ 2 - 1| ≤ 96 / 10000000) (hn : lenSq n = 1) (d : ℝ) (hd : vlen (v - n) ≤ d) (hd1 : d ≤ 1 / 8) :
    ∃ B, Rotation.fromAngleDirection m (fin a) (fin (v 0)) (fin (v 1)) (fin (v 2)) = .ok (Rotation.ofMat B) ∧
      (∀ i j, Rep (B i j)) ∧ fro (B - rodrigues n a) ≤ 6 * d + 2 ^ (-18 : ℤ) := by
  obtain ⟨l1, l2⟩ := abs_le.1 hl
  have hv2 : vlen v ≤ 33 / 32 := sq_le_of (by norm_num) (by linarith)
  have hvi : ∀ i, |v i| ≤ 33 / 32 := fun i => (abs_le_vlen v i).trans hv2
  -- not refused
  obtain ⟨N, N1, N2⟩ := norm_dot (v := v) (hv2.trans (by norm_num))
  obtain ⟨H, H1, H2⟩ := const_hi
  obtain ⟨L, L1, L2⟩ := const_lo
  have hN : |N - vlen v ^ 2| ≤ 3 / 10000000 := by
    refine N2.trans ?_
    have w : (2 : ℝ) ^ (-148 : ℤ) ≤ 2 ^ (-40 : ℤ) := two_zpow_le (by norm_num)
    have e40 : (2 : ℝ) ^ (-40 : ℤ) = 1 / 1099511627776 := by norm_num
    have e22 : (2 : ℝ) ^ (-22 : ℤ) = 1 / 4194304 := by norm_num
    rw [e40] at w
    rw [e22]
    generalize (2 : ℝ) ^ (-148 : ℤ) = η at *
    linarith
  have ok : ¬ (lt (round (100001 / 100000)) (fin N) ∨ lt (fin N) (round (99999 / 100000))) := by
    rw [H1, L1, not_or]
    obtain ⟨n1, n2⟩ := abs_le.1 hN
    obtain ⟨n3, n4⟩ := abs_le.1 H2
    obtain ⟨n5, n6⟩ := abs_le.1 L2
    exact ⟨not_lt.2 (by linarith), not_lt.2 (by linarith)⟩
  obtain ⟨c', c1, c2, c3⟩ := hm.cos a ha
  obtain ⟨s', s1, s2, s3⟩ := hm.sin a ha
  have e23 : (2 : ℝ) ^ (-23 : ℤ) = 2 / 16777216 := by norm_num
  have hc := Real.abs_cos_le_one a
  have hs := Real.abs_sin_le_one a
  have h1 : Near (m.cos (fin a)) (Real.cos a) (2 / 16777216) := ⟨c', c1, c2, by rwa [← e23]⟩
  have h8 : Near (m.sin (fin a)) (Real.sin a) (2 / 16777216) := ⟨s', s1, s2, by rwa [← e23]⟩
  have h2 : Near (sub (fin 1) (m.cos (fin a))) (1 - Real.cos a) (5 / 16777216) :=
    Near.sub (Near.of_rep Rep.one) h1 (M := 2) ((abs_sub _ _).trans (by rw [abs_one]; linarith)) _ (by norm_num) (by norm_num)
  have hx := Near.of_rep (hv 0)
  have hy := Near.of_rep (hv 1)
  have hz := Near.of_rep (hv 2)
  obtain ⟨b00, p00, r00, k00⟩ := diag_near h1 h2 hx hc (hvi 0)
  obtain ⟨b11, p11, r11, k11⟩ := diag_near h1 h2 hy hc (hvi 1)
  obtain ⟨b22, p22, r22, k22⟩ := diag_near h1 h2 hz hc (hvi 2)
  obtain ⟨⟨b10, p10, r10, k10⟩, b01, p01, r01, k01⟩ := off_near h8 h2 hx hy hz hc hs (hvi 0) (hvi 1) (hvi 2)
  obtain ⟨⟨b02, p02, r02, k02⟩, b20, p20, r20, k20⟩ := off_near h8 h2 hx hz hy hc hs (hvi 0) (hvi 2) (hvi 1)
  obtain ⟨⟨b21, p21, r21, k21⟩, b12, p12, r12, k12⟩ := off_near h8 h2 hy hz hx hc hs (hvi 1) (hvi 2) (hvi 0)
  refine ⟨!![b00, b01, b02; b10, b11, b12; b20, b21, b22], ?_, ?_, ?_⟩
  · unfold Rotation.fromAngleDirection
    rw [← N1] at ok
    rw [if_neg ok]
    simp only [p00, p01, p02, p10, p11, p12, p20, p21, p22, Rotation.ofMat]
    rfl
  · intro i j
    fin_cases i <;> fin_cases j <;> simpa
  · have h3 : fro (!![b00, b01, b02; b10, b11, b12; b20, b21, b22] - axisMat v a) ≤ 3 * (17 / 16777216) := by
      rw [← fro_const _ (by norm_num)]
      refine fro_mono fun i j => ?_
      rw [Matrix.of_apply, abs_of_pos (show (0 : ℝ) < 17 / 16777216 by norm_num)]
      have m16 : (16 : ℝ) / 16777216 ≤ 17 / 16777216 := by norm_num
      have hax : axisMat v a = !![Real.cos a + (1 - Real.cos a) * (v 0 * v 0), (1 - Real.cos a) * v 0 * v 1 - Real.sin a * v 2,
            (1 - Real.cos a) * v 0 * v 2 + Real.sin a * v 1;
          (1 - Real.cos a) * v 0 * v 1 + Real.sin a * v 2, Real.cos a + (1 - Real.cos a) * (v 1 * v 1),
            (1 - Real.cos a) * v 1 * v 2 - Real.sin a * v 0;
          (1 - Real.cos a) * v 0 * v 2 - Real.sin a * v 1, (1 - Real.cos a) * v 1 * v 2 + Real.sin a * v 0,
            Real.cos a + (1 - Real.cos a) * (v 2 * v 2)] := by
        ext i j
        fin_cases i <;> fin_cases j <;> simp [axisMat, skew, vecMulVec_apply] <;> ring
      rw [hax]
      fin_cases i <;> fin_cases j
      exacts [k00.trans m16, k01, k02, k10, k11.trans m16, k12, k20, k21, k22.trans m16]
    have h4 := fro_add (!![b00, b01, b02; b10, b11, b12; b20, b21, b22] - axisMat v a) (axisMat v a - rodrigues n a)
    rw [sub_add_sub_cancel] at h4
    have h5 := axisMat_near hn hd hd1 a
    have : (3 : ℝ) * (17 / 16777216) ≤ 2 ^ (-18 : ℤ) := by norm_num
    calc _ ≤ _ := h4
      _ ≤ 3 * (17 / 16777216) + 6 * d := add_le_add h3 h5
      _ ≤ _ := by rw [add_comm]; exact add_le_add_right this _

/-- An axis that is not almost a unit vector is refused. -/
theorem C87_throws (m : Libm) (a : F32) (v : Vec3) (hv : vlen v ≤ 2 ^ 62) (hl : 104 / 10000000 ≤ |vlen v ^ 2 - 1|) :
    Rotation.fromAngleDirection m a (fin (v 0)) (fin (v 1)) (fin (v 2)) = .throws := by
  obtain ⟨N, N1, N2⟩ := norm_dot hv
  obtain ⟨H, H1, H2⟩ := const_hi
  obtain ⟨L, L1, L2⟩ := const_lo
  have no : lt (round (100001 / 100000)) (fin N) ∨ lt (fin N) (round (99999 / 100000)) := by
    rw [H1, L1]
    have w : (2 : ℝ) ^ (-148 : ℤ) ≤ 2 ^ (-40 : ℤ) := two_zpow_le (by norm_num)
    have e40 : (2 : ℝ) ^ (-40 : ℤ) = 1 / 1099511627776 := by norm_num
    have e22 : (2 : ℝ) ^ (-22 : ℤ) = 1 / 4194304 := by norm_num
    rw [e40] at w
    rw [e22] at N2
    have h0 := sq_nonneg (vlen v)
    clear hv
    generalize (2 : ℝ) ^ (-148 : ℤ) = η at *
    obtain ⟨n1, n2⟩ := abs_le.1 N2
    obtain ⟨n3, n4⟩ := abs_le.1 H2
    obtain ⟨n5, n6⟩ := abs_le.1 L2
    rcases le_abs.1 hl with h | h
    · exact Or.inl (show H < N by linarith)
    · exact Or.inr (show N < L by linarith)
  unfold Rotation.fromAngleDirection
  rw [← N1] at no
  rw [if_pos no]

/-- An axis with a NaN is not refused: the matrix has NaN on its diagonal. -/
theorem C87_nan (m : Libm) (a y z : F32) :
    (∃ R, Rotation.fromAngleDirection m a nan y z = .ok R ∧ R.r11 = nan) ∧
    (∃ R, Rotation.fromAngleDirection m a y nan z = .ok R ∧ R.r22 = nan) ∧
    ∃ R, Rotation.fromAngleDirection m a y z nan = .ok R ∧ R.r33 = nan := by
  have k : ∀ f g h, h = nan → ¬ (lt f h ∨ lt h g) := by
    rintro f g h rfl
    cases f <;> cases g <;> simp [lt]
  unfold Rotation.fromAngleDirection
  rw [if_neg (k _ _ _ (by simp only [dot, mul_nan, add_nan, nan_add])),
    if_neg (k _ _ _ (by simp only [dot, mul_nan, add_nan, nan_add])),
    if_neg (k _ _ _ (by simp only [dot, mul_nan, add_nan, nan_add]))]
  exact ⟨⟨_, rfl, by simp only [mul_nan, add_nan]⟩, ⟨_, rfl, by simp only [mul_nan, add_nan]⟩,
    ⟨_, rfl, by simp only [mul_nan, add_nan]⟩⟩

/-- An axis computed by `normalize` is accepted, and `isRotation` accepts the matrix. -/
theorem C87_normalised (m : Libm) (hm : m.Accurate) (a : ℝ) (ha : Rep a) (v : Vec3) (hl : 2 ^ (-60 : ℤ) ≤ vlen v)
    (hu : vlen v ≤ 2 ^ 62) (eps : ℝ) (heps : Rep eps) (h : 99 / 1000000 ≤ eps) :
    ∃ w B, Position3D.normalize ⟨fin (v 0), fin (v 1), fin (v 2)⟩ = .ok w ∧
      Rotation.fromAngleDirection m (fin a) w.x w.y w.z = .ok (Rotation.ofMat B) ∧
      fro (B - rodrigues ((1 / vlen v) • v) a) ≤ 17 / 1048576 ∧
      Rotation.isRotation (Rotation.ofMat B) (fin eps) = true := by
  have el : len (v 0) (v 1) (v 2) = vlen v := by
    simp [len, vlen, Fin.sum_univ_three]
  have hv0 : 0 < vlen v := lt_of_lt_of_le (two_zpow_pos _) hl
  obtain ⟨p, q, r, h0, hp, hq, hr, e1, e2, e3⟩ := C77_normalize (v 0) (v 1) (v 2) (by rwa [el]) (by rwa [el])
  rw [el] at e1 e2 e3
  set n : Vec3 := (1 / vlen v) • v with hn
  have hn1 : vlen n = 1 := by rw [hn, vlen_smul _ (by positivity), one_div, inv_mul_cancel₀ hv0.ne']
  have hnu : lenSq n = 1 := by rw [lenSq_vlen, hn1, one_pow]
  have hni : ∀ i, n i = v i / vlen v := fun i => by rw [hn, Pi.smul_apply, smul_eq_mul, one_div, inv_mul_eq_div]
  have hna : ∀ i, |n i| = |v i| / vlen v := fun i => by rw [hni, abs_div, abs_of_pos hv0]
  have hi : ∀ i, |(![p, q, r] - n) i| ≤ 2 ^ (-19 : ℤ) * |n i| + 2 ^ (-150 : ℤ) := by
    intro i
    rw [hna, Pi.sub_apply, hni]
    fin_cases i
    exacts [e1, e2, e3]
  have hd : vlen (![p, q, r] - n) ≤ 33 / 16777216 := by
    have k1 : vlen (![p, q, r] - n) ≤ vlen ((2 : ℝ) ^ (-19 : ℤ) • (fun i => |n i|) + fun _ => 2 ^ (-150 : ℤ)) :=
      vlen_mono fun i => (hi i).trans (le_abs_self _)
    have k2 := vlen_add ((2 : ℝ) ^ (-19 : ℤ) • (fun i => |n i|)) fun _ => 2 ^ (-150 : ℤ)
    rw [vlen_smul _ (two_zpow_pos _).le, vlen_abs, hn1] at k2
    have k3 := vlen_const ((2 : ℝ) ^ (-150 : ℤ)) (two_zpow_pos _).le
    have w : (2 : ℝ) ^ (-150 : ℤ) ≤ 2 ^ (-40 : ℤ) := two_zpow_le (by norm_num)
    have e40 : (2 : ℝ) ^ (-40 : ℤ) = 1 / 1099511627776 := by norm_num
    have e19 : (2 : ℝ) ^ (-19 : ℤ) = 32 / 16777216 := by norm_num
    rw [e40] at w
    rw [e19] at k1 k2
    generalize (2 : ℝ) ^ (-150 : ℤ) = η at *
    linarith
  have k1 := vlen_add (![p, q, r] - n) n
  have k2 := vlen_add (n - ![p, q, r]) ![p, q, r]
  rw [sub_add_cancel, hn1] at k1 k2
  rw [← neg_sub, vlen_neg] at k2
  obtain ⟨B, b1, b2, b3⟩ := C87_direction m hm a ha ![p, q, r] n (by intro i; fin_cases i; exacts [hp, hq, hr])
    (abs_le.2 ⟨by nlinarith, by nlinarith [vlen_nonneg ![p, q, r]]⟩) hnu _ hd (by norm_num)
  have b4 : fro (B - rodrigues n a) ≤ 17 / 1048576 := b3.trans (by norm_num)
  refine ⟨⟨fin p, fin q, fin r⟩, B, h0, b1, b4, ?_⟩
  exact C80_accepts B _ (rodrigues_isRot hnu a) _ eps b4 (by norm_num) heps (le_trans (by norm_num) h)

/-- Half a turn about the diagonal of the x-y plane. -/
example : ∃ w B, Position3D.normalize ⟨fin ((![1, 1, 0] : Vec3) 0), fin ((![1, 1, 0] : Vec3) 1), fin ((![1, 1, 0] : Vec3) 2)⟩ = .ok w ∧
      Rotation.fromAngleDirection Libm.rounded (fin 3) w.x w.y w.z = .ok (Rotation.ofMat B) ∧
      fro (B - rodrigues ((1 / vlen ![1, 1, 0]) • ![1, 1, 0]) 3) ≤ 17 / 1048576 ∧
      Rotation.isRotation (Rotation.ofMat B) (fin 1) = true := by
  have e : vlen ![1, 1, 0] = √2 := by
    simp [vlen, Fin.sum_univ_three]
    norm_num
  have h1 : (1 : ℝ) ≤ √2 := Real.one_le_sqrt.2 (by norm_num)
  have h2 : √2 ≤ 2 := Real.sqrt_le_iff.2 ⟨by norm_num, by norm_num⟩
  refine C87_normalised _ rounded_accurate 3 ⟨3, 0, by norm_num, by norm_num, by norm_num, by norm_num⟩ _ ?_ ?_ 1 Rep.one (by norm_num)
  · rw [e]
    exact (zpow_le_one_of_nonpos₀ (by norm_num) (by norm_num)).trans h1
  · rw [e]
    exact h2.trans (by norm_num)

/-- An exact axis. -/
example : ∃ B, Rotation.fromAngleDirection Libm.rounded (fin 1) (fin 0) (fin 0) (fin 1) = .ok (Rotation.ofMat B) ∧
    (∀ i j, Rep (B i j)) ∧ fro (B - rodrigues ![0, 0, 1] 1) ≤ 6 * 0 + 2 ^ (-18 : ℤ) := by
  have h := C87_direction _ rounded_accurate 1 Rep.one ![0, 0, 1] ![0, 0, 1]
    (by intro i; fin_cases i; exacts [Rep.zero, Rep.zero, Rep.one]) (by simp [vlen_sq, Fin.sum_univ_three]; norm_num)
    (by simp [lenSq]) 0 (by simp [vlen]) (by norm_num)
  simpa using h

/-- Twice a unit vector is refused. -/
example (m : Libm) : Rotation.fromAngleDirection m (fin 1) (fin 0) (fin 0) (fin 2) = .throws := by
  have e : vlen ![0, 0, 2] = 2 := by
    simp [vlen, Fin.sum_univ_three]
  have h := C87_throws m (fin 1) ![0, 0, 2] (by rw [e]; norm_num) (by rw [e]; norm_num [abs_of_pos])
  simpa using h

end AlMath.F32
