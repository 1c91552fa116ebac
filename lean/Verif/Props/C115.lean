import Verif.Model.FloatPolar
import Verif.Props.C85
import Verif.Props.C114

/-!
C115: polar coordinates in single precision.
-/

namespace AlMath.F32

open Complex (exp I)

/-- A radius times a rounded cosine or sine. -/
theorem polar_comp {r c w : ℝ} (hr : |r| ≤ 2 ^ 120) (hw : |w| ≤ 1) (hc : |c - w| ≤ 2 ^ (-23 : ℤ)) :
    ∃ x, mul (fin r) (fin c) = fin x ∧ Rep x ∧ |x - r * w| ≤ 2 ^ (-22 : ℤ) * |r| + 2 ^ (-150 : ℤ) := by
  rw [show (2 : ℝ) ^ (-23 : ℤ) = 1 / 8388608 by norm_num] at hc
  rw [show (2 : ℝ) ^ (-22 : ℤ) = 1 / 4194304 by norm_num]
  have hr0 := abs_nonneg r
  have k1 : |r * c - r * w| ≤ 1 / 8388608 * |r| := by
    rw [← mul_sub, abs_mul, mul_comm]
    exact mul_le_mul_of_nonneg_right hc hr0
  have k2 : |r * w| ≤ |r| := by
    rw [abs_mul]
    exact mul_le_of_le_one_right hr0 hw
  have k3 := le_of_err k1
  have hm : |r * c| ≤ 2 ^ 127 := by
    have : (2 : ℝ) ^ 120 + 2 ^ 120 ≤ 2 ^ 127 := by norm_num
    generalize (2 : ℝ) ^ 120 = b1 at *
    generalize (2 : ℝ) ^ 127 = b2 at *
    linarith
  have hg := rnd_gen (r * c)
  rw [two_neg24] at hg
  refine ⟨rnd (r * c), mul_fin hm, rnd_rep hm, ?_⟩
  have q := abs_add_le (rnd (r * c) - r * c) (r * c - r * w)
  rw [sub_add_sub_cancel] at q
  linarith

/-- The coordinates of the point with given polar coordinates. The pose keeps the angle exactly. -/
theorem C115_polar (m : Libm) (hm : m.Accurate) (r a : ℝ) (hr : |r| ≤ 2 ^ 120) (ha : Rep a) :
    ∃ x y, Position2D.fromPolar m (fin r) (fin a) = ⟨fin x, fin y⟩ ∧
      Pose2D.fromPolar m (fin r) (fin a) = ⟨fin x, fin y, fin a⟩ ∧ Rep x ∧ Rep y ∧
      |x - r * Real.cos a| ≤ 2 ^ (-22 : ℤ) * |r| + 2 ^ (-150 : ℤ) ∧
      |y - r * Real.sin a| ≤ 2 ^ (-22 : ℤ) * |r| + 2 ^ (-150 : ℤ) := by
  obtain ⟨c, hc, -, ec⟩ := hm.cos a ha
  obtain ⟨s, hs, -, es⟩ := hm.sin a ha
  obtain ⟨x, x1, x2, x3⟩ := polar_comp hr (Real.abs_cos_le_one a) ec
  obtain ⟨y, y1, y2, y3⟩ := polar_comp hr (Real.abs_sin_le_one a) es
  refine ⟨x, y, ?_, ?_, x2, y2, x3, y3⟩
  · rw [Position2D.fromPolar, hc, hs, x1, y1]
  · rw [Pose2D.fromPolar, hc, hs, x1, y1]

/-- The point as a complex number. -/
theorem polar_complex {r a x y : ℝ} (hr : 2 ^ (-100 : ℤ) ≤ |r|)
    (hx : |x - r * Real.cos a| ≤ 2 ^ (-22 : ℤ) * |r| + 2 ^ (-150 : ℤ))
    (hy : |y - r * Real.sin a| ≤ 2 ^ (-22 : ℤ) * |r| + 2 ^ (-150 : ℤ)) :
    ‖(⟨x, y⟩ : ℂ) - r * exp (a * I)‖ ≤ 33 / 64 * (1 / 1048576) * |r| := by
  have h150 : (2 : ℝ) ^ (-150 : ℤ) ≤ 1 / 1125899906842624 * |r| := by
    calc (2 : ℝ) ^ (-150 : ℤ) = 1 / 1125899906842624 * 2 ^ (-100 : ℤ) := by norm_num
      _ ≤ _ := by gcongr
  have e : (⟨x, y⟩ : ℂ) - r * exp (a * I) = ⟨x - r * Real.cos a, y - r * Real.sin a⟩ := by
    apply Complex.ext <;> simp [Complex.exp_ofReal_mul_I_re, Complex.exp_ofReal_mul_I_im]
  rw [e]
  have h := Complex.norm_le_abs_re_add_abs_im (⟨x - r * Real.cos a, y - r * Real.sin a⟩ : ℂ)
  refine h.trans ?_
  dsimp only
  rw [show (2 : ℝ) ^ (-22 : ℤ) = 1 / 4194304 by norm_num] at hx hy
  have hr0 := abs_nonneg r
  generalize (2 : ℝ) ^ (-150 : ℤ) = η at *
  linarith

theorem norm_polar (r a : ℝ) : ‖(r : ℂ) * exp (a * I)‖ = |r| := by
  rw [norm_mul, Complex.norm_exp_ofReal_mul_I, mul_one, Complex.norm_real, Real.norm_eq_abs]

theorem len2_norm (x y : ℝ) : len2 x y = ‖(⟨x, y⟩ : ℂ)‖ := by
  rw [Complex.norm_def, Complex.normSq_mk, len2, sq, sq]

/-- The norm of the point is the radius, without its sign. -/
theorem C115_norm (m : Libm) (hm : m.Accurate) (r a : ℝ) (hl : 2 ^ (-59 : ℤ) ≤ |r|) (hu : |r| ≤ 2 ^ 61) (ha : Rep a) :
    ∃ n, Position2D.norm (Position2D.fromPolar m (fin r) (fin a)) = fin n ∧
      Pose2D.norm (Pose2D.fromPolar m (fin r) (fin a)) = fin n ∧ |n - (|r|)| ≤ 2 ^ (-19 : ℤ) * |r| := by
  obtain ⟨x, y, h1, h2, -, -, hx, hy⟩ := C115_polar m hm r a (hu.trans (by norm_num)) ha
  have hz := polar_complex ((two_zpow_le (by norm_num)).trans hl) hx hy
  have hn := abs_norm_sub_norm_le (⟨x, y⟩ : ℂ) (r * exp (a * I))
  rw [norm_polar, ← len2_norm] at hn
  have he := hn.trans hz
  obtain ⟨e1, e2⟩ := abs_le.1 he
  have hr0 := abs_nonneg r
  obtain ⟨n, n1, n2, -, n3⟩ := C114_norm x y (fin a)
    (by
      rw [show (2 : ℝ) ^ (-60 : ℤ) = 2 ^ (-59 : ℤ) / 2 by norm_num]
      generalize (2 : ℝ) ^ (-59 : ℤ) = b at *
      linarith)
    (by
      rw [show (2 : ℝ) ^ 62 = 2 ^ 61 + 2 ^ 61 by norm_num]
      generalize (2 : ℝ) ^ 61 = b at *
      linarith)
  refine ⟨n, by rw [h1, n1], by rw [h2, n2], ?_⟩
  have q := abs_add_le (n - len2 x y) (len2 x y - |r|)
  rw [sub_add_sub_cancel] at q
  rw [show (2 : ℝ) ^ (-20 : ℤ) = 1 / 1048576 by norm_num] at n3
  rw [show (2 : ℝ) ^ (-19 : ℤ) = 1 / 524288 by norm_num]
  linarith

/-- The angle of the point, as a direction: the given one, or the opposite one for a negative radius. -/
theorem C115_angle (m : Libm) (hm : m.Accurate) (r a : ℝ) (hl : 2 ^ (-100 : ℤ) ≤ |r|) (hu : |r| ≤ 2 ^ 120) (ha : Rep a) :
    ∃ b, Position2D.getAngle m (Position2D.fromPolar m (fin r) (fin a)) = fin b ∧
      Pose2D.getAngle m (Pose2D.fromPolar m (fin r) (fin a)) = fin b ∧ |b| ≤ 4 ∧
      (0 < r → ‖exp (b * I) - exp (a * I)‖ ≤ 2 ^ (-19 : ℤ)) ∧ (r < 0 → ‖exp (b * I) + exp (a * I)‖ ≤ 2 ^ (-19 : ℤ)) := by
  obtain ⟨x, y, h1, h2, rx, ry, hx, hy⟩ := C115_polar m hm r a hu ha
  have hz := polar_complex hl hx hy
  have hn := abs_norm_sub_norm_le (⟨x, y⟩ : ℂ) (r * exp (a * I))
  rw [norm_polar] at hn
  have he := hn.trans hz
  obtain ⟨b, b1, -, b2, b3⟩ := hm.atan2 y x ry rx
  have hrp : 0 < |r| := lt_of_lt_of_le (two_zpow_pos _) hl
  refine ⟨b, by rw [h1]; exact b1, by rw [h2]; exact b1, b2, ?_⟩
  rw [show (2 : ℝ) ^ (-21 : ℤ) = 1 / 2097152 by norm_num] at b3
  rw [show (2 : ℝ) ^ (-19 : ℤ) = 1 / 524288 by norm_num]
  have key : ‖((|r| : ℝ) : ℂ) * exp (b * I) - r * exp (a * I)‖ ≤ 1 / 524288 * |r| := by
    have e : ((|r| : ℝ) : ℂ) * exp (b * I) - r * exp (a * I) =
        ((|r| - ‖(⟨x, y⟩ : ℂ)‖ : ℝ) : ℂ) * exp (b * I) + ((‖(⟨x, y⟩ : ℂ)‖ : ℂ) * exp (b * I) - ⟨x, y⟩) +
          ((⟨x, y⟩ : ℂ) - r * exp (a * I)) := by
      push_cast
      ring
    rw [e]
    have q1 := norm_add_le (((|r| - ‖(⟨x, y⟩ : ℂ)‖ : ℝ) : ℂ) * exp (b * I) + ((‖(⟨x, y⟩ : ℂ)‖ : ℂ) * exp (b * I) - ⟨x, y⟩))
      ((⟨x, y⟩ : ℂ) - r * exp (a * I))
    have q2 := norm_add_le (((|r| - ‖(⟨x, y⟩ : ℂ)‖ : ℝ) : ℂ) * exp (b * I)) ((‖(⟨x, y⟩ : ℂ)‖ : ℂ) * exp (b * I) - ⟨x, y⟩)
    rw [norm_polar, abs_sub_comm] at q2
    have := (abs_le.1 he).2
    linarith
  constructor
  · intro h
    rw [abs_of_pos h, ← mul_sub, norm_mul, Complex.norm_real, Real.norm_eq_abs, abs_of_pos h] at key
    have h' : r * ‖exp (b * I) - exp (a * I)‖ ≤ r * (1 / 524288) := by linarith
    exact le_of_mul_le_mul_left h' h
  · intro h
    have e : ((|r| : ℝ) : ℂ) * exp (b * I) - r * exp (a * I) = ((-r : ℝ) : ℂ) * (exp (b * I) + exp (a * I)) := by
      rw [abs_of_neg h]
      push_cast
      ring
    rw [e, norm_mul, Complex.norm_real, Real.norm_eq_abs, abs_neg, abs_of_neg h] at key
    have h' : -r * ‖exp (b * I) + exp (a * I)‖ ≤ -r * (1 / 524288) := by linarith
    exact le_of_mul_le_mul_left h' (by linarith)

/-- There is an accurate library, and radii and angles in the range. -/
example : Libm.rounded.Accurate ∧ (2 : ℝ) ^ (-59 : ℤ) ≤ |(-3)| ∧ |(-3 : ℝ)| ≤ 2 ^ 61 ∧ Rep (1 / 2) := by
  refine ⟨rounded_accurate, by norm_num, by norm_num, ⟨1, -1, by norm_num, by norm_num, by norm_num, by norm_num⟩⟩

end AlMath.F32
