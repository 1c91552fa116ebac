import Verif.Model.Float64
import Verif.Lemmas.FloatDot

/-!
Lemmas about rounding to binary64.
-/

namespace AlMath.F64

open F32

/-- Rounding is at most half a unit in the last place. -/
theorem rnd_err (x : ℝ) : |rnd x - x| ≤ (2 : ℝ) ^ lastBit x / 2 := by
  have hp := two_zpow_pos (lastBit x)
  have e : rnd x - x = (nearestInt (x / (2 : ℝ) ^ lastBit x) - x / (2 : ℝ) ^ lastBit x) * (2 : ℝ) ^ lastBit x := by
    rw [rnd]
    field_simp
  rw [e, abs_mul, abs_of_pos hp]
  have := nearestInt_abs (x / (2 : ℝ) ^ lastBit x)
  nlinarith

theorem rnd_zero : rnd 0 = 0 := by
  have := nearestInt_int 0
  simp only [Int.cast_zero] at this
  simp [rnd, this]

/-- Rounding: a relative and an absolute error. -/
theorem rnd_gen (x : ℝ) : |rnd x - x| ≤ 2 ^ (-53 : ℤ) * |x| + 2 ^ (-1075 : ℤ) := by
  have h1 := two_zpow_pos (-1075)
  have h2 : 0 ≤ 2 ^ (-53 : ℤ) * |x| := mul_nonneg (two_zpow_pos _).le (abs_nonneg x)
  by_cases hx : x = 0
  · rw [hx, rnd_zero, sub_self, abs_zero, mul_zero, zero_add]
    exact h1.le
  refine (rnd_err x).trans ?_
  rcases le_total (-1074) (Int.log 2 |x| - 52) with h | h
  · have hb : lastBit x = Int.log 2 |x| - 52 := max_eq_left h
    have h3 := zpow_log_le hx
    have h4 : (2 : ℝ) ^ lastBit x / 2 = 2 ^ (-53 : ℤ) * (2 : ℝ) ^ Int.log 2 |x| := by
      rw [hb, show Int.log 2 |x| - 52 = Int.log 2 |x| + (-53) + 1 by ring, zpow_add₀ (by norm_num), zpow_add₀ (by norm_num),
        zpow_one]
      ring
    rw [h4]
    have := mul_le_mul_of_nonneg_left h3 (two_zpow_pos (-53)).le
    linarith
  · have hb : lastBit x = -1074 := max_eq_right h
    have h4 : (2 : ℝ) ^ (-1074 : ℤ) / 2 = 2 ^ (-1075 : ℤ) := by
      rw [show (-1074 : ℤ) = -1075 + 1 by norm_num, zpow_add₀ (by norm_num), zpow_one]
      ring
    rw [hb, h4]
    linarith

/-- Results that do not overflow. -/
theorem rnd_nonneg {x : ℝ} (h : 0 ≤ x) : 0 ≤ rnd x := by
  have h1 : 0 ≤ x / (2 : ℝ) ^ lastBit x := by positivity
  have h2 := (abs_le.1 (nearestInt_abs (x / (2 : ℝ) ^ lastBit x))).1
  have h3 : (-1 : ℝ) < nearestInt (x / (2 : ℝ) ^ lastBit x) := by linarith
  have h4 : -1 < nearestInt (x / (2 : ℝ) ^ lastBit x) := by exact_mod_cast h3
  have h5 : 0 ≤ nearestInt (x / (2 : ℝ) ^ lastBit x) := by omega
  rw [rnd]
  have : (0 : ℝ) ≤ nearestInt (x / (2 : ℝ) ^ lastBit x) := by exact_mod_cast h5
  positivity

theorem round_nonneg {x p : ℝ} (h : 0 ≤ x) (e : round x = F32.fin p) : 0 ≤ p := by
  have := rnd_nonneg h
  rw [round] at e
  split_ifs at e
  rw [← F32.fin.inj e]
  exact this

theorem round_fin {x : ℝ} (h : |x| ≤ 2 ^ 1000) : round x = fin (rnd x) := by
  have h1 := rnd_gen x
  have h2 := le_of_err h1
  have h3 : (2 : ℝ) ^ (-1075 : ℤ) ≤ 1 := zpow_le_one_of_nonpos₀ (by norm_num) (by norm_num)
  have h4 : (2 : ℝ) ^ (-53 : ℤ) ≤ 1 := zpow_le_one_of_nonpos₀ (by norm_num) (by norm_num)
  have h5 : 2 ^ (-53 : ℤ) * |x| ≤ 1 * |x| := mul_le_mul_of_nonneg_right h4 (abs_nonneg _)
  have h6 : (2 : ℝ) ^ 1000 * 2 + 1 < 2 ^ 1024 := by
    have e : (2 : ℝ) ^ 1024 = 2 ^ 1000 * 2 ^ 24 := by rw [← pow_add]
    have one : (1 : ℝ) ≤ 2 ^ 1000 := one_le_pow₀ (by norm_num)
    rw [e]
    generalize (2 : ℝ) ^ 1000 = a at *
    norm_num
    linarith only [one]
  have h7 : |rnd x| < 2 ^ 1024 := by
    generalize (2 : ℝ) ^ 1000 = a at *
    generalize (2 : ℝ) ^ 1024 = b at *
    linarith
  have := abs_lt.1 h7
  generalize hb : (2 : ℝ) ^ 1024 = b at *
  rw [round, hb, if_neg (by linarith), if_neg (by linarith)]

end AlMath.F64
