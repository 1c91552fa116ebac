import Verif.Model.Float32
import Mathlib.Tactic.Ring
import Mathlib.Tactic.Linarith
import Mathlib.Tactic.FieldSimp
import Mathlib.Tactic.Positivity
import Mathlib.Tactic.NormNum
import Mathlib.Algebra.Order.Archimedean.Basic

/-!
Lemmas about rounding to binary32.
-/

namespace AlMath.F32

/-! ### Nearest integer -/

theorem nearestInt_cases (y : ℝ) :
    (nearestInt y = ⌊y⌋ ∧ Int.fract y ≤ 1 / 2) ∨ (nearestInt y = ⌊y⌋ + 1 ∧ 1 / 2 ≤ Int.fract y) := by
  unfold nearestInt
  split_ifs with h1 h2 h3
  · exact .inl ⟨rfl, h1.le⟩
  · exact .inr ⟨rfl, h2.le⟩
  · exact .inl ⟨rfl, not_lt.1 h2⟩
  · exact .inr ⟨rfl, not_lt.1 h1⟩

theorem nearestInt_abs (y : ℝ) : |nearestInt y - y| ≤ 1 / 2 := by
  have h := Int.self_sub_floor y
  rcases nearestInt_cases y with ⟨e, hf⟩ | ⟨e, hf⟩ <;> rw [e, abs_le]
  · have := Int.fract_nonneg y
    constructor <;> linarith
  · have := Int.fract_lt_one y
    push_cast
    constructor <;> linarith

/-- No integer is nearer. -/
theorem nearestInt_min (y : ℝ) (n : ℤ) : |nearestInt y - y| ≤ |n - y| := by
  by_contra hc
  have hc := not_le.1 hc
  have h := nearestInt_abs y
  have hn : |(n : ℝ) - nearestInt y| < 1 := by
    have : (n : ℝ) - nearestInt y = (n - y) - (nearestInt y - y) := by ring
    rw [this]
    exact lt_of_le_of_lt (abs_sub _ _) (by linarith)
  have : n = nearestInt y := by
    have h2 : |n - nearestInt y| < 1 := by exact_mod_cast hn
    rw [Int.abs_lt_one_iff] at h2
    omega
  rw [this] at hc
  exact lt_irrefl _ hc

theorem nearestInt_int (n : ℤ) : nearestInt n = n := by
  simp [nearestInt]

theorem nearestInt_neg (y : ℝ) : nearestInt (-y) = -nearestInt y := by
  by_cases h0 : Int.fract y = 0
  · obtain ⟨n, rfl⟩ : ∃ n : ℤ, y = n := ⟨⌊y⌋, by have := Int.self_sub_floor y; linarith⟩
    rw [← Int.cast_neg, nearestInt_int, nearestInt_int]
  · have hf : Int.fract (-y) = 1 - Int.fract y := Int.fract_neg h0
    have hfl : ⌊-y⌋ = -⌊y⌋ - 1 := by
      have h1 := Int.self_sub_floor y
      have h2 := Int.self_sub_floor (-y)
      rw [hf] at h2
      have : (⌊-y⌋ : ℝ) = -⌊y⌋ - 1 := by linarith
      exact_mod_cast this
    unfold nearestInt
    rw [hf, hfl]
    have hev : Even (-⌊y⌋ - 1) ↔ ¬ Even ⌊y⌋ := by
      rw [Int.even_sub_one, even_neg]
    rcases lt_trichotomy (Int.fract y) (1 / 2) with h | h | h
    · rw [if_neg (by linarith), if_pos (by linarith), if_pos h]
      ring
    · rw [h]
      by_cases he : Even ⌊y⌋
      · have he' : ¬ Even (-⌊y⌋ - 1) := by rw [hev]; exact not_not.2 he
        norm_num [he, he']
      · have he' : Even (-⌊y⌋ - 1) := hev.2 he
        norm_num [he, he']
        ring
    · rw [if_pos (by linarith), if_neg (by linarith), if_pos h]
      ring

/-! ### The grid -/

/-- The finite values, without upper bound of the exponent. Not in /repo: helper of the proofs. -/
def Grid (x : ℝ) : Prop := ∃ m e : ℤ, |m| < 2 ^ 24 ∧ -149 ≤ e ∧ x = m * (2 : ℝ) ^ e

theorem Rep.grid {x : ℝ} (h : Rep x) : Grid x := by
  obtain ⟨m, e, h1, h2, -, h3⟩ := h
  exact ⟨m, e, h1, h2, h3⟩

theorem two_zpow_pos (e : ℤ) : (0 : ℝ) < 2 ^ e := zpow_pos (by norm_num) e

theorem zpow_log_le {x : ℝ} (hx : x ≠ 0) : (2 : ℝ) ^ Int.log 2 |x| ≤ |x| :=
  Int.zpow_log_le_self (b := 2) (by norm_num) (abs_pos.2 hx)

theorem lt_zpow_log (x : ℝ) : |x| < (2 : ℝ) ^ (Int.log 2 |x| + 1) :=
  Int.lt_zpow_succ_log_self (b := 2) (by norm_num) |x|

theorem lastBit_ge (x : ℝ) : -149 ≤ lastBit x := le_max_right _ _

theorem lastBit_neg (x : ℝ) : lastBit (-x) = lastBit x := by
  rw [lastBit, lastBit, abs_neg]

theorem abs_lt_lastBit (x : ℝ) : |x| < 2 ^ 24 * (2 : ℝ) ^ lastBit x := by
  have h1 : (2 : ℝ) ^ (Int.log 2 |x| + 1) ≤ 2 ^ (24 + lastBit x) :=
    zpow_le_zpow_right₀ (by norm_num) (by have := le_max_left (Int.log 2 |x| - 23) (-149); unfold lastBit; omega)
  have h2 : (2 : ℝ) ^ (24 + lastBit x) = 2 ^ 24 * (2 : ℝ) ^ lastBit x := by
    rw [zpow_add₀ (by norm_num)]
    norm_num
  rw [← h2]
  exact lt_of_lt_of_le (lt_zpow_log x) h1

theorem rnd_zero : rnd 0 = 0 := by
  have := nearestInt_int 0
  simp only [Int.cast_zero] at this
  simp [rnd, this]

/-- Rounding is at most half a unit in the last place. -/
theorem rnd_err (x : ℝ) : |rnd x - x| ≤ (2 : ℝ) ^ lastBit x / 2 := by
  have hp := two_zpow_pos (lastBit x)
  have e : rnd x - x = (nearestInt (x / (2 : ℝ) ^ lastBit x) - x / (2 : ℝ) ^ lastBit x) * (2 : ℝ) ^ lastBit x := by
    rw [rnd]
    field_simp
  rw [e, abs_mul, abs_of_pos hp]
  have := nearestInt_abs (x / (2 : ℝ) ^ lastBit x)
  nlinarith

/-- A value of the grid whose absolute value is not below the binade of `x` is a multiple of the last bit. -/
theorem multiple_of_ge {x g : ℝ} (hg : Grid g) (h : Int.log 2 |x| - 23 ≤ -149 ∨ (2 : ℝ) ^ Int.log 2 |x| ≤ |g|) :
    ∃ n : ℤ, g = n * (2 : ℝ) ^ lastBit x := by
  obtain ⟨m, e, hm, he, rfl⟩ := hg
  have hle : lastBit x ≤ e := by
    refine max_le ?_ he
    rcases h with h | h
    · omega
    · by_contra hc
      have hc := not_le.1 hc
      rw [abs_mul, abs_of_pos (two_zpow_pos e)] at h
      have h1 : (2 : ℝ) ^ Int.log 2 |x| ≥ 2 ^ (e + 24) :=
        zpow_le_zpow_right₀ (by norm_num) (by omega)
      rw [zpow_add₀ (by norm_num)] at h1
      have h2 : |(m : ℝ)| < 2 ^ 24 := by exact_mod_cast hm
      have hp := two_zpow_pos e
      norm_num at h1 h2
      nlinarith
  refine ⟨m * 2 ^ (e - lastBit x).toNat, ?_⟩
  have : (2 : ℝ) ^ e = 2 ^ (e - lastBit x).toNat * (2 : ℝ) ^ lastBit x := by
    rw [← zpow_natCast, Int.toNat_of_nonneg (by omega), ← zpow_add₀ (by norm_num)]
    congr 1
    ring
  push_cast
  rw [this]
  ring

/-- No value of the grid is nearer than the rounded value. -/
theorem rnd_nearest (x : ℝ) {g : ℝ} (hg : Grid g) : |rnd x - x| ≤ |g - x| := by
  by_cases hx : x = 0
  · rw [hx, rnd_zero, sub_self, abs_zero]
    exact abs_nonneg _
  have hp := two_zpow_pos (lastBit x)
  have key : ∀ n : ℤ, |rnd x - x| ≤ |n * (2 : ℝ) ^ lastBit x - x| := by
    intro n
    have e1 : rnd x - x = (nearestInt (x / (2 : ℝ) ^ lastBit x) - x / (2 : ℝ) ^ lastBit x) * (2 : ℝ) ^ lastBit x := by
      rw [rnd]
      field_simp
    have e2 : n * (2 : ℝ) ^ lastBit x - x = (n - x / (2 : ℝ) ^ lastBit x) * (2 : ℝ) ^ lastBit x := by
      field_simp
    rw [e1, e2, abs_mul, abs_mul, abs_of_pos hp]
    exact mul_le_mul_of_nonneg_right (nearestInt_min _ _) hp.le
  by_cases h : Int.log 2 |x| - 23 ≤ -149 ∨ (2 : ℝ) ^ Int.log 2 |x| ≤ |g|
  · obtain ⟨n, rfl⟩ := multiple_of_ge hg h
    exact key n
  · rw [not_or, not_le, not_le] at h
    have hl : lastBit x = Int.log 2 |x| - 23 := max_eq_left h.1.le
    have hq : (2 : ℝ) ^ Int.log 2 |x| = 2 ^ 23 * (2 : ℝ) ^ lastBit x := by
      rw [hl, zpow_sub₀ (by norm_num)]
      norm_num
      ring
    have h1 := zpow_log_le hx
    have h2 : |g - x| ≥ |x| - (2 : ℝ) ^ Int.log 2 |x| := by
      have := abs_sub_abs_le_abs_sub x g
      rw [abs_sub_comm] at this
      linarith
    refine le_trans ?_ h2
    rcases lt_or_gt_of_ne hx with hx | hx
    · refine (key (-2 ^ 23)).trans (le_of_eq ?_)
      have e : ((-2 ^ 23 : ℤ) : ℝ) * (2 : ℝ) ^ lastBit x = -(2 : ℝ) ^ Int.log 2 |x| := by
        rw [hq]
        push_cast
        ring
      rw [e]
      have : |x| = -x := abs_of_neg hx
      rw [abs_of_nonneg (by linarith)]
      linarith
    · refine (key (2 ^ 23)).trans (le_of_eq ?_)
      have e : ((2 ^ 23 : ℤ) : ℝ) * (2 : ℝ) ^ lastBit x = (2 : ℝ) ^ Int.log 2 |x| := by
        rw [hq]
        push_cast
        ring
      rw [e]
      have : |x| = x := abs_of_pos hx
      rw [abs_of_nonpos (by linarith)]
      linarith

/-- The rounded value is on the grid. -/
theorem rnd_grid (x : ℝ) : Grid (rnd x) := by
  set m := nearestInt (x / (2 : ℝ) ^ lastBit x) with hm
  have hp := two_zpow_pos (lastBit x)
  have hle : |m| ≤ 2 ^ 24 := by
    have h1 := nearestInt_abs (x / (2 : ℝ) ^ lastBit x)
    rw [← hm] at h1
    have h2 : |x / (2 : ℝ) ^ lastBit x| < 2 ^ 24 := by
      rw [abs_div, abs_of_pos hp, div_lt_iff₀ hp]
      exact abs_lt_lastBit x
    have h3 : |(m : ℝ)| < 2 ^ 24 + 1 := by
      have := abs_sub_abs_le_abs_sub (m : ℝ) (x / (2 : ℝ) ^ lastBit x)
      linarith
    have : |m| < 2 ^ 24 + 1 := by exact_mod_cast h3
    omega
  rcases lt_or_eq_of_le hle with h | h
  · exact ⟨m, lastBit x, h, lastBit_ge x, rfl⟩
  · have hr : rnd x = m * (2 : ℝ) ^ lastBit x := rfl
    have h24 : (2 : ℝ) ^ (lastBit x + 1) = 2 * (2 : ℝ) ^ lastBit x := by
      rw [zpow_add₀ (by norm_num)]
      ring
    have hl := lastBit_ge x
    rcases abs_eq (by norm_num : (0 : ℤ) ≤ 2 ^ 24) |>.1 h with h | h
    · refine ⟨2 ^ 23, lastBit x + 1, by norm_num, by omega, ?_⟩
      rw [hr, h, h24]
      push_cast
      ring
    · refine ⟨-2 ^ 23, lastBit x + 1, by norm_num, by omega, ?_⟩
      rw [hr, h, h24]
      push_cast
      ring

theorem grid_rep {x : ℝ} (hg : Grid x) (hx : |x| < 2 ^ 128) : Rep x := by
  obtain ⟨m, e, hm, he, rfl⟩ := hg
  by_cases h0 : m = 0
  · exact ⟨0, 0, by norm_num, by norm_num, by norm_num, by simp [h0]⟩
  by_cases h : e ≤ 104
  · exact ⟨m, e, hm, he, h, rfl⟩
  · have hp := two_zpow_pos 104
    obtain ⟨k, rfl⟩ : ∃ k : ℕ, e = 104 + k := ⟨(e - 104).toNat, by omega⟩
    have h1 : (m : ℝ) * 2 ^ (104 + (k : ℤ)) = ((m * 2 ^ k : ℤ) : ℝ) * (2 : ℝ) ^ (104 : ℤ) := by
      rw [zpow_add₀ (by norm_num), zpow_natCast]
      push_cast
      ring
    refine ⟨m * 2 ^ k, 104, ?_, by norm_num, le_rfl, h1⟩
    rw [h1, abs_mul, abs_of_pos hp] at hx
    have : |((m * 2 ^ k : ℤ) : ℝ)| < 2 ^ 24 := by
      by_contra hc
      have hc := not_lt.1 hc
      have : (2 : ℝ) ^ 24 * (2 : ℝ) ^ (104 : ℤ) = 2 ^ 128 := by norm_num
      nlinarith
    exact_mod_cast this

/-- The values of the grid are not changed. -/
theorem rnd_of_grid {x : ℝ} (hg : Grid x) : rnd x = x := by
  have := rnd_nearest x hg
  rw [sub_self, abs_zero] at this
  exact sub_eq_zero.1 (abs_eq_zero.1 (le_antisymm this (abs_nonneg _)))

theorem rnd_neg (x : ℝ) : rnd (-x) = -rnd x := by
  rw [rnd, rnd, lastBit_neg, neg_div, nearestInt_neg]
  push_cast
  ring

/-- Rounding is monotone. -/
theorem rnd_mono {x y : ℝ} (h : x ≤ y) : rnd x ≤ rnd y := by
  rcases eq_or_lt_of_le h with rfl | h
  · exact le_rfl
  by_contra hc
  have hc := not_le.1 hc
  have h1 := rnd_nearest x (rnd_grid y)
  have h2 := rnd_nearest y (rnd_grid x)
  have h3 : rnd x + rnd y ≤ 2 * x := by
    by_contra h4
    have h4 := not_le.1 h4
    have a1 : |rnd x - x| = rnd x - x := abs_of_pos (by linarith)
    have a2 : |rnd y - x| < rnd x - x := abs_lt.2 ⟨by linarith, by linarith⟩
    linarith
  have h4 : 2 * y ≤ rnd x + rnd y := by
    by_contra h4
    have h4 := not_le.1 h4
    have a1 : |rnd y - y| = y - rnd y := by rw [abs_of_neg (by linarith)]; ring
    have a2 : |rnd x - y| < y - rnd y := abs_lt.2 ⟨by linarith, by linarith⟩
    linarith
  linarith

theorem rnd_le_of_le {x g : ℝ} (hg : Grid g) (h : x ≤ g) : rnd x ≤ g := by
  rw [← rnd_of_grid hg]
  exact rnd_mono h

theorem le_rnd_of_le {x g : ℝ} (hg : Grid g) (h : g ≤ x) : g ≤ rnd x := by
  rw [← rnd_of_grid hg]
  exact rnd_mono h

theorem abs_rnd (x : ℝ) : |rnd x| = rnd |x| := by
  rcases le_total 0 x with h | h
  · have := rnd_mono h
    rw [rnd_zero] at this
    rw [abs_of_nonneg h, abs_of_nonneg this]
  · have := rnd_mono h
    rw [rnd_zero] at this
    rw [abs_of_nonpos h, abs_of_nonpos this, rnd_neg]

/-- Relative error in the range of normal numbers. -/
theorem rnd_rel {x : ℝ} (h : 2 ^ (-126 : ℤ) ≤ |x|) : |rnd x - x| ≤ 2 ^ (-24 : ℤ) * |x| := by
  have hx : x ≠ 0 := by
    rintro rfl
    have := two_zpow_pos (-126)
    simp at h
    linarith
  have hl : -126 ≤ Int.log 2 |x| := (Int.zpow_le_iff_le_log (b := 2) (by norm_num) (abs_pos.2 hx)).1 (by exact_mod_cast h)
  have hb : lastBit x = Int.log 2 |x| - 23 := max_eq_left (by omega)
  refine (rnd_err x).trans ?_
  have h1 := zpow_log_le hx
  have h2 : (2 : ℝ) ^ lastBit x / 2 = 2 ^ (-24 : ℤ) * (2 : ℝ) ^ Int.log 2 |x| := by
    rw [hb, zpow_sub₀ (by norm_num)]
    norm_num
    ring
  rw [h2]
  exact mul_le_mul_of_nonneg_left h1 (two_zpow_pos _).le

/-- Absolute error below the range of normal numbers. -/
theorem rnd_abs {x : ℝ} (h : |x| < 2 ^ (-126 : ℤ)) : |rnd x - x| ≤ 2 ^ (-150 : ℤ) := by
  by_cases hx : x = 0
  · rw [hx, rnd_zero, sub_self, abs_zero]
    exact (two_zpow_pos _).le
  have hb : lastBit x = -149 := by
    refine max_eq_right ?_
    · have := (Int.lt_zpow_iff_log_lt (b := 2) (by norm_num) (abs_pos.2 hx) (x := -126)).1 (by exact_mod_cast h)
      omega
  refine (rnd_err x).trans ?_
  rw [hb]
  norm_num

/-- Rounding in general: a relative and an absolute error. -/
theorem rnd_gen (x : ℝ) : |rnd x - x| ≤ 2 ^ (-24 : ℤ) * |x| + 2 ^ (-150 : ℤ) := by
  have h1 := two_zpow_pos (-150)
  have h2 : 0 ≤ 2 ^ (-24 : ℤ) * |x| := mul_nonneg (two_zpow_pos _).le (abs_nonneg x)
  rcases le_or_gt (2 ^ (-126 : ℤ)) |x| with h | h
  · have := rnd_rel h
    linarith
  · have := rnd_abs h
    linarith

theorem Rep.neg {x : ℝ} (h : Rep x) : Rep (-x) := by
  obtain ⟨m, e, h1, h2, h3, rfl⟩ := h
  exact ⟨-m, e, by rwa [abs_neg], h2, h3, by push_cast; ring⟩

theorem Rep.zero : Rep 0 := ⟨0, 0, by norm_num, by norm_num, by norm_num, by simp⟩

theorem Rep.one : Rep 1 := ⟨1, 0, by norm_num, by norm_num, by norm_num, by simp⟩

theorem Rep.abs {x : ℝ} (h : Rep x) : Rep |x| := by
  rcases abs_choice x with e | e <;> rw [e]
  exacts [h, h.neg]

theorem Rep.two_zpow {e : ℤ} (h1 : -149 ≤ e) (h2 : e < 128) : Rep (2 ^ e) := by
  refine grid_rep ⟨1, e, by norm_num, h1, by simp⟩ ?_
  rw [abs_of_pos (two_zpow_pos e)]
  calc (2 : ℝ) ^ e < 2 ^ (128 : ℤ) := zpow_lt_zpow_right₀ (by norm_num) h2
    _ = 2 ^ 128 := by norm_num

theorem Rep.lt {x : ℝ} (h : Rep x) : |x| < 2 ^ 128 := by
  obtain ⟨m, e, h1, h2, h3, rfl⟩ := h
  have h4 : (2 : ℝ) ^ e ≤ 2 ^ (104 : ℤ) := zpow_le_zpow_right₀ (by norm_num) h3
  have h5 : |(m : ℝ)| < 2 ^ 24 := by exact_mod_cast h1
  have hp := two_zpow_pos e
  rw [abs_mul, abs_of_pos hp]
  have : (2 : ℝ) ^ 24 * 2 ^ (104 : ℤ) = 2 ^ 128 := by norm_num
  have h6 := abs_nonneg (m : ℝ)
  calc |(m : ℝ)| * 2 ^ e ≤ |(m : ℝ)| * 2 ^ (104 : ℤ) := mul_le_mul_of_nonneg_left h4 h6
    _ < 2 ^ 24 * 2 ^ (104 : ℤ) := mul_lt_mul_of_pos_right h5 (two_zpow_pos _)
    _ = 2 ^ 128 := this

/-- Every value is a multiple of the least positive one. -/
theorem Grid.multiple {x : ℝ} (h : Grid x) : ∃ n : ℤ, x = n * (2 : ℝ) ^ (-149 : ℤ) := by
  obtain ⟨m, e, h1, h2, rfl⟩ := h
  obtain ⟨k, rfl⟩ : ∃ k : ℕ, e = -149 + k := ⟨(e + 149).toNat, by omega⟩
  refine ⟨m * 2 ^ k, ?_⟩
  rw [zpow_add₀ (by norm_num), zpow_natCast]
  push_cast
  ring

/-- A small sum or difference of values is exact. -/
theorem grid_add_small {x y : ℝ} (hx : Grid x) (hy : Grid y) (h : |x + y| < 2 ^ (-125 : ℤ)) : Grid (x + y) := by
  obtain ⟨m, rfl⟩ := hx.multiple
  obtain ⟨n, rfl⟩ := hy.multiple
  rw [← add_mul] at h ⊢
  refine ⟨m + n, -149, ?_, le_rfl, by push_cast; ring⟩
  rw [abs_mul, abs_of_pos (two_zpow_pos _)] at h
  have : |((m + n : ℤ) : ℝ)| < 2 ^ 24 := by
    push_cast
    by_contra hc
    have hc := not_lt.1 hc
    have hp := two_zpow_pos (-149)
    have e : (2 : ℝ) ^ (-125 : ℤ) = 2 ^ 24 * 2 ^ (-149 : ℤ) := by norm_num
    rw [e] at h
    nlinarith
  exact_mod_cast this

/-- The error of an addition is relative, even near 0. -/
theorem rnd_add {x y : ℝ} (hx : Grid x) (hy : Grid y) :
    |rnd (x + y) - (x + y)| ≤ 2 ^ (-24 : ℤ) * |x + y| := by
  rcases le_or_gt (2 ^ (-126 : ℤ)) |x + y| with h | h
  · exact rnd_rel h
  · have : (2 : ℝ) ^ (-126 : ℤ) ≤ 2 ^ (-125 : ℤ) := zpow_le_zpow_right₀ (by norm_num) (by norm_num)
    rw [rnd_of_grid (grid_add_small hx hy (by linarith)), sub_self, abs_zero]
    exact mul_nonneg (two_zpow_pos _).le (abs_nonneg _)

/-- Sterbenz: the difference of two values within a factor two is a value. -/
theorem sterbenz {x y : ℝ} (hx : Grid x) (hy : Grid y) (h1 : y / 2 ≤ x) (h2 : x ≤ 2 * y) : Grid (x - y) := by
  obtain ⟨m, e, hm, he, rfl⟩ := hx
  obtain ⟨n, f, hn, hf, rfl⟩ := hy
  have key : ∀ {m n e f : ℤ}, |n| < 2 ^ 24 → -149 ≤ f → f ≤ e → (m : ℝ) * 2 ^ e ≤ 2 * (n * 2 ^ f) →
      n * (2 : ℝ) ^ f / 2 ≤ m * 2 ^ e → Grid (m * (2 : ℝ) ^ e - n * 2 ^ f) := by
    intro m n e f hn hf hle h1 h2
    obtain ⟨k, rfl⟩ : ∃ k : ℕ, e = f + k := ⟨(e - f).toNat, by omega⟩
    have e1 : (m : ℝ) * 2 ^ (f + (k : ℤ)) = ((m * 2 ^ k : ℤ) : ℝ) * 2 ^ f := by
      rw [zpow_add₀ (by norm_num), zpow_natCast]
      push_cast
      ring
    rw [e1] at h1 h2 ⊢
    have hp := two_zpow_pos f
    have a1 : ((m * 2 ^ k : ℤ) : ℝ) ≤ 2 * n := by
      by_contra hc
      have hc := not_le.1 hc
      nlinarith
    have a2 : (n : ℝ) ≤ 2 * ((m * 2 ^ k : ℤ) : ℝ) := by
      by_contra hc
      have hc := not_le.1 hc
      nlinarith
    have a1 : m * 2 ^ k ≤ 2 * n := by exact_mod_cast a1
    have a2 : n ≤ 2 * (m * 2 ^ k) := by exact_mod_cast a2
    refine ⟨m * 2 ^ k - n, f, ?_, hf, by push_cast; ring⟩
    rw [abs_lt] at hn ⊢
    omega
  rcases le_total f e with hle | hle
  · exact key hn hf hle h2 h1
  · have := key (m := n) (n := m) hm he hle (by linarith) (by linarith)
    obtain ⟨p, q, h3, h4, h5⟩ := this
    exact ⟨-p, q, by rwa [abs_neg], h4, by push_cast; linarith⟩

/-- A value at most half the least positive one is rounded to 0. -/
theorem rnd_tiny {x : ℝ} (h : |x| ≤ 2 ^ (-150 : ℤ)) : rnd x = 0 := by
  by_cases hx : x = 0
  · rw [hx, rnd_zero]
  have hb : lastBit x = -149 := by
    refine max_eq_right ?_
    have h1 : |x| < (2 : ℝ) ^ (-126 : ℤ) :=
      lt_of_le_of_lt h (zpow_lt_zpow_right₀ (by norm_num) (by norm_num))
    have := (Int.lt_zpow_iff_log_lt (b := 2) (by norm_num) (abs_pos.2 hx) (x := -126)).1 (by exact_mod_cast h1)
    omega
  rw [abs_le] at h
  have e : (2 : ℝ) ^ (-150 : ℤ) = 2 ^ (-149 : ℤ) / 2 := by norm_num
  have hp := two_zpow_pos (-149)
  have key : ∀ y : ℝ, 0 ≤ y → y ≤ 1 / 2 → nearestInt y = 0 := by
    intro y h0 h1
    have hf : ⌊y⌋ = 0 := Int.floor_eq_zero_iff.2 ⟨h0, by linarith⟩
    have hr : Int.fract y = y := by rw [Int.fract, hf, Int.cast_zero, sub_zero]
    unfold nearestInt
    rw [hr, hf]
    split_ifs with h2 h3 h4
    · rfl
    · linarith
    · rfl
    · exact absurd Even.zero h4
  have hz : nearestInt (x / (2 : ℝ) ^ lastBit x) = 0 := by
    rw [hb]
    rw [e] at h
    generalize (2 : ℝ) ^ (-149 : ℤ) = p at h hp ⊢
    rcases le_total 0 x with h0 | h0
    · exact key _ (div_nonneg h0 hp.le) (by rw [div_le_iff₀ hp]; linarith [h.1, h.2])
    · have := key (-x / p) (div_nonneg (by linarith) hp.le) (by rw [div_le_iff₀ hp]; linarith [h.1, h.2])
      rw [neg_div, nearestInt_neg] at this
      omega
  rw [rnd, hz, Int.cast_zero, zero_mul]

/-! ### Rounding with overflow -/

theorem rnd_lt_of_abs_le {x : ℝ} (h : |x| ≤ 2 ^ 127) : |rnd x| < 2 ^ 128 := by
  have hg : Grid (2 ^ 127) := ⟨1, 127, by norm_num, by norm_num, by norm_num⟩
  rw [abs_rnd]
  refine lt_of_le_of_lt (rnd_le_of_le hg h) (by norm_num)

theorem round_fin {x : ℝ} (h : |x| ≤ 2 ^ 127) : round x = fin (rnd x) := by
  have := abs_lt.1 (rnd_lt_of_abs_le h)
  rw [round, if_neg (by linarith), if_neg (by linarith)]

theorem round_pinf {x : ℝ} (h : 2 ^ 128 ≤ x) : round x = pinf := by
  have hg : Grid (2 ^ 128) := ⟨1, 128, by norm_num, by norm_num, by norm_num⟩
  rw [round, if_pos (le_rnd_of_le hg h)]

theorem round_rep {x : ℝ} (h : Rep x) : round x = fin x := by
  have h1 := abs_lt.1 h.lt
  rw [round, rnd_of_grid h.grid, if_neg (by linarith), if_neg (by linarith)]

theorem round_valid (x : ℝ) : Valid (round x) := by
  unfold round
  split_ifs with h1 h2
  · trivial
  · trivial
  · exact grid_rep (rnd_grid x) (abs_lt.2 ⟨by linarith, by linarith⟩)

end AlMath.F32
