import Verif.Model.FloatMap
import Verif.Lemmas.FloatNear
import Verif.Props.C32

/-!
C93: pixels of occupancy maps in single precision.
-/

namespace AlMath.F32

open Spec

/-! ### Adding one half and truncating -/

/-- From 1/2 to 2^23 the sum with 1/2 has the right integer part. -/
theorem floor_half_mid {x : ℝ} (hg : Grid x) (h1 : 1 / 2 ≤ x) (h2 : x < 2 ^ 23) : ⌊rnd (x + 1 / 2)⌋ = ⌊x + 1 / 2⌋ := by
  have hx0 : 0 < x := by linarith
  have hlog1 : -1 ≤ Int.log 2 |x| := by
    rw [abs_of_pos hx0]
    exact (Int.zpow_le_iff_le_log (b := 2) (by norm_num) hx0).1 (by norm_num; linarith)
  have hlog2 : Int.log 2 |x| < 23 := by
    rw [abs_of_pos hx0]
    exact (Int.lt_zpow_iff_log_lt (b := 2) (by norm_num) hx0).1 (by exact_mod_cast h2)
  obtain ⟨n, hn⟩ := multiple_of_ge (x := x) hg (Or.inr (zpow_log_le hx0.ne'))
  have hlb : lastBit x = Int.log 2 |x| - 23 := max_eq_left (by omega)
  have hlt := abs_lt_lastBit x
  rw [abs_of_pos hx0] at hlt
  obtain ⟨k, hk⟩ : ∃ k : ℕ, lastBit x = -((k : ℤ) + 1) := ⟨(-(lastBit x) - 1).toNat, by omega⟩
  have hk1 : k ≤ 23 := by omega
  have hz : (2 : ℝ) ^ lastBit x = 1 / (2 * 2 ^ k) := by
    rw [hk, zpow_neg, zpow_add₀ (by norm_num), zpow_natCast]
    norm_num
    ring
  have hge := lastBit_ge x
  have hp := two_zpow_pos (lastBit x)
  generalize lastBit x = b at hn hlt hk hz hge hp
  have hn2 : (n : ℝ) < 2 ^ 24 := by
    rw [hn] at hlt
    exact lt_of_mul_lt_mul_right hlt hp.le
  have hn0 : (0 : ℝ) < n := by
    by_contra hc
    have hc := not_lt.1 hc
    nlinarith
  have hn0' : 0 < n := by exact_mod_cast hn0
  have hn2' : n < 2 ^ 24 := by exact_mod_cast hn2
  have hs : x + 1 / 2 = ((n + 2 ^ k : ℤ) : ℝ) * (2 : ℝ) ^ b := by
    rw [hn, hz]
    push_cast
    field_simp
  rcases lt_trichotomy (n + 2 ^ k) (2 ^ 24) with hc | hc | hc
  · rw [rnd_of_grid ⟨n + 2 ^ k, b, by rw [abs_of_pos (by positivity)]; exact hc, hge, hs⟩]
  · rw [rnd_of_grid ⟨1, b + 24, by norm_num, by omega, ?_⟩]
    rw [hs, hc, zpow_add₀ (by norm_num)]
    norm_num
    ring
  · -- the sum is in the next binade
    have hk0 : 1 ≤ k := by
      rcases Nat.eq_zero_or_pos k with rfl | h
      · rw [pow_zero] at hc
        omega
      · exact h
    obtain ⟨j, hj⟩ : ∃ j, 23 = k + j := ⟨23 - k, by omega⟩
    have hB : (2 : ℝ) ^ 24 * 2 ^ b = 2 ^ j := by
      have e : (2 : ℝ) ^ 24 = 2 * 2 ^ k * 2 ^ j := by
        rw [mul_assoc, ← pow_add, ← hj]
        norm_num
      rw [hz, e]
      field_simp
    have hu : x + 1 / 2 ≤ 2 ^ j + 1 / 2 := by rw [← hB]; linarith
    have hl : 2 ^ j ≤ x + 1 / 2 := by
      rw [hs, ← hB]
      refine mul_le_mul_of_nonneg_right ?_ hp.le
      exact_mod_cast hc.le
    have g1 : Grid (2 ^ j) := ⟨1, j, by norm_num, by omega, by rw [zpow_natCast]; norm_num⟩
    have g2 : Grid (2 ^ j + 1 / 2) := by
      refine ⟨2 ^ (j + 1) + 1, -1, ?_, by norm_num, ?_⟩
      · rw [abs_of_pos (by positivity)]
        have : (2 : ℤ) ^ (j + 1) ≤ 2 ^ 23 := pow_le_pow_right₀ (by norm_num) (by omega)
        refine lt_of_le_of_lt (add_le_add_left this 1) (by norm_num)
      · push_cast
        rw [pow_succ, zpow_neg, zpow_one]
        ring
    have r1 := le_rnd_of_le g1 hl
    have r2 := rnd_le_of_le g2 hu
    have key : ∀ y : ℝ, 2 ^ j ≤ y → y ≤ 2 ^ j + 1 / 2 → ⌊y⌋ = 2 ^ j := by
      intro y a1 a2
      rw [Int.floor_eq_iff]
      push_cast
      exact ⟨a1, by linarith⟩
    rw [key _ r1 r2, key _ hl hu]

/-- Below 1/2, but for the last value, the sum with 1/2 has integer part 0. -/
theorem floor_half_small {x : ℝ} (hg : Grid x) (h0 : 0 ≤ x) (h1 : x < 1 / 2) (h2 : x ≠ 1 / 2 - 2 ^ (-25 : ℤ)) :
    ⌊rnd (x + 1 / 2)⌋ = ⌊x + 1 / 2⌋ := by
  have hle : x ≤ 1 / 2 - 2 * 2 ^ (-25 : ℤ) := by
    rcases lt_or_ge x (1 / 4) with h | h
    · norm_num
      linarith
    · obtain ⟨m, e, hm, he, hx⟩ := hg
      have hm' : |(m : ℝ)| < 2 ^ 24 := by exact_mod_cast hm
      have he2 : -25 ≤ e := by
        by_contra hc
        have hz : (2 : ℝ) ^ e ≤ 2 ^ (-26 : ℤ) := zpow_le_zpow_right₀ (by norm_num) (by omega)
        have hp := two_zpow_pos e
        have h3 : x ≤ |(m : ℝ)| * 2 ^ e := by
          rw [hx]
          exact mul_le_mul_of_nonneg_right (le_abs_self _) hp.le
        norm_num at hz hm'
        nlinarith
      obtain ⟨k, rfl⟩ : ∃ k : ℕ, e = -25 + k := ⟨(e + 25).toNat, by omega⟩
      rw [zpow_add₀ (by norm_num), zpow_natCast] at hx
      have hx' : x = ((m * 2 ^ k : ℤ) : ℝ) * 2 ^ (-25 : ℤ) := by
        rw [hx]
        push_cast
        ring
      generalize m * 2 ^ k = n at hx'
      have n1 : n < 2 ^ 24 := by
        have : (n : ℝ) < 2 ^ 24 := by
          rw [hx'] at h1
          norm_num at h1 ⊢
          linarith
        exact_mod_cast this
      have n2 : n ≠ 2 ^ 24 - 1 := by
        rintro rfl
        refine h2 ?_
        rw [hx']
        push_cast
        norm_num
      have n3 : (n : ℝ) ≤ 2 ^ 24 - 2 := by
        have : n ≤ 2 ^ 24 - 2 := by omega
        exact_mod_cast this
      rw [hx']
      norm_num at n3 ⊢
      linarith
  have g : Grid (1 - 2 ^ (-24 : ℤ)) := ⟨2 ^ 24 - 1, -24, by norm_num, by norm_num, by norm_num⟩
  have g0 : Grid 0 := Rep.zero.grid
  have r1 := le_rnd_of_le g0 (x := x + 1 / 2) (by linarith)
  have r2 := rnd_le_of_le g (x := x + 1 / 2) (by norm_num at hle ⊢; linarith)
  have r3 : (0 : ℝ) < 2 ^ (-24 : ℤ) := two_zpow_pos _
  rw [Int.floor_eq_zero_iff.2 ⟨r1, by linarith⟩, Int.floor_eq_zero_iff.2 ⟨by linarith, by linarith⟩]

/-- From 2^24 on the sum with 1/2 is rounded back to the summand. -/
theorem rnd_half_large {x : ℝ} (hg : Grid x) (h : 2 ^ 24 ≤ x) : rnd (x + 1 / 2) = x := by
  have even : ∀ y : ℝ, Grid y → 2 ^ 24 ≤ y → ∃ n : ℤ, y = 2 * n := by
    rintro y ⟨m, e, hm, he, rfl⟩ hy
    have he1 : 1 ≤ e := by
      by_contra hc
      have hz : (2 : ℝ) ^ e ≤ 1 := zpow_le_one_of_nonpos₀ (by norm_num) (by omega)
      have hp := two_zpow_pos e
      have hm' : |(m : ℝ)| < 2 ^ 24 := by exact_mod_cast hm
      have := le_abs_self (m : ℝ)
      norm_num at hm' hy
      nlinarith
    obtain ⟨k, rfl⟩ : ∃ k : ℕ, e = k + 1 := ⟨(e - 1).toNat, by omega⟩
    refine ⟨m * 2 ^ k, ?_⟩
    rw [zpow_add₀ (by norm_num), zpow_natCast]
    push_cast
    ring
  have r1 := le_rnd_of_le hg (x := x + 1 / 2) (by linarith)
  have r2 := rnd_nearest (x + 1 / 2) hg
  rw [abs_of_nonpos (by linarith : x - (x + 1 / 2) ≤ 0)] at r2
  have r3 := (abs_le.1 r2).2
  obtain ⟨a, ha⟩ := even _ hg h
  obtain ⟨b, hb⟩ := even _ (rnd_grid (x + 1 / 2)) (h.trans r1)
  rw [hb, ha] at r3 r1
  have h1 : (a : ℝ) ≤ b := by linarith
  have h2 : (b : ℝ) < a + 1 := by linarith
  have h1' : a ≤ b := by exact_mod_cast h1
  have h2' : b < a + 1 := by exact_mod_cast h2
  have : a = b := by omega
  rw [hb, ha, this]

/-- From 2^23 to 2^24 the sum with 1/2 is rounded to an even number. -/
theorem rnd_half_int {n : ℤ} (h1 : 2 ^ 23 ≤ n) (h2 : n < 2 ^ 24) :
    rnd ((n : ℝ) + 1 / 2) = if Even n then (n : ℝ) else n + 1 := by
  have h1' : (2 : ℝ) ^ 23 ≤ n := by exact_mod_cast h1
  have h2' : (n : ℝ) ≤ 2 ^ 24 - 1 := by
    have : n ≤ 2 ^ 24 - 1 := by omega
    exact_mod_cast this
  have hpos : (0 : ℝ) < n + 1 / 2 := by linarith [show (0 : ℝ) ≤ 2 ^ 23 by norm_num]
  have hlog : Int.log 2 |(n : ℝ) + 1 / 2| = 23 := by
    rw [abs_of_pos hpos]
    have a1 : 23 ≤ Int.log 2 ((n : ℝ) + 1 / 2) :=
      (Int.zpow_le_iff_le_log (b := 2) (by norm_num) hpos).1 (by norm_num at h1' ⊢; linarith)
    have a2 : Int.log 2 ((n : ℝ) + 1 / 2) < 24 :=
      (Int.lt_zpow_iff_log_lt (b := 2) (by norm_num) hpos).1 (by norm_num at h2' ⊢; linarith)
    omega
  have hb : lastBit ((n : ℝ) + 1 / 2) = 0 := by
    rw [lastBit, hlog]
    norm_num
  have hf : ⌊(n : ℝ) + 1 / 2⌋ = n := by
    rw [Int.floor_eq_iff]
    constructor <;> linarith
  have hr : Int.fract ((n : ℝ) + 1 / 2) = 1 / 2 := by
    rw [Int.fract, hf]
    ring
  rw [rnd, hb, zpow_zero, div_one, mul_one, nearestInt, hr, hf]
  norm_num

theorem rnd_half_lt {x : ℝ} (h : Rep x) (h0 : 0 ≤ x) : rnd (x + 1 / 2) < 2 ^ 128 := by
  rcases le_or_gt (2 ^ 24) x with h1 | h1
  · rw [rnd_half_large h.grid h1]
    exact (abs_lt.1 h.lt).2
  · refine lt_of_abs_lt (rnd_lt_of_abs_le ?_)
    rw [abs_of_nonneg (by linarith)]
    refine le_trans (by linarith : x + 1 / 2 ≤ 2 ^ 25) (by norm_num)

theorem rnd_half_nonneg {x : ℝ} (h0 : 0 ≤ x) : 0 ≤ rnd (x + 1 / 2) := le_rnd_of_le Rep.zero.grid (by linarith)

/-- What `roundToInt` computes. -/
theorem roundToInt_nonneg {x : ℝ} (h : Rep x) (h0 : 0 ≤ x) : roundToInt (fin x) = castInt (rnd (x + 1 / 2)) := by
  have h1 := rnd_half_lt h h0
  have h2 := rnd_half_nonneg h0
  have h3 : (0 : ℝ) < 2 ^ 128 := by norm_num
  have e : add (fin x) (fin (1 / 2)) = fin (rnd (x + 1 / 2)) := by
    rw [add, round]
    generalize (2 : ℝ) ^ 128 = B at *
    rw [if_neg (by linarith), if_neg (by linarith)]
  rw [roundToInt, if_pos, e, toInt]
  rcases h0.lt_or_eq with h4 | h4
  · exact Or.inl h4
  · exact Or.inr h4

theorem roundToInt_negative {x : ℝ} (h : Rep x) (h0 : x < 0) :
    roundToInt (fin x) = castInt (-rnd (-x + 1 / 2)) := by
  have h1 := rnd_half_lt h.neg (by linarith)
  have h2 := rnd_half_nonneg (x := -x) (by linarith)
  have h3 : (0 : ℝ) < 2 ^ 128 := by norm_num
  have e : sub (fin x) (fin (1 / 2)) = fin (-rnd (-x + 1 / 2)) := by
    rw [← rnd_neg, show -(-x + 1 / 2) = x + -(1 / 2) by ring, sub, neg, add, round]
    rw [← neg_neg (x + -(1 / 2)), rnd_neg, show -(x + -(1 / 2)) = -x + 1 / 2 by ring]
    generalize (2 : ℝ) ^ 128 = B at *
    rw [if_neg (by linarith), if_neg (by linarith)]
  rw [roundToInt, if_neg, e, toInt]
  rintro (h4 | h4)
  · exact absurd h4 (by simp only [lt]; linarith)
  · exact absurd h4 (by simp only [eq]; linarith)

theorem truncZ_nonneg {y : ℝ} (h : 0 ≤ y) : truncZ y = ⌊y⌋ := by rw [truncZ, if_pos h]

theorem truncZ_neg' {y : ℝ} (h : 0 ≤ y) : truncZ (-y) = -⌊y⌋ := by
  rcases h.eq_or_lt with rfl | h
  · simp [truncZ]
  · rw [truncZ, if_neg (by linarith), Int.ceil_neg]

theorem roundToInt_eq {x : ℝ} (h : Rep x) (H : ⌊rnd (|x| + 1 / 2)⌋ = ⌊|x| + 1 / 2⌋) :
    roundToInt (fin x) = AlMath.roundToInt x := by
  have e : (0.5 : ℝ) = 1 / 2 := by norm_num
  rcases le_or_gt 0 x with h0 | h0
  · rw [abs_of_nonneg h0] at H
    rw [roundToInt_nonneg h h0, AlMath.roundToInt, if_pos h0, castInt, castInt, e,
      truncZ_nonneg (rnd_half_nonneg h0), truncZ_nonneg (by linarith), H]
  · rw [abs_of_neg h0] at H
    rw [roundToInt_negative h h0, AlMath.roundToInt, if_neg (not_le.2 h0), castInt, castInt, e,
      truncZ_neg' (rnd_half_nonneg (by linarith)), show x - 1 / 2 = -(-x + 1 / 2) by ring,
      truncZ_neg' (by linarith), H]

/-- `roundToInt` rounds to nearest (halves away from zero) and is undefined exactly if the rounded value is not an `int`,
for every float but the one before 1/2, the odd numbers from 2^23 to 2^24, and the opposites of these. -/
theorem C93_round {x : ℝ} (h : Rep x) (h1 : |x| ≠ 1 / 2 - 2 ^ (-25 : ℤ))
    (h2 : ∀ n : ℤ, Odd n → x = n → ¬ (2 ^ 23 ≤ |n| ∧ |n| < 2 ^ 24)) :
    (∀ n, roundToInt (fin x) = .ok n ↔ RoundsTo x n ∧ FitsInt n) ∧
    (roundToInt (fin x) = .ub ↔ ∀ n, RoundsTo x n → ¬ FitsInt n) := by
  suffices H : ⌊rnd (|x| + 1 / 2)⌋ = ⌊|x| + 1 / 2⌋ by
    rw [roundToInt_eq h H]
    exact C32_round x
  have hg := h.abs.grid
  rcases lt_or_ge |x| (1 / 2) with a | a
  · exact floor_half_small hg (abs_nonneg x) a h1
  rcases lt_or_ge |x| (2 ^ 23) with b | b
  · exact floor_half_mid hg a b
  obtain ⟨n, hn⟩ : ∃ n : ℤ, |x| = n := by
    obtain ⟨m, e, hm, he, hx⟩ := hg
    have he0 : 0 ≤ e := by
      by_contra hc
      have hz : (2 : ℝ) ^ e ≤ 2 ^ (-1 : ℤ) := zpow_le_zpow_right₀ (by norm_num) (by omega)
      have hp := two_zpow_pos e
      have hm' : |(m : ℝ)| < 2 ^ 24 := by exact_mod_cast hm
      have := le_abs_self (m : ℝ)
      rw [hx] at b
      rw [show (2 : ℝ) ^ (-1 : ℤ) = 1 / 2 by norm_num] at hz
      norm_num at hm' b
      nlinarith
    obtain ⟨k, rfl⟩ : ∃ k : ℕ, e = k := ⟨e.toNat, by omega⟩
    exact ⟨m * 2 ^ k, by rw [hx, zpow_natCast]; push_cast; rfl⟩
  have hfl : ⌊|x| + 1 / 2⌋ = n := by
    rw [hn, Int.floor_eq_iff]
    constructor <;> linarith
  rw [hfl]
  rcases lt_or_ge |x| (2 ^ 24) with c | c
  · rw [hn] at b c ⊢
    have b' : 2 ^ 23 ≤ n := by exact_mod_cast b
    have c' : n < 2 ^ 24 := by exact_mod_cast c
    have hev : Even n := by
      by_contra hc
      rw [Int.not_even_iff_odd] at hc
      have hna : |n| = n := abs_of_pos (by omega)
      rcases abs_choice x with d | d
      · exact h2 n hc (by rw [← hn, d]) (by rw [hna]; exact ⟨b', c'⟩)
      · exact h2 (-n) hc.neg (by push_cast; rw [← hn, d, neg_neg]) (by rw [abs_neg, hna]; exact ⟨b', c'⟩)
    rw [rnd_half_int b' c', if_pos hev, Int.floor_intCast]
  · rw [rnd_half_large hg c, hn, Int.floor_intCast]

/-- The float before 1/2 is rounded to 1 and its opposite to -1 although 0 is nearer; an odd number from 2^23 to 2^24 is
rounded to the next number, and its opposite likewise. -/
theorem C93_round_wrong :
    roundToInt (fin (1 / 2 - 2 ^ (-25 : ℤ))) = .ok 1 ∧ roundToInt (fin (-(1 / 2 - 2 ^ (-25 : ℤ)))) = .ok (-1) ∧
    ∀ n : ℤ, Odd n → 2 ^ 23 ≤ n → n < 2 ^ 24 →
      roundToInt (fin n) = .ok (n + 1) ∧ roundToInt (fin (-n)) = .ok (-(n + 1)) := by
  have hr : Rep (1 / 2 - 2 ^ (-25 : ℤ)) := ⟨2 ^ 24 - 1, -25, by norm_num, by norm_num, by norm_num, by norm_num⟩
  have h0 : (0 : ℝ) < 1 / 2 - 2 ^ (-25 : ℤ) := by norm_num
  have h1 : rnd (1 / 2 - 2 ^ (-25 : ℤ) + 1 / 2) = 1 := by
    have hpos : (0 : ℝ) < 1 / 2 - 2 ^ (-25 : ℤ) + 1 / 2 := by linarith
    have hlog : Int.log 2 |(1 / 2 - 2 ^ (-25 : ℤ) + 1 / 2 : ℝ)| = -1 := by
      rw [abs_of_pos hpos]
      have a1 : -1 ≤ Int.log 2 (1 / 2 - 2 ^ (-25 : ℤ) + 1 / 2 : ℝ) :=
        (Int.zpow_le_iff_le_log (b := 2) (by norm_num) hpos).1 (by norm_num)
      have a2 : Int.log 2 (1 / 2 - 2 ^ (-25 : ℤ) + 1 / 2 : ℝ) < 0 :=
        (Int.lt_zpow_iff_log_lt (b := 2) (by norm_num) hpos).1 (by norm_num)
      omega
    have hb : lastBit (1 / 2 - 2 ^ (-25 : ℤ) + 1 / 2 : ℝ) = -24 := by
      rw [lastBit, hlog]
      norm_num
    have e : (1 / 2 - 2 ^ (-25 : ℤ) + 1 / 2 : ℝ) / 2 ^ (-24 : ℤ) = ((2 ^ 24 - 1 : ℤ) : ℝ) + 1 / 2 := by
      push_cast
      norm_num
    have hf : ⌊((2 ^ 24 - 1 : ℤ) : ℝ) + 1 / 2⌋ = 2 ^ 24 - 1 := by
      rw [Int.floor_eq_iff]
      constructor <;> linarith
    have hfr : Int.fract (((2 ^ 24 - 1 : ℤ) : ℝ) + 1 / 2) = 1 / 2 := by
      rw [Int.fract, hf]
      ring
    have hodd : ¬ Even (2 ^ 24 - 1 : ℤ) := by decide
    rw [rnd, hb, e, nearestInt, hfr, hf, if_neg (by norm_num), if_neg (by norm_num), if_neg hodd]
    norm_num
  have i1 : IsInt 1 := by constructor <;> norm_num
  have i2 : IsInt (-1) := by constructor <;> norm_num
  refine ⟨?_, ?_, ?_⟩
  · rw [roundToInt_nonneg hr h0.le, h1, castInt, truncZ_nonneg (by norm_num), Int.floor_one, if_pos i1]
  · rw [roundToInt_negative hr.neg (by linarith), neg_neg, h1, castInt, truncZ_neg' (by norm_num), Int.floor_one,
      if_pos i2]
  · intro n ho a1 a2
    have hn : Rep (n : ℝ) := ⟨n, 0, by rw [abs_of_pos (by omega)]; exact a2, by norm_num, by norm_num, by norm_num⟩
    have hn0 : (0 : ℝ) < n := by
      have : 0 < n := by omega
      exact_mod_cast this
    have e := rnd_half_int a1 a2
    rw [if_neg (Int.not_even_iff_odd.2 ho)] at e
    have e' : (n : ℝ) + 1 = ((n + 1 : ℤ) : ℝ) := by push_cast; rfl
    have p1 : (0 : ℝ) ≤ ((n + 1 : ℤ) : ℝ) := by rw [← e']; linarith
    constructor
    · rw [roundToInt_nonneg hn hn0.le, e, castInt, e', truncZ_nonneg p1, Int.floor_intCast, if_pos]
      constructor <;> omega
    · rw [roundToInt_negative hn.neg (by linarith), neg_neg, e, castInt, e', truncZ_neg' p1, Int.floor_intCast, if_pos]
      constructor <;> omega

/-- The conversion of NaN and of infinities is undefined. -/
theorem C93_not_finite : roundToInt nan = .ub ∧ roundToInt pinf = .ub ∧ roundToInt ninf = .ub := by
  refine ⟨?_, ?_, ?_⟩ <;> simp [roundToInt, le, lt, eq, add, sub, neg, toInt]

/-! ### Pixels and positions -/

theorem roundToInt_near {r : ℝ} {q : ℤ} (hr : Rep r) (h : |r - q| ≤ 2 / 5) (hq : |(q : ℝ)| ≤ 2 ^ 22) :
    roundToInt (fin r) = .ok q := by
  have hq' : |q| ≤ 2 ^ 22 := by exact_mod_cast hq
  obtain ⟨q1, q2⟩ := abs_le.1 hq'
  obtain ⟨a1, a2⟩ := abs_le.1 h
  have hz : (0 : ℝ) < 2 ^ (-25 : ℤ) ∧ (2 : ℝ) ^ (-25 : ℤ) < 1 / 100 := by norm_num
  generalize hη : (2 : ℝ) ^ (-25 : ℤ) = η at hz
  refine ((C93_round hr ?_ ?_).1 q).2 ⟨⟨by linarith, fun e => ?_⟩, ?_, ?_⟩
  · rw [hη]
    intro e
    rcases lt_trichotomy q 0 with c | c | c
    · have : (q : ℝ) ≤ -1 := by exact_mod_cast (by omega : q ≤ -1)
      rw [abs_of_neg (by linarith)] at e
      linarith
    · subst c
      rw [Int.cast_zero, sub_zero, e] at h
      linarith
    · have : (1 : ℝ) ≤ q := by exact_mod_cast (by omega : 1 ≤ q)
      rw [abs_of_pos (by linarith)] at e
      linarith
  · rintro n - e ⟨b1, -⟩
    have b1' : (2 : ℝ) ^ 23 ≤ |r| := by rw [e]; exact_mod_cast b1
    have := le_of_err h
    norm_num at b1' hq
    linarith
  · rw [e] at h
    norm_num at h
  · omega
  · omega

theorem mul_neg_left (a b : ℝ) : F32.mul (neg (fin a)) (fin b) = neg (F32.mul (fin a) (fin b)) := by
  have h3 : (0 : ℝ) < 2 ^ 128 := by norm_num
  rw [neg, F32.mul, F32.mul, round, round, neg_mul, rnd_neg]
  generalize (2 : ℝ) ^ 128 = B at *
  rcases le_or_gt B (rnd (a * b)) with h | h
  · rw [if_neg (by linarith), if_pos (by linarith), if_pos h, neg]
  · rcases le_or_gt (rnd (a * b)) (-B) with k | k
    · rw [if_pos (by linarith), if_neg (by linarith), if_pos k, neg]
    · rw [if_neg (by linarith), if_neg (by linarith), if_neg (by linarith), if_neg (by linarith), neg]

theorem ofInt_fin {q : ℤ} (h : |q| < 2 ^ 24) : ofInt q = fin q ∧ Rep (q : ℝ) := by
  have : Rep (q : ℝ) := ⟨q, 0, h, by norm_num, by norm_num, by norm_num⟩
  exact ⟨round_rep this, this⟩

theorem eta_lt : (0 : ℝ) < 2 ^ (-150 : ℤ) ∧ ∀ m : ℝ, 2 ^ (-100 : ℤ) ≤ m → (2 : ℝ) ^ (-150 : ℤ) ≤ 1 / 1125899906842624 * m := by
  refine ⟨two_zpow_pos _, fun m h => ?_⟩
  have e : (2 : ℝ) ^ (-150 : ℤ) = 1 / 1125899906842624 * 2 ^ (-100 : ℤ) := by norm_num
  rw [e]
  exact mul_le_mul_of_nonneg_left h (by norm_num)

/-- The coordinate of the position of a pixel. -/
theorem position_axis {m o : ℝ} {q : ℤ} (hm1 : 2 ^ (-100 : ℤ) ≤ m) (hm2 : m ≤ 2 ^ 100)
    (ho2 : |o| ≤ 2 ^ 122) (hq : |q| < 2 ^ 24) :
    ∃ p, add (F32.mul (ofInt q) (fin m)) (fin o) = fin p ∧ Rep p ∧
      |p - (q * m + o)| ≤ 1 / 16777216 * (101 / 100 * (|(q : ℝ)| * m) + |q * m + o|) + 3 / 1125899906842624 * m := by
  have hm0 : 0 < m := lt_of_lt_of_le (two_zpow_pos _) hm1
  obtain ⟨η0, hη⟩ := eta_lt
  have hη := hη m hm1
  have hq' : |(q : ℝ)| ≤ 2 ^ 24 := by exact_mod_cast hq.le
  have a0 : |(q : ℝ) * m| ≤ 2 ^ 124 := by
    rw [abs_mul, abs_of_pos hm0]
    calc |(q : ℝ)| * m ≤ 2 ^ 24 * 2 ^ 100 := mul_le_mul hq' hm2 hm0.le (by norm_num)
      _ = 2 ^ 124 := by norm_num
  have a1 := rnd_mul (q : ℝ) m
  have e1 : F32.mul (ofInt q) (fin m) = fin (rnd (q * m)) := by
    rw [(ofInt_fin hq).1, mul_fin (a0.trans (by norm_num))]
  rw [two_neg24, abs_of_pos hm0] at a1
  have a2 := le_of_err a1
  have a3 : |rnd ((q : ℝ) * m) + o| ≤ 2 ^ 127 := by
    have := abs_add_le (rnd ((q : ℝ) * m)) o
    have hn := abs_nonneg ((q : ℝ) * m)
    rw [abs_mul, abs_of_pos hm0] at a0 a2 hn
    refine this.trans ?_
    have h1 : |rnd ((q : ℝ) * m)| ≤ 2 ^ 125 := by
      have : (2 : ℝ) ^ 125 = 2 ^ 124 + 2 ^ 124 := by norm_num
      have h4 : (2 : ℝ) ^ (-150 : ℤ) ≤ 1 := eta_le
      have h5 : (8 : ℝ) ≤ 2 ^ 124 := by norm_num
      rw [this]
      generalize (2 : ℝ) ^ 124 = B at *
      linarith
    calc |rnd ((q : ℝ) * m)| + |o| ≤ 2 ^ 125 + 2 ^ 122 := add_le_add h1 ho2
      _ ≤ 2 ^ 127 := by norm_num
  refine ⟨rnd (rnd (q * m) + o), by rw [e1, add_fin a3], rnd_rep a3, ?_⟩
  have b1 := rnd_gen (rnd ((q : ℝ) * m) + o)
  rw [two_neg24] at b1
  have b2 : |rnd ((q : ℝ) * m) + o| ≤ |q * m + o| + |rnd ((q : ℝ) * m) - q * m| := by
    have := abs_add_le ((q : ℝ) * m + o) (rnd ((q : ℝ) * m) - q * m)
    rwa [show (q : ℝ) * m + o + (rnd ((q : ℝ) * m) - q * m) = rnd ((q : ℝ) * m) + o by ring] at this
  have b3 : |rnd (rnd ((q : ℝ) * m) + o) - (q * m + o)| ≤
      |rnd (rnd ((q : ℝ) * m) + o) - (rnd ((q : ℝ) * m) + o)| + |rnd ((q : ℝ) * m) - q * m| := by
    have := abs_add_le (rnd (rnd ((q : ℝ) * m) + o) - (rnd ((q : ℝ) * m) + o)) (rnd ((q : ℝ) * m) - q * m)
    rwa [show rnd (rnd ((q : ℝ) * m) + o) - (rnd ((q : ℝ) * m) + o) + (rnd ((q : ℝ) * m) - q * m) =
      rnd (rnd ((q : ℝ) * m) + o) - (q * m + o) by ring] at this
  have b4 : 0 ≤ |(q : ℝ)| * m := mul_nonneg (abs_nonneg _) hm0.le
  generalize (2 : ℝ) ^ (-150 : ℤ) = η at *
  generalize |(q : ℝ)| * m = Q at *
  generalize |q * m + o| = W at *
  linarith

/-- The coordinate, in pixels, of a position. -/
theorem pixel_axis {m p o : ℝ} (hm1 : 2 ^ (-100 : ℤ) ≤ m) (hm2 : m ≤ 2 ^ 100) (h : |p - o| ≤ 2 ^ 22 * m) :
    ∃ s k r, sub (fin p) (fin o) = fin s ∧ div (fin 1) (fin m) = fin k ∧ F32.mul (fin s) (fin k) = fin r ∧ Rep r ∧
      |r - (p - o) / m| ≤ 1 / 16777216 * (301 / 100 * |(p - o) / m|) + 1 / 100000000000000 := by
  have hm0 : 0 < m := lt_of_lt_of_le (two_zpow_pos _) hm1
  obtain ⟨η0, hη⟩ := eta_lt
  have hη := hη m hm1
  have hη2 : (2 : ℝ) ^ (-150 : ℤ) * m ≤ 1 / 1125899906842624 := by
    have e : (1 : ℝ) / 1125899906842624 = 2 ^ (-150 : ℤ) * 2 ^ 100 := by norm_num
    rw [e]
    exact mul_le_mul_of_nonneg_left hm2 η0.le
  have a0 : |p - o| ≤ 2 ^ 122 := by
    refine h.trans ?_
    have : (2 : ℝ) ^ 122 = 2 ^ 22 * 2 ^ 100 := by norm_num
    rw [this]
    exact mul_le_mul_of_nonneg_left hm2 (by norm_num)
  have e1 : sub (fin p) (fin o) = fin (rnd (p - o)) := sub_fin (a0.trans (by norm_num))
  have k0 : |1 / m| ≤ 2 ^ 100 := by
    rw [abs_of_pos (by positivity), div_le_iff₀ hm0]
    have e : (1 : ℝ) = 2 ^ 100 * 2 ^ (-100 : ℤ) := by norm_num
    calc (1 : ℝ) = 2 ^ 100 * 2 ^ (-100 : ℤ) := e
      _ ≤ 2 ^ 100 * m := mul_le_mul_of_nonneg_left hm1 (by norm_num)
  have e2 : div (fin 1) (fin m) = fin (rnd (1 / m)) := by
    rw [div, if_neg hm0.ne', round_fin (k0.trans (by norm_num))]
  have b1 := rnd_gen (p - o)
  have b2 := rnd_gen (1 / m)
  rw [two_neg24] at b1 b2
  -- in units of pixels
  have c1 : |rnd (p - o) / m - (p - o) / m| ≤ 1 / 16777216 * |(p - o) / m| + 1 / 1125899906842624 := by
    rw [← sub_div, abs_div, abs_div, abs_of_pos hm0, div_le_iff₀ hm0]
    have : (1 / 16777216 * (|p - o| / m) + 1 / 1125899906842624) * m =
        1 / 16777216 * |p - o| + 1 / 1125899906842624 * m := by
      field_simp
    rw [this]
    linarith
  have c2 : |rnd (1 / m) * m - 1| ≤ 1 / 16777216 + 1 / 1125899906842624 := by
    have e : rnd (1 / m) * m - 1 = (rnd (1 / m) - 1 / m) * m := by field_simp
    rw [e, abs_mul, abs_of_pos hm0]
    have h1 : |rnd (1 / m) - 1 / m| * m ≤ (1 / 16777216 * |1 / m| + 2 ^ (-150 : ℤ)) * m :=
      mul_le_mul_of_nonneg_right b2 hm0.le
    have e3 : (1 / 16777216 * |1 / m| + 2 ^ (-150 : ℤ)) * m = 1 / 16777216 + 2 ^ (-150 : ℤ) * m := by
      rw [abs_of_pos (by positivity)]
      field_simp
    rw [e3] at h1
    linarith
  have e3 : rnd (p - o) * rnd (1 / m) = rnd (p - o) / m * (rnd (1 / m) * m) := by field_simp
  have hX : |(p - o) / m| ≤ 2 ^ 22 := by
    rw [abs_div, abs_of_pos hm0, div_le_iff₀ hm0]
    exact h
  have e4 : F32.mul (fin (rnd (p - o))) (fin (rnd (1 / m))) = round (rnd (p - o) / m * (rnd (1 / m) * m)) := by
    rw [F32.mul, e3]
  generalize rnd (p - o) / m = D at *
  generalize rnd (1 / m) * m = κ at *
  generalize (p - o) / m = X at *
  have d1 := le_of_err c1
  have d2 : |D * κ - X| ≤ (|X| + (1 / 16777216 * |X| + 1 / 1125899906842624)) * (1 / 16777216 + 1 / 1125899906842624) +
      (1 / 16777216 * |X| + 1 / 1125899906842624) := by
    have e5 : D * κ - X = D * (κ - 1) + (D - X) := by ring
    rw [e5]
    refine (abs_add_le _ _).trans (add_le_add ?_ c1)
    rw [abs_mul]
    exact mul_le_mul d1 c2 (abs_nonneg _) ((abs_nonneg _).trans d1)
  have d3 := le_of_err d2
  have d4 : |D * κ| ≤ 2 ^ 127 := by
    refine d3.trans ?_
    refine le_trans (b := 2 ^ 24) ?_ (by norm_num)
    norm_num at hX ⊢
    linarith
  refine ⟨_, _, rnd (D * κ), e1, e2, by rw [e4, round_fin d4], rnd_rep d4, ?_⟩
  have d5 := rnd_gen (D * κ)
  rw [two_neg24] at d5
  have d6 : (2 : ℝ) ^ (-150 : ℤ) ≤ 1 / 1125899906842624 := by
    have : (2 : ℝ) ^ (-150 : ℤ) ≤ 2 ^ (-50 : ℤ) := zpow_le_zpow_right₀ (by norm_num) (by norm_num)
    refine this.trans (le_of_eq (by norm_num))
  have d7 := abs_add_le (rnd (D * κ) - D * κ) (D * κ - X)
  rw [sub_add_sub_cancel] at d7
  generalize (2 : ℝ) ^ (-150 : ℤ) = η at *
  have d8 := abs_nonneg X
  clear c2 e3 e4 k0 a0 hm1 hm2 e1 e2 b1 b2 h hη hη2 d4 hX
  linarith

theorem round_trip_axis {m o : ℝ} {q : ℤ} (hm1 : 2 ^ (-100 : ℤ) ≤ m) (hm2 : m ≤ 2 ^ 100)
    (h : 5 * |(q : ℝ)| + |o| / m ≤ 2 ^ 22) :
    ∃ p s k r, add (F32.mul (ofInt q) (fin m)) (fin o) = fin p ∧ sub (fin p) (fin o) = fin s ∧
      div (fin 1) (fin m) = fin k ∧ F32.mul (fin s) (fin k) = fin r ∧ Rep r ∧ |r - q| ≤ 2 / 5 := by
  have hm0 : 0 < m := lt_of_lt_of_le (two_zpow_pos _) hm1
  have h0 := abs_nonneg (q : ℝ)
  have h1 : 0 ≤ |o| / m := div_nonneg (abs_nonneg _) hm0.le
  have ho : |o| ≤ 2 ^ 122 := by
    have h2 : |o| / m ≤ 2 ^ 22 := by linarith
    rw [div_le_iff₀ hm0] at h2
    have : (2 : ℝ) ^ 122 = 2 ^ 22 * 2 ^ 100 := by norm_num
    rw [this]
    exact h2.trans (mul_le_mul_of_nonneg_left hm2 (by norm_num))
  have hq : |q| < 2 ^ 24 := by
    have : |(q : ℝ)| < 2 ^ 24 := by norm_num at h ⊢; linarith
    exact_mod_cast this
  obtain ⟨p, e1, -, b1⟩ := position_axis hm1 hm2 ho hq
  have b2 : |(p - o) / m - q| ≤ 1 / 16777216 * (201 / 100 * |(q : ℝ)| + |o| / m) + 3 / 1125899906842624 := by
    have e : (p - o) / m - q = (p - (q * m + o)) / m := by field_simp; ring
    rw [e, abs_div, abs_of_pos hm0, div_le_iff₀ hm0]
    refine b1.trans ?_
    have h3 := abs_add_le ((q : ℝ) * m) o
    rw [abs_mul, abs_of_pos hm0] at h3
    have e2 : (1 / 16777216 * (201 / 100 * |(q : ℝ)| + |o| / m) + 3 / 1125899906842624) * m =
        1 / 16777216 * (201 / 100 * (|(q : ℝ)| * m) + |o|) + 3 / 1125899906842624 * m := by
      field_simp
    rw [e2]
    generalize |(q : ℝ)| * m = Q at *
    linarith
  have b3 := le_of_err b2
  have b4 : |p - o| ≤ 2 ^ 22 * m := by
    have : |(p - o) / m| ≤ 2 ^ 22 := by
      norm_num at h ⊢
      linarith
    rwa [abs_div, abs_of_pos hm0, div_le_iff₀ hm0] at this
  obtain ⟨s, k, r, c1, c2, c3, c4, c5⟩ := pixel_axis hm1 hm2 b4
  refine ⟨p, s, k, r, e1, c1, c2, c3, c4, ?_⟩
  have d := abs_add_le (r - (p - o) / m) ((p - o) / m - q)
  rw [sub_add_sub_cancel] at d
  norm_num at h
  linarith

/-- Converting a pixel to a position and back gives the same pixel in single precision, if the pixel and the offset of the
map are not too far: five times the coordinate of the pixel plus the offset, in pixels, is at most 2^22. -/
theorem C93_pixel_back {m ox oy : ℝ} {q : Point2Di} (hm1 : 2 ^ (-100 : ℤ) ≤ m) (hm2 : m ≤ 2 ^ 100)
    (hx : 5 * |(q.x : ℝ)| + |ox| / m ≤ 2 ^ 22) (hy : 5 * |(q.y : ℝ)| + |oy| / m ≤ 2 ^ 22) :
    ∃ p, MapParams.getPositionFromPixel ⟨fin m, fin ox, fin oy⟩ q = .ok p ∧
      MapParams.getPixelFromPosition ⟨fin m, fin ox, fin oy⟩ p = .ok q := by
  have hm0 : 0 < m := lt_of_lt_of_le (two_zpow_pos _) hm1
  have small : ∀ {n : ℤ} {o : ℝ}, 5 * |(n : ℝ)| + |o| / m ≤ 2 ^ 22 → |(n : ℝ)| ≤ 2 ^ 22 := by
    intro n o h
    have h0 := abs_nonneg (n : ℝ)
    have h1 : 0 ≤ |o| / m := div_nonneg (abs_nonneg _) hm0.le
    linarith
  have hyn : q.y ≠ -2147483648 := by
    intro e
    have := small hy
    rw [e] at this
    norm_num at this
  obtain ⟨p, s, k, r, a1, a2, a3, a4, a5, a6⟩ := round_trip_axis hm1 hm2 hx
  obtain ⟨p', s', k', r', b1, b2, b3, b4, b5, b6⟩ := round_trip_axis (q := -q.y) (o := oy) hm1 hm2
    (by rw [Int.cast_neg, abs_neg]; exact hy)
  refine ⟨⟨fin p, fin p'⟩, ?_, ?_⟩
  · rw [MapParams.getPositionFromPixel, OccupancyMapParams.negInt, if_neg hyn, Res.bind, a1, b1]
  · have r1 := roundToInt_near a5 a6 (small hx)
    have r2 : roundToInt (fin (-r')) = .ok q.y := by
      refine roundToInt_near b5.neg ?_ (small hy)
      rw [show -r' - q.y = -(r' - ((-q.y : ℤ) : ℝ)) by push_cast; ring, abs_neg]
      exact b6
    obtain rfl : k = k' := by rw [a3] at b3; cases b3; rfl
    have r3 : F32.mul (fin (-s')) (fin k) = fin (-r') := by
      have := mul_neg_left s' k
      rw [b4] at this
      exact this
    simp only [MapParams.getPixelFromPosition, a2, a3, b2, a4, neg, r3, r1, r2, Res.bind]

/-- Far from the origin the pixel is lost: with a resolution of 1 and an offset of 2^25, the pixel (1, 0) comes back as
(0, 0). -/
theorem C93_far : ∃ p, MapParams.getPositionFromPixel ⟨fin 1, fin (2 ^ 25), fin 0⟩ ⟨1, 0⟩ = .ok p ∧
    MapParams.getPixelFromPosition ⟨fin 1, fin (2 ^ 25), fin 0⟩ p = .ok ⟨0, 0⟩ := by
  have h0 : rnd 0 = 0 := rnd_zero
  have r0 : round 0 = fin 0 := round_rep Rep.zero
  have r1 : round 1 = fin 1 := round_rep Rep.one
  have r2 : round (1 + 2 ^ 25) = fin (2 ^ 25) := by
    have hb : lastBit (1 + 2 ^ 25) = 2 := by
      have hpos : (0 : ℝ) < 1 + 2 ^ 25 := by norm_num
      have a1 : 25 ≤ Int.log 2 (1 + 2 ^ 25 : ℝ) :=
        (Int.zpow_le_iff_le_log (b := 2) (by norm_num) hpos).1 (by norm_num)
      have a2 : Int.log 2 (1 + 2 ^ 25 : ℝ) < 26 :=
        (Int.lt_zpow_iff_log_lt (b := 2) (by norm_num) hpos).1 (by norm_num)
      have : Int.log 2 |(1 + 2 ^ 25 : ℝ)| = 25 := by
        rw [abs_of_pos hpos]
        omega
      rw [lastBit, this]
      norm_num
    have hf : ⌊(1 + 2 ^ 25 : ℝ) / 2 ^ (2 : ℤ)⌋ = 2 ^ 23 := by
      rw [Int.floor_eq_iff]
      norm_num
    have hfr : Int.fract ((1 + 2 ^ 25 : ℝ) / 2 ^ (2 : ℤ)) < 1 / 2 := by
      rw [Int.fract, hf]
      norm_num
    rw [round_fin (by norm_num), rnd, hb, nearestInt, if_pos hfr, hf]
    norm_num
  have r3 : roundToInt (fin 0) = .ok 0 := roundToInt_near Rep.zero (by norm_num) (by norm_num)
  refine ⟨⟨fin (2 ^ 25), fin 0⟩, ?_, ?_⟩
  · have e0 : ofInt 0 = fin 0 := by rw [ofInt, Int.cast_zero, r0]
    have e1 : ofInt 1 = fin 1 := by rw [ofInt, Int.cast_one, r1]
    rw [MapParams.getPositionFromPixel, OccupancyMapParams.negInt, if_neg (by norm_num)]
    simp only [Res.bind, neg_zero, e0, e1, F32.mul, mul_one, r0, r1, add, r2, add_zero]
  · have r4 : round (2 ^ 25 + -2 ^ 25) = fin 0 := by rw [add_neg_cancel, r0]
    have r5 : div (fin 1) (fin 1) = fin 1 := by rw [div, if_neg one_ne_zero, div_one, r1]
    simp [MapParams.getPixelFromPosition, Res.bind, sub, neg, add, F32.mul, r5, r0, r3]

/-- `roundToInt` is never off by more than half a unit and half the last bit of 1/2, up to 2^22. -/
theorem roundToInt_err {r : ℝ} (hr : Rep r) (h : |r| ≤ 2 ^ 22) :
    ∃ n : ℤ, roundToInt (fin r) = .ok n ∧ |(n : ℝ) - r| ≤ 1 / 2 + 1 / 33554432 := by
  by_cases hx : |r| = 1 / 2 - 2 ^ (-25 : ℤ)
  · obtain ⟨w1, w2, -⟩ := C93_round_wrong
    rcases abs_choice r with c | c
    · refine ⟨1, by rw [← c, hx, w1], ?_⟩
      rw [← c, hx]
      norm_num [abs_le]
    · refine ⟨-1, by rw [← neg_neg r, ← c, hx, w2], ?_⟩
      rw [← neg_neg r, ← c, hx]
      norm_num [abs_le]
  · obtain ⟨n, hn, -, -⟩ := roundToInt_spec r
    have e := abs_le.1 hn.1
    refine ⟨n, ((C93_round hr hx ?_).1 n).2 ⟨hn, ?_⟩, ?_⟩
    · rintro k - e ⟨b1, -⟩
      have b1' : (2 : ℝ) ^ 23 ≤ |r| := by rw [e]; exact_mod_cast b1
      have := b1'.trans h
      norm_num at this
    · have a := abs_le.1 h
      have h1 : (-2 ^ 31 : ℝ) ≤ n := by norm_num at a ⊢; linarith
      have h2 : (n : ℝ) < 2 ^ 31 := by norm_num at a ⊢; linarith
      exact ⟨by exact_mod_cast h1, by exact_mod_cast h2⟩
    · rw [abs_sub_comm]
      exact hn.1.trans (by norm_num)

theorem there_back_axis {m o x : ℝ} (hm1 : 2 ^ (-100 : ℤ) ≤ m) (hm2 : m ≤ 2 ^ 100) (hx : |x - o| ≤ 2 ^ 21 * m)
    (ho : |o| ≤ 2 ^ 122) :
    ∃ s k r, sub (fin x) (fin o) = fin s ∧ div (fin 1) (fin m) = fin k ∧ F32.mul (fin s) (fin k) = fin r ∧ Rep r ∧
      |r| ≤ 2 ^ 22 ∧ ∀ n : ℤ, |(n : ℝ) - r| ≤ 1 / 2 + 1 / 33554432 → |n| < 2 ^ 24 ∧
        ∃ x', add (F32.mul (ofInt n) (fin m)) (fin o) = fin x' ∧
          |x' - x| ≤ m / 2 + 2 ^ (-24 : ℤ) * (5 * |x - o| + 2 * |x| + 4 * m) := by
  have hm0 : 0 < m := lt_of_lt_of_le (two_zpow_pos _) hm1
  obtain ⟨s, k, r, c1, c2, c3, c4, c5⟩ := pixel_axis hm1 hm2 (hx.trans (by
    refine mul_le_mul_of_nonneg_right (by norm_num) hm0.le))
  have hX : |(x - o) / m| ≤ 2 ^ 21 := by
    rw [abs_div, abs_of_pos hm0, div_le_iff₀ hm0]
    exact hx
  have hX0 := abs_nonneg ((x - o) / m)
  have hr : |r| ≤ 2 ^ 22 := by
    have := le_of_err c5
    norm_num at hX ⊢
    linarith
  refine ⟨s, k, r, c1, c2, c3, c4, hr, fun n hn => ?_⟩
  have hn2 := le_of_err hn
  have hn3 : |n| < 2 ^ 24 := by
    have : |(n : ℝ)| < 2 ^ 24 := by norm_num at hr ⊢; linarith
    exact_mod_cast this
  obtain ⟨p, e1, -, b1⟩ := position_axis hm1 hm2 ho hn3
  refine ⟨hn3, p, e1, ?_⟩
  -- distance of the pixel to the point
  have f1 : |(n : ℝ) - (x - o) / m| ≤ 1 / 2 + 1 / 33554432 + (1 / 16777216 * (301 / 100 * |(x - o) / m|) +
      1 / 100000000000000) := by
    have := abs_add_le ((n : ℝ) - r) (r - (x - o) / m)
    rw [sub_add_sub_cancel] at this
    linarith
  have f2 : |n * m + o - x| ≤ m * (1 / 2 + 1 / 33554432 + 1 / 100000000000000) + 1 / 16777216 * (301 / 100 * |x - o|) := by
    have e : n * m + o - x = ((n : ℝ) - (x - o) / m) * m := by field_simp; ring
    rw [e, abs_mul, abs_of_pos hm0]
    refine (mul_le_mul_of_nonneg_right f1 hm0.le).trans (le_of_eq ?_)
    rw [abs_div, abs_of_pos hm0]
    field_simp
    ring
  have f3 : |(n : ℝ)| * m ≤ |x - o| + |n * m + o - x| := by
    have := abs_add_le (x - o) (n * m + o - x)
    rwa [show x - o + (n * m + o - x) = n * m by ring, abs_mul, abs_of_pos hm0] at this
  have f4 : |n * m + o| ≤ |x| + |n * m + o - x| := by
    have := abs_add_le x (n * m + o - x)
    rwa [show x + (n * m + o - x) = n * m + o by ring] at this
  have f5 : |p - x| ≤ |p - (n * m + o)| + |n * m + o - x| := by
    have := abs_add_le (p - (n * m + o)) (n * m + o - x)
    rwa [sub_add_sub_cancel] at this
  rw [two_neg24]
  have f6 := abs_nonneg (x - o)
  have f7 := abs_nonneg x
  generalize |(n : ℝ)| * m = Q at *
  generalize |n * m + o| = W at *
  generalize |n * m + o - x| = V at *
  clear hm1 hm2 hx hX hr hn2 hn3 ho f1
  linarith

/-- The pixel of a position and back, in single precision: the position moves by at most half a pixel, up to rounding. -/
theorem C93_position_back {m ox oy x y : ℝ} (hm1 : 2 ^ (-100 : ℤ) ≤ m) (hm2 : m ≤ 2 ^ 100)
    (hx : |x - ox| ≤ 2 ^ 21 * m) (hy : |y - oy| ≤ 2 ^ 21 * m) (hox : |ox| ≤ 2 ^ 122) (hoy : |oy| ≤ 2 ^ 122) :
    ∃ q x' y', MapParams.getPixelFromPosition ⟨fin m, fin ox, fin oy⟩ ⟨fin x, fin y⟩ = .ok q ∧
      MapParams.getPositionFromPixel ⟨fin m, fin ox, fin oy⟩ q = .ok ⟨fin x', fin y'⟩ ∧
      |x' - x| ≤ m / 2 + 2 ^ (-24 : ℤ) * (5 * |x - ox| + 2 * |x| + 4 * m) ∧
      |y' - y| ≤ m / 2 + 2 ^ (-24 : ℤ) * (5 * |y - oy| + 2 * |y| + 4 * m) := by
  obtain ⟨s, k, r, a1, a2, a3, a4, a5, a6⟩ := there_back_axis hm1 hm2 hx hox
  obtain ⟨s', k', r', b1, b2, b3, b4, b5, b6⟩ := there_back_axis hm1 hm2 hy hoy
  obtain rfl : k = k' := by rw [a2] at b2; cases b2; rfl
  obtain ⟨n, c1, c2⟩ := roundToInt_err a4 a5
  obtain ⟨n', d1, d2⟩ := roundToInt_err b4.neg (by rwa [abs_neg])
  obtain ⟨-, x', e1, e2⟩ := a6 n c2
  obtain ⟨i, y', f1, f2⟩ := b6 (-n') (by rwa [Int.cast_neg, ← neg_add', abs_neg, ← sub_neg_eq_add])
  have r3 : F32.mul (fin (-s')) (fin k) = fin (-r') := by
    have := mul_neg_left s' k
    rw [b3] at this
    exact this
  have hn : n' ≠ -2147483648 := by
    rintro rfl
    norm_num at i
  refine ⟨⟨n, n'⟩, x', y', ?_, ?_, e2, f2⟩
  · simp only [MapParams.getPixelFromPosition, a1, a2, a3, b1, neg, r3, c1, d1, Res.bind]
  · rw [MapParams.getPositionFromPixel, OccupancyMapParams.negInt, if_neg hn, Res.bind, e1, f1]

theorem roundToInt_mono {x y : ℝ} {a b : ℤ} (hx : Rep x) (hy : Rep y) (h : x ≤ y) (ha : roundToInt (fin x) = .ok a)
    (hb : roundToInt (fin y) = .ok b) : a ≤ b := by
  have cast : ∀ {z : ℝ} {n : ℤ}, castInt z = .ok n → n = truncZ z := by
    intro z n e
    rw [castInt] at e
    split_ifs at e
    cases e
    rfl
  rcases le_or_gt 0 x with h0 | h0
  · have h1 := h0.trans h
    rw [roundToInt_nonneg hx h0] at ha
    rw [roundToInt_nonneg hy h1] at hb
    rw [cast ha, cast hb, truncZ_nonneg (rnd_half_nonneg h0), truncZ_nonneg (rnd_half_nonneg h1)]
    exact Int.floor_le_floor (rnd_mono (by linarith))
  · rw [roundToInt_negative hx h0] at ha
    rw [cast ha, truncZ_neg' (rnd_half_nonneg (by linarith))]
    rcases le_or_gt 0 y with h1 | h1
    · rw [roundToInt_nonneg hy h1] at hb
      rw [cast hb, truncZ_nonneg (rnd_half_nonneg h1)]
      have p1 : 0 ≤ ⌊rnd (-x + 1 / 2)⌋ := Int.floor_nonneg.2 (rnd_half_nonneg (by linarith))
      have p2 : 0 ≤ ⌊rnd (y + 1 / 2)⌋ := Int.floor_nonneg.2 (rnd_half_nonneg h1)
      omega
    · rw [roundToInt_negative hy h1] at hb
      rw [cast hb, truncZ_neg' (rnd_half_nonneg (by linarith))]
      exact neg_le_neg (Int.floor_le_floor (rnd_mono (by linarith)))

theorem roundToInt_ok {f : F32} {a : ℤ} (h : roundToInt f = .ok a) : ∃ r, f = fin r := by
  obtain ⟨h1, h2, h3⟩ := C93_not_finite
  cases f with
  | fin r => exact ⟨r, rfl⟩
  | nan => rw [h1] at h; cases h
  | pinf => rw [h2] at h; cases h
  | ninf => rw [h3] at h; cases h

theorem round_eq_fin {x r : ℝ} (h : round x = fin r) : r = rnd x ∧ Rep r := by
  have hv := round_valid x
  rw [h] at hv
  refine ⟨?_, hv⟩
  rw [round] at h
  split_ifs at h
  cases h
  rfl

theorem infOf_ne_fin (x r : ℝ) : infOf x ≠ fin r := by
  rw [infOf]
  split_ifs <;> exact fun h => nomatch h

theorem mul_eq_fin {f g : F32} {r : ℝ} (h : F32.mul f g = fin r) : ∃ x y, f = fin x ∧ g = fin y := by
  cases f <;> cases g <;> simp only [F32.mul] at h
  all_goals first
    | exact ⟨_, _, rfl, rfl⟩
    | exact absurd h (infOf_ne_fin _ _)
    | cases h

/-- A coordinate in pixels, once defined, is a nondecreasing function of the position. -/
theorem axis_mono {m o x x' : ℝ} {a b : ℤ} (hm : 0 < m) (h : x ≤ x')
    (ha : roundToInt (F32.mul (sub (fin x) (fin o)) (div (fin 1) (fin m))) = .ok a)
    (hb : roundToInt (F32.mul (sub (fin x') (fin o)) (div (fin 1) (fin m))) = .ok b) :
    a ≤ b := by
  obtain ⟨r, hr⟩ := roundToInt_ok ha
  obtain ⟨r', hr'⟩ := roundToInt_ok hb
  obtain ⟨s, k, e1, e2⟩ := mul_eq_fin hr
  obtain ⟨s', k', e3, e4⟩ := mul_eq_fin hr'
  rw [hr] at ha
  rw [hr'] at hb
  rw [e2] at e4
  cases e4
  rw [e1, e2] at hr
  rw [e3, e2] at hr'
  have f1 := round_eq_fin (x := x + -o) e1
  have f2 := round_eq_fin (x := x' + -o) e3
  have f3 : 0 ≤ k := by
    rw [div, if_neg hm.ne'] at e2
    rw [(round_eq_fin e2).1]
    exact le_rnd_of_le Rep.zero.grid (by positivity)
  have f4 := round_eq_fin (x := s * k) hr
  have f5 := round_eq_fin (x := s' * k) hr'
  refine roundToInt_mono f4.2 f5.2 ?_ ha hb
  rw [f4.1, f5.1]
  refine rnd_mono (mul_le_mul_of_nonneg_right ?_ f3)
  rw [f1.1, f2.1]
  exact rnd_mono (by linarith)

/-- In single precision too, a point further along x gets a pixel at least as far along x, and a point further along y
gets a pixel at most as far along y: for every positive resolution and all finite points that have a pixel. -/
theorem C93_monotone {m ox oy x y x' y' : ℝ} {q q' : Point2Di} (hm : 0 < m)
    (h : MapParams.getPixelFromPosition ⟨fin m, fin ox, fin oy⟩ ⟨fin x, fin y⟩ = .ok q)
    (h' : MapParams.getPixelFromPosition ⟨fin m, fin ox, fin oy⟩ ⟨fin x', fin y'⟩ = .ok q') :
    (x ≤ x' → q.x ≤ q'.x) ∧ (y ≤ y' → q'.y ≤ q.y) := by
  have split : ∀ {x y : ℝ} {q : Point2Di},
      MapParams.getPixelFromPosition ⟨fin m, fin ox, fin oy⟩ ⟨fin x, fin y⟩ = .ok q →
      roundToInt (F32.mul (sub (fin x) (fin ox)) (div (fin 1) (fin m))) = .ok q.x ∧
      roundToInt (F32.mul (neg (sub (fin y) (fin oy))) (div (fin 1) (fin m))) = .ok q.y := by
    intro x y q e
    simp only [MapParams.getPixelFromPosition] at e
    cases e1 : roundToInt (F32.mul (sub (fin x) (fin ox)) (div (fin 1) (fin m))) with
    | ok a =>
      rw [e1, Res.bind] at e
      cases e2 : roundToInt (F32.mul (neg (sub (fin y) (fin oy))) (div (fin 1) (fin m))) with
      | ok b =>
        rw [e2, Res.bind] at e
        cases e
        exact ⟨rfl, rfl⟩
      | throws => rw [e2] at e; cases e
      | ub => rw [e2] at e; cases e
    | throws => rw [e1] at e; cases e
    | ub => rw [e1] at e; cases e
  obtain ⟨a1, a2⟩ := split h
  obtain ⟨b1, b2⟩ := split h'
  refine ⟨fun hx => axis_mono hm hx a1 b1, fun hy => ?_⟩
  have flip : ∀ z : ℝ, neg (sub (fin z) (fin oy)) = sub (fin (-z)) (fin (-oy)) := by
    intro z
    have h3 : (0 : ℝ) < 2 ^ 128 := by norm_num
    have e : -z + - -oy = -(z + -oy) := by ring
    simp only [sub, neg, add]
    rw [e, round, round, rnd_neg]
    generalize (2 : ℝ) ^ 128 = B at *
    rcases le_or_gt B (rnd (z + -oy)) with k | k
    · rw [if_neg (by linarith : ¬ B ≤ -rnd (z + -oy)), if_pos (by linarith : -rnd (z + -oy) ≤ -B), if_pos k]
    · rcases le_or_gt (rnd (z + -oy)) (-B) with l | l
      · rw [if_neg (by linarith : ¬ B ≤ rnd (z + -oy)), if_pos l, if_pos (by linarith : B ≤ -rnd (z + -oy))]
      · rw [if_neg (by linarith : ¬ B ≤ rnd (z + -oy)), if_neg (by linarith : ¬ rnd (z + -oy) ≤ -B),
          if_neg (by linarith : ¬ B ≤ -rnd (z + -oy)), if_neg (by linarith : ¬ -rnd (z + -oy) ≤ -B)]
  rw [flip] at a2 b2
  exact axis_mono hm (neg_le_neg hy) b2 a2

theorem origin_axis {m c w t : ℝ} {size q : ℤ} (hm1 : 2 ^ (-100 : ℤ) ≤ m) (hm2 : m ≤ 2 ^ 95) (hc : |c| ≤ 2 ^ 120)
    (hs : 0 ≤ size) (hs' : size < 2 ^ 24) (hq : |q| < 2 ^ 24) (ht : |t| ≤ size * m)
    (hw : |w - t| ≤ 1 / 16777216 * |t| + 2 ^ (-150 : ℤ)) :
    ∃ o x, add (fin c) (fin w) = fin o ∧ add (F32.mul (ofInt q) (fin m)) (fin o) = fin x ∧
      |x - (c + q * m + t)| ≤ 2 ^ (-22 : ℤ) * (|c| + (|(q : ℝ)| + size + 1) * m) := by
  have hm0 : 0 < m := lt_of_lt_of_le (two_zpow_pos _) hm1
  obtain ⟨η0, hη⟩ := eta_lt
  have hη := hη m hm1
  have hS0 : (0 : ℝ) ≤ size := by exact_mod_cast hs
  have hS1 : (size : ℝ) ≤ 2 ^ 24 := by exact_mod_cast hs'.le
  have t1 : |t| ≤ 2 ^ 119 := by
    refine ht.trans ?_
    calc (size : ℝ) * m ≤ 2 ^ 24 * 2 ^ 95 := mul_le_mul hS1 hm2 hm0.le (by norm_num)
      _ = 2 ^ 119 := by norm_num
  have w1 := le_of_err hw
  have w2 : |w| ≤ 2 ^ 120 := by
    have h4 : (2 : ℝ) ^ (-150 : ℤ) ≤ 1 := eta_le
    have h5 : (8 : ℝ) ≤ 2 ^ 119 := by norm_num
    have : (2 : ℝ) ^ 120 = 2 ^ 119 + 2 ^ 119 := by norm_num
    rw [this]
    generalize (2 : ℝ) ^ 119 = B at *
    generalize (2 : ℝ) ^ (-150 : ℤ) = η at *
    linarith
  have a1 := abs_add_le c w
  have a2 : |c + w| ≤ 2 ^ 121 := by
    have : (2 : ℝ) ^ 121 = 2 ^ 120 + 2 ^ 120 := by norm_num
    rw [this]
    generalize (2 : ℝ) ^ 120 = B at *
    linarith
  have b1 := rnd_gen (c + w)
  rw [two_neg24] at b1
  have o2 : |rnd (c + w)| ≤ 2 ^ 122 := by
    have := le_of_err b1
    have h4 : (2 : ℝ) ^ (-150 : ℤ) ≤ 1 := eta_le
    have h5 : (8 : ℝ) ≤ 2 ^ 121 := by norm_num
    have e : (2 : ℝ) ^ 122 = 2 ^ 121 + 2 ^ 121 := by norm_num
    rw [e]
    clear w2 hc t1
    generalize (2 : ℝ) ^ 121 = B at *
    generalize (2 : ℝ) ^ (-150 : ℤ) = η at *
    linarith
  obtain ⟨x, e1, -, b2⟩ := position_axis hm1 (hm2.trans (by norm_num)) o2 hq
  refine ⟨rnd (c + w), x, add_fin (a2.trans (by norm_num)), e1, ?_⟩
  have c1 : |x - (c + q * m + t)| ≤ |x - (q * m + rnd (c + w))| + (|rnd (c + w) - (c + w)| + |w - t|) := by
    have e : x - (c + q * m + t) = (x - (q * m + rnd (c + w))) + ((rnd (c + w) - (c + w)) + (w - t)) := by ring
    rw [e]
    exact (abs_add_le _ _).trans (add_le_add_right (abs_add_le _ _) _)
  have c2 : |q * m + rnd (c + w)| ≤ |(q : ℝ)| * m + |rnd (c + w)| := by
    have := abs_add_le (q * m) (rnd (c + w))
    rwa [abs_mul, abs_of_pos hm0] at this
  have c3 := le_of_err b1
  have c4 : (2 : ℝ) ^ (-22 : ℤ) = 4 / 16777216 := by norm_num
  rw [c4, add_mul, add_mul, one_mul]
  have c5 := abs_nonneg c
  have c6 := abs_nonneg t
  have c7 : 0 ≤ |(q : ℝ)| * m := mul_nonneg (abs_nonneg _) hm0.le
  have c8 := abs_nonneg (c + w)
  clear hm1 hm2 hc hs' hq t1 w2 a2 o2 e1 hS1
  generalize |(q : ℝ)| * m = Q at *
  generalize (size : ℝ) * m = S at *
  generalize |q * m + rnd (c + w)| = W at *
  generalize (2 : ℝ) ^ (-150 : ℤ) = η at *
  generalize |rnd (c + w) - (c + w)| = V1 at *
  generalize |c + w| = V2 at *
  generalize |rnd (c + w)| = V3 at *
  linarith

/-- The offset set by the constructor, in single precision: the position of a pixel is the centre of the map plus the
displacement from its middle, up to rounding. -/
theorem C93_origin {m cx cy : ℝ} {size : ℤ} {q : Point2Di} (hm1 : 2 ^ (-100 : ℤ) ≤ m) (hm2 : m ≤ 2 ^ 95)
    (hc : |cx| ≤ 2 ^ 120) (hc' : |cy| ≤ 2 ^ 120) (hs : 0 ≤ size) (hs' : size < 2 ^ 24) (hq : |q.x| < 2 ^ 24)
    (hq' : |q.y| < 2 ^ 24) :
    ∃ x y, MapParams.getPositionFromPixel (MapParams.new size (fin m) ⟨fin cx, fin cy⟩) q = .ok ⟨fin x, fin y⟩ ∧
      |x - (cx + (q.x - size / 2) * m)| ≤ 2 ^ (-22 : ℤ) * (|cx| + (|(q.x : ℝ)| + size + 1) * m) ∧
      |y - (cy - (q.y - size / 2) * m)| ≤ 2 ^ (-22 : ℤ) * (|cy| + (|(q.y : ℝ)| + size + 1) * m) := by
  have hm0 : 0 < m := lt_of_lt_of_le (two_zpow_pos _) hm1
  have hS0 : (0 : ℝ) ≤ size := by exact_mod_cast hs
  have hS1 : (size : ℝ) ≤ 2 ^ 24 := by exact_mod_cast hs'.le
  have hsa : |size| < 2 ^ 24 := by rwa [abs_of_nonneg hs]
  have hr : Rep ((size : ℝ) / 2) := ⟨size, -1, hsa, by norm_num, by norm_num, by norm_num; ring⟩
  have e1 : div (ofInt size) (fin 2) = fin (size / 2) := by
    rw [(ofInt_fin hsa).1, div, if_neg (by norm_num), round_rep hr]
  have t1 : |(size : ℝ) / 2 * m| ≤ size * m := by
    rw [abs_of_nonneg (by positivity)]
    have := mul_nonneg hS0 hm0.le
    linarith
  have e2 : F32.mul (fin (size / 2)) (fin m) = fin (rnd (size / 2 * m)) := by
    refine mul_fin (t1.trans ?_)
    calc (size : ℝ) * m ≤ 2 ^ 24 * 2 ^ 95 := mul_le_mul hS1 hm2 hm0.le (by norm_num)
      _ ≤ 2 ^ 127 := by norm_num
  have w := rnd_gen ((size : ℝ) / 2 * m)
  rw [two_neg24] at w
  obtain ⟨ox, x, a1, a2, a3⟩ := origin_axis (w := -rnd (size / 2 * m)) (t := -(size / 2 * m)) hm1 hm2 hc hs hs' hq
    (by rwa [abs_neg]) (by rwa [← neg_sub', abs_neg, abs_neg])
  obtain ⟨oy, y, b1, b2, b3⟩ := origin_axis (q := -q.y) hm1 hm2 hc' hs hs' (by rwa [abs_neg]) t1 w
  have hy : q.y ≠ -2147483648 := by
    intro e
    rw [e] at hq'
    norm_num at hq'
  refine ⟨x, y, ?_, ?_, ?_⟩
  · rw [MapParams.getPositionFromPixel, OccupancyMapParams.negInt, if_neg hy, Res.bind]
    simp only [MapParams.new, e1, e2, sub, neg, a1, b1, a2, b2]
  · convert a3 using 2
    ring
  · push_cast at b3
    rw [abs_neg] at b3
    convert b3 using 2
    ring

/-! ### Examples -/

example : roundToInt (fin (5 / 2)) = .ok 3 := by
  have hr : Rep (5 / 2) := ⟨5, -1, by norm_num, by norm_num, by norm_num, by norm_num⟩
  refine ((C93_round hr ?_ ?_).1 3).2 ⟨⟨by norm_num [abs_of_neg], fun _ => by norm_num⟩, by norm_num [FitsInt]⟩
  · norm_num
  · intro n _ e _
    have : (5 : ℝ) = ((2 * n : ℤ) : ℝ) := by push_cast; linarith
    have : (5 : ℤ) = 2 * n := by exact_mod_cast this
    omega

-- a map of one thousand pixels at five centimetres, whose origin is forty kilometres away
example : ∃ p, MapParams.getPositionFromPixel ⟨fin (1 / 20), fin 40000, fin (-40000)⟩ ⟨1000, 999⟩ = .ok p ∧
    MapParams.getPixelFromPosition ⟨fin (1 / 20), fin 40000, fin (-40000)⟩ p = .ok ⟨1000, 999⟩ :=
  C93_pixel_back (by norm_num) (by norm_num) (by norm_num) (by norm_num)

example : ∃ q x' y', MapParams.getPixelFromPosition ⟨fin (1 / 16), fin 3, fin 5⟩ ⟨fin 7, fin (-2)⟩ = .ok q ∧
    MapParams.getPositionFromPixel ⟨fin (1 / 16), fin 3, fin 5⟩ q = .ok ⟨fin x', fin y'⟩ ∧
    |x' - 7| ≤ 1 / 16 / 2 + 2 ^ (-24 : ℤ) * (5 * |(7 : ℝ) - 3| + 2 * |(7 : ℝ)| + 4 * (1 / 16)) ∧
    |y' - -2| ≤ 1 / 16 / 2 + 2 ^ (-24 : ℤ) * (5 * |(-2 : ℝ) - 5| + 2 * |(-2 : ℝ)| + 4 * (1 / 16)) :=
  C93_position_back (by norm_num) (by norm_num) (by norm_num [abs_of_neg]) (by norm_num [abs_of_neg]) (by norm_num) (by norm_num)

-- two points that have a pixel
example : ∃ q q' : Point2Di, MapParams.getPixelFromPosition ⟨fin 1, fin 0, fin 0⟩ ⟨fin 3, fin 4⟩ = .ok q ∧
    MapParams.getPixelFromPosition ⟨fin 1, fin 0, fin 0⟩ ⟨fin 5, fin 6⟩ = .ok q' ∧ q.x ≤ q'.x ∧ q'.y ≤ q.y := by
  obtain ⟨q, _, _, h, -⟩ := C93_position_back (m := 1) (ox := 0) (oy := 0) (x := 3) (y := 4) (by norm_num) (by norm_num)
    (by norm_num) (by norm_num) (by norm_num) (by norm_num)
  obtain ⟨q', _, _, h', -⟩ := C93_position_back (m := 1) (ox := 0) (oy := 0) (x := 5) (y := 6) (by norm_num) (by norm_num)
    (by norm_num) (by norm_num) (by norm_num) (by norm_num)
  have := C93_monotone one_pos h h'
  exact ⟨q, q', h, h', this.1 (by norm_num), this.2 (by norm_num)⟩

example : ∃ x y, MapParams.getPositionFromPixel (MapParams.new 512 (fin (1 / 20)) ⟨fin 10, fin (-3)⟩) ⟨256, 256⟩ =
      .ok ⟨fin x, fin y⟩ ∧
    |x - (10 + ((256 : ℤ) - (512 : ℤ) / 2) * (1 / 20))| ≤
      2 ^ (-22 : ℤ) * (|(10 : ℝ)| + (|((256 : ℤ) : ℝ)| + (512 : ℤ) + 1) * (1 / 20)) ∧
    |y - (-3 - ((256 : ℤ) - (512 : ℤ) / 2) * (1 / 20))| ≤
      2 ^ (-22 : ℤ) * (|(-3 : ℝ)| + (|((256 : ℤ) : ℝ)| + (512 : ℤ) + 1) * (1 / 20)) :=
  C93_origin (q := ⟨256, 256⟩) (by norm_num) (by norm_num) (by norm_num) (by norm_num) (by norm_num) (by norm_num)
    (by norm_num) (by norm_num)

end AlMath.F32
