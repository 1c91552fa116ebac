import Verif.Props.C27
import Verif.Props.C75

/-!
C76: modulo2PI on floats.
-/

namespace AlMath.F32

theorem truncZ_props (q : ℝ) : |q - truncZ q| < 1 ∧ |(truncZ q : ℝ)| ≤ |q| ∧ 0 ≤ q * truncZ q := by
  unfold truncZ
  split_ifs with h
  · have h1 := Int.floor_le q
    have h2 := Int.lt_floor_add_one q
    have h3 : (0 : ℝ) ≤ ⌊q⌋ := by exact_mod_cast Int.floor_nonneg.2 h
    rw [abs_of_nonneg h, abs_of_nonneg h3, abs_lt]
    exact ⟨⟨by linarith, by linarith⟩, h1, mul_nonneg h h3⟩
  · have h := not_le.1 h
    have h1 := Int.le_ceil q
    have h2 := Int.ceil_lt_add_one q
    have h3 : (⌈q⌉ : ℝ) ≤ 0 := by exact_mod_cast Int.ceil_nonpos.2 h.le
    rw [abs_of_neg h, abs_of_nonpos h3, abs_lt]
    exact ⟨⟨by linarith, by linarith⟩, by linarith, mul_nonneg_of_nonpos_of_nonpos h.le h3⟩

/-- The remainder of two values is a value. -/
theorem fmod_grid {x y : ℝ} (hx : Grid x) (hy : Grid y) (hp : 0 < y) : Grid (AlMath.fmod x y) := by
  obtain ⟨h1, h2, h3⟩ := truncZ_props (x / y)
  have hr : AlMath.fmod x y = y * (x / y - truncZ (x / y)) := by
    unfold AlMath.fmod
    field_simp
  have hlt : |AlMath.fmod x y| < y := by
    rw [hr, abs_mul, abs_of_pos hp]
    nlinarith
  have hle : |AlMath.fmod x y| ≤ |x| := by
    have e : |x| = y * |x / y| := by
      rw [abs_div, abs_of_pos hp]
      field_simp
    rw [hr, abs_mul, abs_of_pos hp, e]
    refine mul_le_mul_of_nonneg_left ?_ hp.le
    rw [abs_le]
    rcases le_total 0 (x / y) with hq | hq
    · rw [abs_of_nonneg hq] at h2 ⊢
      rcases hq.lt_or_eq with hq | hq
      · have := nonneg_of_mul_nonneg_right h3 hq
        rw [abs_of_nonneg this] at h2
        constructor <;> linarith
      · rw [← hq] at h2 ⊢
        have := abs_nonpos_iff.1 h2
        rw [this]
        simp
    · rw [abs_of_nonpos hq] at h2 ⊢
      rcases hq.lt_or_eq with hq | hq
      · have : (truncZ (x / y) : ℝ) ≤ 0 := by
          by_contra hc
          nlinarith [not_le.1 hc]
        rw [abs_of_nonpos this] at h2
        constructor <;> linarith
      · rw [hq] at h2 ⊢
        have : truncZ 0 = 0 := by simpa using h2
        rw [this]
        simp
  rw [show AlMath.fmod x y = x - y * truncZ (x / y) from rfl] at hlt hle ⊢
  generalize truncZ (x / y) = k at hlt hle
  obtain ⟨m, e, hm, he, rfl⟩ := hx
  obtain ⟨n, f, hn, hf, rfl⟩ := hy
  rcases le_total e f with hef | hef
  · obtain ⟨j, rfl⟩ : ∃ j : ℕ, f = e + j := ⟨(f - e).toNat, by omega⟩
    have hpe := two_zpow_pos e
    have e1 : (m : ℝ) * 2 ^ e - n * 2 ^ (e + (j : ℤ)) * k = ((m - n * 2 ^ j * k : ℤ) : ℝ) * 2 ^ e := by
      rw [zpow_add₀ (by norm_num), zpow_natCast]
      push_cast
      ring
    rw [e1] at hle ⊢
    refine ⟨_, e, ?_, he, rfl⟩
    rw [abs_mul, abs_mul, abs_of_pos hpe] at hle
    have : |((m - n * 2 ^ j * k : ℤ) : ℝ)| ≤ |(m : ℝ)| := le_of_mul_le_mul_right hle hpe
    have : |m - n * 2 ^ j * k| ≤ |m| := by exact_mod_cast this
    omega
  · obtain ⟨j, rfl⟩ : ∃ j : ℕ, e = f + j := ⟨(e - f).toNat, by omega⟩
    have hpf := two_zpow_pos f
    have e1 : (m : ℝ) * 2 ^ (f + (j : ℤ)) - n * 2 ^ f * k = ((m * 2 ^ j - n * k : ℤ) : ℝ) * 2 ^ f := by
      rw [zpow_add₀ (by norm_num), zpow_natCast]
      push_cast
      ring
    rw [e1] at hlt ⊢
    refine ⟨_, f, ?_, hf, rfl⟩
    rw [abs_mul, abs_of_pos hpf] at hlt
    have : |((m * 2 ^ j - n * k : ℤ) : ℝ)| < n := lt_of_mul_lt_mul_right hlt hpf.le
    have : |m * 2 ^ j - n * k| < n := by exact_mod_cast this
    have := le_abs_self n
    omega

theorem twoPiF_grid : Grid twoPiF :=
  ⟨13176795, -21, by norm_num, by norm_num, by unfold twoPiF; norm_num⟩

/-- The constants are values of the format. -/
theorem constants_rep : Rep piF ∧ Rep twoPiF := by
  constructor
  · exact ⟨13176795, -22, by norm_num, by norm_num, by norm_num, by unfold piF; norm_num⟩
  · exact ⟨13176795, -21, by norm_num, by norm_num, by norm_num, by unfold twoPiF; norm_num⟩

/-- No rounding happens: for every finite float the result is the float which the formula gives in exact
arithmetic; it is in range and differs from the input by a whole number of (single-precision)
turns. -/
theorem C76_exact (x : ℝ) (hx : Rep x) :
    modulo2PI (fin x) = fin (AlMath.modulo2PI x) ∧ Rep (AlMath.modulo2PI x) ∧
    |AlMath.modulo2PI x| ≤ piF ∧ ∃ k : ℤ, AlMath.modulo2PI x = x + k * twoPiF := by
  have h2 : twoPiF = 2 * piF := by unfold twoPiF piF; norm_num
  have hp : 0 < piF := by unfold piF; norm_num
  have hpl : piF < 4 := by unfold piF; norm_num
  obtain ⟨c1, c2, c3, -⟩ := C27_modulo2PI x
  have hg := fmod_grid hx.grid twoPiF_grid (by linarith)
  obtain ⟨b1, b2⟩ := fmod_bound x
  have hrep : Rep (AlMath.modulo2PI x) := by
    refine grid_rep ?_ (lt_of_le_of_lt (abs_le.2 ⟨c1, c2⟩) (by linarith))
    unfold AlMath.modulo2PI modulo2PIInPlace
    dsimp only
    split_ifs with h5 h6
    · exact sterbenz hg twoPiF_grid (by linarith) (by linarith)
    · have : Grid (-AlMath.fmod x twoPiF) := by
        obtain ⟨m, e, q1, q2, q3⟩ := hg
        exact ⟨-m, e, by rwa [abs_neg], q2, by rw [q3]; push_cast; ring⟩
      obtain ⟨m, e, q1, q2, q3⟩ := sterbenz this twoPiF_grid (by linarith) (by linarith)
      exact ⟨-m, e, by rwa [abs_neg], q2, by push_cast; linarith⟩
    · exact hg
  refine ⟨?_, hrep, abs_le.2 ⟨c1, c2⟩, c3⟩
  have hne : ¬ twoPiF = 0 := by linarith
  unfold AlMath.modulo2PI modulo2PIInPlace at hrep ⊢
  simp only [modulo2PI, fmod, if_neg hne, lt, neg]
  dsimp only at hrep
  split_ifs at hrep ⊢ with h5 h6
  · rw [sub, neg, add, ← sub_eq_add_neg, round_rep hrep]
  · rw [add, round_rep hrep]
  · rfl

/-- Infinities and NaN give NaN. -/
theorem C76_special : modulo2PI nan = nan ∧ modulo2PI pinf = nan ∧ modulo2PI ninf = nan := by
  refine ⟨?_, ?_, ?_⟩ <;> simp [modulo2PI, fmod, nan_not_lt, not_lt_nan]

/-- The turn of the library is not exactly 2π, so that the error with respect to angles modulo 2π
grows with the input, in proportion. -/
theorem C76_drift (x : ℝ) : ∃ k : ℤ, |AlMath.modulo2PI x - (x + k * (2 * Real.pi))| ≤ 3 * 10 ^ (-8 : ℤ) * (|x| + 4) ∧
    2.7 * 10 ^ (-8 : ℤ) * (|x| - 4) ≤ |AlMath.modulo2PI x - (x + k * (2 * Real.pi))| := by
  obtain ⟨c1, c2, ⟨k, hk⟩, -⟩ := C27_modulo2PI x
  refine ⟨k, ?_⟩
  have hd : AlMath.modulo2PI x - (x + k * (2 * Real.pi)) = k * (twoPiF - 2 * Real.pi) := by
    rw [hk]
    ring
  have p1 := Real.pi_gt_d20
  have p2 := Real.pi_lt_d20
  have t : twoPiF = 13176795 / 2097152 := rfl
  have q : piF = 13176795 / 4194304 := rfl
  have g1 : 1.748 * 10 ^ (-7 : ℤ) < twoPiF - 2 * Real.pi := by rw [t]; norm_num at p1 p2 ⊢; linarith
  have g2 : twoPiF - 2 * Real.pi < 1.749 * 10 ^ (-7 : ℤ) := by rw [t]; norm_num at p1 p2 ⊢; linarith
  have hkx : |(k : ℝ)| * twoPiF ≤ |x| + piF := by
    have : (k : ℝ) * twoPiF = AlMath.modulo2PI x - x := by rw [hk]; ring
    have h3 : |(k : ℝ) * twoPiF| ≤ piF + |x| := by
      rw [this]
      exact (abs_sub _ _).trans (add_le_add (abs_le.2 ⟨c1, c2⟩) le_rfl)
    rw [abs_mul, abs_of_pos (by rw [t]; norm_num : 0 < twoPiF)] at h3
    linarith
  have hkx' : |x| - piF ≤ |(k : ℝ)| * twoPiF := by
    have : x = AlMath.modulo2PI x - k * twoPiF := by rw [hk]; ring
    have h3 : |x| ≤ piF + |(k : ℝ) * twoPiF| := by
      conv_lhs => rw [this]
      exact (abs_sub _ _).trans (add_le_add (abs_le.2 ⟨c1, c2⟩) le_rfl)
    rw [abs_mul, abs_of_pos (by rw [t]; norm_num : 0 < twoPiF)] at h3
    linarith
  rw [hd, abs_mul, abs_of_pos (lt_trans (by norm_num) g1)]
  have hk0 := abs_nonneg (k : ℝ)
  have hx0 := abs_nonneg x
  rw [t, q] at hkx hkx'
  generalize |(k : ℝ)| = K at *
  generalize |x| = X at *
  generalize twoPiF - 2 * Real.pi = D at *
  norm_num at g1 g2 hkx hkx' ⊢
  constructor
  · have : K * D ≤ K * (1749 / 10000000000) := mul_le_mul_of_nonneg_left g2.le hk0
    linarith
  · have : K * (437 / 2500000000) ≤ K * D := mul_le_mul_of_nonneg_left g1.le hk0
    linarith

/-- The range is that of the single-precision constant, which exceeds π: a result may be beyond π. -/
theorem C76_beyond_pi : ∃ x : ℝ, Rep x ∧ ∃ r, modulo2PI (fin x) = fin r ∧ Real.pi < r := by
  have hp : 0 < piF := by unfold piF; norm_num
  refine ⟨piF, constants_rep.1, piF, ?_, ?_⟩
  · rw [(C76_exact piF constants_rep.1).1, (C27_modulo2PI piF).2.2.2 (by linarith) le_rfl]
  · have := Real.pi_lt_d20
    have q : piF = 13176795 / 4194304 := rfl
    rw [q]
    norm_num at this ⊢
    linarith

/-- A large float. -/
example : ∃ r, modulo2PI (fin (2 ^ (100 : ℤ))) = fin r ∧ Rep r ∧ |r| ≤ piF := by
  obtain ⟨h1, h2, h3, -⟩ := C76_exact (2 ^ (100 : ℤ)) (Rep.two_zpow (by norm_num) (by norm_num))
  exact ⟨_, h1, h2, h3⟩

end AlMath.F32
