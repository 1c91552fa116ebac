import Verif.Lemmas.FloatExp
import Verif.Lemmas.Float64
import Verif.Spec.Libm
import Verif.Props.C20
import Verif.Props.C84
import Verif.Props.C85

/-!
C101: the exponential of a velocity in single precision. The rotation is accurate, the translation loses accuracy as the
angle goes down to the threshold of the series.
-/

namespace AlMath.F32

open AlMath.Spec NormedSpace

namespace Spec

/-- `std::pow(x, 3)` is off by at most `2^-50` times the exact cube, where it matters here. Not in /repo: specification. -/
def Pow3Accurate (pow3 : F32 → F64) : Prop :=
  ∀ x, Rep x → 2 ^ (-11 : ℤ) ≤ x → x ≤ 2 ^ 17 → ∃ p, pow3 (fin x) = fin p ∧ |p - x ^ 3| ≤ 2 ^ (-50 : ℤ) * x ^ 3

/-- A velocity whose fields are finite floats. Not in /repo: specification. -/
def ofVelocity (m : AlMath.Velocity6D) : Velocity6D :=
  ⟨fin m.xd, fin m.yd, fin m.zd, fin m.wxd, fin m.wyd, fin m.wzd⟩

end Spec

open Spec

/-! ### The angular speed -/

theorem sqrt_rel {d t : ℝ} (ht : 0 < t) (h : |d - t ^ 2| ≤ 4.1 / 16777216 * t ^ 2) : |Real.sqrt d - t| ≤ 2.06 / 16777216 * t := by
  obtain ⟨h1, h2⟩ := abs_le.1 h
  have d0 : 0 ≤ d := by nlinarith
  rw [abs_le]
  constructor
  · have : (1 - 2.06 / 16777216) * t ≤ Real.sqrt d := by
      refine Real.le_sqrt_of_sq_le ?_
      nlinarith [sq_nonneg t]
    linarith
  · have : Real.sqrt d ≤ (1 + 2.06 / 16777216) * t := by
      refine Real.sqrt_le_iff.2 ⟨by positivity, ?_⟩
      nlinarith [sq_nonneg t]
    linarith

theorem speed_fin {a b c t : ℝ} (ht : t ^ 2 = a * a + b * b + c * c) (t0 : 0 ≤ t) (h : t ≤ 65536) :
    ∃ T, sqrt (add (add (mul (fin a) (fin a)) (mul (fin b) (fin b))) (mul (fin c) (fin c))) = fin T ∧ Rep T ∧ 0 ≤ T ∧
      |T - t| ≤ 5.2 / 16777216 * t + 1 / 10 ^ 20 ∧ (0.0005 ≤ t → |T - t| ≤ 3.1 / 16777216 * t) := by
  have t2 : t ^ 2 ≤ 4294967296 := by nlinarith
  have e : |a| * |a| + |b| * |b| + |c| * |c| = t ^ 2 := by simp only [abs_mul_abs_self]; exact ht.symm
  obtain ⟨d, h1, -, h3⟩ := dot_fin (a := a) (b := b) (c := c) (x := a) (y := b) (z := c) (by rw [e]; norm_num; linarith)
  rw [e, ← ht] at h3
  have w22 : (2 : ℝ) ^ (-22 : ℤ) = 4 / 16777216 := by norm_num
  have w148 : (2 : ℝ) ^ (-148 : ℤ) ≤ (1 / 10 ^ 21) ^ 2 := by
    rw [zpow_neg, ← one_div, div_pow, one_pow]
    exact one_div_le_one_div_of_le (by norm_num) (by norm_num)
  rw [w22] at h3
  have h4 : |d - t ^ 2| ≤ 4 / 16777216 * t ^ 2 + (1 / 10 ^ 21) ^ 2 := by linarith
  have s1 := sqrt_err_abs t0 (by norm_num) (by norm_num) (by norm_num) h4
  have hd0 : 0 ≤ d := by
    have k : ∀ x : ℝ, 0 ≤ x → 0 ≤ rnd x := fun x hx => by
      have := rnd_mono hx
      rwa [rnd_zero] at this
    have k2 : ∀ x : ℝ, 0 ≤ x → x ≤ 2 ^ 40 → rnd x ≤ 2 ^ 41 := fun x hx h => by
      have := le_of_err (rnd_bnd x)
      rw [abs_of_nonneg hx, abs_of_nonneg (k x hx)] at this
      norm_num at *
      linarith
    have k3 : ∀ x : ℝ, 0 ≤ x → x ≤ 2 ^ 45 → |x| ≤ 2 ^ 127 := fun x hx h => by
      rw [abs_of_nonneg hx]
      exact h.trans (by norm_num)
    have a0 := mul_self_nonneg a
    have b0 := mul_self_nonneg b
    have c0 := mul_self_nonneg c
    have a1 : a * a ≤ 2 ^ 40 := by norm_num; linarith
    have b1 : b * b ≤ 2 ^ 40 := by norm_num; linarith
    have c1 : c * c ≤ 2 ^ 40 := by norm_num; linarith
    have a2 := k2 _ a0 a1
    have b2 := k2 _ b0 b1
    have ab : rnd (a * a) + rnd (b * b) ≤ 2 ^ 45 := by norm_num at a2 b2 ⊢; linarith
    have h5 := h1
    rw [dot, mul_fin (k3 _ a0 (a1.trans (by norm_num))), mul_fin (k3 _ b0 (b1.trans (by norm_num))),
      mul_fin (k3 _ c0 (c1.trans (by norm_num))), add_fin (k3 _ (add_nonneg (k _ a0) (k _ b0)) ab)] at h5
    have ab' : rnd (rnd (a * a) + rnd (b * b)) + rnd (c * c) ≤ 2 ^ 127 := by
      have c2 := k2 _ c0 c1
      have := le_of_err (rnd_bnd (rnd (a * a) + rnd (b * b)))
      rw [abs_of_nonneg (add_nonneg (k _ a0) (k _ b0)), abs_of_nonneg (k _ (add_nonneg (k _ a0) (k _ b0)))] at this
      norm_num at *
      linarith
    have n := add_nonneg (k _ (add_nonneg (k _ a0) (k _ b0))) (k _ c0)
    rw [add_fin (by rwa [abs_of_nonneg n])] at h5
    rw [← fin.inj h5]
    exact k _ n
  have s2 : |Real.sqrt d| ≤ 2 ^ 127 := by
    have := le_of_err s1
    rw [abs_of_nonneg t0] at this
    norm_num at this ⊢
    linarith
  have r := rnd_bnd (Real.sqrt d)
  refine ⟨rnd (Real.sqrt d), ?_, rnd_rep s2, ?_, ?_, ?_⟩
  · change sqrt (dot _ _ _ _ _ _) = _
    rw [h1, sqrt, if_neg (not_lt.2 hd0), round_fin s2]
  · have := rnd_mono (Real.sqrt_nonneg d)
    rwa [rnd_zero] at this
  · have k := le_of_err s1
    rw [abs_of_nonneg t0] at k
    have := abs_add_le (rnd (Real.sqrt d) - Real.sqrt d) (Real.sqrt d - t)
    rw [sub_add_sub_cancel] at this
    norm_num at *
    linarith
  · intro h5
    have t2' : 0.00000025 ≤ t ^ 2 := by nlinarith
    have s3 := sqrt_rel (d := d) (t := t) (by linarith) (h4.trans (by linarith))
    have k := le_of_err s3
    rw [abs_of_nonneg t0] at k
    have := abs_add_le (rnd (Real.sqrt d) - Real.sqrt d) (Real.sqrt d - t)
    rw [sub_add_sub_cancel] at this
    linarith

/-! ### The coefficients above the threshold -/

theorem quot_err {p X d D ε δ : ℝ} (hD : 0 < D) (hp : |p - X| ≤ ε) (hd : |d - D| ≤ δ * D) (hδ : δ ≤ 1 / 10000) :
    0 < d ∧ |p / d * D - X| ≤ 1.001 * (ε + δ * |X|) := by
  obtain ⟨d1, d2⟩ := abs_le.1 hd
  have d3 : D ≤ 1.001 * d := by nlinarith
  have d0 : 0 < d := by linarith
  have ε0 : 0 ≤ ε := (abs_nonneg _).trans hp
  have δ0 : 0 ≤ δ := by
    by_contra hc
    have := (abs_nonneg _).trans hd
    nlinarith
  refine ⟨d0, ?_⟩
  have e1 : p / d * D - X = ((p - X) * D - X * (d - D)) / d := by
    field_simp
    ring
  rw [e1, abs_div, abs_of_pos d0, div_le_iff₀ d0]
  have e2 := abs_sub ((p - X) * D) (X * (d - D))
  rw [abs_mul, abs_mul, abs_of_pos hD] at e2
  have e3 := mul_le_mul_of_nonneg_right hp hD.le
  have e4 := mul_le_mul_of_nonneg_left hd (abs_nonneg X)
  have e5 : ε * D + |X| * (δ * D) ≤ (ε + δ * |X|) * (1.001 * d) := by
    have : ε * D + |X| * (δ * D) = (ε + δ * |X|) * D := by ring
    rw [this]
    exact mul_le_mul_of_nonneg_left d3 (by positivity)
  linarith

theorem quot32 {p X d D ε δ : ℝ} (hD : 1 / 10 ^ 10 ≤ D) (hD2 : D ≤ 10 ^ 10) (hp : |p - X| ≤ ε) (hd : |d - D| ≤ δ * D)
    (hδ : δ ≤ 1 / 10000) (hX : |X| ≤ 10 ^ 6) (hε : ε ≤ 1) :
    ∃ q, div (fin p) (fin d) = fin q ∧ Rep q ∧ |q| ≤ 10 ^ 18 ∧
      |q * D - X| ≤ 1.001 * (ε + δ * |X|) + (1.01 / 16777216 * (|X| + ε) + 1 / 10 ^ 14) := by
  have hD0 : 0 < D := lt_of_lt_of_le (by norm_num) hD
  obtain ⟨d0, h1⟩ := quot_err hD0 hp hd hδ
  have X0 := abs_nonneg X
  have δX : δ * |X| ≤ 1 / 10000 * |X| := mul_le_mul_of_nonneg_right hδ X0
  have ε0 : 0 ≤ ε := (abs_nonneg _).trans hp
  have h2 : |p / d| * D ≤ 1.0011 * (|X| + ε) := by
    have := le_of_err h1
    rw [abs_mul, abs_of_pos hD0] at this
    linarith
  have h3 : |p / d| ≤ 10 ^ 17 := by
    have := mul_le_mul_of_nonneg_left hD (abs_nonneg (p / d))
    norm_num at this hX ⊢
    linarith
  have r := rnd_bnd (p / d)
  refine ⟨rnd (p / d), ?_, rnd_rep (h3.trans (by norm_num)), ?_, ?_⟩
  · rw [div, if_neg d0.ne', round_fin (h3.trans (by norm_num))]
  · have := le_of_err r
    norm_num at *
    linarith
  · have e1 : rnd (p / d) * D - X = (rnd (p / d) - p / d) * D + (p / d * D - X) := by ring
    rw [e1]
    refine (abs_add_le _ _).trans ?_
    rw [abs_mul, abs_of_pos hD0]
    have := mul_le_mul_of_nonneg_right r hD0.le
    rw [add_mul, mul_assoc] at this
    norm_num at hD2 ⊢
    linarith

theorem div64 {x y : ℝ} (hy : y ≠ 0) (h : |x / y| ≤ 2 ^ 100) : ∃ z, F64.div (fin x) (fin y) = fin z ∧
    |z - x / y| ≤ 1 / 9007199254740992 * |x / y| + 1 / 10 ^ 25 := by
  have h' : |x / y| ≤ 2 ^ 1000 := h.trans (pow_le_pow_right₀ (by norm_num) (by norm_num))
  refine ⟨F64.rnd (x / y), by rw [F64.div, if_neg hy, F64.round_fin h'], ?_⟩
  have r0 := F64.rnd_gen (x / y)
  have w1 : (2 : ℝ) ^ (-53 : ℤ) = 1 / 9007199254740992 := by norm_num
  have w2 : (2 : ℝ) ^ (-1075 : ℤ) ≤ 1 / 10 ^ 25 := by
    rw [zpow_neg, ← one_div]
    exact one_div_le_one_div_of_le (by norm_num) ((show (10 : ℝ) ^ 25 ≤ 2 ^ 100 by norm_num).trans
      (by exact_mod_cast pow_le_pow_right₀ (show (1 : ℝ) ≤ 2 by norm_num) (show 100 ≤ 1075 by norm_num)))
  rw [w1] at r0
  linarith

theorem quot64 {p X d D ε δ : ℝ} (hD : 1 / 10 ^ 10 ≤ D) (hD2 : D ≤ 10 ^ 15) (hp : |p - X| ≤ ε) (hd : |d - D| ≤ δ * D)
    (hδ : δ ≤ 1 / 10000) (hX : |X| ≤ 10 ^ 6) (hε : ε ≤ 1) :
    ∃ q, F64.toFloat (F64.div (fin p) (fin d)) = fin q ∧ Rep q ∧ |q| ≤ 10 ^ 18 ∧
      |q * D - X| ≤ 1.001 * (ε + δ * |X|) + (1.01 / 16777216 * (|X| + ε) + 1 / 10 ^ 9) := by
  have hD0 : 0 < D := lt_of_lt_of_le (by norm_num) hD
  obtain ⟨d0, h1⟩ := quot_err hD0 hp hd hδ
  have X0 := abs_nonneg X
  have δX : δ * |X| ≤ 1 / 10000 * |X| := mul_le_mul_of_nonneg_right hδ X0
  have ε0 : 0 ≤ ε := (abs_nonneg _).trans hp
  have h2 : |p / d| * D ≤ 1.0011 * (|X| + ε) := by
    have := le_of_err h1
    rw [abs_mul, abs_of_pos hD0] at this
    linarith
  have h3 : |p / d| ≤ 10 ^ 17 := by
    have := mul_le_mul_of_nonneg_left hD (abs_nonneg (p / d))
    norm_num at this hX ⊢
    linarith
  obtain ⟨z, h4, r1⟩ := div64 (x := p) d0.ne' (h3.trans (by norm_num))
  rw [h4]
  have h5 : |z| ≤ 2 * 10 ^ 17 := by
    have := le_of_err r1
    norm_num at *
    linarith
  have r := rnd_bnd z
  have r2 : |rnd z - p / d| ≤ 1.001 / 16777216 * |p / d| + 3 / 10 ^ 25 := by
    have k1 := le_of_err r1
    have k2 := abs_add_le (rnd z - z) (z - p / d)
    rw [sub_add_sub_cancel] at k2
    have k3 := abs_nonneg (p / d)
    norm_num at r1 r k1 ⊢
    linarith
  refine ⟨rnd z, round_fin (h5.trans (by norm_num)), rnd_rep (h5.trans (by norm_num)), ?_, ?_⟩
  · have := le_of_err r
    norm_num at *
    linarith
  · have e1 : rnd z * D - X = (rnd z - p / d) * D + (p / d * D - X) := by ring
    rw [e1]
    refine (abs_add_le _ _).trans ?_
    rw [abs_mul, abs_of_pos hD0]
    have := mul_le_mul_of_nonneg_right r2 hD0.le
    rw [add_mul, mul_assoc] at this
    norm_num at hD2 ⊢
    linarith

theorem cos_near {c T t : ℝ} (h : |T - t| ≤ 3.1 / 16777216 * t) (hc : |c - Real.cos T| ≤ 2 / 16777216) :
    |c - Real.cos t| ≤ 2 / 16777216 + 3.1 / 16777216 * t := by
  have lc : |Real.cos T - Real.cos t| ≤ |T - t| := Real.abs_cos_sub_cos_le _ _
  have := abs_add_le (c - Real.cos T) (Real.cos T - Real.cos t)
  rw [sub_add_sub_cancel] at this
  linarith

theorem sin_near {s T t : ℝ} (h : |T - t| ≤ 3.1 / 16777216 * t) (hs : |s - Real.sin T| ≤ 2 / 16777216) :
    |s - Real.sin t| ≤ 2 / 16777216 + 3.1 / 16777216 * t := by
  have ls : |Real.sin T - Real.sin t| ≤ |T - t| := Real.abs_sin_sub_sin_le _ _
  have := abs_add_le (s - Real.sin T) (Real.sin T - Real.sin t)
  rw [sub_add_sub_cancel] at this
  linarith

/-- The numerator of `CC`. -/
theorem numer_cos {c T t : ℝ} (h : |T - t| ≤ 3.1 / 16777216 * t) (h1 : 0 < t) (h2 : t ≤ 65536)
    (hc : |c - Real.cos T| ≤ 2 / 16777216) :
    sub (fin 1) (fin c) = fin (rnd (1 - c)) ∧ |rnd (1 - c) - (1 - Real.cos t)| ≤ (4.05 + 3.2 * t) / 16777216 := by
  have cc := cos_near h hc
  have c1 := Real.cos_le_one t
  have c2 := Real.neg_one_le_cos t
  have M1 : |1 - c| ≤ 2.02 := by
    rw [abs_le] at cc ⊢
    constructor <;> linarith
  refine ⟨sub_fin (M1.trans (by norm_num)), ?_⟩
  have r := rnd_bnd (1 - c)
  rw [abs_le] at r cc ⊢
  constructor <;> linarith

/-- The numerator of `dSC`. -/
theorem numer_sin {s T t : ℝ} (h : |T - t| ≤ 3.1 / 16777216 * t) (h1 : 0 < t) (h2 : t ≤ 65536)
    (hs : |s - Real.sin T| ≤ 2 / 16777216) (X3 : |t - Real.sin t| ≤ 2 * t) :
    sub (fin T) (fin s) = fin (rnd (T - s)) ∧ |rnd (T - s) - (t - Real.sin t)| ≤ (2.1 + 8.4 * t) / 16777216 := by
  have ss := sin_near h hs
  have M2 : |T - s - (t - Real.sin t)| ≤ (2 + 6.2 * t) / 16777216 := by
    rw [abs_le] at ss h ⊢
    constructor <;> linarith
  have M3 := le_of_err M2
  refine ⟨sub_fin (M3.trans (by norm_num; linarith)), ?_⟩
  have r := rnd_bnd (T - s)
  have k := abs_add_le (rnd (T - s) - (T - s)) (T - s - (t - Real.sin t))
  rw [sub_add_sub_cancel] at k
  linarith

/-- The denominator of `CC`. -/
theorem denom_sq {T t : ℝ} (h : |T - t| ≤ 3.1 / 16777216 * t) (h1 : 1 / 10 ^ 7 ≤ t ^ 2) (h2 : t ^ 2 ≤ 4294967296) (t0 : 0 < t) :
    mul (fin T) (fin T) = fin (rnd (T * T)) ∧ |rnd (T * T) - t ^ 2| ≤ 7.3 / 16777216 * t ^ 2 := by
  obtain ⟨T1, T2⟩ := abs_le.1 h
  have TT1 : |T * T - t ^ 2| ≤ 6.23 / 16777216 * t ^ 2 := by
    have e1 : T * T - t ^ 2 = (T - t) * (T + t) := by ring
    rw [e1, abs_mul, abs_of_pos (show 0 < T + t by linarith)]
    calc |T - t| * (T + t) ≤ 3.1 / 16777216 * t * (2.005 * t) :=
          mul_le_mul h (by linarith) (by linarith) (by positivity)
      _ = 6.2155 / 16777216 * t ^ 2 := by ring
      _ ≤ _ := by linarith
  have M4 := le_of_err TT1
  rw [abs_of_nonneg (sq_nonneg t)] at M4
  refine ⟨mul_fin (M4.trans (by norm_num; linarith)), ?_⟩
  have r := rnd_bnd (T * T)
  have k := abs_add_le (rnd (T * T) - T * T) (T * T - t ^ 2)
  rw [sub_add_sub_cancel] at k
  linarith

/-- The denominator of `dSC`. -/
theorem denom_cube {T t p : ℝ} (h : |T - t| ≤ 3.1 / 16777216 * t) (t0 : 0 < t)
    (hp : |p - T ^ 3| ≤ 2 ^ (-50 : ℤ) * T ^ 3) : |p - t ^ 3| ≤ 9.4 / 16777216 * t ^ 3 := by
  obtain ⟨T1, T2⟩ := abs_le.1 h
  have T0 : 0 < T := by linarith
  have t3 : 0 < t ^ 3 := by positivity
  have TT2 : |T ^ 3 - t ^ 3| ≤ 9.35 / 16777216 * t ^ 3 := by
    have e1 : T ^ 3 - t ^ 3 = (T - t) * (T * T + T * t + t * t) := by ring
    have k1 : T * T + T * t + t * t ≤ 3.01 * (t * t) := by nlinarith
    rw [e1, abs_mul, abs_of_pos (show 0 < T * T + T * t + t * t by positivity)]
    calc |T - t| * (T * T + T * t + t * t) ≤ 3.1 / 16777216 * t * (3.01 * (t * t)) :=
          mul_le_mul h k1 (by positivity) (by positivity)
      _ = 9.331 / 16777216 * t ^ 3 := by ring
      _ ≤ _ := by linarith
  have k := abs_add_le (p - T ^ 3) (T ^ 3 - t ^ 3)
  rw [sub_add_sub_cancel] at k
  have k2 := le_of_err TT2
  rw [abs_of_pos t3, abs_of_pos (show 0 < T ^ 3 by positivity)] at k2
  norm_num at hp
  linarith

/-- The coefficients of the first case, for a computed angular speed `T`. -/
theorem coef_fin {l : Libm} (hl : l.Accurate) {pow3 : F32 → F64} (hp : Pow3Accurate pow3) {T t : ℝ} (hT : Rep T)
    (h : |T - t| ≤ 3.1 / 16777216 * t) (h1 : 0.00099 ≤ t) (h2 : t ≤ 65536) :
    ∃ C S D, div (sub (fin 1) (l.cos (fin T))) (mul (fin T) (fin T)) = fin C ∧ div (l.sin (fin T)) (fin T) = fin S ∧
      F64.toFloat (F64.div (sub (fin T) (l.sin (fin T))) (pow3 (fin T))) = fin D ∧ Rep S ∧ |D| ≤ 10 ^ 18 ∧
      |C * t ^ 2 - (1 - Real.cos t)| ≤ (4.1 + 20 * t) / 16777216 ∧ |S * t - Real.sin t| ≤ (2.1 + 7.4 * t) / 16777216 ∧
      |D * t ^ 3 - (t - Real.sin t)| ≤ (2.2 + 30 * t) / 16777216 := by
  obtain ⟨c, hc1, -, hc3⟩ := hl.cos T hT
  obtain ⟨s, hs1, -, hs3⟩ := hl.sin T hT
  have w23 : (2 : ℝ) ^ (-23 : ℤ) = 2 / 16777216 := by norm_num
  rw [w23] at hc3 hs3
  obtain ⟨T1, T2⟩ := abs_le.1 h
  obtain ⟨p, hp1, hp2⟩ := hp T hT (by norm_num; linarith) (by norm_num; linarith)
  have t0 : 0 < t := by linarith
  have X1 : |1 - Real.cos t| ≤ t := by
    have := Real.abs_cos_sub_cos_le 0 t
    rwa [Real.cos_zero, zero_sub, abs_neg, abs_of_pos t0] at this
  have X2 : |Real.sin t| ≤ t := by
    have := Real.abs_sin_le_abs (x := t)
    rwa [abs_of_pos t0] at this
  have X3 : |t - Real.sin t| ≤ 2 * t := by
    obtain ⟨k1, k2⟩ := abs_le.1 X2
    rw [abs_le]; constructor <;> linarith
  have t2 : 9 / 10 ^ 7 ≤ t ^ 2 := by nlinarith
  have t2' : t ^ 2 ≤ 4294967296 := by nlinarith
  have e3 : t ^ 3 = t * t ^ 2 := by ring
  have t3 : 1 / 10 ^ 10 ≤ t ^ 3 := by
    rw [e3]
    calc (1 / 10 ^ 10 : ℝ) ≤ 0.00099 * (9 / 10 ^ 7) := by norm_num
      _ ≤ _ := mul_le_mul h1 t2 (by norm_num) t0.le
  have t3' : t ^ 3 ≤ 10 ^ 15 := by
    rw [e3]
    calc t * t ^ 2 ≤ 65536 * 4294967296 := mul_le_mul h2 t2' (by positivity) (by norm_num)
      _ ≤ _ := by norm_num
  obtain ⟨N1, N1e⟩ := numer_cos h t0 h2 hc3
  obtain ⟨N2, N2e⟩ := numer_sin h t0 h2 hs3 X3
  obtain ⟨TT, TTe⟩ := denom_sq h (t2.trans' (by norm_num)) t2' t0
  have pe := denom_cube h t0 hp2
  have ss := sin_near h hs3
  clear hc3 hs3 hp2 w23 e3
  obtain ⟨C, C1, -, -, C4⟩ := quot32 (t2.trans' (by norm_num)) (t2'.trans (by norm_num)) N1e TTe (by norm_num)
    (X1.trans (by norm_num; linarith)) (by linarith)
  obtain ⟨S, S1, S2, -, S4⟩ := quot32 (p := s) (d := T) (by norm_num; linarith) (by norm_num; linarith) ss h (by norm_num)
    (X2.trans (by norm_num; linarith)) (by linarith)
  obtain ⟨D, D1, -, D3, D4⟩ := quot64 t3 t3' N2e pe (by norm_num) (X3.trans (by norm_num; linarith)) (by linarith)
  refine ⟨C, S, D, by rw [hc1, N1, TT, C1], by rw [hs1, S1], by rw [hs1, N2, hp1, D1], S2, D3, C4.trans ?_, S4.trans ?_,
    D4.trans ?_⟩ <;> linarith

/-! ### The matrix -/

theorem comp_le {a b c t : ℝ} (t0 : 0 ≤ t) (ht : t ^ 2 = a * a + b * b + c * c) : |a| ≤ t ∧ |b| ≤ t ∧ |c| ≤ t := by
  refine ⟨?_, ?_, ?_⟩ <;> refine abs_le_of_sq_le_sq ?_ t0 <;>
    nlinarith [mul_self_nonneg a, mul_self_nonneg b, mul_self_nonneg c]

theorem near_ofMat {f : Transform} {A : Mat3} {v : Vec3} {ε δ : ℝ}
    (h11 : Near f.r.r11 (A 0 0) ε) (h12 : Near f.r.r12 (A 0 1) ε) (h13 : Near f.r.r13 (A 0 2) ε)
    (h21 : Near f.r.r21 (A 1 0) ε) (h22 : Near f.r.r22 (A 1 1) ε) (h23 : Near f.r.r23 (A 1 2) ε)
    (h31 : Near f.r.r31 (A 2 0) ε) (h32 : Near f.r.r32 (A 2 1) ε) (h33 : Near f.r.r33 (A 2 2) ε)
    (h1 : Near f.r14 (v 0) δ) (h2 : Near f.r24 (v 1) δ) (h3 : Near f.r34 (v 2) δ) :
    ∃ B w, f = Transform.ofMat B w ∧ (∀ i j, |B i j - A i j| ≤ ε) ∧ ∀ i, |w i - v i| ≤ δ := by
  obtain ⟨x11, e11, -, k11⟩ := h11
  obtain ⟨x12, e12, -, k12⟩ := h12
  obtain ⟨x13, e13, -, k13⟩ := h13
  obtain ⟨x21, e21, -, k21⟩ := h21
  obtain ⟨x22, e22, -, k22⟩ := h22
  obtain ⟨x23, e23, -, k23⟩ := h23
  obtain ⟨x31, e31, -, k31⟩ := h31
  obtain ⟨x32, e32, -, k32⟩ := h32
  obtain ⟨x33, e33, -, k33⟩ := h33
  obtain ⟨x1, e1, -, k1⟩ := h1
  obtain ⟨x2, e2, -, k2⟩ := h2
  obtain ⟨x3, e3, -, k3⟩ := h3
  refine ⟨!![x11, x12, x13; x21, x22, x23; x31, x32, x33], ![x1, x2, x3], ?_, ?_, ?_⟩
  · ext <;> simp [Transform.ofMat, Rotation.ofMat] <;> assumption
  · intro i j
    fin_cases i <;> fin_cases j <;> simpa
  · intro i
    fin_cases i <;> simpa

/-- The matrix built from three coefficients, from their errors. -/
theorem core {m : AlMath.Velocity6D} {t kc ks kd C S D e1 e2 f f3 V : ℝ} (t0 : 0 ≤ t)
    (ht : t ^ 2 = m.wxd * m.wxd + m.wyd * m.wyd + m.wzd * m.wzd) (h : t ≤ 65536) (rS : Rep S)
    (hC : |C - kc| * t ^ 2 ≤ e1) (hC' : |C - kc| * t ≤ f) (hS : |S - ks| * t ≤ e2) (hS' : |S - ks| ≤ f)
    (hD : |D - kd| * t ^ 2 ≤ f3) (c0 : 0 ≤ kc) (c1 : |kc| * t ^ 2 ≤ 2) (c2 : |kc| * t ≤ 1) (s1 : |ks| * t ≤ 1) (s2 : |ks| ≤ 1)
    (d1 : |kd| * t ^ 2 ≤ 2) (bC : |C| ≤ 2) (bD : |D| ≤ 2 ^ 60) (he1 : e1 ≤ 0.1) (he2 : e2 ≤ 0.1) (hf : f ≤ 0.01) (hf3 : f3 ≤ 0.01)
    (hx : |m.xd| ≤ V) (hy : |m.yd| ≤ V) (hz : |m.zd| ≤ V) (hV : V ≤ 2 ^ 60) :
    ∃ A v, expMatrix (fin C) (fin S) (fin D) (ofVelocity m) = Transform.ofMat A v ∧
      (∀ i j, |A i j - (AlMath.expMatrix kc ks kd m).rotMat i j| ≤ e1 + e2 + 9.1 / 16777216) ∧
      ∀ i, |v i - (AlMath.expMatrix kc ks kd m).trans i| ≤ (3 * (f + f3) + 52 / 16777216) * V + 1 / 10 ^ 24 := by
  obtain ⟨ha, hb, hc⟩ := comp_le t0 ht
  have V0 := (abs_nonneg _).trans hx
  have hS2 : |-S - -ks| * t ≤ e2 := by rwa [neg_sub_neg, abs_sub_comm]
  have s1' : |-ks| * t ≤ 1 := by rwa [abs_neg]
  have hC2 : |-C - -kc| * t ≤ f := by rwa [neg_sub_neg, abs_sub_comm]
  have c2' : |-kc| * t ≤ 1 := by rwa [abs_neg]
  have e10 : 0 ≤ e1 := le_trans (by positivity) hC
  have e20 : 0 ≤ e2 := le_trans (by positivity) hS
  have f0 : 0 ≤ f := (abs_nonneg _).trans hS'
  have f30 : 0 ≤ f3 := le_trans (by positivity) hD
  have ht' : |t| ≤ 65536 := by rwa [abs_of_nonneg t0]
  have dg : ∀ x y : ℝ, x * x + y * y ≤ t ^ 2 → Near (sub (fin 1) (mul (fin C) (add (mul (fin x) (fin x)) (mul (fin y) (fin y)))))
      (1 - kc * (x * x + y * y)) (e1 + e2 + 9.1 / 16777216) := fun x y hxy =>
    expDiag_near hC c1 c0 hxy ht' bC (by linarith) (by linarith)
  have og : ∀ σ κ x y z : ℝ, |σ - κ| * t ≤ e2 → |κ| * t ≤ 1 → |x| ≤ t → |y| ≤ t → |z| ≤ t →
      Near (add (mul (fin σ) (fin z)) (mul (mul (fin C) (fin x)) (fin y))) (κ * z + kc * x * y) (e1 + e2 + 9.1 / 16777216) :=
    fun σ κ x y z h1 h2 h3 h4 h5 => expOff_near hC c1 h3 h4 h5 h bC (by linarith) h1 h2 (by linarith) (by linarith)
  have dt : ∀ x : ℝ, |x| ≤ t → Near (add (fin S) (mul (mul (fin D) (fin x)) (fin x))) (ks + kd * x * x) (f + f3 + 8.3 / 16777216) :=
    fun x h3 => dtrans_near hD d1 h3 h bD (by linarith) rS hS' s2 (by linarith) (by linarith)
  have ot : ∀ σ κ x y z : ℝ, |σ - κ| * t ≤ f → |κ| * t ≤ 1 → |x| ≤ t → |y| ≤ t → |z| ≤ t →
      Near (add (mul (fin σ) (fin z)) (mul (mul (fin D) (fin x)) (fin y))) (κ * z + kd * x * y) (f + f3 + 8.3 / 16777216) :=
    fun σ κ x y z h1 h2 h3 h4 h5 => otrans_near hD d1 h3 h4 h5 h bD (by linarith) h1 h2 (by linarith) (by linarith)
  have bd : ∀ x y : ℝ, |x| ≤ t → |y| ≤ t → |kd * x * y| ≤ 2 := fun x y h1 h2 => by
    rw [mul_assoc, abs_mul]
    exact (mul_le_mul_of_nonneg_left (abs_mul_le_sq h1 h2) (abs_nonneg _)).trans d1
  have bJ : ∀ x : ℝ, |x| ≤ t → |ks + kd * x * x| ≤ 3 := fun x h1 => by
    have := abs_add_le ks (kd * x * x)
    linarith [bd x x h1 h1]
  have bK : ∀ κ x y z : ℝ, |κ| * t ≤ 1 → |x| ≤ t → |y| ≤ t → |z| ≤ t → |κ * z + kd * x * y| ≤ 3 := fun κ x y z h0 h1 h2 h3 => by
    have k1 := abs_add_le (κ * z) (kd * x * y)
    have k2 : |κ * z| ≤ 1 := by
      rw [abs_mul]
      exact (mul_le_mul_of_nonneg_left h3 (abs_nonneg _)).trans h0
    linarith [bd x y h1 h2]
  have a0 := mul_self_nonneg m.wxd
  have b0 := mul_self_nonneg m.wyd
  have w0 := mul_self_nonneg m.wzd
  have row : ∀ (f1 f2 f4 : F32) (J K L : ℝ), Near f1 J (f + f3 + 8.3 / 16777216) → Near f2 K (f + f3 + 8.3 / 16777216) →
      Near f4 L (f + f3 + 8.3 / 16777216) → |J| ≤ 3 → |K| ≤ 3 → |L| ≤ 3 →
      Near (add (add (mul f1 (fin m.xd)) (mul f2 (fin m.yd))) (mul f4 (fin m.zd))) (J * m.xd + K * m.yd + L * m.zd)
        ((3 * (f + f3) + 52 / 16777216) * V + 1 / 10 ^ 24) := fun f1 f2 f4 J K L h1 h2 h4 h5 h6 h7 => by
    refine row_near h1 h2 h4 h5 h6 h7 hx hy hz hV (by linarith) ?_
    have : (f + f3 + 8.3 / 16777216) * V ≤ 1 * V := mul_le_mul_of_nonneg_right (by linarith) V0
    have k := mul_le_mul_of_nonneg_right (show f + f3 + 8.3 / 16777216 ≤ 0.03 by linarith) V0
    have e : (f + f3 + 8.3 / 16777216) * V = (f + f3) * V + 8.3 / 16777216 * V := by ring
    rw [e] at k ⊢
    linarith
  refine near_ofMat ?_ ?_ ?_ ?_ ?_ ?_ ?_ ?_ ?_ ?_ ?_ ?_
  · exact dg m.wzd m.wyd (by linarith)
  · exact og _ _ _ _ _ hS2 s1' ha hb hc
  · exact og _ _ _ _ _ hS s1 ha hc hb
  · exact og _ _ _ _ _ hS s1 ha hb hc
  · exact dg m.wxd m.wzd (by linarith)
  · exact og _ _ _ _ _ hS2 s1' hb hc ha
  · exact og _ _ _ _ _ hS2 s1' ha hc hb
  · exact og _ _ _ _ _ hS s1 hb hc ha
  · exact dg m.wxd m.wyd (by linarith)
  · exact row _ _ _ _ _ _ (dt _ ha) (ot _ _ _ _ _ hC2 c2' ha hb hc) (ot _ _ _ _ _ hC' c2 ha hc hb)
      (bJ _ ha) (bK _ _ _ _ c2' ha hb hc) (bK _ _ _ _ c2 ha hc hb)
  · exact row _ _ _ _ _ _ (ot _ _ _ _ _ hC' c2 hb ha hc) (dt _ hb) (ot _ _ _ _ _ hC2 c2' hb hc ha)
      (bK _ _ _ _ c2 hb ha hc) (bJ _ hb) (bK _ _ _ _ c2' hb hc ha)
  · exact row _ _ _ _ _ _ (ot _ _ _ _ _ hC2 c2' hc ha hb) (ot _ _ _ _ _ hC' c2 hc hb ha) (dt _ hc)
      (bK _ _ _ _ c2' hc ha hb) (bK _ _ _ _ c2 hc hb ha) (bJ _ hc)

/-! ### The exact exponential -/

theorem exp_coef (m : AlMath.Velocity6D) (h : angSpeed m ≠ 0) : exp (twist m) =
    (AlMath.expMatrix ((1 - Real.cos (angSpeed m)) / angSpeed m ^ 2) (Real.sin (angSpeed m) / angSpeed m)
      ((angSpeed m - Real.sin (angSpeed m)) / angSpeed m ^ 3) m).mat := by
  have hsq := angSpeed_sq m
  rw [exp_closed_form (twist m) h (twist_four m hsq), expMatrix_twist]
  rw [← hsq]; field_simp; ring

theorem exp_zero (m : AlMath.Velocity6D) (h : angSpeed m = 0) : exp (twist m) = (AlMath.expMatrix 0.5 1 0.166666667 m).mat := by
  have hsq := angSpeed_sq m
  rw [h] at hsq
  have hx : m.wxd = 0 := by nlinarith [mul_self_nonneg m.wxd, mul_self_nonneg m.wyd, mul_self_nonneg m.wzd]
  have hy : m.wyd = 0 := by nlinarith [mul_self_nonneg m.wxd, mul_self_nonneg m.wyd, mul_self_nonneg m.wzd]
  have hz : m.wzd = 0 := by nlinarith [mul_self_nonneg m.wxd, mul_self_nonneg m.wyd, mul_self_nonneg m.wzd]
  rw [← C20_exp m (Or.inl (by ext i; fin_cases i <;> simp [angVel, hx, hy, hz])), velocityExponential_eq, h,
    if_neg (by norm_num)]
  norm_num

theorem mat_rot (x : AlMath.Transform) (i j : Fin 3) : x.mat i.castSucc j.castSucc = x.rotMat i j := by
  fin_cases i <;> fin_cases j <;> rfl

theorem mat_trans (x : AlMath.Transform) (i : Fin 3) : x.mat i.castSucc 3 = x.trans i := by
  fin_cases i <;> rfl

theorem threshold : ∃ κ, round 0.001 = fin κ ∧ 0.0009999 ≤ κ ∧ κ ≤ 0.0010001 := by
  have h : |(0.001 : ℝ)| = 0.001 := abs_of_pos (by norm_num)
  have r := rnd_bnd 0.001
  rw [h, abs_le] at r
  exact ⟨rnd 0.001, round_fin (by rw [h]; norm_num), by norm_num at r ⊢; linarith, by norm_num at r ⊢; linarith⟩

theorem sixth : ∃ κ, round 0.166666667 = fin κ ∧ |κ - 1 / 6| ≤ 1 / 10 ^ 7 := by
  have h : |(0.166666667 : ℝ)| = 0.166666667 := abs_of_pos (by norm_num)
  have r := rnd_bnd 0.166666667
  rw [h, abs_le] at r
  refine ⟨rnd 0.166666667, round_fin (by rw [h]; norm_num), ?_⟩
  rw [abs_le]
  constructor <;> norm_num at r ⊢ <;> linarith

/-! ### The coefficients below the threshold -/

theorem series_fin {T t : ℝ} (t0 : 0 ≤ t) (h1 : t ≤ 0.00101) (h : |T - t| ≤ 5.2 / 16777216 * t + 1 / 10 ^ 20) :
    ∃ S, sub (fin 1) (div (mul (fin T) (fin T)) (fin 6)) = fin S ∧ Rep S ∧ |S - (1 - t ^ 2 / 6)| ≤ 1.01 / 16777216 := by
  have hT : |T - t| ≤ 4 / 10 ^ 10 := h.trans (by norm_num; linarith)
  obtain ⟨T1, T2⟩ := abs_le.1 hT
  have t2 : t ^ 2 ≤ 0.0000011 := by nlinarith
  have k1 : |T * T - t ^ 2| ≤ 1 / 10 ^ 12 := by
    have e1 : T * T - t ^ 2 = (T - t) * (T + t) := by ring
    have e2 : |T + t| ≤ 0.0021 := by
      rw [abs_le]
      constructor <;> norm_num at * <;> linarith
    rw [e1, abs_mul]
    calc |T - t| * |T + t| ≤ 4 / 10 ^ 10 * 0.0021 := mul_le_mul hT e2 (abs_nonneg _) (by norm_num)
      _ ≤ _ := by norm_num
  have k2 : |T * T| ≤ 0.0000012 := by
    have := le_of_err k1
    rw [abs_of_nonneg (sq_nonneg t)] at this
    norm_num at *
    linarith
  have m1 : mul (fin T) (fin T) = fin (rnd (T * T)) := mul_fin (k2.trans (by norm_num))
  have r1 := rnd_bnd (T * T)
  have k3 : |rnd (T * T) / 6 - t ^ 2 / 6| ≤ 1 / 10 ^ 12 := by
    have := abs_add_le (rnd (T * T) - T * T) (T * T - t ^ 2)
    rw [sub_add_sub_cancel] at this
    rw [← sub_div, abs_div, abs_of_pos (show (0 : ℝ) < 6 by norm_num), div_le_iff₀ (by norm_num)]
    norm_num at *
    linarith
  have k4 : |rnd (T * T) / 6| ≤ 0.000001 := by
    have := le_of_err k3
    rw [abs_of_nonneg (show 0 ≤ t ^ 2 / 6 by positivity)] at this
    norm_num at *
    linarith
  have m2 : div (fin (rnd (T * T))) (fin 6) = fin (rnd (rnd (T * T) / 6)) := by
    rw [div, if_neg (by norm_num), round_fin (k4.trans (by norm_num))]
  have r2 := rnd_bnd (rnd (T * T) / 6)
  rw [m1, m2]
  generalize rnd (T * T) / 6 = q at *
  generalize rnd q = z at *
  have k5 : |1 - z - (1 - t ^ 2 / 6)| ≤ 2 / 10 ^ 12 := by
    have := abs_add_le (z - q) (q - t ^ 2 / 6)
    rw [sub_add_sub_cancel] at this
    have e : 1 - z - (1 - t ^ 2 / 6) = -(z - t ^ 2 / 6) := by ring
    rw [e, abs_neg]
    norm_num at *
    linarith
  have k6 : |1 - z| ≤ 1.001 := by
    have := le_of_err k5
    rw [abs_of_pos (show 0 < 1 - t ^ 2 / 6 by linarith)] at this
    have := sq_nonneg t
    norm_num at *
    linarith
  have r3 := rnd_bnd (1 - z)
  refine ⟨rnd (1 - z), sub_fin (k6.trans (by norm_num)), rnd_rep (k6.trans (by norm_num)), ?_⟩
  have := abs_add_le (rnd (1 - z) - (1 - z)) (1 - z - (1 - t ^ 2 / 6))
  rw [sub_add_sub_cancel] at this
  norm_num at *
  linarith

/-- The series against the exact coefficients. -/
theorem series_err {t : ℝ} (t0 : 0 < t) (h : t ≤ 0.00101) :
    |0.5 - (1 - Real.cos t) / t ^ 2| ≤ 1 / 10 ^ 7 ∧ |1 - t ^ 2 / 6 - Real.sin t / t| ≤ 1 / 10 ^ 10 ∧
      |1 / 6 - (t - Real.sin t) / t ^ 3| ≤ 1 / 10 ^ 4 := by
  have hc := Real.cos_bound (x := t) (by rw [abs_of_pos t0]; linarith)
  have hs := Real.sin_bound (x := t) (by rw [abs_of_pos t0]; linarith)
  rw [abs_of_pos t0] at hc hs
  have t2 : 0 < t ^ 2 := by positivity
  have t3 : 0 < t ^ 3 := by positivity
  have b2 : t ^ 2 ≤ 0.0000011 := by nlinarith
  refine ⟨?_, ?_, ?_⟩
  · have e : 0.5 - (1 - Real.cos t) / t ^ 2 = (Real.cos t - (1 - t ^ 2 / 2)) / t ^ 2 := by
      field_simp
      ring
    rw [e, abs_div, abs_of_pos t2, div_le_iff₀ t2]
    refine hc.trans ?_
    have : t ^ 4 = t ^ 2 * t ^ 2 := by ring
    rw [this]
    nlinarith
  · have e : 1 - t ^ 2 / 6 - Real.sin t / t = -(Real.sin t - (t - t ^ 3 / 6)) / t := by
      field_simp
      ring
    rw [e, abs_div, abs_neg, abs_of_pos t0, div_le_iff₀ t0]
    refine hs.trans ?_
    have e4 : t ^ 5 = t ^ 2 * t ^ 2 * t := by ring
    have e5 : t ^ 2 * t ^ 2 ≤ 0.0000011 * 0.0000011 := mul_le_mul b2 b2 t2.le (by norm_num)
    have := mul_le_mul_of_nonneg_right e5 t0.le
    rw [e4]
    norm_num at *
    linarith
  · have e : 1 / 6 - (t - Real.sin t) / t ^ 3 = (Real.sin t - (t - t ^ 3 / 6)) / t ^ 3 := by
      field_simp
      ring
    rw [e, abs_div, abs_of_pos t3, div_le_iff₀ t3]
    refine hs.trans ?_
    have e4 : t ^ 5 = t ^ 3 * t ^ 2 := by ring
    have := mul_le_mul_of_nonneg_left b2 t3.le
    rw [e4]
    norm_num at *
    linarith

/-! ### The two cases -/

theorem above {l : Libm} (hl : l.Accurate) {pow3 : F32 → F64} (hp : Pow3Accurate pow3) {m : AlMath.Velocity6D} {T t V : ℝ}
    (ht : t = angSpeed m) (hT : Rep T) (h : |T - t| ≤ 3.1 / 16777216 * t) (h1 : 0.00099 ≤ t) (h2 : t ≤ 65536)
    (hx : |m.xd| ≤ V) (hy : |m.yd| ≤ V) (hz : |m.zd| ≤ V) (hV : V ≤ 2 ^ 60) :
    ∃ A v, expMatrix (div (sub (fin 1) (l.cos (fin T))) (mul (fin T) (fin T))) (div (l.sin (fin T)) (fin T))
        (F64.toFloat (F64.div (sub (fin T) (l.sin (fin T))) (pow3 (fin T)))) (ofVelocity m) = Transform.ofMat A v ∧
      (∀ i j : Fin 3, |A i j - exp (twist m) i.castSucc j.castSucc| ≤ 2 ^ (-20 : ℤ) + 2 ^ (-19 : ℤ) * t) ∧
      ∀ i : Fin 3, |v i - exp (twist m) i.castSucc 3| ≤ (2 ^ (-16 : ℤ) + 2 ^ (-19 : ℤ) / t) * V + 2 ^ (-70 : ℤ) := by
  obtain ⟨C, S, D, eC, eS, eD, rS, bD, hC, hS, hD⟩ := coef_fin hl hp hT h h1 h2
  have t0 : 0 < t := by linarith
  have hsq : t ^ 2 = m.wxd * m.wxd + m.wyd * m.wyd + m.wzd * m.wzd := by rw [ht]; exact angSpeed_sq m
  have hexp := exp_coef m (by rw [← ht]; exact t0.ne')
  rw [← ht] at hexp
  have V0 := (abs_nonneg _).trans hx
  have t2 : 0 < t ^ 2 := by positivity
  have t2' : 9 / 10 ^ 7 ≤ t ^ 2 := by nlinarith
  have c1 := Real.cos_le_one t
  have c2 := Real.neg_one_le_cos t
  have X1 : |1 - Real.cos t| ≤ t := by
    have := Real.abs_cos_sub_cos_le 0 t
    rwa [Real.cos_zero, zero_sub, abs_neg, abs_of_pos t0] at this
  have X2 : |Real.sin t| ≤ t := by
    have := Real.abs_sin_le_abs (x := t)
    rwa [abs_of_pos t0] at this
  have X3 : |t - Real.sin t| ≤ 2 * t := by
    obtain ⟨k1, k2⟩ := abs_le.1 X2
    rw [abs_le]; constructor <;> linarith
  obtain ⟨r, hr⟩ : ∃ r, r = 1 / t := ⟨_, rfl⟩
  have r0 : 0 < r := by rw [hr]; positivity
  have rt : r * t = 1 := by rw [hr]; field_simp
  have r1 : r ≤ 1100 := by nlinarith
  have aC : |C - (1 - Real.cos t) / t ^ 2| * t ^ 2 = |C * t ^ 2 - (1 - Real.cos t)| := by
    rw [← abs_of_pos t2, ← abs_mul, abs_of_pos t2, sub_mul, div_mul_cancel₀ _ t2.ne']
  have aC' : |C - (1 - Real.cos t) / t ^ 2| * t = |C * t ^ 2 - (1 - Real.cos t)| * r := by
    rw [← aC, hr]; field_simp
  have aS : |S - Real.sin t / t| * t = |S * t - Real.sin t| := by
    rw [← abs_of_pos t0, ← abs_mul, abs_of_pos t0, sub_mul, div_mul_cancel₀ _ t0.ne']
  have aS' : |S - Real.sin t / t| = |S * t - Real.sin t| * r := by
    rw [← aS, hr]; field_simp
  have aD : |D - (t - Real.sin t) / t ^ 3| * t ^ 2 = |D * t ^ 3 - (t - Real.sin t)| * r := by
    have t3 : 0 < t ^ 3 := by positivity
    have : |D * t ^ 3 - (t - Real.sin t)| = |D - (t - Real.sin t) / t ^ 3| * t ^ 3 := by
      rw [← abs_of_pos t3, ← abs_mul, abs_of_pos t3, sub_mul, div_mul_cancel₀ _ t3.ne']
    rw [this, hr]; field_simp
  have bC : |C| ≤ 2 := by
    have k1 : |C| * t ^ 2 ≤ 2 * t ^ 2 := by
      have k2 := le_of_err hC
      rw [abs_mul, abs_of_pos t2, abs_of_nonneg (show 0 ≤ 1 - Real.cos t by linarith)] at k2
      have k3 := Real.one_sub_sq_div_two_le_cos (x := t)
      have k4 : t ≤ 1100 * t ^ 2 := by nlinarith
      linarith
    exact le_of_mul_le_mul_right k1 t2
  have hCr : |C * t ^ 2 - (1 - Real.cos t)| * r ≤ (4.1 * r + 20) / 16777216 := by
    have := mul_le_mul_of_nonneg_right hC r0.le
    have e : (4.1 + 20 * t) / 16777216 * r = (4.1 * r + 20 * (r * t)) / 16777216 := by ring
    rwa [e, rt, mul_one] at this
  have hSr : |S * t - Real.sin t| * r ≤ (4.1 * r + 20) / 16777216 := by
    have := mul_le_mul_of_nonneg_right hS r0.le
    have e : (2.1 + 7.4 * t) / 16777216 * r = (2.1 * r + 7.4 * (r * t)) / 16777216 := by ring
    rw [e, rt, mul_one] at this
    linarith
  have hDr : |D * t ^ 3 - (t - Real.sin t)| * r ≤ (2.2 * r + 30) / 16777216 := by
    have := mul_le_mul_of_nonneg_right hD r0.le
    have e : (2.2 + 30 * t) / 16777216 * r = (2.2 * r + 30 * (r * t)) / 16777216 := by ring
    rwa [e, rt, mul_one] at this
  have q0 : 0 ≤ (1 - Real.cos t) / t ^ 2 := div_nonneg (by linarith) t2.le
  have q1 : |(1 - Real.cos t) / t ^ 2| * t ^ 2 ≤ 2 := by
    rw [abs_of_nonneg q0, div_mul_cancel₀ _ t2.ne']
    linarith
  have q2 : |(1 - Real.cos t) / t ^ 2| * t ≤ 1 := by
    have e : |(1 - Real.cos t) / t ^ 2| * t = |1 - Real.cos t| * r := by
      rw [abs_div, abs_of_pos t2, hr]; field_simp
    rw [e]
    have := mul_le_mul_of_nonneg_right X1 r0.le
    linarith
  have q3 : |Real.sin t / t| * t ≤ 1 := by
    rw [abs_div, abs_of_pos t0, div_mul_cancel₀ _ t0.ne']
    exact Real.abs_sin_le_one t
  have q4 : |Real.sin t / t| ≤ 1 := by
    rw [abs_div, abs_of_pos t0]
    exact div_le_one_of_le₀ X2 t0.le
  have q5 : |(t - Real.sin t) / t ^ 3| * t ^ 2 ≤ 2 := by
    have e : |(t - Real.sin t) / t ^ 3| * t ^ 2 = |t - Real.sin t| * r := by
      rw [abs_div, abs_of_pos (show 0 < t ^ 3 by positivity), hr]; field_simp
    rw [e]
    have := mul_le_mul_of_nonneg_right X3 r0.le
    linarith
  obtain ⟨A, v, k1, k2, k3⟩ := core t0.le hsq h2 rS (aC.le.trans hC) (aC'.le.trans hCr) (aS.le.trans hS) (aS'.le.trans hSr)
    (aD.le.trans hDr) q0 q1 q2 q3 q4 q5 bC (bD.trans (by norm_num)) (by linarith) (by linarith) (by linarith) (by linarith)
    hx hy hz hV
  refine ⟨A, v, by rw [eC, eS, eD, k1], fun i j => ?_, fun i => ?_⟩
  · rw [hexp, mat_rot]
    refine (k2 i j).trans ?_
    norm_num
    linarith
  · rw [hexp, mat_trans]
    refine (k3 i).trans ?_
    have e : (2 : ℝ) ^ (-19 : ℤ) / t = 2 ^ (-19 : ℤ) * r := by rw [hr]; ring
    have w : (1 : ℝ) / 10 ^ 24 ≤ 2 ^ (-70 : ℤ) := by norm_num
    rw [e]
    refine add_le_add (mul_le_mul_of_nonneg_right ?_ V0) w
    norm_num
    linarith

theorem below {m : AlMath.Velocity6D} {T t V : ℝ} (ht : t = angSpeed m) (h : |T - t| ≤ 5.2 / 16777216 * t + 1 / 10 ^ 20)
    (h1 : t ≤ 0.00101) (hx : |m.xd| ≤ V) (hy : |m.yd| ≤ V) (hz : |m.zd| ≤ V) (hV : V ≤ 2 ^ 60) :
    ∃ A v, expMatrix (fin 0.5) (sub (fin 1) (div (mul (fin T) (fin T)) (fin 6))) (round 0.166666667) (ofVelocity m) =
        Transform.ofMat A v ∧
      (∀ i j : Fin 3, |A i j - exp (twist m) i.castSucc j.castSucc| ≤ 2 ^ (-20 : ℤ)) ∧
      ∀ i : Fin 3, |v i - exp (twist m) i.castSucc 3| ≤ 2 ^ (-18 : ℤ) * V + 2 ^ (-70 : ℤ) := by
  have t0 : 0 ≤ t := by rw [ht]; exact Real.sqrt_nonneg _
  obtain ⟨S, eS, rS, hS⟩ := series_fin t0 h1 h
  obtain ⟨D, eD, hD⟩ := sixth
  have hsq : t ^ 2 = m.wxd * m.wxd + m.wyd * m.wyd + m.wzd * m.wzd := by rw [ht]; exact angSpeed_sq m
  have V0 := (abs_nonneg _).trans hx
  have t2 : t ^ 2 ≤ 0.0000011 := by nlinarith
  have t2' := sq_nonneg t
  obtain ⟨kc, ks, kd, hk, k0, k1, k2, k3, k4⟩ : ∃ kc ks kd, exp (twist m) = (AlMath.expMatrix kc ks kd m).mat ∧ 0 ≤ kc ∧
      |0.5 - kc| ≤ 1 / 10 ^ 7 ∧ |1 - t ^ 2 / 6 - ks| ≤ 1 / 10 ^ 10 ∧ |1 / 6 - kd| ≤ 1 / 10 ^ 4 ∧ |ks| ≤ 1 := by
    rcases t0.eq_or_lt with h0 | h0
    · refine ⟨0.5, 1, 0.166666667, exp_zero m (by rw [← ht, ← h0]), by norm_num, by norm_num, ?_, ?_, by norm_num⟩
      · rw [← h0]; norm_num
      · rw [abs_le]; constructor <;> norm_num
    · obtain ⟨s1, s2, s3⟩ := series_err h0 h1
      have hexp := exp_coef m (by rw [← ht]; exact h0.ne')
      rw [← ht] at hexp
      refine ⟨_, _, _, hexp, div_nonneg (by linarith [Real.cos_le_one t]) (sq_nonneg t), s1, s2, s3, ?_⟩
      rw [abs_div, abs_of_pos h0]
      have := Real.abs_sin_le_abs (x := t)
      rw [abs_of_pos h0] at this
      exact div_le_one_of_le₀ this t0
  have a1 : |kc| ≤ 0.6 := by
    rw [abs_le] at k1 ⊢
    constructor <;> norm_num at k1 ⊢ <;> linarith
  have a2 : |kd| ≤ 1 := by
    rw [abs_le] at k3 ⊢
    constructor <;> norm_num at k3 ⊢ <;> linarith
  have a3 : |S - ks| ≤ 1.02 / 16777216 := by
    have := abs_add_le (S - (1 - t ^ 2 / 6)) (1 - t ^ 2 / 6 - ks)
    rw [sub_add_sub_cancel] at this
    norm_num at *
    linarith
  have a4 : |D - kd| ≤ 2 / 10 ^ 4 := by
    have := abs_add_le (D - 1 / 6) (1 / 6 - kd)
    rw [sub_add_sub_cancel] at this
    norm_num at *
    linarith
  have a5 : |D| ≤ 2 := by
    rw [abs_le] at hD ⊢
    constructor <;> norm_num at hD ⊢ <;> linarith
  have p1 : |0.5 - kc| * t ^ 2 ≤ 1 / 10 ^ 10 :=
    (mul_le_mul k1 t2 t2' (by norm_num)).trans (by norm_num)
  have p2 : |0.5 - kc| * t ≤ 1.02 / 16777216 := (mul_le_mul k1 h1 t0 (by norm_num)).trans (by norm_num)
  have p3 : |S - ks| * t ≤ 1 / 10 ^ 9 := (mul_le_mul a3 h1 t0 (by norm_num)).trans (by norm_num)
  have p4 : |D - kd| * t ^ 2 ≤ 1 / 10 ^ 9 := (mul_le_mul a4 t2 t2' (by norm_num)).trans (by norm_num)
  have p5 : |kc| * t ^ 2 ≤ 2 := (mul_le_mul a1 t2 t2' (by norm_num)).trans (by norm_num)
  have p6 : |kc| * t ≤ 1 := (mul_le_mul a1 h1 t0 (by norm_num)).trans (by norm_num)
  have p7 : |ks| * t ≤ 1 := (mul_le_mul k4 h1 t0 (by norm_num)).trans (by norm_num)
  have p8 : |kd| * t ^ 2 ≤ 2 := (mul_le_mul a2 t2 t2' (by norm_num)).trans (by norm_num)
  obtain ⟨A, v, j1, j2, j3⟩ := core t0 hsq (h1.trans (by norm_num)) rS p1 p2 p3 a3 p4 k0 p5 p6 p7 k4 p8
    (by rw [abs_le]; constructor <;> norm_num) (a5.trans (by norm_num)) (by norm_num) (by norm_num) (by norm_num) (by norm_num)
    hx hy hz hV
  refine ⟨A, v, by rw [eS, eD, j1], fun i j => ?_, fun i => ?_⟩
  · rw [hk, mat_rot]
    refine (j2 i j).trans ?_
    norm_num
  · rw [hk, mat_trans]
    refine (j3 i).trans ?_
    have w : (1 : ℝ) / 10 ^ 24 ≤ 2 ^ (-70 : ℤ) := by norm_num
    refine add_le_add (mul_le_mul_of_nonneg_right ?_ V0) w
    norm_num

open Classical in
theorem exp_cases (l : Libm) (pow3 : F32 → F64) (p : Velocity6D) {T κ : F32}
    (h : sqrt (add (add (mul p.wxd p.wxd) (mul p.wyd p.wyd)) (mul p.wzd p.wzd)) = T) (hκ : round 0.001 = κ) :
    velocityExponential l pow3 p = if le κ T then
      expMatrix (div (sub (fin 1) (l.cos T)) (mul T T)) (div (l.sin T) T)
        (F64.toFloat (F64.div (sub T (l.sin T)) (pow3 T))) p
      else expMatrix (fin 0.5) (sub (fin 1) (div (mul T T) (fin 6))) (round 0.166666667) p := by
  subst h hκ
  rfl

/-! ### The theorems -/

/-- The matrix of `velocityExponential` against the exact exponential of the velocity, for an angular speed up to 65536: the
rotation is off by at most `2^-20` plus `2^-19` times the angular speed in each entry; the translation is off by at most
`2^-18` times the linear speed below the threshold of the series, and above it by an error that grows like the inverse of
the angular speed. -/
theorem C101_exp (l : Libm) (hl : l.Accurate) (pow3 : F32 → F64) (hp : Pow3Accurate pow3) (m : AlMath.Velocity6D) (V : ℝ)
    (h : angSpeed m ≤ 2 ^ 16) (hx : |m.xd| ≤ V) (hy : |m.yd| ≤ V) (hz : |m.zd| ≤ V) (hV : V ≤ 2 ^ 60) :
    ∃ A v, velocityExponential l pow3 (ofVelocity m) = Transform.ofMat A v ∧
      (∀ i j : Fin 3, |A i j - exp (twist m) i.castSucc j.castSucc| ≤ 2 ^ (-20 : ℤ) + 2 ^ (-19 : ℤ) * angSpeed m) ∧
      (∀ i : Fin 3, |v i - exp (twist m) i.castSucc 3| ≤ (2 ^ (-16 : ℤ) + 2 ^ (-19 : ℤ) / angSpeed m) * V + 2 ^ (-70 : ℤ)) ∧
      (angSpeed m < 0.00099 → ∀ i : Fin 3, |v i - exp (twist m) i.castSucc 3| ≤ 2 ^ (-18 : ℤ) * V + 2 ^ (-70 : ℤ)) := by
  have t0 : 0 ≤ angSpeed m := Real.sqrt_nonneg _
  have V0 := (abs_nonneg _).trans hx
  norm_num at h
  obtain ⟨T, eT, rT, T0, hT, hT'⟩ := speed_fin (angSpeed_sq m) t0 h
  obtain ⟨κ, eκ, κ1, κ2⟩ := threshold
  have hT2 := abs_le.1 hT
  norm_num at hT2 κ1 κ2
  rw [exp_cases l pow3 (ofVelocity m) eT eκ]
  by_cases hc : le (fin κ) (fin T)
  · rw [if_pos hc]
    have h1 : 0.00099 ≤ angSpeed m := by
      have : κ ≤ T := le_iff_lt_or_eq.2 hc
      norm_num
      linarith
    obtain ⟨A, v, k1, k2, k3⟩ := above hl hp rfl rT (hT' (by linarith)) h1 h hx hy hz hV
    exact ⟨A, v, k1, k2, k3, fun h2 => absurd h2 (not_lt.2 h1)⟩
  · rw [if_neg hc]
    have h1 : angSpeed m ≤ 0.00101 := by 
      have : ¬ κ ≤ T := fun k => hc (le_iff_lt_or_eq.1 k)
      norm_num
      linarith [not_le.1 this]
    obtain ⟨A, v, k1, k2, k3⟩ := below rfl hT h1 hx hy hz hV
    refine ⟨A, v, k1, fun i j => (k2 i j).trans ?_, fun i => (k3 i).trans ?_, fun _ => k3⟩
    · have := mul_nonneg (two_zpow_pos (-19)).le t0
      linarith
    · have k4 : (2 : ℝ) ^ (-18 : ℤ) ≤ 2 ^ (-16 : ℤ) := two_zpow_le (by norm_num)
      have k5 := div_nonneg (two_zpow_pos (-19)).le t0
      have := mul_le_mul_of_nonneg_right (show (2 : ℝ) ^ (-18 : ℤ) ≤ 2 ^ (-16 : ℤ) + 2 ^ (-19 : ℤ) / angSpeed m by linarith) V0
      linarith

theorem mul_zero_fin (x : ℝ) : mul (fin x) (fin 0) = fin 0 := by
  rw [mul_fin (by simp), mul_zero, rnd_zero]

theorem zero_mul_fin (x : ℝ) : mul (fin 0) (fin x) = fin 0 := by
  rw [mul_fin (by simp), zero_mul, rnd_zero]

theorem add_zero_fin {x : ℝ} (h : Rep x) : add (fin x) (fin 0) = fin x := by
  rw [add, add_zero, round_rep h]

theorem zero_add_fin {x : ℝ} (h : Rep x) : add (fin 0) (fin x) = fin x := by
  rw [add, zero_add, round_rep h]

theorem one_mul_fin {x : ℝ} (h : Rep x) : mul (fin 1) (fin x) = fin x := by
  rw [mul, one_mul, round_rep h]

theorem mul_one_fin {x : ℝ} (h : Rep x) : mul (fin x) (fin 1) = fin x := by
  rw [mul, mul_one, round_rep h]

/-- Without rotation the result is the translation, without any error. -/
theorem C101_translation (l : Libm) (pow3 : F32 → F64) (x y z : ℝ) (hx : Rep x) (hy : Rep y) (hz : Rep z) :
    velocityExponential l pow3 ⟨fin x, fin y, fin z, fin 0, fin 0, fin 0⟩ = Transform.ofMat 1 ![x, y, z] := by
  obtain ⟨κ, eκ, κ1, -⟩ := threshold
  obtain ⟨D, eD, -⟩ := sixth
  have hs : sqrt (fin 0) = fin 0 := by
    rw [sqrt, if_neg (lt_irrefl _), Real.sqrt_zero, round_rep Rep.zero]
  have e0 : sqrt (add (add (mul (fin 0) (fin 0)) (mul (fin 0) (fin 0))) (mul (fin 0) (fin 0))) = fin 0 := by
    rw [mul_zero_fin, add_zero_fin Rep.zero, add_zero_fin Rep.zero, hs]
  have hn : neg (fin 0) = fin 0 := by simp [neg]
  have hd : div (fin 0) (fin 6) = fin 0 := by
    rw [div, if_neg (by norm_num), zero_div, round_rep Rep.zero]
  have h1 : sub (fin 1) (fin 0) = fin 1 := by rw [sub, hn, add_zero_fin Rep.one]
  rw [exp_cases l pow3 _ e0 eκ, if_neg (fun h => by
    have : κ ≤ 0 := (le_iff_fin _ _).1 h
    norm_num at κ1
    linarith), eD]
  simp only [expMatrix, mul_zero_fin, add_zero_fin Rep.zero, add_zero_fin Rep.one, hd, h1, one_mul_fin hx, one_mul_fin hy,
    one_mul_fin hz, neg, zero_mul_fin, neg_zero, add_zero_fin hx, zero_add_fin hy, add_zero_fin hy, zero_add_fin hz]
  ext <;> simp [Transform.ofMat, Rotation.ofMat]

/-- A velocity of rotation with a NaN makes every entry of the result NaN that is not on the diagonal. -/
theorem C101_nan (l : Libm) (pow3 : F32 → F64) (p : Velocity6D) (h : p.wxd = nan ∨ p.wyd = nan ∨ p.wzd = nan) :
    let t := velocityExponential l pow3 p
    t.r.r12 = nan ∧ t.r.r13 = nan ∧ t.r.r21 = nan ∧ t.r.r23 = nan ∧ t.r.r31 = nan ∧ t.r.r32 = nan ∧
      t.r14 = nan ∧ t.r24 = nan ∧ t.r34 = nan := by
  have e0 : sqrt (add (add (mul p.wxd p.wxd) (mul p.wyd p.wyd)) (mul p.wzd p.wzd)) = nan := by
    rcases h with h | h | h <;> rw [h] <;> simp [nan_mul, nan_add, add_nan, sqrt]
  have e1 : sub (fin 1) (div (mul nan nan) (fin 6)) = nan := by
    simp [nan_mul, sub_nan, div]
  rw [exp_cases l pow3 p e0 rfl, if_neg (not_le_nan _), e1]
  simp [expMatrix, nan_mul, nan_add, add_nan, neg]

/-- Just above the threshold of the series most of the digits of `CC` are lost: with functions of `<cmath>` that round
correctly, an angular speed of 33/32768 and a linear speed of 1, a coordinate of the translation is off by more than
`2^-16`. -/
theorem C101_loss (pow3 : F32 → F64) (hp : Pow3Accurate pow3) :
    ∃ m, angSpeed m = 33 / 32768 ∧ |m.xd| ≤ 1 ∧ |m.yd| ≤ 1 ∧ |m.zd| ≤ 1 ∧
      ∃ A v, velocityExponential Libm.rounded pow3 (ofVelocity m) = Transform.ofMat A v ∧
        2 ^ (-16 : ℤ) < |v 1 - exp (twist m) 1 3| := by
  have hsp : angSpeed (⟨0, 0, 1, 33 / 32768, 0, 0⟩ : AlMath.Velocity6D) = 33 / 32768 := by
    rw [angSpeed, lenSq_angVel]
    simp only [mul_zero, add_zero]
    exact Real.sqrt_mul_self (by norm_num)
  refine ⟨⟨0, 0, 1, 33 / 32768, 0, 0⟩, hsp, by norm_num, by norm_num, by norm_num, ?_⟩
  obtain ⟨κ, eκ, -, κ2⟩ := threshold
  have ra : Rep (33 / 32768) := ⟨33, -15, by norm_num, by norm_num, by norm_num, by norm_num⟩
  have raa : Rep (33 / 32768 * (33 / 32768)) := ⟨1089, -30, by norm_num, by norm_num, by norm_num, by norm_num⟩
  have maa : mul (fin (33 / 32768)) (fin (33 / 32768)) = fin (33 / 32768 * (33 / 32768)) := round_rep raa
  have e0 : sqrt (add (add (mul (fin (33 / 32768)) (fin (33 / 32768))) (mul (fin 0) (fin 0))) (mul (fin 0) (fin 0))) =
      fin (33 / 32768) := by
    rw [maa, mul_zero_fin, add_zero_fin raa, add_zero_fin raa, sqrt, if_neg (by norm_num),
      Real.sqrt_mul_self (by norm_num), round_rep ra]
  obtain ⟨A, v, k1, k2, k3, -⟩ := C101_exp Libm.rounded rounded_accurate pow3 hp ⟨0, 0, 1, 33 / 32768, 0, 0⟩ 1
    (by rw [hsp]; norm_num) (by norm_num) (by norm_num) (by norm_num) (by norm_num)
  refine ⟨A, v, k1, ?_⟩
  have hc := Real.cos_bound (x := 33 / 32768) (by rw [abs_of_pos (by norm_num)]; norm_num)
  rw [abs_of_pos (show (0 : ℝ) < 33 / 32768 by norm_num), abs_le] at hc
  norm_num at hc
  have cosr : Libm.rounded.cos (fin (33 / 32768)) = fin (1 - 9 / 16777216) := by
    have cp : 0 < Real.cos (33 / 32768) := by linarith
    have := rnd_eq (x := Real.cos (33 / 32768)) (m := 16777207) (k := -1) (by rw [abs_of_pos cp]; norm_num; linarith)
      (by rw [abs_of_pos cp]; norm_num; linarith) (by norm_num) (by rw [abs_lt]; constructor <;> norm_num <;> linarith)
    change round (Real.cos (33 / 32768)) = _
    rw [round_fin (by rw [abs_of_pos cp]; norm_num; linarith), this]
    norm_num
  have rq : Rep (9 / 16777216) := ⟨9, -24, by norm_num, by norm_num, by norm_num, by norm_num⟩
  have e1 : sub (fin 1) (Libm.rounded.cos (fin (33 / 32768))) = fin (9 / 16777216) := by
    rw [cosr, sub, neg, add, show (1 : ℝ) + -(1 - 9 / 16777216) = 9 / 16777216 by ring, round_rep rq]
  have e2 : div (fin (9 / 16777216)) (fin (33 / 32768 * (33 / 32768))) = fin (rnd (64 / 121)) := by
    rw [div, if_neg (by norm_num), round_fin (by rw [abs_of_pos (by norm_num)]; norm_num)]
    congr 2
    norm_num
  obtain ⟨C, S, D, eC, eS, eD, rS, -⟩ := coef_fin rounded_accurate hp ra (t := 33 / 32768) (by norm_num) (by norm_num)
    (by norm_num)
  have eC' := eC
  rw [e1, maa, e2] at eC'
  have hC := fin.inj eC'
  have rC := rnd_bnd (64 / 121)
  rw [abs_of_pos (show (0 : ℝ) < 64 / 121 by norm_num), hC, abs_le] at rC
  norm_num at rC
  have hCa : |(-C) * (33 / 32768)| ≤ 0.001 := by
    rw [abs_le]
    constructor <;> norm_num <;> linarith
  rw [exp_cases Libm.rounded pow3 _ e0 eκ, if_pos ((le_iff_fin _ _).2 (by norm_num at κ2 ⊢; linarith)), eC, eS, eD] at k1
  have hv : fin (v 1) = mul (neg (fin C)) (fin (33 / 32768)) := by
    have := congrArg Transform.r24 k1
    have q : mul (neg (fin C)) (fin (33 / 32768)) = fin (rnd (-C * (33 / 32768))) := mul_fin (hCa.trans (by norm_num))
    have rq := rnd_rep (x := -C * (33 / 32768)) (hCa.trans (by norm_num))
    simp only [expMatrix, ofVelocity, mul_zero_fin, zero_mul_fin, add_zero_fin Rep.zero, add_zero_fin rS, zero_add_fin Rep.zero,
      q, add_zero_fin rq, mul_one_fin rq, zero_add_fin rq] at this
    rw [q, this]
    rfl
  have hex : exp (twist (⟨0, 0, 1, 33 / 32768, 0, 0⟩ : AlMath.Velocity6D)) 1 3 =
      -((1 - Real.cos (33 / 32768)) / (33 / 32768)) := by
    rw [exp_coef _ (by rw [hsp]; norm_num), hsp]
    simp [AlMath.expMatrix, AlMath.Transform.mat]
    field_simp
  rw [hex]
  rw [neg, mul_fin (hCa.trans (by norm_num))] at hv
  have rv := rnd_bnd (-C * (33 / 32768))
  rw [← fin.inj hv, abs_le] at rv
  norm_num at rv hCa
  rw [lt_abs]
  right
  norm_num
  linarith

theorem exp_isRot (m : AlMath.Velocity6D) :
    IsRot (Matrix.of fun i j : Fin 3 => exp (twist m) i.castSucc j.castSucc) := by
  have hsq := angSpeed_sq m
  by_cases h : angSpeed m = 0
  · rw [h] at hsq
    have hx : m.wxd = 0 := by nlinarith [mul_self_nonneg m.wxd, mul_self_nonneg m.wyd, mul_self_nonneg m.wzd]
    have hy : m.wyd = 0 := by nlinarith [mul_self_nonneg m.wxd, mul_self_nonneg m.wyd, mul_self_nonneg m.wzd]
    have hz : m.wzd = 0 := by nlinarith [mul_self_nonneg m.wxd, mul_self_nonneg m.wyd, mul_self_nonneg m.wzd]
    have : (Matrix.of fun i j : Fin 3 => exp (twist m) i.castSucc j.castSucc) = 1 := by
      ext i j
      rw [Matrix.of_apply, exp_zero m h, mat_rot]
      fin_cases i <;> fin_cases j <;> simp [AlMath.expMatrix, AlMath.Transform.rotMat, hx, hy, hz]
    rw [this]
    exact IsRot.one
  · have : (Matrix.of fun i j : Fin 3 => exp (twist m) i.castSucc j.castSucc) =
        rodrigues ((angSpeed m)⁻¹ • angVel m) (angSpeed m) := by
      ext i j
      rw [Matrix.of_apply, exp_coef m h, mat_rot]
      fin_cases i <;> fin_cases j <;>
        simp [AlMath.expMatrix, AlMath.Transform.rotMat, rodrigues, skew, angVel, Matrix.mul_apply,
          Fin.sum_univ_three] <;> field_simp <;> ring
    rw [this]
    apply rodrigues_isRot
    simp [lenSq, angVel, dotProduct, Fin.sum_univ_three]
    field_simp
    linarith

/-- For a rotation by up to 3.5 radians, `isTransform` accepts the result with its default tolerance 0.0001f. -/
theorem C101_accepted (l : Libm) (hl : l.Accurate) (pow3 : F32 → F64) (hp : Pow3Accurate pow3) (m : AlMath.Velocity6D)
    (h : angSpeed m ≤ 3.5) (hx : |m.xd| ≤ 2 ^ 60) (hy : |m.yd| ≤ 2 ^ 60) (hz : |m.zd| ≤ 2 ^ 60) :
    Transform.isTransform (velocityExponential l pow3 (ofVelocity m)) (round 0.0001) = true := by
  obtain ⟨A, v, k1, k2, -⟩ := C101_exp l hl pow3 hp m (2 ^ 60) (h.trans (by norm_num)) hx hy hz le_rfl
  have r := rnd_bnd 0.0001
  have e : |(0.0001 : ℝ)| = 0.0001 := abs_of_pos (by norm_num)
  rw [e, abs_le] at r
  rw [k1, round_fin (by rw [e]; norm_num)]
  refine C80_accepts A _ (exp_isRot m) (3 * (8 / 1048576)) _ ?_ (by norm_num) (rnd_rep (by rw [e]; norm_num)) ?_
  · refine fro_le_of fun i j => ?_
    refine (k2 i j).trans ?_
    norm_num at h ⊢
    linarith
  · norm_num at r ⊢
    linarith

/-! ### Examples -/

/-- A correctly rounded cube. Helper of the proofs. Not in /repo: specification. -/
noncomputable def pow3Rounded : F32 → F64
  | fin x => F64.round (x ^ 3)
  | _ => nan

theorem pow3Rounded_accurate : Pow3Accurate pow3Rounded := by
  intro x _ h1 h2
  have x0 : 0 < x := lt_of_lt_of_le (two_zpow_pos _) h1
  have x3 : 2 ^ (-33 : ℤ) ≤ x ^ 3 := by
    have := pow_le_pow_left₀ (two_zpow_pos (-11)).le h1 3
    refine le_trans ?_ this
    norm_num
  have x3' : x ^ 3 ≤ 2 ^ 51 := by
    have := pow_le_pow_left₀ x0.le h2 3
    refine this.trans ?_
    norm_num
  have p : 0 < x ^ 3 := by positivity
  refine ⟨F64.rnd (x ^ 3), F64.round_fin ?_, ?_⟩
  · rw [abs_of_pos p]
    exact x3'.trans (pow_le_pow_right₀ (by norm_num) (by norm_num))
  · have r := F64.rnd_gen (x ^ 3)
    rw [abs_of_pos p] at r
    have w : (2 : ℝ) ^ (-1075 : ℤ) ≤ 2 ^ (-90 : ℤ) := two_zpow_le (by norm_num)
    have w1 : (2 : ℝ) ^ (-90 : ℤ) = 2 ^ (-57 : ℤ) * 2 ^ (-33 : ℤ) := by rw [← zpow_add₀ (by norm_num)]; norm_num
    have w2 := mul_le_mul_of_nonneg_left x3 (two_zpow_pos (-57)).le
    have w3 : (2 : ℝ) ^ (-53 : ℤ) + 2 ^ (-57 : ℤ) ≤ 2 ^ (-50 : ℤ) := by norm_num
    have w4 := mul_le_mul_of_nonneg_right w3 p.le
    rw [add_mul] at w4
    linarith

/-- A quarter turn per second about the third axis (as far as floats allow), with a linear speed: 1.5 radians. -/
example : ∃ A v, velocityExponential Libm.rounded pow3Rounded
      (ofVelocity ⟨1, 0, 0, 0, 0, 3 / 2⟩) = Transform.ofMat A v ∧
    |A 0 0 - Real.cos (3 / 2)| ≤ 2 ^ (-18 : ℤ) ∧ |v 0 - Real.sin (3 / 2) / (3 / 2)| ≤ 2 ^ (-15 : ℤ) := by
  have hs : angSpeed ⟨1, 0, 0, 0, 0, 3 / 2⟩ = 3 / 2 := angSpeed_z _ (by norm_num) _ _ _
  obtain ⟨A, v, h1, h2, h3, -⟩ := C101_exp _ rounded_accurate _ pow3Rounded_accurate ⟨1, 0, 0, 0, 0, 3 / 2⟩ 1
    (by rw [hs]; norm_num) (by norm_num) (by norm_num) (by norm_num) (by norm_num)
  have e := exp_coef ⟨1, 0, 0, 0, 0, 3 / 2⟩ (by rw [hs]; norm_num)
  have h4 := h2 0 0
  have h5 := h3 0
  rw [e, hs, mat_rot] at h4
  rw [e, hs, mat_trans] at h5
  refine ⟨A, v, h1, ?_, ?_⟩
  · have : (1 : ℝ) - (1 - Real.cos (3 / 2)) / (3 / 2) ^ 2 * (3 / 2 * (3 / 2) + 0 * 0) = Real.cos (3 / 2) := by ring
    have h6 : |A 0 0 - (1 - (1 - Real.cos (3 / 2)) / (3 / 2) ^ 2 * (3 / 2 * (3 / 2) + 0 * 0))| ≤ _ := h4
    rw [this] at h6
    exact h6.trans (by norm_num)
  · simp [AlMath.expMatrix, AlMath.Transform.trans] at h5
    refine le_trans ?_ (h5.trans (by norm_num))
    norm_num

end AlMath.F32
