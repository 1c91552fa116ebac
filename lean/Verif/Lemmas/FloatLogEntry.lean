import Verif.Lemmas.FloatLogRound

/-!
Errors of the entries of the matrix that `transformLogarithm` applies to the translation.
-/

namespace AlMath.F32

open AlMath.Spec Spec

/-! ### Products -/

theorem mul_step {x X y a b : ℝ} (hx : |x - X| ≤ a * |X| + b) (ha : a ≤ 1 / 1000) (hb : 0 ≤ b) :
    |rnd (x * y) - X * y| ≤ (a + 1.01 / 16777216) * |X * y| + (1.01 * (b * |y|) + 1 / 10 ^ 25) := by
  have r := rnd_bnd (x * y)
  have k1 : |x * y - X * y| ≤ a * |X * y| + b * |y| := by
    rw [← sub_mul, abs_mul, abs_mul X y]
    have := mul_le_mul_of_nonneg_right hx (abs_nonneg y)
    linarith
  have k2 := le_of_err k1
  have k3 := abs_add_le (rnd (x * y) - x * y) (x * y - X * y)
  rw [sub_add_sub_cancel] at k3
  have n := abs_nonneg (X * y)
  have a1 : a * |X * y| ≤ 1 / 1000 * |X * y| := mul_le_mul_of_nonneg_right ha n
  have b0 : 0 ≤ b * |y| := by positivity
  rw [add_mul a]
  have r' : |rnd (x * y) - x * y| ≤ 1 / 16777216 * (|X * y| + (a * |X * y| + b * |y|)) + 1 / 10 ^ 25 := by linarith
  generalize |X * y| = M at *
  generalize b * |y| = N at *
  clear r k2
  generalize (10 : ℝ) ^ 25 = z at *
  linarith

theorem two_mul_fin {c d : ℝ} (hc : |c| ≤ 10 ^ 7) (hd : |d| ≤ 3) :
    mul (fin c) (fin d) = fin (rnd (c * d)) ∧ |c * d| ≤ 3 * 10 ^ 7 ∧
      |rnd (c * d) - c * d| ≤ 1.01 / 16777216 * |c * d| + 1.1 / 10 ^ 25 := by
  have b : |c * d| ≤ 3 * 10 ^ 7 := by
    rw [abs_mul]
    calc |c| * |d| ≤ 10 ^ 7 * 3 := mul_le_mul hc hd (abs_nonneg _) (by norm_num)
      _ = _ := by norm_num
  have r := rnd_bnd (c * d)
  have := abs_nonneg (c * d)
  refine ⟨mul_fin (b.trans (by norm_num)), b, ?_⟩
  norm_num at *
  linarith

/-- `coeff_2 * d * e * lambda`. -/
theorem prod4 {c d e l : ℝ} (hc : |c| ≤ 10 ^ 7) (hd : |d| ≤ 3) (he : |e| ≤ 3) (hl : |l| ≤ 10 ^ 7) :
    ∃ q, mul (mul (mul (fin c) (fin d)) (fin e)) (fin l) = fin q ∧ Rep q ∧
      |q - c * d * e * l| ≤ 3.1 / 16777216 * |c * d * e * l| + 1 / 10 ^ 15 := by
  obtain ⟨m1, b1, r1⟩ := two_mul_fin hc hd
  have r2 := mul_step r1 (by norm_num) (by positivity) (y := e)
  have r3 := mul_step r2 (by norm_num) (by positivity) (y := l)
  have b2 : |c * d * e| ≤ 9 * 10 ^ 7 := by
    rw [abs_mul]
    calc |c * d| * |e| ≤ 3 * 10 ^ 7 * 3 := mul_le_mul b1 he (abs_nonneg _) (by norm_num)
      _ = _ := by norm_num
  have b3 : |c * d * e * l| ≤ 10 ^ 16 := by
    rw [abs_mul (c * d * e)]
    calc |c * d * e| * |l| ≤ 9 * 10 ^ 7 * 10 ^ 7 := mul_le_mul b2 hl (abs_nonneg _) (by norm_num)
      _ ≤ _ := by norm_num
  have f1 : |rnd (c * d)| ≤ 4 * 10 ^ 7 := by
    have := le_of_err r1
    norm_num at *
    linarith
  have f2 : |rnd (c * d) * e| ≤ 12 * 10 ^ 7 := by
    rw [abs_mul]
    calc |rnd (c * d)| * |e| ≤ 4 * 10 ^ 7 * 3 := mul_le_mul f1 he (abs_nonneg _) (by norm_num)
      _ = _ := by norm_num
  have f3 : |rnd (rnd (c * d) * e)| ≤ 13 * 10 ^ 7 := by
    have := le_of_err (rnd_bnd (rnd (c * d) * e))
    norm_num at *
    linarith
  have f4 : |rnd (rnd (c * d) * e) * l| ≤ 2 ^ 127 := by
    rw [abs_mul]
    calc |rnd (rnd (c * d) * e)| * |l| ≤ 13 * 10 ^ 7 * 10 ^ 7 := mul_le_mul f3 hl (abs_nonneg _) (by norm_num)
      _ ≤ _ := by norm_num
  refine ⟨_, by rw [m1, mul_fin (f2.trans (by norm_num)), mul_fin f4], rnd_rep f4, r3.trans ?_⟩
  have t1 : 1.01 * (1.1 / 10 ^ 25 * |e|) + 1 / 10 ^ 25 ≤ 5 / 10 ^ 25 := by norm_num at *; linarith
  have t2 := mul_le_mul t1 hl (abs_nonneg l) (by norm_num)
  have := abs_nonneg (c * d * e * l)
  generalize |c * d * e * l| = M at *
  clear r1 r2 r3 f1 f2 f3 f4 b1 b2 b3 hc hd he m1
  norm_num at *
  linarith

/-- `coeff_2 * (d * (-d) + e * (-e)) * lambda`. -/
theorem prodSum {c d e l : ℝ} (hc : |c| ≤ 10 ^ 7) (hd : |d| ≤ 3) (he : |e| ≤ 3) (hl : |l| ≤ 10 ^ 7) :
    ∃ q, mul (mul (fin c) (add (mul (fin d) (fin (-d))) (mul (fin e) (fin (-e))))) (fin l) = fin q ∧ Rep q ∧
      |q - c * (-(d ^ 2 + e ^ 2)) * l| ≤ 4.2 / 16777216 * |c * (-(d ^ 2 + e ^ 2)) * l| + 1 / 10 ^ 10 := by
  obtain ⟨m1, -, r1⟩ := two_mul_fin (c := d) (d := -d) (hd.trans (by norm_num)) (by rwa [abs_neg])
  obtain ⟨m2, -, r2⟩ := two_mul_fin (c := e) (d := -e) (he.trans (by norm_num)) (by rwa [abs_neg])
  have d2 : d ^ 2 ≤ 9 := by nlinarith [abs_le.1 hd]
  have e2 : e ^ 2 ≤ 9 := by nlinarith [abs_le.1 he]
  have n1 : |d * -d| = d ^ 2 := by rw [abs_mul, abs_neg, abs_mul_abs_self]; ring
  have n2 : |e * -e| = e ^ 2 := by rw [abs_mul, abs_neg, abs_mul_abs_self]; ring
  rw [n1] at r1
  rw [n2] at r2
  have s0 : 0 ≤ d ^ 2 + e ^ 2 := by positivity
  have r3 : |rnd (d * -d) + rnd (e * -e) - -(d ^ 2 + e ^ 2)| ≤ 1.01 / 16777216 * (d ^ 2 + e ^ 2) + 2.2 / 10 ^ 25 := by
    have e1 : rnd (d * -d) + rnd (e * -e) - -(d ^ 2 + e ^ 2) = (rnd (d * -d) - d * -d) + (rnd (e * -e) - e * -e) := by ring
    rw [e1]
    have := abs_add_le (rnd (d * -d) - d * -d) (rnd (e * -e) - e * -e)
    linarith
  have ab : |(-(d ^ 2 + e ^ 2))| = d ^ 2 + e ^ 2 := by rw [abs_neg, abs_of_nonneg s0]
  obtain ⟨S, hS⟩ : ∃ S, S = -(d ^ 2 + e ^ 2) := ⟨_, rfl⟩
  have S1 : |S| ≤ 18 := by rw [hS, ab]; linarith
  rw [← hS] at r3 ab ⊢
  rw [← ab] at r3
  rw [m1, m2]
  generalize rnd (d * -d) = x at *
  generalize rnd (e * -e) = y at *
  clear r1 r2 n1 n2 m1 m2 d2 e2 s0 hd he hS ab
  have q1 : |x + y| ≤ 19 := by
    have := le_of_err r3
    norm_num at *
    linarith
  have r4 : |rnd (x + y) - S| ≤ 2.03 / 16777216 * |S| + 3.4 / 10 ^ 25 := by
    have r := rnd_bnd (x + y)
    have k1 := le_of_err r3
    have k0 := abs_nonneg S
    have k2 := abs_add_le (rnd (x + y) - (x + y)) (x + y - S)
    rw [sub_add_sub_cancel] at k2
    norm_num at k2 r3 r k1 ⊢
    linarith
  rw [add_fin (q1.trans (by norm_num))]
  have q2 : |rnd (x + y)| ≤ 20 := by
    have := le_of_err r4
    norm_num at *
    linarith
  generalize rnd (x + y) = z at *
  clear r3 q1
  have r5 := mul_step r4 (by norm_num) (by positivity) (y := c)
  have r6 := mul_step r5 (by norm_num) (by positivity) (y := l)
  have b1 : |c * z| ≤ 20 * 10 ^ 7 := by
    rw [abs_mul]
    calc |c| * |z| ≤ 10 ^ 7 * 20 := mul_le_mul hc q2 (abs_nonneg _) (by norm_num)
      _ = _ := by norm_num
  rw [mul_fin (b1.trans (by norm_num))]
  have b2 : |rnd (c * z)| ≤ 21 * 10 ^ 7 := by
    have := le_of_err (rnd_bnd (c * z))
    norm_num at *
    linarith
  have b3 : |rnd (c * z) * l| ≤ 2 ^ 127 := by
    rw [abs_mul]
    calc |rnd (c * z)| * |l| ≤ 21 * 10 ^ 7 * 10 ^ 7 := mul_le_mul b2 hl (abs_nonneg _) (by norm_num)
      _ ≤ _ := by norm_num
  refine ⟨_, mul_fin b3, rnd_rep b3, ?_⟩
  rw [mul_comm z c, mul_comm S c] at r6
  refine r6.trans ?_
  have t1 : 1.01 * (3.4 / 10 ^ 25 * |c|) + 1 / 10 ^ 25 ≤ 4 / 10 ^ 18 := by norm_num at *; linarith
  have t2 := mul_le_mul t1 hl (abs_nonneg l) (by norm_num)
  have := abs_nonneg (c * S * l)
  generalize |c * S * l| = M at *
  clear r4 r5 r6 b1 b2 b3 q2 hc
  norm_num at *
  linarith

/-! ### Against the exact matrix -/

/-- What is known of the coefficients; `p` stands for `η / σ`. Helper of the proofs. Not in /repo: specification. -/
structure LogCoef (θ σ p φ s k c l L : ℝ) : Prop where
  θ0 : 0.0011 ≤ θ
  θ1 : θ ≤ 3.15
  σ0 : 0.0011 ≤ σ
  σ1 : σ ≤ 1
  σθ : σ ≤ θ
  u : 4 / 16777216 ≤ σ * p
  p1 : p ≤ 0.0073
  hs : |s - σ| ≤ 2.85 * (σ * p)
  hφ : |φ - θ| ≤ 5.4 * (σ * p)
  hk : |k * (2 * s) - φ| ≤ 6.2 / 16777216 * φ
  hc : |c * (4 * s ^ 2) - φ ^ 2| ≤ 14 / 16777216 * φ ^ 2
  hl : |l * φ ^ 2 - L| ≤ 18.8 * (θ * p)
  L0 : 0 ≤ L
  L1 : L ≤ 1
  L2 : L ≤ θ

variable {θ σ p φ s k c l L : ℝ}

theorem LogCoef.p0 (h : LogCoef θ σ p φ s k c l L) : 0 < p := by
  have := h.u
  have := h.σ0
  by_contra hc
  push Not at hc
  nlinarith

theorem LogCoef.σp (h : LogCoef θ σ p φ s k c l L) : σ * p ≤ θ * p := mul_le_mul_of_nonneg_right h.σθ h.p0.le

theorem LogCoef.η1 (h : LogCoef θ σ p φ s k c l L) : σ * p ≤ 0.0073 * σ := by
  have := mul_le_mul_of_nonneg_left h.p1 (show 0 ≤ σ by linarith [h.σ0])
  linarith

theorem LogCoef.s0 (h : LogCoef θ σ p φ s k c l L) : 0.979 * σ ≤ s := by
  have h1 := h.η1
  have h2 := (abs_le.1 h.hs).1
  have h3 := h.σ0
  linarith

theorem LogCoef.φ1 (h : LogCoef θ σ p φ s k c l L) : 0.96 * θ ≤ φ ∧ φ ≤ 1.04 * θ := by
  have h1 := h.η1
  have h2 := h.σθ
  have h3 := abs_le.1 h.hφ
  constructor <;> linarith

theorem LogCoef.d (h : LogCoef θ σ p φ s k c l L) {D n : ℝ} (hn : |n| ≤ 1) (hD : |D - 2 * σ * n| ≤ 2 * (σ * p)) :
    |D / (2 * s) - n| ≤ 3.95 * p := by
  have s0 := h.s0
  have σ0 := h.σ0
  have p0 := h.p0
  have sp : 0 < 2 * s := by linarith
  have e : D / (2 * s) - n = (D - 2 * s * n) / (2 * s) := by
    rw [sub_div, mul_div_cancel_left₀ _ sp.ne']
  rw [e, abs_div, abs_of_pos sp, div_le_iff₀ sp]
  have e2 : D - 2 * s * n = (D - 2 * σ * n) - 2 * (s - σ) * n := by ring
  have t1 := abs_sub (D - 2 * σ * n) (2 * (s - σ) * n)
  rw [← e2] at t1
  have t2 : |2 * (s - σ) * n| ≤ 2 * (2.85 * (σ * p)) := by
    rw [abs_mul, abs_mul, abs_of_pos (show (0 : ℝ) < 2 by norm_num)]
    have := h.hs
    have := abs_nonneg (s - σ)
    nlinarith
  nlinarith

theorem LogCoef.G (h : LogCoef θ σ p φ s k c l L) :
    |c * (4 * s ^ 2) * l - L| ≤ 24.2 * (θ * p) ∧ |c * (4 * s ^ 2) * l| ≤ 1.6 ∧ |l| ≤ 10 ^ 7 := by
  have hu := h.u
  have hs := h.σp
  have h1 := h.hl
  have tp : θ * p ≤ 0.0073 * 3.15 := by
    have := mul_le_mul h.θ1 h.p1 h.p0.le (by norm_num)
    linarith
  have L1 := h.L1
  have L0 := h.L0
  obtain ⟨f1, f2⟩ := h.φ1
  have θ0 := h.θ0
  have aL : |L| ≤ 1 := by rw [abs_of_nonneg L0]; exact L1
  have b : |l * φ ^ 2| ≤ 1.45 := by
    have := le_of_err h1
    norm_num at *
    linarith
  have k1 : |c * (4 * s ^ 2) * l - l * φ ^ 2| ≤ 21 / 16777216 := by
    have e : c * (4 * s ^ 2) * l - l * φ ^ 2 = (c * (4 * s ^ 2) - φ ^ 2) * l := by ring
    rw [e, abs_mul]
    have t := mul_le_mul_of_nonneg_right h.hc (abs_nonneg l)
    have e2 : 14 / 16777216 * φ ^ 2 * |l| = 14 / 16777216 * |l * φ ^ 2| := by
      rw [abs_mul, abs_of_nonneg (sq_nonneg φ)]; ring
    rw [e2] at t
    norm_num at *
    linarith
  have k2 := abs_add_le (c * (4 * s ^ 2) * l - l * φ ^ 2) (l * φ ^ 2 - L)
  rw [sub_add_sub_cancel] at k2
  have k3 : |c * (4 * s ^ 2) * l - L| ≤ 24.2 * (θ * p) := by linarith
  refine ⟨k3, ?_, ?_⟩
  · have := le_of_err k3
    norm_num at *
    linarith
  · rw [abs_mul, abs_of_nonneg (sq_nonneg φ)] at b
    have ff : 1 / 10 ^ 6 ≤ φ ^ 2 := by
      norm_num at *
      nlinarith
    have := mul_le_mul_of_nonneg_left ff (abs_nonneg l)
    norm_num at *
    linarith

theorem LogCoef.kD (h : LogCoef θ σ p φ s k c l L) {D n : ℝ} (hn : |n| ≤ 1) (hD : |D - 2 * σ * n| ≤ 2 * (σ * p)) :
    |k * D - θ * n| ≤ 11.2 * (θ * p) := by
  have hd := h.d hn hD
  have s0 := h.s0
  have σ0 := h.σ0
  have θ0 := h.θ0
  have p0 := h.p0
  have p1 := h.p1
  have sp := h.σp
  have hu := h.u
  have hk := h.hk
  have hφ := h.hφ
  obtain ⟨f1, f2⟩ := h.φ1
  have tp : 0 ≤ θ * p := by positivity
  have e : k * D = k * (2 * s) * (D / (2 * s)) := by
    rw [mul_assoc, mul_div_cancel₀ _ (show 2 * s ≠ 0 by intro h0; linarith)]
  rw [e]
  generalize D / (2 * s) = d at *
  generalize k * (2 * s) = K at *
  have ad : |d| ≤ 1.03 := by
    have := le_of_err hd
    norm_num at *
    linarith
  have e2 : K * d - θ * n = (K - φ) * d + φ * (d - n) + (φ - θ) * n := by ring
  rw [e2]
  have t1 := abs_add_le ((K - φ) * d + φ * (d - n)) ((φ - θ) * n)
  have t2 := abs_add_le ((K - φ) * d) (φ * (d - n))
  have t3 : |(K - φ) * d| ≤ 6.2 / 16777216 * φ * 1.03 := by
    rw [abs_mul]
    exact mul_le_mul hk ad (abs_nonneg _) ((abs_nonneg _).trans hk)
  have t4 : |φ * (d - n)| ≤ φ * (3.95 * p) := by
    rw [abs_mul, abs_of_pos (show 0 < φ by linarith)]
    exact mul_le_mul_of_nonneg_left hd (by linarith)
  have t5 : |(φ - θ) * n| ≤ 5.4 * (σ * p) := by
    rw [abs_mul]
    have := mul_le_mul hφ hn (abs_nonneg _) ((abs_nonneg _).trans hφ)
    linarith
  have t6 : φ * (3.95 * p) ≤ 4.11 * (θ * p) := by nlinarith
  have t7 : 4 / 16777216 * θ ≤ θ * p := by
    have := h.σ1
    have : 4 / 16777216 ≤ p := by nlinarith
    nlinarith
  norm_num at *
  linarith

/-- Upper bound of a square of an entry of the axis. -/
theorem LogCoef.dd (h : LogCoef θ σ p φ s k c l L) {D E n m : ℝ} (hn : |n| ≤ 1) (hD : |D - 2 * σ * n| ≤ 2 * (σ * p))
    (hm : |m| ≤ 1) (hE : |E - 2 * σ * m| ≤ 2 * (σ * p)) :
    |D / (2 * s) * (E / (2 * s)) - n * m| ≤ 8.02 * p ∧ |D / (2 * s) * (E / (2 * s))| ≤ 1.07 := by
  have h1 := h.d hn hD
  have h2 := h.d hm hE
  have p0 := h.p0
  have p1 := h.p1
  generalize D / (2 * s) = d at *
  generalize E / (2 * s) = e at *
  have k : |d * e - n * m| ≤ 8.02 * p := by
    have e1 : d * e - n * m = n * (e - m) + (d - n) * m + (d - n) * (e - m) := by ring
    rw [e1]
    have t1 := abs_add_le (n * (e - m) + (d - n) * m) ((d - n) * (e - m))
    have t2 := abs_add_le (n * (e - m)) ((d - n) * m)
    have t3 : |n * (e - m)| ≤ 1 * (3.95 * p) := by rw [abs_mul]; exact mul_le_mul hn h2 (abs_nonneg _) (by norm_num)
    have t4 : |(d - n) * m| ≤ 3.95 * p * 1 := by rw [abs_mul]; exact mul_le_mul h1 hm (abs_nonneg _) (by positivity)
    have t5 : |(d - n) * (e - m)| ≤ 3.95 * p * (3.95 * p) := by
      rw [abs_mul]; exact mul_le_mul h1 h2 (abs_nonneg _) (by positivity)
    nlinarith
  refine ⟨k, ?_⟩
  have := le_of_err k
  have : |n * m| ≤ 1 := by
    rw [abs_mul]
    exact mul_le_one₀ hn (abs_nonneg _) hm
  norm_num at *
  linarith

theorem LogCoef.D3 (h : LogCoef θ σ p φ s k c l L) {D n : ℝ} (hn : |n| ≤ 1) (hD : |D - 2 * σ * n| ≤ 2 * (σ * p)) : |D| ≤ 3 := by
  have h1 := le_of_err hD
  have h2 := h.η1
  have h3 := h.σ1
  have h4 := h.σ0
  have h5 : |2 * σ * n| ≤ 2 * σ * 1 := by
    rw [abs_mul, abs_of_pos (show 0 < 2 * σ by linarith)]
    exact mul_le_mul_of_nonneg_left hn (by linarith)
  linarith

theorem LogCoef.tp (h : LogCoef θ σ p φ s k c l L) : 4 / 16777216 ≤ θ * p ∧ θ * p ≤ 0.023 := by
  have h1 := h.u
  have h2 := h.σp
  have h3 := mul_le_mul h.θ1 h.p1 h.p0.le (by norm_num)
  constructor <;> norm_num at * <;> linarith

/-- Half an angular component. -/
theorem LogCoef.half (h : LogCoef θ σ p φ s k c l L) {D n : ℝ} (hn : |n| ≤ 1) (hD : |D - 2 * σ * n| ≤ 2 * (σ * p)) :
    Near (mul (mul (fin 0.5) (fin k)) (fin D)) (θ * n / 2) (6.7 * (θ * p)) := by
  have h1 := h.kD hn hD
  have h2 := h.D3 hn hD
  obtain ⟨t1, t2⟩ := h.tp
  have k1 : |k| ≤ 10 ^ 7 := by
    have s0 := h.s0
    have σ0 := h.σ0
    have := le_of_err h.hk
    obtain ⟨f1, f2⟩ := h.φ1
    have θ1 := h.θ1
    have θ0 := h.θ0
    rw [abs_mul, abs_of_pos (show 0 < 2 * s by linarith), abs_of_pos (show 0 < φ by linarith)] at this
    have s1 : 0.002 ≤ 2 * s := by linarith
    have := mul_le_mul_of_nonneg_left s1 (abs_nonneg k)
    norm_num at *
    linarith
  have kk : |0.5 * k| ≤ 10 ^ 7 := by
    rw [abs_mul, abs_of_pos (by norm_num)]
    have := abs_nonneg k
    norm_num at *
    linarith
  have r1 : |rnd (0.5 * k) - 0.5 * k| ≤ 1 / 16777216 * |0.5 * k| + 1 / 10 ^ 25 := rnd_bnd _
  have m1 : mul (fin 0.5) (fin k) = fin (rnd (0.5 * k)) := mul_fin (kk.trans (by norm_num))
  have r2 := mul_step r1 (by norm_num) (by positivity) (y := D)
  have b0 : |0.5 * k * D| ≤ 1.8 := by
    have := le_of_err h1
    have n1 : |θ * n| ≤ 3.15 * 1 := by
      rw [abs_mul, abs_of_pos (by linarith [h.θ0])]
      exact mul_le_mul h.θ1 hn (abs_nonneg _) (by norm_num)
    rw [mul_assoc, abs_mul, abs_of_pos (by norm_num)]
    norm_num at *
    linarith
  have e0 : |0.5 * k * D - θ * n / 2| ≤ 5.6 * (θ * p) := by
    have e : 0.5 * k * D - θ * n / 2 = 0.5 * (k * D - θ * n) := by ring
    rw [e, abs_mul, abs_of_pos (by norm_num)]
    norm_num at *
    linarith
  have b1 : |rnd (0.5 * k) * D| ≤ 2 ^ 127 := by
    rw [abs_mul]
    have b2 : |rnd (0.5 * k)| ≤ 2 * 10 ^ 7 := by
      have := le_of_err r1
      norm_num at *
      linarith
    calc |rnd (0.5 * k)| * |D| ≤ 2 * 10 ^ 7 * 3 := mul_le_mul b2 h2 (abs_nonneg _) (by norm_num)
      _ ≤ _ := by norm_num
  refine ⟨_, by rw [m1, mul_fin b1], rnd_rep b1, ?_⟩
  have := abs_add_le (rnd (rnd (0.5 * k) * D) - 0.5 * k * D) (0.5 * k * D - θ * n / 2)
  rw [sub_add_sub_cancel] at this
  clear r1 m1 b1 k1 kk h1
  norm_num at *
  linarith

theorem LogCoef.Gdd (h : LogCoef θ σ p φ s k c l L) {D E : ℝ} :
    c * D * E * l = c * (4 * s ^ 2) * l * (D / (2 * s) * (E / (2 * s))) := by
  have s0 := h.s0
  have σ0 := h.σ0
  have : s ≠ 0 := by intro h0; linarith
  field_simp
  ring

/-- An entry outside the diagonal. -/
theorem LogCoef.off (h : LogCoef θ σ p φ s k c l L) (hc : |c| ≤ 10 ^ 7) {D E F n m o : ℝ} (hn : |n| ≤ 1)
    (hD : |D - 2 * σ * n| ≤ 2 * (σ * p)) (hm : |m| ≤ 1) (hE : |E - 2 * σ * m| ≤ 2 * (σ * p)) (ho : |o| ≤ 1)
    (hF : |F - 2 * σ * o| ≤ 2 * (σ * p)) :
    Near (sub (mul (mul (mul (fin c) (fin D)) (fin E)) (fin l)) (mul (mul (fin 0.5) (fin k)) (fin F)))
      (L * n * m - θ * o / 2) (45 * (θ * p)) := by
  obtain ⟨t1, t2⟩ := h.tp
  obtain ⟨g1, g2, g3⟩ := h.G
  obtain ⟨d1, d2⟩ := h.dd hn hD hm hE
  obtain ⟨q, q1, q2, q3⟩ := prod4 hc (h.D3 hn hD) (h.D3 hm hE) g3
  rw [h.Gdd] at q3
  have L0 := h.L0
  have L2 := h.L2
  have p0 := h.p0
  have Lp : L * p ≤ θ * p := mul_le_mul_of_nonneg_right L2 p0.le
  have nm : |n * m| ≤ 1 := by rw [abs_mul]; exact mul_le_one₀ hn (abs_nonneg _) hm
  have Q : Near (mul (mul (mul (fin c) (fin D)) (fin E)) (fin l)) (L * n * m) (36.5 * (θ * p)) := by
    refine ⟨q, q1, q2, ?_⟩
    clear q1 q2
    generalize c * (4 * s ^ 2) * l = G at *
    generalize D / (2 * s) * (E / (2 * s)) = d at *
    have e1 : q - L * n * m = (q - G * d) + ((G - L) * d + L * (d - n * m)) := by ring
    rw [e1]
    have a1 := abs_add_le (q - G * d) ((G - L) * d + L * (d - n * m))
    have a2 := abs_add_le ((G - L) * d) (L * (d - n * m))
    have a3 : |G * d| ≤ 1.6 * 1.07 := by rw [abs_mul]; exact mul_le_mul g2 d2 (abs_nonneg _) (by norm_num)
    have a4 : |(G - L) * d| ≤ 24.2 * (θ * p) * 1.07 := by
      rw [abs_mul]; exact mul_le_mul g1 d2 (abs_nonneg _) ((abs_nonneg _).trans g1)
    have a5 : |L * (d - n * m)| ≤ L * (8.02 * p) := by
      rw [abs_mul, abs_of_nonneg L0]; exact mul_le_mul_of_nonneg_left d1 L0
    clear g1 g2 g3 d1 d2 e1
    norm_num at a1 a2 a3 a4 a5 q3 t1 ⊢
    linarith
  have H := h.half ho hF
  have B : |L * n * m - θ * o / 2| ≤ 2.6 := by
    have b1 : |L * n * m| ≤ 1 := by
      rw [mul_assoc, abs_mul, abs_of_nonneg L0]
      exact mul_le_one₀ h.L1 (abs_nonneg _) nm
    have b2 : |θ * o / 2| ≤ 1.575 := by
      rw [abs_div, abs_mul, abs_of_pos (show 0 < θ by linarith [h.θ0]), abs_of_pos (show (0 : ℝ) < 2 by norm_num)]
      have := mul_le_mul h.θ1 ho (abs_nonneg _) (by norm_num)
      norm_num at *
      linarith
    have := abs_sub (L * n * m) (θ * o / 2)
    norm_num at *
    linarith
  have R := Near.sum Q H.neg (M := 2.6) (by rwa [← sub_eq_add_neg]) (by norm_num at *; linarith) (θ := 45 * (θ * p))
    (by norm_num at *; linarith)
  rwa [← sub_eq_add_neg] at R

/-- An entry of the diagonal. -/
theorem LogCoef.diag (h : LogCoef θ σ p φ s k c l L) (hc : |c| ≤ 10 ^ 7) {D E n m : ℝ} (hn : |n| ≤ 1)
    (hD : |D - 2 * σ * n| ≤ 2 * (σ * p)) (hm : |m| ≤ 1) (hE : |E - 2 * σ * m| ≤ 2 * (σ * p)) (hnm : n ^ 2 + m ^ 2 ≤ 1)
    (hDE : (D / (2 * s)) ^ 2 + (E / (2 * s)) ^ 2 ≤ 1.01) :
    Near (add (mul (mul (fin c) (add (mul (fin D) (fin (-D))) (mul (fin E) (fin (-E))))) (fin l)) (fin 1))
      (1 - L * (n ^ 2 + m ^ 2)) (45 * (θ * p)) := by
  obtain ⟨t1, t2⟩ := h.tp
  obtain ⟨g1, g2, g3⟩ := h.G
  obtain ⟨d1, -⟩ := h.dd hn hD hn hD
  obtain ⟨d2, -⟩ := h.dd hm hE hm hE
  obtain ⟨q, q1, q2, q3⟩ := prodSum hc (h.D3 hn hD) (h.D3 hm hE) g3
  have e : c * (-(D ^ 2 + E ^ 2)) * l =
      -(c * (4 * s ^ 2) * l * (D / (2 * s) * (D / (2 * s)) + E / (2 * s) * (E / (2 * s)))) := by
    have h1 := h.Gdd (D := D) (E := D)
    have h2 := h.Gdd (D := E) (E := E)
    rw [mul_add, ← h1, ← h2]
    ring
  rw [e, abs_neg] at q3
  clear e
  have L0 := h.L0
  have L2 := h.L2
  have L1 := h.L1
  have p0 := h.p0
  have Lp : L * p ≤ θ * p := mul_le_mul_of_nonneg_right L2 p0.le
  generalize c * (4 * s ^ 2) * l = G at *
  have ee : D / (2 * s) * (D / (2 * s)) + E / (2 * s) * (E / (2 * s)) = (D / (2 * s)) ^ 2 + (E / (2 * s)) ^ 2 := by ring
  rw [ee] at q3
  obtain ⟨S, hS⟩ : ∃ S, S = (D / (2 * s)) ^ 2 + (E / (2 * s)) ^ 2 := ⟨_, rfl⟩
  have S1 : |S| ≤ 1.01 := by rw [abs_of_nonneg (by rw [hS]; positivity), hS]; exact hDE
  have S2 : |S - (n ^ 2 + m ^ 2)| ≤ 16.04 * p := by
    have e : S - (n ^ 2 + m ^ 2) = (D / (2 * s) * (D / (2 * s)) - n * n) + (E / (2 * s) * (E / (2 * s)) - m * m) := by
      rw [hS]; ring
    rw [e]
    exact (abs_add_le _ _).trans (by linarith)
  rw [← hS] at q3
  clear hS ee hDE d1 d2
  have N0 : 0 ≤ n ^ 2 + m ^ 2 := by positivity
  generalize n ^ 2 + m ^ 2 = N at *
  have Q : Near (mul (mul (fin c) (add (mul (fin D) (fin (-D))) (mul (fin E) (fin (-E))))) (fin l)) (-(L * N))
      (43 * (θ * p)) := by
    refine ⟨q, q1, q2, ?_⟩
    clear q1 q2
    have e1 : q - -(L * N) = (q - -(G * S)) - ((G - L) * S + L * (S - N)) := by ring
    rw [e1]
    have a1 := abs_sub (q - -(G * S)) ((G - L) * S + L * (S - N))
    have a2 := abs_add_le ((G - L) * S) (L * (S - N))
    have a3 : |G * S| ≤ 1.6 * 1.01 := by rw [abs_mul]; exact mul_le_mul g2 S1 (abs_nonneg _) (by norm_num)
    have a4 : |(G - L) * S| ≤ 24.2 * (θ * p) * 1.01 := by
      rw [abs_mul]; exact mul_le_mul g1 S1 (abs_nonneg _) ((abs_nonneg _).trans g1)
    have a5 : |L * (S - N)| ≤ L * (16.04 * p) := by
      rw [abs_mul, abs_of_nonneg L0]; exact mul_le_mul_of_nonneg_left S2 L0
    clear g1 g2 g3 S1 S2 e1
    norm_num at a1 a2 a3 a4 a5 q3 t1 ⊢
    linarith
  have LN : L * N ≤ 1 := mul_le_one₀ L1 N0 hnm
  have LN0 : 0 ≤ L * N := mul_nonneg L0 N0
  have R := Near.sum Q (Near.of_rep Rep.one) (M := 1) (by rw [abs_le]; constructor <;> linarith)
    (by norm_num at *; linarith) (θ := 45 * (θ * p)) (by norm_num at *; linarith)
  rwa [show -(L * N) + 1 = 1 - L * N by ring] at R

end AlMath.F32
