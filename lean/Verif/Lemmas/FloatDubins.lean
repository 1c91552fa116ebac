import Verif.Model.FloatDubins
import Verif.Lemmas.FloatExp

/-!
The computed tangents of two circles (src/tools/aldubinscurve.cpp) in single precision. Used by C105.
-/

namespace AlMath.F32

/-! ### Distance of two centres and quotients by it -/

theorem sqrt_rel2 {d t : ℝ} (ht : 0 < t) (h : |d - t ^ 2| ≤ 2.02 / 16777216 * t ^ 2) : |Real.sqrt d - t| ≤ 1.02 / 16777216 * t := by
  obtain ⟨h1, h2⟩ := abs_le.1 h
  rw [abs_le]
  constructor
  · have : (1 - 1.02 / 16777216) * t ≤ Real.sqrt d := by
      refine Real.le_sqrt_of_sq_le ?_
      nlinarith [sq_nonneg t]
    linarith
  · have : Real.sqrt d ≤ (1 + 1.02 / 16777216) * t := by
      refine Real.sqrt_le_iff.2 ⟨by positivity, ?_⟩
      nlinarith [sq_nonneg t]
    linarith

theorem hypot_fin {a b ρ : ℝ} (hρ : ρ ^ 2 = a * a + b * b) (h1 : 1 / 1024 ≤ ρ) (h2 : ρ ≤ 4194304) :
    ∃ d, sqrt (add (mul (fin a) (fin a)) (mul (fin b) (fin b))) = fin d ∧ Rep d ∧ |d - ρ| ≤ 2.1 / 16777216 * ρ := by
  have a0 := mul_self_nonneg a
  have b0 := mul_self_nonneg b
  have q1 : 1 / 1048576 ≤ ρ ^ 2 := by nlinarith
  have q2 : ρ ^ 2 ≤ 17592186044416 := by nlinarith
  have p1 := rnd_bnd (a * a)
  have p2 := rnd_bnd (b * b)
  rw [abs_of_nonneg a0] at p1
  rw [abs_of_nonneg b0] at p2
  have big : (17592186044416 * 4 : ℝ) ≤ 2 ^ 127 := by norm_num
  have n1 : 0 ≤ rnd (a * a) := le_rnd_of_le Rep.zero.grid a0
  have n2 : 0 ≤ rnd (b * b) := le_rnd_of_le Rep.zero.grid b0
  rw [mul_fin (by rw [abs_of_nonneg a0]; linarith), mul_fin (by rw [abs_of_nonneg b0]; linarith)]
  generalize rnd (a * a) = p at *
  generalize rnd (b * b) = q at *
  have p3 := rnd_bnd (p + q)
  rw [abs_of_nonneg (by linarith : 0 ≤ p + q)] at p3
  obtain ⟨k1, k2⟩ := abs_le.1 p1
  obtain ⟨k3, k4⟩ := abs_le.1 p2
  obtain ⟨k5, k6⟩ := abs_le.1 p3
  have n3 : 0 ≤ rnd (p + q) := le_rnd_of_le Rep.zero.grid (by linarith)
  have m1 : p + q ≤ 17592186044416 * 2 := by norm_num at *; linarith
  rw [add_fin (by rw [abs_of_nonneg (by linarith : 0 ≤ p + q)]; linarith)]
  generalize rnd (p + q) = s at *
  have hs : |s - ρ ^ 2| ≤ 2.02 / 16777216 * ρ ^ 2 := by
    rw [hρ] at q1 q2 ⊢
    generalize a * a = A at *
    generalize b * b = B at *
    clear hρ p1 p2 p3
    rw [abs_le]
    norm_num at *
    constructor <;> linarith
  have h3 := sqrt_rel2 (by linarith) hs
  have r0 := Real.sqrt_nonneg s
  have h4 := rnd_bnd (√s)
  rw [abs_of_nonneg r0] at h4
  have e : sqrt (fin s) = round (√s) := by
    rw [sqrt, if_neg (not_lt.2 n3)]
  rw [e]
  generalize √s = z at *
  obtain ⟨g1, g2⟩ := abs_le.1 h3
  obtain ⟨g3, g4⟩ := abs_le.1 h4
  have m2 : |z| ≤ 2 ^ 127 := by rw [abs_of_nonneg r0]; norm_num at *; linarith
  refine ⟨rnd z, round_fin m2, rnd_rep m2, ?_⟩
  clear e hs q1 q2 hρ m1 m2 p1 p2 p3 h3 h4
  rw [abs_le]
  norm_num at *
  constructor <;> linarith

theorem over_fin {x d ρ : ℝ} (hx : 1 / 1024 ≤ x) (hx' : x ≤ 4096) (h1 : 1 / 1024 ≤ ρ) (h2 : ρ ≤ 4194304)
    (hd : |d - ρ| ≤ 2.1 / 16777216 * ρ) :
    ∃ q, div (fin x) (fin d) = fin q ∧ Rep q ∧ |q - x / ρ| ≤ 3.2 / 16777216 * (x / ρ) := by
  obtain ⟨g1, g2⟩ := abs_le.1 hd
  have ρ0 : 0 < ρ := by linarith
  have d0 : 0 < d := by norm_num at *; linarith
  have e : div (fin x) (fin d) = round (x / d) := by rw [div, if_neg d0.ne']
  have h3 : |x / d - x / ρ| ≤ 2.11 / 16777216 * (x / ρ) := by
    have : x / d - x / ρ = x / ρ * ((ρ - d) / d) := by field_simp
    rw [this, abs_mul, abs_of_nonneg (show 0 ≤ x / ρ by positivity), mul_comm]
    refine mul_le_mul_of_nonneg_right ?_ (by positivity)
    rw [abs_div, abs_of_pos d0, div_le_iff₀ d0, abs_sub_comm]
    refine hd.trans ?_
    clear e hd
    norm_num at *
    linarith
  have h4 : 1 / 4294967296 ≤ x / ρ := by rw [le_div_iff₀ ρ0]; linarith
  have h5 : x / ρ ≤ 4194304 := by rw [div_le_iff₀ ρ0]; linarith
  rw [e]
  clear e
  generalize x / ρ = T at *
  generalize x / d = z at *
  have r5 := rnd_bnd z
  have z1 := le_of_err h3
  rw [abs_of_nonneg (show 0 ≤ T by linarith)] at z1
  have m2 : |z| ≤ 2 ^ 127 := z1.trans (by norm_num; linarith)
  refine ⟨rnd z, round_fin m2, rnd_rep m2, ?_⟩
  obtain ⟨r1, r2⟩ := abs_le.1 r5
  obtain ⟨r3, r4⟩ := abs_le.1 h3
  clear m2 r5 h3 hd
  rw [abs_le]
  norm_num at *
  constructor <;> linarith

/-! ### A point of tangency -/

theorem arm_fin {rd e n r ρ : ℝ} (hr : 1 / 1024 ≤ r) (hr' : r ≤ 1024) (ρ0 : 0 < ρ)
    (hrd : |rd - r / ρ| ≤ 3.2 / 16777216 * (r / ρ)) (he : |e - ρ * n| ≤ 4 / 16777216 * ρ) (hn : |n| ≤ 1) :
    ∃ w, mul (fin rd) (fin e) = fin w ∧ Rep w ∧ |w - r * n| ≤ 8.3 / 16777216 * r := by
  have h1 : |rd * e - r * n| ≤ 7.21 / 16777216 * r := by
    have e1 : rd * e - r * n = (rd - r / ρ) * e + r / ρ * (e - ρ * n) := by field_simp; ring
    have e2 : |e| ≤ 1.001 * ρ := by
      have := le_of_err he
      rw [abs_mul, abs_of_pos ρ0] at this
      have : ρ * |n| ≤ ρ := by nlinarith
      norm_num at *
      linarith
    have m0 : 0 ≤ r / ρ := by positivity
    have m1 : |(rd - r / ρ) * e| ≤ 3.2 / 16777216 * (r / ρ) * (1.001 * ρ) := by
      rw [abs_mul]
      exact mul_le_mul hrd e2 (abs_nonneg _) (by positivity)
    have m2 : |r / ρ * (e - ρ * n)| ≤ r / ρ * (4 / 16777216 * ρ) := by
      rw [abs_mul, abs_of_nonneg m0]
      exact mul_le_mul_of_nonneg_left he m0
    have e3 : 3.2 / 16777216 * (r / ρ) * (1.001 * ρ) = 3.2 / 16777216 * 1.001 * r := by field_simp
    have e4 : r / ρ * (4 / 16777216 * ρ) = 4 / 16777216 * r := by field_simp
    rw [e3] at m1
    rw [e4] at m2
    rw [e1]
    refine (abs_add_le _ _).trans ((add_le_add m1 m2).trans ?_)
    norm_num
    linarith
  have h2 : |r * n| ≤ r := by
    rw [abs_mul, abs_of_pos (by linarith)]
    nlinarith [abs_nonneg n]
  have h3 := le_of_err h1
  have h4 := rnd_bnd (rd * e)
  have m : |rd * e| ≤ 2 ^ 127 := by norm_num at *; linarith
  refine ⟨rnd (rd * e), mul_fin m, rnd_rep m, ?_⟩
  clear m
  generalize rd * e = z at *
  generalize r * n = y at *
  have h5 := abs_add_le (rnd z - z) (z - y)
  rw [sub_add_sub_cancel] at h5
  clear hrd he
  norm_num at *
  linarith

/-- A centre plus an arm. -/
theorem tip_fin {c w y r : ℝ} (hr : 1 / 1024 ≤ r) (hr' : r ≤ 1024) (hw : |w - y| ≤ 8.3 / 16777216 * r) (hy : |y| ≤ r)
    (hc : |c| ≤ 16777216) :
    ∃ x, add (fin c) (fin w) = fin x ∧ Rep x ∧ |x - (c + y)| ≤ 9.4 / 16777216 * r + 1 / 16777216 * |c| := by
  have h1 := le_of_err hw
  have h2 := abs_add_le c w
  have h3 := rnd_bnd (c + w)
  have m : |c + w| ≤ 2 ^ 127 := by norm_num at *; linarith
  refine ⟨rnd (c + w), add_fin m, rnd_rep m, ?_⟩
  clear m
  have e : rnd (c + w) - (c + y) = (rnd (c + w) - (c + w)) + (w - y) := by ring
  rw [e]
  have h5 := abs_add_le (rnd (c + w) - (c + w)) (w - y)
  generalize rnd (c + w) - (c + w) = z at *
  norm_num at *
  linarith

/-- A component of the slope. -/
theorem comb_fin {c s a b ρ : ℝ} (hcs : c ^ 2 + s ^ 2 ≤ 1.001) (hρ : ρ ^ 2 = a ^ 2 + b ^ 2) (h1 : 1 / 1024 ≤ ρ)
    (h2 : ρ ≤ 4194304) : ∃ e, add (mul (fin c) (fin a)) (mul (fin s) (fin b)) = fin e ∧
      |e - (c * a + s * b)| ≤ 2.1 / 16777216 * ρ := by
  have k1 : |c * a| + |s * b| ≤ 1.001 * ρ := by
    refine abs_le_of_sq_le_sq' ?_ (by linarith) |>.2
    have e1 : (|c * a| + |s * b|) ^ 2 ≤ (c ^ 2 + s ^ 2) * (a ^ 2 + b ^ 2) := by
      rw [abs_mul, abs_mul, ← sq_abs c, ← sq_abs s, ← sq_abs a, ← sq_abs b]
      nlinarith [sq_nonneg (|c| * |b| - |s| * |a|)]
    rw [← hρ] at e1
    have := sq_nonneg ρ
    nlinarith
  have p1 := rnd_bnd (c * a)
  have p2 := rnd_bnd (s * b)
  have n1 := abs_nonneg (c * a)
  have n2 := abs_nonneg (s * b)
  have big : (4194304 * 4 : ℝ) ≤ 2 ^ 127 := by norm_num
  rw [mul_fin (by norm_num at *; linarith), mul_fin (by norm_num at *; linarith)]
  generalize c * a = A at *
  generalize s * b = B at *
  generalize rnd A = p at *
  generalize rnd B = q at *
  have l1 := le_of_err p1
  have l2 := le_of_err p2
  have l3 := abs_add_le p q
  have p3 := rnd_bnd (p + q)
  refine ⟨rnd (p + q), add_fin (by norm_num at *; linarith), ?_⟩
  have e : rnd (p + q) - (A + B) = (rnd (p + q) - (p + q)) + ((p - A) + (q - B)) := by ring
  rw [e]
  have l4 := abs_add_le (rnd (p + q) - (p + q)) ((p - A) + (q - B))
  have l5 := abs_add_le (p - A) (q - B)
  generalize |rnd (p + q) - (p + q)| = z1 at *
  generalize |p - A| = z2 at *
  generalize |q - B| = z3 at *
  clear hcs hρ big
  norm_num at *
  linarith

/-- Sine of the code from its cosine. -/
theorem sine_fin {c : ℝ} (hc : Rep c) (h0 : 0 ≤ c) (h1 : c ≤ 1) :
    ∃ s, sqrt (sub (fin 1) (mul (fin c) (fin c))) = fin s ∧ Rep s ∧ 0 ≤ s ∧ |c ^ 2 + s ^ 2 - 1| ≤ 3.3 / 16777216 := by
  have c2 : 0 ≤ c * c := mul_self_nonneg c
  have c3 : c * c ≤ 1 := by nlinarith
  have p1 := rnd_bnd (c * c)
  rw [abs_of_nonneg c2] at p1
  rw [mul_fin (by rw [abs_of_nonneg c2]; exact c3.trans (by norm_num))]
  have x0 : 0 ≤ rnd (c * c) := le_rnd_of_le Rep.zero.grid c2
  have x1 : rnd (c * c) ≤ 1 := rnd_le_of_le Rep.one.grid c3
  rw [← sq] at *
  generalize rnd (c ^ 2) = x at *
  rw [sub_fin (by rw [abs_of_nonneg (by linarith)]; norm_num; linarith)]
  have p2 := rnd_bnd (1 - x)
  rw [abs_of_nonneg (by linarith : 0 ≤ 1 - x)] at p2
  have y0 : 0 ≤ rnd (1 - x) := le_rnd_of_le Rep.zero.grid (by linarith)
  have y1 : rnd (1 - x) ≤ 1 := rnd_le_of_le Rep.one.grid (by linarith)
  generalize rnd (1 - x) = y at *
  have e : sqrt (fin y) = round (√y) := by rw [sqrt, if_neg (not_lt.2 y0)]
  have w0 := Real.sqrt_nonneg y
  have w2 := Real.sq_sqrt y0
  rw [e]
  generalize √y = w at *
  have w1 : w ≤ 1 := by nlinarith
  have p3 := rnd_bnd w
  rw [abs_of_nonneg w0] at p3
  have m : |w| ≤ 2 ^ 127 := by rw [abs_of_nonneg w0]; norm_num; linarith
  have s0 : 0 ≤ rnd w := le_rnd_of_le Rep.zero.grid w0
  refine ⟨rnd w, round_fin m, rnd_rep m, s0, ?_⟩
  clear m e
  generalize rnd w = s at *
  obtain ⟨k1, k2⟩ := abs_le.1 p1
  obtain ⟨k3, k4⟩ := abs_le.1 p2
  obtain ⟨k5, k6⟩ := abs_le.1 p3
  have t1 : |s ^ 2 - w ^ 2| ≤ 2.1 / 16777216 * y + 1 / 10 ^ 20 := by
    have e : s ^ 2 - w ^ 2 = (s - w) * (s + w) := by ring
    rw [e, abs_mul, abs_of_nonneg (by linarith : 0 ≤ s + w), ← w2]
    have : s + w ≤ 2.01 * w + 1 / 10 ^ 25 := by norm_num at *; linarith
    refine (mul_le_mul p3 this (by linarith) (by positivity)).trans ?_
    norm_num
    nlinarith
  obtain ⟨k7, k8⟩ := abs_le.1 t1
  rw [abs_le]
  clear p1 p2 p3 t1 hc
  generalize c ^ 2 = C at *
  generalize s ^ 2 = S at *
  rw [w2] at *
  norm_num at *
  constructor <;> linarith

/-- Above one, there is no sine. -/
theorem sine_nan {c : ℝ} (hc : Rep c) (h1 : 1 < c) (h2 : c ≤ 1048576) : sqrt (sub (fin 1) (mul (fin c) (fin c))) = nan := by
  have c2 : 0 ≤ c * c := mul_self_nonneg c
  have c3 : c ≤ c * c := by nlinarith
  have c4 : c * c ≤ 2 ^ 40 := by nlinarith
  rw [mul_fin (by rw [abs_of_nonneg c2]; exact c4.trans (by norm_num))]
  have x1 : c ≤ rnd (c * c) := le_rnd_of_le hc.grid c3
  have x2 : rnd (c * c) ≤ 2 ^ 40 :=
    rnd_le_of_le (Rep.grid (by exact_mod_cast Rep.two_zpow (e := 40) (by norm_num) (by norm_num))) c4
  have g := rnd_grid (c * c)
  generalize rnd (c * c) = x at *
  have m : |1 - x| ≤ 2 ^ 127 := by
    rw [abs_of_nonpos (by linarith)]
    norm_num at *
    linarith
  rw [sub_fin m]
  have r := rnd_add (x := 1) (y := -x) Rep.one.grid (by rw [← sub_zero (-x)]; simpa using (rnd_of_grid g ▸ rnd_neg x ▸ rnd_grid (-x)))
  rw [← sub_eq_add_neg, abs_of_nonpos (by linarith : 1 - x ≤ 0), two_neg24] at r
  obtain ⟨r1, r2⟩ := abs_le.1 r
  have : rnd (1 - x) < 0 := by linarith
  rw [sqrt, if_pos this]

/-- A pair of numbers close to the unit circle. -/
theorem unit_pair {c s : ℝ} (h : |c ^ 2 + s ^ 2 - 1| ≤ 3.3 / 16777216) (hs : 0 ≤ s) :
    ∃ h c' s', c = h * c' ∧ s = h * s' ∧ c' ^ 2 + s' ^ 2 = 1 ∧ 0 ≤ s' ∧ |h - 1| ≤ 1.7 / 16777216 := by
  obtain ⟨h1, h2⟩ := abs_le.1 h
  have q : 0 < c ^ 2 + s ^ 2 := by norm_num at *; linarith
  have H2 := Real.sq_sqrt q.le
  have H0 := Real.sqrt_pos.2 q
  refine ⟨√(c ^ 2 + s ^ 2), c / √(c ^ 2 + s ^ 2), s / √(c ^ 2 + s ^ 2), by field_simp, by field_simp, ?_, by positivity, ?_⟩
  · rw [div_pow, div_pow, H2]
    field_simp
  · generalize √(c ^ 2 + s ^ 2) = k at *
    rw [← H2] at h1 h2
    rw [abs_le]
    constructor
    · by_contra hk
      norm_num at *
      nlinarith
    · by_contra hk
      norm_num at *
      nlinarith

/-! ### The tangent of two circles -/

/-- The slope times the distance, from a cosine and a sine, and the direction it stands for. -/
theorem slope_fin {c s a b ρ σ : ℝ} (hσ : σ = 1 ∨ σ = -1) (hs : Rep s) (s0 : 0 ≤ s)
    (h : |c ^ 2 + s ^ 2 - 1| ≤ 3.3 / 16777216) (hρ : ρ ^ 2 = a ^ 2 + b ^ 2) (h1 : 1 / 1024 ≤ ρ) (h2 : ρ ≤ 4194304) :
    ∃ e f nx ny c' s' : ℝ,
      add (mul (fin c) (fin a)) (mul (mul (fin σ) (fin s)) (fin b)) = fin e ∧
      add (mul (mul (fin (-σ)) (fin s)) (fin a)) (mul (fin c) (fin b)) = fin f ∧
      |e - ρ * nx| ≤ 4 / 16777216 * ρ ∧ |f - ρ * ny| ≤ 4 / 16777216 * ρ ∧ nx ^ 2 + ny ^ 2 = 1 ∧ 0 ≤ s' ∧ c' ^ 2 + s' ^ 2 = 1 ∧
      |c - c'| ≤ 1.7 / 16777216 * |c'| ∧
      a = ρ * c' * nx + ρ * s' * (σ * -ny) ∧ b = ρ * c' * ny + ρ * s' * (σ * nx) := by
  obtain ⟨k, c', s', hc, hs', hu, s0', hk⟩ := unit_pair h s0
  have ρ0 : 0 < ρ := by linarith
  have σ2 : σ ^ 2 = 1 := by rcases hσ with rfl | rfl <;> norm_num
  have rs : ∀ τ : ℝ, τ = 1 ∨ τ = -1 → mul (fin τ) (fin s) = fin (τ * s) := by
    intro τ hτ
    rw [mul, round_rep]
    rcases hτ with rfl | rfl
    · rwa [one_mul]
    · rw [neg_one_mul]; exact hs.neg
  rw [rs σ hσ, rs (-σ) (by rcases hσ with rfl | rfl <;> simp)]
  have q1 : c ^ 2 + (σ * s) ^ 2 ≤ 1.001 := by
    rw [mul_pow, σ2, one_mul]
    have := (abs_le.1 h).2
    norm_num at *
    linarith
  obtain ⟨e, he, he'⟩ := comb_fin q1 hρ h1 h2
  obtain ⟨f, hf, hf'⟩ := comb_fin (c := -σ * s) (s := c) (a := a) (b := b) (by rw [add_comm, neg_mul, neg_sq]; exact q1) hρ h1 h2
  have hab : a ^ 2 + b ^ 2 = ρ ^ 2 := hρ.symm
  have hn : ((c' * a + σ * s' * b) / ρ) ^ 2 + ((-σ * s' * a + c' * b) / ρ) ^ 2 = 1 := by
    rw [div_pow, div_pow, ← add_div, div_eq_one_iff_eq (by positivity), hρ]
    linear_combination (a ^ 2 + b ^ 2) * hu + (s' ^ 2 * (a ^ 2 + b ^ 2)) * σ2
  refine ⟨e, f, (c' * a + σ * s' * b) / ρ, (-σ * s' * a + c' * b) / ρ, c', s', he, hf, ?_, ?_, hn, s0', hu, ?_, ?_, ?_⟩
  · have g : |(c' * a + σ * s' * b) / ρ| ≤ 1 := abs_le_one_iff_mul_self_le_one.2 (by nlinarith)
    have e1 : c * a + σ * s * b = k * (ρ * ((c' * a + σ * s' * b) / ρ)) := by rw [hc, hs']; field_simp
    rw [e1] at he'
    generalize (c' * a + σ * s' * b) / ρ = n at *
    have e2 : e - ρ * n = (e - k * (ρ * n)) + (k - 1) * (ρ * n) := by ring
    rw [e2]
    have m : |(k - 1) * (ρ * n)| ≤ 1.7 / 16777216 * (ρ * 1) := by
      rw [abs_mul, abs_mul, abs_of_pos ρ0]
      exact mul_le_mul hk (mul_le_mul_of_nonneg_left g ρ0.le) (by positivity) (by norm_num)
    refine (abs_add_le _ _).trans ((add_le_add he' m).trans ?_)
    norm_num
    linarith
  · have g : |(-σ * s' * a + c' * b) / ρ| ≤ 1 := abs_le_one_iff_mul_self_le_one.2 (by nlinarith)
    have e1 : -σ * s * a + c * b = k * (ρ * ((-σ * s' * a + c' * b) / ρ)) := by rw [hc, hs']; field_simp
    rw [e1] at hf'
    generalize (-σ * s' * a + c' * b) / ρ = n at *
    have e2 : f - ρ * n = (f - k * (ρ * n)) + (k - 1) * (ρ * n) := by ring
    rw [e2]
    have m : |(k - 1) * (ρ * n)| ≤ 1.7 / 16777216 * (ρ * 1) := by
      rw [abs_mul, abs_mul, abs_of_pos ρ0]
      exact mul_le_mul hk (mul_le_mul_of_nonneg_left g ρ0.le) (by positivity) (by norm_num)
    refine (abs_add_le _ _).trans ((add_le_add hf' m).trans ?_)
    norm_num
    linarith
  · have : c - c' = (k - 1) * c' := by rw [hc]; ring
    rw [this, abs_mul]
    exact mul_le_mul_of_nonneg_right hk (abs_nonneg _)
  · field_simp
    linear_combination (-a) * hu + (-(s' ^ 2 * a)) * σ2
  · field_simp
    linear_combination (-b) * hu + (-(s' ^ 2 * b)) * σ2

/-- What is known of a computed tangent: `(p, q)` the first centre, `(P, Q)` the second one, `(x1, y1)` and `(x2, y2)` the
points, `(nx, ny)` the exact direction of the first point seen from the first centre and `len` the length of the segment of an
exact path whose second centre is within rounding of the given one. Helper of the proofs. Not in /repo: specification. -/
structure TangentNear (left same : Bool) (r p q P Q ρ x1 y1 x2 y2 nx ny len : ℝ) : Prop where
  unit : nx ^ 2 + ny ^ 2 = 1
  nonneg : 0 ≤ len
  px : |x1 - (p + r * nx)| ≤ 10.4 / 16777216 * r
  py : |y1 - (q + r * ny)| ≤ 10.4 / 16777216 * r
  cx : |p + len * ((if left then 1 else -1) * -ny) + (if same then 0 else 2 * r * nx) - P| ≤ 9.9 / 16777216 * r + 1.01 / 16777216 * ρ
  cy : |q + len * ((if left then 1 else -1) * nx) + (if same then 0 else 2 * r * ny) - Q| ≤ 9.9 / 16777216 * r + 1.01 / 16777216 * ρ
  qx : |x2 - (P + (if same then 1 else -1) * (r * nx))| ≤ 9.4 / 16777216 * r + 1 / 16777216 * |P|
  qy : |y2 - (Q + (if same then 1 else -1) * (r * ny))| ≤ 9.4 / 16777216 * r + 1 / 16777216 * |Q|

/-- The end of the computation, once cosine and sine are known. -/
theorem tangent_tail {left same : Bool} {r p q P Q ρ rd c s e f nx ny c' s' : ℝ} (hr : 1 / 1024 ≤ r) (hr' : r ≤ 1024)
    (hp : |p| ≤ r) (hq : |q| ≤ r) (hP : |P| ≤ 16777216) (hQ : |Q| ≤ 16777216) (h1 : 1 / 1024 ≤ ρ)
    (hrd : |rd - r / ρ| ≤ 3.2 / 16777216 * (r / ρ)) (he : |e - ρ * nx| ≤ 4 / 16777216 * ρ) (hf : |f - ρ * ny| ≤ 4 / 16777216 * ρ)
    (hn : nx ^ 2 + ny ^ 2 = 1) (hs : 0 ≤ s') (ha : rnd (P - p) = ρ * c' * nx + ρ * s' * ((if left then 1 else -1) * -ny))
    (hb : rnd (Q - q) = ρ * c' * ny + ρ * s' * ((if left then 1 else -1) * nx))
    (hc : |(if same then 0 else 2 * r) - ρ * c'| ≤ 9.9 / 16777216 * r) (hρa : |rnd (P - p)| ≤ ρ) (hρb : |rnd (Q - q)| ≤ ρ) :
    ∃ x1 y1 x2 y2, add (fin p) (mul (fin rd) (fin e)) = fin x1 ∧ add (fin q) (mul (fin rd) (fin f)) = fin y1 ∧
      (if same then add (fin P) (mul (fin rd) (fin e)) else sub (fin P) (mul (fin rd) (fin e))) = fin x2 ∧
      (if same then add (fin Q) (mul (fin rd) (fin f)) else sub (fin Q) (mul (fin rd) (fin f))) = fin y2 ∧
      Rep x1 ∧ Rep y1 ∧ Rep x2 ∧ Rep y2 ∧ TangentNear left same r p q P Q ρ x1 y1 x2 y2 nx ny (ρ * s') := by
  have ρ0 : 0 < ρ := by linarith
  have nx1 : |nx| ≤ 1 := abs_le_one_iff_mul_self_le_one.2 (by nlinarith)
  have ny1 : |ny| ≤ 1 := abs_le_one_iff_mul_self_le_one.2 (by nlinarith)
  obtain ⟨w, w1, -, w3⟩ := arm_fin hr hr' ρ0 hrd he nx1
  obtain ⟨z, z1, -, z3⟩ := arm_fin hr hr' ρ0 hrd hf ny1
  rw [w1, z1]
  have rn : ∀ n : ℝ, |n| ≤ 1 → |r * n| ≤ r := by
    intro n hn
    rw [abs_mul, abs_of_pos (by linarith)]
    nlinarith [abs_nonneg n]
  have ex := rn nx nx1
  have ey := rn ny ny1
  obtain ⟨x1, a1, b1, c1⟩ := tip_fin hr hr' w3 ex (c := p) (by linarith)
  obtain ⟨y1, a2, b2, c2⟩ := tip_fin hr hr' z3 ey (c := q) (by linarith)
  have T : ∀ {C w y : ℝ}, |w - y| ≤ 8.3 / 16777216 * r → |y| ≤ r → |C| ≤ 16777216 →
      ∃ x2, (if same then add (fin C) (fin w) else sub (fin C) (fin w)) = fin x2 ∧ Rep x2 ∧
        |x2 - (C + (if same then 1 else -1) * y)| ≤ 9.4 / 16777216 * r + 1 / 16777216 * |C| := by
    intro C w y h1 h2 h3
    cases same with
    | true => simpa using tip_fin hr hr' h1 h2 h3
    | false =>
      have := tip_fin (c := C) (w := -w) (y := -y) hr hr' (by rwa [← neg_sub', abs_neg]) (by rwa [abs_neg]) h3
      simpa [sub, neg] using this
  obtain ⟨x2, a3, b3, c3⟩ := T w3 ex hP
  obtain ⟨y2, a4, b4, c4⟩ := T z3 ey hQ
  refine ⟨x1, y1, x2, y2, a1, a2, a3, a4, b1, b2, b3, b4, hn, by positivity, ?_, ?_, ?_, ?_, c3, c4⟩
  · refine c1.trans ?_
    norm_num
    linarith
  · refine c2.trans ?_
    norm_num
    linarith
  · have g := rnd_bnd (P - p)
    have e1 : (if same then 0 else 2 * r * nx) = (if same then 0 else 2 * r) * nx := by split_ifs <;> ring
    have e2 : p + ρ * s' * ((if left then 1 else -1) * -ny) + (if same then 0 else 2 * r) * nx - P =
        (rnd (P - p) - (P - p)) + ((if same then 0 else 2 * r) - ρ * c') * nx := by rw [ha]; ring
    rw [e1, e2]
    generalize ((if same then 0 else 2 * r) - ρ * c') = A at *
    have g2 : |A * nx| ≤ 9.9 / 16777216 * r := by
      rw [abs_mul]
      calc |A| * |nx| ≤ 9.9 / 16777216 * r * 1 := mul_le_mul hc nx1 (abs_nonneg _) (by positivity)
        _ = _ := mul_one _
    refine (abs_add_le _ _).trans ?_
    have g3 := abs_sub_abs_le_abs_sub (P - p) (rnd (P - p))
    rw [abs_sub_comm (P - p)] at g3
    generalize |rnd (P - p) - (P - p)| = z at *
    clear hc hrd he hf c1 c2 c3 c4 w3 z3
    norm_num at *
    linarith
  · have g := rnd_bnd (Q - q)
    have e1 : (if same then 0 else 2 * r * ny) = (if same then 0 else 2 * r) * ny := by split_ifs <;> ring
    have e2 : q + ρ * s' * ((if left then 1 else -1) * nx) + (if same then 0 else 2 * r) * ny - Q =
        (rnd (Q - q) - (Q - q)) + ((if same then 0 else 2 * r) - ρ * c') * ny := by rw [hb]; ring
    rw [e1, e2]
    generalize ((if same then 0 else 2 * r) - ρ * c') = A at *
    have g2 : |A * ny| ≤ 9.9 / 16777216 * r := by
      rw [abs_mul]
      calc |A| * |ny| ≤ 9.9 / 16777216 * r * 1 := mul_le_mul hc ny1 (abs_nonneg _) (by positivity)
        _ = _ := mul_one _
    refine (abs_add_le _ _).trans ?_
    have g3 := abs_sub_abs_le_abs_sub (Q - q) (rnd (Q - q))
    rw [abs_sub_comm (Q - q)] at g3
    generalize |rnd (Q - q) - (Q - q)| = z at *
    clear hc hrd he hf c1 c2 c3 c4 w3 z3
    norm_num at *
    linarith

theorem rep_twice {r : ℝ} (h : Rep r) (h1 : |r| ≤ 1024) : Rep (r * 2) := by
  obtain ⟨m, e, k1, k2, k3⟩ := h.grid
  refine grid_rep ⟨m, e + 1, k1, by omega, ?_⟩ ?_
  · rw [k3, zpow_add_one₀ two_ne_zero]; ring
  · rw [abs_mul]; norm_num; linarith

/-- A computed tangent is accurate, or all its coordinates are NaN, which happens only for circles on different sides that
touch each other up to rounding. -/
theorem tangent_fin (left same : Bool) {r p q P Q ρ : ℝ} (rr : Rep r) (hr : 1 / 1024 ≤ r) (hr' : r ≤ 1024)
    (hp : |p| ≤ r) (hq : |q| ≤ r) (hP : |P| ≤ 2097152) (hQ : |Q| ≤ 2097152)
    (hρ : ρ ^ 2 = rnd (P - p) ^ 2 + rnd (Q - q) ^ 2) (h1 : 1.9 * r ≤ ρ) (h2 : ρ ≤ 4194304) :
    (same = false ∧ ρ < 2 * r * (1 + 3.3 / 16777216) ∧
      xComputeTangent ⟨fin p, fin q⟩ ⟨fin P, fin Q⟩ (if left then 1 else -1) (fin r) same = (⟨nan, nan, false⟩, ⟨nan, nan, false⟩)) ∨
    ∃ x1 y1 x2 y2 nx ny len,
      xComputeTangent ⟨fin p, fin q⟩ ⟨fin P, fin Q⟩ (if left then 1 else -1) (fin r) same =
        (⟨fin x1, fin y1, false⟩, ⟨fin x2, fin y2, false⟩) ∧
      Rep x1 ∧ Rep y1 ∧ Rep x2 ∧ Rep y2 ∧ TangentNear left same r p q P Q ρ x1 y1 x2 y2 nx ny len := by
  have hl : 1 / 1024 ≤ ρ := by linarith
  have ρ0 : 0 < ρ := by linarith
  have big : (4194304 : ℝ) ≤ 2 ^ 127 := by norm_num
  have bx : |P - p| ≤ 2 ^ 127 := (abs_sub _ _).trans (by linarith)
  have by' : |Q - q| ≤ 2 ^ 127 := (abs_sub _ _).trans (by linarith)
  have sx : sub (fin P) (fin p) = fin (rnd (P - p)) := sub_fin bx
  have sy : sub (fin Q) (fin q) = fin (rnd (Q - q)) := sub_fin by'
  have sx' : sub (fin p) (fin P) = fin (-rnd (P - p)) := by
    rw [sub_fin (by rwa [abs_sub_comm]), ← rnd_neg, neg_sub]
  have sy' : sub (fin q) (fin Q) = fin (-rnd (Q - q)) := by
    rw [sub_fin (by rwa [abs_sub_comm]), ← rnd_neg, neg_sub]
  have ρa : |rnd (P - p)| ≤ ρ := abs_le_of_sq_le_sq (by rw [hρ]; nlinarith [sq_nonneg (rnd (Q - q))]) ρ0.le
  have ρb : |rnd (Q - q)| ≤ ρ := abs_le_of_sq_le_sq (by rw [hρ]; nlinarith [sq_nonneg (rnd (P - p))]) ρ0.le
  obtain ⟨d, d1, -, d3⟩ := hypot_fin (a := -rnd (P - p)) (b := -rnd (Q - q)) (ρ := ρ) (by rw [hρ]; ring) hl h2
  obtain ⟨rd, g1, -, g3⟩ := over_fin hr (by linarith) hl h2 d3
  unfold xComputeTangent
  simp only [sx, sy, sx', sy', d1, g1]
  have cast1 : (((if left then 1 else -1 : ℤ) : ℤ) : ℝ) = if left then 1 else -1 := by split_ifs <;> norm_num
  rw [cast1]
  have hσ : (if left then (1 : ℝ) else -1) = 1 ∨ (if left then (1 : ℝ) else -1) = -1 := by cases left <;> simp
  cases same with
  | true =>
    right
    obtain ⟨e, f, nx, ny, c', s', a1, a2, a3, a4, a5, a6, a7, a8, a9, a10⟩ :=
      slope_fin (c := 0) (s := 1) hσ Rep.one zero_le_one (by norm_num) hρ hl h2
    simp only [if_true, a1, a2]
    have c0 : c' = 0 := by
      rw [zero_sub, abs_neg] at a8
      have := abs_nonneg c'
      exact abs_eq_zero.1 (by norm_num at a8; linarith)
    obtain ⟨x1, y1, x2, y2, k1, k2, k3, k4, k5, k6, k7, k8, k9⟩ :=
      tangent_tail (same := true) (c := 0) (s := 1) hr hr' hp hq (by linarith) (by linarith) hl g3 a3 a4 a5 a6 a9 a10
        (by rw [c0]; simp; linarith) ρa ρb
    simp only [if_true] at k3 k4
    exact ⟨x1, y1, x2, y2, nx, ny, _, by rw [k1, k2, k3, k4], k5, k6, k7, k8, k9⟩
  | false =>
    have r2 : mul (fin r) (fin 2) = fin (r * 2) := by
      rw [mul, round_rep (rep_twice rr (by rw [abs_of_pos (by linarith)]; exact hr'))]
    obtain ⟨c, c1, c2, c3⟩ := over_fin (x := r * 2) (by linarith) (by linarith) hl h2 d3
    simp only [Bool.false_eq_true, if_false, r2, c1]
    obtain ⟨c4, c5⟩ := abs_le.1 c3
    have t0 : 0 < r * 2 / ρ := by positivity
    have t1 : r * 2 / ρ ≤ 1.06 := by rw [div_le_iff₀ ρ0]; linarith
    have c0 : 0 ≤ c := by
      generalize r * 2 / ρ = t at *
      norm_num at *
      linarith
    rcases le_or_gt c 1 with hc1 | hc1
    · right
      obtain ⟨s, s1, s2, s3, s4⟩ := sine_fin c2 c0 hc1
      rw [s1]
      obtain ⟨e, f, nx, ny, c', s', a1, a2, a3, a4, a5, a6, a7, a8, a9, a10⟩ := slope_fin hσ s2 s3 s4 hρ hl h2
      simp only [a1, a2]
      have hc : |(if false = true then 0 else 2 * r) - ρ * c'| ≤ 9.9 / 16777216 * r := by
        simp only [Bool.false_eq_true, if_false]
        have cc : |c'| ≤ 1.01 * c := by
          have a11 := a8
          rw [abs_sub_comm] at a11
          have := le_of_err a11
          rw [abs_of_nonneg c0] at this
          norm_num at *
          linarith
        have e1 : 2 * r - ρ * c' = ρ * (r * 2 / ρ - c) + ρ * (c - c') := by field_simp; ring
        have m1 : |ρ * (r * 2 / ρ - c)| ≤ 6.4 / 16777216 * r := by
          rw [abs_mul, abs_of_pos ρ0, abs_sub_comm]
          refine (mul_le_mul_of_nonneg_left c3 ρ0.le).trans (le_of_eq ?_)
          field_simp
          norm_num
        have m2 : |ρ * (c - c')| ≤ 3.45 / 16777216 * r := by
          rw [abs_mul, abs_of_pos ρ0]
          have c6 : c ≤ 1.001 * (r * 2 / ρ) := by
            generalize r * 2 / ρ = t at *
            norm_num at *
            linarith
          have : |c - c'| ≤ 1.7 / 16777216 * (1.01 * (1.001 * (r * 2 / ρ))) := by
            refine a8.trans ?_
            refine mul_le_mul_of_nonneg_left (cc.trans ?_) (by norm_num)
            exact mul_le_mul_of_nonneg_left c6 (by norm_num)
          refine (mul_le_mul_of_nonneg_left this ρ0.le).trans ?_
          have : ρ * (1.7 / 16777216 * (1.01 * (1.001 * (r * 2 / ρ)))) = 1.7 / 16777216 * 1.01 * 1.001 * 2 * r := by field_simp
          rw [this]
          norm_num
          linarith
        rw [e1]
        refine (abs_add_le _ _).trans ((add_le_add m1 m2).trans ?_)
        norm_num
        linarith
      obtain ⟨x1, y1, x2, y2, k1, k2, k3, k4, k5, k6, k7, k8, k9⟩ :=
        tangent_tail (same := false) (c := c) (s := s) hr hr' hp hq (by linarith) (by linarith) hl g3 a3 a4 a5 a6 a9 a10 hc ρa ρb
      simp only [Bool.false_eq_true, if_false] at k3 k4
      exact ⟨x1, y1, x2, y2, nx, ny, _, by rw [k1, k2, k3, k4], k5, k6, k7, k8, k9⟩
    · left
      have cb : c ≤ 1048576 := by
        generalize r * 2 / ρ = t at *
        norm_num at *
        linarith
      refine ⟨trivial, ?_, ?_⟩
      · have : 1 < (1 + 3.2 / 16777216) * (r * 2 / ρ) := by linarith
        have e1 : (1 + 3.2 / 16777216) * (r * 2 / ρ) * ρ = (1 + 3.2 / 16777216) * (r * 2) := by field_simp
        have := mul_lt_mul_of_pos_right this ρ0
        rw [e1, one_mul] at this
        norm_num at *
        linarith
      · rw [sine_nan c2 hc1 cb]
        have l1 : ∀ x, mul x nan = nan := by intro x; cases x <;> rfl
        have l2 : ∀ x, mul nan x = nan := by intro x; cases x <;> rfl
        have l3 : ∀ x, add x nan = nan := by intro x; cases x <;> rfl
        have l4 : ∀ x, add nan x = nan := by intro x; cases x <;> rfl
        have l5 : ∀ x, sub x nan = nan := by intro x; cases x <;> rfl
        simp only [l1, l2, l3, l4, l5]

end AlMath.F32
