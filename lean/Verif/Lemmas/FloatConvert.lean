import Verif.Model.FloatConvert
import Verif.Props.C102
import Verif.Props.C108

/-!
The parts of `quaternionFromTransform` in single precision.
-/

namespace AlMath.F32

open AlMath.Spec Matrix Quaternion

/-! ### The scalar part -/

open Classical in
/-- The scalar part of the result. -/
theorem scalar_fin {r11 r22 r33 a b c w e : ℝ} (ha : |r11 - a| ≤ e) (hb : |r22 - b| ≤ e) (hc : |r33 - c| ≤ e)
    (ra : Rep r11) (rb : Rep r22) (rc : Rep r33) (a1 : |a| ≤ 1) (b1 : |b| ≤ 1) (c1 : |c| ≤ 1)
    (hw : a + b + c + 1 = 4 * w ^ 2) (w1 : w ^ 2 ≤ 1) (he : e ≤ 1 / 4096) (r : Rotation) (h1 : r.r11 = fin r11)
    (h2 : r.r22 = fin r22) (h3 : r.r33 = fin r33) :
    ∃ q, Quat.fromTransformScalar r = fin q ∧ Rep q ∧ 0 ≤ q ∧ |q ^ 2 - w ^ 2| ≤ 3 / 4 * e + 7.9 / 16777216 := by
  have e0 : 0 ≤ e := (abs_nonneg _).trans ha
  obtain ⟨a2, a3⟩ := abs_le.1 a1
  obtain ⟨b2, b3⟩ := abs_le.1 b1
  obtain ⟨c2, c3⟩ := abs_le.1 c1
  have w0 := sq_nonneg w
  have n1 : Near (fin r11) a e := ⟨_, rfl, ra, ha⟩
  have n2 : Near (fin r22) b e := ⟨_, rfl, rb, hb⟩
  have n3 : Near (fin r33) c e := ⟨_, rfl, rc, hc⟩
  have n4 := Near.sum (M := 2) (θ := 2 * e + 2.1 / 16777216) n1 n2 (by rw [abs_le]; constructor <;> linarith)
    (by norm_num; linarith) (by norm_num; linarith)
  have n5 := Near.sum (M := 3) (θ := 3 * e + 5.2 / 16777216) n4 n3 (by rw [abs_le]; constructor <;> linarith)
    (by norm_num; linarith) (by norm_num; linarith)
  obtain ⟨t, h4, rt, ht⟩ := Near.sum (M := 4) (θ := 3 * e + 9.3 / 16777216) n5 (Near.of_rep Rep.one)
    (by rw [abs_le]; constructor <;> linarith) (by norm_num; linarith) (by norm_num; linarith)
  rw [hw] at ht
  -- the trace after the test
  obtain ⟨T, hT, T0, hT2⟩ : ∃ T, (if lt (fin t) (fin 0) then fin 0 else fin t) = fin T ∧ 0 ≤ T ∧
      |T - 4 * w ^ 2| ≤ 3 * e + 9.3 / 16777216 := by
    by_cases hl : t < 0
    · refine ⟨0, if_pos hl, le_rfl, ?_⟩
      rw [abs_le] at ht ⊢
      constructor <;> linarith
    · exact ⟨t, if_neg hl, not_lt.1 hl, ht⟩
  have S0 := Real.sqrt_nonneg T
  have S2 := Real.sq_sqrt T0
  obtain ⟨t1, t2⟩ := abs_le.1 hT2
  have S1 : √T ≤ 2.001 := by
    refine sq_le_of (by norm_num) ?_
    rw [S2]; norm_num at *; linarith
  have k1 := rnd_bnd √T
  have g0 : 0 ≤ rnd √T := le_rnd_of_le Rep.zero.grid S0
  rw [abs_of_nonneg S0] at k1
  have k2 := rnd_bnd (1 / 2 * rnd √T)
  rw [abs_of_nonneg (show 0 ≤ 1 / 2 * rnd √T by linarith)] at k2
  have q0 : 0 ≤ rnd (1 / 2 * rnd √T) := le_rnd_of_le Rep.zero.grid (by positivity)
  have hb1 : |√T| ≤ 2 ^ 127 := by rw [abs_of_nonneg S0]; exact S1.trans (by norm_num)
  have k1' := abs_le.1 k1
  have hb2 : |1 / 2 * rnd √T| ≤ 2 ^ 127 := by
    rw [abs_of_nonneg (by positivity)]
    norm_num at k1' ⊢
    linarith
  refine ⟨rnd (1 / 2 * rnd √T), ?_, rnd_rep hb2, q0, ?_⟩
  · simp only [Quat.fromTransformScalar, h1, h2, h3, h4, hT]
    rw [sqrt, if_neg (not_lt.2 T0), round_fin hb1, mul_fin hb2]
  · have k3 : |rnd (1 / 2 * rnd √T) - √T / 2| ≤ 1.1 / 16777216 * √T + 1 / 10 ^ 20 := by
      have k2' := abs_le.1 k2
      rw [abs_le]
      norm_num at k1' k2' ⊢
      constructor <;> linarith
    generalize rnd (1 / 2 * rnd √T) = q at *
    have k4 : |q ^ 2 - T / 4| ≤ 5.4 / 16777216 := by
      have e1 : q ^ 2 - T / 4 = (q - √T / 2) * (q + √T / 2) := by
        linear_combination 1 / 4 * S2
      rw [e1, abs_mul, abs_of_nonneg (show 0 ≤ q + √T / 2 by linarith)]
      have k3' := abs_le.1 k3
      have u1 : 1.1 / 16777216 * √T + 1 / 10 ^ 20 ≤ 2.21 / 16777216 := by norm_num at *; linarith
      have u2 : q + √T / 2 ≤ 2.01 := by norm_num at *; linarith
      calc |q - √T / 2| * (q + √T / 2) ≤ 2.21 / 16777216 * 2.01 :=
            mul_le_mul (k3.trans u1) u2 (by linarith) (by norm_num)
        _ ≤ _ := by norm_num
    rw [abs_le] at k4 ⊢
    constructor <;> norm_num at * <;> linarith

/-! ### The vector part -/

theorem rnd64_bnd (x : ℝ) : |F64.rnd x - x| ≤ 1 / 10 ^ 15 * |x| + 1 / 10 ^ 25 := by
  have h := F64.rnd_gen x
  have h2 : (2 : ℝ) ^ (-1075 : ℤ) ≤ 1 / 10 ^ 25 := by
    rw [_root_.zpow_neg, ← one_div]
    exact one_div_le_one_div_of_le (by norm_num) ((show (10 : ℝ) ^ 25 ≤ 2 ^ 100 by norm_num).trans
      (by exact_mod_cast pow_le_pow_right₀ (show (1 : ℝ) ≤ 2 by norm_num) (show 100 ≤ 1075 by norm_num)))
  have h3 : (2 : ℝ) ^ (-53 : ℤ) * |x| ≤ 1 / 10 ^ 15 * |x| := mul_le_mul_of_nonneg_right (by norm_num) (abs_nonneg x)
  generalize (2 : ℝ) ^ (-1075 : ℤ) = t at *
  generalize (2 : ℝ) ^ (-53 : ℤ) * |x| = z at *
  linarith

/-- The square root of `1 - q²` as a `double`. -/
theorem root_double {q : ℝ} (q0 : 0 ≤ q) (h : 1 / 10 ^ 7 ≤ 1 - q ^ 2) :
    ∃ p, F64.sqrt (F64.sub (fin 1) (F64.sq (fin q))) = fin p ∧ |p - √(1 - q ^ 2)| ≤ 1 / 10 ^ 10 := by
  have big : (4 : ℝ) ≤ 2 ^ 1000 := by
    calc (4 : ℝ) = 2 ^ 2 := by norm_num
      _ ≤ 2 ^ 1000 := pow_le_pow_right₀ (by norm_num) (by norm_num)
  have fn : ∀ {x : ℝ}, |x| ≤ 4 → F64.round x = fin (F64.rnd x) := fun hx => F64.round_fin (hx.trans big)
  have q2 := sq_nonneg q
  norm_num at h
  have k1 := rnd64_bnd (q * q)
  rw [← sq, abs_of_nonneg q2] at k1
  have a1 : |q * q| ≤ 4 := by rw [← sq, abs_of_nonneg q2]; linarith
  rw [← sq] at a1
  generalize hP : F64.rnd (q ^ 2) = P at *
  have k1' := abs_le.1 k1
  norm_num at k1'
  have a2 : |1 + -P| ≤ 4 := by rw [abs_le]; constructor <;> linarith
  have k2 := rnd64_bnd (1 + -P)
  have a3 : |1 + -P| ≤ 2 := by rw [abs_le]; constructor <;> linarith
  have k3 : |F64.rnd (1 + -P) - (1 - q ^ 2)| ≤ 4 / 10 ^ 15 := by
    have k2' := abs_le.1 k2
    norm_num at k2' ⊢
    rw [abs_le]
    constructor <;> linarith
  have e1 : F64.sub (fin 1) (F64.sq (fin q)) = fin (F64.rnd (1 + -P)) := by
    rw [F64.sq, F64.mul, ← sq, fn a1, hP, F64.sub, neg, F64.add, fn a2]
  generalize F64.rnd (1 + -P) = G at *
  have k3' := abs_le.1 k3
  norm_num at k3'
  have G0 : 0 ≤ G := by linarith
  have X0 := Real.sqrt_nonneg (1 - q ^ 2)
  have X2 := Real.sq_sqrt (show 0 ≤ 1 - q ^ 2 by linarith)
  have X1 : √(1 - q ^ 2) ≤ 1 := by rw [Real.sqrt_le_one]; linarith
  have XL : 1 / 10 ^ 4 ≤ √(1 - q ^ 2) := Real.le_sqrt_of_sq_le (by norm_num; linarith)
  have Y0 := Real.sqrt_nonneg G
  have Y2 := Real.sq_sqrt G0
  have Y1 : √G ≤ 2 := by
    refine sq_le_of (by norm_num) ?_
    rw [Y2]; norm_num; linarith
  have k4 : |√G - √(1 - q ^ 2)| ≤ 4 / 10 ^ 11 := by
    have e2 : (√G - √(1 - q ^ 2)) * (√G + √(1 - q ^ 2)) = G - (1 - q ^ 2) := by linear_combination Y2 - X2
    have e3 : |√G - √(1 - q ^ 2)| * (√G + √(1 - q ^ 2)) ≤ 4 / 10 ^ 15 := by
      rw [← abs_of_nonneg (show 0 ≤ √G + √(1 - q ^ 2) by linarith), ← abs_mul, e2]
      exact k3
    have e4 : |√G - √(1 - q ^ 2)| * (1 / 10 ^ 4) ≤ |√G - √(1 - q ^ 2)| * (√G + √(1 - q ^ 2)) :=
      mul_le_mul_of_nonneg_left (by linarith) (abs_nonneg _)
    norm_num at e3 e4 ⊢
    linarith
  refine ⟨F64.rnd √G, ?_, ?_⟩
  · rw [e1, F64.sqrt, if_neg (not_lt.2 G0), fn (by rw [abs_of_nonneg Y0]; linarith)]
  · have k5 := rnd64_bnd √G
    rw [abs_of_nonneg Y0] at k5
    have k6 := abs_add_le (F64.rnd √G - √G) (√G - √(1 - q ^ 2))
    rw [sub_add_sub_cancel] at k6
    norm_num at k4 k5 ⊢
    linarith

/-- The last lines of quaternionFromTransform, for the vector `k`. -/
theorem end_fin {r : Rotation} {q : ℝ} {k : Vec3} (hq : Quat.fromTransformScalar r = fin q) (q0 : 0 ≤ q)
    (h : 1 / 10 ^ 7 ≤ 1 - q ^ 2) (hl : 1 / 10 ^ 5 ≤ vlen k) (hu : vlen k ≤ 100) :
    ∃ y : Vec3, Quat.fromTransformEnd r (fin (k 0)) (fin (k 1)) (fin (k 2)) = Quat.ofH (qv q y) ∧ (∀ i, Rep (y i)) ∧
      vlen (y - (√(1 - q ^ 2) / vlen k) • k) ≤ 5 / 16777216 := by
  obtain ⟨n, hn, -, -, ne⟩ := norm3_fin k (hu.trans (by norm_num))
  have N0 : 0 < vlen k := lt_of_lt_of_le (by norm_num) hl
  have ne2 : |n - vlen k| ≤ 2.01 / 16777216 * vlen k := by
    have h149 : (2 : ℝ) ^ (-149 : ℤ) ≤ 1 / 10 ^ 25 := by
      rw [_root_.zpow_neg, ← one_div]
      exact one_div_le_one_div_of_le (by norm_num) (by norm_num)
    have h23 : (2 : ℝ) ^ (-23 : ℤ) = 2 / 16777216 := by norm_num
    rw [h23] at ne
    generalize (2 : ℝ) ^ (-149 : ℤ) = t at *
    norm_num at *
    linarith
  have n0 : n ≠ 0 := by
    rintro rfl
    rw [zero_sub, abs_neg, abs_of_pos N0] at ne2
    norm_num at ne2
    linarith
  obtain ⟨p, hp, pe⟩ := root_double q0 h
  have X0 := Real.sqrt_nonneg (1 - q ^ 2)
  have X1 : √(1 - q ^ 2) ≤ 1 := by rw [Real.sqrt_le_one]; linarith [sq_nonneg q]
  obtain ⟨s, hs, -, -, se⟩ := quot64 (X := √(1 - q ^ 2)) (D := vlen k) (le_trans (by norm_num) hl)
    (hu.trans (by norm_num)) pe ne2 (by norm_num) (by rw [abs_of_nonneg X0]; exact X1.trans (by norm_num)) (by norm_num)
  rw [abs_of_nonneg X0] at se
  have se2 : |s * vlen k - √(1 - q ^ 2)| ≤ 3.2 / 16777216 := by
    norm_num at se ⊢
    linarith
  have sb : |s| * vlen k ≤ 1.01 := by
    have := le_of_err se2
    rw [abs_mul, abs_of_pos N0, abs_of_nonneg X0] at this
    norm_num at this ⊢
    linarith
  have comp : ∀ i, |s * k i| ≤ 2 := fun i => by
    rw [abs_mul]
    have := mul_le_mul_of_nonneg_left (abs_le_vlen k i) (abs_nonneg s)
    norm_num at sb
    linarith
  have fn : ∀ i, mul (fin s) (fin (k i)) = fin (rnd (s * k i)) := fun i => mul_fin ((comp i).trans (by norm_num))
  refine ⟨fun i => rnd (s * k i), ?_, fun i => rnd_rep ((comp i).trans (by norm_num)), ?_⟩
  · have hne : ¬ eq (fin n) (fin 0) := n0
    simp only [Quat.fromTransformEnd, hn, hq, hp, hs, fn]
    rw [if_neg (by rw [hn]; exact hne)]
    rfl
  · have v1 := vlen_two (u := fun i => rnd (s * k i)) (z := s • k) (δ := 1 / 16777216) (η := 1 / 10 ^ 25) (by norm_num)
      (by norm_num) fun i => rnd_bnd (s * k i)
    rw [vlen_smul_abs s k] at v1
    have e1 : s • k - (√(1 - q ^ 2) / vlen k) • k = ((s * vlen k - √(1 - q ^ 2)) / vlen k) • k := by
      rw [← sub_smul]
      congr 1
      field_simp
    have v2 : vlen (s • k - (√(1 - q ^ 2) / vlen k) • k) ≤ 3.2 / 16777216 := by
      rw [e1, vlen_smul_abs _ k, abs_div, abs_of_pos N0, div_mul_cancel₀ _ N0.ne']
      exact se2
    have v3 := vlen_add ((fun i => rnd (s * k i)) - s • k) (s • k - (√(1 - q ^ 2) / vlen k) • k)
    rw [sub_add_sub_cancel] at v3
    norm_num at v1 v2 sb ⊢
    linarith

/-! ### The vector before it is scaled -/

/-- The sum and the difference of two components. -/
theorem comp_near {f g : F32} {w a b e : ℝ} (hf : Near f (4 * w * b) (2 * e + 3 / 16777216))
    (hg : Near g (4 * a * b) (3 * e + 12 / 16777216)) (hw : |w| ≤ 1) (ha : |a| ≤ 1) (hb : |b| ≤ 1) (he : e ≤ 1 / 4096)
    (e0 : 0 ≤ e) :
    Near (add f g) (4 * (w + a) * b) (5 * e + 24 / 16777216) ∧ Near (sub f g) (4 * (w - a) * b) (5 * e + 24 / 16777216) := by
  have p1 : |4 * w * b| ≤ 4 := by
    rw [abs_mul, abs_mul, abs_of_pos (by norm_num : (0 : ℝ) < 4)]
    nlinarith [abs_nonneg w, abs_nonneg b]
  have p2 : |4 * a * b| ≤ 4 := by
    rw [abs_mul, abs_mul, abs_of_pos (by norm_num : (0 : ℝ) < 4)]
    nlinarith [abs_nonneg a, abs_nonneg b]
  constructor
  · have := Near.sum (M := 8) (θ := 5 * e + 24 / 16777216) hf hg ((abs_add_le _ _).trans (by linarith))
      (by norm_num; linarith) (by norm_num; linarith)
    rwa [← add_mul, ← mul_add] at this
  · have := Near.sum (M := 8) (θ := 5 * e + 24 / 16777216) hf hg.neg
      ((abs_add_le _ _).trans (by rw [abs_neg]; linarith)) (by norm_num; linarith) (by norm_num; linarith)
    rwa [← sub_eq_add_neg, ← sub_mul, ← mul_sub] at this

/-- Three components at once. -/
theorem vec_near {f : Fin 3 → F32} {x : Vec3} {ε : ℝ} (h : ∀ i, Near (f i) (x i) ε) :
    ∃ k : Vec3, (∀ i, f i = fin (k i)) ∧ vlen (k - x) ≤ 7 / 4 * ε := by
  choose k h1 h2 h3 using h
  have ε0 : 0 ≤ ε := (abs_nonneg _).trans (h3 0)
  refine ⟨k, h1, sq_le_of (by linarith) ?_⟩
  have := fun i => sq_le_sq' (abs_le.1 (h3 i)).1 (abs_le.1 (h3 i)).2
  have a0 := this 0
  have a1 := this 1
  have a2 := this 2
  rw [vlen_sq, Fin.sum_univ_three]
  simp only [Pi.sub_apply]
  nlinarith [sq_nonneg ε]

/-- The factor by which the vector part is scaled is not small, and has the right sign except for a half turn. -/
theorem factor_bound {w a V κ δ e : ℝ} (w0 : 0 ≤ w) (V0 : 0 ≤ V) (hu : w ^ 2 + V ^ 2 = 1) (ha : V ^ 2 - 2 * e ≤ 3 * a ^ 2)
    (e0 : 0 ≤ e) (hV : 32 * δ ≤ V ^ 2) (hδ : e ≤ δ) (δ0 : 0 < δ) (δ1 : δ ≤ 1 / 4000) (hκ : |κ - 4 * w * a| ≤ 2 * δ) :
    (0 ≤ κ → ∃ σ : ℝ, (σ = 1 ∨ σ = -1 ∧ w ≤ 2 * δ) ∧ 0.475 ≤ σ * (w + a)) ∧
    (κ < 0 → ∃ σ : ℝ, (σ = 1 ∨ σ = -1 ∧ w ≤ 2 * δ) ∧ 0.475 ≤ σ * (w - a)) := by
  obtain ⟨k1, k2⟩ := abs_le.1 hκ
  have key : ∀ b : ℝ, b ^ 2 = a ^ 2 → 0 ≤ b → 1 / 2 ≤ w + b := fun b hb b0 => by
    have : V / 2 ≤ b := by
      refine sq_le_of b0 ?_
      nlinarith
    have V1 : V ≤ 1 := by nlinarith [sq_nonneg w]
    have w1 : w ≤ 1 := by nlinarith [sq_nonneg V]
    nlinarith
  have key2 : ∀ b : ℝ, b ^ 2 = a ^ 2 → 0 ≤ b → 4 * w * b ≤ 2 * δ → w ≤ 2 * δ ∧ 0.475 ≤ b - w := fun b hb b0 hs => by
    have hVb : V / 2 ≤ b := by
      refine sq_le_of b0 ?_
      nlinarith
    have h1 : w * V ≤ δ := by nlinarith
    have h2 : w ≤ 1 / 2 := by
      by_contra hc
      have hc' := lt_of_not_ge hc
      have : V ≤ 2 * δ := by nlinarith
      nlinarith
    have h3 : 1 / 2 ≤ V := by nlinarith
    have h4 : w ≤ 2 * δ := by nlinarith
    have h5 : 0.3 ≤ b ^ 2 := by
      rw [hb]
      norm_num
      nlinarith
    have h6 : 0.5 ≤ b := by
      refine sq_le_of b0 ?_
      norm_num at h5 ⊢
      linarith
    refine ⟨h4, ?_⟩
    norm_num at h6 ⊢
    linarith
  constructor
  · intro h
    rcases le_or_gt 0 a with h0 | h0
    · refine ⟨1, .inl rfl, ?_⟩
      have := key a rfl h0
      norm_num
      linarith
    · obtain ⟨h1, h2⟩ := key2 (-a) (by ring) (by linarith) (by linarith)
      refine ⟨-1, .inr ⟨rfl, h1⟩, ?_⟩
      norm_num at h2 ⊢
      linarith
  · intro h
    rcases le_or_gt a 0 with h0 | h0
    · refine ⟨1, .inl rfl, ?_⟩
      have := key (-a) (by ring) (by linarith)
      norm_num
      linarith
    · obtain ⟨h1, h2⟩ := key2 a rfl h0.le (by linarith)
      refine ⟨-1, .inr ⟨rfl, h1⟩, ?_⟩
      norm_num at h2 ⊢
      linarith

theorem unit_near {q X Y n : ℝ} (X2 : X ^ 2 = 1 - q ^ 2) (X0 : 0 ≤ X) (X1 : X ≤ 1) (Y0 : 0 ≤ Y) (n0 : 0 ≤ n)
    (g1 : Y ≤ X + 5 / 16777216) (g2 : X ≤ Y + 5 / 16777216) (hn : n ^ 2 = q ^ 2 + Y ^ 2) : |n - 1| ≤ 2 ^ (-20 : ℤ) := by
  have h20 : (2 : ℝ) ^ (-20 : ℤ) = 16 / 16777216 := by norm_num
  rw [h20]
  have e1 : (n - 1) * (n + 1) = (Y - X) * (Y + X) := by linear_combination hn + X2
  have h1 : |Y - X| ≤ 5 / 16777216 := by rw [abs_le]; constructor <;> linarith
  have h2 : |n - 1| * (n + 1) = |Y - X| * (Y + X) := by
    rw [← abs_of_nonneg (show 0 ≤ n + 1 by linarith), ← abs_mul, e1, abs_mul, abs_of_nonneg (show 0 ≤ Y + X by linarith)]
  have h3 : |Y - X| * (Y + X) ≤ 5 / 16777216 * 3 := mul_le_mul h1 (by linarith) (by linarith) (by norm_num)
  have h4 : |n - 1| * 1 ≤ |n - 1| * (n + 1) := mul_le_mul_of_nonneg_left (by linarith) (abs_nonneg _)
  linarith

/-- The result, from a vector that is almost parallel to the vector part. -/
theorem end_near {r : Rotation} {q w τ σ δ : ℝ} {k v : Vec3} (hq : Quat.fromTransformScalar r = fin q) (rq : Rep q)
    (q0 : 0 ≤ q) (hqw : |q ^ 2 - w ^ 2| ≤ δ) (hu : w ^ 2 + vlen v ^ 2 = 1) (hV : 32 * δ ≤ vlen v ^ 2)
    (hδ : 8 / 16777216 ≤ δ) (hδ1 : δ ≤ 1 / 4000) (hσ : σ = 1 ∨ σ = -1) (hτ : 0.475 ≤ σ * τ) (hτ2 : σ * τ ≤ 2)
    (hk : vlen (k - (4 * τ) • v) ≤ 9 * δ) :
    ∃ y : Vec3, Quat.fromTransformEnd r (fin (k 0)) (fin (k 1)) (fin (k 2)) = Quat.ofH (qv q y) ∧ RepH (qv q y) ∧
      vlen (y - σ • v) * vlen v ≤ 13 * δ ∧ |‖qv q y‖ - 1| ≤ 2 ^ (-20 : ℤ) := by
  have V0 := vlen_nonneg v
  have hqw' := abs_le.1 hqw
  have hσ2 : σ * σ = 1 := by rcases hσ with rfl | rfl <;> norm_num
  have hσa : |σ| = 1 := by rcases hσ with rfl | rfl <;> norm_num
  set V := vlen v with hVd
  have V1 : V ≤ 1 := by nlinarith [sq_nonneg w]
  have VL : 1 / 256 ≤ V := by
    refine sq_le_of V0 ?_
    norm_num
    linarith
  -- the length of the vector
  have hK : vlen ((4 * τ) • v) = 4 * (σ * τ) * V := by
    rw [vlen_smul_abs _ v, abs_mul, abs_of_pos (by norm_num : (0 : ℝ) < 4)]
    have : |τ| = σ * τ := by
      have : |σ * τ| = |τ| := by rw [abs_mul, hσa, one_mul]
      rw [← this, abs_of_nonneg (by norm_num at hτ; linarith)]
    rw [this]
  have h9 : 9 * δ ≤ 9 / 32 * V := by nlinarith
  have t1 : vlen k ≤ vlen ((4 * τ) • v) + 9 * δ := by
    have := vlen_add (k - (4 * τ) • v) ((4 * τ) • v)
    rw [sub_add_cancel] at this
    linarith
  have t2 : vlen ((4 * τ) • v) ≤ vlen k + 9 * δ := by
    have := vlen_add (-(k - (4 * τ) • v)) k
    rw [neg_sub, sub_add_cancel] at this
    have e1 : vlen ((4 * τ) • v - k) = vlen (k - (4 * τ) • v) := by
      rw [← neg_sub, vlen_neg]
    linarith
  have hL : 1.6 * V ≤ vlen k := by
    rw [hK] at t2
    have : 0.475 * V ≤ σ * τ * V := mul_le_mul_of_nonneg_right hτ V0
    norm_num at this ⊢
    linarith
  have hU : vlen k ≤ 100 := by
    rw [hK] at t1
    have : σ * τ * V ≤ 2 * V := mul_le_mul_of_nonneg_right hτ2 V0
    linarith
  have hX : 1 / 10 ^ 7 ≤ 1 - q ^ 2 := by
    norm_num
    linarith
  obtain ⟨y, h1, h2, h3⟩ := end_fin hq q0 hX (by norm_num at hL ⊢; linarith) hU
  have N0 : 0 < vlen k := by norm_num at hL; linarith
  have X0 := Real.sqrt_nonneg (1 - q ^ 2)
  have X2 := Real.sq_sqrt (show 0 ≤ 1 - q ^ 2 by norm_num at hX; linarith)
  set X := √(1 - q ^ 2) with hXd
  set N := vlen k with hNd
  refine ⟨y, h1, ⟨rq, h2 0, h2 1, h2 2⟩, ?_, ?_⟩
  · have p2 : |X - V| * V ≤ δ := by
      have e1 : (X - V) * (X + V) = -(q ^ 2 - w ^ 2) := by linear_combination X2 - hu
      have e2 : |X - V| * (X + V) ≤ δ := by
        rw [← abs_of_nonneg (show 0 ≤ X + V by linarith), ← abs_mul, e1, abs_neg]
        exact hqw
      have := mul_le_mul_of_nonneg_left (show V ≤ X + V by linarith) (abs_nonneg (X - V))
      linarith
    have p3 : vlen ((V / N) • k - σ • v) ≤ 11.25 * δ := by
      have e1 : (V / N) • k - σ • v = (V / N) • (k - (4 * τ) • v) + (σ * ((4 * (σ * τ) * V - N) / N)) • v := by
        ext i
        simp only [Pi.sub_apply, Pi.add_apply, Pi.smul_apply, smul_eq_mul]
        field_simp
        linear_combination (-4 * V * τ * v i) * hσ2
      rw [e1]
      refine (vlen_add _ _).trans ?_
      rw [vlen_smul_abs (V / N) (k - (4 * τ) • v), vlen_smul_abs _ v, abs_mul, hσa, one_mul, abs_div, abs_div, abs_of_pos N0,
        abs_of_nonneg V0, ← hVd]
      rw [hK] at t1 t2
      have q1 : |4 * (σ * τ) * V - N| ≤ 9 * δ := by rw [abs_le]; constructor <;> linarith
      have q2 : V / N ≤ 1 / 1.6 := by
        rw [div_le_div_iff₀ N0 (by norm_num)]
        linarith
      have q3 : V / N * vlen (k - (4 * τ) • v) ≤ 1 / 1.6 * (9 * δ) :=
        mul_le_mul q2 hk (vlen_nonneg _) (by norm_num)
      have q4 : |4 * (σ * τ) * V - N| / N * V ≤ 9 * δ * (1 / 1.6) := by
        rw [div_mul_eq_mul_div, mul_div_assoc]
        exact mul_le_mul q1 q2 (by positivity) (by linarith)
      norm_num at q3 q4 ⊢
      linarith
    have e4 : (X / N) • k - (V / N) • k = ((X - V) / N) • k := by rw [← sub_smul, ← sub_div]
    have p4 : vlen ((X / N) • k - (V / N) • k) = |X - V| := by
      rw [e4, vlen_smul_abs _ k, abs_div, abs_of_pos N0, ← hNd, div_mul_cancel₀ _ N0.ne']
    have e5 : y - σ • v = (y - (X / N) • k) + ((X / N) • k - (V / N) • k) + ((V / N) • k - σ • v) := by abel
    have p5 : vlen (y - σ • v) ≤ 5 / 16777216 + |X - V| + 11.25 * δ := by
      rw [e5]
      refine (vlen_add _ _).trans (add_le_add ((vlen_add _ _).trans (add_le_add h3 p4.le)) p3)
    have := mul_le_mul_of_nonneg_right p5 V0
    have a1 : 5 / 16777216 * V ≤ 5 / 16777216 := by linarith
    have a2 : δ * V ≤ δ := by nlinarith
    norm_num at this
    linarith
  · have hN : vlen ((X / N) • k) = X := by
      rw [vlen_smul _ (by positivity), ← hNd, div_mul_cancel₀ _ N0.ne']
    have g1 : vlen y ≤ X + 5 / 16777216 := by
      have := vlen_add (y - (X / N) • k) ((X / N) • k)
      rw [sub_add_cancel] at this
      linarith
    have g2 : X ≤ vlen y + 5 / 16777216 := by
      have := vlen_add ((X / N) • k - y) y
      rw [sub_add_cancel] at this
      have e1 : vlen ((X / N) • k - y) = vlen (y - (X / N) • k) := by rw [← neg_sub, vlen_neg]
      linarith
    have hn := qv_norm_sq q y
    have n0 := norm_nonneg (qv q y)
    have y0 := vlen_nonneg y
    have X1 : X ≤ 1 := by rw [hXd, Real.sqrt_le_one]; linarith [sq_nonneg q]
    exact unit_near X2 X0 X1 y0 n0 g1 g2 hn

/-! ### Matrices near a rotation -/

theorem poly_rot_bounds {w x y z : ℝ} (h : w ^ 2 + x ^ 2 + y ^ 2 + z ^ 2 = 1) (i j : Fin 3) : |polyMat w x y z i j| ≤ 1 :=
  rot_entry_le (polyMat_rot h) i j

end AlMath.F32
