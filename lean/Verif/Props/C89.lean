import Verif.Props.C27
import Verif.Props.C76
import Verif.Props.C88

/-!
C89: circular means on floats.
-/

namespace AlMath.F32

open AlMath.Spec

/-- Lists of different lengths and weights that are not strictly positive are refused, whatever the other numbers are
(NaN and infinities included). -/
theorem C89_refuses (m : Libm) (small : ℝ) (angles weights : List F32)
    (h : angles.length ≠ weights.length ∨ ∃ w ∈ weights, le w (fin 0)) :
    weightedMeanAngle m.cos m.sin m.atan2 small angles weights = .throws := by
  rw [weightedMeanAngle]
  by_cases hl : angles.length = weights.length
  · rw [if_neg (not_not.2 hl)]
    have hw := h.resolve_left (not_not.2 hl)
    suffices ∀ s, weightedMeanLoop m.cos m.sin angles weights s = .throws by
      rw [this]
      rfl
    clear h
    induction angles generalizing weights with
    | nil =>
      have : weights = [] := List.length_eq_zero_iff.1 hl.symm
      subst this
      simp at hw
    | cons a as ih =>
      cases weights with
      | nil => simp at hl
      | cons w ws =>
        intro s
        rw [weightedMeanLoop]
        by_cases hc : le w (fin 0)
        · rw [if_pos hc]
        · rw [if_neg hc]
          refine ih ws (by simpa using hl) ?_ _
          obtain ⟨v, hv, hv0⟩ := hw
          rcases List.mem_cons.1 hv with rfl | hv
          · exact absurd hv0 hc
          · exact ⟨v, hv, hv0⟩
  · rw [if_pos hl]

/-- Sum of the weights. Helper of the proofs. Not in /repo: specification. -/
def wsum (l : List (ℝ × ℝ)) : ℝ := (l.map Prod.snd).sum

theorem wsum_cons (p : ℝ × ℝ) (l : List (ℝ × ℝ)) : wsum (p :: l) = p.2 + wsum l := by simp [wsum]

theorem wsum_nonneg {l : List (ℝ × ℝ)} (h : ∀ p ∈ l, 0 < p.2) : 0 ≤ wsum l := by
  refine List.sum_nonneg ?_
  intro x hx
  obtain ⟨p, hp, rfl⟩ := List.mem_map.1 hx
  exact (h p hp).le

theorem Rep.ge_eta {w : ℝ} (h : Rep w) (h0 : 0 < w) : 2 * 2 ^ (-150 : ℤ) ≤ w := by
  obtain ⟨m, e, -, h2, -, rfl⟩ := h
  have hm : (1 : ℝ) ≤ m := by
    have : 0 < (m : ℝ) := pos_of_mul_pos_left h0 (two_zpow_pos e).le
    exact_mod_cast (show 0 < m by exact_mod_cast this)
  have he : (2 : ℝ) ^ (-149 : ℤ) ≤ 2 ^ e := two_zpow_le h2
  have e1 : (2 : ℝ) ^ (-149 : ℤ) = 2 * 2 ^ (-150 : ℤ) := by norm_num
  rw [← e1]
  nlinarith [two_zpow_pos e]

/-- One step of the loop on one coordinate. -/
theorem mean_step {X C c t w W k T : ℝ} (hX : Grid X) (hw : Rep w) (hw0 : 0 < w) (hc : |c - t| ≤ 2 ^ (-23 : ℤ)) (ht : |t| ≤ 1)
    (hk : 0 ≤ k) (hk2 : k + 1 ≤ 262144)
    (hC : |C| ≤ W) (hE : |X - C| ≤ 2 ^ (-22 : ℤ) * W + k * 2 ^ (-150 : ℤ) + k * 2 ^ (-22 : ℤ) * T)
    (hη : 2 * k * 2 ^ (-150 : ℤ) ≤ W) (hT : W + w ≤ T) (hT2 : T ≤ 2 ^ 60) :
    ∃ Y, add (fin X) (mul (fin c) (fin w)) = fin Y ∧ Rep Y ∧
      |Y - (C + t * w)| ≤ 2 ^ (-22 : ℤ) * (W + w) + (k + 1) * 2 ^ (-150 : ℤ) + (k + 1) * 2 ^ (-22 : ℤ) * T := by
  have hη0 := two_zpow_pos (-150)
  have hηw := hw.ge_eta hw0
  have e22 : (2 : ℝ) ^ (-22 : ℤ) = 4 / 16777216 := by norm_num
  have e23 : (2 : ℝ) ^ (-23 : ℤ) = 2 / 16777216 := by norm_num
  rw [e23] at hc
  rw [e22] at hE ⊢
  have c1 : |c| ≤ 1 + 2 / 16777216 := by linarith [le_of_err hc]
  have p1 := rnd_mul c w
  rw [abs_of_pos hw0, two_neg24] at p1
  have q0 : |c * w| ≤ (1 + 2 / 16777216) * w := by
    rw [abs_mul, abs_of_pos hw0]
    exact mul_le_mul_of_nonneg_right c1 hw0.le
  have p2 : |rnd (c * w) - c * w| ≤ 1 / 16777216 * ((1 + 2 / 16777216) * w) + 2 ^ (-150 : ℤ) := by
    refine p1.trans (add_le_add (mul_le_mul_of_nonneg_left ?_ (by norm_num)) le_rfl)
    exact mul_le_mul_of_nonneg_right c1 hw0.le
  have p3 : |rnd (c * w) - t * w| ≤ 4 / 16777216 * w + 2 ^ (-150 : ℤ) := by
    have h1 := abs_add_le (rnd (c * w) - c * w) (c * w - t * w)
    rw [sub_add_sub_cancel] at h1
    have h2 : |c * w - t * w| ≤ 2 / 16777216 * w := by
      rw [← sub_mul, abs_mul, abs_of_pos hw0]
      exact mul_le_mul_of_nonneg_right hc hw0.le
    generalize (2 : ℝ) ^ (-150 : ℤ) = η at *
    linarith
  have hp : |rnd (c * w)| ≤ 2 * w := by
    have := le_of_err p2
    generalize (2 : ℝ) ^ (-150 : ℤ) = η at *
    linarith
  have hT0 : 0 ≤ T := by linarith [abs_nonneg C]
  have hkT : k * (4 / 16777216) * T ≤ 1 / 4 * T := mul_le_mul_of_nonneg_right (by linarith) hT0
  have hXb : |X| ≤ 2 * T - w := by
    have := le_of_err hE
    generalize (2 : ℝ) ^ (-150 : ℤ) = η at *
    nlinarith
  have hsum : |X + rnd (c * w)| ≤ 4 * T := by
    have := abs_add_le X (rnd (c * w))
    linarith [abs_nonneg C]
  have s1 := rnd_add hX (rnd_grid (c * w))
  rw [two_neg24] at s1
  have b127 : |X + rnd (c * w)| ≤ 2 ^ 127 := hsum.trans (by
    have : 4 * T ≤ 4 * 2 ^ 60 := by linarith
    exact this.trans (by norm_num))
  have bm : |c * w| ≤ 2 ^ 127 := by
    have : |c * w| ≤ 2 * 2 ^ 60 := by
      refine q0.trans ?_
      have : w ≤ 2 ^ 60 := by linarith [abs_nonneg C]
      nlinarith
    exact this.trans (by norm_num)
  refine ⟨rnd (X + rnd (c * w)), ?_, rnd_rep b127, ?_⟩
  · rw [mul_fin bm, add_fin b127]
  · have h1 := abs_add_le (rnd (X + rnd (c * w)) - (X + rnd (c * w))) ((X - C) + (rnd (c * w) - t * w))
    have h2 := abs_add_le (X - C) (rnd (c * w) - t * w)
    have e : rnd (X + rnd (c * w)) - (X + rnd (c * w)) + (X - C + (rnd (c * w) - t * w)) =
        rnd (X + rnd (c * w)) - (C + t * w) := by ring
    rw [e] at h1
    generalize (2 : ℝ) ^ (-150 : ℤ) = η at *
    nlinarith

theorem mean_loop (m : Libm) (hm : m.Accurate) {T : ℝ} (hT2 : T ≤ 2 ^ 60) (l : List (ℝ × ℝ))
    (hl : ∀ p ∈ l, Rep p.1 ∧ Rep p.2 ∧ 0 < p.2) (X Y : ℝ) (C : ℂ) (W k : ℝ) (hX : Grid X) (hY : Grid Y)
    (hk : 0 ≤ k) (hk2 : k + l.length ≤ 262144) (hC1 : |C.re| ≤ W) (hC2 : |C.im| ≤ W)
    (hE1 : |X - C.re| ≤ 2 ^ (-22 : ℤ) * W + k * 2 ^ (-150 : ℤ) + k * 2 ^ (-22 : ℤ) * T)
    (hE2 : |Y - C.im| ≤ 2 ^ (-22 : ℤ) * W + k * 2 ^ (-150 : ℤ) + k * 2 ^ (-22 : ℤ) * T)
    (hη : 2 * k * 2 ^ (-150 : ℤ) ≤ W) (hT : W + wsum l ≤ T) :
    ∃ X' Y', weightedMeanLoop m.cos m.sin (l.map fun p => fin p.1) (l.map fun p => fin p.2) (fin X, fin Y) = .ok (fin X', fin Y') ∧
      Grid X' ∧ Grid Y' ∧
      |X' - (C + resultant l).re| ≤ 2 ^ (-22 : ℤ) * (W + wsum l) + (k + l.length) * 2 ^ (-150 : ℤ) +
        (k + l.length) * 2 ^ (-22 : ℤ) * T ∧
      |Y' - (C + resultant l).im| ≤ 2 ^ (-22 : ℤ) * (W + wsum l) + (k + l.length) * 2 ^ (-150 : ℤ) +
        (k + l.length) * 2 ^ (-22 : ℤ) * T := by
  induction l generalizing X Y C W k with
  | nil =>
    refine ⟨X, Y, rfl, hX, hY, ?_, ?_⟩
    · simpa [resultant, wsum] using hE1
    · simpa [resultant, wsum] using hE2
  | cons p l ih =>
    obtain ⟨a, w⟩ := p
    obtain ⟨ra, rw', w0⟩ := hl (a, w) (by simp)
    simp only at ra rw' w0
    have hl' : ∀ p ∈ l, Rep p.1 ∧ Rep p.2 ∧ 0 < p.2 := fun p hp => hl p (by simp [hp])
    have hws := wsum_nonneg fun p hp => (hl' p hp).2.2
    rw [wsum_cons] at hT ⊢
    simp only [List.length_cons, Nat.cast_add, Nat.cast_one] at hk2 ⊢
    have hlen : (0 : ℝ) ≤ l.length := Nat.cast_nonneg _
    obtain ⟨c, c1, -, c3⟩ := hm.cos a ra
    obtain ⟨s, s1, -, s3⟩ := hm.sin a ra
    obtain ⟨X1, x1, x2, x3⟩ := mean_step (T := T) hX rw' w0 c3 (Real.abs_cos_le_one a) hk (by linarith) hC1 hE1 hη (by linarith) hT2
    obtain ⟨Y1, y1, y2, y3⟩ := mean_step (T := T) hY rw' w0 s3 (Real.abs_sin_le_one a) hk (by linarith) hC2 hE2 hη (by linarith) hT2
    have he : (w : ℂ) * Complex.exp (a * Complex.I) = ⟨Real.cos a * w, Real.sin a * w⟩ := by
      rw [Complex.exp_mul_I]
      apply Complex.ext <;> simp [← Complex.ofReal_cos, ← Complex.ofReal_sin] <;> ring
    have hres : C + resultant ((a, w) :: l) = (C + ⟨Real.cos a * w, Real.sin a * w⟩) + resultant l := by
      simp only [resultant, List.map_cons, List.sum_cons, he]
      rw [← add_assoc]
    have hb : ∀ t : ℝ, |t| ≤ 1 → |t * w| ≤ w := fun t ht => by
      rw [abs_mul, abs_of_pos w0]
      nlinarith
    have hηw := rw'.ge_eta w0
    obtain ⟨X', Y', h1, h2, h3, h4, h5⟩ := ih hl' X1 Y1 (C + ⟨Real.cos a * w, Real.sin a * w⟩) (W + w) (k + 1) x2.grid y2.grid
      (by linarith) (by linarith)
      (by
        rw [Complex.add_re]
        exact (abs_add_le _ _).trans (add_le_add hC1 (hb _ (Real.abs_cos_le_one a))))
      (by
        rw [Complex.add_im]
        exact (abs_add_le _ _).trans (add_le_add hC2 (hb _ (Real.abs_sin_le_one a))))
      (by rw [Complex.add_re]; exact x3) (by rw [Complex.add_im]; exact y3) (by linarith) (by linarith)
    refine ⟨X', Y', ?_, h2, h3, ?_, ?_⟩
    · simp only [List.map_cons, weightedMeanLoop]
      rw [if_neg (by simp only [le, lt, eq]; push Not; exact ⟨w0.le, w0.ne'⟩), c1, s1, x1, y1]
      exact h1
    · rw [hres]
      have e1 : W + (w + wsum l) = W + w + wsum l := by ring
      have e2 : k + ((l.length : ℝ) + 1) = k + 1 + l.length := by ring
      rw [e1, e2]
      exact h4
    · rw [hres]
      have e1 : W + (w + wsum l) = W + w + wsum l := by ring
      have e2 : k + ((l.length : ℝ) + 1) = k + 1 + l.length := by ring
      rw [e1, e2]
      exact h5

theorem norm2_fin {X Y : ℝ} (h : ‖(⟨X, Y⟩ : ℂ)‖ ≤ 2 ^ 61) :
    ∃ N, norm2 (fin X) (fin Y) = fin N ∧ |N - ‖(⟨X, Y⟩ : ℂ)‖| ≤ 6 / 16777216 * ‖(⟨X, Y⟩ : ℂ)‖ + 2 ^ (-72 : ℤ) := by
  have hsq : ‖(⟨X, Y⟩ : ℂ)‖ ^ 2 = X * X + Y * Y := by
    rw [← Complex.normSq_eq_norm_sq, Complex.normSq_mk]
  have h0 := norm_nonneg (⟨X, Y⟩ : ℂ)
  generalize ‖(⟨X, Y⟩ : ℂ)‖ = r at *
  have e : |X| * |X| + |Y| * |Y| + |(0 : ℝ)| * |(0 : ℝ)| = r ^ 2 := by
    rw [hsq, abs_mul_abs_self, abs_mul_abs_self, abs_zero]
    ring
  have hb : r ^ 2 ≤ 2 ^ 122 := by
    calc r ^ 2 ≤ (2 ^ 61) ^ 2 := pow_le_pow_left₀ h0 h 2
      _ = 2 ^ 122 := by norm_num
  obtain ⟨d, d1, d2, d3⟩ := dot_fin (a := X) (b := Y) (c := 0) (x := X) (y := Y) (z := 0) (by
    rw [e]
    exact hb.trans (by norm_num))
  rw [e, mul_zero, add_zero, ← hsq, show (2 : ℝ) ^ (-148 : ℤ) = (2 ^ (-74 : ℤ)) ^ 2 by norm_num] at d3
  have bx : |X * X| ≤ 2 ^ 127 := by
    rw [abs_of_nonneg (mul_self_nonneg X)]
    exact (show _ ≤ r ^ 2 by nlinarith [mul_self_nonneg Y]).trans (hb.trans (by norm_num))
  have by' : |Y * Y| ≤ 2 ^ 127 := by
    rw [abs_of_nonneg (mul_self_nonneg Y)]
    exact (show _ ≤ r ^ 2 by nlinarith [mul_self_nonneg X]).trans (hb.trans (by norm_num))
  have n0 : 0 ≤ rnd (X * X) := le_rnd_of_le Rep.zero.grid (mul_self_nonneg X)
  have n1 : 0 ≤ rnd (Y * Y) := le_rnd_of_le Rep.zero.grid (mul_self_nonneg Y)
  -- the third product is 0
  have hz : mul (fin 0) (fin 0) = fin 0 := by rw [mul, mul_zero, round_rep Rep.zero]
  have ha0 : ∀ x, Valid x → add x (fin 0) = x := fun x hx => by
    cases x with
    | fin x =>
      rw [add, add_zero]
      exact round_rep hx
    | _ => rfl
  have hd : add (mul (fin X) (fin X)) (mul (fin Y) (fin Y)) = fin d := by
    rw [dot, hz, ha0] at d1
    · exact d1
    · rw [mul_fin bx, mul_fin by']
      exact round_valid _
  have hd0 : 0 ≤ d := by
    rw [mul_fin bx, mul_fin by', add] at hd
    have hle : |rnd (X * X) + rnd (Y * Y)| ≤ 2 ^ 127 := by
      have k1 := rnd_gen (X * X)
      have k2 := rnd_gen (Y * Y)
      rw [two_neg24] at k1 k2
      have h1 := le_of_err k1
      have h2 := le_of_err k2
      have w := eta_le
      have := abs_add_le (rnd (X * X)) (rnd (Y * Y))
      have k3 : |X * X| + |Y * Y| = r ^ 2 := by
        rw [abs_of_nonneg (mul_self_nonneg X), abs_of_nonneg (mul_self_nonneg Y), hsq]
      generalize (2 : ℝ) ^ (-150 : ℤ) = η at *
      have : |rnd (X * X) + rnd (Y * Y)| ≤ 2 * 2 ^ 122 + 2 := by linarith
      exact this.trans (by norm_num)
    rw [round_fin hle] at hd
    rw [← F32.fin.inj hd]
    exact le_rnd_of_le Rep.zero.grid (by linarith)
  have s1 := sqrt_err_abs h0 (two_zpow_pos (-22)).le (by norm_num) (two_zpow_pos (-74)).le d3
  have e22 : (2 : ℝ) ^ (-22 : ℤ) = 4 / 16777216 := by norm_num
  have e72 : (2 : ℝ) ^ (-72 : ℤ) = 4 * 2 ^ (-74 : ℤ) := by norm_num
  have e150 : (2 : ℝ) ^ (-150 : ℤ) ≤ 2 ^ (-74 : ℤ) := two_zpow_le (by norm_num)
  have e74 : (2 : ℝ) ^ (-74 : ℤ) ≤ 1 := zpow_le_one_of_nonpos₀ (by norm_num) (by norm_num)
  rw [e22] at s1
  rw [e72]
  have s2 := le_of_err s1
  rw [abs_of_nonneg (Real.sqrt_nonneg d), abs_of_nonneg h0] at s2
  have s3 := rnd_gen (√d)
  rw [two_neg24, abs_of_nonneg (Real.sqrt_nonneg d)] at s3
  have hζ := two_zpow_pos (-74)
  generalize (2 : ℝ) ^ (-150 : ℤ) = η at *
  generalize (2 : ℝ) ^ (-74 : ℤ) = ζ at *
  have bs : |√d| ≤ 2 ^ 127 := by
    rw [abs_of_nonneg (Real.sqrt_nonneg d)]
    have : √d ≤ 2 * 2 ^ 61 + 1 := by linarith
    exact this.trans (by norm_num)
  refine ⟨rnd (√d), ?_, ?_⟩
  · rw [norm2, hd, sqrt, if_neg (not_lt.2 hd0), round_fin bs]
  · have := abs_add_le (rnd (√d) - √d) (√d - r)
    rw [sub_add_sub_cancel] at this
    linarith

/-- Error of the sum in `weightedMeanAngle`. Not in /repo: specification. -/
noncomputable def meanErr (l : List (ℝ × ℝ)) : ℝ := (l.length + 2) * 2 ^ (-21 : ℤ) * (l.map Prod.snd).sum + 2 ^ (-70 : ℤ)

theorem exp_drift (a b : ℝ) (k : ℤ) : ‖Complex.exp (a * Complex.I) - Complex.exp (b * Complex.I)‖ ≤ |a - (b + k * (2 * Real.pi))| := by
  have e : Complex.exp (b * Complex.I) = Complex.exp ((b + k * (2 * Real.pi) : ℝ) * Complex.I) := by
    push_cast
    rw [add_mul, Complex.exp_add, show (k : ℂ) * (2 * Real.pi) * Complex.I = k * (2 * Real.pi * Complex.I) by ring,
      Complex.exp_int_mul_two_pi_mul_I, mul_one]
  rw [e]
  generalize b + k * (2 * Real.pi) = c
  have h := Complex.norm_exp_I_mul_ofReal_sub_one (a - c)
  have e2 : Complex.exp (a * Complex.I) - Complex.exp (c * Complex.I) =
      Complex.exp (c * Complex.I) * (Complex.exp (Complex.I * ((a - c : ℝ) : ℂ)) - 1) := by
    rw [mul_sub, mul_one, ← Complex.exp_add]
    congr 2
    push_cast
    ring
  rw [e2, norm_mul, Complex.norm_exp_ofReal_mul_I, one_mul, h, norm_mul, Real.norm_eq_abs, Real.norm_eq_abs, abs_two]
  have := Real.abs_sin_le_abs (x := (a - c) / 2)
  rw [abs_div, abs_two] at this
  linarith

open Classical in
/-- The mean of up to 2^18 finite angles with finite positive weights: if the exact resultant is shorter than the threshold
by more than the error, then there is none; if it is longer by at least the error, then the computed angle has its direction up to the error. -/
theorem C89_mean (m : Libm) (hm : m.Accurate) (small : ℝ) (l : List (ℝ × ℝ)) (hl : ∀ p ∈ l, Rep p.1 ∧ Rep p.2 ∧ 0 < p.2)
    (hn : l.length ≤ 2 ^ 18) (hW : (l.map Prod.snd).sum ≤ 2 ^ 60) :
    (‖resultant l‖ < small - meanErr l →
      weightedMeanAngle m.cos m.sin m.atan2 small (l.map fun p => fin p.1) (l.map fun p => fin p.2) = .throws) ∧
    (small + meanErr l ≤ ‖resultant l‖ →
      ∃ a, weightedMeanAngle m.cos m.sin m.atan2 small (l.map fun p => fin p.1) (l.map fun p => fin p.2) = .ok (fin a) ∧ Rep a ∧
        |a| ≤ piF ∧ ‖(‖resultant l‖ : ℂ) * Complex.exp (a * Complex.I) - resultant l‖ ≤ 2 * meanErr l) := by
  have hn' : (l.length : ℝ) ≤ 262144 := by exact_mod_cast (show l.length ≤ 262144 from hn)
  have hpos : ∀ p ∈ l, 0 < p.2 := fun p hp => (hl p hp).2.2
  have hT0 : 0 ≤ wsum l := wsum_nonneg hpos
  have hTR : ‖resultant l‖ ≤ wsum l := by
    clear hl hn hW hn' hT0
    induction l with
    | nil => simp [resultant, wsum]
    | cons p l ih =>
      rw [wsum_cons]
      simp only [resultant, List.map_cons, List.sum_cons]
      refine (norm_add_le _ _).trans (add_le_add ?_ (ih fun q hq => hpos q (by simp [hq])))
      rw [norm_mul, Complex.norm_exp_ofReal_mul_I, mul_one, Complex.norm_real, Real.norm_of_nonneg (hpos p (by simp)).le]
  obtain ⟨X, Y, h1, h2, h3, h4, h5⟩ := mean_loop m hm hW l hl 0 0 0 0 0 Rep.zero.grid Rep.zero.grid le_rfl (by simpa using hn')
    (by simp) (by simp) (by simp) (by simp) (by simp) (by rw [zero_add]; exact le_rfl)
  rw [zero_add, zero_add, zero_add] at h4 h5
  have hT1 : (l.map Prod.snd).sum = wsum l := rfl
  rw [hT1] at h4 h5 hW
  have hM : meanErr l = (l.length + 2) * 2 ^ (-21 : ℤ) * wsum l + 2 ^ (-70 : ℤ) := rfl
  have e21 : (2 : ℝ) ^ (-21 : ℤ) = 8 / 16777216 := by norm_num
  have e22 : (2 : ℝ) ^ (-22 : ℤ) = 4 / 16777216 := by norm_num
  have e70 : (2 : ℝ) ^ (-70 : ℤ) = 4 * 2 ^ (-72 : ℤ) := by norm_num
  have e150 : 262144 * (2 : ℝ) ^ (-150 : ℤ) ≤ 2 ^ (-74 : ℤ) := by
    have h : (2 : ℝ) ^ (-150 : ℤ) ≤ 2 ^ (-92 : ℤ) := two_zpow_le (by norm_num)
    have e : (2 : ℝ) ^ (-74 : ℤ) = 262144 * 2 ^ (-92 : ℤ) := by norm_num
    rw [e]
    linarith
  have e74 : (2 : ℝ) ^ (-72 : ℤ) = 4 * 2 ^ (-74 : ℤ) := by norm_num
  have hz0 := two_zpow_pos (-74)
  have hη0 := two_zpow_pos (-150)
  have hnη : (l.length : ℝ) * 2 ^ (-150 : ℤ) ≤ 2 ^ (-74 : ℤ) :=
    (mul_le_mul_of_nonneg_right hn' hη0.le).trans e150
  have e72' : (2 : ℝ) ^ (-74 : ℤ) ≤ 1 := zpow_le_one_of_nonpos₀ (by norm_num) (by norm_num)
  rw [hM, e21, e70, e74]
  rw [e22] at h4 h5
  set Z : ℂ := ⟨X, Y⟩ with hZ
  set R := resultant l with hR
  have hd : ‖Z - R‖ ≤ 8 / 16777216 * ((l.length + 1) * wsum l) + 2 * 2 ^ (-74 : ℤ) := by
    have := Complex.norm_le_abs_re_add_abs_im (Z - R)
    rw [Complex.sub_re, Complex.sub_im] at this
    have k1 : Z.re = X := rfl
    have k2 : Z.im = Y := rfl
    rw [k1, k2] at this
    generalize (2 : ℝ) ^ (-150 : ℤ) = η at *
    generalize (2 : ℝ) ^ (-74 : ℤ) = ζ at *
    nlinarith
  have hZR := abs_norm_sub_norm_le Z R
  have hZR1 := (abs_le.1 (hZR.trans hd)).1
  have hZR2 := (abs_le.1 (hZR.trans hd)).2
  have hlw : (l.length : ℝ) * wsum l ≤ 262144 * wsum l := mul_le_mul_of_nonneg_right hn' hT0
  have hlw0 : 0 ≤ (l.length : ℝ) * wsum l := mul_nonneg (Nat.cast_nonneg _) hT0
  have hZb : ‖Z‖ ≤ 9 / 8 * wsum l + 1 / 100 * wsum l + 2 * 2 ^ (-74 : ℤ) := by linarith
  obtain ⟨N, N1, N2⟩ := norm2_fin (X := X) (Y := Y) (by
    have : ‖Z‖ ≤ 2 * 2 ^ 60 - 4 := by linarith
    exact this.trans (by norm_num))
  rw [e74, ← hZ] at N2
  obtain ⟨N3, N4⟩ := abs_le.1 N2
  have eval : weightedMeanAngle m.cos m.sin m.atan2 small (l.map fun p => fin p.1) (l.map fun p => fin p.2) =
      if lt (fin N) (fin small) then .throws else .ok (modulo2PI (m.atan2 (fin Y) (fin X))) := by
    rw [weightedMeanAngle, if_neg (by simp), h1]
    simp only [Res.bind_ok]
    rw [N1]
  rw [eval]
  generalize (2 : ℝ) ^ (-74 : ℤ) = ζ at *
  constructor
  · intro h
    exact if_pos (show N < small by linarith)
  · intro h
    have hns : ¬ lt (fin N) (fin small) := not_lt.2 (by linarith)
    have hXr : Rep X := grid_rep h2 (by
      have := Complex.abs_re_le_norm Z
      have k : |X| ≤ 2 * 2 ^ 60 := by
        refine this.trans ?_
        linarith
      exact lt_of_le_of_lt k (by norm_num))
    have hYr : Rep Y := grid_rep h3 (by
      have := Complex.abs_im_le_norm Z
      have k : |Y| ≤ 2 * 2 ^ 60 := by
        refine this.trans ?_
        linarith
      exact lt_of_le_of_lt k (by norm_num))
    obtain ⟨b, b1, b2, b3, b4⟩ := hm.atan2 Y X hYr hXr
    obtain ⟨c1, c2, c3, -⟩ := C76_exact b b2
    obtain ⟨k, k1, -⟩ := C76_drift b
    refine ⟨AlMath.modulo2PI b, by rw [if_neg hns, b1, c1], c2, c3, ?_⟩
    have g1 := (exp_drift (AlMath.modulo2PI b) b k).trans k1
    have g2 : ‖Complex.exp (AlMath.modulo2PI b * Complex.I) - Complex.exp (b * Complex.I)‖ ≤ 25 / 100000000 := by
      refine g1.trans ?_
      have : (10 : ℝ) ^ (-8 : ℤ) = 1 / 100000000 := by norm_num
      rw [this]
      linarith
    have e : (‖R‖ : ℂ) * Complex.exp (AlMath.modulo2PI b * Complex.I) - R =
        (‖R‖ : ℂ) * (Complex.exp (AlMath.modulo2PI b * Complex.I) - Complex.exp (b * Complex.I)) +
        (((‖R‖ - ‖Z‖ : ℝ) : ℂ) * Complex.exp (b * Complex.I) + ((‖Z‖ : ℂ) * Complex.exp (b * Complex.I) - Z + (Z - R))) := by
      push_cast
      ring
    rw [← hZ, e21] at b4
    have n1 : ‖(‖R‖ : ℂ) * (Complex.exp (AlMath.modulo2PI b * Complex.I) - Complex.exp (b * Complex.I))‖ ≤ ‖R‖ * (25 / 100000000) := by
      rw [norm_mul, Complex.norm_real, norm_norm]
      exact mul_le_mul_of_nonneg_left g2 (norm_nonneg _)
    have n2 : ‖((‖R‖ - ‖Z‖ : ℝ) : ℂ) * Complex.exp (b * Complex.I)‖ ≤ ‖Z - R‖ := by
      rw [norm_mul, Complex.norm_exp_ofReal_mul_I, mul_one, Complex.norm_real, Real.norm_eq_abs, abs_sub_comm]
      exact hZR
    rw [e]
    have m1 := norm_add_le ((‖R‖ : ℂ) * (Complex.exp (AlMath.modulo2PI b * Complex.I) - Complex.exp (b * Complex.I)))
      (((‖R‖ - ‖Z‖ : ℝ) : ℂ) * Complex.exp (b * Complex.I) + ((‖Z‖ : ℂ) * Complex.exp (b * Complex.I) - Z + (Z - R)))
    have m2 := norm_add_le (((‖R‖ - ‖Z‖ : ℝ) : ℂ) * Complex.exp (b * Complex.I)) ((‖Z‖ : ℂ) * Complex.exp (b * Complex.I) - Z + (Z - R))
    have m3 := norm_add_le ((‖Z‖ : ℂ) * Complex.exp (b * Complex.I) - Z) (Z - R)
    linarith

theorem small_bounds : |rnd (1 / 1000) - 1 / 1000| ≤ 1 / 1000000 := by
  refine (rnd_gen _).trans ?_
  rw [two_neg24]
  have : (2 : ℝ) ^ (-150 : ℤ) ≤ 2 ^ (-40 : ℤ) := two_zpow_le (by norm_num)
  have e40 : (2 : ℝ) ^ (-40 : ℤ) = 1 / 1099511627776 := by norm_num
  rw [e40] at this
  generalize (2 : ℝ) ^ (-150 : ℤ) = η at *
  rw [abs_of_pos (by norm_num)]
  linarith

theorem meanErr_two (a b : ℝ) : meanErr [(a, 1), (b, 1)] ≤ 1 / 250000 := by
  have : (2 : ℝ) ^ (-70 : ℤ) ≤ 2 ^ (-40 : ℤ) := two_zpow_le (by norm_num)
  simp only [meanErr, List.map_cons, List.map_nil, List.sum_cons, List.sum_nil, List.length_cons, List.length_nil]
  generalize hη : (2 : ℝ) ^ (-70 : ℤ) = η at *
  norm_num at this ⊢
  linarith

/-- The mean of 0 and 1 exists. -/
example : ∃ a, weightedMeanAngle Libm.rounded.cos Libm.rounded.sin Libm.rounded.atan2 (rnd (1 / 1000))
    [fin 0, fin 1] [fin 1, fin 1] = .ok (fin a) ∧ Rep a ∧ |a| ≤ piF ∧
      ‖(‖resultant [(0, 1), (1, 1)]‖ : ℂ) * Complex.exp (a * Complex.I) - resultant [(0, 1), (1, 1)]‖ ≤
        2 * meanErr [(0, 1), (1, 1)] := by
  refine (C89_mean _ rounded_accurate (rnd (1 / 1000)) [(0, 1), (1, 1)] ?_ (by norm_num) (by norm_num)).2 ?_
  · simp [Rep.zero, Rep.one]
  · have h1 := (abs_le.1 small_bounds).2
    have h2 := meanErr_two 0 1
    have h3 := Complex.abs_re_le_norm (resultant [(0, 1), (1, 1)])
    have h4 : (resultant [(0, 1), (1, 1)]).re = 1 + Real.cos 1 := by
      simp [resultant, Complex.exp_re]
    rw [h4] at h3
    have h5 := Real.cos_one_pos
    have h6 := le_abs_self (1 + Real.cos 1)
    linarith

/-- 0 and pi have no mean. -/
example : weightedMeanAngle Libm.rounded.cos Libm.rounded.sin Libm.rounded.atan2 (rnd (1 / 1000))
    [fin 0, fin piF] [fin 1, fin 1] = .throws := by
  refine (C89_mean _ rounded_accurate (rnd (1 / 1000)) [(0, 1), (piF, 1)] ?_ (by norm_num) (by norm_num)).1 ?_
  · simp [Rep.zero, Rep.one, constants_rep.1]
  · have h1 := (abs_le.1 small_bounds).1
    have h2 := meanErr_two 0 piF
    have h3 : resultant [(0, 1), (piF, 1)] = Complex.exp (piF * Complex.I) - Complex.exp (Real.pi * Complex.I) := by
      simp [resultant]
      ring
    have h4 := exp_drift piF Real.pi 0
    have h5 : |piF - (Real.pi + (0 : ℤ) * (2 * Real.pi))| ≤ 1 / 1000000 := by
      have := Real.pi_gt_d6
      have := Real.pi_lt_d6
      rw [abs_le, piF]
      norm_num at *
      constructor <;> linarith
    rw [h3]
    exact lt_of_le_of_lt (h4.trans h5) (by linarith)

/-- A negative weight. -/
example (m : Libm) : weightedMeanAngle m.cos m.sin m.atan2 (rnd (1 / 1000)) [nan, fin 1] [fin 1, fin (-1)] = .throws :=
  C89_refuses m _ _ _ (.inr ⟨fin (-1), by simp, by simp [le, lt]⟩)

end AlMath.F32
