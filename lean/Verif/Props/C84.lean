import Verif.Model.FloatNormalize
import Verif.Lemmas.Rot
import Verif.Props.C83

/-!
C84: `normalizeRotation` and `normalizeTransform` in single precision.
-/

namespace AlMath.F32

open AlMath.Spec Matrix

/-! ### The norm of a column -/

/-- The sum of three squares in double precision. -/
theorem sumsq3_double {a b c M : ℝ} (ha : |a| ≤ M) (hb : |b| ≤ M) (hc : |c| ≤ M) (hM : M ≤ 2 ^ 128) :
    ∃ s, F64.add (F64.add (F64.sq (fin a)) (F64.sq (fin b))) (F64.sq (fin c)) = fin s ∧ 0 ≤ s ∧
      |s - (a ^ 2 + b ^ 2 + c ^ 2)| ≤ 2 ^ (-50 : ℤ) * (a ^ 2 + b ^ 2 + c ^ 2) + 2 ^ (-390 : ℤ) := by
  obtain ⟨p, e1, h1⟩ := sq_double (ha.trans hM)
  obtain ⟨q, e2, h2⟩ := sq_double (hb.trans hM)
  obtain ⟨r, e3, h3⟩ := sq_double (hc.trans hM)
  have hp0 := F64.round_nonneg (mul_self_nonneg a) e1
  have hq0 := F64.round_nonneg (mul_self_nonneg b) e2
  have hr0 := F64.round_nonneg (mul_self_nonneg c) e3
  have hM0 : 0 ≤ M := (abs_nonneg _).trans ha
  have k : ∀ {x : ℝ}, |x| ≤ M → x ^ 2 ≤ 2 ^ 256 := fun {x} h => by
    rw [← sq_abs]
    calc |x| ^ 2 ≤ (2 ^ 128) ^ 2 := by gcongr; exact h.trans hM
      _ = 2 ^ 256 := by norm_num
  have ka := k ha
  have kb := k hb
  have kc := k hc
  have ht := theta_le
  have ht0 := theta_pos
  have na := sq_nonneg a
  have nb := sq_nonneg b
  have nc := sq_nonneg c
  have h300 : (2 : ℝ) ^ 300 = 2 ^ 256 * 2 ^ 44 := by rw [← pow_add]
  have one : (1 : ℝ) ≤ 2 ^ 256 := one_le_pow₀ (by norm_num)
  have h400 : (2 : ℝ) ^ (-400 : ℤ) ≤ 1 := zpow_le_one_of_nonpos₀ (by norm_num) (by norm_num)
  have h390 : (2 : ℝ) ^ (-390 : ℤ) = 1024 * 2 ^ (-400 : ℤ) := by
    rw [show (-390 : ℤ) = 10 + -400 by norm_num, zpow_add₀ (by norm_num)]
    norm_num
  have h53 : (2 : ℝ) ^ (-53 : ℤ) = 1 / 9007199254740992 := by norm_num
  have h50 : (2 : ℝ) ^ (-50 : ℤ) = 1 / 1125899906842624 := by norm_num
  rw [e1, e2, e3, h390, h50]
  have key := @add_double
  rw [h300] at key
  simp only [h53] at h1 h2 h3 key
  generalize (2 : ℝ) ^ (-1075 : ℤ) = θ at *
  generalize (2 : ℝ) ^ (-400 : ℤ) = w at *
  generalize (2 : ℝ) ^ 256 = B at *
  generalize a ^ 2 = A at *
  generalize b ^ 2 = A' at *
  generalize c ^ 2 = A'' at *
  clear h300 h390 h50 h53
  obtain ⟨h1, h1'⟩ := abs_le.1 h1
  obtain ⟨h2, h2'⟩ := abs_le.1 h2
  obtain ⟨h3, h3'⟩ := abs_le.1 h3
  norm_num at key
  obtain ⟨s, f1, g1⟩ := @key p q (by rw [abs_le]; constructor <;> linarith)
  have p1 : |p + q| ≤ (1 + 1 / 9007199254740992) * (A + A') + 2 * θ := by
    rw [abs_le]; constructor <;> linarith
  rw [f1]
  obtain ⟨l1, l1'⟩ := abs_le.1 (g1.trans (by gcongr : _ ≤ 1 / 9007199254740992 * ((1 + 1 / 9007199254740992) * (A + A') + 2 * θ) + θ))
  obtain ⟨s', f2, g2⟩ := @key s r (by rw [abs_le]; constructor <;> linarith)
  have p2 : |s + r| ≤ (1 + 3 / 9007199254740992) * (A + A' + A'') + 6 * θ := by
    rw [abs_le]; constructor <;> linarith
  rw [f2]
  obtain ⟨l2, l2'⟩ := abs_le.1 (g2.trans (by gcongr : _ ≤ 1 / 9007199254740992 * ((1 + 3 / 9007199254740992) * (A + A' + A'') + 6 * θ) + θ))
  have hs0 := F64.round_nonneg (add_nonneg hp0 hq0) f1
  refine ⟨s', rfl, F64.round_nonneg (add_nonneg hs0 hr0) f2, ?_⟩
  rw [abs_le]
  constructor <;> linarith

/-- A square root whose argument has a relative and an absolute error. -/
theorem sqrt_err_abs {d s δ t : ℝ} (hs : 0 ≤ s) (hδ : 0 ≤ δ) (hδ1 : δ ≤ 1) (ht : 0 ≤ t)
    (h : |d - s ^ 2| ≤ δ * s ^ 2 + t ^ 2) : |Real.sqrt d - s| ≤ δ * s + t := by
  obtain ⟨h1, h2⟩ := abs_le.1 h
  rw [abs_le]
  constructor
  · by_cases hc : (1 - δ) * s ≤ t
    · linarith [Real.sqrt_nonneg d]
    push Not at hc
    have : (1 - δ) * s - t ≤ Real.sqrt d := by
      refine Real.le_sqrt_of_sq_le ?_
      have h3 : (1 - δ) ^ 2 * s ^ 2 ≤ (1 - δ) * s ^ 2 := by
        refine mul_le_mul_of_nonneg_right ?_ (sq_nonneg s)
        nlinarith
      have h4 : t * t ≤ (1 - δ) * s * t := mul_le_mul_of_nonneg_right hc.le ht
      nlinarith
    linarith
  · have : Real.sqrt d ≤ (1 + δ) * s + t := by
      refine Real.sqrt_le_iff.2 ⟨by positivity, ?_⟩
      have h5 : 0 ≤ (1 + δ) * s * t := by positivity
      nlinarith [sq_nonneg (δ * s), mul_nonneg hδ (sq_nonneg s)]
    linarith

/-- The norm of any vector that is not huge, before it is stored as a `float`. -/
theorem norm3_double (v : Vec3) (hu : vlen v ≤ 2 ^ 100) :
    ∃ d, norm3 (fin (v 0)) (fin (v 1)) (fin (v 2)) = fin (rnd d) ∧ |d| ≤ 2 ^ 127 ∧ 0 ≤ d ∧
      |d - vlen v| ≤ 1 / 1099511627776 * vlen v + 4 * 2 ^ (-160 : ℤ) := by
  have hb : (2 : ℝ) ^ 100 ≤ 2 ^ 128 := by norm_num
  obtain ⟨s, hs, hs0, he⟩ := sumsq3_double (abs_le_vlen v 0) (abs_le_vlen v 1) (abs_le_vlen v 2) (hu.trans hb)
  have h2 := vlen_sq v
  rw [Fin.sum_univ_three] at h2
  rw [← h2] at he
  have hN := vlen_nonneg v
  clear h2
  generalize vlen v = N at *
  have h390 : (2 : ℝ) ^ (-390 : ℤ) = (2 ^ (-195 : ℤ)) ^ 2 := by
    rw [← zpow_natCast, ← zpow_mul]
    norm_num
  rw [h390] at he
  have hsq := sqrt_err_abs hN (by positivity) (by norm_num) (by positivity) he
  have h160 : (2 : ℝ) ^ (-195 : ℤ) ≤ 2 ^ (-160 : ℤ) := two_zpow_le (by norm_num)
  have hq1 := abs_le.1 hsq
  have one : (2 : ℝ) ^ (-160 : ℤ) ≤ 1 := zpow_le_one_of_nonpos₀ (by norm_num) (by norm_num)
  have hsN : |Real.sqrt s| ≤ 2 * N + 1 := by
    rw [abs_of_nonneg (Real.sqrt_nonneg _)]
    have := hq1.2
    generalize (2 : ℝ) ^ (-195 : ℤ) = t at *
    generalize (2 : ℝ) ^ (-160 : ℤ) = t' at *
    norm_num at this
    linarith
  have h127 : (2 : ℝ) * N + 1 ≤ 2 ^ 127 := by
    have : (2 : ℝ) * 2 ^ 100 + 1 ≤ 2 ^ 127 := by norm_num
    generalize (2 : ℝ) ^ 127 = B at *
    generalize (2 : ℝ) ^ 100 = B' at *
    linarith
  have h1000 : (2 : ℝ) ^ 127 ≤ 2 ^ 1000 := pow_le_pow_right₀ (by norm_num) (by norm_num)
  have hr := F64.rnd_gen (Real.sqrt s)
  have hθ : (2 : ℝ) ^ (-1075 : ℤ) ≤ 2 ^ (-160 : ℤ) := two_zpow_le (by norm_num)
  have h53 : (2 : ℝ) ^ (-53 : ℤ) = 1 / 9007199254740992 := by norm_num
  have h50 : (2 : ℝ) ^ (-50 : ℤ) = 1 / 1125899906842624 := by norm_num
  have hw := two_zpow_pos (-160)
  have hr2 : |F64.rnd (Real.sqrt s) - N| ≤ 1 / 1099511627776 * N + 4 * 2 ^ (-160 : ℤ) := by
    have q1 := abs_add_le (F64.rnd (Real.sqrt s) - Real.sqrt s) (Real.sqrt s - N)
    rw [sub_add_sub_cancel] at q1
    have q2 := le_of_err hsq
    rw [abs_of_nonneg hN] at q2
    rw [h53] at hr
    rw [h50] at hsq q2
    generalize (2 : ℝ) ^ (-1075 : ℤ) = θ at *
    generalize (2 : ℝ) ^ (-195 : ℤ) = t at *
    generalize (2 : ℝ) ^ (-160 : ℤ) = t' at *
    linarith
  have hr4 := le_of_err hr2
  rw [abs_of_nonneg hN] at hr4
  have hr5 : |F64.rnd (Real.sqrt s)| ≤ 2 ^ 127 := by
    have : (2 : ℝ) * 2 ^ 100 + 8 ≤ 2 ^ 127 := by norm_num
    generalize (2 : ℝ) ^ 127 = B at *
    generalize (2 : ℝ) ^ 100 = B' at *
    generalize (2 : ℝ) ^ (-160 : ℤ) = t' at *
    linarith
  refine ⟨F64.rnd (Real.sqrt s), ?_, hr5, F64.rnd_nonneg (Real.sqrt_nonneg s), hr2⟩
  rw [norm3, hs, F64.sqrt, if_neg (not_lt.2 hs0), F64.round_fin (hsN.trans (h127.trans h1000)), F64.toFloat,
    F32.round_fin hr5]

/-- The norm of any vector that is not huge. -/
theorem norm3_fin (v : Vec3) (hu : vlen v ≤ 2 ^ 100) :
    ∃ n, norm3 (fin (v 0)) (fin (v 1)) (fin (v 2)) = fin n ∧ Rep n ∧ 0 ≤ n ∧
      |n - vlen v| ≤ 2 ^ (-23 : ℤ) * vlen v + 2 ^ (-149 : ℤ) := by
  obtain ⟨d, h1, h2, h3, h4⟩ := norm3_double v hu
  have hN := vlen_nonneg v
  generalize vlen v = N at *
  have h23 : (2 : ℝ) ^ (-23 : ℤ) = 1 / 8388608 := by norm_num
  have h149 : (2 : ℝ) ^ (-149 : ℤ) = 2 ^ (-150 : ℤ) + 1024 * 2 ^ (-160 : ℤ) := by norm_num
  have hw := two_zpow_pos (-160)
  have hr4 := le_of_err h4
  rw [abs_of_nonneg hN] at hr4
  have hf := F32.rnd_gen d
  refine ⟨rnd d, h1, rnd_rep h2, ?_, ?_⟩
  · have := rnd_mono h3
    rwa [rnd_zero] at this
  · have q1 := abs_add_le (rnd d - d) (d - N)
    rw [sub_add_sub_cancel] at q1
    rw [two_neg24] at hf
    rw [h149, h23]
    generalize (2 : ℝ) ^ (-150 : ℤ) = η at *
    generalize (2 : ℝ) ^ (-160 : ℤ) = t' at *
    linarith

/-- Division of a component by a norm. -/
theorem div_norm {x n N : ℝ} (hl : 2 ^ (-20 : ℤ) ≤ N) (hx : |x| ≤ N) (hn : |n - N| ≤ 2 ^ (-23 : ℤ) * N + 2 ^ (-149 : ℤ)) :
    ∃ q, div (fin x) (fin n) = fin q ∧ Rep q ∧ |q - x / N| ≤ 2 ^ (-22 : ℤ) * (|x| / N) + 2 ^ (-150 : ℤ) := by
  have hNp : 0 < N := lt_of_lt_of_le (two_zpow_pos _) hl
  have h149 : (2 : ℝ) ^ (-149 : ℤ) ≤ 2 ^ (-30 : ℤ) * N := by
    calc (2 : ℝ) ^ (-149 : ℤ) ≤ 2 ^ (-30 : ℤ) * 2 ^ (-20 : ℤ) := by norm_num
      _ ≤ _ := by gcongr
  have h23 : (2 : ℝ) ^ (-23 : ℤ) = 2 / 16777216 := by norm_num
  have h22 : (2 : ℝ) ^ (-22 : ℤ) = 4 / 16777216 := by norm_num
  have h30 : (2 : ℝ) ^ (-30 : ℤ) = 1 / 64 / 16777216 := by norm_num
  rw [h22]
  rw [h23] at hn
  rw [h30] at h149
  have hn' : |n - N| ≤ (2 + 1 / 64) / 16777216 * N := by
    generalize (2 : ℝ) ^ (-149 : ℤ) = w at *
    linarith
  obtain ⟨n1, n2⟩ := abs_le.1 hn'
  have hnp : 0 < n := by linarith
  have e1 : x / n - x / N = (x / N) * ((N - n) / n) := by field_simp
  have hxN : |x / N| = |x| / N := by rw [abs_div, abs_of_pos hNp]
  have hxN1 : |x| / N ≤ 1 := by rwa [div_le_one hNp]
  have hxN0 : 0 ≤ |x| / N := by positivity
  have e2 : |(N - n) / n| ≤ (2 + 1 / 32) / 16777216 := by
    rw [abs_div, abs_of_pos hnp, div_le_iff₀ hnp, abs_sub_comm]
    linarith
  have e3 : |x / n - x / N| ≤ (2 + 1 / 32) / 16777216 * (|x| / N) := by
    rw [e1, abs_mul, hxN, mul_comm]
    gcongr
  have e4 := le_of_err e3
  rw [hxN] at e4
  have hb : |x / n| ≤ 2 ^ 127 := by
    have : (4 : ℝ) ≤ 2 ^ 127 := by norm_num
    generalize (2 : ℝ) ^ 127 = B at *
    linarith
  refine ⟨rnd (x / n), by rw [div, if_neg hnp.ne', round_fin hb], rnd_rep hb, ?_⟩
  have g := rnd_gen (x / n)
  rw [two_neg24] at g
  have q := abs_add_le (rnd (x / n) - x / n) (x / n - x / N)
  rw [sub_add_sub_cancel] at q
  linarith

/-- Normalisation of a vector. -/
theorem normalize3 (v : Vec3) (hl : 2 ^ (-20 : ℤ) ≤ vlen v) (hu : vlen v ≤ 2 ^ 100) :
    ∃ n z, norm3 (fin (v 0)) (fin (v 1)) (fin (v 2)) = fin n ∧ |n - vlen v| ≤ 2 ^ (-22 : ℤ) * vlen v ∧
      (∀ i, div (fin (v i)) (fin n) = fin (z i) ∧ Rep (z i)) ∧ vlen (z - (1 / vlen v) • v) ≤ 5 / 16777216 := by
  obtain ⟨n, hn, -, -, he⟩ := norm3_fin v hu
  have hNp : 0 < vlen v := lt_of_lt_of_le (two_zpow_pos _) hl
  choose z h1 h2 h3 using fun i => div_norm hl (abs_le_vlen v i) he
  refine ⟨n, z, hn, ?_, fun i => ⟨h1 i, h2 i⟩, ?_⟩
  · have h149 : (2 : ℝ) ^ (-149 : ℤ) ≤ 2 ^ (-30 : ℤ) * vlen v := by
      calc (2 : ℝ) ^ (-149 : ℤ) ≤ 2 ^ (-30 : ℤ) * 2 ^ (-20 : ℤ) := by norm_num
        _ ≤ _ := by gcongr
    generalize (2 : ℝ) ^ (-149 : ℤ) = w at *
    norm_num at h149 he ⊢
    linarith
  · have k1 : vlen (z - (1 / vlen v) • v) ≤ vlen ((2 ^ (-22 : ℤ) * (1 / vlen v)) • (fun i => |v i|) + fun _ => 2 ^ (-150 : ℤ)) := by
      refine vlen_mono fun i => ?_
      simp only [Pi.sub_apply, Pi.smul_apply, Pi.add_apply, smul_eq_mul]
      rw [abs_of_nonneg (a := _ * |v i| + _) (by positivity)]
      refine le_trans (le_of_eq ?_) ((h3 i).trans (le_of_eq ?_))
      · congr 1
        ring
      · ring
    refine k1.trans ((vlen_add _ _).trans ?_)
    rw [vlen_smul _ (by positivity), vlen_abs]
    have k2 := vlen_const (2 ^ (-150 : ℤ)) (by positivity)
    rw [mul_assoc, one_div, inv_mul_cancel₀ hNp.ne']
    have k3 : (2 : ℝ) * 2 ^ (-150 : ℤ) ≤ 1 / 16777216 := by norm_num
    have k4 : (2 : ℝ) ^ (-22 : ℤ) = 4 / 16777216 := by norm_num
    rw [k4]
    generalize (2 : ℝ) ^ (-150 : ℤ) = w at *
    linarith

/-! ### Cross products -/

/-- Cross product. Helper of the proofs. Not in /repo: specification. -/
def cross (v w : Vec3) : Vec3 := ![v 1 * w 2 - v 2 * w 1, v 2 * w 0 - v 0 * w 2, v 0 * w 1 - v 1 * w 0]

theorem vlen_cross (v w : Vec3) : vlen (cross v w) ≤ vlen v * vlen w := by
  refine sq_le_of (mul_nonneg (vlen_nonneg _) (vlen_nonneg _)) ?_
  rw [mul_pow, vlen_sq, vlen_sq, vlen_sq, Fin.sum_univ_three, Fin.sum_univ_three, Fin.sum_univ_three]
  simp only [cross, Matrix.cons_val_zero, Matrix.cons_val_one, Matrix.cons_val]
  linarith only [sq_nonneg (v 0 * w 0 + v 1 * w 1 + v 2 * w 2),
    show (v 0 ^ 2 + v 1 ^ 2 + v 2 ^ 2) * (w 0 ^ 2 + w 1 ^ 2 + w 2 ^ 2) = (v 0 * w 0 + v 1 * w 1 + v 2 * w 2) ^ 2 +
      ((v 1 * w 2 - v 2 * w 1) ^ 2 + (v 2 * w 0 - v 0 * w 2) ^ 2 + (v 0 * w 1 - v 1 * w 0) ^ 2) by ring]

theorem cross_sub (v w v' w' : Vec3) : cross v w - cross v' w' = cross (v - v') w + cross v' (w - w') := by
  ext i
  fin_cases i <;> simp [cross] <;> ring

/-- The cross product as it is computed. -/
theorem cross_float (v w : Vec3) (h : vlen v * vlen w ≤ 2 ^ 110) :
    ∃ c : Vec3, (sub (mul (fin (v 1)) (fin (w 2))) (mul (fin (v 2)) (fin (w 1))) = fin (c 0) ∧
      sub (mul (fin (v 2)) (fin (w 0))) (mul (fin (v 0)) (fin (w 2))) = fin (c 1) ∧
      sub (mul (fin (v 0)) (fin (w 1))) (mul (fin (v 1)) (fin (w 0))) = fin (c 2)) ∧ (∀ i, Rep (c i)) ∧
      vlen (c - cross v w) ≤ 16 / 16777216 * (vlen v * vlen w) + 2 ^ (-147 : ℤ) := by
  have hv0 := vlen_nonneg v
  have hw0 := vlen_nonneg w
  have key : ∀ i j, |v i| * |w j| ≤ vlen v * vlen w := fun i j =>
    mul_le_mul (abs_le_vlen v i) (abs_le_vlen w j) (abs_nonneg _) hv0
  have hb : ∀ i j k l, |v i| * |w j| + |v k| * |w l| ≤ 2 * (vlen v * vlen w) := fun i j k l => by
    linarith [key i j, key k l]
  have h80 : (2 : ℝ) * 2 ^ 110 ≤ 2 ^ 125 := by norm_num
  obtain ⟨p, e1, r1, k1⟩ := det2_fin ((hb 1 2 2 1).trans (by linarith))
  obtain ⟨q, e2, r2, k2⟩ := det2_fin ((hb 2 0 0 2).trans (by linarith))
  obtain ⟨r, e3, r3, k3⟩ := det2_fin ((hb 0 1 1 0).trans (by linarith))
  refine ⟨![p, q, r], ⟨e1, e2, e3⟩, ?_, ?_⟩
  · intro i
    fin_cases i <;> assumption
  have h0 : 0 ≤ vlen v * vlen w := mul_nonneg hv0 hw0
  have h1 : vlen (![p, q, r] - cross v w) ≤ vlen (fun _ => 2 ^ (-22 : ℤ) * (2 * (vlen v * vlen w)) + 2 ^ (-148 : ℤ)) := by
    refine vlen_mono fun i => ?_
    rw [abs_of_nonneg (a := 2 ^ (-22 : ℤ) * _ + _) (by positivity)]
    have m : ∀ i j k l, 2 ^ (-22 : ℤ) * (|v i| * |w j| + |v k| * |w l|) ≤ 2 ^ (-22 : ℤ) * (2 * (vlen v * vlen w)) :=
      fun i j k l => mul_le_mul_of_nonneg_left (hb i j k l) (by positivity)
    fin_cases i
    · exact k1.trans (add_le_add (m _ _ _ _) le_rfl)
    · exact k2.trans (add_le_add (m _ _ _ _) le_rfl)
    · exact k3.trans (add_le_add (m _ _ _ _) le_rfl)
  refine h1.trans ((vlen_const _ (by positivity)).trans (le_of_eq ?_))
  rw [show (2 : ℝ) ^ (-22 : ℤ) = 4 / 16777216 by norm_num, show (-147 : ℤ) = 1 + -148 by norm_num,
    zpow_add₀ (by norm_num)]
  ring

/-- Directions of vectors that are near each other. -/
theorem direction_near {v u : Vec3} {b δ : ℝ} (hb : 0 < b) (hu : vlen u = 1) (h : vlen (v - b • u) ≤ δ * b)
    (hδ : δ < 1) : 0 < vlen v ∧ |vlen v - b| ≤ δ * b ∧ vlen ((1 / vlen v) • v - u) ≤ 2 * δ := by
  have h1 : |vlen v - b| ≤ δ * b := by
    have := abs_vlen_sub v (b • u)
    rw [vlen_smul b hb.le, hu, mul_one] at this
    linarith
  have hp : 0 < vlen v := by nlinarith [(abs_le.1 h1).1]
  refine ⟨hp, h1, ?_⟩
  have e : (1 / vlen v) • v - u = (1 / b) • (v - b • u) + ((1 / b) * (b / vlen v - 1)) • v := by
    ext i
    simp only [Pi.sub_apply, Pi.smul_apply, Pi.add_apply, smul_eq_mul]
    field_simp
    ring
  have h2 : vlen (((1 / b) * (b / vlen v - 1)) • v) = 1 / b * |vlen v - b| := by
    have : ((1 / b) * (b / vlen v - 1)) • v = (1 / b) • ((b / vlen v - 1) • v) := by rw [smul_smul]
    rw [this, vlen_smul _ (by positivity)]
    congr 1
    rcases le_total 0 (b / vlen v - 1) with hs | hs
    · rw [vlen_smul _ hs, sub_mul, one_mul, div_mul_cancel₀ _ hp.ne', abs_sub_comm, abs_of_nonneg]
      rw [sub_nonneg, le_div_iff₀ hp] at hs
      linarith
    · have : (b / vlen v - 1) • v = -((1 - b / vlen v) • v) := by rw [← neg_smul]; congr 1; ring
      rw [this, vlen_neg, vlen_smul _ (by linarith), sub_mul, one_mul, div_mul_cancel₀ _ hp.ne', abs_of_nonneg]
      rw [sub_nonpos, div_le_iff₀ hp] at hs
      linarith
  rw [e]
  refine (vlen_add _ _).trans ?_
  rw [h2, vlen_smul _ (by positivity)]
  have h3 : 1 / b * vlen (v - b • u) ≤ 1 / b * (δ * b) := by gcongr
  have h4 : 1 / b * |vlen v - b| ≤ 1 / b * (δ * b) := by gcongr
  have h5 : 1 / b * (δ * b) = δ := by field_simp
  linarith

/-! ### Normalisation of a matrix -/

/-- Column of a matrix. Helper of the proofs. Not in /repo: specification. -/
def colv (A : Mat3) (j : Fin 3) : Vec3 := fun i => A i j

theorem rot_cols {Q : Mat3} (hQ : IsRot Q) :
    (∀ j, vlen (colv Q j) = 1) ∧ cross (colv Q 1) (colv Q 2) = colv Q 0 ∧ cross (colv Q 2) (colv Q 0) = colv Q 1 := by
  have e := Matrix.eta_fin_three Q
  rw [e] at hQ
  obtain ⟨c11, c22, c33, -, -, -, -, -, -, -, -, -, ka, kb, -, kd, ke, -, kg, kh, -, -⟩ := IsRot.eqs hQ
  refine ⟨?_, ?_, ?_⟩
  · intro j
    rw [vlen, Real.sqrt_eq_one, Fin.sum_univ_three]
    fin_cases j
    · simp only [colv, pow_two]; exact c11
    · simp only [colv, pow_two]; exact c22
    · simp only [colv, pow_two]; exact c33
  · ext i
    fin_cases i
    · simp [cross, colv]; linarith
    · simp [cross, colv]; linarith
    · simp [cross, colv]; linarith
  · ext i
    fin_cases i
    · simp [cross, colv]; linarith
    · simp [cross, colv]; linarith
    · simp [cross, colv]; linarith

theorem fro_cols (A : Mat3) : fro A ^ 2 = vlen (colv A 0) ^ 2 + vlen (colv A 1) ^ 2 + vlen (colv A 2) ^ 2 := by
  rw [fro_sq, vlen_sq, vlen_sq, vlen_sq]
  simp only [Fin.sum_univ_three, colv]
  ring

/-- The tolerance of the test for null columns. -/
theorem lEpsilon_fin : ∃ ε, Rotation.lEpsilon = fin ε ∧ |ε - 1 / 10000| ≤ 1 / 100000000 := by
  have h : |(1 : ℝ) / 10000| ≤ 2 ^ 127 := by norm_num [abs_of_pos]
  refine ⟨rnd (1 / 10000), round_fin h, (rnd_gen _).trans ?_⟩
  have : (2 : ℝ) ^ (-150 : ℤ) ≤ 2 ^ (-30 : ℤ) := two_zpow_le (by norm_num)
  generalize (2 : ℝ) ^ (-150 : ℤ) = w at *
  rw [abs_of_pos (by norm_num), two_neg24]
  norm_num at this ⊢
  linarith

theorem vlen_colv_comb {Q : Mat3} (hQ : IsRot Q) (b c : ℝ) :
    vlen (b • colv Q 1 + c • colv Q 2) = Real.sqrt (b ^ 2 + c ^ 2) := by
  have e := Matrix.eta_fin_three Q
  rw [e] at hQ
  obtain ⟨-, c22, c33, -, -, c23, -⟩ := IsRot.eqs hQ
  rw [vlen]
  congr 1
  simp only [Fin.sum_univ_three, colv, Pi.add_apply, Pi.smul_apply, smul_eq_mul]
  linear_combination b ^ 2 * c22 + c ^ 2 * c33 + 2 * b * c * c23

theorem cross_comb (v w : Vec3) (b c : ℝ) : cross (b • v + c • w) w = b • cross v w := by
  ext i
  fin_cases i <;> simp [cross] <;> ring

/-- Normalising a matrix whose third column is a positive multiple of the third column of the rotation `Q`, and whose
second one is in the half-plane of the second and third columns of `Q`, gives `Q`, whatever its first column is. The error
grows with the ratio `K` of the length of the second column and its distance to the third one. -/
theorem C84_normalize (x y z : F32) (A Q : Mat3) (hQ : IsRot Q) (a b c K : ℝ) (h3 : ∀ i, A i 2 = a * Q i 2)
    (h2 : ∀ i, A i 1 = b * Q i 1 + c * Q i 2) (ha : 2 ^ (-12 : ℤ) ≤ a) (ha' : a ≤ 2 ^ 60) (hb : 2 ^ (-12 : ℤ) ≤ b)
    (hb' : b ≤ 2 ^ 60) (hK : Real.sqrt (b ^ 2 + c ^ 2) ≤ K * b) (hK' : K ≤ 2 ^ 16) :
    ∃ B, Rotation.normalizeRotation
        ⟨x, fin (A 0 1), fin (A 0 2), y, fin (A 1 1), fin (A 1 2), z, fin (A 2 1), fin (A 2 2)⟩ = Rotation.ofMat B ∧
      (∀ i j, Rep (B i j)) ∧ fro (B - Q) ≤ 6 * 2 ^ (-20 : ℤ) * K := by
  obtain ⟨l1, k1, k2⟩ := rot_cols hQ
  have ha0 : 0 < a := lt_of_lt_of_le (two_zpow_pos _) ha
  have hb0 : 0 < b := lt_of_lt_of_le (two_zpow_pos _) hb
  have hK1 : 1 ≤ K := by
    have : b ≤ Real.sqrt (b ^ 2 + c ^ 2) := Real.le_sqrt_of_sq_le (by nlinarith [sq_nonneg c])
    by_contra hc
    push Not at hc
    nlinarith
  have v3 : colv A 2 = a • colv Q 2 := by
    ext i
    exact h3 i
  have v2 : colv A 1 = b • colv Q 1 + c • colv Q 2 := by
    ext i
    exact h2 i
  have n3 : vlen (colv A 2) = a := by rw [v3, vlen_smul _ ha0.le, l1, mul_one]
  have n2 : vlen (colv A 1) ≤ K * b := by rw [v2, vlen_colv_comb hQ]; exact hK
  have h12 : (2 : ℝ) ^ (-12 : ℤ) = 1 / 4096 := by norm_num
  have h22 : (2 : ℝ) ^ (-22 : ℤ) = 4 / 16777216 := by norm_num
  have h16 : (2 : ℝ) ^ 16 = 65536 := by norm_num
  have h60 : (2 : ℝ) ^ 60 = 1152921504606846976 := by norm_num
  have h147 : (2 : ℝ) ^ (-147 : ℤ) ≤ 1 / 4096 / 167772160000 := by norm_num
  have h147' := two_zpow_pos (-147)
  have h20 : (6 : ℝ) * 2 ^ (-20 : ℤ) = 96 / 16777216 := by norm_num
  rw [h12] at ha hb
  rw [h16] at hK'
  rw [h20]
  -- the third column
  obtain ⟨n, zz, hn, hne, hz, hze⟩ := normalize3 (colv A 2) (by rw [n3]; norm_num; linarith)
    (by rw [n3]; exact ha'.trans (by norm_num))
  rw [h60] at ha' hb'
  rw [n3] at hne hze
  rw [h22] at hne
  have hze' : vlen (zz - colv Q 2) ≤ 5 / 16777216 := by
    rw [v3, smul_smul, one_div, inv_mul_cancel₀ ha0.ne', one_smul] at hze
    exact hze
  have hzl : vlen zz ≤ 1 + 5 / 16777216 := by
    have := vlen_add (zz - colv Q 2) (colv Q 2)
    rw [sub_add_cancel, l1] at this
    linarith
  obtain ⟨ε, hε, hεe⟩ := lEpsilon_fin
  obtain ⟨ε1, ε2⟩ := abs_le.1 hεe
  have t1 : ¬ lt (fin n) (fin ε) := by
    have := (abs_le.1 hne).1
    rw [lt, not_lt]
    linarith
  -- the first column
  have hKb : vlen (colv A 1) * vlen zz ≤ K * b * (1 + 5 / 16777216) :=
    mul_le_mul n2 hzl (vlen_nonneg _) (by positivity)
  have hKb' : K * b ≤ 65536 * 1152921504606846976 := mul_le_mul hK' hb' hb0.le (by norm_num)
  obtain ⟨xp, ⟨x0, x1, x2⟩, -, hxe⟩ := cross_float (colv A 1) zz (hKb.trans (by norm_num; linarith))
  have hc1 : cross (colv A 1) (colv Q 2) = b • colv Q 0 := by rw [v2, cross_comb, k1]
  have hxe' : vlen (xp - b • colv Q 0) ≤ 22 / 16777216 * K * b := by
    have e : xp - b • colv Q 0 = (xp - cross (colv A 1) zz) + (cross (colv A 1) zz - cross (colv A 1) (colv Q 2)) := by
      rw [hc1]
      abel
    rw [e, cross_sub (colv A 1) zz, sub_self, show cross 0 zz = 0 by ext i; fin_cases i <;> simp [cross], zero_add]
    have q1 := vlen_add (xp - cross (colv A 1) zz) (cross (colv A 1) (zz - colv Q 2))
    have q2 := vlen_cross (colv A 1) (zz - colv Q 2)
    have q3 : vlen (colv A 1) * vlen (zz - colv Q 2) ≤ K * b * (5 / 16777216) :=
      mul_le_mul n2 hze' (vlen_nonneg _) (by positivity)
    have q4 : 1 / 4096 ≤ K * b := by nlinarith
    generalize (2 : ℝ) ^ (-147 : ℤ) = w at *
    rw [mul_assoc]
    generalize K * b = T at *
    linarith
  obtain ⟨hxp, hxl, hxd⟩ := direction_near hb0 (l1 0) hxe' (by linarith)
  have hxl' : |vlen xp - b| ≤ 1 / 10 * b := hxl.trans (by gcongr; linarith)
  obtain ⟨hx1, hx2⟩ := abs_le.1 hxl'
  obtain ⟨n', xx, hn', hne', hx, hxxe⟩ := normalize3 xp (by norm_num; linarith) (by norm_num; linarith)
  have t2 : ¬ lt (fin n') (fin ε) := by
    rw [h22] at hne'
    have := (abs_le.1 hne').1
    rw [lt, not_lt]
    linarith
  have hxxe' : vlen (xx - colv Q 0) ≤ 49 / 16777216 * K := by
    have q := vlen_add (xx - (1 / vlen xp) • xp) ((1 / vlen xp) • xp - colv Q 0)
    rw [sub_add_sub_cancel] at q
    linarith
  have hxxl : vlen xx ≤ 6 / 5 := by
    have := vlen_add (xx - colv Q 0) (colv Q 0)
    rw [sub_add_cancel, l1] at this
    linarith
  -- the second column
  have hzx : vlen zz * vlen xx ≤ (1 + 5 / 16777216) * (6 / 5) := mul_le_mul hzl hxxl (vlen_nonneg _) (by norm_num)
  obtain ⟨yy, ⟨y0, y1, y2⟩, yr, hye⟩ := cross_float zz xx (hzx.trans (by norm_num))
  have hye' : vlen (yy - colv Q 1) ≤ 75 / 16777216 * K := by
    have e : yy - colv Q 1 = (yy - cross zz xx) + (cross zz xx - cross (colv Q 2) (colv Q 0)) := by
      rw [k2]
      abel
    rw [e, cross_sub]
    have q1 := vlen_add (yy - cross zz xx) (cross (zz - colv Q 2) xx + cross (colv Q 2) (xx - colv Q 0))
    have q2 := vlen_add (cross (zz - colv Q 2) xx) (cross (colv Q 2) (xx - colv Q 0))
    have q3 := vlen_cross (zz - colv Q 2) xx
    have q4 := vlen_cross (colv Q 2) (xx - colv Q 0)
    rw [l1, one_mul] at q4
    have q5 : vlen (zz - colv Q 2) * vlen xx ≤ 5 / 16777216 * (6 / 5) :=
      mul_le_mul hze' hxxl (vlen_nonneg _) (by norm_num)
    generalize (2 : ℝ) ^ (-147 : ℤ) = w at *
    linarith
  refine ⟨!![xx 0, yy 0, zz 0; xx 1, yy 1, zz 1; xx 2, yy 2, zz 2], ?_, ?_, ?_⟩
  · have z0 := (hz 0).1
    have z1 := (hz 1).1
    have z2 := (hz 2).1
    have d0 := (hx 0).1
    have d1 := (hx 1).1
    have d2 := (hx 2).1
    simp only [colv] at hn z0 z1 z2 x0 x1 x2
    simp only [Rotation.normalizeRotation]
    rw [if_neg (by rw [hn, hε]; exact t1), if_neg (by rw [hn, z0, z1, z2, x0, x1, x2, hn', hε]; exact t2)]
    simp only [hn, z0, z1, z2, x0, x1, x2, hn', d0, d1, d2, y0, y1, y2]
    rfl
  · intro i j
    fin_cases j
    · fin_cases i
      · exact (hx 0).2
      · exact (hx 1).2
      · exact (hx 2).2
    · fin_cases i
      · exact yr 0
      · exact yr 1
      · exact yr 2
    · fin_cases i
      · exact (hz 0).2
      · exact (hz 1).2
      · exact (hz 2).2
  · refine sq_le_of (by positivity) ?_
    rw [fro_cols]
    have e0 : colv (!![xx 0, yy 0, zz 0; xx 1, yy 1, zz 1; xx 2, yy 2, zz 2] - Q) 0 = xx - colv Q 0 := by
      ext i
      fin_cases i <;> simp [colv]
    have e1 : colv (!![xx 0, yy 0, zz 0; xx 1, yy 1, zz 1; xx 2, yy 2, zz 2] - Q) 1 = yy - colv Q 1 := by
      ext i
      fin_cases i <;> simp [colv]
    have e2 : colv (!![xx 0, yy 0, zz 0; xx 1, yy 1, zz 1; xx 2, yy 2, zz 2] - Q) 2 = zz - colv Q 2 := by
      ext i
      fin_cases i <;> simp [colv]
    rw [e0, e1, e2]
    have f0 : vlen (xx - colv Q 0) ^ 2 ≤ (49 / 16777216 * K) ^ 2 := pow_le_pow_left₀ (vlen_nonneg _) hxxe' 2
    have f1 : vlen (yy - colv Q 1) ^ 2 ≤ (75 / 16777216 * K) ^ 2 := pow_le_pow_left₀ (vlen_nonneg _) hye' 2
    have f2 : vlen (zz - colv Q 2) ^ 2 ≤ (5 / 16777216 * K) ^ 2 :=
      pow_le_pow_left₀ (vlen_nonneg _) (hze'.trans (by linarith)) 2
    rw [mul_pow] at f0 f1 f2 ⊢
    have f3 := sq_nonneg K
    linarith

/-- A matrix near a rotation `P` is normalised to a rotation near `P`, which `isRotation` accepts with its default
tolerance. -/
theorem C84_near (x y z : F32) (A P : Mat3) (hP : IsRot P) (e : ℝ) (hA : fro (A - P) ≤ e) (he : e ≤ 1 / 8) (eps : ℝ)
    (heps : Rep eps) (h : 99 / 1000000 ≤ eps) :
    ∃ B Q, Rotation.normalizeRotation
        ⟨x, fin (A 0 1), fin (A 0 2), y, fin (A 1 1), fin (A 1 2), z, fin (A 2 1), fin (A 2 2)⟩ = Rotation.ofMat B ∧
      IsRot Q ∧ fro (B - Q) ≤ 2 ^ (-16 : ℤ) ∧ fro (Q - P) ≤ 11 * e ∧
      Rotation.isRotation (Rotation.ofMat B) (fin eps) = true := by
  obtain ⟨l1, k1, k2⟩ := rot_cols hP
  have he0 : 0 ≤ e := (fro_nonneg _).trans hA
  have hcol : ∀ j, vlen (colv A j - (1 : ℝ) • colv P j) ≤ e := by
    intro j
    have h1 := fro_cols (A - P)
    have h2 : ∀ j, colv (A - P) j = colv A j - (1 : ℝ) • colv P j := by
      intro j
      rw [one_smul]
      rfl
    rw [h2, h2, h2] at h1
    refine (sq_le_of (fro_nonneg _) ?_).trans hA
    rw [h1]
    have a0 := sq_nonneg (vlen (colv A 0 - (1 : ℝ) • colv P 0))
    have a1 := sq_nonneg (vlen (colv A 1 - (1 : ℝ) • colv P 1))
    have a2 := sq_nonneg (vlen (colv A 2 - (1 : ℝ) • colv P 2))
    fin_cases j
    · show vlen (colv A 0 - (1 : ℝ) • colv P 0) ^ 2 ≤ _
      linarith
    · show vlen (colv A 1 - (1 : ℝ) • colv P 1) ^ 2 ≤ _
      linarith
    · show vlen (colv A 2 - (1 : ℝ) • colv P 2) ^ 2 ≤ _
      linarith
  -- directions in exact arithmetic
  obtain ⟨p3, q3, d3⟩ := direction_near one_pos (l1 2) ((hcol 2).trans (mul_one e).ge) (by linarith)
  obtain ⟨p2, q2, -⟩ := direction_near one_pos (l1 1) ((hcol 1).trans (mul_one e).ge) (by linarith)
  rw [mul_one] at q3 q2
  obtain ⟨q3, q3'⟩ := abs_le.1 q3
  obtain ⟨q2, q2'⟩ := abs_le.1 q2
  let u3 : Vec3 := (1 / vlen (colv A 2)) • colv A 2
  have hu3 : vlen u3 = 1 := by
    rw [vlen_smul _ (by positivity), one_div, inv_mul_cancel₀ p3.ne']
  have hx : vlen (cross (colv A 1) u3 - (1 : ℝ) • colv P 0) ≤ 3 * e * 1 := by
    rw [one_smul, ← k1, cross_sub]
    have r1 := vlen_add (cross (colv A 1 - colv P 1) u3) (cross (colv P 1) (u3 - colv P 2))
    have r2 := vlen_cross (colv A 1 - colv P 1) u3
    have r3 := vlen_cross (colv P 1) (u3 - colv P 2)
    rw [hu3, mul_one] at r2
    rw [l1, one_mul] at r3
    have r4 := hcol 1
    rw [one_smul] at r4
    linarith
  obtain ⟨p1, q1, d1⟩ := direction_near one_pos (l1 0) hx (by linarith)
  rw [mul_one] at q1
  obtain ⟨q1, q1'⟩ := abs_le.1 q1
  let β := vlen (cross (colv A 1) u3)
  let u1 : Vec3 := (1 / β) • cross (colv A 1) u3
  have hu1 : vlen u1 = 1 := by
    rw [vlen_smul _ (by positivity), one_div, inv_mul_cancel₀ p1.ne']
  let u2 : Vec3 := cross u3 u1
  have sq1 : ∀ {v : Vec3}, vlen v = 1 → v 0 ^ 2 + v 1 ^ 2 + v 2 ^ 2 = 1 := by
    intro v hv
    have := vlen_sq v
    rw [hv, Fin.sum_univ_three] at this
    linarith
  have s1 := sq1 hu1
  have s3 := sq1 hu3
  have o13 : u1 0 * u3 0 + u1 1 * u3 1 + u1 2 * u3 2 = 0 := by
    simp only [u1, cross, Pi.smul_apply, smul_eq_mul, Matrix.cons_val_zero, Matrix.cons_val_one, Matrix.cons_val]
    ring
  let Q : Mat3 := !![u1 0, u2 0, u3 0; u1 1, u2 1, u3 1; u1 2, u2 2, u3 2]
  have hβ : β * u1 0 = cross (colv A 1) u3 0 ∧ β * u1 1 = cross (colv A 1) u3 1 ∧ β * u1 2 = cross (colv A 1) u3 2 := by
    refine ⟨?_, ?_, ?_⟩ <;> simp only [u1, Pi.smul_apply, smul_eq_mul] <;> rw [one_div, mul_inv_cancel_left₀ p1.ne']
  have c0 : colv Q 0 = u1 := by
    ext i
    fin_cases i <;> rfl
  have c1 : colv Q 1 = u2 := by
    ext i
    fin_cases i <;> rfl
  have c2 : colv Q 2 = u3 := by
    ext i
    fin_cases i <;> rfl
  have e20 : u2 0 = u3 1 * u1 2 - u3 2 * u1 1 := rfl
  have e21 : u2 1 = u3 2 * u1 0 - u3 0 * u1 2 := rfl
  have e22 : u2 2 = u3 0 * u1 1 - u3 1 * u1 0 := rfl
  have hQ : IsRot Q := by
    refine isRot_coord.2 ⟨⟨?_, ?_, ?_, ?_, ?_, ?_⟩, ?_⟩
    · linarith
    · rw [e20, e21, e22]
      linear_combination (u3 0 ^ 2 + u3 1 ^ 2 + u3 2 ^ 2) * s1 + s3 -
        (u1 0 * u3 0 + u1 1 * u3 1 + u1 2 * u3 2) * o13
    · linarith
    · rw [e20, e21, e22]; ring
    · linarith
    · rw [e20, e21, e22]; ring
    · rw [e20, e21, e22]
      linear_combination (u3 0 ^ 2 + u3 1 ^ 2 + u3 2 ^ 2) * s1 + s3 -
        (u1 0 * u3 0 + u1 1 * u3 1 + u1 2 * u3 2) * o13
  have g3 : ∀ i, A i 2 = vlen (colv A 2) * Q i 2 := by
    intro i
    have : Q i 2 = (1 / vlen (colv A 2)) * A i 2 := congrFun c2 i
    rw [this, one_div, mul_inv_cancel_left₀ p3.ne']
  let γ := A 0 1 * u3 0 + A 1 1 * u3 1 + A 2 1 * u3 2
  obtain ⟨b0, b1, b2⟩ := hβ
  have f0 : cross (colv A 1) u3 0 = A 1 1 * u3 2 - A 2 1 * u3 1 := rfl
  have f1 : cross (colv A 1) u3 1 = A 2 1 * u3 0 - A 0 1 * u3 2 := rfl
  have f2 : cross (colv A 1) u3 2 = A 0 1 * u3 1 - A 1 1 * u3 0 := rfl
  rw [f0] at b0
  rw [f1] at b1
  rw [f2] at b2
  have g2 : ∀ i, A i 1 = β * Q i 1 + γ * Q i 2 := by
    have t0 : A 0 1 = β * u2 0 + γ * u3 0 := by
      rw [e20]
      linear_combination u3 2 * b1 - u3 1 * b2 - A 0 1 * s3
    have t1 : A 1 1 = β * u2 1 + γ * u3 1 := by
      rw [e21]
      linear_combination u3 0 * b2 - u3 2 * b0 - A 1 1 * s3
    have t2 : A 2 1 = β * u2 2 + γ * u3 2 := by
      rw [e22]
      linear_combination u3 1 * b0 - u3 0 * b1 - A 2 1 * s3
    intro i
    fin_cases i
    · exact t0
    · exact t1
    · exact t2
  have hK : Real.sqrt (β ^ 2 + γ ^ 2) ≤ 9 / 5 * β := by
    have hv : colv A 1 = β • colv Q 1 + γ • colv Q 2 := by
      ext i
      exact g2 i
    rw [← vlen_colv_comb hQ, ← hv]
    linarith
  obtain ⟨B, hB, -, hE⟩ := C84_normalize x y z A Q hQ _ β γ (9 / 5) g3 g2 (by norm_num; linarith) (by norm_num; linarith)
    (by norm_num; linarith) (by norm_num; linarith) hK (by norm_num)
  have hE2 : fro (B - Q) ≤ 11 / 1048576 := hE.trans (by norm_num)
  refine ⟨B, Q, hB, hQ, hE2.trans (by norm_num), ?_, C80_accepts B Q hQ _ eps hE2 (by norm_num) heps (by norm_num; linarith)⟩
  refine sq_le_of (by positivity) ?_
  have hc : ∀ j, colv (Q - P) j = colv Q j - colv P j := fun _ => rfl
  rw [fro_cols, hc, hc, hc, c0, c1, c2]
  have m1 : vlen (u1 - colv P 0) ≤ 6 * e := by linarith
  have m2 : vlen (u2 - colv P 1) ≤ 8 * e := by
    rw [← k2, cross_sub]
    have r1 := vlen_add (cross (u3 - colv P 2) u1) (cross (colv P 2) (u1 - colv P 0))
    have r2 := vlen_cross (u3 - colv P 2) u1
    have r3 := vlen_cross (colv P 2) (u1 - colv P 0)
    rw [hu1, mul_one] at r2
    rw [l1, one_mul] at r3
    linarith
  have m1' := pow_le_pow_left₀ (vlen_nonneg _) m1 2
  have m2' := pow_le_pow_left₀ (vlen_nonneg _) m2 2
  have m3' := pow_le_pow_left₀ (vlen_nonneg _) d3 2
  rw [mul_pow] at m1' m2' m3' ⊢
  have := sq_nonneg e
  linarith

/-! ### Degenerate matrices -/

/-- A third column that is too short: the result is the identity, whatever the other columns are. -/
theorem C84_null (r : Rotation) (v : Vec3) (h1 : r.r13 = fin (v 0)) (h2 : r.r23 = fin (v 1)) (h3 : r.r33 = fin (v 2))
    (h : vlen v ≤ 99 / 1000000) : Rotation.normalizeRotation r = Rotation.ofMat 1 := by
  obtain ⟨n, hn, -, -, he⟩ := norm3_fin v (h.trans (by norm_num))
  obtain ⟨ε, hε, hεe⟩ := lEpsilon_fin
  obtain ⟨ε1, ε2⟩ := abs_le.1 hεe
  have t : lt (fin n) (fin ε) := by
    have h5 := (abs_le.1 he).2
    have h6 : (2 : ℝ) ^ (-149 : ℤ) ≤ 2 ^ (-30 : ℤ) := two_zpow_le (by norm_num)
    rw [lt]
    generalize (2 : ℝ) ^ (-149 : ℤ) = w at *
    norm_num at h5 h6
    linarith
  simp only [Rotation.normalizeRotation]
  rw [if_pos (by rw [h1, h2, h3, hn, hε]; exact t)]
  simp [Rotation.identity, Rotation.ofMat]

/-- A second column that is too near the direction of the third one: also the identity. -/
theorem C84_parallel (x y z : F32) (A Q : Mat3) (hQ : IsRot Q) (a b c : ℝ) (h3 : ∀ i, A i 2 = a * Q i 2)
    (h2 : ∀ i, A i 1 = b * Q i 1 + c * Q i 2) (ha : 2 ^ (-12 : ℤ) ≤ a) (ha' : a ≤ 2 ^ 60) (hb : 0 ≤ b)
    (hb' : b ≤ 98 / 1000000) (hc : Real.sqrt (b ^ 2 + c ^ 2) ≤ 1) :
    Rotation.normalizeRotation
      ⟨x, fin (A 0 1), fin (A 0 2), y, fin (A 1 1), fin (A 1 2), z, fin (A 2 1), fin (A 2 2)⟩ = Rotation.ofMat 1 := by
  obtain ⟨l1, k1, -⟩ := rot_cols hQ
  have ha0 : 0 < a := lt_of_lt_of_le (two_zpow_pos _) ha
  have v3 : colv A 2 = a • colv Q 2 := by
    ext i
    exact h3 i
  have v2 : colv A 1 = b • colv Q 1 + c • colv Q 2 := by
    ext i
    exact h2 i
  have n3 : vlen (colv A 2) = a := by rw [v3, vlen_smul _ ha0.le, l1, mul_one]
  have n2 : vlen (colv A 1) ≤ 1 := by rw [v2, vlen_colv_comb hQ]; exact hc
  have h12 : (2 : ℝ) ^ (-12 : ℤ) = 1 / 4096 := by norm_num
  have h22 : (2 : ℝ) ^ (-22 : ℤ) = 4 / 16777216 := by norm_num
  have h147 : (2 : ℝ) ^ (-147 : ℤ) ≤ 1 / 16777216 := by norm_num
  rw [h12] at ha
  obtain ⟨n, zz, hn, hne, hz, hze⟩ := normalize3 (colv A 2) (by rw [n3]; norm_num; linarith)
    (by rw [n3]; exact ha'.trans (by norm_num))
  rw [n3] at hne hze
  rw [h22] at hne
  have hze' : vlen (zz - colv Q 2) ≤ 5 / 16777216 := by
    rw [v3, smul_smul, one_div, inv_mul_cancel₀ ha0.ne', one_smul] at hze
    exact hze
  have hzl : vlen zz ≤ 1 + 5 / 16777216 := by
    have := vlen_add (zz - colv Q 2) (colv Q 2)
    rw [sub_add_cancel, l1] at this
    linarith
  obtain ⟨ε, hε, hεe⟩ := lEpsilon_fin
  obtain ⟨ε1, ε2⟩ := abs_le.1 hεe
  have t1 : ¬ lt (fin n) (fin ε) := by
    have := (abs_le.1 hne).1
    rw [lt, not_lt]
    linarith
  have hKb : vlen (colv A 1) * vlen zz ≤ 1 * (1 + 5 / 16777216) :=
    mul_le_mul n2 hzl (vlen_nonneg _) (by positivity)
  obtain ⟨xp, ⟨x0, x1, x2⟩, -, hxe⟩ := cross_float (colv A 1) zz (hKb.trans (by norm_num))
  have hc1 : cross (colv A 1) (colv Q 2) = b • colv Q 0 := by rw [v2, cross_comb, k1]
  have hxl : vlen xp ≤ 99.4 / 1000000 := by
    have e : xp = (xp - cross (colv A 1) zz) + (cross (colv A 1) zz - cross (colv A 1) (colv Q 2)) + b • colv Q 0 := by
      rw [hc1]
      abel
    rw [e, cross_sub (colv A 1) zz, sub_self, show cross 0 zz = 0 by ext i; fin_cases i <;> simp [cross], zero_add]
    have q0 := vlen_add (xp - cross (colv A 1) zz + cross (colv A 1) (zz - colv Q 2)) (b • colv Q 0)
    have q1 := vlen_add (xp - cross (colv A 1) zz) (cross (colv A 1) (zz - colv Q 2))
    have q2 := vlen_cross (colv A 1) (zz - colv Q 2)
    rw [vlen_smul _ hb, l1, mul_one] at q0
    have q3 : vlen (colv A 1) * vlen (zz - colv Q 2) ≤ 1 * (5 / 16777216) :=
      mul_le_mul n2 hze' (vlen_nonneg _) (by positivity)
    generalize (2 : ℝ) ^ (-147 : ℤ) = w at *
    norm_num at hKb q3 ⊢
    linarith
  obtain ⟨n', hn', -, -, he⟩ := norm3_fin xp (hxl.trans (by norm_num))
  have t2 : lt (fin n') (fin ε) := by
    have h5 := (abs_le.1 he).2
    have h6 : (2 : ℝ) ^ (-149 : ℤ) ≤ 2 ^ (-30 : ℤ) := two_zpow_le (by norm_num)
    rw [lt]
    generalize (2 : ℝ) ^ (-149 : ℤ) = w at *
    norm_num at h5 h6 hxl
    linarith
  have z0 := (hz 0).1
  have z1 := (hz 1).1
  have z2 := (hz 2).1
  simp only [colv] at hn z0 z1 z2 x0 x1 x2
  simp only [Rotation.normalizeRotation]
  rw [if_neg (by rw [hn, hε]; exact t1), if_pos (by rw [hn, z0, z1, z2, x0, x1, x2, hn', hε]; exact t2)]
  simp [Rotation.identity, Rotation.ofMat]

/-! ### A matrix that is not normalised -/

/-- Rounding of a number whose binary exponent is known. -/
theorem rnd_eq {x : ℝ} {m k : ℤ} (h1 : (2 : ℝ) ^ k ≤ |x|) (h2 : |x| < 2 ^ (k + 1)) (hk : -126 ≤ k)
    (h : |x / 2 ^ (k - 23) - m| < 1 / 2) : rnd x = m * 2 ^ (k - 23) := by
  have hx : 0 < |x| := lt_of_lt_of_le (two_zpow_pos _) h1
  have hlog : Int.log 2 |x| = k := by
    have a1 : k ≤ Int.log 2 |x| := (Int.zpow_le_iff_le_log (by norm_num) hx).1 (by exact_mod_cast h1)
    have a2 : Int.log 2 |x| < k + 1 := (Int.lt_zpow_iff_log_lt (by norm_num) hx).1 (by exact_mod_cast h2)
    omega
  have hl : lastBit x = k - 23 := by
    rw [lastBit, hlog]
    exact max_eq_left (by omega)
  rw [rnd, hl]
  congr 1
  have b1 := nearestInt_min (x / 2 ^ (k - 23)) m
  have b2 : |(nearestInt (x / 2 ^ (k - 23)) : ℝ) - m| < 1 := by
    have := abs_sub_le (nearestInt (x / 2 ^ (k - 23)) : ℝ) (x / 2 ^ (k - 23)) m
    rw [abs_sub_comm (m : ℝ)] at b1
    linarith
  have b3 : |nearestInt (x / 2 ^ (k - 23)) - m| < 1 := by exact_mod_cast b2
  have := Int.abs_lt_one_iff.1 b3
  have b4 : nearestInt (x / 2 ^ (k - 23)) = m := by omega
  rw [b4]

/-- A matrix whose second column is long and nearly parallel to its third one, of length 1: after normalisation, the
first and third columns are far from orthogonal. -/
theorem C84_not_normalised (x y z : F32) (eps : ℝ) (h : eps ≤ 1 / 50) :
    Rotation.isRotation (Rotation.normalizeRotation
      ⟨x, fin 512, fin (1 / 2), y, fin (512 + 2 ^ (-12 : ℤ)), fin (1 / 2), z, fin (2965821 / 4096),
        fin (2965821 / 4194304)⟩) (fin eps) = false := by
  let v : Vec3 := ![1 / 2, 1 / 2, 2965821 / 4194304]
  have hv2 : vlen v ^ 2 = 1 / 2 + (2965821 / 4194304) ^ 2 := by
    rw [vlen_sq, Fin.sum_univ_three]
    simp only [v, Matrix.cons_val_zero, Matrix.cons_val_one, Matrix.cons_val]
    norm_num
  have hvl : 1 ≤ vlen v := by
    by_contra hc
    push Not at hc
    have := vlen_nonneg v
    have : vlen v ^ 2 < 1 := by nlinarith
    rw [hv2] at this
    norm_num at this
  have hvu : vlen v ≤ 1 + 1 / 20000000 := by
    refine sq_le_of (by norm_num) ?_
    rw [hv2]
    norm_num
  obtain ⟨d, hd, -, -, hde⟩ := norm3_double v (hvu.trans (by norm_num))
  have hd1 : rnd d = 1 := by
    have h160 : (2 : ℝ) ^ (-160 : ℤ) ≤ 2 ^ (-60 : ℤ) := two_zpow_le (by norm_num)
    obtain ⟨g1, g2⟩ := abs_le.1 hde
    generalize (2 : ℝ) ^ (-160 : ℤ) = w at *
    norm_num at h160
    have g3 : 1 - 1 / 100000000000 ≤ d := by linarith
    have g4 : d ≤ 1 + 1 / 19000000 := by linarith
    by_cases hc : 1 ≤ d
    · rw [rnd_eq (k := 0) (m := 8388608) (by rw [abs_of_pos (by linarith)]; norm_num; exact hc)
        (by rw [abs_of_pos (by linarith)]; norm_num; linarith) (by norm_num)
        (by rw [abs_lt]; norm_num; constructor <;> linarith)]
      norm_num
    · push Not at hc
      rw [rnd_eq (k := -1) (m := 16777216) (by rw [abs_of_pos (by linarith)]; norm_num; linarith)
        (by rw [abs_of_pos (by linarith)]; norm_num; linarith) (by norm_num)
        (by rw [abs_lt]; norm_num; constructor <;> linarith)]
      norm_num
  rw [hd1] at hd
  -- the third column is not changed
  have dv : ∀ {t : ℝ}, Rep t → div (fin t) (fin 1) = fin t := by
    intro t ht
    rw [div, if_neg one_ne_zero, div_one, round_rep ht]
  have rs : Rep (2965821 / 4194304) := ⟨2965821, -22, by norm_num, by norm_num, by norm_num, by norm_num⟩
  have rh : Rep (1 / 2) := ⟨1, -1, by norm_num, by norm_num, by norm_num, by norm_num⟩
  have z1 := dv rh
  have z3 := dv rs
  -- the products
  have re : ∀ {t : ℝ} (m e : ℤ), |m| < 2 ^ 24 → -149 ≤ e → e ≤ 104 → t = m * 2 ^ e → round t = fin t := fun m e h1 h2 h3 h4 =>
    round_rep ⟨m, e, h1, h2, h3, h4⟩
  have m1 : mul (fin (512 + 2 ^ (-12 : ℤ))) (fin (2965821 / 4194304)) = fin (2965821 / 8192 + 6 * 2 ^ (-15 : ℤ)) := by
    rw [mul_fin (by rw [abs_of_pos (by norm_num)]; norm_num), rnd_eq (k := 8) (m := 11863284 + 6)
      (by rw [abs_of_pos (by norm_num)]; norm_num) (by rw [abs_of_pos (by norm_num)]; norm_num) (by norm_num)
      (by rw [abs_lt]; norm_num)]
    congr 1
    norm_num
  have m2 : mul (fin (2965821 / 4096)) (fin (1 / 2)) = fin (2965821 / 8192) := by
    rw [mul, show (2965821 : ℝ) / 4096 * (1 / 2) = 2965821 / 8192 by norm_num]
    exact re 2965821 (-13) (by norm_num) (by norm_num) (by norm_num) (by norm_num)
  have m3 : mul (fin 512) (fin (2965821 / 4194304)) = fin (2965821 / 8192) := by
    rw [mul, show (512 : ℝ) * (2965821 / 4194304) = 2965821 / 8192 by norm_num]
    exact re 2965821 (-13) (by norm_num) (by norm_num) (by norm_num) (by norm_num)
  have m4 : mul (fin 512) (fin (1 / 2)) = fin 256 := by
    rw [mul, show (512 : ℝ) * (1 / 2) = 256 by norm_num]
    exact re 256 0 (by norm_num) (by norm_num) (by norm_num) (by norm_num)
  have m5 : mul (fin (512 + 2 ^ (-12 : ℤ))) (fin (1 / 2)) = fin (256 + 2 ^ (-13 : ℤ)) := by
    rw [mul, show (512 + 2 ^ (-12 : ℤ) : ℝ) * (1 / 2) = 256 + 2 ^ (-13 : ℤ) by norm_num]
    exact re (2 ^ 21 + 1) (-13) (by norm_num) (by norm_num) (by norm_num) (by norm_num)
  have x1 : sub (fin (2965821 / 8192 + 6 * 2 ^ (-15 : ℤ))) (fin (2965821 / 8192)) = fin (6 * 2 ^ (-15 : ℤ)) := by
    rw [sub, neg, add, show (2965821 / 8192 + 6 * 2 ^ (-15 : ℤ) + -(2965821 / 8192) : ℝ) = 6 * 2 ^ (-15 : ℤ) by ring]
    exact re 6 (-15) (by norm_num) (by norm_num) (by norm_num) (by norm_num)
  have x2 : sub (fin (2965821 / 8192)) (fin (2965821 / 8192)) = fin 0 := by
    rw [sub, neg, add, add_neg_cancel]
    exact round_rep Rep.zero
  have x3 : sub (fin 256) (fin (256 + 2 ^ (-13 : ℤ))) = fin (-4 * 2 ^ (-15 : ℤ)) := by
    rw [sub, neg, add, show (256 + -(256 + 2 ^ (-13 : ℤ)) : ℝ) = -4 * 2 ^ (-15 : ℤ) by norm_num]
    exact re (-4) (-15) (by norm_num) (by norm_num) (by norm_num) (by norm_num)
  -- the first column
  let u : Vec3 := ![6 * 2 ^ (-15 : ℤ), 0, -4 * 2 ^ (-15 : ℤ)]
  have hu2 : vlen u ^ 2 = 52 * (2 ^ (-15 : ℤ)) ^ 2 := by
    rw [vlen_sq, Fin.sum_univ_three]
    simp only [u, Matrix.cons_val_zero, Matrix.cons_val_one, Matrix.cons_val]
    norm_num
  have hul : 7 * 2 ^ (-15 : ℤ) ≤ vlen u := by
    refine sq_le_of (vlen_nonneg _) ?_
    rw [hu2]
    norm_num
  have huu : vlen u ≤ 8 * 2 ^ (-15 : ℤ) := by
    refine sq_le_of (by positivity) ?_
    rw [hu2]
    norm_num
  have hu0 : 0 < vlen u := lt_of_lt_of_le (by positivity) hul
  obtain ⟨n, xx, hn, hne, hx, hxe⟩ := normalize3 u (le_trans (by norm_num) hul) (huu.trans (by norm_num))
  have d0 : div (fin (6 * 2 ^ (-15 : ℤ))) (fin n) = fin (xx 0) := (hx 0).1
  have d1 : div (fin 0) (fin n) = fin (xx 1) := (hx 1).1
  have d2 : div (fin (-4 * 2 ^ (-15 : ℤ))) (fin n) = fin (xx 2) := (hx 2).1
  obtain ⟨ε, hε, hεe⟩ := lEpsilon_fin
  obtain ⟨ε1, ε2⟩ := abs_le.1 hεe
  have t1 : ¬ lt (fin 1) (fin ε) := by
    rw [lt, not_lt]
    linarith
  have t2 : ¬ lt (fin n) (fin ε) := by
    have := (abs_le.1 hne).1
    rw [lt, not_lt]
    norm_num at this hul
    linarith
  have hd' : norm3 (fin (1 / 2)) (fin (1 / 2)) (fin (2965821 / 4194304)) = fin 1 := hd
  have hn' : norm3 (fin (6 * 2 ^ (-15 : ℤ))) (fin 0) (fin (-4 * 2 ^ (-15 : ℤ))) = fin n := hn
  -- components of the first column
  have c : ∀ i, |xx i - u i / vlen u| ≤ 5 / 16777216 := by
    intro i
    have := (abs_le_vlen _ i).trans hxe
    rw [Pi.sub_apply, Pi.smul_apply, smul_eq_mul, one_div_mul_eq_div] at this
    exact this
  have c0 : |xx 0 - 6 * 2 ^ (-15 : ℤ) / vlen u| ≤ 5 / 16777216 := c 0
  have c1 : |xx 1 - 0 / vlen u| ≤ 5 / 16777216 := c 1
  have c2 : |xx 2 - -4 * 2 ^ (-15 : ℤ) / vlen u| ≤ 5 / 16777216 := c 2
  rw [zero_div, sub_zero] at c1
  obtain ⟨q, hq1, hq2⟩ : ∃ q : ℝ, 2 ^ (-15 : ℤ) / vlen u = q ∧ (1 / 8 ≤ q ∧ q ≤ 1 / 7) := by
    refine ⟨_, rfl, ?_, ?_⟩
    · rw [le_div_iff₀ hu0]
      generalize (2 : ℝ) ^ (-15 : ℤ) = w at huu ⊢
      generalize vlen u = w' at huu ⊢
      linarith only [huu]
    · rw [div_le_iff₀ hu0]
      generalize (2 : ℝ) ^ (-15 : ℤ) = w at hul ⊢
      generalize vlen u = w' at hul ⊢
      linarith only [hul]
  rw [mul_div_assoc, hq1] at c0 c2
  obtain ⟨c0, c0'⟩ := abs_le.1 c0
  obtain ⟨c1, c1'⟩ := abs_le.1 c1
  obtain ⟨c2, c2'⟩ := abs_le.1 c2
  obtain ⟨q1, q2⟩ := hq2
  have a0 : |xx 0| ≤ 1 := by rw [abs_le]; constructor <;> linarith only [c0, c0', q1, q2]
  have a1 : |xx 1| ≤ 1 := by rw [abs_le]; constructor <;> linarith only [c1, c1']
  have a2 : |xx 2| ≤ 1 := by rw [abs_le]; constructor <;> linarith only [c2, c2', q1, q2]
  have hS : |(1 : ℝ) / 2| * |xx 0| + |(1 : ℝ) / 2| * |xx 1| + |(2965821 : ℝ) / 4194304| * |xx 2| ≤ 2 := by
    rw [abs_of_pos (by norm_num : (0 : ℝ) < 1 / 2), abs_of_pos (by norm_num : (0 : ℝ) < 2965821 / 4194304)]
    linarith only [a0, a1, a2]
  obtain ⟨g, hg, -, hge⟩ := dot_fin (hS.trans (by norm_num))
  have hgl : 1 / 50 < g := by
    have h148 : (2 : ℝ) ^ (-148 : ℤ) ≤ 1 / 1000000 := by norm_num
    have h22 : (2 : ℝ) ^ (-22 : ℤ) = 1 / 4194304 := by norm_num
    rw [h22] at hge
    have := (abs_le.1 hge).1
    generalize (2 : ℝ) ^ (-148 : ℤ) = w at h148 this
    linarith only [hS, h148, this, c0, c0', c1, c1', c2, c2', q1, q2]
  simp only [Rotation.normalizeRotation]
  rw [if_neg (by rw [hd', hε]; exact t1),
    if_neg (by rw [hd', z1, z3, m1, m2, m3, m4, m5, x1, x2, x3, hn', hε]; exact t2)]
  simp only [hd', z1, z3, m1, m2, m3, m4, m5, x1, x2, x3, hn', d0, d1, d2]
  rw [Rotation.isRotation]
  split_ifs with i1 i2
  · rfl
  · rfl
  all_goals
    exfalso
    apply i2
    simp only [hg, F32.abs, lt]
    exact lt_of_le_of_lt h (lt_of_lt_of_le hgl (le_abs_self g))

/-- The same for a transform, whose last column is kept whatever it is. -/
theorem C84_transform (x y z t1 t2 t3 : F32) (A P : Mat3) (hP : IsRot P) (e : ℝ) (hA : fro (A - P) ≤ e) (he : e ≤ 1 / 8)
    (eps : ℝ) (heps : Rep eps) (h : 99 / 1000000 ≤ eps) :
    ∃ B, Transform.normalizeTransform
        ⟨⟨x, fin (A 0 1), fin (A 0 2), y, fin (A 1 1), fin (A 1 2), z, fin (A 2 1), fin (A 2 2)⟩, t1, t2, t3⟩ =
        ⟨Rotation.ofMat B, t1, t2, t3⟩ ∧
      fro (B - P) ≤ 11 * e + 2 ^ (-16 : ℤ) ∧ Rotation.isRotation (Rotation.ofMat B) (fin eps) = true := by
  obtain ⟨B, Q, h1, -, h2, h3, h4⟩ := C84_near x y z A P hP e hA he eps heps h
  refine ⟨B, by rw [Transform.normalizeTransform, h1], ?_, h4⟩
  have := fro_add (B - Q) (Q - P)
  rw [sub_add_sub_cancel] at this
  linarith

/-! ### Examples -/

/-- The identity scaled by 1.05, with NaN in the first column. -/
example (eps : ℝ) (heps : Rep eps) (h : 99 / 1000000 ≤ eps) :
    ∃ B, Rotation.normalizeRotation ⟨nan, fin 0, fin 0, nan, fin (21 / 20), fin 0, nan, fin 0, fin (21 / 20)⟩ =
      Rotation.ofMat B ∧ Rotation.isRotation (Rotation.ofMat B) (fin eps) = true := by
  obtain ⟨B, -, h1, -, -, -, h2⟩ := C84_near nan nan nan ((21 / 20 : ℝ) • (1 : Mat3)) 1 IsRot.one (1 / 8) (by
    have : ((21 / 20 : ℝ) • (1 : Mat3)) - 1 = (1 / 20 : ℝ) • (1 : Mat3) := by
      ext i j
      fin_cases i <;> fin_cases j <;> norm_num [Matrix.one_apply]
    rw [this, fro_smul _ (by norm_num)]
    have := fro_rot_le (Q := 1) (by simp)
    linarith) le_rfl eps heps h
  refine ⟨B, ?_, h2⟩
  rw [← h1]
  simp [Matrix.one_apply]

/-- A second column that is not orthogonal to the third one. -/
example : ∃ B, Rotation.normalizeRotation ⟨fin 5, fin 0, fin 0, fin 6, fin 1, fin 0, fin 7, fin 1, fin 2⟩ = Rotation.ofMat B ∧
    fro (B - 1) ≤ 2 ^ (-16 : ℤ) := by
  obtain ⟨B, h1, -, h2⟩ := C84_normalize (fin 5) (fin 6) (fin 7) !![5, 0, 0; 6, 1, 0; 7, 1, 2] 1 IsRot.one 2 1 1 2
    (by intro i; fin_cases i <;> simp [Matrix.one_apply]) (by intro i; fin_cases i <;> simp [Matrix.one_apply])
    (by norm_num) (by norm_num) (by norm_num) (by norm_num)
    (by rw [Real.sqrt_le_iff]; norm_num) (by norm_num)
  exact ⟨B, h1, h2.trans (by norm_num)⟩

/-- A null third column. -/
example : Rotation.normalizeRotation ⟨nan, nan, fin 0, nan, nan, fin 0, nan, nan, fin 0⟩ = Rotation.ofMat 1 :=
  C84_null _ 0 rfl rfl rfl (by rw [show vlen (0 : Fin 3 → ℝ) = 0 by simp [vlen]]; norm_num)

/-- Equal columns. -/
example : Rotation.normalizeRotation ⟨nan, fin 0, fin 0, nan, fin 0, fin 0, nan, fin 1, fin 1⟩ = Rotation.ofMat 1 :=
  C84_parallel nan nan nan !![0, 0, 0; 0, 0, 0; 0, 1, 1] 1 IsRot.one 1 0 1
    (by intro i; fin_cases i <;> simp [Matrix.one_apply]) (by intro i; fin_cases i <;> simp [Matrix.one_apply])
    (by norm_num) (by norm_num) le_rfl (by norm_num) (by norm_num)

end AlMath.F32
