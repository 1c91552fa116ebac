import Verif.Model.FloatQuat
import Verif.Lemmas.Float64
import Verif.Props.C80
import Verif.Props.C82
import Mathlib.Analysis.Quaternion

/-!
C83: quaternions in single precision.
-/

namespace AlMath.F32

open AlMath.Spec Matrix Quaternion

/-- The floating-point quaternion with given components. Not in /repo: specification. -/
def Quat.ofH (q : ℍ[ℝ]) : Quat := ⟨fin q.re, fin q.imI, fin q.imJ, fin q.imK⟩

/-- The quaternion with given components. Not in /repo: specification. -/
def quat (a b c d : ℝ) : ℍ[ℝ] := ⟨a, b, c, d⟩

@[simp] theorem quat_re (a b c d : ℝ) : (quat a b c d).re = a := rfl
@[simp] theorem quat_imI (a b c d : ℝ) : (quat a b c d).imI = b := rfl
@[simp] theorem quat_imJ (a b c d : ℝ) : (quat a b c d).imJ = c := rfl
@[simp] theorem quat_imK (a b c d : ℝ) : (quat a b c d).imK = d := rfl

/-- The components are values of the format. Not in /repo: specification. -/
def RepH (q : ℍ[ℝ]) : Prop := Rep q.re ∧ Rep q.imI ∧ Rep q.imJ ∧ Rep q.imK

theorem hnorm_sq (q : ℍ[ℝ]) : ‖q‖ ^ 2 = q.re ^ 2 + q.imI ^ 2 + q.imJ ^ 2 + q.imK ^ 2 := by
  rw [sq, ← normSq_eq_norm_mul_self, normSq_def']

theorem abs_le_hnorm (q : ℍ[ℝ]) : |q.re| ≤ ‖q‖ ∧ |q.imI| ≤ ‖q‖ ∧ |q.imJ| ≤ ‖q‖ ∧ |q.imK| ≤ ‖q‖ := by
  have h := hnorm_sq q
  have h0 := norm_nonneg q
  refine ⟨?_, ?_, ?_, ?_⟩ <;> refine sq_le_of h0 ?_ <;> rw [sq_abs, h] <;>
    nlinarith [sq_nonneg q.re, sq_nonneg q.imI, sq_nonneg q.imJ, sq_nonneg q.imK]

theorem hnorm_le {q : ℍ[ℝ]} {m : ℝ} (h1 : |q.re| ≤ m) (h2 : |q.imI| ≤ m) (h3 : |q.imJ| ≤ m) (h4 : |q.imK| ≤ m) :
    ‖q‖ ≤ 2 * m := by
  have hm : 0 ≤ m := (abs_nonneg _).trans h1
  refine sq_le_of (by linarith) ?_
  have k : ∀ {a : ℝ}, |a| ≤ m → a ^ 2 ≤ m ^ 2 := fun h => by rw [← sq_abs]; gcongr
  rw [hnorm_sq]
  linarith [k h1, k h2, k h3, k h4, mul_pow 2 m 2]

/-! ### Norm -/

/-- The square of a value of the format in double precision. -/
theorem sq_double {x : ℝ} (h : |x| ≤ 2 ^ 128) :
    ∃ s, F64.sq (fin x) = fin s ∧ |s - x ^ 2| ≤ 2 ^ (-53 : ℤ) * x ^ 2 + 2 ^ (-1075 : ℤ) := by
  have h1 : |x * x| ≤ 2 ^ 256 := by
    rw [abs_mul]
    calc |x| * |x| ≤ 2 ^ 128 * 2 ^ 128 := by gcongr
      _ = 2 ^ 256 := by norm_num
  have h2 : (2 : ℝ) ^ 256 ≤ 2 ^ 1000 := pow_le_pow_right₀ (by norm_num) (by norm_num)
  refine ⟨F64.rnd (x * x), F64.round_fin (h1.trans h2), ?_⟩
  have := F64.rnd_gen (x * x)
  rw [abs_mul_self] at this
  rwa [sq]

theorem add_double {x y : ℝ} (h : |x + y| ≤ 2 ^ 300) :
    ∃ s, F64.add (fin x) (fin y) = fin s ∧ |s - (x + y)| ≤ 2 ^ (-53 : ℤ) * |x + y| + 2 ^ (-1075 : ℤ) := by
  have h2 : (2 : ℝ) ^ 300 ≤ 2 ^ 1000 := pow_le_pow_right₀ (by norm_num) (by norm_num)
  exact ⟨F64.rnd (x + y), F64.round_fin (h.trans h2), F64.rnd_gen _⟩

theorem theta_le : (2 : ℝ) ^ (-1075 : ℤ) ≤ 2 ^ (-400 : ℤ) := two_zpow_le (by norm_num)

theorem theta_pos : (0 : ℝ) < 2 ^ (-1075 : ℤ) := two_zpow_pos _

/-- The sum of four squares of values of the format in double precision. -/
theorem sumsq_double {a b c d M : ℝ} (ha : |a| ≤ M) (hb : |b| ≤ M) (hc : |c| ≤ M) (hd : |d| ≤ M) (hM : M ≤ 2 ^ 128) :
    ∃ s, F64.add (F64.add (F64.add (F64.sq (fin a)) (F64.sq (fin b))) (F64.sq (fin c))) (F64.sq (fin d)) = fin s ∧
      |s - (a ^ 2 + b ^ 2 + c ^ 2 + d ^ 2)| ≤ 2 ^ (-50 : ℤ) * (a ^ 2 + b ^ 2 + c ^ 2 + d ^ 2) + 2 ^ (-390 : ℤ) := by
  obtain ⟨p, e1, h1⟩ := sq_double (ha.trans hM)
  obtain ⟨q, e2, h2⟩ := sq_double (hb.trans hM)
  obtain ⟨r, e3, h3⟩ := sq_double (hc.trans hM)
  obtain ⟨t, e4, h4⟩ := sq_double (hd.trans hM)
  have hM0 : 0 ≤ M := (abs_nonneg _).trans ha
  have k : ∀ {x : ℝ}, |x| ≤ M → x ^ 2 ≤ 2 ^ 256 := fun {x} h => by
    rw [← sq_abs]
    calc |x| ^ 2 ≤ (2 ^ 128) ^ 2 := by gcongr; exact h.trans hM
      _ = 2 ^ 256 := by norm_num
  have ka := k ha
  have kb := k hb
  have kc := k hc
  have kd := k hd
  have ht := theta_le
  have ht0 := theta_pos
  have na := sq_nonneg a
  have nb := sq_nonneg b
  have nc := sq_nonneg c
  have nd := sq_nonneg d
  have h300 : (2 : ℝ) ^ 300 = 2 ^ 256 * 2 ^ 44 := by rw [← pow_add]
  have one : (1 : ℝ) ≤ 2 ^ 256 := one_le_pow₀ (by norm_num)
  have h400 : (2 : ℝ) ^ (-400 : ℤ) ≤ 1 := zpow_le_one_of_nonpos₀ (by norm_num) (by norm_num)
  have h390 : (2 : ℝ) ^ (-390 : ℤ) = 1024 * 2 ^ (-400 : ℤ) := by
    rw [show (-390 : ℤ) = 10 + -400 by norm_num, zpow_add₀ (by norm_num)]
    norm_num
  have h53 : (2 : ℝ) ^ (-53 : ℤ) = 1 / 9007199254740992 := by norm_num
  have h50 : (2 : ℝ) ^ (-50 : ℤ) = 1 / 1125899906842624 := by norm_num
  rw [e1, e2, e3, e4, h390, h50]
  have key := @add_double
  rw [h300] at key
  simp only [h53] at h1 h2 h3 h4 key
  generalize (2 : ℝ) ^ (-1075 : ℤ) = θ at *
  generalize (2 : ℝ) ^ (-400 : ℤ) = w at *
  generalize (2 : ℝ) ^ 256 = B at *
  generalize a ^ 2 = A at *
  generalize b ^ 2 = A' at *
  generalize c ^ 2 = A'' at *
  generalize d ^ 2 = A''' at *
  clear h300 h390 h50 h53
  obtain ⟨h1, h1'⟩ := abs_le.1 h1
  obtain ⟨h2, h2'⟩ := abs_le.1 h2
  obtain ⟨h3, h3'⟩ := abs_le.1 h3
  obtain ⟨h4, h4'⟩ := abs_le.1 h4
  norm_num at key
  obtain ⟨s, f1, g1⟩ := @key p q (by rw [abs_le]; constructor <;> linarith)
  have p1 : |p + q| ≤ (1 + 1 / 9007199254740992) * (A + A') + 2 * θ := by
    rw [abs_le]; constructor <;> linarith
  rw [f1]
  obtain ⟨l1, l1'⟩ := abs_le.1 (g1.trans (by gcongr : _ ≤ 1 / 9007199254740992 * ((1 + 1 / 9007199254740992) * (A + A') + 2 * θ) + θ))
  obtain ⟨s', f2, g2⟩ := @key s r (by rw [abs_le]; constructor <;> linarith)
  have p2 : |s + r| ≤ (1 + 3 / 9007199254740992) * (A + A' + A'') + 6 * θ := by
    rw [abs_le]; constructor <;> linarith
  rw [f2]
  obtain ⟨l2, l2'⟩ := abs_le.1 (g2.trans (by gcongr : _ ≤ 1 / 9007199254740992 * ((1 + 3 / 9007199254740992) * (A + A' + A'') + 6 * θ) + θ))
  obtain ⟨s'', f3, g3⟩ := @key s' t (by rw [abs_le]; constructor <;> linarith)
  have p3 : |s' + t| ≤ (1 + 5 / 9007199254740992) * (A + A' + A'' + A''') + 10 * θ := by
    rw [abs_le]; constructor <;> linarith
  rw [f3]
  obtain ⟨l3, l3'⟩ := abs_le.1 (g3.trans (by gcongr : _ ≤ 1 / 9007199254740992 * ((1 + 5 / 9007199254740992) * (A + A' + A'' + A''') + 10 * θ) + θ))
  refine ⟨s'', rfl, ?_⟩
  rw [abs_le]
  constructor <;> linarith

/-- A value of the format that is not 0 is at least the least positive one. -/
theorem Rep.least {x : ℝ} (h : Rep x) (hx : x ≠ 0) : 2 ^ (-149 : ℤ) ≤ |x| := by
  obtain ⟨n, hn⟩ := h.grid.multiple
  have h1 : (1 : ℝ) ≤ |(n : ℝ)| := by
    have : n ≠ 0 := by
      rintro rfl
      simp at hn
      exact hx hn
    exact_mod_cast Int.one_le_abs this
  rw [hn, abs_mul, abs_of_pos (two_zpow_pos _)]
  have := two_zpow_pos (-149)
  nlinarith

theorem RepH.least {q : ℍ[ℝ]} (h : RepH q) (hq : q ≠ 0) : 2 ^ (-149 : ℤ) ≤ ‖q‖ := by
  obtain ⟨k1, k2, k3, k4⟩ := abs_le_hnorm q
  by_contra hc
  have hc := not_le.1 hc
  have z : ∀ {x : ℝ}, Rep x → |x| ≤ ‖q‖ → x = 0 := fun hx hl => by
    by_contra h0
    linarith [hx.least h0]
  apply hq
  ext
  · exact z h.1 k1
  · exact z h.2.1 k2
  · exact z h.2.2.1 k3
  · exact z h.2.2.2 k4

theorem norm_zero : Quat.norm (Quat.ofH 0) = fin 0 := by
  have r0 : F64.round 0 = fin 0 := by
    rw [F64.round_fin (by simp), F64.rnd_zero]
  have s0 : F64.sq (fin 0) = fin 0 := by rw [F64.sq, F64.mul, mul_zero, r0]
  have a0 : F64.add (fin 0) (fin 0) = fin 0 := by rw [F64.add, add_zero, r0]
  have f0 : round 0 = fin 0 := round_rep Rep.zero
  simp only [Quat.norm, Quat.ofH, re_zero, imI_zero, imJ_zero, imK_zero, s0, a0, F64.sqrt, lt_irrefl, if_false,
    Real.sqrt_zero, r0, F64.toFloat, f0]

/-- The norm of a quaternion is accurate, however small it is, because the squares are computed in
double precision; it is 0 for the zero quaternion only. -/
theorem C83_norm (q : ℍ[ℝ]) (hq : RepH q) (hu : ‖q‖ ≤ 2 ^ 126) :
    ∃ n, Quat.norm (Quat.ofH q) = fin n ∧ Rep n ∧ |n - ‖q‖| ≤ 2 ^ (-23 : ℤ) * ‖q‖ + 2 ^ (-150 : ℤ) ∧ (n = 0 ↔ q = 0) := by
  by_cases h0 : q = 0
  · subst h0
    refine ⟨0, norm_zero, Rep.zero, ?_, by simp⟩
    simp
  have hl := hq.least h0
  obtain ⟨k1, k2, k3, k4⟩ := abs_le_hnorm q
  have h128 : ‖q‖ ≤ 2 ^ 128 := hu.trans (by norm_num)
  obtain ⟨s, hs, he⟩ := sumsq_double k1 k2 k3 k4 h128
  rw [← hnorm_sq] at he
  have hN : 0 < ‖q‖ := lt_of_lt_of_le (two_zpow_pos _) hl
  generalize ‖q‖ = N at *
  have hn2 : (2 : ℝ) ^ (-298 : ℤ) ≤ N ^ 2 := by
    calc (2 : ℝ) ^ (-298 : ℤ) = (2 ^ (-149 : ℤ)) ^ 2 := by rw [← zpow_natCast, ← zpow_mul]; norm_num
      _ ≤ N ^ 2 := by gcongr
  have h390 : (2 : ℝ) ^ (-390 : ℤ) ≤ 2 ^ (-92 : ℤ) * N ^ 2 := by
    calc (2 : ℝ) ^ (-390 : ℤ) = 2 ^ (-92 : ℤ) * 2 ^ (-298 : ℤ) := by rw [← zpow_add₀ (by norm_num)]; norm_num
      _ ≤ _ := by gcongr
  have he2 : |s - N ^ 2| ≤ 2 ^ (-49 : ℤ) * N ^ 2 := by
    refine he.trans ?_
    have : (0 : ℝ) ≤ N ^ 2 := by positivity
    generalize (2 : ℝ) ^ (-390 : ℤ) = w at *
    norm_num at h390 ⊢
    linarith
  have hsq := sqrt_err hN.le (by positivity) (by norm_num) he2
  have hs0 : ¬ s < 0 := by
    have := (abs_le.1 he2).1
    have : (0 : ℝ) ≤ N ^ 2 := by positivity
    norm_num at *
    linarith
  have hq1 := abs_le.1 hsq
  have hsN : |Real.sqrt s| ≤ 2 * N := by
    rw [abs_of_nonneg (Real.sqrt_nonneg _)]
    have := hq1.2
    norm_num at this
    linarith
  have h127 : (2 : ℝ) * N ≤ 2 ^ 127 := by
    norm_num at hu ⊢
    linarith
  have h1000 : (2 : ℝ) ^ 127 ≤ 2 ^ 1000 := pow_le_pow_right₀ (by norm_num) (by norm_num)
  have hr := F64.rnd_gen (Real.sqrt s)
  have hθ : (2 : ℝ) ^ (-1075 : ℤ) ≤ 2 ^ (-60 : ℤ) * N := by
    calc (2 : ℝ) ^ (-1075 : ℤ) ≤ 2 ^ (-209 : ℤ) := two_zpow_le (by norm_num)
      _ = 2 ^ (-60 : ℤ) * 2 ^ (-149 : ℤ) := by rw [← zpow_add₀ (by norm_num)]; norm_num
      _ ≤ _ := by gcongr
  have hr2 : |F64.rnd (Real.sqrt s) - N| ≤ 2 ^ (-40 : ℤ) * N := by
    have q1 := abs_add_le (F64.rnd (Real.sqrt s) - Real.sqrt s) (Real.sqrt s - N)
    rw [sub_add_sub_cancel] at q1
    generalize (2 : ℝ) ^ (-1075 : ℤ) = θ at *
    norm_num at hr hsq hθ ⊢
    linarith
  have hr3 := abs_le.1 hr2
  have hr4 : |F64.rnd (Real.sqrt s)| ≤ (1 + 2 ^ (-40 : ℤ)) * N := by
    rw [abs_le]
    norm_num at hr3 ⊢
    constructor <;> linarith
  have hr5 : |F64.rnd (Real.sqrt s)| ≤ 2 ^ 127 := hr4.trans (le_trans (by norm_num; linarith) h127)
  have hf := F32.rnd_gen (F64.rnd (Real.sqrt s))
  have hn : |rnd (F64.rnd (Real.sqrt s)) - N| ≤ 2 ^ (-23 : ℤ) * N + 2 ^ (-150 : ℤ) := by
    have q1 := abs_add_le (rnd (F64.rnd (Real.sqrt s)) - F64.rnd (Real.sqrt s)) (F64.rnd (Real.sqrt s) - N)
    rw [sub_add_sub_cancel] at q1
    generalize (2 : ℝ) ^ (-150 : ℤ) = η at *
    norm_num at hf hr2 hr4 ⊢
    linarith
  refine ⟨rnd (F64.rnd (Real.sqrt s)), ?_, rnd_rep hr5, hn, ?_⟩
  · simp only [Quat.norm, Quat.ofH]
    rw [hs, F64.sqrt, if_neg hs0, F64.round_fin (hsN.trans (h127.trans h1000)), F64.toFloat, F32.round_fin hr5]
  · refine iff_of_false ?_ h0
    intro hz
    rw [hz, zero_sub, abs_neg, abs_of_pos hN] at hn
    have e : (2 : ℝ) ^ (-149 : ℤ) = 2 * 2 ^ (-150 : ℤ) := by norm_num
    rw [e] at hl
    have := eta_pos
    generalize (2 : ℝ) ^ (-150 : ℤ) = η at *
    norm_num at hn
    linarith

/-! ### Normalisation -/

/-- One component of the division by a norm that may be smaller or larger than in `scale_err`. -/
theorem scale_err' {x n N : ℝ} (hl : 2 ^ (-126 : ℤ) ≤ N) (hu : N ≤ 2 ^ 125) (hx : |x| ≤ N)
    (hn : |n - N| ≤ 2 ^ (-22 : ℤ) * N) :
    ∃ i q, div (fin 1) (fin n) = fin i ∧ mul (fin x) (fin i) = fin q ∧ i = rnd (1 / n) ∧ Rep q ∧
      |q - x / N| ≤ 2 ^ (-21 : ℤ) * (|x| / N) + 2 ^ (-150 : ℤ) := by
  have hNp : 0 < N := lt_of_lt_of_le (two_zpow_pos _) hl
  obtain ⟨n1, n2⟩ := abs_le.1 hn
  have hnp : 0 < n := by
    norm_num at n1
    linarith
  have hi : |1 / n| ≤ 2 ^ 127 := by
    rw [abs_of_pos (by positivity), div_le_iff₀ hnp]
    have : (2 : ℝ) ^ (-127 : ℤ) ≤ n := by
      have h62 : (2 : ℝ) ^ (-127 : ℤ) = 2 ^ (-126 : ℤ) / 2 := by norm_num
      norm_num at n1
      generalize (2 : ℝ) ^ (-127 : ℤ) = b3 at *
      generalize (2 : ℝ) ^ (-126 : ℤ) = b4 at *
      linarith
    calc (1 : ℝ) ≤ 2 ^ 127 * 2 ^ (-127 : ℤ) := by norm_num
      _ ≤ _ := by gcongr
  have hil : 2 ^ (-126 : ℤ) ≤ |1 / n| := by
    rw [abs_of_pos (by positivity), le_div_iff₀ hnp]
    have h2 : n ≤ 2 ^ 126 := by
      norm_num at n2 hu ⊢
      linarith
    calc (2 : ℝ) ^ (-126 : ℤ) * n ≤ 2 ^ (-126 : ℤ) * 2 ^ 126 := by gcongr
      _ ≤ 1 := by norm_num
  have hr := rnd_rel hil
  rw [abs_of_pos (by positivity : 0 < 1 / n)] at hr
  have hinv : |1 / n - 1 / N| ≤ (2 ^ (-22 : ℤ) + 2 ^ (-30 : ℤ)) * (1 / N) := by
    have : 1 / n - 1 / N = (N - n) / n * (1 / N) := by field_simp
    rw [this, abs_mul, abs_of_pos (by positivity : 0 < 1 / N)]
    refine mul_le_mul_of_nonneg_right ?_ (by positivity)
    rw [abs_div, abs_of_pos hnp, div_le_iff₀ hnp, abs_sub_comm]
    norm_num at hn n1 n2 ⊢
    linarith
  have hri : |rnd (1 / n) - 1 / N| ≤ (2 ^ (-22 : ℤ) + 2 ^ (-24 : ℤ) + 2 ^ (-29 : ℤ)) * (1 / N) := by
    have q := abs_add_le (rnd (1 / n) - 1 / n) (1 / n - 1 / N)
    rw [show rnd (1 / n) - 1 / n + (1 / n - 1 / N) = rnd (1 / n) - 1 / N by ring] at q
    have h3 := (abs_le.1 hinv).2
    have hp : 0 < 1 / N := by positivity
    generalize rnd (1 / n) - 1 / N = w at *
    generalize rnd (1 / n) - 1 / n = w' at *
    generalize 1 / n = a at *
    generalize 1 / N = b at *
    norm_num at hr hinv q h3 ⊢
    linarith
  have hxi : |x * rnd (1 / n) - x / N| ≤ (2 ^ (-22 : ℤ) + 2 ^ (-24 : ℤ) + 2 ^ (-29 : ℤ)) * (|x| / N) := by
    have : x * rnd (1 / n) - x / N = x * (rnd (1 / n) - 1 / N) := by ring
    rw [this, abs_mul]
    calc |x| * |rnd (1 / n) - 1 / N| ≤ |x| * ((2 ^ (-22 : ℤ) + 2 ^ (-24 : ℤ) + 2 ^ (-29 : ℤ)) * (1 / N)) := by gcongr
      _ = _ := by ring
  have hxN : |x / N| = |x| / N := by rw [abs_div, abs_of_pos hNp]
  have hxN1 : |x| / N ≤ 1 := by rwa [div_le_one hNp]
  have hxN0 : 0 ≤ |x| / N := by positivity
  have hm := le_of_err hxi
  rw [hxN] at hm
  have hmu : |x * rnd (1 / n)| ≤ 2 ^ 127 := by
    norm_num at hm ⊢
    linarith
  have hg := rnd_gen (x * rnd (1 / n))
  refine ⟨rnd (1 / n), rnd (x * rnd (1 / n)), ?_, mul_fin hmu, rfl, rnd_rep hmu, ?_⟩
  · rw [div, if_neg hnp.ne', round_fin hi]
  · have q := abs_add_le (rnd (x * rnd (1 / n)) - x * rnd (1 / n)) (x * rnd (1 / n) - x / N)
    rw [show rnd (x * rnd (1 / n)) - x * rnd (1 / n) + (x * rnd (1 / n) - x / N) =
      rnd (x * rnd (1 / n)) - x / N by ring] at q
    generalize (2 : ℝ) ^ (-150 : ℤ) = η at *
    generalize rnd (x * rnd (1 / n)) - x / N = w1 at *
    generalize |rnd (x * rnd (1 / n)) - x * rnd (1 / n)| = w2 at *
    generalize |x * rnd (1 / n) - x / N| = w3 at *
    generalize |x * rnd (1 / n)| = w4 at *
    generalize |x| / N = w5 at *
    norm_num at hm hg hxi ⊢
    linarith

theorem hnorm_rel {d q : ℍ[ℝ]} {N δ η : ℝ} (hδ : 0 ≤ δ) (hη : 0 ≤ η) (hN : ‖q‖ = N) (hN0 : 0 < N)
    (h1 : |d.re| ≤ δ * (|q.re| / N) + η) (h2 : |d.imI| ≤ δ * (|q.imI| / N) + η)
    (h3 : |d.imJ| ≤ δ * (|q.imJ| / N) + η) (h4 : |d.imK| ≤ δ * (|q.imK| / N) + η) : ‖d‖ ≤ δ + 2 * η := by
  -- the two parts of the bound, as quaternions
  let a : ℍ[ℝ] := ⟨δ * (|q.re| / N), δ * (|q.imI| / N), δ * (|q.imJ| / N), δ * (|q.imK| / N)⟩
  let b : ℍ[ℝ] := ⟨η, η, η, η⟩
  have ha : ‖a‖ = δ := by
    have : ‖a‖ ^ 2 = δ ^ 2 := by
      have hq := hnorm_sq q
      rw [hN] at hq
      rw [hnorm_sq]
      simp only [a]
      rw [mul_pow, mul_pow, mul_pow, mul_pow, div_pow, div_pow, div_pow, div_pow, sq_abs, sq_abs, sq_abs, sq_abs]
      rw [← mul_add, ← mul_add, ← mul_add, ← add_div, ← add_div, ← add_div, ← hq, div_self (by positivity), mul_one]
    exact (pow_left_inj₀ (norm_nonneg _) hδ two_ne_zero).1 this
  have hb : ‖b‖ ≤ 2 * η := by
    refine hnorm_le ?_ ?_ ?_ ?_ <;> simp [b, abs_of_nonneg hη]
  have hd : ‖d‖ ≤ ‖a + b‖ := by
    refine sq_le_of (norm_nonneg _) ?_
    rw [hnorm_sq, hnorm_sq]
    have k : ∀ {x y : ℝ}, |x| ≤ y → x ^ 2 ≤ y ^ 2 := fun h => by rw [← sq_abs]; gcongr
    have k1 : d.re ^ 2 ≤ (a + b).re ^ 2 := k h1
    have k2 : d.imI ^ 2 ≤ (a + b).imI ^ 2 := k h2
    have k3 : d.imJ ^ 2 ≤ (a + b).imJ ^ 2 := k h3
    have k4 : d.imK ^ 2 ≤ (a + b).imK ^ 2 := k h4
    linarith
  have := norm_add_le a b
  linarith

/-- Normalising gives the unit quaternion of the same direction. -/
theorem C83_normalize (q : ℍ[ℝ]) (hq : RepH q) (hl : 2 ^ (-126 : ℤ) ≤ ‖q‖) (hu : ‖q‖ ≤ 2 ^ 125) :
    ∃ r, Quat.normalize (Quat.ofH q) = .ok (Quat.ofH r) ∧ RepH r ∧ ‖r - (1 / ‖q‖) • q‖ ≤ 2 ^ (-20 : ℤ) := by
  have hN : 0 < ‖q‖ := lt_of_lt_of_le (two_zpow_pos _) hl
  obtain ⟨n, hn, -, he, hz⟩ := C83_norm q hq (hu.trans (by norm_num))
  have h0 : q ≠ 0 := norm_pos_iff.1 hN
  have hn0 : ¬ eq (fin n) (fin 0) := fun hc => h0 (hz.1 hc)
  have he2 : |n - ‖q‖| ≤ 2 ^ (-22 : ℤ) * ‖q‖ := by
    have : (2 : ℝ) ^ (-150 : ℤ) ≤ 2 ^ (-24 : ℤ) * ‖q‖ := by
      calc (2 : ℝ) ^ (-150 : ℤ) = 2 ^ (-24 : ℤ) * 2 ^ (-126 : ℤ) := by rw [← zpow_add₀ (by norm_num)]; norm_num
        _ ≤ _ := by gcongr
    generalize (2 : ℝ) ^ (-150 : ℤ) = η at *
    norm_num at this he ⊢
    linarith
  obtain ⟨k1, k2, k3, k4⟩ := abs_le_hnorm q
  obtain ⟨i1, a, d1, m1, j1, r1, e1⟩ := scale_err' hl hu k1 he2
  obtain ⟨i2, b, d2, m2, j2, r2, e2⟩ := scale_err' hl hu k2 he2
  obtain ⟨i3, c, d3, m3, j3, r3, e3⟩ := scale_err' hl hu k3 he2
  obtain ⟨i4, d, d4, m4, j4, r4, e4⟩ := scale_err' hl hu k4 he2
  subst j1 j2 j3 j4
  refine ⟨⟨a, b, c, d⟩, ?_, ⟨r1, r2, r3, r4⟩, ?_⟩
  · rw [Quat.normalize, hn, if_neg hn0, Quat.div, if_neg hn0, Quat.smul, d1]
    simp only [Quat.ofH]
    rw [m1, m2, m3, m4]
  · refine (hnorm_rel (N := ‖q‖) (q := q) (δ := 2 ^ (-21 : ℤ)) (η := 2 ^ (-150 : ℤ)) (by positivity) (by positivity) rfl hN
      ?_ ?_ ?_ ?_).trans ?_
    · rw [div_eq_inv_mul, ← one_div] at e1
      exact e1
    · rw [div_eq_inv_mul, ← one_div] at e2
      exact e2
    · rw [div_eq_inv_mul, ← one_div] at e3
      exact e3
    · rw [div_eq_inv_mul, ← one_div] at e4
      exact e4
    · have : (2 : ℝ) * 2 ^ (-150 : ℤ) ≤ 2 ^ (-21 : ℤ) := by norm_num
      generalize (2 : ℝ) ^ (-150 : ℤ) = η at *
      norm_num at this ⊢
      linarith

/-- Of finite quaternions only the zero quaternion is rejected. -/
theorem C83_throws (q : ℍ[ℝ]) (hq : RepH q) (hu : ‖q‖ ≤ 2 ^ 126) :
    Quat.normalize (Quat.ofH q) = .throws ↔ q = 0 := by
  obtain ⟨n, hn, -, -, hz⟩ := C83_norm q hq hu
  rw [Quat.normalize, hn, ← hz]
  by_cases h : n = 0
  · rw [if_pos (show eq (fin n) (fin 0) from h)]
    exact iff_of_true rfl h
  · have h' : ¬ eq (fin n) (fin 0) := h
    rw [if_neg h', Quat.div, if_neg h']
    exact iff_of_false (by simp) h

/-- A tiny quaternion is accepted and gives an infinity and NaN: the inverse of its norm overflows. -/
theorem C83_tiny (w : ℝ) (hw : Rep w) (h0 : 0 < w) (h1 : w ≤ 2 ^ (-129 : ℤ)) :
    Quat.normalize (Quat.ofH (quat w 0 0 0)) = .ok ⟨pinf, nan, nan, nan⟩ := by
  have hn : ‖quat w 0 0 0‖ = w := by
    refine (pow_left_inj₀ (norm_nonneg _) h0.le two_ne_zero).1 ?_
    rw [hnorm_sq]
    simp
  obtain ⟨n, e, -, he, hz⟩ := C83_norm (quat w 0 0 0) ⟨hw, Rep.zero, Rep.zero, Rep.zero⟩
    (by rw [hn]; exact h1.trans (by norm_num))
  have hq0 : quat w 0 0 0 ≠ 0 := by
    intro hc
    have := congrArg (fun q : ℍ[ℝ] => q.re) hc
    simp at this
    exact h0.ne' this
  have hn0 : n ≠ 0 := fun hc => hq0 (hz.1 hc)
  rw [hn] at he
  have hle : |n| ≤ 2 ^ (-128 : ℤ) := by
    have h2 := le_of_err he
    rw [abs_of_pos h0] at h2
    have h3 : (2 : ℝ) ^ (-128 : ℤ) = 2 * 2 ^ (-129 : ℤ) := by norm_num
    have h4 : (2 : ℝ) ^ (-150 : ℤ) ≤ 1 / 4 * 2 ^ (-129 : ℤ) := by norm_num
    rw [h3]
    generalize (2 : ℝ) ^ (-150 : ℤ) = η at *
    generalize (2 : ℝ) ^ (-129 : ℤ) = μ at *
    norm_num at h2
    linarith
  have hnp : 0 < n := by
    have h2 := (abs_le.1 he).1
    have h3 := hw.least h0.ne'
    rw [abs_of_pos h0] at h3
    have e : (2 : ℝ) ^ (-149 : ℤ) = 2 * 2 ^ (-150 : ℤ) := by norm_num
    rw [e] at h3
    have := eta_pos
    generalize (2 : ℝ) ^ (-150 : ℤ) = η at *
    norm_num at h2
    linarith
  have hne : ¬ eq (fin n) (fin 0) := hn0
  have hd : div (fin 1) (fin n) = pinf := by
    rw [div, if_neg hn0]
    refine round_pinf ?_
    rw [le_div_iff₀ hnp]
    rw [abs_of_pos hnp] at hle
    calc (2 : ℝ) ^ 128 * n ≤ 2 ^ 128 * 2 ^ (-128 : ℤ) := by gcongr
      _ = 1 := by norm_num
  rw [Quat.normalize, e, if_neg hne, Quat.div, if_neg hne, Quat.smul, hd]
  simp [Quat.ofH, mul, infOf, h0]

/-! ### Products -/

/-- A sum of four products. -/
theorem sum4_fin {a b c d x y z t : ℝ} (h : |a| * |x| + |b| * |y| + |c| * |z| + |d| * |t| ≤ 2 ^ 124) :
    ∃ r, add (dot (fin a) (fin b) (fin c) (fin x) (fin y) (fin z)) (mul (fin d) (fin t)) = fin r ∧ Rep r ∧
      |r - (a * x + b * y + c * z + d * t)| ≤
        2 ^ (-21 : ℤ) * (|a| * |x| + |b| * |y| + |c| * |z| + |d| * |t|) + 2 ^ (-147 : ℤ) := by
  have n1 : 0 ≤ |a| * |x| + |b| * |y| + |c| * |z| := by positivity
  have n2 : 0 ≤ |d| * |t| := by positivity
  have h124 : (2 : ℝ) ^ 124 ≤ 2 ^ 125 := by norm_num
  obtain ⟨s, hs, hr, he⟩ := dot_fin (a := a) (b := b) (c := c) (x := x) (y := y) (z := z) (by linarith)
  have p4 := rnd_mul d t
  have bs := le_of_err he
  have b2 : |a * x + b * y + c * z| ≤ |a| * |x| + |b| * |y| + |c| * |z| := by
    rw [← abs_mul, ← abs_mul, ← abs_mul]
    exact (abs_add_le _ _).trans (add_le_add (abs_add_le _ _) le_rfl)
  have b4 : |rnd (d * t)| ≤ |d| * |t| + (2 ^ (-24 : ℤ) * (|d| * |t|) + 2 ^ (-150 : ℤ)) := by
    rw [← abs_mul d t] at p4 ⊢
    exact le_of_err p4
  have m4 : |d * t| = |d| * |t| := abs_mul _ _
  have g := rnd_add hr.grid (rnd_grid (d * t))
  have bg := abs_add_le s (rnd (d * t))
  have e148 : (2 : ℝ) ^ (-148 : ℤ) = 4 * 2 ^ (-150 : ℤ) := four_eta
  have e147 : (2 : ℝ) ^ (-147 : ℤ) = 8 * 2 ^ (-150 : ℤ) := by norm_num
  have h22 : (2 : ℝ) ^ (-22 : ℤ) = 1 / 4194304 := by norm_num
  have h21 : (2 : ℝ) ^ (-21 : ℤ) = 1 / 2097152 := by norm_num
  have he0 := eta_pos
  have he1 := eta_le
  have big : (2 : ℝ) ^ 124 * 3 + 16 ≤ 2 ^ 127 := by norm_num
  rw [hs, e147, h21]
  rw [two_neg24] at *
  rw [e148, h22] at he bs
  generalize (2 : ℝ) ^ (-150 : ℤ) = η at *
  generalize |a| * |x| + |b| * |y| + |c| * |z| = S at *
  have hsum : |s + rnd (d * t)| ≤ 2 ^ 127 := by
    generalize (2 : ℝ) ^ 124 = M at *
    generalize (2 : ℝ) ^ 127 = M' at *
    linarith
  refine ⟨rnd (s + rnd (d * t)), ?_, rnd_rep hsum, ?_⟩
  · rw [mul_fin, add_fin hsum]
    rw [m4]
    generalize (2 : ℝ) ^ 124 = M at *
    generalize (2 : ℝ) ^ 127 = M' at *
    linarith
  · have e : rnd (s + rnd (d * t)) - (a * x + b * y + c * z + d * t) =
        (rnd (s + rnd (d * t)) - (s + rnd (d * t))) + (s - (a * x + b * y + c * z)) + (rnd (d * t) - d * t) := by ring
    rw [e]
    have q1 := abs_add_le ((rnd (s + rnd (d * t)) - (s + rnd (d * t))) + (s - (a * x + b * y + c * z))) (rnd (d * t) - d * t)
    have q2 := abs_add_le (rnd (s + rnd (d * t)) - (s + rnd (d * t))) (s - (a * x + b * y + c * z))
    linarith

theorem neg_mul_fin (a x : ℝ) : neg (mul (fin a) (fin x)) = mul (fin (-a)) (fin x) := by
  rw [mul, mul, neg_mul, rnd_round_neg]

/-- Cauchy-Schwarz for the terms of one component of a product. -/
theorem terms4_le {a b c d x y z t P Q : ℝ} (hP : 0 ≤ P) (hQ : 0 ≤ Q) (h1 : a ^ 2 + b ^ 2 + c ^ 2 + d ^ 2 = P ^ 2)
    (h2 : x ^ 2 + y ^ 2 + z ^ 2 + t ^ 2 = Q ^ 2) : |a| * |x| + |b| * |y| + |c| * |z| + |d| * |t| ≤ P * Q := by
  refine sq_le_of (mul_nonneg hP hQ) ?_
  rw [mul_pow, ← h1, ← h2, ← sq_abs a, ← sq_abs b, ← sq_abs c, ← sq_abs d, ← sq_abs x, ← sq_abs y, ← sq_abs z, ← sq_abs t]
  generalize |a| = a
  generalize |b| = b
  generalize |c| = c
  generalize |d| = d
  generalize |x| = x
  generalize |y| = y
  generalize |z| = z
  generalize |t| = t
  linarith only [sq_nonneg (a * y - b * x), sq_nonneg (a * z - c * x), sq_nonneg (a * t - d * x),
    sq_nonneg (b * z - c * y), sq_nonneg (b * t - d * y), sq_nonneg (c * t - d * z),
    show (a ^ 2 + b ^ 2 + c ^ 2 + d ^ 2) * (x ^ 2 + y ^ 2 + z ^ 2 + t ^ 2) = (a * x + b * y + c * z + d * t) ^ 2 +
      (a * y - b * x) ^ 2 + (a * z - c * x) ^ 2 + (a * t - d * x) ^ 2 + (b * z - c * y) ^ 2 + (b * t - d * y) ^ 2 +
      (c * t - d * z) ^ 2 by ring]

/-- The product of two quaternions: what is computed, with the error. -/
theorem C83_mul (p q : ℍ[ℝ]) (h : ‖p‖ * ‖q‖ ≤ 2 ^ 124) :
    ∃ r, Quat.mul (Quat.ofH p) (Quat.ofH q) = Quat.ofH r ∧ RepH r ∧
      ‖r - p * q‖ ≤ 2 ^ (-20 : ℤ) * (‖p‖ * ‖q‖) + 2 ^ (-146 : ℤ) := by
  have hp := hnorm_sq p
  have hq := hnorm_sq q
  have hp0 := norm_nonneg p
  have hq0 := norm_nonneg q
  have t1 := terms4_le (a := p.re) (b := -p.imI) (c := -p.imJ) (d := -p.imK) (x := q.re) (y := q.imI) (z := q.imJ)
    (t := q.imK) hp0 hq0 (by rw [hp]; ring) (by rw [hq])
  have t2 := terms4_le (a := p.re) (b := p.imI) (c := p.imJ) (d := -p.imK) (x := q.imI) (y := q.re) (z := q.imK)
    (t := q.imJ) hp0 hq0 (by rw [hp]; ring) (by rw [hq]; ring)
  have t3 := terms4_le (a := p.re) (b := p.imJ) (c := p.imK) (d := -p.imI) (x := q.imJ) (y := q.re) (z := q.imI)
    (t := q.imK) hp0 hq0 (by rw [hp]; ring) (by rw [hq]; ring)
  have t4 := terms4_le (a := p.re) (b := p.imK) (c := p.imI) (d := -p.imJ) (x := q.imK) (y := q.re) (z := q.imJ)
    (t := q.imI) hp0 hq0 (by rw [hp]; ring) (by rw [hq]; ring)
  rw [mul_comm |p.imI|] at t2
  rw [mul_comm |p.imJ|] at t3
  rw [mul_comm |p.imK|] at t4
  obtain ⟨r1, e1, k1, f1⟩ := sum4_fin (t1.trans h)
  obtain ⟨r2, e2, k2, f2⟩ := sum4_fin (t2.trans h)
  obtain ⟨r3, e3, k3, f3⟩ := sum4_fin (t3.trans h)
  obtain ⟨r4, e4, k4, f4⟩ := sum4_fin (t4.trans h)
  refine ⟨quat r1 r2 r3 r4, ?_, ⟨k1, k2, k3, k4⟩, ?_⟩
  · simp only [Quat.mul, Quat.ofH, sub, neg_mul_fin, quat_re, quat_imI, quat_imJ, quat_imK]
    rw [dot] at e1 e2 e3 e4
    rw [e1, e2, e3, e4]
  · have m : ∀ {S : ℝ}, S ≤ ‖p‖ * ‖q‖ → 2 ^ (-21 : ℤ) * S + 2 ^ (-147 : ℤ) ≤ 2 ^ (-21 : ℤ) * (‖p‖ * ‖q‖) + 2 ^ (-147 : ℤ) :=
      fun h => by gcongr
    have hm : 2 ^ (-20 : ℤ) * (‖p‖ * ‖q‖) + 2 ^ (-146 : ℤ) = 2 * (2 ^ (-21 : ℤ) * (‖p‖ * ‖q‖) + 2 ^ (-147 : ℤ)) := by
      rw [show (-20 : ℤ) = 1 + -21 by norm_num, show (-146 : ℤ) = 1 + -147 by norm_num, zpow_add₀ (by norm_num),
        zpow_add₀ (by norm_num)]
      ring
    rw [hm]
    refine hnorm_le ?_ ?_ ?_ ?_
    · refine le_trans (le_of_eq ?_) (f1.trans (m t1))
      congr 1
      simp
      ring
    · refine le_trans (le_of_eq ?_) (f2.trans (m t2))
      congr 1
      simp
      ring
    · refine le_trans (le_of_eq ?_) (f3.trans (m t3))
      congr 1
      simp
      ring
    · refine le_trans (le_of_eq ?_) (f4.trans (m t4))
      congr 1
      simp
      ring

/-- Errors of factors near unit quaternions add up. -/
theorem quat_mul_near {a b p q : ℍ[ℝ]} {e f : ℝ} (hp : ‖p‖ = 1) (hq : ‖q‖ = 1) (ha : ‖a - p‖ ≤ e) (hb : ‖b - q‖ ≤ f)
    (he : e ≤ 2 / 5) (hf : f ≤ 2 / 5) :
    ∃ c, Quat.mul (Quat.ofH a) (Quat.ofH b) = Quat.ofH c ∧ RepH c ∧ ‖c - p * q‖ ≤ e + f + e * f + 2 ^ (-19 : ℤ) := by
  have ha1 : ‖a‖ ≤ 7 / 5 := by
    have := norm_add_le (a - p) p
    rw [sub_add_cancel] at this
    linarith
  have hb1 : ‖b‖ ≤ 7 / 5 := by
    have := norm_add_le (b - q) q
    rw [sub_add_cancel] at this
    linarith
  have hab : ‖a‖ * ‖b‖ ≤ 49 / 25 := by
    calc ‖a‖ * ‖b‖ ≤ 7 / 5 * (7 / 5) := mul_le_mul ha1 hb1 (norm_nonneg _) (by norm_num)
      _ = 49 / 25 := by norm_num
  obtain ⟨c, hc, hr, hE⟩ := C83_mul a b (hab.trans (by norm_num))
  refine ⟨c, hc, hr, ?_⟩
  have h1 : c - p * q = (c - a * b) + ((a - p) * (b - q) + ((a - p) * q + p * (b - q))) := by noncomm_ring
  rw [h1]
  have h2 := norm_add_le (c - a * b) ((a - p) * (b - q) + ((a - p) * q + p * (b - q)))
  have h3 := norm_add_le ((a - p) * (b - q)) ((a - p) * q + p * (b - q))
  have h4 := norm_add_le ((a - p) * q) (p * (b - q))
  rw [norm_mul, norm_mul, hp, hq, mul_one, one_mul] at h4
  rw [norm_mul] at h3
  have h6 : ‖a - p‖ * ‖b - q‖ ≤ e * f := mul_le_mul ha hb (norm_nonneg _) ((norm_nonneg _).trans ha)
  have h8 : (2 : ℝ) ^ (-146 : ℤ) ≤ 2 ^ (-30 : ℤ) := two_zpow_le (by norm_num)
  generalize (2 : ℝ) ^ (-146 : ℤ) = w at *
  norm_num at h8 hE ⊢
  linarith

theorem product_unit {α : Type} {Q : α → ℍ[ℝ]} {t : Product α} (h : t.All fun a => ‖Q a‖ = 1) :
    ‖t.eval Q (· * ·)‖ = 1 := by
  induction t with
  | factor a => exact h
  | times l r ihl ihr =>
    simp only [Product.eval]
    rw [norm_mul, ihl h.1, ihr h.2, mul_one]

/-- A product of `N` unit quaternions, bracketed in any way, each of whose factors is known up to `κ`: the computed
product is made of finite numbers, and is near the exact product. -/
theorem C83_product {α : Type} (R : α → Quat) (Q : α → ℍ[ℝ]) (κ : ℝ) (hκ : 2 ^ (-19 : ℤ) ≤ κ) (t : Product α)
    (h : t.All fun a => ‖Q a‖ = 1 ∧ ∃ q, R a = Quat.ofH q ∧ ‖q - Q a‖ ≤ κ)
    (hN : (1 + κ) ^ (2 * t.size - 1) ≤ 7 / 5) :
    ∃ q, t.eval R Quat.mul = Quat.ofH q ∧ ‖q - t.eval Q (· * ·)‖ ≤ (1 + κ) ^ (2 * t.size - 1) - 1 := by
  have hκ0 : 0 < κ := lt_of_lt_of_le (two_zpow_pos _) hκ
  induction t with
  | factor a =>
    obtain ⟨-, A, h1, h2⟩ := h
    refine ⟨A, h1, ?_⟩
    simp only [Product.size, Product.eval]
    norm_num
    exact h2
  | times l r ihl ihr =>
    have sl := l.size_pos
    have sr := r.size_pos
    have e1 : 2 * (Product.times l r).size - 1 = (2 * l.size - 1) + (2 * r.size - 1) + 1 := by
      simp only [Product.size]
      omega
    have one : ∀ n : ℕ, 1 ≤ (1 + κ) ^ n := fun n => one_le_pow₀ (by linarith)
    have ol := one (2 * l.size - 1)
    have or' := one (2 * r.size - 1)
    have hl2 : (1 + κ) ^ (2 * l.size - 1) ≤ 7 / 5 :=
      (pow_le_pow_right₀ (by linarith) (by simp only [Product.size]; omega)).trans hN
    have hr2 : (1 + κ) ^ (2 * r.size - 1) ≤ 7 / 5 :=
      (pow_le_pow_right₀ (by linarith) (by simp only [Product.size]; omega)).trans hN
    rw [e1, pow_add, pow_add, pow_one] at hN ⊢
    obtain ⟨A, hA, eA⟩ := ihl h.1 hl2
    obtain ⟨B, hB, eB⟩ := ihr h.2 hr2
    obtain ⟨C, hC, -, eC⟩ := quat_mul_near (product_unit (Product.All.imp (fun _ h => h.1) h.1))
      (product_unit (Product.All.imp (fun _ h => h.1) h.2)) eA eB (by linarith) (by linarith)
    refine ⟨C, by simp only [Product.eval]; rw [hA, hB, hC], ?_⟩
    simp only [Product.eval]
    refine eC.trans ?_
    generalize (1 + κ) ^ (2 * l.size - 1) = x at *
    generalize (1 + κ) ^ (2 * r.size - 1) = y at *
    generalize (2 : ℝ) ^ (-19 : ℤ) = w at *
    have : 1 ≤ x * y := by nlinarith
    nlinarith

/-- The same with a bound that is linear in the number of factors. -/
theorem C83_linear {α : Type} (R : α → Quat) (Q : α → ℍ[ℝ]) (κ : ℝ) (hκ : 2 ^ (-19 : ℤ) ≤ κ) (t : Product α)
    (h : t.All fun a => ‖Q a‖ = 1 ∧ ∃ q, R a = Quat.ofH q ∧ ‖q - Q a‖ ≤ κ) (hN : 10 * t.size * κ ≤ 1) :
    ∃ q, t.eval R Quat.mul = Quat.ofH q ∧ ‖q - t.eval Q (· * ·)‖ ≤ 4 * t.size * κ := by
  have hκ0 : 0 < κ := lt_of_lt_of_le (two_zpow_pos _) hκ
  have hs : ((2 * t.size - 1 : ℕ) : ℝ) ≤ 2 * t.size := by exact_mod_cast Nat.sub_le _ _
  have h1 : ((2 * t.size - 1 : ℕ) : ℝ) * κ ≤ 2 * t.size * κ := mul_le_mul_of_nonneg_right hs hκ0.le
  have h2 := pow_le_linear hκ0.le (m := 2 * t.size - 1) (by linarith)
  obtain ⟨q, hq, eq⟩ := C83_product R Q κ hκ t h (by linarith)
  exact ⟨q, hq, eq.trans (by linarith)⟩

/-! ### Conversion to a rotation -/

/-- The matrix of `v ↦ q v q*`, whose columns are the images of the unit vectors. Not in /repo: specification. -/
noncomputable def quatMat (q : ℍ[ℝ]) : Mat3 :=
  let c1 := q * quat 0 1 0 0 * star q
  let c2 := q * quat 0 0 1 0 * star q
  let c3 := q * quat 0 0 0 1 * star q
  !![c1.imI, c2.imI, c3.imI; c1.imJ, c2.imJ, c3.imJ; c1.imK, c2.imK, c3.imK]

/-- Helper of the proofs. Not in /repo: specification. -/
def polyMat (w x y z : ℝ) : Mat3 :=
  !![1 - 2 * (y ^ 2 + z ^ 2), 2 * (x * y - z * w), 2 * (x * z + y * w);
    2 * (x * y + z * w), 1 - 2 * (x ^ 2 + z ^ 2), 2 * (y * z - x * w);
    2 * (x * z - y * w), 2 * (y * z + x * w), 1 - 2 * (x ^ 2 + y ^ 2)]

theorem quatMat_eq {q : ℍ[ℝ]} (h : ‖q‖ = 1) : quatMat q = polyMat q.re q.imI q.imJ q.imK := by
  have h1 := hnorm_sq q
  rw [h, one_pow] at h1
  ext i j
  fin_cases i <;> fin_cases j <;> simp [quatMat, polyMat] <;> linarith

theorem polyMat_rot {w x y z : ℝ} (h : w ^ 2 + x ^ 2 + y ^ 2 + z ^ 2 = 1) : IsRot (polyMat w x y z) := by
  have hw : w ^ 2 = 1 - x ^ 2 - y ^ 2 - z ^ 2 := by linarith
  constructor
  · ext i j
    fin_cases i <;> fin_cases j <;> simp [polyMat, Matrix.mul_apply, Fin.sum_univ_three] <;> ring_nf <;>
      rw [hw] <;> ring
  · rw [polyMat, Matrix.det_fin_three]
    simp
    ring_nf
    rw [hw]
    ring

/-- One operation in double precision on numbers of moderate size. -/
theorem round_double {x : ℝ} (h : |x| ≤ 16) : ∃ r, F64.round x = fin r ∧ |r - x| ≤ 2 ^ (-48 : ℤ) := by
  have h1 : (16 : ℝ) ≤ 2 ^ 1000 := by
    calc (16 : ℝ) = 2 ^ 4 := by norm_num
      _ ≤ 2 ^ 1000 := pow_le_pow_right₀ (by norm_num) (by norm_num)
  refine ⟨F64.rnd x, F64.round_fin (h.trans h1), (F64.rnd_gen x).trans ?_⟩
  have h2 : (2 : ℝ) ^ (-1075 : ℤ) ≤ 2 ^ (-60 : ℤ) := two_zpow_le (by norm_num)
  generalize (2 : ℝ) ^ (-1075 : ℤ) = θ at *
  norm_num at h2 ⊢
  linarith

theorem diagonal_fin {a b : ℝ} (h : a ^ 2 + b ^ 2 ≤ 2) :
    ∃ r, Quat.diagonal (fin a) (fin b) = fin r ∧ Rep r ∧ |r - (1 - 2 * (a ^ 2 + b ^ 2))| ≤ 2 ^ (-21 : ℤ) := by
  have na := sq_nonneg a
  have nb := sq_nonneg b
  have h48 : (2 : ℝ) ^ (-48 : ℤ) = 1 / 281474976710656 := by norm_num
  have h21 : (2 : ℝ) ^ (-21 : ℤ) = 1 / 2097152 := by norm_num
  have key := @round_double
  rw [h48] at key
  obtain ⟨p, e1, h1⟩ := @key (a * a) (by rw [abs_mul_self]; nlinarith)
  obtain ⟨q, e2, h2⟩ := @key (b * b) (by rw [abs_mul_self]; nlinarith)
  rw [← sq] at h1 h2
  rw [h21]
  generalize a ^ 2 = A at *
  generalize b ^ 2 = B at *
  obtain ⟨h1, h1'⟩ := abs_le.1 h1
  obtain ⟨h2, h2'⟩ := abs_le.1 h2
  obtain ⟨s, e3, h3⟩ := @key (p + q) (by rw [abs_le]; constructor <;> linarith)
  obtain ⟨h3, h3'⟩ := abs_le.1 h3
  obtain ⟨t, e4, h4⟩ := @key (2 * s) (by rw [abs_le]; constructor <;> linarith)
  obtain ⟨h4, h4'⟩ := abs_le.1 h4
  obtain ⟨u, e5, h5⟩ := @key (1 + -t) (by rw [abs_le]; constructor <;> linarith)
  obtain ⟨h5, h5'⟩ := abs_le.1 h5
  have hu : |u| ≤ 4 := by rw [abs_le]; constructor <;> linarith
  have h127 : (4 : ℝ) ≤ 2 ^ 127 := by norm_num
  have hr : |u| ≤ 2 ^ 127 := hu.trans h127
  refine ⟨rnd u, ?_, rnd_rep hr, ?_⟩
  · simp only [Quat.diagonal, F64.sq, F64.mul, e1, e2, F64.add, e3, e4, F64.sub, neg, e5, F64.toFloat, round_fin hr]
  · have g := rnd_gen u
    have w : (2 : ℝ) ^ (-150 : ℤ) ≤ 2 ^ (-40 : ℤ) := two_zpow_le (by norm_num)
    generalize (2 : ℝ) ^ (-150 : ℤ) = η at *
    clear h127 hr h48 h21 key
    norm_num at w g
    obtain ⟨g, g'⟩ := abs_le.1 g
    rw [abs_le]
    constructor <;> linarith

theorem cross_fin {a b c d : ℝ} (h : |a| * |b| + |c| * |d| ≤ 1) :
    ∃ r, mul (fin 2) (add (mul (fin a) (fin b)) (mul (fin c) (fin d))) = fin r ∧ Rep r ∧
      |r - 2 * (a * b + c * d)| ≤ 2 ^ (-21 : ℤ) := by
  have m1 := rnd_mul a b
  have m2 := rnd_mul c d
  have n1 : 0 ≤ |a| * |b| := by positivity
  have n2 : 0 ≤ |c| * |d| := by positivity
  have w : (2 : ℝ) ^ (-150 : ℤ) ≤ 2 ^ (-40 : ℤ) := two_zpow_le (by norm_num)
  have h1 : |a * b| ≤ 1 := by rw [abs_mul]; linarith
  have h2 : |c * d| ≤ 1 := by rw [abs_mul]; linarith
  have big : (4 : ℝ) ≤ 2 ^ 127 := by norm_num
  have f1 := mul_fin (x := a) (y := b) (h1.trans (by linarith))
  have f2 := mul_fin (x := c) (y := d) (h2.trans (by linarith))
  have s1 : |a * b + c * d| ≤ 1 := by
    refine (abs_add_le _ _).trans ?_
    rw [abs_mul, abs_mul]
    exact h
  have g := rnd_gen (rnd (a * b) + rnd (c * d))
  have g2 := rnd_gen (2 * rnd (rnd (a * b) + rnd (c * d)))
  have h21 : (2 : ℝ) ^ (-21 : ℤ) = 1 / 2097152 := by norm_num
  rw [f1, f2, h21]
  rw [two_neg24] at *
  generalize (2 : ℝ) ^ (-150 : ℤ) = η at *
  norm_num at w
  clear f1 f2 h21
  have t1 : |rnd (a * b) + rnd (c * d) - (a * b + c * d)| ≤ 1 / 16000000 := by
    rw [show rnd (a * b) + rnd (c * d) - (a * b + c * d) = (rnd (a * b) - a * b) + (rnd (c * d) - c * d) by ring]
    refine (abs_add_le _ _).trans ?_
    linarith
  have t2 := le_of_err t1
  have t3 := le_of_err (g.trans (show _ ≤ (1 : ℝ) / 16000000 by linarith))
  have t4 : |2 * rnd (rnd (a * b) + rnd (c * d))| ≤ 2 + 6 / 16000000 := by
    rw [abs_mul, abs_of_pos (by norm_num : (0 : ℝ) < 2)]
    linarith
  have r1 : |rnd (a * b) + rnd (c * d)| ≤ 2 ^ 127 := by
    generalize (2 : ℝ) ^ 127 = B at *
    linarith
  have r2 : |2 * rnd (rnd (a * b) + rnd (c * d))| ≤ 2 ^ 127 := by
    generalize (2 : ℝ) ^ 127 = B at *
    linarith
  rw [add_fin r1, mul_fin r2]
  refine ⟨_, rfl, rnd_rep r2, ?_⟩
  clear r1 r2 big
  obtain ⟨l1, l1'⟩ := abs_le.1 t1
  obtain ⟨l2, l2'⟩ := abs_le.1 (g.trans (show _ ≤ (1 : ℝ) / 16000000 by linarith))
  obtain ⟨l3, l3'⟩ := abs_le.1 (g2.trans (show _ ≤ (2.5 : ℝ) / 16000000 by linarith))
  rw [abs_le]
  constructor <;> linarith

theorem fro_le_of {A : Mat3} {c : ℝ} (h : ∀ i j, |A i j| ≤ c) : fro A ≤ 3 * c := by
  have hc : 0 ≤ c := (abs_nonneg _).trans (h 0 0)
  rw [← fro_const c hc]
  exact fro_mono fun i j => by rw [Matrix.of_apply, abs_of_nonneg hc]; exact h i j

theorem pair_le (a b c d : ℝ) : |a| * |b| + |c| * |d| ≤ (a ^ 2 + b ^ 2 + c ^ 2 + d ^ 2) / 2 := by
  rw [← sq_abs a, ← sq_abs b, ← sq_abs c, ← sq_abs d]
  linarith [sq_nonneg (|a| - |b|), sq_nonneg (|c| - |d|)]

/-- What is computed for a quaternion of length at most `7/5`. -/
theorem toRotation_fin {q : ℍ[ℝ]} (h : ‖q‖ ≤ 7 / 5) :
    ∃ A, Quat.toRotation (Quat.ofH q) = Rotation.ofMat A ∧ (∀ i j, Rep (A i j)) ∧
      fro (A - polyMat q.re q.imI q.imJ q.imK) ≤ 2 ^ (-19 : ℤ) := by
  have hq := hnorm_sq q
  have hs : q.re ^ 2 + q.imI ^ 2 + q.imJ ^ 2 + q.imK ^ 2 ≤ 49 / 25 := by
    rw [← hq]
    nlinarith [norm_nonneg q]
  simp only [Quat.toRotation, Quat.ofH, sub, neg_mul_fin]
  generalize q.re = w at *
  generalize q.imI = x at *
  generalize q.imJ = y at *
  generalize q.imK = z at *
  have n1 := sq_nonneg w
  have n2 := sq_nonneg x
  have n3 := sq_nonneg y
  have n4 := sq_nonneg z
  have k := fun a b c d (e : a ^ 2 + b ^ 2 + c ^ 2 + d ^ 2 ≤ 49 / 25) =>
    cross_fin ((pair_le a b c d).trans (show _ ≤ (1 : ℝ) by linarith))
  obtain ⟨a11, e11, p11, f11⟩ := diagonal_fin (a := y) (b := z) (by linarith)
  obtain ⟨a22, e22, p22, f22⟩ := diagonal_fin (a := x) (b := z) (by linarith)
  obtain ⟨a33, e33, p33, f33⟩ := diagonal_fin (a := x) (b := y) (by linarith)
  obtain ⟨a12, e12, p12, f12⟩ := k x y (-z) w (by rw [neg_sq]; linarith)
  obtain ⟨a13, e13, p13, f13⟩ := k x z y w (by linarith)
  obtain ⟨a21, e21, p21, f21⟩ := k x y z w (by linarith)
  obtain ⟨a23, e23, p23, f23⟩ := k y z (-x) w (by rw [neg_sq]; linarith)
  obtain ⟨a31, e31, p31, f31⟩ := k x z (-y) w (by rw [neg_sq]; linarith)
  obtain ⟨a32, e32, p32, f32⟩ := k y z x w (by linarith)
  rw [neg_mul, ← sub_eq_add_neg] at f12 f23 f31
  refine ⟨!![a11, a12, a13; a21, a22, a23; a31, a32, a33], ?_, ?_, ?_⟩
  · rw [e11, e12, e13, e21, e22, e23, e31, e32, e33]
    rfl
  · intro i j
    fin_cases i <;> fin_cases j <;> assumption
  · have hm : (2 : ℝ) ^ (-19 : ℤ) = 4 * 2 ^ (-21 : ℤ) := by norm_num
    have h0 := two_zpow_pos (-21)
    refine (fro_le_of (c := 2 ^ (-21 : ℤ)) ?_).trans (by linarith)
    intro i j
    fin_cases i <;> fin_cases j <;> assumption

/-- The polynomials are Lipschitz near unit quaternions. -/
theorem polyMat_near {a p : ℍ[ℝ]} {e : ℝ} (hp : ‖p‖ = 1) (ha : ‖a - p‖ ≤ e) :
    fro (polyMat a.re a.imI a.imJ a.imK - polyMat p.re p.imI p.imJ p.imK) ≤ 12 * e + 6 * e ^ 2 := by
  have he : 0 ≤ e := (norm_nonneg _).trans ha
  have hp2 := hnorm_sq p
  have hd := hnorm_sq (a - p)
  rw [hp] at hp2
  simp only [re_sub, imI_sub, imJ_sub, imK_sub] at hd
  have hde : ‖a - p‖ ^ 2 ≤ e ^ 2 := by gcongr
  rw [hd] at hde
  clear hd
  obtain ⟨w, hw⟩ : ∃ w, w = a.re - p.re := ⟨_, rfl⟩
  obtain ⟨x, hx⟩ : ∃ x, x = a.imI - p.imI := ⟨_, rfl⟩
  obtain ⟨y, hy⟩ : ∃ y, y = a.imJ - p.imJ := ⟨_, rfl⟩
  obtain ⟨z, hz⟩ : ∃ z, z = a.imK - p.imK := ⟨_, rfl⟩
  rw [← hw, ← hx, ← hy, ← hz] at hde
  rw [eq_add_of_sub_eq hw.symm, eq_add_of_sub_eq hx.symm, eq_add_of_sub_eq hy.symm, eq_add_of_sub_eq hz.symm]
  generalize p.re = w' at *
  generalize p.imI = x' at *
  generalize p.imJ = y' at *
  generalize p.imK = z' at *
  clear hw hx hy hz ha hp
  have n0 := sq_nonneg w
  have n1 := sq_nonneg x
  have n2 := sq_nonneg y
  have n3 := sq_nonneg z
  -- the first-order part of an element off the diagonal
  have cs : ∀ α β γ δ α' β' γ' δ' : ℝ, α ^ 2 + β ^ 2 + γ ^ 2 + δ ^ 2 ≤ e ^ 2 → 1 ^ 2 = α' ^ 2 + β' ^ 2 + γ' ^ 2 + δ' ^ 2 →
      |α * α' + β * β' + γ * γ' + δ * δ'| ≤ e := by
    intro α β γ δ α' β' γ' δ' h1 h2
    refine sq_le_of he ?_
    rw [sq_abs]
    linarith only [h1, h2, sq_nonneg (α * β' - β * α'), sq_nonneg (α * γ' - γ * α'), sq_nonneg (α * δ' - δ * α'),
      sq_nonneg (β * γ' - γ * β'), sq_nonneg (β * δ' - δ * β'), sq_nonneg (γ * δ' - δ * γ'),
      show (α ^ 2 + β ^ 2 + γ ^ 2 + δ ^ 2) = (α ^ 2 + β ^ 2 + γ ^ 2 + δ ^ 2) * 1 ^ 2 by ring,
      congrArg (fun t => (α ^ 2 + β ^ 2 + γ ^ 2 + δ ^ 2) * t) h2]
  have fin' : ∀ l q : ℝ, |l| ≤ e → |q| ≤ e ^ 2 → |4 * l + 2 * q| ≤ 4 * e + 2 * e ^ 2 := by
    intro l q h1 h2
    obtain ⟨h1, h1'⟩ := abs_le.1 h1
    obtain ⟨h2, h2'⟩ := abs_le.1 h2
    rw [abs_le]
    constructor <;> linarith
  have off : ∀ α β γ δ α' β' γ' δ' : ℝ, α ^ 2 + β ^ 2 + γ ^ 2 + δ ^ 2 ≤ e ^ 2 → 1 ^ 2 = α' ^ 2 + β' ^ 2 + γ' ^ 2 + δ' ^ 2 →
      |2 * ((α + α') * (β + β') + (γ + γ') * (δ + δ')) - 2 * (α' * β' + γ' * δ')| ≤ 4 * e + 2 * e ^ 2 := by
    intro α β γ δ α' β' γ' δ' h1 h2
    have c := cs α β γ δ β' α' δ' γ' h1 (by linarith)
    have q : |α * β + γ * δ| ≤ e ^ 2 := by
      rw [abs_le]
      constructor <;> nlinarith [sq_nonneg (α + β), sq_nonneg (γ + δ), sq_nonneg (α - β), sq_nonneg (γ - δ)]
    obtain ⟨c, c'⟩ := abs_le.1 c
    obtain ⟨q, q'⟩ := abs_le.1 q
    rw [abs_le]
    constructor <;> nlinarith
  have dia : ∀ α β α' β' : ℝ, α ^ 2 + β ^ 2 ≤ e ^ 2 → α' ^ 2 + β' ^ 2 ≤ 1 →
      |1 - 2 * ((α + α') ^ 2 + (β + β') ^ 2) - (1 - 2 * (α' ^ 2 + β' ^ 2))| ≤ 4 * e + 2 * e ^ 2 := by
    intro α β α' β' h1 h2
    have c : |α * α' + β * β'| ≤ e := by
      refine sq_le_of he ?_
      rw [sq_abs]
      nlinarith [sq_nonneg (α * β' - β * α'), mul_le_mul h1 h2 (by positivity) (by positivity)]
    obtain ⟨c, c'⟩ := abs_le.1 c
    have := sq_nonneg α
    have := sq_nonneg β
    rw [abs_le]
    constructor <;> nlinarith
  have hfin : 12 * e + 6 * e ^ 2 = 3 * (4 * e + 2 * e ^ 2) := by ring
  rw [hfin]
  refine fro_le_of ?_
  have m1 := sq_nonneg w'
  have m2 := sq_nonneg x'
  have m3 := sq_nonneg y'
  have m4 := sq_nonneg z'
  intro i j
  fin_cases i <;> fin_cases j
  · exact dia y z y' z' (by linarith) (by linarith)
  · have := off x y (-z) w x' y' (-z') w' (by rw [neg_sq]; linarith) (by rw [neg_sq]; linarith)
    refine le_trans (le_of_eq ?_) this
    congr 1
    simp [polyMat]
    ring
  · exact off x z y w x' z' y' w' (by linarith) (by linarith)
  · exact off x y z w x' y' z' w' (by linarith) (by linarith)
  · exact dia x z x' z' (by linarith) (by linarith)
  · have := off y z (-x) w y' z' (-x') w' (by rw [neg_sq]; linarith) (by rw [neg_sq]; linarith)
    refine le_trans (le_of_eq ?_) this
    congr 1
    simp [polyMat]
    ring
  · have := off x z (-y) w x' z' (-y') w' (by rw [neg_sq]; linarith) (by rw [neg_sq]; linarith)
    refine le_trans (le_of_eq ?_) this
    congr 1
    simp [polyMat]
    ring
  · exact off y z x w y' z' x' w' (by linarith) (by linarith)
  · exact dia x y x' y' (by linarith) (by linarith)

/-- The matrix computed for a quaternion within `e` of a unit quaternion `p` is near the rotation `v ↦ p v p*`. -/
theorem C83_rotation (a p : ℍ[ℝ]) (e : ℝ) (hp : ‖p‖ = 1) (ha : ‖a - p‖ ≤ e) (he : e ≤ 2 / 5) :
    IsRot (quatMat p) ∧ ∃ A, Quat.toRotation (Quat.ofH a) = Rotation.ofMat A ∧ (∀ i j, Rep (A i j)) ∧
      fro (A - quatMat p) ≤ 12 * e + 6 * e ^ 2 + 2 ^ (-19 : ℤ) := by
  have hp2 := hnorm_sq p
  rw [hp, one_pow] at hp2
  have ha1 : ‖a‖ ≤ 7 / 5 := by
    have := norm_add_le (a - p) p
    rw [sub_add_cancel] at this
    linarith
  rw [quatMat_eq hp]
  obtain ⟨A, h1, h2, h3⟩ := toRotation_fin ha1
  refine ⟨polyMat_rot hp2.symm, A, h1, h2, ?_⟩
  rw [show A - polyMat p.re p.imI p.imJ p.imK = (A - polyMat a.re a.imI a.imJ a.imK) +
    (polyMat a.re a.imI a.imJ a.imK - polyMat p.re p.imI p.imJ p.imK) by abel]
  have := fro_add (A - polyMat a.re a.imI a.imJ a.imK) (polyMat a.re a.imI a.imJ a.imK - polyMat p.re p.imI p.imJ p.imK)
  have := polyMat_near hp ha
  linarith

/-- Normalising a quaternion and converting it gives a matrix that `isRotation` accepts with its default
tolerance, and that is near the rotation of the quaternion. -/
theorem C83_accepted (q : ℍ[ℝ]) (hq : RepH q) (hl : 2 ^ (-126 : ℤ) ≤ ‖q‖) (hu : ‖q‖ ≤ 2 ^ 125) (eps : ℝ)
    (heps : Rep eps) (h : 99 / 1000000 ≤ eps) :
    ∃ r A, Quat.normalize (Quat.ofH q) = .ok r ∧ Quat.toRotation r = Rotation.ofMat A ∧
      fro (A - quatMat ((1 / ‖q‖) • q)) ≤ 2 ^ (-16 : ℤ) ∧
      Rotation.isRotation (Quat.toRotation r) (fin eps) = true := by
  obtain ⟨r, h1, -, h3⟩ := C83_normalize q hq hl hu
  have h0 : 0 < ‖q‖ := lt_of_lt_of_le (two_zpow_pos _) hl
  have hp : ‖(1 / ‖q‖) • q‖ = 1 := by
    rw [norm_smul, Real.norm_of_nonneg (by positivity)]
    field_simp
  have h20 : (2 : ℝ) ^ (-20 : ℤ) = 1 / 1048576 := by norm_num
  have h19 : (2 : ℝ) ^ (-19 : ℤ) = 1 / 524288 := by norm_num
  have h18 : (2 : ℝ) ^ (-18 : ℤ) = 1 / 262144 := by norm_num
  have h16 : (2 : ℝ) ^ (-16 : ℤ) = 1 / 65536 := by norm_num
  obtain ⟨hrot, A, e1, -, e3⟩ := C83_rotation r _ _ hp h3 (by rw [h20]; norm_num)
  have e4 : fro (A - quatMat ((1 / ‖q‖) • q)) ≤ 15 / 1048576 := e3.trans (by rw [h20, h19]; norm_num)
  refine ⟨_, A, h1, e1, e4.trans (by rw [h16]; norm_num), ?_⟩
  rw [e1]
  exact C80_accepts A _ hrot (15 / 1048576) eps e4 (by norm_num) heps (by rw [h18]; linarith)

/-- The rotation of a product is the product of the rotations. -/
theorem quatMat_mul (p q : ℍ[ℝ]) : quatMat (p * q) = quatMat p * quatMat q := by
  ext i j
  fin_cases i <;> fin_cases j <;> simp [quatMat, Matrix.mul_apply, Fin.sum_univ_three] <;> ring

theorem quatMat_product {α : Type} (Q : α → ℍ[ℝ]) (t : Product α) :
    quatMat (t.eval Q (· * ·)) = t.eval (fun a => quatMat (Q a)) (· * ·) := by
  induction t with
  | factor a => rfl
  | times l r ihl ihr =>
    simp only [Product.eval]
    rw [quatMat_mul, ihl, ihr]

/-- The matrix computed for a product of quaternions is near the product of their rotations. -/
theorem C83_chain {α : Type} (R : α → Quat) (Q : α → ℍ[ℝ]) (κ : ℝ) (hκ : 2 ^ (-19 : ℤ) ≤ κ) (t : Product α)
    (h : t.All fun a => ‖Q a‖ = 1 ∧ ∃ q, R a = Quat.ofH q ∧ ‖q - Q a‖ ≤ κ) (hN : 10 * t.size * κ ≤ 1) :
    ∃ A, Quat.toRotation (t.eval R Quat.mul) = Rotation.ofMat A ∧
      fro (A - t.eval (fun a => quatMat (Q a)) (· * ·)) ≤ 64 * t.size * κ := by
  obtain ⟨q, h1, h2⟩ := C83_linear R Q κ hκ t h hN
  obtain ⟨-, A, h3, -, h4⟩ := C83_rotation q _ _ (product_unit (Product.All.imp (fun _ h => h.1) h)) h2 (by linarith)
  refine ⟨A, by rw [h1, h3], ?_⟩
  rw [quatMat_product] at h4
  have h5 : (1 : ℝ) ≤ t.size := by exact_mod_cast t.size_pos
  have hκ0 : 0 < κ := lt_of_lt_of_le (two_zpow_pos _) hκ
  have h6 : κ ≤ t.size * κ := by nlinarith
  rw [mul_assoc] at hN
  rw [mul_assoc 4] at h4
  rw [mul_assoc 64]
  generalize (t.size : ℝ) * κ = x at *
  have h7 : x ^ 2 ≤ x * (1 / 10) := by nlinarith
  generalize (2 : ℝ) ^ (-19 : ℤ) = w at *
  linarith

/-- The inverse is the conjugate, without error, and the product of a quaternion with it is the square of the
length. -/
theorem C83_inverse (q : ℍ[ℝ]) (h : ‖q‖ * ‖q‖ ≤ 2 ^ 124) :
    Quat.inverse (Quat.ofH q) = Quat.ofH (star q) ∧
    ∃ r, Quat.mul (Quat.ofH q) (Quat.inverse (Quat.ofH q)) = Quat.ofH r ∧
      ‖r - quat (‖q‖ ^ 2) 0 0 0‖ ≤ 2 ^ (-20 : ℤ) * ‖q‖ ^ 2 + 2 ^ (-146 : ℤ) := by
  have e : Quat.inverse (Quat.ofH q) = Quat.ofH (star q) := by
    simp [Quat.inverse, Quat.ofH, neg]
  refine ⟨e, ?_⟩
  obtain ⟨r, h1, -, h3⟩ := C83_mul q (star q) (by rwa [norm_star])
  refine ⟨r, by rw [e, h1], ?_⟩
  rw [norm_star, ← sq] at h3
  have : q * star q = quat (‖q‖ ^ 2) 0 0 0 := by
    rw [self_mul_star, normSq_eq_norm_mul_self, ← sq]
    rfl
  rwa [← this]

/-! ### Examples -/

theorem norm_3400 : ‖quat 3 4 0 0‖ = 5 := by
  have := hnorm_sq (quat 3 4 0 0)
  norm_num at this
  nlinarith [norm_nonneg (quat 3 4 0 0)]

theorem rep_3400 : RepH (quat 3 4 0 0) := by
  refine ⟨⟨3, 0, ?_⟩, ⟨4, 0, ?_⟩, Rep.zero, Rep.zero⟩ <;> norm_num

/-- `3 + 4 i`: the norm, and the normalised quaternion. -/
example : (∃ n, Quat.norm (Quat.ofH (quat 3 4 0 0)) = fin n ∧ |n - 5| ≤ 2 ^ (-20 : ℤ)) ∧
    ∃ r, Quat.normalize (Quat.ofH (quat 3 4 0 0)) = .ok (Quat.ofH r) ∧ ‖r - (1 / 5 : ℝ) • quat 3 4 0 0‖ ≤ 2 ^ (-20 : ℤ) := by
  constructor
  · obtain ⟨n, h1, -, h2, -⟩ := C83_norm (quat 3 4 0 0) rep_3400 (by rw [norm_3400]; norm_num)
    refine ⟨n, h1, ?_⟩
    rw [norm_3400] at h2
    refine h2.trans ?_
    norm_num
  · obtain ⟨r, h1, -, h2⟩ := C83_normalize (quat 3 4 0 0) rep_3400 (by rw [norm_3400]; norm_num)
      (by rw [norm_3400]; norm_num)
    rw [norm_3400] at h2
    exact ⟨r, h1, h2⟩

/-- Its rotation is accepted. -/
example (eps : ℝ) (heps : Rep eps) (h : 99 / 1000000 ≤ eps) :
    ∃ r, Quat.normalize (Quat.ofH (quat 3 4 0 0)) = .ok r ∧ Rotation.isRotation (Quat.toRotation r) (fin eps) = true := by
  obtain ⟨r, -, h1, -, -, h2⟩ := C83_accepted (quat 3 4 0 0) rep_3400 (by rw [norm_3400]; norm_num)
    (by rw [norm_3400]; norm_num) eps heps h
  exact ⟨r, h1, h2⟩

/-- The null quaternion. -/
example : Quat.normalize (Quat.ofH 0) = .throws :=
  (C83_throws 0 ⟨Rep.zero, Rep.zero, Rep.zero, Rep.zero⟩ (by rw [_root_.norm_zero]; positivity)).2 rfl

/-- A tiny quaternion. -/
example : Quat.normalize ⟨fin (2 ^ (-130 : ℤ)), fin 0, fin 0, fin 0⟩ = .ok ⟨pinf, nan, nan, nan⟩ :=
  C83_tiny _ (Rep.two_zpow (by norm_num) (by norm_num)) (two_zpow_pos _) (two_zpow_le (by norm_num))

/-- A product. -/
example : ∃ r, Quat.mul (Quat.ofH (quat 3 4 0 0)) (Quat.inverse (Quat.ofH (quat 3 4 0 0))) = Quat.ofH r ∧
    ‖r - quat 25 0 0 0‖ ≤ 2 ^ (-15 : ℤ) := by
  obtain ⟨-, r, h1, h2⟩ := C83_inverse (quat 3 4 0 0) (by rw [norm_3400]; norm_num)
  rw [norm_3400] at h2
  refine ⟨r, h1, ?_⟩
  rw [show (25 : ℝ) = 5 ^ 2 by norm_num]
  refine h2.trans ?_
  norm_num

/-- A hundred quarter turns. -/
example : ∃ A, Quat.toRotation ((Product.ofList () (List.replicate 99 ())).eval
      (fun _ => Quat.ofH (quat 0 1 0 0)) Quat.mul) = Rotation.ofMat A ∧
    fro (A - (Product.ofList () (List.replicate 99 ())).eval (fun _ => quatMat (quat 0 1 0 0)) (· * ·)) ≤ 1 / 64 := by
  have hs : (Product.ofList () (List.replicate 99 ())).size = 100 := by rfl
  have hn : ‖quat 0 1 0 0‖ = 1 := by
    have := hnorm_sq (quat 0 1 0 0)
    norm_num at this
    rcases this with h | h
    · exact h
    · linarith [norm_nonneg (quat 0 1 0 0)]
  obtain ⟨A, h1, h2⟩ := C83_chain (fun _ => Quat.ofH (quat 0 1 0 0)) (fun _ => quat 0 1 0 0) (2 ^ (-19 : ℤ)) le_rfl
    (Product.ofList () (List.replicate 99 ())) (by
      generalize Product.ofList () (List.replicate 99 ()) = t
      induction t with
      | factor a => exact ⟨hn, _, rfl, by rw [sub_self, _root_.norm_zero]; exact (two_zpow_pos _).le⟩
      | times l r ihl ihr => exact ⟨ihl, ihr⟩) (by rw [hs]; norm_num)
  refine ⟨A, h1, h2.trans ?_⟩
  rw [hs]
  norm_num

end AlMath.F32
