import Verif.Props.C97
import Verif.Model.FloatFoot
import Verif.Lemmas.Float64

/-!
Clipping a move to an ellipse in single precision.
-/

namespace AlMath.F32

open AlMath.Spec

namespace Spec

/-- `1` on the ellipse with half axes `a` and `b`, less inside. Not in /repo: specification. -/
noncomputable def ellipse (a b x y : ℝ) : ℝ := (x / a) ^ 2 + (y / b) ^ 2

/-- A half axis between a millimetre and a kilometre, as a `float` of either sign. Not in /repo: specification. -/
def Axis (a : ℝ) : Prop := Rep a ∧ 2 ^ (-10 : ℤ) ≤ |a| ∧ |a| ≤ 2 ^ 10

/-- A coordinate that is not huge. Not in /repo: specification. -/
def Coord (x : ℝ) : Prop := Rep x ∧ |x| ≤ 2 ^ 40

end Spec

open Spec

/-! ### Roundings with small numerals -/

theorem rnd_small (x : ℝ) : |rnd x - x| ≤ 1 / 16777216 * |x| + 1 / 10 ^ 25 := by
  have h := rnd_gen x
  have h2 : (2 : ℝ) ^ (-150 : ℤ) ≤ 1 / 10 ^ 25 := by
    rw [zpow_neg, ← one_div]
    exact one_div_le_one_div_of_le (by norm_num) (by norm_num)
  rw [two_neg24] at h
  linarith

/-- A quotient whose parts have errors. -/
theorem div_rel {p X d D δ ε e : ℝ} (hX : 0 ≤ X) (hD : 0 < D) (hδ : 0 ≤ δ) (hε : 0 ≤ ε) (he : 0 ≤ e) (hp : |p - X| ≤ δ * X + e)
    (hd : |d - D| ≤ ε * D) (hε1 : ε ≤ 1 / 1000) : 0 < d ∧ |p / d - X / D| ≤ 1.01 * ((δ + ε) * (X / D) + e / D) := by
  obtain ⟨d1, d2⟩ := abs_le.1 hd
  have d3 : D ≤ 1.01 * d := by nlinarith
  have d0 : 0 < d := by linarith
  refine ⟨d0, ?_⟩
  have e1 : p / d - X / D = ((p - X) * D - X * (d - D)) / (d * D) := by
    field_simp
    ring
  rw [e1, abs_div, abs_of_pos (mul_pos d0 hD), div_le_iff₀ (mul_pos d0 hD)]
  have h1 : |(p - X) * D - X * (d - D)| ≤ (δ * X + e) * D + X * (ε * D) := by
    refine (abs_sub _ _).trans ?_
    rw [abs_mul, abs_mul, abs_of_pos hD, abs_of_nonneg hX]
    gcongr
  refine h1.trans ?_
  have e2 : 1.01 * ((δ + ε) * (X / D) + e / D) * (d * D) = ((δ + ε) * X + e) * (1.01 * d) := by
    field_simp
  rw [e2]
  have h2 : 0 ≤ (δ + ε) * X + e := by positivity
  calc (δ * X + e) * D + X * (ε * D) = ((δ + ε) * X + e) * D := by ring
    _ ≤ _ := mul_le_mul_of_nonneg_left d3 h2

/-- The square of a half axis. -/
theorem square_fin {a : ℝ} (ha : Axis a) : ∃ q, F64.toFloat (F64.sq (abs (fin a))) = fin q ∧
    |q - a ^ 2| ≤ 1.01 / 16777216 * a ^ 2 ∧ 1 / 1048576 ≤ a ^ 2 ∧ a ^ 2 ≤ 1048576 := by
  obtain ⟨-, h1, h2⟩ := ha
  norm_num at h1 h2
  have l1 : 1 / 1048576 ≤ a ^ 2 := by rw [← sq_abs]; nlinarith
  have l2 : a ^ 2 ≤ 1048576 := by rw [← sq_abs]; nlinarith [abs_nonneg a]
  have hb : |(|a| * |a|)| ≤ 1048576 := by rw [abs_mul_self, abs_mul_abs_self]; linarith
  have e1 : F64.sq (abs (fin a)) = fin (F64.rnd (|a| * |a|)) := by
    rw [abs, F64.sq, F64.mul]
    refine F64.round_fin (hb.trans ?_)
    calc (1048576 : ℝ) = 2 ^ 20 := by norm_num
      _ ≤ 2 ^ 1000 := pow_le_pow_right₀ (by norm_num) (by norm_num)
  have g := F64.rnd_gen (|a| * |a|)
  have h53 : (2 : ℝ) ^ (-53 : ℤ) = 1 / 9007199254740992 := by norm_num
  have h1075 : (2 : ℝ) ^ (-1075 : ℤ) ≤ 1 / 10 ^ 25 := by
    refine (two_zpow_le (show (-1075 : ℤ) ≤ -90 by norm_num)).trans ?_
    norm_num
  rw [h53, abs_mul_self, abs_mul_abs_self] at g
  have e2 : |a| * |a| = a ^ 2 := by rw [abs_mul_abs_self, sq]
  rw [e2] at e1
  rw [← sq] at g
  have g' : |F64.rnd (a ^ 2) - a ^ 2| ≤ 0.001 / 16777216 * a ^ 2 := by
    refine g.trans ?_
    generalize (2 : ℝ) ^ (-1075 : ℤ) = t at *
    linarith
  clear g h1075
  generalize F64.rnd (a ^ 2) = r at *
  have r1 := rnd_small r
  obtain ⟨g1, g2⟩ := abs_le.1 g'
  have hr : |r| = r := abs_of_nonneg (by linarith)
  rw [hr] at r1
  refine ⟨rnd r, ?_, ?_, l1, l2⟩
  · rw [e1, F64.toFloat]
    exact round_fin (by rw [hr]; norm_num; linarith)
  · obtain ⟨r2, r3⟩ := abs_le.1 r1
    rw [abs_le]
    constructor <;> linarith

/-- One term of the norm. -/
theorem part_fin {x q A : ℝ} (hx : |x| ≤ 2 ^ 40) (hq : |q - A| ≤ 1.01 / 16777216 * A) (h1 : 1 / 1048576 ≤ A) :
    ∃ r, div (mul (fin x) (fin x)) (fin q) = fin r ∧ |r - x ^ 2 / A| ≤ 3.1 / 16777216 * (x ^ 2 / A) + 1 / 10 ^ 12 ∧
      x ^ 2 / A ≤ 2 ^ 100 := by
  have hX : 0 ≤ x ^ 2 := sq_nonneg x
  have hA : 0 < A := by linarith
  have hx2 : x ^ 2 ≤ 2 ^ 80 := by
    rw [← sq_abs, show (2 : ℝ) ^ 80 = (2 ^ 40) ^ 2 by norm_num]
    exact pow_le_pow_left₀ (abs_nonneg x) hx 2
  have e1 : mul (fin x) (fin x) = fin (rnd (x ^ 2)) := by
    rw [mul, ← sq]
    exact round_fin (by rw [abs_of_nonneg hX]; exact hx2.trans (by norm_num))
  have p1 := rnd_small (x ^ 2)
  rw [abs_of_nonneg hX] at p1
  rw [e1]
  obtain ⟨d0, d1⟩ := div_rel hX hA (by norm_num) (by norm_num) (by norm_num) p1 hq (by norm_num)
  have hQ : 0 ≤ x ^ 2 / A := by positivity
  have hQ1 : x ^ 2 / A ≤ 2 ^ 100 := by
    rw [div_le_iff₀ hA]
    refine hx2.trans ?_
    calc (2 : ℝ) ^ 80 = 2 ^ 100 * (1 / 1048576) := by norm_num
      _ ≤ _ := mul_le_mul_of_nonneg_left h1 (by positivity)
  have he : 1 / 10 ^ 25 / A ≤ (1 : ℝ) / 10 ^ 25 * 1048576 := by
    rw [div_le_iff₀ hA]
    nlinarith
  have e2 : div (fin (rnd (x ^ 2))) (fin q) = round (rnd (x ^ 2) / q) := by rw [div, if_neg d0.ne']
  rw [e2]
  generalize rnd (x ^ 2) / q = z at *
  generalize 1 / 10 ^ 25 / A = w at *
  have z1 := rnd_small z
  have z2 := le_of_err d1
  rw [abs_of_nonneg hQ] at z2
  have z3 : |z| ≤ 1.01 * (x ^ 2 / A) + 1 / 10 ^ 12 := by
    norm_num at z2 he ⊢
    linarith
  refine ⟨rnd z, round_fin (z3.trans ?_), ?_, hQ1⟩
  · calc 1.01 * (x ^ 2 / A) + 1 / 10 ^ 12 ≤ 1.01 * 2 ^ 100 + 1 / 10 ^ 12 := by gcongr
      _ ≤ _ := by norm_num
  · obtain ⟨d2, d3⟩ := abs_le.1 d1
    obtain ⟨z4, z5⟩ := abs_le.1 z1
    rw [abs_le]
    norm_num at d2 d3 he z3 z4 z5 ⊢
    constructor <;> linarith

/-- The computed norm of a move. -/
theorem norm_fin {a b x y : ℝ} (ha : Axis a) (hb : Axis b) (hx : Coord x) (hy : Coord y) :
    ∃ n a2 b2, F64.toFloat (F64.sq (abs (fin a))) = fin a2 ∧ F64.toFloat (F64.sq (abs (fin b))) = fin b2 ∧
      |a2 - a ^ 2| ≤ 1.01 / 16777216 * a ^ 2 ∧ |b2 - b ^ 2| ≤ 1.01 / 16777216 * b ^ 2 ∧
      add (div (mul (fin x) (fin x)) (fin a2)) (div (mul (fin y) (fin y)) (fin b2)) = fin n ∧
      |n - ellipse a b x y| ≤ 4.2 / 16777216 * ellipse a b x y + 1 / 10 ^ 11 := by
  obtain ⟨a2, e1, h1, l1, -⟩ := square_fin ha
  obtain ⟨b2, e2, h2, l2, -⟩ := square_fin hb
  obtain ⟨p, f1, g1, k1⟩ := part_fin hx.2 h1 l1
  obtain ⟨q, f2, g2, k2⟩ := part_fin hy.2 h2 l2
  have e : ellipse a b x y = x ^ 2 / a ^ 2 + y ^ 2 / b ^ 2 := by rw [ellipse, div_pow, div_pow]
  have n1 : 0 ≤ x ^ 2 / a ^ 2 := by positivity
  have n2 : 0 ≤ y ^ 2 / b ^ 2 := by positivity
  refine ⟨rnd (p + q), a2, b2, e1, e2, h1, h2, ?_, ?_⟩
  · rw [f1, f2]
    have := le_of_err g1
    have := le_of_err g2
    have := abs_add_le p q
    rw [abs_of_nonneg n1] at *
    rw [abs_of_nonneg n2] at *
    refine add_fin ?_
    norm_num at *
    linarith
  · rw [e]
    have r := rnd_small (p + q)
    have r' := abs_add_le p q
    have b1 := le_of_err g1
    have b2 := le_of_err g2
    rw [abs_of_nonneg n1] at b1
    rw [abs_of_nonneg n2] at b2
    clear k1 k2 f1 f2 h1 h2 e e1 e2
    generalize x ^ 2 / a ^ 2 = X at *
    generalize y ^ 2 / b ^ 2 = Y at *
    rw [abs_le] at r g1 g2 ⊢
    norm_num at *
    constructor <;> linarith

theorem limit_fin : ∃ κ : ℝ, round 1.00001 = fin κ ∧ 1.0000099 ≤ κ ∧ κ ≤ 1.0000101 := by
  have h : |(1.00001 : ℝ)| = 1.00001 := abs_of_pos (by norm_num)
  have r := rnd_small 1.00001
  rw [h, abs_le] at r
  norm_num at r
  exact ⟨rnd 1.00001, round_fin (by rw [h]; norm_num), by norm_num; linarith, by norm_num; linarith⟩

/-! ### The point on the ellipse -/

/-- One term below the square root. -/
theorem term_fin {q A c : ℝ} (hq : |q - A| ≤ 1.01 / 16777216 * A) (h0 : 0 ≤ A) (hA : A ≤ 1048576) (hc : |c| ≤ 2) :
    ∃ p, mul (mul (fin q) (fin c)) (fin c) = fin p ∧ |p - A * c ^ 2| ≤ 3.1 / 16777216 * (A * c ^ 2) + 1 / 10 ^ 19 := by
  have hq' := le_of_err hq
  rw [abs_of_nonneg h0] at hq'
  have hqc : |q * c| ≤ 4194304 := by
    rw [abs_mul]
    nlinarith [abs_nonneg q, abs_nonneg c]
  have r1 := rnd_small (q * c)
  have r1' := le_of_err r1
  have hpc : |rnd (q * c) * c| ≤ 16777216 := by
    rw [abs_mul]
    nlinarith [abs_nonneg (rnd (q * c)), abs_nonneg c]
  refine ⟨rnd (rnd (q * c) * c), ?_, ?_⟩
  · rw [mul_fin (hqc.trans (by norm_num)), mul_fin (hpc.trans (by norm_num))]
  have r2 := rnd_small (rnd (q * c) * c)
  have hc2 : |c| * |c| = c ^ 2 := by rw [abs_mul_abs_self, sq]
  have m1 : |q * c - A * c| * |c| ≤ 1.01 / 16777216 * (A * c ^ 2) := by
    rw [← sub_mul, abs_mul, mul_assoc, hc2, ← mul_assoc]
    exact mul_le_mul_of_nonneg_right hq (sq_nonneg c)
  have m0 : |q * c| * |c| ≤ 1.001 * (A * c ^ 2) := by
    rw [abs_mul, mul_assoc, hc2, ← mul_assoc]
    refine mul_le_mul_of_nonneg_right (hq'.trans ?_) (sq_nonneg c)
    linarith
  have m2 : |rnd (q * c) - q * c| * |c| ≤ 1.001 / 16777216 * (A * c ^ 2) + 2 / 10 ^ 25 := by
    refine (mul_le_mul_of_nonneg_right r1 (abs_nonneg c)).trans ?_
    rw [add_mul, mul_assoc]
    norm_num at *
    linarith
  have m3 : |rnd (q * c) * c - A * c ^ 2| ≤ 2.02 / 16777216 * (A * c ^ 2) + 2 / 10 ^ 25 := by
    have e : rnd (q * c) * c - A * c ^ 2 = (rnd (q * c) - q * c) * c + (q * c - A * c) * c := by ring
    rw [e]
    refine (abs_add_le _ _).trans ?_
    rw [abs_mul, abs_mul]
    have : 0 ≤ A * c ^ 2 := by positivity
    norm_num at *
    linarith
  have n : 0 ≤ A * c ^ 2 := by positivity
  have m4 := le_of_err m3
  rw [abs_of_nonneg n] at m4
  clear m0 m1 m2 r1 r1' hpc hqc
  generalize A * c ^ 2 = T at *
  generalize rnd (q * c) * c = z at *
  rw [abs_le] at r2 m3 ⊢
  norm_num at *
  constructor <;> linarith

/-- The square root. -/
theorem root_fin {D p q X Y : ℝ} (h1 : |p - X| ≤ 3.1 / 16777216 * X + 1 / 10 ^ 19) (h2 : |q - Y| ≤ 3.1 / 16777216 * Y + 1 / 10 ^ 19)
    (hD : D = X + Y) (n3 : 1 / 2097152 ≤ D) (n4 : D ≤ 2097152) :
    ∃ r, sqrt (add (fin p) (fin q)) = fin r ∧ |r - Real.sqrt D| ≤ 5.3 / 16777216 * Real.sqrt D := by
  have h3 : |p + q - D| ≤ 3.11 / 16777216 * D := by
    rw [hD] at n3 ⊢
    rw [abs_le] at *
    constructor <;> linarith
  obtain ⟨k1, k2⟩ := abs_le.1 h3
  have hpos : |p + q| = p + q := abs_of_nonneg (by linarith)
  have e3 : add (fin p) (fin q) = fin (rnd (p + q)) := add_fin (by
    rw [hpos]
    norm_num
    linarith)
  have h4 : |rnd (p + q) - D| ≤ 4.2 / 16777216 * D := by
    have r := rnd_small (p + q)
    rw [hpos] at r
    obtain ⟨r1, r2⟩ := abs_le.1 r
    rw [abs_le]
    constructor <;> linarith
  rw [e3]
  clear e3 h1 h2 h3 k1 k2 hpos
  generalize rnd (p + q) = d at *
  have hR0 : 0 ≤ D := by linarith
  have hR2 : Real.sqrt D ^ 2 = D := Real.sq_sqrt hR0
  have hR : 1 / 2048 ≤ Real.sqrt D := Real.le_sqrt_of_sq_le (by norm_num; linarith)
  have hR' : Real.sqrt D ≤ 2048 := Real.sqrt_le_iff.2 ⟨by norm_num, by linarith⟩
  have h5 := sqrt_err (d := d) (s := Real.sqrt D) (δ := 4.2 / 16777216) (by linarith) (by norm_num) (by norm_num)
    (by rw [hR2]; exact h4)
  have hd0 : 0 ≤ d := by
    obtain ⟨r1, r2⟩ := abs_le.1 h4
    linarith
  generalize Real.sqrt D = R at *
  have hRa : |R| = R := abs_of_nonneg (by linarith)
  have e4 : sqrt (fin d) = fin (rnd (Real.sqrt d)) := by
    rw [sqrt, if_neg (not_lt.2 hd0)]
    refine round_fin ((le_of_err h5).trans ?_)
    rw [hRa]
    norm_num
    linarith
  refine ⟨_, e4, ?_⟩
  have r := rnd_small (Real.sqrt d)
  rw [abs_of_nonneg (Real.sqrt_nonneg d)] at r
  obtain ⟨r1, r2⟩ := abs_le.1 r
  obtain ⟨r3, r4⟩ := abs_le.1 h5
  rw [abs_le]
  constructor <;> linarith

/-- The quotient by the square root. -/
theorem ratio_fin {N R r : ℝ} (h : |r - R| ≤ 5.3 / 16777216 * R) (hN : 1 / 1048576 ≤ N) (hN' : N ≤ 1048576) (hR : 1 / 2048 ≤ R)
    (hR' : R ≤ 2048) (hT : N / R ≤ 2048) : ∃ t, div (fin (rnd N)) (fin r) = fin t ∧ |t - N / R| ≤ 7.7 / 16777216 * (N / R) := by
  have p := rnd_small N
  rw [abs_of_nonneg (show 0 ≤ N by linarith)] at p
  have hRp : 0 < R := by linarith
  obtain ⟨d0, d1⟩ := div_rel (by linarith) hRp (by norm_num) (by norm_num) (by norm_num) p h (by norm_num)
  have e6 : div (fin (rnd N)) (fin r) = round (rnd N / r) := by
    rw [div, if_neg d0.ne']
  rw [e6]
  have hTl : 1 / 2147483648 ≤ N / R := by
    rw [le_div_iff₀ hRp]
    linarith
  have he : 1 / 10 ^ 25 / R ≤ (2048 : ℝ) / 10 ^ 25 := by
    rw [div_le_iff₀ hRp]
    linarith
  clear e6
  generalize N / R = T at *
  generalize rnd N / r = z at *
  generalize 1 / 10 ^ 25 / R = w at *
  have hz : |z - T| ≤ 6.5 / 16777216 * T := by
    refine d1.trans ?_
    norm_num at he ⊢
    linarith
  have r5 := rnd_small z
  have z1 := le_of_err hz
  rw [abs_of_nonneg (show 0 ≤ T by linarith)] at z1
  refine ⟨rnd z, round_fin (z1.trans ?_), ?_⟩
  · norm_num
    linarith
  · obtain ⟨r1, r2⟩ := abs_le.1 r5
    obtain ⟨r3, r4⟩ := abs_le.1 hz
    rw [abs_le]
    constructor <;> linarith

/-- The length of the clipped move, before it is multiplied by cosine and sine. -/
theorem length_fin {a b c s a2 b2 : ℝ} (ha : Axis a) (hb : Axis b) (ha2 : |a2 - a ^ 2| ≤ 1.01 / 16777216 * a ^ 2)
    (hb2 : |b2 - b ^ 2| ≤ 1.01 / 16777216 * b ^ 2) (hcs : |c ^ 2 + s ^ 2 - 1| ≤ 1 / 1048576) :
    ∃ t T : ℝ, div (mul (abs (fin a)) (abs (fin b))) (sqrt (add (mul (mul (fin b2) (fin c)) (fin c))
        (mul (mul (fin a2) (fin s)) (fin s)))) = fin t ∧ 1 / 10 ^ 10 ≤ T ∧ T ≤ 2048 ∧
      T ^ 2 * (b ^ 2 * c ^ 2 + a ^ 2 * s ^ 2) = a ^ 2 * b ^ 2 ∧ |t - T| ≤ 7.7 / 16777216 * T := by
  obtain ⟨c1, c2⟩ := abs_le.1 hcs
  have hc : |c| ≤ 2 := abs_le_of_sq_le_sq (by nlinarith [sq_nonneg s]) (by norm_num)
  have hs : |s| ≤ 2 := abs_le_of_sq_le_sq (by nlinarith [sq_nonneg c]) (by norm_num)
  have la : 1 / 1024 ≤ |a| := by have := ha.2.1; norm_num at this; linarith
  have lb : 1 / 1024 ≤ |b| := by have := hb.2.1; norm_num at this; linarith
  have ua : |a| ≤ 1024 := by have := ha.2.2; norm_num at this; linarith
  have ub : |b| ≤ 1024 := by have := hb.2.2; norm_num at this; linarith
  obtain ⟨-, -, -, la2, ua2⟩ := square_fin ha
  obtain ⟨-, -, -, lb2, ub2⟩ := square_fin hb
  obtain ⟨p, e1, h1⟩ := term_fin hb2 (sq_nonneg b) ub2 hc
  obtain ⟨q, e2, h2⟩ := term_fin ha2 (sq_nonneg a) ua2 hs
  have n1 : 0 ≤ b ^ 2 * c ^ 2 := by positivity
  have n2 : 0 ≤ a ^ 2 * s ^ 2 := by positivity
  have n3 : 1 / 2097152 ≤ b ^ 2 * c ^ 2 + a ^ 2 * s ^ 2 := by
    have h3 : 1 / 1048576 * c ^ 2 ≤ b ^ 2 * c ^ 2 := mul_le_mul_of_nonneg_right lb2 (sq_nonneg c)
    have h4 : 1 / 1048576 * s ^ 2 ≤ a ^ 2 * s ^ 2 := mul_le_mul_of_nonneg_right la2 (sq_nonneg s)
    linarith
  have n4 : b ^ 2 * c ^ 2 + a ^ 2 * s ^ 2 ≤ 2097152 := by
    have h3 : b ^ 2 * c ^ 2 ≤ 1048576 * c ^ 2 := mul_le_mul_of_nonneg_right ub2 (sq_nonneg c)
    have h4 : a ^ 2 * s ^ 2 ≤ 1048576 * s ^ 2 := mul_le_mul_of_nonneg_right ua2 (sq_nonneg s)
    linarith
  rw [e1, e2]
  obtain ⟨D, hD⟩ : ∃ D, D = b ^ 2 * c ^ 2 + a ^ 2 * s ^ 2 := ⟨_, rfl⟩
  have key : a ^ 2 * b ^ 2 ≤ 2048 ^ 2 * D := by
    have h7 : a ^ 2 * b ^ 2 * c ^ 2 ≤ 1048576 * (b ^ 2 * c ^ 2) := by
      have := mul_le_mul_of_nonneg_right ua2 n1
      linarith
    have h8 : a ^ 2 * b ^ 2 * s ^ 2 ≤ 1048576 * (a ^ 2 * s ^ 2) := by
      have := mul_le_mul_of_nonneg_right ub2 n2
      linarith
    have h9 : a ^ 2 * b ^ 2 * (1 - 1 / 1048576) ≤ a ^ 2 * b ^ 2 * (c ^ 2 + s ^ 2) :=
      mul_le_mul_of_nonneg_left (by linarith) (by positivity)
    have h10 : 0 ≤ a ^ 2 * b ^ 2 := by positivity
    rw [hD]
    linarith
  rw [← hD] at n3 n4 ⊢
  obtain ⟨r, e4, h6⟩ := root_fin h1 h2 hD n3 n4
  rw [e4]
  have hR2 : Real.sqrt D ^ 2 = D := Real.sq_sqrt (by linarith)
  have hR : 1 / 2048 ≤ Real.sqrt D := Real.le_sqrt_of_sq_le (by norm_num; linarith)
  have hR' : Real.sqrt D ≤ 2048 := Real.sqrt_le_iff.2 ⟨by norm_num, by linarith⟩
  clear e1 e2 h1 h2 hD e4
  generalize Real.sqrt D = R at *
  have hab : 1 / 1048576 ≤ |a| * |b| := by nlinarith
  have hab' : |a| * |b| ≤ 1048576 := by nlinarith [abs_nonneg a, abs_nonneg b]
  have hRp : 0 < R := by linarith
  have hab2 : (|a| * |b|) ^ 2 = a ^ 2 * b ^ 2 := by rw [mul_pow, sq_abs, sq_abs]
  have hT2 : (|a| * |b| / R) ^ 2 * D = a ^ 2 * b ^ 2 := by
    rw [div_pow, hab2, hR2]
    exact div_mul_cancel₀ _ (by linarith)
  have hT : |a| * |b| / R ≤ 2048 := by
    rw [div_le_iff₀ hRp]
    refine (abs_le_of_sq_le_sq' ?_ (by positivity)).2
    rw [hab2, mul_pow, hR2]
    exact key
  have e5 : mul (abs (fin a)) (abs (fin b)) = fin (rnd (|a| * |b|)) := by
    rw [abs, abs]
    exact mul_fin (by rw [abs_of_nonneg (by linarith)]; norm_num; linarith)
  rw [e5]
  obtain ⟨t, f1, f2⟩ := ratio_fin h6 hab hab' hR hR' hT
  refine ⟨t, |a| * |b| / R, f1, ?_, hT, hT2, f2⟩
  rw [le_div_iff₀ hRp]
  linarith

/-- One coordinate of the clipped move. -/
theorem coord_fin {t T c : ℝ} (h : |t - T| ≤ 7.7 / 16777216 * T) (h0 : 0 < T) (hT : T ≤ 2048) (hc : |c| ≤ 2) :
    ∃ x, mul (fin t) (fin c) = fin x ∧ Rep x ∧ |x - T * c| ≤ 8.8 / 16777216 * (T * |c|) + 1 / 10 ^ 25 ∧ |x| ≤ 2 ^ 40 := by
  have ht := le_of_err h
  rw [abs_of_pos h0] at ht
  have n : 0 ≤ T * |c| := by positivity
  have h1 : |t * c - T * c| ≤ 7.7 / 16777216 * (T * |c|) := by
    rw [← sub_mul, abs_mul, ← mul_assoc]
    exact mul_le_mul_of_nonneg_right h (abs_nonneg c)
  have h2 := le_of_err h1
  rw [abs_mul T, abs_of_pos h0] at h2
  have h3 : T * |c| ≤ 4096 := by nlinarith [abs_nonneg c]
  have h4 : |t * c| ≤ 8192 := by
    norm_num at *
    linarith
  have r := rnd_small (t * c)
  have h5 : |rnd (t * c) - T * c| ≤ 8.8 / 16777216 * (T * |c|) + 1 / 10 ^ 25 := by
    rw [← sub_add_sub_cancel _ (t * c)]
    refine (abs_add_le _ _).trans ?_
    norm_num at *
    linarith
  refine ⟨rnd (t * c), mul_fin (h4.trans (by norm_num)), rnd_rep (h4.trans (by norm_num)), h5, ?_⟩
  have h6 := le_of_err r
  norm_num at *
  linarith

/-- One coordinate in units of its half axis. -/
theorem unit_err {a x X : ℝ} (ha : 1 / 1024 ≤ |a|) (hX : |X / a| ≤ 1) (h : |x - X| ≤ 8.8 / 16777216 * |X| + 1 / 10 ^ 25) :
    |(x / a) ^ 2 - (X / a) ^ 2| ≤ 17.7 / 16777216 * (X / a) ^ 2 + 1 / 10 ^ 12 := by
  have ha0 : 0 < |a| := by linarith
  have h1 : |x / a - X / a| ≤ 8.8 / 16777216 * |X / a| + 1 / 10 ^ 16 := by
    rw [← sub_div, abs_div, abs_div, div_le_iff₀ ha0, add_mul, mul_assoc, div_mul_cancel₀ _ ha0.ne']
    norm_num at *
    linarith
  generalize x / a = u at *
  generalize X / a = v at *
  have e : u ^ 2 - v ^ 2 = (u - v) * (u - v) + 2 * v * (u - v) := by ring
  rw [e]
  refine (abs_add_le _ _).trans ?_
  rw [abs_mul, abs_mul, abs_mul, abs_two, ← sq_abs v]
  have hd := abs_nonneg (u - v)
  generalize |u - v| = d at *
  generalize hw : |v| = w at *
  have hw0 : 0 ≤ w := hw ▸ abs_nonneg v
  norm_num at *
  have h2 : d * d ≤ (11 / 20971520 * w + 1 / 10000000000000000) * (11 / 20971520 * w + 1 / 10000000000000000) :=
    mul_le_mul h1 h1 hd (by positivity)
  have h3 : 2 * w * d ≤ 2 * w * (11 / 20971520 * w + 1 / 10000000000000000) := mul_le_mul_of_nonneg_left h1 (by positivity)
  nlinarith

/-! ### C100 -/

theorem ellipse_nonneg (a b x y : ℝ) : 0 ≤ ellipse a b x y := by
  unfold ellipse
  positivity

/-- What the call does, the comparison being made with the computed norm. -/
theorem clip_eq (m : Libm) {a b x y : ℝ} (ha : Axis a) (hb : Axis b) (hx : Coord x) (hy : Coord y) (t : F32) :
    ∃ n κ a2 b2 : ℝ, 1.0000099 ≤ κ ∧ κ ≤ 1.0000101 ∧
      |n - ellipse a b x y| ≤ 4.2 / 16777216 * ellipse a b x y + 1 / 10 ^ 11 ∧
      |a2 - a ^ 2| ≤ 1.01 / 16777216 * a ^ 2 ∧ |b2 - b ^ 2| ≤ 1.01 / 16777216 * b ^ 2 ∧
      (n < κ → clipFootWithEllipse m (fin a) (fin b) ⟨fin x, fin y, t⟩ = (false, ⟨fin x, fin y, t⟩)) ∧
      (κ ≤ n → clipFootWithEllipse m (fin a) (fin b) ⟨fin x, fin y, t⟩ =
        (true, ⟨mul (div (mul (abs (fin a)) (abs (fin b))) (sqrt (add
            (mul (mul (fin b2) (m.cos (m.atan2 (fin y) (fin x)))) (m.cos (m.atan2 (fin y) (fin x))))
            (mul (mul (fin a2) (m.sin (m.atan2 (fin y) (fin x)))) (m.sin (m.atan2 (fin y) (fin x)))))))
            (m.cos (m.atan2 (fin y) (fin x))),
          mul (div (mul (abs (fin a)) (abs (fin b))) (sqrt (add
            (mul (mul (fin b2) (m.cos (m.atan2 (fin y) (fin x)))) (m.cos (m.atan2 (fin y) (fin x))))
            (mul (mul (fin a2) (m.sin (m.atan2 (fin y) (fin x)))) (m.sin (m.atan2 (fin y) (fin x)))))))
            (m.sin (m.atan2 (fin y) (fin x))), t⟩)) := by
  obtain ⟨n, a2, b2, e1, e2, h1, h2, e3, h3⟩ := norm_fin ha hb hx hy
  obtain ⟨κ, e4, k1, k2⟩ := limit_fin
  refine ⟨n, κ, a2, b2, k1, k2, h3, h1, h2, fun h => ?_, fun h => ?_⟩
  · dsimp only [clipFootWithEllipse]
    rw [e1, e2, e3, e4, if_pos (show lt (fin n) (fin κ) from h)]
  · dsimp only [clipFootWithEllipse]
    rw [e1, e2, e3, e4, if_neg (show ¬ lt (fin n) (fin κ) from not_lt.2 h)]

/-- A move inside the ellipse, or outside by less than nine millionths, is kept. -/
theorem C100_inside (m : Libm) {a b x y : ℝ} (ha : Axis a) (hb : Axis b) (hx : Coord x) (hy : Coord y) (t : F32)
    (h : ellipse a b x y ≤ 1.000009) :
    clipFootWithEllipse m (fin a) (fin b) ⟨fin x, fin y, t⟩ = (false, ⟨fin x, fin y, t⟩) := by
  obtain ⟨n, κ, a2, b2, k1, k2, h1, -, -, h2, -⟩ := clip_eq m ha hb hx hy t
  refine h2 ?_
  have := (abs_le.1 h1).2
  linarith

/-- A move outside the ellipse by more than eleven millionths is reported. -/
theorem C100_outside (m : Libm) {a b x y : ℝ} (ha : Axis a) (hb : Axis b) (hx : Coord x) (hy : Coord y) (t : F32)
    (h : 1.000011 ≤ ellipse a b x y) : (clipFootWithEllipse m (fin a) (fin b) ⟨fin x, fin y, t⟩).1 = true := by
  obtain ⟨n, κ, a2, b2, k1, k2, h1, -, -, -, h2⟩ := clip_eq m ha hb hx hy t
  rw [h2]
  have := (abs_le.1 h1).1
  linarith

/-- The computed direction. -/
theorem direction_fin (m : Libm) (hm : m.Accurate) {x y : ℝ} (hx : Rep x) (hy : Rep y) :
    ∃ c s, m.cos (m.atan2 (fin y) (fin x)) = fin c ∧ m.sin (m.atan2 (fin y) (fin x)) = fin s ∧
      |c ^ 2 + s ^ 2 - 1| ≤ 1 / 1048576 ∧
      |Real.sqrt (x ^ 2 + y ^ 2) * c - x| ≤ 10 / 16777216 * Real.sqrt (x ^ 2 + y ^ 2) ∧
      |Real.sqrt (x ^ 2 + y ^ 2) * s - y| ≤ 10 / 16777216 * Real.sqrt (x ^ 2 + y ^ 2) := by
  obtain ⟨α, e1, hα, -, h1⟩ := hm.atan2 y x hy hx
  obtain ⟨c, e2, -, h2⟩ := hm.cos α hα
  obtain ⟨s, e3, -, h3⟩ := hm.sin α hα
  have e23 : (2 : ℝ) ^ (-23 : ℤ) = 2 / 16777216 := by norm_num
  have e21 : (2 : ℝ) ^ (-21 : ℤ) = 8 / 16777216 := by norm_num
  rw [e23] at h2 h3
  rw [e21] at h1
  have hn : ‖(⟨x, y⟩ : ℂ)‖ = Real.sqrt (x ^ 2 + y ^ 2) := by
    rw [Complex.norm_def, Complex.normSq_mk, sq, sq]
  rw [hn] at h1
  have hr := Real.sqrt_nonneg (x ^ 2 + y ^ 2)
  refine ⟨c, s, by rw [e1, e2], by rw [e1, e3], ?_, ?_⟩
  · have h4 := Real.cos_sq_add_sin_sq α
    have h5 := Real.abs_cos_le_one α
    have h6 := Real.abs_sin_le_one α
    generalize Real.cos α = C at *
    generalize Real.sin α = S at *
    rw [abs_le] at *
    have e : c ^ 2 + s ^ 2 - 1 = (c - C) * (c - C) + (s - S) * (s - S) + 2 * (C * (c - C)) + 2 * (S * (s - S)) := by linarith
    have k1 : |C * (c - C)| ≤ 1 * (2 / 16777216) := by
      rw [abs_mul]
      exact mul_le_mul (abs_le.2 h5) (abs_le.2 h2) (abs_nonneg _) (by norm_num)
    have k2 : |S * (s - S)| ≤ 1 * (2 / 16777216) := by
      rw [abs_mul]
      exact mul_le_mul (abs_le.2 h6) (abs_le.2 h3) (abs_nonneg _) (by norm_num)
    have k3 : (c - C) * (c - C) ≤ 1 / 16777216 := by nlinarith
    have k4 : (s - S) * (s - S) ≤ 1 / 16777216 := by nlinarith
    have k5 := mul_self_nonneg (c - C)
    have k6 := mul_self_nonneg (s - S)
    rw [abs_le] at k1 k2
    rw [e]
    constructor <;> linarith
  · generalize Real.sqrt (x ^ 2 + y ^ 2) = r at *
    have g1 := (Complex.abs_re_le_norm _).trans h1
    have g2 := (Complex.abs_im_le_norm _).trans h1
    have ex : Complex.exp (α * Complex.I) = ⟨Real.cos α, Real.sin α⟩ := by
      apply Complex.ext
      · simp [Complex.exp_ofReal_mul_I_re]
      · simp [Complex.exp_ofReal_mul_I_im]
    rw [ex] at g1 g2
    simp only [Complex.sub_re, Complex.sub_im, Complex.re_ofReal_mul, Complex.im_ofReal_mul] at g1 g2
    have key : ∀ {u U v : ℝ}, |u - U| ≤ 2 / 16777216 → |r * U - v| ≤ 8 / 16777216 * r → |r * u - v| ≤ 10 / 16777216 * r := by
      intro u U v p1 p2
      have e : r * u - v = r * (u - U) + (r * U - v) := by ring
      rw [e]
      refine (abs_add_le _ _).trans ?_
      rw [abs_mul, abs_of_nonneg hr]
      have := mul_le_mul_of_nonneg_left p1 hr
      linarith
    exact ⟨key h2 g1, key h3 g2⟩

/-- One coordinate of the clipped move against the move. -/
theorem coord_dir {x x' c T r : ℝ} (h0 : 0 < T) (hr : 0 < r) (hc : |c| ≤ 1.01) (h1 : |x' - T * c| ≤ 8.8 / 16777216 * (T * |c|) + 1 / 10 ^ 25)
    (hT : 1 / 10 ^ 10 ≤ T) (h2 : |r * c - x| ≤ 10 / 16777216 * r) : |x' - T / r * x| ≤ 19 / 16777216 * (T / r * r) := by
  have e : x' - T / r * x = (x' - T * c) + T / r * (r * c - x) := by
    field_simp
    ring
  rw [e]
  refine (abs_add_le _ _).trans ?_
  rw [abs_mul, abs_of_pos (div_pos h0 hr)]
  have k1 := mul_le_mul_of_nonneg_left h2 (div_pos h0 hr).le
  have k2 : T * |c| ≤ T * 1.01 := mul_le_mul_of_nonneg_left hc h0.le
  have k3 : T / r * r = T := div_mul_cancel₀ T hr.ne'
  rw [k3]
  have k4 : T / r * (10 / 16777216 * r) = 10 / 16777216 * T := by rw [← k3]; field_simp
  rw [k4] at k1
  norm_num at *
  linarith

/-- The factor between the move and the clipped move. -/
theorem factor_le {a b x y x' y' k ρ : ℝ} (ha : 0 < |a|) (hb : 0 < |b|) (hk : 0 < k) (hN : 1.000009 ≤ ellipse a b x y)
    (hE : |ellipse a b x' y' - 1| ≤ 18 / 16777216)
    (h1 : |x' - k * x| ≤ 19 / 16777216 * (k * Real.sqrt (x ^ 2 + y ^ 2)))
    (h2 : |y' - k * y| ≤ 19 / 16777216 * (k * Real.sqrt (x ^ 2 + y ^ 2))) (hab : |a| ≤ ρ * |b|) (hba : |b| ≤ ρ * |a|) :
    k * (1 - 2 ^ (-19 : ℤ) * ρ) ≤ 1 := by
  have e19 : (2 : ℝ) ^ (-19 : ℤ) = 32 / 16777216 := by norm_num
  rw [e19]
  have ha' : a ≠ 0 := abs_pos.1 ha
  have hb' : b ≠ 0 := abs_pos.1 hb
  have hρ : 1 ≤ ρ := by
    by_contra hc
    push Not at hc
    nlinarith
  have hn : ∀ u v : ℝ, ‖(⟨u, v⟩ : ℂ)‖ ^ 2 = u ^ 2 + v ^ 2 := fun u v => by
    rw [← Complex.normSq_eq_norm_sq, Complex.normSq_mk, sq, sq]
  have hf : ‖(⟨x / a, y / b⟩ : ℂ)‖ ^ 2 = ellipse a b x y := hn _ _
  have hg : ‖(⟨x' / a, y' / b⟩ : ℂ)‖ ^ 2 = ellipse a b x' y' := hn _ _
  have hf0 : 0 ≤ ‖(⟨x / a, y / b⟩ : ℂ)‖ := norm_nonneg _
  have hg0 : 0 ≤ ‖(⟨x' / a, y' / b⟩ : ℂ)‖ := norm_nonneg _
  obtain ⟨F, hF⟩ : ∃ F, F = ‖(⟨x / a, y / b⟩ : ℂ)‖ := ⟨_, rfl⟩
  obtain ⟨G, hG⟩ : ∃ G, G = ‖(⟨x' / a, y' / b⟩ : ℂ)‖ := ⟨_, rfl⟩
  have hr : ∀ {d : ℝ}, 0 < d → |a| ≤ ρ * d → |b| ≤ ρ * d → Real.sqrt (x ^ 2 + y ^ 2) ≤ ρ * F * d := by
    intro d hd h3 h4
    refine Real.sqrt_le_iff.2 ⟨by rw [hF]; positivity, ?_⟩
    have e : x ^ 2 + y ^ 2 = |a| ^ 2 * (x / a) ^ 2 + |b| ^ 2 * (y / b) ^ 2 := by
      rw [sq_abs, sq_abs]
      field_simp
    have e' : (ρ * F * d) ^ 2 = (ρ * d) ^ 2 * ((x / a) ^ 2 + (y / b) ^ 2) := by
      rw [← hn (x / a) (y / b), ← hF]
      ring
    rw [e, e', mul_add]
    have h5 : |a| ^ 2 ≤ (ρ * d) ^ 2 := pow_le_pow_left₀ (abs_nonneg a) h3 2
    have h6 : |b| ^ 2 ≤ (ρ * d) ^ 2 := pow_le_pow_left₀ (abs_nonneg b) h4 2
    gcongr
  have ra := hr ha (le_mul_of_one_le_left (abs_nonneg a) hρ) hba
  have rb := hr hb hab (le_mul_of_one_le_left (abs_nonneg b) hρ)
  have kF : 0 ≤ k * (ρ * F) := by rw [hF]; positivity
  have key : ∀ {u' u d : ℝ}, 0 < |d| → |u' - k * u| ≤ 19 / 16777216 * (k * Real.sqrt (x ^ 2 + y ^ 2)) →
      Real.sqrt (x ^ 2 + y ^ 2) ≤ ρ * F * |d| → |u' / d - k * (u / d)| ≤ 19 / 16777216 * (k * (ρ * F)) := by
    intro u' u d hd h3 h4
    have e : u' / d - k * (u / d) = (u' - k * u) / d := by ring
    rw [e, abs_div, div_le_iff₀ hd]
    refine h3.trans ?_
    have := mul_le_mul_of_nonneg_left h4 hk.le
    linarith
  have c1 := key ha h1 ra
  have c2 := key hb h2 rb
  have hd : ‖(⟨x' / a, y' / b⟩ : ℂ) - k * ⟨x / a, y / b⟩‖ ≤ 27 / 16777216 * (k * (ρ * F)) := by
    have e : (⟨x' / a, y' / b⟩ : ℂ) - k * ⟨x / a, y / b⟩ = ⟨x' / a - k * (x / a), y' / b - k * (y / b)⟩ := by
      apply Complex.ext <;> simp
    rw [e]
    refine (abs_le_of_sq_le_sq' ?_ (by positivity)).2
    rw [hn, ← sq_abs (x' / a - _), ← sq_abs (y' / b - _)]
    have c3 := pow_le_pow_left₀ (abs_nonneg _) c1 2
    have c4 := pow_le_pow_left₀ (abs_nonneg _) c2 2
    have c5 : 0 ≤ (k * (ρ * F)) ^ 2 := sq_nonneg _
    rw [mul_pow] at c3 c4 ⊢
    linarith
  have ht := norm_sub_norm_le ((k : ℂ) * ⟨x / a, y / b⟩) ⟨x' / a, y' / b⟩
  rw [norm_sub_rev, norm_mul, Complex.norm_real, Real.norm_eq_abs, abs_of_pos hk] at ht
  replace ht := ht.trans hd
  rw [← hF] at hf hf0 ht
  rw [← hG] at hg hg0 ht
  have hF1 : 1 + 40 / 16777216 ≤ F := (abs_le_of_sq_le_sq' (by rw [hf]; norm_num at hN ⊢; linarith) hf0).2
  have hG1 : G ≤ 1 + 18 / 16777216 := (abs_le_of_sq_le_sq' (by
    rw [hg]
    have := (abs_le.1 hE).2
    norm_num at this ⊢
    linarith) (by norm_num)).2
  clear hF hG hd c1 c2 key ra rb hr hn
  by_cases hc : 1 - 32 / 16777216 * ρ ≤ 0
  · nlinarith
  push Not at hc
  have h7 : k * (1 - 32 / 16777216 * ρ) * F ≤ 1 * F := by nlinarith
  exact le_of_mul_le_mul_right h7 (by linarith)

/-- The clipped move is on the ellipse. -/
theorem on_ellipse {a b c s x' y' T : ℝ} (la : 1 / 1024 ≤ |a|) (lb : 1 / 1024 ≤ |b|) (hT : 0 < T)
    (hT2 : T ^ 2 * (b ^ 2 * c ^ 2 + a ^ 2 * s ^ 2) = a ^ 2 * b ^ 2)
    (d1 : |x' - T * c| ≤ 8.8 / 16777216 * (T * |c|) + 1 / 10 ^ 25) (d2 : |y' - T * s| ≤ 8.8 / 16777216 * (T * |s|) + 1 / 10 ^ 25) :
    |ellipse a b x' y' - 1| ≤ 18 / 16777216 := by
  have ha' : a ≠ 0 := abs_pos.1 (by linarith)
  have hb' : b ≠ 0 := abs_pos.1 (by linarith)
  have he : (T * c / a) ^ 2 + (T * s / b) ^ 2 = 1 := by
    field_simp
    linarith
  have t1 : |T * c / a| ≤ 1 := abs_le_of_sq_le_sq (by nlinarith [sq_nonneg (T * s / b)]) (by norm_num)
  have t2 : |T * s / b| ≤ 1 := abs_le_of_sq_le_sq (by nlinarith [sq_nonneg (T * c / a)]) (by norm_num)
  have u1 := unit_err la t1 (by rw [abs_mul, abs_of_pos hT]; exact d1)
  have u2 := unit_err lb t2 (by rw [abs_mul, abs_of_pos hT]; exact d2)
  rw [ellipse]
  obtain ⟨v1, v2⟩ := abs_le.1 u1
  obtain ⟨v3, v4⟩ := abs_le.1 u2
  rw [abs_le]
  constructor <;> linarith

/-- A clipped move is on the ellipse up to `2^-19`, has the direction of the move up to `2^-19` and the angle of the move; it
is not longer than the move unless the ellipse is thin. -/
theorem C100_clip (m : Libm) (hm : m.Accurate) {a b x y : ℝ} (ha : Axis a) (hb : Axis b) (hx : Coord x) (hy : Coord y)
    {t : F32} {p : Pose2D} (h : clipFootWithEllipse m (fin a) (fin b) ⟨fin x, fin y, t⟩ = (true, p)) :
    ∃ x' y' k, p = ⟨fin x', fin y', t⟩ ∧ Coord x' ∧ Coord y' ∧ |ellipse a b x' y' - 1| ≤ 2 ^ (-19 : ℤ) ∧ 0 < k ∧
      |x' - k * x| ≤ 2 ^ (-19 : ℤ) * (k * Real.sqrt (x ^ 2 + y ^ 2)) ∧
      |y' - k * y| ≤ 2 ^ (-19 : ℤ) * (k * Real.sqrt (x ^ 2 + y ^ 2)) ∧
      ∀ ρ, |a| ≤ ρ * |b| → |b| ≤ ρ * |a| → k * (1 - 2 ^ (-19 : ℤ) * ρ) ≤ 1 := by
  obtain ⟨n, κ, a2, b2, k1, k2, h1, q1, q2, g1, g2⟩ := clip_eq m ha hb hx hy t
  have hκ : κ ≤ n := by
    by_contra hc
    rw [g1 (not_le.1 hc)] at h
    exact Bool.false_ne_true (congrArg Prod.fst h)
  rw [g2 hκ] at h
  have hp := (congrArg Prod.snd h).symm
  dsimp only at hp
  have hN : 1.000009 ≤ ellipse a b x y := by
    have := (abs_le.1 h1).2
    linarith
  obtain ⟨c, s, e1, e2, hcs, hc1, hs1⟩ := direction_fin m hm hx.1 hy.1
  rw [e1, e2] at hp
  clear h g1 g2 h1 hκ k1 k2
  obtain ⟨l, T, e3, hT0, hT1, hT2, hl⟩ := length_fin ha hb q1 q2 hcs
  rw [e3] at hp
  have la : 1 / 1024 ≤ |a| := by have := ha.2.1; norm_num at this; linarith
  have lb : 1 / 1024 ≤ |b| := by have := hb.2.1; norm_num at this; linarith
  have ha' : a ≠ 0 := abs_pos.1 (by linarith)
  have hb' : b ≠ 0 := abs_pos.1 (by linarith)
  have hT : 0 < T := by linarith [show (0 : ℝ) < 1 / 10 ^ 10 by norm_num]
  obtain ⟨cs1, cs2⟩ := abs_le.1 hcs
  have hc : |c| ≤ 1.01 := abs_le_of_sq_le_sq (by nlinarith [sq_nonneg s]) (by norm_num)
  have hs : |s| ≤ 1.01 := abs_le_of_sq_le_sq (by nlinarith [sq_nonneg c]) (by norm_num)
  obtain ⟨x', e4, r1, d1, b1⟩ := coord_fin hl hT hT1 (hc.trans (by norm_num))
  obtain ⟨y', e5, r2, d2, b2'⟩ := coord_fin hl hT hT1 (hs.trans (by norm_num))
  rw [e4, e5] at hp
  have hr : 0 < Real.sqrt (x ^ 2 + y ^ 2) := by
    refine Real.sqrt_pos.2 ?_
    by_contra hz
    have hx0 : x = 0 := by nlinarith [sq_nonneg x, sq_nonneg y]
    have hy0 : y = 0 := by nlinarith [sq_nonneg x, sq_nonneg y]
    rw [ellipse, hx0, hy0] at hN
    norm_num at hN
  have f1 := coord_dir hT hr hc d1 hT0 hc1
  have f2 := coord_dir hT hr hs d2 hT0 hs1
  have hE := on_ellipse la lb hT hT2 d1 d2
  have hk := div_pos hT hr
  have e19 : (2 : ℝ) ^ (-19 : ℤ) = 32 / 16777216 := by norm_num
  have hk' : 0 ≤ T / Real.sqrt (x ^ 2 + y ^ 2) * Real.sqrt (x ^ 2 + y ^ 2) := by positivity
  refine ⟨x', y', T / Real.sqrt (x ^ 2 + y ^ 2), hp, ⟨r1, b1⟩, ⟨r2, b2'⟩, ?_, hk, ?_, ?_, fun ρ p1 p2 => ?_⟩
  · rw [e19]
    exact hE.trans (by norm_num)
  · rw [e19]
    linarith
  · rw [e19]
    linarith
  · exact factor_le (abs_pos.2 ha') (abs_pos.2 hb') hk hN hE f1 f2 p1 p2

/-- A second call changes nothing: this is what the margin of the comparison is for. -/
theorem C100_twice (m : Libm) (hm : m.Accurate) {a b x y : ℝ} (ha : Axis a) (hb : Axis b) (hx : Coord x) (hy : Coord y)
    {t : F32} {f : Bool} {p : Pose2D} (h : clipFootWithEllipse m (fin a) (fin b) ⟨fin x, fin y, t⟩ = (f, p)) :
    clipFootWithEllipse m (fin a) (fin b) p = (false, p) ∧
      ∃ x' y', p = ⟨fin x', fin y', t⟩ ∧ ellipse a b x' y' ≤ 1.000011 := by
  cases f with
  | true =>
    obtain ⟨x', y', k, rfl, hx', hy', h1, -⟩ := C100_clip m hm ha hb hx hy h
    have e19 : (2 : ℝ) ^ (-19 : ℤ) = 32 / 16777216 := by norm_num
    rw [e19] at h1
    have := (abs_le.1 h1).2
    exact ⟨C100_inside m ha hb hx' hy' t (by norm_num at this ⊢; linarith), x', y', rfl, by norm_num at this ⊢; linarith⟩
  | false =>
    obtain ⟨n, κ, a2, b2, k1, k2, h1, -, -, g1, g2⟩ := clip_eq m ha hb hx hy t
    have hκ : n < κ := by
      by_contra hc
      rw [g2 (not_lt.1 hc)] at h
      exact Bool.false_ne_true (congrArg Prod.fst h).symm
    rw [g1 hκ] at h
    have hp := congrArg Prod.snd h
    dsimp only at hp
    subst hp
    refine ⟨g1 hκ, x, y, rfl, ?_⟩
    have := (abs_le.1 h1).1
    linarith

/-- A move or an axis that is not a number is reported as clipped; the angle is kept. -/
theorem C100_nan (m : Libm) (a b : F32) (p : Pose2D) (h : p.x = nan ∨ p.y = nan ∨ a = nan ∨ b = nan) :
    (clipFootWithEllipse m a b p).1 = true ∧ (clipFootWithEllipse m a b p).2.theta = p.theta := by
  have hn : add (div (mul p.x p.x) (F64.toFloat (F64.sq (abs a)))) (div (mul p.y p.y) (F64.toFloat (F64.sq (abs b)))) = nan := by
    have n1 : ∀ v, div nan v = nan := fun v => by cases v <;> rfl
    have n2 : ∀ v, div v nan = nan := fun v => by cases v <;> rfl
    have n3 : F64.toFloat (F64.sq (abs nan)) = nan := rfl
    rcases h with h | h | h | h
    · rw [h, nan_mul, n1, nan_add]
    · rw [h, nan_mul, n1, add_nan]
    · rw [h, n3, n2, nan_add]
    · rw [h, n3, n2, add_nan]
  dsimp only [clipFootWithEllipse]
  rw [hn, if_neg (nan_not_lt _)]
  exact ⟨rfl, rfl⟩

/-- With an axis of length zero every move is reported as clipped, even the zero move. -/
theorem C100_zero_axis (m : Libm) {b x y : ℝ} (hb : Axis b) (hx : Coord x) (hy : Coord y) (t : F32) :
    (clipFootWithEllipse m (fin 0) (fin b) ⟨fin x, fin y, t⟩).1 = true ∧
      (clipFootWithEllipse m (fin b) (fin 0) ⟨fin x, fin y, t⟩).1 = true := by
  have z : F64.toFloat (F64.sq (abs (fin 0))) = fin 0 := by
    have e1 : F64.sq (abs (fin 0)) = fin 0 := by
      rw [abs, abs_zero, F64.sq, F64.mul, mul_zero, F64.round_fin (by norm_num), F64.rnd_zero]
    rw [e1, F64.toFloat, round_fin (by norm_num), rnd_zero]
  have inf : ∀ {u : ℝ}, Coord u → div (mul (fin u) (fin u)) (fin 0) = pinf ∨ div (mul (fin u) (fin u)) (fin 0) = nan := by
    intro u hu
    have hu2 : |u * u| ≤ 2 ^ 127 := by
      rw [abs_mul]
      calc |u| * |u| ≤ 2 ^ 40 * 2 ^ 40 := mul_le_mul hu.2 hu.2 (abs_nonneg u) (by norm_num)
        _ ≤ _ := by norm_num
    have h0 : 0 ≤ rnd (u * u) := by
      have := rnd_mono (mul_self_nonneg u)
      rwa [rnd_zero] at this
    rw [mul_fin hu2, div, if_pos rfl, infOf]
    split_ifs with h1 h2
    · exact .inl rfl
    · exact absurd h2 (not_lt.2 h0)
    · exact .inr rfl
  obtain ⟨κ, e4, -⟩ := limit_fin
  obtain ⟨b2, e1, h1, l1, -⟩ := square_fin hb
  constructor
  · obtain ⟨q, f2, -⟩ := part_fin hy.2 h1 l1
    dsimp only [clipFootWithEllipse]
    rw [z, e1, e4, f2]
    rcases inf hx with h | h <;> rw [h]
    · rw [if_neg (by simp [add, lt])]
    · rw [if_neg (by simp [add, lt])]
  · obtain ⟨q, f2, -⟩ := part_fin hx.2 h1 l1
    dsimp only [clipFootWithEllipse]
    rw [z, e1, e4, f2]
    rcases inf hy with h | h <;> rw [h]
    · rw [if_neg (by simp [add, lt])]
    · rw [if_neg (by simp [add, lt])]

/-- A move of one metre straight ahead with half axes of 1/2 and 1/4. -/
example : Axis (1 / 2) ∧ Axis (1 / 4) ∧ Coord 1 ∧ Coord 0 ∧ 1.000011 ≤ ellipse (1 / 2) (1 / 4) 1 0 ∧
    (clipFootWithEllipse Libm.rounded (fin (1 / 2)) (fin (1 / 4)) ⟨fin 1, fin 0, nan⟩).1 = true := by
  have h1 : Axis (1 / 2) := ⟨by
    have := Rep.two_zpow (e := -1) (by norm_num) (by norm_num)
    norm_num at this ⊢
    exact this, by norm_num, by norm_num⟩
  have h2 : Axis (1 / 4) := ⟨by
    have := Rep.two_zpow (e := -2) (by norm_num) (by norm_num)
    norm_num at this ⊢
    exact this, by norm_num, by norm_num⟩
  have h3 : Coord 1 := ⟨Rep.one, by norm_num⟩
  have h4 : Coord 0 := ⟨Rep.zero, by norm_num⟩
  have h5 : 1.000011 ≤ ellipse (1 / 2) (1 / 4) 1 0 := by norm_num [ellipse]
  exact ⟨h1, h2, h3, h4, h5, C100_outside _ h1 h2 h3 h4 _ h5⟩

end AlMath.F32
