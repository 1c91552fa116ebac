import Verif.Lemmas.FloatLog
import Verif.Props.C101

/-!
Errors of the coefficients of `transformLogarithm`: rounding.
-/

namespace AlMath.F32

open AlMath.Spec

namespace Spec

/-- `std::atan2(y, x)` is off by at most `2^-22` times the exact angle, for `y` from `2^-10` to 2 and `x` from -2 to 2. Not in
/repo: specification. -/
def Atan2Accurate (atan2 : F32 → F32 → F32) : Prop :=
  ∀ y x, Rep y → Rep x → 2 ^ (-10 : ℤ) ≤ y → y ≤ 2 → |x| ≤ 2 → ∃ a, atan2 (fin y) (fin x) = fin a ∧ Rep a ∧
    |a - Complex.arg ⟨x, y⟩| ≤ 2 ^ (-22 : ℤ) * Complex.arg ⟨x, y⟩

/-- `std::pow(x, 2)` is off by at most `2^-50` times the exact square, where it matters here. Not in /repo: specification. -/
def Pow2Accurate (pow2 : F32 → F64) : Prop :=
  ∀ x, Rep x → 2 ^ (-2 : ℤ) ≤ x → x ≤ 2 ^ 12 → ∃ p, pow2 (fin x) = fin p ∧ |p - x ^ 2| ≤ 2 ^ (-50 : ℤ) * x ^ 2

end Spec

open Spec

/-! ### Relative errors -/

theorem rel_mul {x X y Y a b : ℝ} (hx : |x - X| ≤ a * |X|) (hy : |y - Y| ≤ b * |Y|) (a0 : 0 ≤ a) :
    |x * y - X * Y| ≤ (a + b + a * b) * |X * Y| := by
  have e : x * y - X * Y = X * (y - Y) + (x - X) * Y + (x - X) * (y - Y) := by ring
  rw [e]
  refine (abs_add_le _ _).trans ?_
  have k1 := abs_add_le (X * (y - Y)) ((x - X) * Y)
  rw [abs_mul, abs_mul] at k1
  rw [abs_mul (x - X) (y - Y), abs_mul X Y]
  have h1 := mul_le_mul_of_nonneg_left hy (abs_nonneg X)
  have h2 := mul_le_mul_of_nonneg_right hx (abs_nonneg Y)
  have h3 := mul_le_mul hx hy (abs_nonneg _) (mul_nonneg a0 (abs_nonneg X))
  nlinarith

theorem rel_rnd {x X a : ℝ} (hx : |x - X| ≤ a * |X|) (ha : a ≤ 1 / 1000) (hX : 1 / 10 ^ 15 ≤ |X|) :
    |rnd x - X| ≤ (a + 1.01 / 16777216) * |X| := by
  have r := rnd_bnd x
  have k := abs_add_le (rnd x - x) (x - X)
  rw [sub_add_sub_cancel] at k
  have h := le_of_err hx
  have : a * |X| ≤ 1 / 1000 * |X| := mul_le_mul_of_nonneg_right ha (abs_nonneg X)
  norm_num at *
  linarith

/-! ### Differences of entries, sine and cosine -/

theorem entry_diff_fin {x y X Y ε : ℝ} (hx : |x - X| ≤ ε) (hy : |y - Y| ≤ ε) (h : |X - Y| ≤ 2) (hε : ε ≤ 0.01) :
    sub (fin x) (fin y) = fin (rnd (x - y)) ∧ Rep (rnd (x - y)) ∧ |rnd (x - y) - (X - Y)| ≤ 2 * ε + 2.1 / 16777216 := by
  have k : |x - y - (X - Y)| ≤ 2 * ε := by
    rw [abs_le] at *
    constructor <;> linarith
  have k2 := le_of_err k
  have k3 : |x - y| ≤ 2.02 := by norm_num at *; linarith
  have r := rnd_bnd (x - y)
  refine ⟨sub_fin (k3.trans (by norm_num)), rnd_rep (k3.trans (by norm_num)), ?_⟩
  have := abs_add_le (rnd (x - y) - (x - y)) (x - y - (X - Y))
  rw [sub_add_sub_cancel] at this
  norm_num at *
  linarith

theorem norm_diff {a b c n1 n2 n3 σ δ t : ℝ} (hn : n1 ^ 2 + n2 ^ 2 + n3 ^ 2 = 1) (σ0 : 0 ≤ σ) (ha : |a - 2 * σ * n1| ≤ δ)
    (hb : |b - 2 * σ * n2| ≤ δ) (hc : |c - 2 * σ * n3| ≤ δ) (t0 : 0 ≤ t) (ht : t ^ 2 = a * a + b * b + c * c) :
    |t - 2 * σ| ≤ 1.74 * δ := by
  have δ0 := (abs_nonneg _).trans ha
  obtain ⟨x, hx⟩ : ∃ x, x = a - 2 * σ * n1 := ⟨_, rfl⟩
  obtain ⟨y, hy⟩ : ∃ y, y = b - 2 * σ * n2 := ⟨_, rfl⟩
  obtain ⟨z, hz⟩ : ∃ z, z = c - 2 * σ * n3 := ⟨_, rfl⟩
  rw [← hx] at ha
  rw [← hy] at hb
  rw [← hz] at hc
  have x2 : x ^ 2 ≤ δ ^ 2 := sq_le_sq' (abs_le.1 ha).1 (abs_le.1 ha).2
  have y2 : y ^ 2 ≤ δ ^ 2 := sq_le_sq' (abs_le.1 hb).1 (abs_le.1 hb).2
  have z2 : z ^ 2 ≤ δ ^ 2 := sq_le_sq' (abs_le.1 hc).1 (abs_le.1 hc).2
  obtain ⟨p, hp⟩ : ∃ p, p = n1 * x + n2 * y + n3 * z := ⟨_, rfl⟩
  have cs : p ^ 2 ≤ x ^ 2 + y ^ 2 + z ^ 2 := by
    have : (x ^ 2 + y ^ 2 + z ^ 2) * (n1 ^ 2 + n2 ^ 2 + n3 ^ 2) - p ^ 2 =
        (n1 * y - n2 * x) ^ 2 + (n1 * z - n3 * x) ^ 2 + (n2 * z - n3 * y) ^ 2 := by rw [hp]; ring
    rw [hn, mul_one] at this
    nlinarith [sq_nonneg (n1 * y - n2 * x), sq_nonneg (n1 * z - n3 * x), sq_nonneg (n2 * z - n3 * y)]
  have e : t ^ 2 = 4 * σ ^ 2 + 4 * σ * p + (x ^ 2 + y ^ 2 + z ^ 2) := by
    rw [ht, hp, show a = x + 2 * σ * n1 by linarith, show b = y + 2 * σ * n2 by linarith,
      show c = z + 2 * σ * n3 by linarith]
    linear_combination (4 * σ ^ 2) * hn
  have p1 : |p| ≤ 1.74 * δ := by
    refine abs_le_of_sq_le_sq ?_ (by positivity)
    nlinarith
  obtain ⟨p2, p3⟩ := abs_le.1 p1
  rw [abs_le]
  constructor
  · by_contra hcon
    push Not at hcon
    have : t ^ 2 < (2 * σ + p) ^ 2 := by nlinarith
    nlinarith
  · by_contra hcon
    push Not at hcon
    have : (2 * σ + 1.74 * δ) ^ 2 < t ^ 2 := by nlinarith
    nlinarith [mul_nonneg σ0 δ0, mul_le_mul_of_nonneg_left p3 σ0]

theorem si_fin {a b c t : ℝ} (ht : t ^ 2 = a * a + b * b + c * c) (t0 : 0.001 ≤ t) (h : t ≤ 4) :
    ∃ s, mul (fin 0.5) (sqrt (add (add (mul (fin a) (fin a)) (mul (fin b) (fin b))) (mul (fin c) (fin c)))) = fin s ∧ Rep s ∧
      |2 * s - t| ≤ 4.2 / 16777216 * t := by
  obtain ⟨T, h1, -, -, -, h4⟩ := speed_fin ht (by linarith) (by linarith)
  have h5 := h4 (by linarith)
  obtain ⟨k1, k2⟩ := abs_le.1 h5
  have T0 : 0 < T := by linarith
  have b1 : |0.5 * T| = 0.5 * T := abs_of_pos (by linarith)
  have b2 : |0.5 * T| ≤ 2 ^ 127 := by rw [b1]; norm_num; linarith
  have r := rnd_bnd (0.5 * T)
  rw [b1] at r
  refine ⟨rnd (0.5 * T), by rw [h1, mul_fin b2], rnd_rep b2, ?_⟩
  rw [abs_le] at *
  constructor <;> norm_num at * <;> linarith

theorem co_fin {x y z X Y Z ε : ℝ} (hx : |x - X| ≤ ε) (hy : |y - Y| ≤ ε) (hz : |z - Z| ≤ ε) (hX : |X| ≤ 1) (hY : |Y| ≤ 1)
    (hZ : |Z| ≤ 1) (hε : ε ≤ 0.01) :
    ∃ c, mul (fin 0.5) (sub (add (add (fin x) (fin y)) (fin z)) (fin 1)) = fin c ∧ Rep c ∧
      |c - 0.5 * (X + Y + Z - 1)| ≤ 1.5 * ε + 7 / 16777216 := by
  rw [abs_le] at hx hy hz hX hY hZ
  have b1 : |x + y| ≤ 2.02 := by rw [abs_le]; constructor <;> norm_num at * <;> linarith
  have r1 := rnd_bnd (x + y)
  have m1 : add (fin x) (fin y) = fin (rnd (x + y)) := add_fin (b1.trans (by norm_num))
  generalize rnd (x + y) = p at *
  have r1' : |p - (x + y)| ≤ 2.03 / 16777216 := by norm_num at *; linarith
  rw [abs_le] at r1'
  have b2 : |p + z| ≤ 3.04 := by rw [abs_le]; constructor <;> norm_num at * <;> linarith
  have r2 := rnd_bnd (p + z)
  have m2 : add (fin p) (fin z) = fin (rnd (p + z)) := add_fin (b2.trans (by norm_num))
  generalize rnd (p + z) = q at *
  have r2' : |q - (p + z)| ≤ 3.05 / 16777216 := by norm_num at *; linarith
  rw [abs_le] at r2'
  have b3 : |q - 1| ≤ 4.05 := by rw [abs_le]; constructor <;> norm_num at * <;> linarith
  have r3 := rnd_bnd (q - 1)
  have m3 : sub (fin q) (fin 1) = fin (rnd (q - 1)) := sub_fin (b3.trans (by norm_num))
  generalize rnd (q - 1) = w at *
  have r3' : |w - (q - 1)| ≤ 4.06 / 16777216 := by norm_num at *; linarith
  rw [abs_le] at r3'
  have b4 : |0.5 * w| ≤ 2.05 := by
    rw [abs_le] at b3 ⊢
    constructor <;> norm_num at * <;> linarith
  have r4 := rnd_bnd (0.5 * w)
  have m4 : mul (fin 0.5) (fin w) = fin (rnd (0.5 * w)) := mul_fin (b4.trans (by norm_num))
  have r4' : |rnd (0.5 * w) - 0.5 * w| ≤ 2.06 / 16777216 := by norm_num at *; linarith
  rw [abs_le] at r4'
  refine ⟨rnd (0.5 * w), by rw [m1, m2, m3, m4], rnd_rep (b4.trans (by norm_num)), ?_⟩
  rw [abs_le]
  clear r1 r2 r3 r4 m1 m2 m3 m4 b1 b2 b3 b4
  constructor <;> norm_num at * <;> linarith

/-! ### The coefficients -/

/-- `coeff`. -/
theorem k_fin {a φ s : ℝ} (ha : |a - φ| ≤ 4 / 16777216 * φ) (φ0 : 0.001 ≤ φ) (φ1 : φ ≤ 3.15) (s0 : 0.001 ≤ s) (s1 : s ≤ 1.01) :
    ∃ k, div (fin a) (mul (fin 2) (fin s)) = fin k ∧ Rep k ∧ |k * (2 * s) - φ| ≤ 6.2 / 16777216 * φ := by
  have b : |2 * s| = 2 * s := abs_of_pos (by linarith)
  have b2 : |2 * s| ≤ 2 ^ 127 := by rw [b]; norm_num; linarith
  have r : |rnd (2 * s) - 2 * s| ≤ (0 + 1.01 / 16777216) * |2 * s| :=
    rel_rnd (by simp) (by norm_num) (by rw [b]; norm_num at *; linarith)
  rw [b] at r
  have fa : |φ| = φ := abs_of_pos (by linarith)
  obtain ⟨k, h1, h2, -, h4⟩ := quot32 (p := a) (X := φ) (d := rnd (2 * s)) (D := 2 * s) (ε := 4 / 16777216 * φ)
    (δ := 0 + 1.01 / 16777216) (by norm_num at *; linarith) (by norm_num at *; linarith) ha r (by norm_num)
    (by rw [fa]; norm_num at *; linarith) (by norm_num at *; linarith)
  rw [fa] at h4
  refine ⟨k, by rw [mul_fin b2, h1], h2, h4.trans ?_⟩
  norm_num at *
  linarith

/-- `coeff_2`. -/
theorem c2_fin {pow2 : F32 → F64} (hp : Pow2Accurate pow2) {k φ s : ℝ} (hk : Rep k) (h : |k * (2 * s) - φ| ≤ 6.2 / 16777216 * φ)
    (φ0 : 0.001 ≤ φ) (φ1 : φ ≤ 3.15) (s0 : 0.001 ≤ s) (s1 : s ≤ 1.01 * φ) :
    ∃ c, F64.toFloat (pow2 (fin k)) = fin c ∧ Rep c ∧ |c| ≤ 10 ^ 7 ∧ |c * (4 * s ^ 2) - φ ^ 2| ≤ 14 / 16777216 * φ ^ 2 := by
  obtain ⟨h1, h2⟩ := abs_le.1 h
  have k0 : 2 ^ (-2 : ℤ) ≤ k := by
    by_contra hc
    push Not at hc
    norm_num at hc
    nlinarith
  have k1 : k ≤ 1600 := by
    by_contra hc
    push Not at hc
    nlinarith
  obtain ⟨p, hp1, hp2⟩ := hp k hk k0 (by norm_num at *; linarith)
  have kk : 0 < k := lt_of_lt_of_le (by norm_num) k0
  have w : (2 : ℝ) ^ (-50 : ℤ) = 1 / 1125899906842624 := by norm_num
  rw [w] at hp2
  have k2 : |k ^ 2| = k ^ 2 := abs_of_pos (by positivity)
  have k3 : k ^ 2 ≤ 2560000 := by nlinarith
  have k4 : 1 / 16 ≤ k ^ 2 := by norm_num at k0; nlinarith
  have pb : |p| ≤ 10 ^ 7 - 1 := by
    have := le_of_err hp2
    rw [k2] at this
    norm_num at *
    linarith
  have r : |rnd p - k ^ 2| ≤ (1 / 1125899906842624 + 1.01 / 16777216) * |k ^ 2| :=
    rel_rnd (by rw [k2]; exact hp2) (by norm_num) (by rw [k2]; norm_num at *; linarith)
  have pb2 : |p| ≤ 2 ^ 127 := pb.trans (by norm_num)
  refine ⟨rnd p, by rw [hp1, F64.toFloat, round_fin pb2], rnd_rep pb2, ?_, ?_⟩
  · have := le_of_err r
    rw [k2] at this
    norm_num at *
    linarith
  · have f0 : |φ| = φ := abs_of_pos (by linarith)
    have sq : |k * (2 * s) * (k * (2 * s)) - φ * φ| ≤ (6.2 / 16777216 + 6.2 / 16777216 + 6.2 / 16777216 * (6.2 / 16777216)) *
        |φ * φ| := rel_mul (by rwa [f0]) (by rwa [f0]) (by norm_num)
    have e1 : k * (2 * s) * (k * (2 * s)) = k ^ 2 * (4 * s ^ 2) := by ring
    have e2 : φ * φ = φ ^ 2 := by ring
    have f2 : |φ ^ 2| = φ ^ 2 := abs_of_nonneg (sq_nonneg _)
    rw [e1, e2, f2] at sq
    have r2 := mul_le_mul_of_nonneg_right r (show 0 ≤ 4 * s ^ 2 by positivity)
    rw [k2] at r2
    have e3 : |rnd p - k ^ 2| * (4 * s ^ 2) = |rnd p * (4 * s ^ 2) - k ^ 2 * (4 * s ^ 2)| := by
      rw [← sub_mul, abs_mul, abs_of_nonneg (show 0 ≤ 4 * s ^ 2 by positivity)]
    rw [e3, mul_assoc] at r2
    have := abs_add_le (rnd p * (4 * s ^ 2) - k ^ 2 * (4 * s ^ 2)) (k ^ 2 * (4 * s ^ 2) - φ ^ 2)
    rw [sub_add_sub_cancel] at this
    have hb := (abs_le.1 sq).2
    have := sq_nonneg φ
    generalize k ^ 2 * (4 * s ^ 2) = K at *
    generalize rnd p * (4 * s ^ 2) = R at *
    generalize φ ^ 2 = F at *
    clear e1 e2 e3 hp2 pb pb2 r hp1 k0 k1 k3 k4 h h1 h2 w
    norm_num at r2 sq hb ⊢
    linarith

/-- The denominator of `lambda`. -/
theorem lam_denom {a φ s : ℝ} (ha : |a - φ| ≤ 4 / 16777216 * φ) (φ0 : 0.001 ≤ φ) (φ1 : φ ≤ 3.15) (s0 : 0.001 ≤ s)
    (s2 : s ≤ 1.01) : |a * a| ≤ 2 ^ 127 ∧ |rnd (a * a) * s| ≤ 2 ^ 127 ∧
      |rnd (rnd (a * a) * s) - φ * φ * s| ≤ 10.1 / 16777216 * (φ * φ * s) ∧ 1 / 10 ^ 9 ≤ φ * φ * s ∧ φ * φ * s ≤ 11 := by
  have f0 : |φ| = φ := abs_of_pos (by linarith)
  have g1 : |a * a - φ * φ| ≤ (4 / 16777216 + 4 / 16777216 + 4 / 16777216 * (4 / 16777216)) * |φ * φ| :=
    rel_mul (by rwa [f0]) (by rwa [f0]) (by norm_num)
  have ff : 1 / 10 ^ 6 ≤ φ * φ := by nlinarith
  have ff2 : φ * φ ≤ 10 := by nlinarith
  have f1 : |φ * φ| = φ * φ := abs_of_nonneg (mul_self_nonneg _)
  generalize φ * φ = F at *
  clear f0 φ0 φ1 ha
  have g1' : |a * a - F| ≤ 8.01 / 16777216 * |F| := g1.trans (mul_le_mul_of_nonneg_right (by norm_num) (abs_nonneg _))
  clear g1
  have g2 := rel_rnd g1' (by norm_num) (by rw [f1]; norm_num at ff ⊢; linarith)
  have g3 : |s - s| ≤ 0 * |s| := by simp
  have g4 := rel_mul g2 g3 (by norm_num)
  have fs : 1 / 10 ^ 9 ≤ F * s := by norm_num at *; nlinarith
  have fs2 : F * s ≤ 11 := by nlinarith
  have f2 : |F * s| = F * s := abs_of_pos (lt_of_lt_of_le (by norm_num) fs)
  have g5 := rel_rnd g4 (by norm_num) (by rw [f2]; norm_num at fs ⊢; linarith)
  rw [f2] at g5 g4
  rw [f1] at g1'
  refine ⟨?_, ?_, ?_, fs, fs2⟩
  · have := le_of_err g1'
    rw [f1] at this
    norm_num at this ff2 ⊢
    linarith
  · have := le_of_err g4
    rw [f2] at this
    norm_num at this fs2 ⊢
    linarith
  · refine g5.trans (mul_le_mul_of_nonneg_right (by norm_num) ?_)
    exact le_trans (by norm_num) fs

/-- `lambda`. -/
theorem lam_fin {a φ s c : ℝ} (ha : |a - φ| ≤ 4 / 16777216 * φ) (φ0 : 0.001 ≤ φ) (φ1 : φ ≤ 3.15) (s0 : 0.001 ≤ s)
    (s1 : s ≤ 1.01 * φ) (s2 : s ≤ 1.01) (c0 : -1.01 ≤ c) (c1 : c ≤ 1.01) :
    ∃ l, div (mul (fin 0.5) (sub (mul (fin 2) (fin s)) (mul (fin a) (add (fin 1) (fin c)))))
        (mul (mul (fin a) (fin a)) (fin s)) = fin l ∧ Rep l ∧
      |l * (φ * φ * s) - 0.5 * (2 * s - φ * (1 + c))| ≤ 23 / 16777216 * φ := by
  have f0 : |φ| = φ := abs_of_pos (by linarith)
  obtain ⟨a1, a2⟩ := abs_le.1 ha
  -- numerator
  have b1 : |1 + c| ≤ 2.01 := by rw [abs_le]; constructor <;> linarith
  have m1 : add (fin 1) (fin c) = fin (rnd (1 + c)) := add_fin (b1.trans (by norm_num))
  have r1 : |rnd (1 + c) - (1 + c)| ≤ 2.02 / 16777216 := by
    have := rnd_bnd (1 + c)
    norm_num at *
    linarith
  have p1 : |a * rnd (1 + c) - φ * (1 + c)| ≤ 10.2 / 16777216 * φ := by
    have e : a * rnd (1 + c) - φ * (1 + c) = (a - φ) * rnd (1 + c) + φ * (rnd (1 + c) - (1 + c)) := by ring
    rw [e]
    refine (abs_add_le _ _).trans ?_
    rw [abs_mul, abs_mul, f0]
    have b2 : |rnd (1 + c)| ≤ 2.02 := by
      have := le_of_err r1
      norm_num at *
      linarith
    have t1 := mul_le_mul ha b2 (abs_nonneg _) (by positivity)
    have t2 := mul_le_mul_of_nonneg_left r1 (show 0 ≤ φ by linarith)
    norm_num at *
    linarith
  have q1 : |φ * (1 + c)| ≤ 2.01 * φ := by
    rw [abs_mul, f0]
    nlinarith
  have q2 : |a * rnd (1 + c)| ≤ 2.02 * φ := by
    have := le_of_err p1
    norm_num at *
    linarith
  have m2 : mul (fin a) (fin (rnd (1 + c))) = fin (rnd (a * rnd (1 + c))) := mul_fin (q2.trans (by norm_num; linarith))
  have r2 := rnd_bnd (a * rnd (1 + c))
  rw [m1, m2]
  generalize a * rnd (1 + c) = x at *
  have b3 : |2 * s| = 2 * s := abs_of_pos (by linarith)
  have m3 : mul (fin 2) (fin s) = fin (rnd (2 * s)) := mul_fin (by rw [b3]; norm_num; linarith)
  have r3 := rnd_bnd (2 * s)
  rw [m3]
  rw [b3] at r3
  generalize rnd (2 * s) = y at *
  generalize rnd x = z at *
  have p2 : |y - z - (2 * s - φ * (1 + c))| ≤ 15.5 / 16777216 * φ := by
    have e : y - z - (2 * s - φ * (1 + c)) = (y - 2 * s) - ((z - x) + (x - φ * (1 + c))) := by ring
    rw [e]
    have t1 := abs_sub (y - 2 * s) ((z - x) + (x - φ * (1 + c)))
    have t2 := abs_add_le (z - x) (x - φ * (1 + c))
    norm_num at *
    linarith
  have q3 : |2 * s - φ * (1 + c)| ≤ 2.03 * φ := by
    rw [abs_le]
    constructor <;> nlinarith
  have q4 : |y - z| ≤ 2.04 * φ := by
    have := le_of_err p2
    norm_num at *
    linarith
  have m4 : sub (fin y) (fin z) = fin (rnd (y - z)) := sub_fin (q4.trans (by norm_num; linarith))
  have r4 := rnd_bnd (y - z)
  rw [m4]
  have p3 : |rnd (y - z) - (2 * s - φ * (1 + c))| ≤ 17.6 / 16777216 * φ := by
    have := abs_add_le (rnd (y - z) - (y - z)) (y - z - (2 * s - φ * (1 + c)))
    rw [sub_add_sub_cancel] at this
    norm_num at *
    linarith
  generalize rnd (y - z) = v at *
  clear q1 p1 p2 r2 r3 r4 m1 m2 m3 m4 b1 r1 q4
  generalize 2 * s - φ * (1 + c) = N at *
  have p4 : |0.5 * v - 0.5 * N| ≤ 8.8 / 16777216 * φ := by
    rw [← mul_sub, abs_mul, abs_of_pos (by norm_num)]
    norm_num at *
    linarith
  have q5 : |0.5 * N| ≤ 1.015 * φ := by
    rw [abs_mul, abs_of_pos (by norm_num)]
    norm_num at *
    linarith
  have q6 : |0.5 * v| ≤ 1.02 * φ := by
    have := le_of_err p4
    norm_num at *
    linarith
  have m5 : mul (fin 0.5) (fin v) = fin (rnd (0.5 * v)) := mul_fin (q6.trans (by norm_num; linarith))
  have r5 := rnd_bnd (0.5 * v)
  rw [m5]
  have p5 : |rnd (0.5 * v) - 0.5 * N| ≤ 9.9 / 16777216 * φ := by
    have := abs_add_le (rnd (0.5 * v) - 0.5 * v) (0.5 * v - 0.5 * N)
    rw [sub_add_sub_cancel] at this
    norm_num at *
    linarith
  obtain ⟨n1, n2, g5, fs, fs2⟩ := lam_denom ha φ0 φ1 s0 s2
  rw [mul_fin n1, mul_fin n2]
  obtain ⟨l, h1, h2, -, h4⟩ := quot32 (p := rnd (0.5 * v)) (X := 0.5 * N) (d := rnd (rnd (a * a) * s)) (D := φ * φ * s)
    (by norm_num at *; linarith) (by norm_num at *; linarith) p5 g5 (by norm_num) (by norm_num at *; linarith)
    (by norm_num at *; linarith)
  refine ⟨l, h1, h2, h4.trans ?_⟩
  clear g5 h4 h1 n1 n2 m5 r5 p3 p4 p5 q6 q3 fs fs2 ha a1 a2 f0
  norm_num at q5 φ0 ⊢
  linarith

end AlMath.F32
