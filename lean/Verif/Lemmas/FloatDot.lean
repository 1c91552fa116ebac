import Verif.Lemmas.Float32
import Verif.Model.FloatTypes

/-!
Rounding errors of sums of products and of square roots.
-/

namespace AlMath.F32

theorem two_neg24 : (2 : ℝ) ^ (-24 : ℤ) = 1 / 16777216 := by norm_num

theorem eta_pos : (0 : ℝ) < 2 ^ (-150 : ℤ) := two_zpow_pos _

theorem four_eta : (2 : ℝ) ^ (-148 : ℤ) = 4 * 2 ^ (-150 : ℤ) := by
  rw [show (-148 : ℤ) = 2 + -150 by norm_num, zpow_add₀ (by norm_num)]
  norm_num

theorem eta_le : (2 : ℝ) ^ (-150 : ℤ) ≤ 1 := zpow_le_one_of_nonpos₀ (by norm_num) (by norm_num)

theorem mul_fin {x y : ℝ} (h : |x * y| ≤ 2 ^ 127) : mul (fin x) (fin y) = fin (rnd (x * y)) := round_fin h

theorem add_fin {x y : ℝ} (h : |x + y| ≤ 2 ^ 127) : add (fin x) (fin y) = fin (rnd (x + y)) := round_fin h

theorem sub_fin {x y : ℝ} (h : |x - y| ≤ 2 ^ 127) : sub (fin x) (fin y) = fin (rnd (x - y)) := by
  rw [sub, neg, add, ← sub_eq_add_neg, round_fin h]

theorem rnd_rep {x : ℝ} (h : |x| ≤ 2 ^ 127) : Rep (rnd x) := grid_rep (rnd_grid x) (rnd_lt_of_abs_le h)

theorem le_of_err {a b e : ℝ} (h : |a - b| ≤ e) : |a| ≤ |b| + e := by
  have := abs_sub_abs_le_abs_sub a b
  linarith

/-- Error of one rounded product and its magnitude. -/
theorem rnd_mul (x y : ℝ) : |rnd (x * y) - x * y| ≤ 2 ^ (-24 : ℤ) * (|x| * |y|) + 2 ^ (-150 : ℤ) := by
  have := rnd_gen (x * y)
  rwa [abs_mul] at this

/-- A sum of three products that does not overflow, with the error. -/
theorem dot_fin {a b c x y z : ℝ} (h : |a| * |x| + |b| * |y| + |c| * |z| ≤ 2 ^ 125) :
    ∃ d, dot (fin a) (fin b) (fin c) (fin x) (fin y) (fin z) = fin d ∧ Rep d ∧
      |d - (a * x + b * y + c * z)| ≤ 2 ^ (-22 : ℤ) * (|a| * |x| + |b| * |y| + |c| * |z|) + 2 ^ (-148 : ℤ) := by
  have p1 := rnd_mul a x
  have p2 := rnd_mul b y
  have p3 := rnd_mul c z
  have n1 : 0 ≤ |a| * |x| := by positivity
  have n2 : 0 ≤ |b| * |y| := by positivity
  have n3 : 0 ≤ |c| * |z| := by positivity
  have b1 : |rnd (a * x)| ≤ |a| * |x| + (2 ^ (-24 : ℤ) * (|a| * |x|) + 2 ^ (-150 : ℤ)) := by
    rw [← abs_mul a x] at p1 ⊢
    exact le_of_err p1
  have b2 : |rnd (b * y)| ≤ |b| * |y| + (2 ^ (-24 : ℤ) * (|b| * |y|) + 2 ^ (-150 : ℤ)) := by
    rw [← abs_mul b y] at p2 ⊢
    exact le_of_err p2
  have b3 : |rnd (c * z)| ≤ |c| * |z| + (2 ^ (-24 : ℤ) * (|c| * |z|) + 2 ^ (-150 : ℤ)) := by
    rw [← abs_mul c z] at p3 ⊢
    exact le_of_err p3
  have s := rnd_add (rnd_grid (a * x)) (rnd_grid (b * y))
  have bs := le_of_err s
  have bs' := abs_add_le (rnd (a * x)) (rnd (b * y))
  have t := rnd_add (rnd_grid (rnd (a * x) + rnd (b * y))) (rnd_grid (c * z))
  have bt' := abs_add_le (rnd (rnd (a * x) + rnd (b * y))) (rnd (c * z))
  have m1 : |a * x| = |a| * |x| := abs_mul _ _
  have m2 : |b * y| = |b| * |y| := abs_mul _ _
  have m3 : |c * z| = |c| * |z| := abs_mul _ _
  have he := eta_pos
  have he1 := eta_le
  have h22 : (2 : ℝ) ^ (-22 : ℤ) = 1 / 4194304 := by norm_num
  rw [h22, four_eta]
  rw [two_neg24] at *
  generalize (2 : ℝ) ^ (-150 : ℤ) = η at *
  have big : (2 : ℝ) ^ 125 + 2 ^ 125 ≤ 2 ^ 127 := by norm_num
  have big1 : (16 : ℝ) ≤ 2 ^ 125 := by norm_num
  refine ⟨rnd (rnd (rnd (a * x) + rnd (b * y)) + rnd (c * z)), ?_, rnd_rep ?_, ?_⟩
  · rw [dot, mul_fin, mul_fin, mul_fin, add_fin, add_fin]
    all_goals (try rw [m1]) <;> (try rw [m2]) <;> (try rw [m3]) <;>
      generalize (2 : ℝ) ^ 125 = M at * <;> generalize (2 : ℝ) ^ 127 = M' at * <;> linarith
  · generalize (2 : ℝ) ^ 125 = M at *
    generalize (2 : ℝ) ^ 127 = M' at *
    linarith
  · have e : rnd (rnd (rnd (a * x) + rnd (b * y)) + rnd (c * z)) - (a * x + b * y + c * z) =
        (rnd (rnd (rnd (a * x) + rnd (b * y)) + rnd (c * z)) - (rnd (rnd (a * x) + rnd (b * y)) + rnd (c * z))) +
        (rnd (rnd (a * x) + rnd (b * y)) - (rnd (a * x) + rnd (b * y))) +
        (rnd (a * x) - a * x) + (rnd (b * y) - b * y) + (rnd (c * z) - c * z) := by ring
    rw [e]
    have q1 := abs_add_le ((rnd (rnd (rnd (a * x) + rnd (b * y)) + rnd (c * z)) - (rnd (rnd (a * x) + rnd (b * y)) + rnd (c * z))) +
        (rnd (rnd (a * x) + rnd (b * y)) - (rnd (a * x) + rnd (b * y))) +
        (rnd (a * x) - a * x) + (rnd (b * y) - b * y)) (rnd (c * z) - c * z)
    have q2 := abs_add_le ((rnd (rnd (rnd (a * x) + rnd (b * y)) + rnd (c * z)) - (rnd (rnd (a * x) + rnd (b * y)) + rnd (c * z))) +
        (rnd (rnd (a * x) + rnd (b * y)) - (rnd (a * x) + rnd (b * y))) +
        (rnd (a * x) - a * x)) (rnd (b * y) - b * y)
    have q3 := abs_add_le ((rnd (rnd (rnd (a * x) + rnd (b * y)) + rnd (c * z)) - (rnd (rnd (a * x) + rnd (b * y)) + rnd (c * z))) +
        (rnd (rnd (a * x) + rnd (b * y)) - (rnd (a * x) + rnd (b * y)))) (rnd (a * x) - a * x)
    have q4 := abs_add_le (rnd (rnd (rnd (a * x) + rnd (b * y)) + rnd (c * z)) - (rnd (rnd (a * x) + rnd (b * y)) + rnd (c * z)))
        (rnd (rnd (a * x) + rnd (b * y)) - (rnd (a * x) + rnd (b * y)))
    linarith

/-- Relative error of a square root. -/
theorem sqrt_err {d s δ : ℝ} (hs : 0 ≤ s) (hδ : 0 ≤ δ) (hδ1 : δ ≤ 1) (h : |d - s ^ 2| ≤ δ * s ^ 2) :
    |Real.sqrt d - s| ≤ δ * s := by
  obtain ⟨h1, h2⟩ := abs_le.1 h
  rw [abs_le]
  constructor
  · have : (1 - δ) * s ≤ Real.sqrt d := by
      refine Real.le_sqrt_of_sq_le ?_
      have : (1 - δ) ^ 2 * s ^ 2 ≤ (1 - δ) * s ^ 2 := by
        refine mul_le_mul_of_nonneg_right ?_ (sq_nonneg s)
        nlinarith
      nlinarith
    linarith
  · have : Real.sqrt d ≤ (1 + δ) * s := by
      refine Real.sqrt_le_iff.2 ⟨mul_nonneg (by linarith) hs, ?_⟩
      nlinarith [sq_nonneg (δ * s), mul_nonneg hδ (sq_nonneg s)]
    linarith

end AlMath.F32
