import Verif.Spec.FloatMatrix
import Verif.Lemmas.Frobenius
import Verif.Lemmas.FloatDot

/-!
Rounding error of the determinant.
-/

namespace AlMath.F32

open AlMath.Spec Matrix

theorem triple_fin {a b c m : ℝ} (ha : |a| ≤ m) (hb : |b| ≤ m) (hc : |c| ≤ m) (hm : m ≤ 2) :
    ∃ q, mul (mul (fin a) (fin b)) (fin c) = fin q ∧ Grid q ∧
      |q - a * b * c| ≤ 2.1 / 16777216 * m ^ 3 + 4 * 2 ^ (-150 : ℤ) := by
  have hm0 : 0 ≤ m := (abs_nonneg a).trans ha
  have hab : |a| * |b| ≤ m ^ 2 := by
    rw [pow_two]
    exact mul_le_mul ha hb (abs_nonneg _) hm0
  have hm2 : m ^ 2 ≤ 4 := by nlinarith
  have e1 := rnd_mul a b
  have he := eta_pos
  have he1 : (2 : ℝ) ^ (-150 : ℤ) ≤ 1 := eta_le
  have b1 : |rnd (a * b)| ≤ |a| * |b| + (2 ^ (-24 : ℤ) * (|a| * |b|) + 2 ^ (-150 : ℤ)) := by
    rw [← abs_mul a b] at e1 ⊢
    exact le_of_err e1
  have e2 := rnd_mul (rnd (a * b)) c
  rw [two_neg24] at *
  generalize (2 : ℝ) ^ (-150 : ℤ) = η at *
  have b2 : |rnd (a * b)| ≤ m ^ 2 + (1 / 16777216 * m ^ 2 + η) := by linarith
  have b3 : |rnd (a * b)| * |c| ≤ (m ^ 2 + (1 / 16777216 * m ^ 2 + η)) * m :=
    mul_le_mul b2 hc (abs_nonneg _) (by positivity)
  have b4 : (m ^ 2 + (1 / 16777216 * m ^ 2 + η)) * m ≤ 1 * m ^ 3 + 1 / 16777216 * m ^ 3 + 2 * η := by nlinarith
  have hm3 : m ^ 3 ≤ 8 := by
    have := mul_le_mul hm2 hm hm0 (by norm_num)
    nlinarith
  have m3 : 0 ≤ m ^ 3 := by positivity
  refine ⟨rnd (rnd (a * b) * c), ?_, rnd_grid _, ?_⟩
  · have big : (100 : ℝ) ≤ 2 ^ 127 := by norm_num
    rw [mul_fin, mul_fin]
    · rw [abs_mul]
      linarith
    · rw [abs_mul]
      linarith
  · have e : rnd (rnd (a * b) * c) - a * b * c = (rnd (rnd (a * b) * c) - rnd (a * b) * c) + (rnd (a * b) - a * b) * c := by ring
    rw [e]
    have q := abs_add_le (rnd (rnd (a * b) * c) - rnd (a * b) * c) ((rnd (a * b) - a * b) * c)
    rw [abs_mul (rnd (a * b) - a * b) c] at q
    have b5 : |rnd (a * b) - a * b| * |c| ≤ (1 / 16777216 * m ^ 2 + η) * m :=
      mul_le_mul (by linarith) hc (abs_nonneg _) (by positivity)
    have b6 : (1 / 16777216 * m ^ 2 + η) * m ≤ 1 / 16777216 * m ^ 3 + 2 * η := by nlinarith
    linarith

theorem add_step {x y : ℝ} (hx : Grid x) (hy : Grid y) (h : |x| + |y| ≤ 2 ^ 100) :
    ∃ z, add (fin x) (fin y) = fin z ∧ Grid z ∧ |z - (x + y)| ≤ 1 / 16777216 * (|x| + |y|) := by
  have h1 := abs_add_le x y
  have h2 := rnd_add hx hy
  rw [two_neg24] at h2
  refine ⟨rnd (x + y), add_fin (h1.trans (h.trans (by norm_num))), rnd_grid _, ?_⟩
  linarith

theorem Grid.neg {x : ℝ} (h : Grid x) : Grid (-x) := by
  obtain ⟨m, e, q1, q2, rfl⟩ := h
  exact ⟨-m, e, by rwa [abs_neg], q2, by push_cast; ring⟩

theorem sub_step {x y : ℝ} (hx : Grid x) (hy : Grid y) (h : |x| + |y| ≤ 2 ^ 100) :
    ∃ z, sub (fin x) (fin y) = fin z ∧ Grid z ∧ |z - (x - y)| ≤ 1 / 16777216 * (|x| + |y|) := by
  obtain ⟨z, h1, h2, h3⟩ := add_step hx hy.neg (by rwa [abs_neg])
  exact ⟨z, h1, h2, by rwa [abs_neg, ← sub_eq_add_neg] at h3⟩

theorem det_fin {A : Mat3} {m : ℝ} (h : ∀ i j, |A i j| ≤ m) (hm : m ≤ 2) :
    ∃ d, Rotation.determinant (Rotation.ofMat A) = fin d ∧ Grid d ∧
      |d - A.det| ≤ 40 / 16777216 * m ^ 3 + 2 ^ (-140 : ℤ) := by
  have hm0 : 0 ≤ m := (abs_nonneg _).trans (h 0 0)
  have hm3 : m ^ 3 ≤ 8 := by nlinarith [pow_nonneg hm0 2, mul_nonneg hm0 (sub_nonneg.2 hm)]
  have m3 : 0 ≤ m ^ 3 := by positivity
  have tr : ∀ {a b c : ℝ}, |a| ≤ m → |b| ≤ m → |c| ≤ m → |a * b * c| ≤ m ^ 3 := by
    intro a b c ha hb hc
    rw [abs_mul, abs_mul, pow_succ, pow_two]
    exact mul_le_mul (mul_le_mul ha hb (abs_nonneg _) hm0) hc (abs_nonneg _) (by positivity)
  have t1 := tr (h 0 0) (h 1 1) (h 2 2)
  have t2 := tr (h 0 1) (h 1 2) (h 2 0)
  have t3 := tr (h 0 2) (h 1 0) (h 2 1)
  have t4 := tr (h 0 0) (h 1 2) (h 2 1)
  have t5 := tr (h 0 1) (h 1 0) (h 2 2)
  have t6 := tr (h 0 2) (h 1 1) (h 2 0)
  obtain ⟨q1, p1, g1, e1⟩ := triple_fin (h 0 0) (h 1 1) (h 2 2) hm
  obtain ⟨q2, p2, g2, e2⟩ := triple_fin (h 0 1) (h 1 2) (h 2 0) hm
  obtain ⟨q3, p3, g3, e3⟩ := triple_fin (h 0 2) (h 1 0) (h 2 1) hm
  obtain ⟨q4, p4, g4, e4⟩ := triple_fin (h 0 0) (h 1 2) (h 2 1) hm
  obtain ⟨q5, p5, g5, e5⟩ := triple_fin (h 0 1) (h 1 0) (h 2 2) hm
  obtain ⟨q6, p6, g6, e6⟩ := triple_fin (h 0 2) (h 1 1) (h 2 0) hm
  have he := eta_pos
  have he1 : (2 : ℝ) ^ (-150 : ℤ) ≤ 1 := eta_le
  have h140 : (2 : ℝ) ^ (-140 : ℤ) = 1024 * 2 ^ (-150 : ℤ) := by norm_num
  rw [h140]
  generalize (2 : ℝ) ^ (-150 : ℤ) = η at *
  have b1 := le_of_err e1
  have b2 := le_of_err e2
  have b3 := le_of_err e3
  have b4 := le_of_err e4
  have b5 := le_of_err e5
  have b6 := le_of_err e6
  have big : (1000 : ℝ) ≤ 2 ^ 100 := by norm_num
  obtain ⟨s1, a1, k1, f1⟩ := add_step g1 g2 (by linarith)
  have c1 := le_of_err f1
  have c1' := abs_add_le q1 q2
  obtain ⟨s2, a2, k2, f2⟩ := add_step k1 g3 (by linarith)
  have c2 := le_of_err f2
  have c2' := abs_add_le s1 q3
  obtain ⟨s3, a3, k3, f3⟩ := sub_step k2 g4 (by linarith)
  have c3 := le_of_err f3
  have c3' := abs_sub s2 q4
  obtain ⟨s4, a4, k4, f4⟩ := sub_step k3 g5 (by linarith)
  have c4 := le_of_err f4
  have c4' := abs_sub s3 q5
  obtain ⟨s5, a5, k5, f5⟩ := sub_step k4 g6 (by linarith)
  have c5 := le_of_err f5
  have c5' := abs_sub s4 q6
  refine ⟨s5, ?_, k5, ?_⟩
  · simp only [Rotation.determinant, Rotation.ofMat, p1, p2, p3, p4, p5, p6, a1, a2, a3, a4, a5]
  · have hd : s5 - A.det = (s5 - (s4 - q6)) + (s4 - (s3 - q5)) + (s3 - (s2 - q4)) + (s2 - (s1 + q3)) + (s1 - (q1 + q2)) +
        (q1 - A 0 0 * A 1 1 * A 2 2) + (q2 - A 0 1 * A 1 2 * A 2 0) + (q3 - A 0 2 * A 1 0 * A 2 1) -
        (q4 - A 0 0 * A 1 2 * A 2 1) - (q5 - A 0 1 * A 1 0 * A 2 2) - (q6 - A 0 2 * A 1 1 * A 2 0) := by
      rw [Matrix.det_fin_three]
      ring
    rw [hd]
    rw [abs_le] at e1 e2 e3 e4 e5 e6 f1 f2 f3 f4 f5
    rw [abs_le]
    have z1 := abs_nonneg q1
    constructor <;> linarith

end AlMath.F32
