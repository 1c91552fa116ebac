import Verif.Lemmas.Rot
import Mathlib.Analysis.Normed.Algebra.MatrixExponential
import Mathlib.Analysis.SpecialFunctions.Trigonometric.Series

/-! Closed form of the exponential of a 4x4 matrix with `A⁴ = -t² A²`. -/

namespace AlMath

open Spec NormedSpace
open scoped Nat

theorem hasSum_cosShift {t : ℝ} (ht : t ≠ 0) :
    HasSum (fun k : ℕ => (-t ^ 2) ^ k / ((2 * k + 2)! : ℝ)) ((1 - Real.cos t) / t ^ 2) := by
  have h := (hasSum_nat_add_iff' 1).2 (Real.hasSum_cos t)
  have h2 := h.mul_left (-1 / t ^ 2)
  simp only [Finset.range_one, Finset.sum_singleton] at h2
  have hv : (1 - Real.cos t) / t ^ 2 =
      -1 / t ^ 2 * (Real.cos t - (-1) ^ 0 * t ^ (2 * 0) / ((2 * 0)! : ℝ)) := by
    simp; field_simp; ring
  have hf : (fun k : ℕ => (-t ^ 2) ^ k / ((2 * k + 2)! : ℝ)) =
      fun i => -1 / t ^ 2 * ((-1) ^ (i + 1) * t ^ (2 * (i + 1)) / ((2 * (i + 1))! : ℝ)) := by
    ext k
    have e : 2 * (k + 1) = 2 * k + 2 := by ring
    rw [e, neg_pow, pow_add t, pow_mul t]
    field_simp
    ring
  rw [hv, hf]
  exact h2

theorem hasSum_sinShift {t : ℝ} (ht : t ≠ 0) :
    HasSum (fun k : ℕ => (-t ^ 2) ^ k / ((2 * k + 3)! : ℝ)) ((t - Real.sin t) / t ^ 3) := by
  have h := (hasSum_nat_add_iff' 1).2 (Real.hasSum_sin t)
  have h2 := h.mul_left (-1 / t ^ 3)
  simp only [Finset.range_one, Finset.sum_singleton] at h2
  have hv : (t - Real.sin t) / t ^ 3 =
      -1 / t ^ 3 * (Real.sin t - (-1) ^ 0 * t ^ (2 * 0 + 1) / ((2 * 0 + 1)! : ℝ)) := by
    simp; field_simp; ring
  have hf : (fun k : ℕ => (-t ^ 2) ^ k / ((2 * k + 3)! : ℝ)) =
      fun i => -1 / t ^ 3 * ((-1) ^ (i + 1) * t ^ (2 * (i + 1) + 1) / ((2 * (i + 1) + 1)! : ℝ)) := by
    ext k
    have e : 2 * (k + 1) + 1 = 2 * k + 3 := by ring
    rw [e, neg_pow, pow_add t, pow_mul t]
    field_simp
    ring
  rw [hv, hf]
  exact h2

theorem exp_closed_form (A : Mat4) {t : ℝ} (ht : t ≠ 0) (hA : A ^ 4 = (-t ^ 2) • A ^ 2) :
    exp A = 1 + A + ((1 - Real.cos t) / t ^ 2) • A ^ 2 + ((t - Real.sin t) / t ^ 3) • A ^ 3 := by
  have heven : ∀ k : ℕ, A ^ (2 * k + 2) = ((-t ^ 2) ^ k) • A ^ 2 := by
    intro k
    induction k with
    | zero => simp
    | succ k ih =>
      have : 2 * (k + 1) + 2 = 2 + (2 * k + 2) := by ring
      rw [this, pow_add, ih, Matrix.mul_smul, ← pow_add, hA, smul_smul, ← pow_succ]
  have hodd : ∀ k : ℕ, A ^ (2 * k + 3) = ((-t ^ 2) ^ k) • A ^ 3 := by
    intro k
    have : 2 * k + 3 = (2 * k + 2) + 1 := by ring
    rw [this, pow_succ, heven, Matrix.smul_mul, ← pow_succ]
  have he : HasSum (fun k : ℕ => (((2 * k + 2)!)⁻¹ : ℝ) • A ^ (2 * k + 2))
      (((1 - Real.cos t) / t ^ 2) • A ^ 2) := by
    convert (hasSum_cosShift ht).smul_const (A ^ 2) using 1
    ext1 k
    rw [heven, smul_smul]; congr 1; ring
  have ho : HasSum (fun k : ℕ => (((2 * k + 3)!)⁻¹ : ℝ) • A ^ (2 * k + 3))
      (((t - Real.sin t) / t ^ 3) • A ^ 3) := by
    convert (hasSum_sinShift ht).smul_const (A ^ 3) using 1
    ext1 k
    rw [hodd, smul_smul]; congr 1; ring
  have hs : HasSum (fun n : ℕ => (((n + 2)!)⁻¹ : ℝ) • A ^ (n + 2))
      (((1 - Real.cos t) / t ^ 2) • A ^ 2 + ((t - Real.sin t) / t ^ 3) • A ^ 3) :=
    HasSum.even_add_odd (f := fun n : ℕ => (((n + 2)!)⁻¹ : ℝ) • A ^ (n + 2)) he ho
  have hall := (hasSum_nat_add_iff (f := fun n : ℕ => ((n !)⁻¹ : ℝ) • A ^ n) 2).1 hs
  rw [exp_eq_tsum ℝ]
  simp only
  rw [hall.tsum_eq]
  simp [Finset.sum_range_succ]
  abel

end AlMath
