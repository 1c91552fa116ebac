import Verif.Spec.FloatMatrix
import Verif.Lemmas.Frobenius
import Verif.Lemmas.FloatDot

/-!
C78: products of many rotations in single precision.
-/

namespace AlMath.F32

open AlMath.Spec Matrix

theorem Product.size_pos {α : Type} (t : Product α) : 0 < t.size := by
  induction t with
  | factor a => exact Nat.one_pos
  | times l r ih _ => exact Nat.add_pos_left ih _

/-- The product of two matrices of moderate size: what is computed, with the error. -/
theorem mul_ofMat {A B : Mat3} (hA : fro A ≤ 3) (hB : fro B ≤ 3) :
    ∃ C, Rotation.mul (Rotation.ofMat A) (Rotation.ofMat B) = Rotation.ofMat C ∧
      fro (C - A * B) ≤ 2 ^ (-22 : ℤ) * (fro A * fro B) + 3 * 2 ^ (-148 : ℤ) := by
  have hb : ∀ i j, |A i 0| * |B 0 j| + |A i 1| * |B 1 j| + |A i 2| * |B 2 j| ≤ 2 ^ 125 := by
    intro i j
    have key : ∀ k, |A i k| * |B k j| ≤ 3 * 3 := fun k =>
      mul_le_mul ((abs_le_fro A i k).trans hA) ((abs_le_fro B k j).trans hB) (abs_nonneg _) (by norm_num)
    have := key 0
    have := key 1
    have := key 2
    have : (27 : ℝ) ≤ 2 ^ 125 := by norm_num
    linarith
  choose C hC _ hE using fun i j => dot_fin (hb i j)
  refine ⟨Matrix.of C, ?_, ?_⟩
  · simp only [Rotation.mul, Rotation.ofMat, hC, Matrix.of_apply]
  · refine fro_err (by positivity) (by positivity) fun i j => ?_
    have : (Matrix.of C - A * B) i j = C i j - (A i 0 * B 0 j + A i 1 * B 1 j + A i 2 * B 2 j) := by
      simp [Matrix.mul_apply, Fin.sum_univ_three]
    rw [this]
    exact hE i j

/-- Errors of factors near rotations add up. -/
theorem mul_near {A B P Q : Mat3} {e f : ℝ} (hP : Pᵀ * P = 1) (hQ : Qᵀ * Q = 1) (hA : fro (A - P) ≤ e)
    (hB : fro (B - Q) ≤ f) (he : e ≤ 1) (hf : f ≤ 1) :
    ∃ C, Rotation.mul (Rotation.ofMat A) (Rotation.ofMat B) = Rotation.ofMat C ∧
      fro (C - P * Q) ≤ e + f + e * f + 2 ^ (-19 : ℤ) := by
  have hA3 : fro A ≤ 11 / 4 := by
    have := fro_add (A - P) P
    rw [sub_add_cancel] at this
    linarith [fro_rot_le hP]
  have hB3 : fro B ≤ 11 / 4 := by
    have := fro_add (B - Q) Q
    rw [sub_add_cancel] at this
    linarith [fro_rot_le hQ]
  obtain ⟨C, hC, hE⟩ := mul_ofMat (hA3.trans (by norm_num)) (hB3.trans (by norm_num))
  refine ⟨C, hC, ?_⟩
  have h1 : C - P * Q = (C - A * B) + ((A - P) * (B - Q) + ((A - P) * Q + P * (B - Q))) := by
    noncomm_ring
  rw [h1]
  have h2 := fro_add (C - A * B) ((A - P) * (B - Q) + ((A - P) * Q + P * (B - Q)))
  have h3 := fro_add ((A - P) * (B - Q)) ((A - P) * Q + P * (B - Q))
  have h4 := fro_add ((A - P) * Q) (P * (B - Q))
  rw [fro_mul_rot hQ, fro_rot_mul hP] at h4
  have h5 := fro_mul (A - P) (B - Q)
  have h6 : fro (A - P) * fro (B - Q) ≤ e * f :=
    mul_le_mul hA hB (fro_nonneg _) ((fro_nonneg _).trans hA)
  have h7 : fro A * fro B ≤ 11 / 4 * (11 / 4) := mul_le_mul hA3 hB3 (fro_nonneg _) (by norm_num)
  have h8 : (3 : ℝ) * 2 ^ (-148 : ℤ) ≤ 2 ^ (-30 : ℤ) := by norm_num
  have h9 : (2 : ℝ) ^ (-22 : ℤ) * (fro A * fro B) + 2 ^ (-30 : ℤ) ≤ 2 ^ (-19 : ℤ) := by
    norm_num
    linarith
  generalize (2 : ℝ) ^ (-148 : ℤ) = w at *
  linarith

theorem product_rot {α : Type} {Q : α → Mat3} {t : Product α} (h : t.All fun a => (Q a)ᵀ * Q a = 1) :
    (t.eval Q (· * ·))ᵀ * t.eval Q (· * ·) = 1 := by
  induction t with
  | factor a => exact h
  | times l r ihl ihr =>
    have h1 := ihl h.1
    have h2 := ihr h.2
    simp only [Product.eval]
    rw [Matrix.transpose_mul, Matrix.mul_assoc, ← Matrix.mul_assoc (Product.eval Q (· * ·) l)ᵀ, h1, Matrix.one_mul, h2]

/-- A product of `N` rotations, bracketed in any way, each of whose factors is known up to `κ`: the computed product
is made of finite numbers, and is near the exact product. (`κ` is at least 2^-19, which bounds the rounding of one
multiplication.) -/
theorem C78_product {α : Type} (R : α → Rotation) (Q : α → Mat3) (κ : ℝ) (hκ : 2 ^ (-19 : ℤ) ≤ κ) (t : Product α)
    (h : t.All fun a => (Q a)ᵀ * Q a = 1 ∧ ∃ A, R a = Rotation.ofMat A ∧ fro (A - Q a) ≤ κ)
    (hN : (1 + κ) ^ (2 * t.size - 1) ≤ 2) :
    ∃ A, t.eval R Rotation.mul = Rotation.ofMat A ∧ fro (A - t.eval Q (· * ·)) ≤ (1 + κ) ^ (2 * t.size - 1) - 1 := by
  have hκ0 : 0 < κ := lt_of_lt_of_le (two_zpow_pos _) hκ
  have hall : ∀ {t : Product α} {p q : α → Prop}, (∀ a, p a → q a) → t.All p → t.All q := by
    intro t p q hpq ht
    induction t with
    | factor a => exact hpq a ht
    | times l r ihl ihr => exact ⟨ihl ht.1, ihr ht.2⟩
  induction t with
  | factor a =>
    obtain ⟨-, A, h1, h2⟩ := h
    refine ⟨A, h1, ?_⟩
    simp only [Product.size, Product.eval]
    norm_num
    exact h2
  | times l r ihl ihr =>
    have sl := l.size_pos
    have sr := r.size_pos
    have e1 : 2 * (Product.times l r).size - 1 = (2 * l.size - 1) + (2 * r.size - 1) + 1 := by
      simp only [Product.size]
      omega
    have one : ∀ n : ℕ, 1 ≤ (1 + κ) ^ n := fun n => one_le_pow₀ (by linarith)
    have ol := one (2 * l.size - 1)
    have or' := one (2 * r.size - 1)
    have hl2 : (1 + κ) ^ (2 * l.size - 1) ≤ 2 :=
      (pow_le_pow_right₀ (by linarith) (by simp only [Product.size]; omega)).trans hN
    have hr2 : (1 + κ) ^ (2 * r.size - 1) ≤ 2 :=
      (pow_le_pow_right₀ (by linarith) (by simp only [Product.size]; omega)).trans hN
    rw [e1, pow_add, pow_add, pow_one] at hN ⊢
    obtain ⟨A, hA, eA⟩ := ihl h.1 hl2
    obtain ⟨B, hB, eB⟩ := ihr h.2 hr2
    obtain ⟨C, hC, eC⟩ := mul_near (product_rot (hall (fun _ h => h.1) h.1)) (product_rot (hall (fun _ h => h.1) h.2))
      eA eB (by linarith) (by linarith)
    refine ⟨C, by simp only [Product.eval]; rw [hA, hB, hC], ?_⟩
    simp only [Product.eval]
    refine eC.trans ?_
    generalize (1 + κ) ^ (2 * l.size - 1) = x at *
    generalize (1 + κ) ^ (2 * r.size - 1) = y at *
    generalize (2 : ℝ) ^ (-19 : ℤ) = w at *
    have : 1 ≤ x * y := by nlinarith
    nlinarith

/-- Bounds for powers. -/
theorem pow_le_linear {κ : ℝ} (hκ : 0 ≤ κ) {m : ℕ} (h : m * κ ≤ 1 / 2) : (1 + κ) ^ m ≤ 1 + 2 * (m * κ) := by
  rcases Nat.eq_zero_or_pos m with rfl | hm
  · simp
  have hκ1 : κ ≤ 1 / 2 := by
    have : (1 : ℝ) ≤ m := by exact_mod_cast hm
    nlinarith
  have h1 : 1 + (m : ℝ) * (-κ) ≤ (1 + -κ) ^ m := one_add_mul_le_pow (by linarith) m
  have h2 : ((1 + κ) * (1 + -κ)) ^ m ≤ 1 := pow_le_one₀ (by nlinarith) (by nlinarith [sq_nonneg κ])
  rw [mul_pow] at h2
  have h3 : 0 < (1 + κ) ^ m := by positivity
  have h0 : 0 ≤ (m : ℝ) * κ := by positivity
  rw [show 1 + (m : ℝ) * (-κ) = 1 - m * κ by ring] at h1
  have h4 : (1 + κ) ^ m * (1 - m * κ) ≤ 1 := (mul_le_mul_of_nonneg_left h1 h3.le).trans h2
  generalize (m : ℝ) * κ = s at *
  generalize (1 + κ) ^ m = p at *
  by_contra hc
  have hc := not_le.1 hc
  have : (1 + 2 * s) * (1 - s) < p * (1 - s) := mul_lt_mul_of_pos_right hc (by linarith)
  nlinarith

/-- The same with a bound that is linear in the number of factors. -/
theorem C78_linear {α : Type} (R : α → Rotation) (Q : α → Mat3) (κ : ℝ) (hκ : 2 ^ (-19 : ℤ) ≤ κ) (t : Product α)
    (h : t.All fun a => (Q a)ᵀ * Q a = 1 ∧ ∃ A, R a = Rotation.ofMat A ∧ fro (A - Q a) ≤ κ)
    (hN : 4 * t.size * κ ≤ 1) :
    ∃ A, t.eval R Rotation.mul = Rotation.ofMat A ∧ ∀ i j, |A i j - t.eval Q (· * ·) i j| ≤ 4 * t.size * κ := by
  have hκ0 : 0 < κ := lt_of_lt_of_le (two_zpow_pos _) hκ
  have hs : ((2 * t.size - 1 : ℕ) : ℝ) ≤ 2 * t.size := by exact_mod_cast Nat.sub_le _ _
  have h1 : ((2 * t.size - 1 : ℕ) : ℝ) * κ ≤ 2 * t.size * κ := mul_le_mul_of_nonneg_right hs hκ0.le
  have h2 := pow_le_linear hκ0.le (m := 2 * t.size - 1) (by linarith)
  obtain ⟨A, hA, eA⟩ := C78_product R Q κ hκ t h (by linarith)
  refine ⟨A, hA, fun i j => ?_⟩
  refine (abs_le_fro (A - t.eval Q (· * ·)) i j).trans (eA.trans ?_)
  linarith

/-- Left and right products of a list are products. Helper of the examples. Not in /repo: specification. -/
def Product.ofList {α : Type} (a : α) : List α → Product α
  | [] => .factor a
  | b :: l => .times (.factor a) (ofList b l)

/-- A thousand rotations, each entry of which is rounded: the entries of the product are off by less than 0.01. -/
example (a : Mat3 × Mat3) (l : List (Mat3 × Mat3)) (hl : l.length = 999)
    (h : ∀ p ∈ a :: l, p.2ᵀ * p.2 = 1 ∧ ∀ i j, |p.1 i j - p.2 i j| ≤ 2 ^ (-24 : ℤ)) :
    ∃ A, (Product.ofList a l).eval (fun p => Rotation.ofMat p.1) Rotation.mul = Rotation.ofMat A ∧
      ∀ i j, |A i j - (Product.ofList a l).eval Prod.snd (· * ·) i j| ≤ 1 / 100 := by
  have key : ∀ (a : Mat3 × Mat3) (l : List (Mat3 × Mat3)), (Product.ofList a l).size = l.length + 1 ∧
      ∀ P : Mat3 × Mat3 → Prop, (∀ p ∈ a :: l, P p) → (Product.ofList a l).All P := by
    intro a l
    induction l generalizing a with
    | nil => exact ⟨rfl, fun P h => h a (by simp)⟩
    | cons b l ih =>
      refine ⟨?_, fun P h => ⟨h a (by simp), (ih b).2 P fun p hp => h p (List.mem_cons_of_mem _ hp)⟩⟩
      simp only [Product.ofList, Product.size, (ih b).1, List.length_cons]
      omega
  obtain ⟨k1, k2⟩ := key a l
  rw [hl] at k1
  have hall := k2 (fun p => p.2ᵀ * p.2 = 1 ∧ ∃ A, Rotation.ofMat p.1 = Rotation.ofMat A ∧ fro (A - p.2) ≤ 2 ^ (-19 : ℤ))
    fun p hp => by
      refine ⟨(h p hp).1, p.1, rfl, ?_⟩
      have h1 := fro_mono (A := p.1 - p.2) (B := Matrix.of fun _ _ => 2 ^ (-24 : ℤ)) fun i j => by
        rw [Matrix.of_apply, abs_of_pos (two_zpow_pos _)]
        exact (h p hp).2 i j
      rw [fro_const _ (two_zpow_pos _).le] at h1
      refine h1.trans ?_
      norm_num
  obtain ⟨A, hA, eA⟩ := C78_linear (fun p => Rotation.ofMat p.1) Prod.snd (2 ^ (-19 : ℤ)) le_rfl _ hall
    (by rw [k1]; norm_num)
  refine ⟨A, hA, fun i j => (eA i j).trans ?_⟩
  rw [k1]
  norm_num

end AlMath.F32
