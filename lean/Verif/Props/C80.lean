import Verif.Props.C75
import Verif.Props.C78
import Verif.Lemmas.FloatDet

/-!
C80: the check of rotations in single precision.
-/

namespace AlMath.F32

open AlMath.Spec Matrix

/-- The seven conditions which the library tests, in exact arithmetic: columns orthogonal, rows of length 1,
determinant 1, up to `e`. Not in /repo: specification. -/
def AlmostRot (A : Mat3) (e : ℝ) : Prop :=
  (∀ i j, i ≠ j → |(Aᵀ * A) i j| ≤ e) ∧ (∀ i, |(A * Aᵀ) i i - 1| ≤ e) ∧ |A.det - 1| ≤ e

theorem test_false {e x : ℝ} : ¬ lt (fin e) (F32.abs (fin x)) ↔ |x| ≤ e := not_lt

theorem dot_bound {a b c x y z m : ℝ} (ha : |a| ≤ m) (hb : |b| ≤ m) (hc : |c| ≤ m) (hx : |x| ≤ m) (hy : |y| ≤ m)
    (hz : |z| ≤ m) (hm : m ≤ 2) : ∃ d, dot (fin a) (fin b) (fin c) (fin x) (fin y) (fin z) = fin d ∧ Rep d ∧
      |d - (a * x + b * y + c * z)| ≤ 3 / 4194304 * m ^ 2 + 2 ^ (-140 : ℤ) := by
  have hm0 : 0 ≤ m := (abs_nonneg a).trans ha
  have h1 : |a| * |x| ≤ m * m := mul_le_mul ha hx (abs_nonneg _) hm0
  have h2 : |b| * |y| ≤ m * m := mul_le_mul hb hy (abs_nonneg _) hm0
  have h3 : |c| * |z| ≤ m * m := mul_le_mul hc hz (abs_nonneg _) hm0
  have hm2 : m * m ≤ 4 := by nlinarith
  have big : (100 : ℝ) ≤ 2 ^ 125 := by norm_num
  obtain ⟨d, hd, hr, he⟩ := dot_fin (a := a) (b := b) (c := c) (x := x) (y := y) (z := z) (by linarith)
  refine ⟨d, hd, hr, he.trans ?_⟩
  have h4 : (2 : ℝ) ^ (-148 : ℤ) ≤ 2 ^ (-140 : ℤ) := zpow_le_zpow_right₀ (by norm_num) (by norm_num)
  have h22 : (2 : ℝ) ^ (-22 : ℤ) = 1 / 4194304 := by norm_num
  rw [h22]
  generalize (2 : ℝ) ^ (-148 : ℤ) = w at *
  generalize (2 : ℝ) ^ (-140 : ℤ) = w' at *
  linarith

/-- What is computed by the check for a matrix of moderate size. -/
theorem isRotation_iff {A : Mat3} {e m : ℝ} (h : ∀ i j, |A i j| ≤ m) (hm : m ≤ 2) :
    ∃ (c : Fin 3 → ℝ) (r : Fin 3 → ℝ) (d : ℝ),
      (∀ i, |c i - (Aᵀ * A) (![1, 2, 2] i) (![0, 0, 1] i)| ≤ 3 / 4194304 * m ^ 2 + 2 ^ (-140 : ℤ)) ∧
      (∀ i, |r i - (A * Aᵀ) i i| ≤ 3 / 4194304 * m ^ 2 + 2 ^ (-140 : ℤ)) ∧
      |d - A.det| ≤ 40 / 16777216 * m ^ 3 + 2 ^ (-140 : ℤ) ∧ (∀ i, Grid (r i)) ∧ Grid d ∧
      (Rotation.isRotation (Rotation.ofMat A) (fin e) = true ↔
        (∀ i, |c i| ≤ e) ∧ (∀ i, rnd |r i - 1| ≤ e) ∧ rnd |d - 1| ≤ e) := by
  have hm0 : 0 ≤ m := (abs_nonneg _).trans (h 0 0)
  have hm2 : m ^ 2 ≤ 4 := by nlinarith
  have hm3 : m ^ 3 ≤ 8 := by nlinarith [pow_nonneg hm0 2, mul_nonneg hm0 (sub_nonneg.2 hm)]
  have hη : (2 : ℝ) ^ (-140 : ℤ) ≤ 1 := zpow_le_one_of_nonpos₀ (by norm_num) (by norm_num)
  obtain ⟨c0, hc0, -, ec0⟩ := dot_bound (h 0 1) (h 1 1) (h 2 1) (h 0 0) (h 1 0) (h 2 0) hm
  obtain ⟨c1, hc1, -, ec1⟩ := dot_bound (h 0 2) (h 1 2) (h 2 2) (h 0 0) (h 1 0) (h 2 0) hm
  obtain ⟨c2, hc2, -, ec2⟩ := dot_bound (h 0 2) (h 1 2) (h 2 2) (h 0 1) (h 1 1) (h 2 1) hm
  have row := fun i => dot_bound (h i 0) (h i 1) (h i 2) (h i 0) (h i 1) (h i 2) hm
  choose r hr gr er using row
  obtain ⟨d, hd, gd, ed⟩ := det_fin h hm
  have hdiag : ∀ i, (A * Aᵀ) i i = A i 0 * A i 0 + A i 1 * A i 1 + A i 2 * A i 2 := by
    intro i
    simp [Matrix.mul_apply, Fin.sum_univ_three]
  have hcol : ∀ i j, (Aᵀ * A) i j = A 0 i * A 0 j + A 1 i * A 1 j + A 2 i * A 2 j := by
    intro i j
    simp [Matrix.mul_apply, Fin.sum_univ_three]
  refine ⟨![c0, c1, c2], r, d, ?_, ?_, ed, fun i => (gr i).grid, gd, ?_⟩
  · intro i
    rw [hcol]
    fin_cases i
    exacts [ec0, ec1, ec2]
  · intro i
    rw [hdiag]
    exact er i
  · have big : (100 : ℝ) ≤ 2 ^ 127 := by norm_num
    have hb2 : ∀ i, |r i - 1| ≤ 2 ^ 127 := by
      intro i
      have h1 := le_of_err (er i)
      have h2 : ∀ k, |A i k * A i k| ≤ 4 := by
        intro k
        rw [abs_mul]
        nlinarith [h i k, abs_nonneg (A i k)]
      have h3 := h2 0
      have h4 := h2 1
      have h5 := h2 2
      have h6 := abs_add_le (A i 0 * A i 0 + A i 1 * A i 1) (A i 2 * A i 2)
      have h7 := abs_add_le (A i 0 * A i 0) (A i 1 * A i 1)
      have h8 := abs_sub (r i) 1
      rw [abs_one] at h8
      linarith
    have hb3 : |d - 1| ≤ 2 ^ 127 := by
      have h1 := le_of_err ed
      have tr : ∀ {a b c : ℝ}, |a| ≤ m → |b| ≤ m → |c| ≤ m → |a * b * c| ≤ 8 := by
        intro a b c ha hb hc
        refine le_trans ?_ hm3
        rw [abs_mul, abs_mul, pow_succ, pow_two]
        exact mul_le_mul (mul_le_mul ha hb (abs_nonneg _) hm0) hc (abs_nonneg _) (by positivity)
      have t1 := abs_le.1 (tr (h 0 0) (h 1 1) (h 2 2))
      have t2 := abs_le.1 (tr (h 0 1) (h 1 2) (h 2 0))
      have t3 := abs_le.1 (tr (h 0 2) (h 1 0) (h 2 1))
      have t4 := abs_le.1 (tr (h 0 0) (h 1 2) (h 2 1))
      have t5 := abs_le.1 (tr (h 0 1) (h 1 0) (h 2 2))
      have t6 := abs_le.1 (tr (h 0 2) (h 1 1) (h 2 0))
      have t7 : |A.det| ≤ 48 := by
        rw [Matrix.det_fin_three, abs_le]
        constructor <;> linarith
      have h8 := abs_sub d 1
      rw [abs_one] at h8
      linarith
    have hs : ∀ i, sub (fin (r i)) (fin 1) = fin (rnd (r i - 1)) := fun i => sub_fin (hb2 i)
    have hsd : sub (fin d) (fin 1) = fin (rnd (d - 1)) := sub_fin hb3
    have ite : ∀ (p : Prop) [Decidable p] (b : Bool), (if p then false else b) = true ↔ ¬ p ∧ b = true := by
      intro p _ b
      split_ifs with hp <;> simp [hp]
    simp only [Rotation.isRotation, ite]
    rw [hd]
    simp only [Rotation.ofMat]
    rw [hc0, hc1, hc2, hr 0, hr 1, hr 2]
    simp only [hs, hsd, test_false, abs_rnd, and_true, Fin.forall_fin_succ, Fin.forall_fin_zero_pi]
    simp
    tauto

theorem det_one_add {F : Mat3} {e : ℝ} (h : ∀ i j, |F i j| ≤ e) :
    |(1 + F).det - 1| ≤ 3 * e + 6 * e ^ 2 + 6 * e ^ 3 := by
  have he : 0 ≤ e := (abs_nonneg _).trans (h 0 0)
  have two : ∀ i j k l, |F i j * F k l| ≤ e ^ 2 := by
    intro i j k l
    rw [abs_mul, pow_two]
    exact mul_le_mul (h _ _) (h _ _) (abs_nonneg _) he
  have three : ∀ i j k l m n, |F i j * F k l * F m n| ≤ e ^ 3 := by
    intro i j k l m n
    rw [abs_mul, pow_succ]
    exact mul_le_mul (two _ _ _ _) (h _ _) (abs_nonneg _) (by positivity)
  have e1 : (1 + F).det - 1 = F 0 0 + F 1 1 + F 2 2 + F 0 0 * F 1 1 + F 0 0 * F 2 2 + F 1 1 * F 2 2 - F 1 2 * F 2 1 -
      F 0 1 * F 1 0 - F 0 2 * F 2 0 + F 0 0 * F 1 1 * F 2 2 - F 0 0 * F 1 2 * F 2 1 - F 0 1 * F 1 0 * F 2 2 +
      F 0 1 * F 1 2 * F 2 0 + F 0 2 * F 1 0 * F 2 1 - F 0 2 * F 1 1 * F 2 0 := by
    rw [Matrix.det_fin_three]
    simp
    ring
  rw [e1]
  have a1 := abs_le.1 (h 0 0)
  have a2 := abs_le.1 (h 1 1)
  have a3 := abs_le.1 (h 2 2)
  have b1 := abs_le.1 (two 0 0 1 1)
  have b2 := abs_le.1 (two 0 0 2 2)
  have b3 := abs_le.1 (two 1 1 2 2)
  have b4 := abs_le.1 (two 1 2 2 1)
  have b5 := abs_le.1 (two 0 1 1 0)
  have b6 := abs_le.1 (two 0 2 2 0)
  have c1 := abs_le.1 (three 0 0 1 1 2 2)
  have c2 := abs_le.1 (three 0 0 1 2 2 1)
  have c3 := abs_le.1 (three 0 1 1 0 2 2)
  have c4 := abs_le.1 (three 0 1 1 2 2 0)
  have c5 := abs_le.1 (three 0 2 1 0 2 1)
  have c6 := abs_le.1 (three 0 2 1 1 2 0)
  rw [abs_le]
  constructor <;> linarith

/-- Everything near a rotation is accepted. -/
theorem C80_accepts (A Q : Mat3) (hQ : IsRot Q) (e eps : ℝ) (hA : fro (A - Q) ≤ e) (he : e ≤ 1 / 16)
    (heps : Rep eps) (h : 4 * e + 2 ^ (-18 : ℤ) ≤ eps) :
    Rotation.isRotation (Rotation.ofMat A) (fin eps) = true := by
  obtain ⟨hQ1, hQd⟩ := hQ
  have hQ2 : Q * Qᵀ = 1 := mul_eq_one_comm.1 hQ1
  have he0 : 0 ≤ e := (fro_nonneg _).trans hA
  have hq : ∀ i j, |Q i j| ≤ 1 := by
    intro i j
    have h1 : (Q * Qᵀ) i i = 1 := by rw [hQ2, Matrix.one_apply_eq]
    rw [Matrix.mul_apply] at h1
    have h2 : Q i j * Qᵀ j i ≤ ∑ k, Q i k * Qᵀ k i :=
      Finset.single_le_sum (f := fun k => Q i k * Qᵀ k i) (fun k _ => mul_self_nonneg (Q i k)) (Finset.mem_univ j)
    rw [h1, Matrix.transpose_apply] at h2
    exact abs_le_of_sq_le_sq (by nlinarith) zero_le_one
  have hm : ∀ i j, |A i j| ≤ 17 / 16 := by
    intro i j
    have h1 := abs_add_le ((A - Q) i j) (Q i j)
    rw [Matrix.sub_apply, sub_add_cancel] at h1
    have h2 := abs_le_fro (A - Q) i j
    rw [Matrix.sub_apply] at h2
    have h3 := hq i j
    linarith
  have hcol : fro (Aᵀ * A - 1) ≤ 2 * e + e ^ 2 := by
    have h1 : Aᵀ * A - 1 = ((A - Q)ᵀ * Q + Qᵀ * (A - Q)) + (A - Q)ᵀ * (A - Q) := by
      rw [← hQ1, Matrix.transpose_sub]
      noncomm_ring
    rw [h1]
    have h2 := fro_add ((A - Q)ᵀ * Q + Qᵀ * (A - Q)) ((A - Q)ᵀ * (A - Q))
    have h3 := fro_add ((A - Q)ᵀ * Q) (Qᵀ * (A - Q))
    have h4 := fro_mul (A - Q)ᵀ (A - Q)
    rw [fro_mul_rot hQ1, fro_rot_mul (Q := Qᵀ) (by rw [Matrix.transpose_transpose]; exact hQ2), fro_transpose] at h3
    rw [fro_transpose] at h4
    have h5 : fro (A - Q) * fro (A - Q) ≤ e * e := mul_le_mul hA hA (fro_nonneg _) he0
    linarith
  have hrow : fro (A * Aᵀ - 1) ≤ 2 * e + e ^ 2 := by
    have h1 : A * Aᵀ - 1 = ((A - Q) * Qᵀ + Q * (A - Q)ᵀ) + (A - Q) * (A - Q)ᵀ := by
      rw [← hQ2, Matrix.transpose_sub]
      noncomm_ring
    rw [h1]
    have h2 := fro_add ((A - Q) * Qᵀ + Q * (A - Q)ᵀ) ((A - Q) * (A - Q)ᵀ)
    have h3 := fro_add ((A - Q) * Qᵀ) (Q * (A - Q)ᵀ)
    have h4 := fro_mul (A - Q) (A - Q)ᵀ
    rw [fro_rot_mul hQ1, fro_mul_rot (Q := Qᵀ) (by rw [Matrix.transpose_transpose]; exact hQ2), fro_transpose] at h3
    rw [fro_transpose] at h4
    have h5 : fro (A - Q) * fro (A - Q) ≤ e * e := mul_le_mul hA hA (fro_nonneg _) he0
    linarith
  have hdet : |A.det - 1| ≤ 3 * e + 6 * e ^ 2 + 6 * e ^ 3 := by
    have h1 : A = Q * (1 + Qᵀ * (A - Q)) := by
      rw [Matrix.mul_add, Matrix.mul_one, ← Matrix.mul_assoc, hQ2, Matrix.one_mul, add_sub_cancel]
    have h2 : A.det = (1 + Qᵀ * (A - Q)).det := by
      conv_lhs => rw [h1]
      rw [Matrix.det_mul, hQd, one_mul]
    rw [h2]
    refine det_one_add fun i j => (abs_le_fro _ i j).trans ?_
    rw [fro_rot_mul (Q := Qᵀ) (by rw [Matrix.transpose_transpose]; exact hQ2)]
    exact hA
  have he2 : e ^ 2 ≤ e / 16 := by nlinarith
  have he3 : e ^ 3 ≤ e / 256 := by nlinarith [mul_nonneg he0 (sub_nonneg.2 he)]
  have h140 : (2 : ℝ) ^ (-140 : ℤ) ≤ 2 ^ (-30 : ℤ) := zpow_le_zpow_right₀ (by norm_num) (by norm_num)
  obtain ⟨c, r, d, hc, hr, hd, -, -, hiff⟩ := isRotation_iff (e := eps) hm (by norm_num)
  rw [hiff]
  generalize (2 : ℝ) ^ (-140 : ℤ) = w at *
  norm_num at h h140 hc hr hd
  refine ⟨fun i => ?_, fun i => rnd_le_of_le heps.grid ?_, rnd_le_of_le heps.grid ?_⟩
  · have h1 := le_of_err (hc i)
    have h2 := abs_le_fro (Aᵀ * A - 1) (![1, 2, 2] i) (![0, 0, 1] i)
    have h3 : (Aᵀ * A - 1) (![1, 2, 2] i) (![0, 0, 1] i) = (Aᵀ * A) (![1, 2, 2] i) (![0, 0, 1] i) := by
      have h4 : ∀ i, (![1, 2, 2] i : Fin 3) ≠ ![0, 0, 1] i := by decide
      rw [Matrix.sub_apply, Matrix.one_apply_ne (h4 i), sub_zero]
    rw [h3] at h2
    linarith
  · have h2 := abs_le_fro (A * Aᵀ - 1) i i
    rw [Matrix.sub_apply, Matrix.one_apply_eq] at h2
    have h1 := abs_add_le (r i - (A * Aᵀ) i i) ((A * Aᵀ) i i - 1)
    rw [sub_add_sub_cancel] at h1
    have h3 := hr i
    linarith
  · have h1 := abs_add_le (d - A.det) (A.det - 1)
    rw [sub_add_sub_cancel] at h1
    linarith

/-- A row that passes the test has no component above 2. -/
theorem row_le {x y z e : ℝ} (he : e ≤ 1)
    (h : ¬ lt (fin e) (F32.abs (sub (dot (fin x) (fin y) (fin z) (fin x) (fin y) (fin z)) (fin 1)))) :
    |x| ≤ 2 ∧ |y| ≤ 2 ∧ |z| ≤ 2 := by
  have sq : ∀ x : ℝ, mul (fin x) (fin x) = pinf ∨ mul (fin x) (fin x) = fin (rnd (x * x)) ∧ 0 ≤ rnd (x * x) := by
    intro x
    have h0 : 0 ≤ rnd (x * x) := by
      have := rnd_mono (mul_self_nonneg x)
      rwa [rnd_zero] at this
    rw [mul, round]
    split_ifs with h1 h2
    · exact .inl rfl
    · linarith [show (0 : ℝ) < 2 ^ 128 by positivity]
    · exact .inr ⟨rfl, h0⟩
  have sum : ∀ {a b : ℝ}, Grid a → Grid b → 0 ≤ a → 0 ≤ b →
      add (fin a) (fin b) = pinf ∨ ∃ c, add (fin a) (fin b) = fin c ∧ Grid c ∧ a ≤ c ∧ b ≤ c := by
    intro a b ga gb ha hb
    have h1 : a ≤ rnd (a + b) := le_rnd_of_le ga (by linarith)
    have h2 : b ≤ rnd (a + b) := le_rnd_of_le gb (by linarith)
    rw [add, round]
    split_ifs with h3 h4
    · exact .inl rfl
    · linarith [show (0 : ℝ) < 2 ^ 128 by positivity]
    · exact .inr ⟨_, rfl, rnd_grid _, h1, h2⟩
  have hp : dot (fin x) (fin y) (fin z) (fin x) (fin y) (fin z) ≠ pinf := by
    intro hc
    rw [hc] at h
    exact h trivial
  have main : ∃ d, dot (fin x) (fin y) (fin z) (fin x) (fin y) (fin z) = fin d ∧
      rnd (x * x) ≤ d ∧ rnd (y * y) ≤ d ∧ rnd (z * z) ≤ d := by
    rw [dot] at hp ⊢
    rcases sq x with hx | ⟨hx, hx0⟩
    · rw [hx] at hp
      rcases sq y with hy | ⟨hy, -⟩ <;> rcases sq z with hz | ⟨hz, -⟩ <;> rw [hy, hz] at hp <;> exact absurd rfl hp
    rcases sq y with hy | ⟨hy, hy0⟩
    · rw [hx, hy] at hp
      rcases sq z with hz | ⟨hz, -⟩ <;> rw [hz] at hp <;> exact absurd rfl hp
    rcases sq z with hz | ⟨hz, hz0⟩
    · rw [hx, hy, hz] at hp
      rcases sum (rnd_grid (x * x)) (rnd_grid (y * y)) hx0 hy0 with hs | ⟨c, hs, -⟩ <;> rw [hs] at hp <;> exact absurd rfl hp
    rw [hx, hy, hz] at hp ⊢
    rcases sum (rnd_grid (x * x)) (rnd_grid (y * y)) hx0 hy0 with hs | ⟨c, hs, gc, hxc, hyc⟩
    · rw [hs] at hp
      exact absurd rfl hp
    rw [hs] at hp ⊢
    rcases sum gc (rnd_grid (z * z)) (hx0.trans hxc) hz0 with ht | ⟨d, ht, -, hcd, hzd⟩
    · exact absurd ht hp
    exact ⟨d, ht, hxc.trans hcd, hyc.trans hcd, hzd⟩
  obtain ⟨d, hd, h1, h2, h3⟩ := main
  rw [hd, sub, neg, add, ← sub_eq_add_neg, round] at h
  have hd3 : d < 3 := by
    by_contra hc
    have hc : (2 : ℝ) ≤ d - 1 := by linarith [not_lt.1 hc]
    have h4 : (2 : ℝ) ≤ rnd (d - 1) :=
      le_rnd_of_le ⟨1, 1, by norm_num, by norm_num, by norm_num⟩ hc
    split_ifs at h
    · exact h trivial
    · exact h trivial
    · have := test_false.1 h
      linarith [le_abs_self (rnd (d - 1))]
  have key : ∀ {x : ℝ}, rnd (x * x) ≤ d → |x| ≤ 2 := by
    intro x hx
    by_contra hc
    have hc := not_le.1 hc
    have h5 : (4 : ℝ) ≤ x * x := by
      rw [← abs_mul_abs_self]
      nlinarith
    have h6 : (4 : ℝ) ≤ rnd (x * x) := le_rnd_of_le ⟨1, 2, by norm_num, by norm_num, by norm_num⟩ h5
    linarith
  exact ⟨key h1, key h2, key h3⟩

/-- What is accepted with a tolerance of at most 1, if it has no NaN and no infinity, satisfies the
conditions up to the tolerance and 2^-14. -/
theorem C80_sound (A : Mat3) (eps : ℝ) (heps : eps ≤ 1)
    (h : Rotation.isRotation (Rotation.ofMat A) (fin eps) = true) : AlmostRot A (eps + 2 ^ (-14 : ℤ)) := by
  have hm : ∀ i j, |A i j| ≤ 2 := by
    have ite : ∀ (p : Prop) [Decidable p] (b : Bool), (if p then false else b) = true ↔ ¬ p ∧ b = true := by
      intro p _ b
      split_ifs with hp <;> simp [hp]
    have h' := h
    simp only [Rotation.isRotation, ite] at h'
    simp only [Rotation.ofMat] at h'
    obtain ⟨-, -, -, h4, h5, h6, -⟩ := h'
    have r0 := row_le heps h4
    have r1 := row_le heps h5
    have r2 := row_le heps h6
    intro i j
    fin_cases i <;> fin_cases j
    exacts [r0.1, r0.2.1, r0.2.2, r1.1, r1.2.1, r1.2.2, r2.1, r2.2.1, r2.2.2]
  obtain ⟨c, r, d, hc, hr, hd, gr, gd, hiff⟩ := isRotation_iff (e := eps) hm le_rfl
  obtain ⟨h1, h2, h3⟩ := hiff.1 h
  have h140 : (2 : ℝ) ^ (-140 : ℤ) ≤ 2 ^ (-30 : ℤ) := zpow_le_zpow_right₀ (by norm_num) (by norm_num)
  have sub1 : ∀ {x : ℝ}, Grid x → rnd |x - 1| ≤ eps → |x - 1| ≤ eps + 2 ^ (-22 : ℤ) := by
    intro x gx hx
    have h4 := rnd_add gx Rep.one.grid.neg
    rw [← sub_eq_add_neg] at h4
    have h5 := abs_sub_abs_le_abs_sub (x - 1) (rnd (x - 1))
    rw [abs_sub_comm (x - 1), abs_rnd] at h5
    norm_num at h4 ⊢
    linarith
  generalize (2 : ℝ) ^ (-140 : ℤ) = w at *
  have h14 : (2 : ℝ) ^ (-14 : ℤ) = 1 / 16384 := by norm_num
  have h22 : (2 : ℝ) ^ (-22 : ℤ) = 1 / 4194304 := by norm_num
  rw [h22] at sub1
  norm_num at h140 hc hr hd
  refine ⟨?_, ?_, ?_⟩
  · have hcc : ∀ i, |(Aᵀ * A) (![1, 2, 2] i) (![0, 0, 1] i)| ≤ eps + 2 ^ (-14 : ℤ) := by
      intro i
      have h4 := abs_sub_abs_le_abs_sub ((Aᵀ * A) (![1, 2, 2] i) (![0, 0, 1] i)) (c i)
      rw [abs_sub_comm] at h4
      have h5 := hc i
      have h6 := h1 i
      rw [h14]
      linarith
    have hsym : ∀ i j, (Aᵀ * A) i j = (Aᵀ * A) j i := by
      intro i j
      rw [← Matrix.transpose_apply (Aᵀ * A) i j, Matrix.transpose_mul, Matrix.transpose_transpose]
    have c0 := hcc 0
    have c1 := hcc 1
    have c2 := hcc 2
    intro i j hij
    fin_cases i <;> fin_cases j <;> first | exact absurd rfl hij | exact c0 | exact c1 | exact c2 | (rw [hsym]; first | exact c0 | exact c1 | exact c2)
  · intro i
    have h4 := abs_add_le ((A * Aᵀ) i i - r i) (r i - 1)
    rw [sub_add_sub_cancel, abs_sub_comm ((A * Aᵀ) i i) (r i)] at h4
    have h5 := hr i
    have h6 := sub1 (gr i) (h2 i)
    rw [h14]
    linarith
  · have h4 := abs_add_le (A.det - d) (d - 1)
    rw [sub_add_sub_cancel, abs_sub_comm A.det d] at h4
    have h6 := sub1 gd h3
    rw [h14]
    linarith

/-- The product of not too many rotations is accepted. -/
theorem C80_product {α : Type} (R : α → Rotation) (Q : α → Mat3) (κ eps : ℝ) (hκ : 2 ^ (-19 : ℤ) ≤ κ) (t : Product α)
    (h : t.All fun a => IsRot (Q a) ∧ ∃ A, R a = Rotation.ofMat A ∧ fro (A - Q a) ≤ κ)
    (hN : 64 * t.size * κ ≤ 1) (heps : Rep eps) (he : 16 * t.size * κ + 2 ^ (-18 : ℤ) ≤ eps) :
    Rotation.isRotation (t.eval R Rotation.mul) (fin eps) = true := by
  have hκ0 : 0 < κ := lt_of_lt_of_le (two_zpow_pos _) hκ
  have hs : ((2 * t.size - 1 : ℕ) : ℝ) ≤ 2 * t.size := by exact_mod_cast Nat.sub_le _ _
  have h1 : ((2 * t.size - 1 : ℕ) : ℝ) * κ ≤ 2 * t.size * κ := mul_le_mul_of_nonneg_right hs hκ0.le
  have h0 : 0 ≤ (t.size : ℝ) * κ := by positivity
  have h2 := pow_le_linear hκ0.le (m := 2 * t.size - 1) (by linarith)
  have hall : ∀ {t : Product α} {p q : α → Prop}, (∀ a, p a → q a) → t.All p → t.All q := by
    intro t p q hpq ht
    induction t with
    | factor a => exact hpq a ht
    | times l r ihl ihr => exact ⟨ihl ht.1, ihr ht.2⟩
  obtain ⟨A, hA, eA⟩ := C78_product R Q κ hκ t (hall (fun a h => ⟨h.1.1, h.2⟩) h) (by linarith)
  have hrot : IsRot (t.eval Q (· * ·)) := by
    refine ⟨product_rot (hall (fun a h => h.1.1) h), ?_⟩
    clear hA eA hN he h0 h1 h2 hs
    induction t with
    | factor a => exact h.1.2
    | times l r ihl ihr =>
      simp only [Product.eval]
      rw [Matrix.det_mul, ihl h.1, ihr h.2, one_mul]
  rw [hA]
  refine C80_accepts A _ hrot (4 * t.size * κ) eps (by linarith) (by linarith) heps (by linarith)

/-! ### Examples -/

/-- The identity. -/
example : Rotation.isRotation (Rotation.ofMat 1) (fin (2 ^ (-13 : ℤ))) = true := by
  refine C80_accepts 1 1 ⟨by simp, by simp⟩ 0 _ ?_ (by norm_num) (Rep.two_zpow (by norm_num) (by norm_num)) (by norm_num)
  rw [sub_self, fro]
  simp

/-- The hypotheses of `C80_sound` for the same. -/
example : AlmostRot 1 (2 ^ (-13 : ℤ) + 2 ^ (-14 : ℤ)) := by
  refine C80_sound 1 _ (by norm_num) (C80_accepts 1 1 ⟨by simp, by simp⟩ 0 _ ?_ (by norm_num)
    (Rep.two_zpow (by norm_num) (by norm_num)) (by norm_num))
  rw [sub_self, fro]
  simp

/-- 200 factors. -/
example {α : Type} (R : α → Rotation) (Q : α → Mat3) (t : Product α) (ht : t.size ≤ 200)
    (h : t.All fun a => IsRot (Q a) ∧ ∃ A, R a = Rotation.ofMat A ∧ fro (A - Q a) ≤ 2 ^ (-19 : ℤ)) :
    Rotation.isRotation (t.eval R Rotation.mul) (fin (2 ^ (-7 : ℤ))) = true := by
  have : (t.size : ℝ) ≤ 200 := by exact_mod_cast ht
  refine C80_product R Q _ _ le_rfl t h ?_ (Rep.two_zpow (by norm_num) (by norm_num)) ?_
  · norm_num
    linarith
  · norm_num
    linarith

end AlMath.F32
