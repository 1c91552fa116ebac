import Verif.Model.FloatInertia
import Verif.Lemmas.FloatExp
import Verif.Props.C80

/-!
C110: the rotational inertia of a point mass in single precision.
-/

namespace AlMath.F32

open AlMath.Spec Matrix

/-- The inertia about the origin of the mass `m` at `p`. Not in /repo: specification. -/
noncomputable def pointInertia (m : ℝ) (p : Vec3) : Mat3 := m • ((p ⬝ᵥ p) • (1 : Mat3) - Matrix.vecMulVec p p)

/-- The elements of a matrix, row by row. Not in /repo: specification. -/
def rows (B : Mat3) : List F32 :=
  [fin (B 0 0), fin (B 0 1), fin (B 0 2), fin (B 1 0), fin (B 1 1), fin (B 1 2), fin (B 2 0), fin (B 2 1), fin (B 2 2)]

/-! ### Products -/

theorem inertia_square_near {y : ℝ} (hy : |y| ≤ 2 ^ 40) :
    ∃ a, mul (fin y) (fin y) = fin a ∧ Rep a ∧ 0 ≤ a ∧ |a - y * y| ≤ 1 / 16777216 * (y * y) + 2 ^ (-150 : ℤ) := by
  have h0 : 0 ≤ y * y := mul_self_nonneg y
  have h1 : |y * y| ≤ 2 ^ 80 := by
    rw [abs_mul]
    calc |y| * |y| ≤ 2 ^ 40 * 2 ^ 40 := mul_le_mul hy hy (abs_nonneg _) (by norm_num)
      _ = 2 ^ 80 := by norm_num
  have hb : |y * y| ≤ 2 ^ 127 := h1.trans (by norm_num)
  have k := rnd_gen (y * y)
  rw [abs_of_nonneg h0, show (2 : ℝ) ^ (-24 : ℤ) = 1 / 16777216 by norm_num] at k
  exact ⟨_, mul_fin hb, rnd_rep hb, le_rnd_of_le Rep.zero.grid h0, k⟩

/-- An element of the diagonal. -/
theorem inertia_diag_near {m y z : ℝ} (hm : |m| ≤ 2 ^ 40) (hy : |y| ≤ 2 ^ 40) (hz : |z| ≤ 2 ^ 40) :
    ∃ b, mul (fin m) (add (mul (fin y) (fin y)) (mul (fin z) (fin z))) = fin b ∧ Rep b ∧ (0 ≤ m → 0 ≤ b) ∧
      |b - m * (y * y + z * z)| ≤ 2 ^ (-22 : ℤ) * |m * (y * y + z * z)| + 2 ^ (-107 : ℤ) := by
  obtain ⟨a, a1, -, a0, a2⟩ := inertia_square_near hy
  obtain ⟨c, c1, -, c0, c2⟩ := inertia_square_near hz
  have sq : ∀ {t : ℝ}, |t| ≤ 2 ^ 40 → t * t ≤ 2 ^ 80 := fun {t} ht => by
    rw [← abs_mul_abs_self]
    calc |t| * |t| ≤ 2 ^ 40 * 2 ^ 40 := mul_le_mul ht ht (abs_nonneg _) (by norm_num)
      _ = 2 ^ 80 := by norm_num
  have y1 := sq hy
  have z1 := sq hz
  have y0 := mul_self_nonneg y
  have z0 := mul_self_nonneg z
  have w : (2 : ℝ) ^ 40 * 2 ^ (-150 : ℤ) ≤ 2 ^ (-107 : ℤ) / 8 := by
    rw [show (2 : ℝ) ^ 40 = 2 ^ (40 : ℤ) by norm_num, ← zpow_add₀ (by norm_num), le_div_iff₀ (by norm_num),
      show (8 : ℝ) = 2 ^ (3 : ℤ) by norm_num, ← zpow_add₀ (by norm_num)]
    exact zpow_le_zpow_right₀ (by norm_num) (by norm_num)
  have e0 : (0 : ℝ) < 2 ^ (-150 : ℤ) := by positivity
  have e1 : (2 : ℝ) ^ (-150 : ℤ) ≤ 1 := zpow_le_one_of_nonpos₀ (by norm_num) (by norm_num)
  rw [show (2 : ℝ) ^ (-22 : ℤ) = 4 / 16777216 by norm_num]
  generalize (2 : ℝ) ^ (-107 : ℤ) = E at *
  have r1 := rnd_gen (a + c)
  rw [show (2 : ℝ) ^ (-24 : ℤ) = 1 / 16777216 by norm_num, abs_of_nonneg (by linarith : 0 ≤ a + c)] at r1
  have r2 := rnd_gen (m * rnd (a + c))
  rw [show (2 : ℝ) ^ (-24 : ℤ) = 1 / 16777216 by norm_num] at r2
  generalize (2 : ℝ) ^ (-150 : ℤ) = ε at *
  obtain ⟨a3, a4⟩ := abs_le.1 a2
  obtain ⟨c3, c4⟩ := abs_le.1 c2
  obtain ⟨r3, r4⟩ := abs_le.1 r1
  have hb1 : |a + c| ≤ 2 ^ 127 := by
    rw [abs_of_nonneg (by linarith)]
    norm_num at y1 z1 ⊢
    linarith
  have s0 : 0 ≤ rnd (a + c) := le_rnd_of_le Rep.zero.grid (by linarith)
  have sd : |rnd (a + c) - (y * y + z * z)| ≤ 2.1 / 16777216 * (y * y + z * z) + 4 * ε := by
    rw [abs_le]
    norm_num at a3 a4 c3 c4 r3 r4 ⊢
    constructor <;> linarith
  have md : |m * rnd (a + c) - m * (y * y + z * z)| ≤ 2.1 / 16777216 * |m * (y * y + z * z)| + 4 * (2 ^ 40 * ε) := by
    rw [← mul_sub, abs_mul, abs_mul, abs_of_nonneg (by linarith : 0 ≤ y * y + z * z)]
    have := mul_le_mul_of_nonneg_left sd (abs_nonneg m)
    have := mul_le_mul_of_nonneg_right hm e0.le
    linarith
  have mb : |m * (y * y + z * z)| ≤ 2 ^ 121 := by
    rw [abs_mul, abs_of_nonneg (by linarith : 0 ≤ y * y + z * z)]
    calc |m| * (y * y + z * z) ≤ 2 ^ 40 * 2 ^ 81 := mul_le_mul hm (by norm_num at y1 z1 ⊢; linarith) (by linarith) (by norm_num)
      _ = 2 ^ 121 := by norm_num
  have ml := le_of_err md
  have hε : (2 : ℝ) ^ 40 * ε ≤ 2 ^ 40 := by nlinarith
  have hb2 : |m * rnd (a + c)| ≤ 2 ^ 127 := by
    norm_num at ml mb hε ⊢
    linarith
  refine ⟨_, by rw [a1, c1, add_fin hb1, mul_fin hb2], rnd_rep hb2, fun h => le_rnd_of_le Rep.zero.grid (mul_nonneg h s0), ?_⟩
  have t := abs_sub_le (rnd (m * rnd (a + c))) (m * rnd (a + c)) (m * (y * y + z * z))
  have p0 : ε ≤ 2 ^ 40 * ε := by nlinarith
  have V0 := abs_nonneg (m * (y * y + z * z))
  generalize |m * (y * y + z * z)| = V at *
  generalize (2 : ℝ) ^ 40 * ε = W at *
  generalize |m * rnd (a + c)| = U at *
  norm_num at md ml
  linarith

/-- An element beside the diagonal. -/
theorem inertia_off_near {m x y : ℝ} (hm : |m| ≤ 2 ^ 40) (hx : |x| ≤ 2 ^ 40) (hy : |y| ≤ 2 ^ 40) :
    ∃ b, mul (mul (neg (fin m)) (fin x)) (fin y) = fin b ∧ Rep b ∧
      |b - -(m * (x * y))| ≤ 2 ^ (-22 : ℤ) * |-(m * (x * y))| + 2 ^ (-107 : ℤ) := by
  have w : (2 : ℝ) ^ 40 * 2 ^ (-150 : ℤ) ≤ 2 ^ (-107 : ℤ) / 8 := by
    rw [show (2 : ℝ) ^ 40 = 2 ^ (40 : ℤ) by norm_num, ← zpow_add₀ (by norm_num), le_div_iff₀ (by norm_num),
      show (8 : ℝ) = 2 ^ (3 : ℤ) by norm_num, ← zpow_add₀ (by norm_num)]
    exact zpow_le_zpow_right₀ (by norm_num) (by norm_num)
  have e0 : (0 : ℝ) < 2 ^ (-150 : ℤ) := by positivity
  have e1 : (2 : ℝ) ^ (-150 : ℤ) ≤ 1 := zpow_le_one_of_nonpos₀ (by norm_num) (by norm_num)
  rw [show (2 : ℝ) ^ (-22 : ℤ) = 4 / 16777216 by norm_num]
  generalize (2 : ℝ) ^ (-107 : ℤ) = E at *
  have r1 := rnd_gen (-m * x)
  have r2 := rnd_gen (rnd (-m * x) * y)
  rw [show (2 : ℝ) ^ (-24 : ℤ) = 1 / 16777216 by norm_num] at r1 r2
  generalize (2 : ℝ) ^ (-150 : ℤ) = ε at *
  have mx : |-m * x| ≤ 2 ^ 80 := by
    rw [abs_mul, abs_neg]
    calc |m| * |x| ≤ 2 ^ 40 * 2 ^ 40 := mul_le_mul hm hx (abs_nonneg _) (by norm_num)
      _ = 2 ^ 80 := by norm_num
  have hb1 : |-m * x| ≤ 2 ^ 127 := mx.trans (by norm_num)
  have md : |rnd (-m * x) * y - -(m * (x * y))| ≤ 1 / 16777216 * |-(m * (x * y))| + 2 ^ 40 * ε := by
    have e : rnd (-m * x) * y - -(m * (x * y)) = (rnd (-m * x) - -m * x) * y := by ring
    have e' : |-(m * (x * y))| = |-m * x| * |y| := by rw [← abs_mul]; congr 1; ring
    rw [e, e', abs_mul]
    have := mul_le_mul_of_nonneg_right r1 (abs_nonneg y)
    have := mul_le_mul_of_nonneg_right hy e0.le
    linarith
  have mb : |-(m * (x * y))| ≤ 2 ^ 120 := by
    have e' : |-(m * (x * y))| = |-m * x| * |y| := by rw [← abs_mul]; congr 1; ring
    rw [e']
    calc |-m * x| * |y| ≤ 2 ^ 80 * 2 ^ 40 := mul_le_mul mx hy (abs_nonneg _) (by norm_num)
      _ = 2 ^ 120 := by norm_num
  have ml := le_of_err md
  have hε : (2 : ℝ) ^ 40 * ε ≤ 2 ^ 40 := by nlinarith
  have hb2 : |rnd (-m * x) * y| ≤ 2 ^ 127 := by
    norm_num at ml mb hε ⊢
    linarith
  refine ⟨_, by rw [neg, mul_fin hb1, mul_fin hb2], rnd_rep hb2, ?_⟩
  have t := abs_sub_le (rnd (rnd (-m * x) * y)) (rnd (-m * x) * y) (-(m * (x * y)))
  have p0 : ε ≤ 2 ^ 40 * ε := by nlinarith
  have V0 := abs_nonneg (-(m * (x * y)))
  generalize |-(m * (x * y))| = V at *
  generalize (2 : ℝ) ^ 40 * ε = W at *
  linarith

theorem pointInertia_diag (m : ℝ) (p : Vec3) : pointInertia m p 0 0 = m * (p 1 * p 1 + p 2 * p 2) ∧
    pointInertia m p 1 1 = m * (p 0 * p 0 + p 2 * p 2) ∧ pointInertia m p 2 2 = m * (p 0 * p 0 + p 1 * p 1) := by
  refine ⟨?_, ?_, ?_⟩ <;>
    simp [pointInertia, dotProduct, Fin.sum_univ_three, Matrix.vecMulVec_apply] <;> first | ring1 | (left; ring1)

theorem pointInertia_off (m : ℝ) (p : Vec3) (i j : Fin 3) (h : i ≠ j) : pointInertia m p i j = -(m * (p i * p j)) := by
  simp [pointInertia, Matrix.vecMulVec_apply, Matrix.one_apply_ne h]

/-- The nine elements are those of a symmetric matrix, each within 2^-22 of its value, up to 2^-107. -/
theorem C110_inertia (m : ℝ) (p : Vec3) (hm : |m| ≤ 2 ^ 40) (hp : ∀ i, |p i| ≤ 2 ^ 40) :
    ∃ B : Mat3, pointMassRotationalInertia (fin m) ⟨fin (p 0), fin (p 1), fin (p 2)⟩ = rows B ∧ Bᵀ = B ∧
      (∀ i j, Rep (B i j) ∧ |B i j - pointInertia m p i j| ≤ 2 ^ (-22 : ℤ) * |pointInertia m p i j| + 2 ^ (-107 : ℤ)) ∧
      (0 ≤ m → ∀ i, 0 ≤ B i i) := by
  obtain ⟨a, a1, a2, a3, a4⟩ := inertia_diag_near hm (hp 1) (hp 2)
  obtain ⟨b, b1, b2, b3, b4⟩ := inertia_diag_near hm (hp 0) (hp 2)
  obtain ⟨c, c1, c2, c3, c4⟩ := inertia_diag_near hm (hp 0) (hp 1)
  obtain ⟨d, d1, d2, d4⟩ := inertia_off_near hm (hp 0) (hp 1)
  obtain ⟨e, e1, e2, e4⟩ := inertia_off_near hm (hp 0) (hp 2)
  obtain ⟨f, f1, f2, f4⟩ := inertia_off_near hm (hp 1) (hp 2)
  obtain ⟨g1, g2, g3⟩ := pointInertia_diag m p
  have k := pointInertia_off m p
  have s : ∀ i j, p i * p j = p j * p i := fun i j => mul_comm _ _
  refine ⟨!![a, d, e; d, b, f; e, f, c], ?_, ?_, ?_, ?_⟩
  · simp only [pointMassRotationalInertia, a1, b1, c1, d1, e1, f1]
    rfl
  · ext i j
    fin_cases i <;> fin_cases j <;> rfl
  · intro i j
    fin_cases i <;> fin_cases j
    · exact ⟨a2, by rw [← g1] at a4; exact a4⟩
    · exact ⟨d2, by rw [← k 0 1 (by decide)] at d4; exact d4⟩
    · exact ⟨e2, by rw [← k 0 2 (by decide)] at e4; exact e4⟩
    · exact ⟨d2, by rw [s, ← k 1 0 (by decide)] at d4; exact d4⟩
    · exact ⟨b2, by rw [← g2] at b4; exact b4⟩
    · exact ⟨f2, by rw [← k 1 2 (by decide)] at f4; exact f4⟩
    · exact ⟨e2, by rw [s, ← k 2 0 (by decide)] at e4; exact e4⟩
    · exact ⟨f2, by rw [s, ← k 2 1 (by decide)] at f4; exact f4⟩
    · exact ⟨c2, by rw [← g3] at c4; exact c4⟩
  · intro h i
    fin_cases i
    · exact a3 h
    · exact b3 h
    · exact c3 h

theorem pointInertia_le (m : ℝ) (p : Vec3) (i j : Fin 3) : |pointInertia m p i j| ≤ |m| * (p ⬝ᵥ p) := by
  obtain ⟨g1, g2, g3⟩ := pointInertia_diag m p
  have k := pointInertia_off m p
  have e : p ⬝ᵥ p = p 0 * p 0 + p 1 * p 1 + p 2 * p 2 := by simp [dotProduct, Fin.sum_univ_three]
  have q0 := mul_self_nonneg (p 0)
  have q1 := mul_self_nonneg (p 1)
  have q2 := mul_self_nonneg (p 2)
  have main : ∀ t : ℝ, |t| ≤ p ⬝ᵥ p → |m * t| ≤ |m| * (p ⬝ᵥ p) := fun t ht => by
    rw [abs_mul]
    exact mul_le_mul_of_nonneg_left ht (abs_nonneg _)
  by_cases h : i = j
  · subst h
    fin_cases i
    · simp only [Fin.zero_eta]
      rw [g1]
      exact main _ (by rw [e, abs_of_nonneg (by linarith)]; linarith)
    · simp only [Fin.mk_one]
      rw [g2]
      exact main _ (by rw [e, abs_of_nonneg (by linarith)]; linarith)
    · simp only [Fin.reduceFinMk]
      rw [g3]
      exact main _ (by rw [e, abs_of_nonneg (by linarith)]; linarith)
  · rw [k i j h, abs_neg]
    refine main _ ?_
    have : p i * p i + p j * p j ≤ p ⬝ᵥ p := by
      rw [e]
      fin_cases i <;> fin_cases j <;> simp at h ⊢ <;> linarith
    rw [abs_le]
    constructor <;> nlinarith [sq_nonneg (p i + p j), sq_nonneg (p i - p j)]

/-- The kinetic energy of the computed inertia is not negative, up to rounding. -/
theorem C110_energy (m : ℝ) (p : Vec3) (h0 : 0 ≤ m) (hm : m ≤ 2 ^ 40) (hp : ∀ i, |p i| ≤ 2 ^ 40) :
    ∃ B : Mat3, pointMassRotationalInertia (fin m) ⟨fin (p 0), fin (p 1), fin (p 2)⟩ = rows B ∧
      ∀ v : Vec3, |v ⬝ᵥ (B *ᵥ v) - m * ((p ⬝ᵥ p) * (v ⬝ᵥ v) - (p ⬝ᵥ v) ^ 2)| ≤
          (2 ^ (-20 : ℤ) * (m * (p ⬝ᵥ p)) + 2 ^ (-105 : ℤ)) * (v ⬝ᵥ v) ∧
        -((2 ^ (-20 : ℤ) * (m * (p ⬝ᵥ p)) + 2 ^ (-105 : ℤ)) * (v ⬝ᵥ v)) ≤ v ⬝ᵥ (B *ᵥ v) := by
  obtain ⟨B, b1, -, b2, -⟩ := C110_inertia m p (by rwa [abs_of_nonneg h0]) hp
  refine ⟨B, b1, fun v => ?_⟩
  have ex : v ⬝ᵥ (pointInertia m p *ᵥ v) = m * ((p ⬝ᵥ p) * (v ⬝ᵥ v) - (p ⬝ᵥ v) ^ 2) := by
    simp [pointInertia, dotProduct, Matrix.mulVec, Fin.sum_univ_three, Matrix.vecMulVec_apply]
    ring
  have cs : (p ⬝ᵥ v) ^ 2 ≤ (p ⬝ᵥ p) * (v ⬝ᵥ v) := by
    simp only [dotProduct, Fin.sum_univ_three]
    nlinarith [sq_nonneg (p 0 * v 1 - p 1 * v 0), sq_nonneg (p 0 * v 2 - p 2 * v 0), sq_nonneg (p 1 * v 2 - p 2 * v 1)]
  set κ := 2 ^ (-22 : ℤ) * (m * (p ⬝ᵥ p)) + 2 ^ (-107 : ℤ) with hκ
  have hE : ∀ i j, |(B - pointInertia m p) i j| ≤ κ := fun i j => by
    refine (b2 i j).2.trans ?_
    have := pointInertia_le m p i j
    rw [abs_of_nonneg h0] at this
    have := mul_le_mul_of_nonneg_left this (by positivity : (0 : ℝ) ≤ 2 ^ (-22 : ℤ))
    rw [hκ]
    linarith
  have κ4 : 2 ^ (-20 : ℤ) * (m * (p ⬝ᵥ p)) + 2 ^ (-105 : ℤ) = 4 * κ := by
    rw [hκ, show (2 : ℝ) ^ (-20 : ℤ) = 4 * 2 ^ (-22 : ℤ) by norm_num, show (2 : ℝ) ^ (-105 : ℤ) = 4 * 2 ^ (-107 : ℤ) by
      rw [show (4 : ℝ) = 2 ^ (2 : ℤ) by norm_num, ← zpow_add₀ (by norm_num)]; norm_num]
    ring
  have key : |v ⬝ᵥ (B *ᵥ v) - m * ((p ⬝ᵥ p) * (v ⬝ᵥ v) - (p ⬝ᵥ v) ^ 2)| ≤ 4 * κ * (v ⬝ᵥ v) := by
    rw [← ex, ← dotProduct_sub, ← Matrix.sub_mulVec]
    generalize B - pointInertia m p = E at *
    have κ0 : 0 ≤ κ := (abs_nonneg _).trans (hE 0 0)
    have tm : ∀ i j, |v i * (E i j * v j)| ≤ κ * (|v i| * |v j|) := fun i j => by
      rw [abs_mul, abs_mul]
      have := mul_le_mul_of_nonneg_right (hE i j) (mul_nonneg (abs_nonneg (v i)) (abs_nonneg (v j)))
      linarith
    have e1 : v ⬝ᵥ (E *ᵥ v) = ∑ i, ∑ j, v i * (E i j * v j) := by
      simp only [dotProduct, Matrix.mulVec, Finset.mul_sum]
    have e2 : |v ⬝ᵥ (E *ᵥ v)| ≤ ∑ i, ∑ j, κ * (|v i| * |v j|) := by
      rw [e1]
      refine (Finset.abs_sum_le_sum_abs _ _).trans (Finset.sum_le_sum fun i _ => ?_)
      exact (Finset.abs_sum_le_sum_abs _ _).trans (Finset.sum_le_sum fun j _ => tm i j)
    refine e2.trans ?_
    have e3 : v ⬝ᵥ v = |v 0| ^ 2 + |v 1| ^ 2 + |v 2| ^ 2 := by
      simp only [dotProduct, Fin.sum_univ_three, sq_abs]
      ring
    rw [e3]
    simp only [Fin.sum_univ_three]
    have : (|v 0| + |v 1| + |v 2|) ^ 2 ≤ 4 * (|v 0| ^ 2 + |v 1| ^ 2 + |v 2| ^ 2) := by
      nlinarith [sq_nonneg (|v 0| - |v 1|), sq_nonneg (|v 0| - |v 2|), sq_nonneg (|v 1| - |v 2|)]
    nlinarith [mul_le_mul_of_nonneg_left this κ0]
  rw [κ4]
  refine ⟨key, ?_⟩
  have := (abs_le.1 key).1
  have := mul_nonneg h0 (sub_nonneg.2 cs)
  linarith

/-- Whatever the arguments, nine elements are returned and the matrix is symmetric. -/
theorem C110_symmetric (m : F32) (p : Position3D) : ∃ a b c d e f,
    pointMassRotationalInertia m p = [a, b, c, b, d, e, c, e, f] := ⟨_, _, _, _, _, _, rfl⟩

/-- Rounding between 1 and 2. -/
theorem rnd_between {x : ℝ} (k : ℤ) (h1 : 1 ≤ x) (h2 : x < 2) (h : |k * (2 : ℝ) ^ (-23 : ℤ) - x| < 2 ^ (-24 : ℤ))
    (hk : |k| < 2 ^ 24) : rnd x = k * (2 : ℝ) ^ (-23 : ℤ) := by
  have x0 : 0 < |x| := abs_pos.2 (by linarith)
  have hl : Int.log 2 |x| = 0 := by
    have l1 : Int.log 2 |x| < 1 :=
      (Int.lt_zpow_iff_log_lt (by norm_num) x0).1 (by rw [abs_of_pos (by linarith)]; norm_num; exact h2)
    have l2 : 0 ≤ Int.log 2 |x| :=
      (Int.zpow_le_iff_le_log (by norm_num) x0).1 (by rw [abs_of_pos (by linarith)]; norm_num; exact h1)
    omega
  have hb : lastBit x = -23 := by rw [lastBit, hl]; norm_num
  have e := rnd_nearest x ⟨k, -23, hk, by norm_num, rfl⟩
  rw [rnd, hb] at e ⊢
  generalize nearestInt (x / (2 : ℝ) ^ (-23 : ℤ)) = n at *
  have t := abs_sub_le (n * (2 : ℝ) ^ (-23 : ℤ)) x (k * (2 : ℝ) ^ (-23 : ℤ))
  rw [abs_sub_comm x] at t
  have t2 : |n * (2 : ℝ) ^ (-23 : ℤ) - k * (2 : ℝ) ^ (-23 : ℤ)| < 2 ^ (-23 : ℤ) := by
    have : (2 : ℝ) ^ (-23 : ℤ) = 2 * 2 ^ (-24 : ℤ) := by norm_num
    rw [this] at t e h ⊢
    linarith
  rw [← sub_mul, abs_mul, abs_of_pos (by positivity : (0 : ℝ) < 2 ^ (-23 : ℤ))] at t2
  have t3 : |(n : ℝ) - k| < 1 := by
    have p : (0 : ℝ) < 2 ^ (-23 : ℤ) := by positivity
    by_contra hc
    have := mul_le_mul_of_nonneg_right (not_lt.1 hc) p.le
    linarith
  have : n = k := by
    have h3 : |n - k| < 1 := by exact_mod_cast t3
    have := Int.abs_lt_one_iff.1 h3
    omega
  rw [this]

/-- The computed inertia of a mass can have negative kinetic energies: the mass 1 at `(1 + 2^-14, 1, 0)`. -/
theorem C110_indefinite : ∃ B : Mat3,
    pointMassRotationalInertia (fin 1) ⟨fin (1 + 2 ^ (-14 : ℤ)), fin 1, fin 0⟩ = rows B ∧
      ![1 + 2 ^ (-14 : ℤ), 1, 0] ⬝ᵥ (B *ᵥ ![1 + 2 ^ (-14 : ℤ), 1, 0]) < 0 := by
  have rx : Rep (1 + 2 ^ (-14 : ℤ)) := ⟨16385, -14, by norm_num, by norm_num, by norm_num, by norm_num⟩
  have h14 : (2 : ℝ) ^ (-14 : ℤ) = 1 / 16384 := by norm_num
  have h13 : (2 : ℝ) ^ (-13 : ℤ) = 1 / 8192 := by norm_num
  have r1 : Rep (1 + 2 ^ (-13 : ℤ)) := ⟨8193, -13, by norm_num, by norm_num, by norm_num, by norm_num⟩
  have q : rnd ((1 + 2 ^ (-14 : ℤ)) * (1 + 2 ^ (-14 : ℤ))) = 1 + 2 ^ (-13 : ℤ) := by
    rw [rnd_between 8389632 (by norm_num) (by norm_num) (by rw [abs_lt]; norm_num) (by norm_num)]
    norm_num
  have hb : |(1 + 2 ^ (-14 : ℤ)) * (1 + (2 : ℝ) ^ (-14 : ℤ))| ≤ 2 ^ 127 := by rw [h14, abs_le]; norm_num
  have m1 : mul (fin (1 + 2 ^ (-14 : ℤ))) (fin (1 + 2 ^ (-14 : ℤ))) = fin (1 + 2 ^ (-13 : ℤ)) := by rw [mul_fin hb, q]
  have z : round 0 = fin 0 := round_rep Rep.zero
  have o : round 1 = fin 1 := round_rep Rep.one
  have o' : round (-1) = fin (-1) := round_rep Rep.one.neg
  have X : round (1 + 2 ^ (-13 : ℤ)) = fin (1 + 2 ^ (-13 : ℤ)) := round_rep r1
  have rz : Rep (1 + 2 ^ (-13 : ℤ) + 1) := ⟨16385, -13, by norm_num, by norm_num, by norm_num, by norm_num⟩
  have Z : round (1 + 2 ^ (-13 : ℤ) + 1) = fin (1 + 2 ^ (-13 : ℤ) + 1) := round_rep rz
  have N : round (-(1 + 2 ^ (-14 : ℤ))) = fin (-(1 + 2 ^ (-14 : ℤ))) := round_rep rx.neg
  refine ⟨!![1, -(1 + 2 ^ (-14 : ℤ)), 0; -(1 + 2 ^ (-14 : ℤ)), 1 + 2 ^ (-13 : ℤ), 0; 0, 0, 1 + 2 ^ (-13 : ℤ) + 1], ?_, ?_⟩
  · simp only [pointMassRotationalInertia, m1, rows]
    clear q hb m1 h13 h14
    generalize (2 : ℝ) ^ (-14 : ℤ) = s at *
    generalize (2 : ℝ) ^ (-13 : ℤ) = r at *
    have N' : round (-s + -1) = fin (-(1 + s)) := by rw [← N]; congr 1; ring
    simp [mul, add, neg, z, o, o', X, Z, N, N']
  · rw [h13, h14]
    simp [dotProduct, Matrix.mulVec, Fin.sum_univ_three]
    norm_num

/-! ### Examples -/

/-- A mass of 10 at (1, 2, 3). -/
example : ∃ B : Mat3, pointMassRotationalInertia (fin 10) ⟨fin 1, fin 2, fin 3⟩ = rows B ∧
    |B 0 0 - 130| ≤ 1 / 10000 ∧ |B 0 1 - -20| ≤ 1 / 10000 := by
  obtain ⟨B, h1, -, h2, -⟩ := C110_inertia 10 ![1, 2, 3] (by norm_num) (by intro i; fin_cases i <;> norm_num)
  have hc : (2 : ℝ) ^ (-107 : ℤ) ≤ 1 / 100000 :=
    (zpow_le_zpow_right₀ (by norm_num) (by norm_num : (-107 : ℤ) ≤ -20)).trans (by norm_num)
  refine ⟨B, h1, ?_, ?_⟩
  · have := (h2 0 0).2
    rw [(pointInertia_diag 10 ![1, 2, 3]).1,
      show (10 : ℝ) * ((![1, 2, 3] : Vec3) 1 * (![1, 2, 3] : Vec3) 1 + (![1, 2, 3] : Vec3) 2 * (![1, 2, 3] : Vec3) 2) = 130 by
        simp; norm_num] at this
    generalize (2 : ℝ) ^ (-107 : ℤ) = E at *
    norm_num at this ⊢
    linarith
  · have := (h2 0 1).2
    rw [pointInertia_off 10 ![1, 2, 3] 0 1 (by decide)] at this
    generalize (2 : ℝ) ^ (-107 : ℤ) = E at *
    norm_num at this ⊢
    linarith

/-- Positions far away overflow, the matrix is still symmetric. -/
example : ∃ a b c d e f, pointMassRotationalInertia (fin 1) ⟨fin (2 ^ 100), fin 1, nan⟩ = [a, b, c, b, d, e, c, e, f] :=
  C110_symmetric _ _

/-- The bound of the energy for a mass of 10 at (1, 2, 3). -/
example : ∃ B : Mat3, pointMassRotationalInertia (fin 10) ⟨fin 1, fin 2, fin 3⟩ = rows B ∧
    ∀ v : Vec3, -((2 ^ (-20 : ℤ) * (10 * 14) + 2 ^ (-105 : ℤ)) * (v ⬝ᵥ v)) ≤ v ⬝ᵥ (B *ᵥ v) := by
  obtain ⟨B, h1, h2⟩ := C110_energy 10 ![1, 2, 3] (by norm_num) (by norm_num) (by intro i; fin_cases i <;> norm_num)
  refine ⟨B, h1, fun v => ?_⟩
  have := (h2 v).2
  rwa [show (![1, 2, 3] : Vec3) ⬝ᵥ ![1, 2, 3] = 14 by simp [dotProduct, Fin.sum_univ_three]; norm_num] at this

end AlMath.F32
