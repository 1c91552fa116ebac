import Verif.Spec.Libm
import Verif.Lemmas.Rot
import Verif.Props.C77
import Verif.Props.C79
import Verif.Props.C80
import Mathlib.Analysis.Real.Pi.Bounds
import Mathlib.Analysis.SpecialFunctions.Trigonometric.Bounds
import Mathlib.Analysis.SpecialFunctions.Complex.Arg

/-!
C85: matrices from angles in single precision.
-/

namespace AlMath.F32

open AlMath.Spec Matrix

theorem turnX_eq (a : ℝ) : turnX a = !![1, 0, 0; 0, Real.cos a, -Real.sin a; 0, Real.sin a, Real.cos a] := by
  ext i j
  fin_cases i <;> fin_cases j <;> simp [turnX, rodrigues, skew, Matrix.mul_apply, Fin.sum_univ_three, Matrix.one_apply]

theorem turnY_eq (a : ℝ) : turnY a = !![Real.cos a, 0, Real.sin a; 0, 1, 0; -Real.sin a, 0, Real.cos a] := by
  ext i j
  fin_cases i <;> fin_cases j <;> simp [turnY, rodrigues, skew, Matrix.mul_apply, Fin.sum_univ_three, Matrix.one_apply]

theorem turnZ_eq (a : ℝ) : turnZ a = !![Real.cos a, -Real.sin a, 0; Real.sin a, Real.cos a, 0; 0, 0, 1] := by
  ext i j
  fin_cases i <;> fin_cases j <;> simp [turnZ, rodrigues, skew, Matrix.mul_apply, Fin.sum_univ_three, Matrix.one_apply]

theorem turnX_rot (a : ℝ) : IsRot (turnX a) := by
  rw [turnX_eq, isRot_coord]
  have := Real.sin_sq_add_cos_sq a
  split_ands <;> linarith

theorem turnY_rot (a : ℝ) : IsRot (turnY a) := by
  rw [turnY_eq, isRot_coord]
  have := Real.sin_sq_add_cos_sq a
  split_ands <;> linarith

theorem turnZ_rot (a : ℝ) : IsRot (turnZ a) := by
  rw [turnZ_eq, isRot_coord]
  have := Real.sin_sq_add_cos_sq a
  split_ands <;> linarith

theorem sq_le_zpow {x : ℝ} (h : |x| ≤ 2 ^ (-23 : ℤ)) : x ^ 2 ≤ (2 ^ (-23 : ℤ)) ^ 2 := by
  rw [← sq_abs x]
  exact pow_le_pow_left₀ (abs_nonneg _) h 2

/-- Matrices from one angle. -/
theorem C85_turn (m : Libm) (hm : m.Accurate) (a : ℝ) (ha : Rep a) :
    (∃ B, Rotation.fromRotX m (fin a) = Rotation.ofMat B ∧ (∀ i j, Rep (B i j)) ∧ fro (B - turnX a) ≤ 2 ^ (-22 : ℤ)) ∧
    (∃ B, Rotation.fromRotY m (fin a) = Rotation.ofMat B ∧ (∀ i j, Rep (B i j)) ∧ fro (B - turnY a) ≤ 2 ^ (-22 : ℤ)) ∧
    ∃ B, Rotation.fromRotZ m (fin a) = Rotation.ofMat B ∧ (∀ i j, Rep (B i j)) ∧ fro (B - turnZ a) ≤ 2 ^ (-22 : ℤ) := by
  obtain ⟨c, hc, rc, ec⟩ := hm.cos a ha
  obtain ⟨s, hs, rs, es⟩ := hm.sin a ha
  have k1 := sq_le_zpow ec
  have k2 := sq_le_zpow es
  have h22 : ((2 : ℝ) ^ (-22 : ℤ)) ^ 2 = 4 * (2 ^ (-23 : ℤ)) ^ 2 := by norm_num
  have h0 : (0 : ℝ) ≤ 2 ^ (-22 : ℤ) := by positivity
  clear ec es
  generalize (2 : ℝ) ^ (-22 : ℤ) = v at *
  generalize (2 : ℝ) ^ (-23 : ℤ) = u at *
  refine ⟨⟨!![1, 0, 0; 0, c, -s; 0, s, c], ?_, ?_, ?_⟩, ⟨!![c, 0, s; 0, 1, 0; -s, 0, c], ?_, ?_, ?_⟩,
    ⟨!![c, -s, 0; s, c, 0; 0, 0, 1], ?_, ?_, ?_⟩⟩
  · simp [Rotation.fromRotX, Rotation.ofMat, hc, hs, neg]
  · intro i j
    fin_cases i <;> fin_cases j <;> simp [rc, rs, rs.neg, Rep.zero, Rep.one]
  · refine sq_le_of h0 ?_
    rw [turnX_eq, fro_sq, h22]
    simp [Fin.sum_univ_three]
    linarith [show (-s + Real.sin a) ^ 2 = (s - Real.sin a) ^ 2 by ring]
  · simp [Rotation.fromRotY, Rotation.ofMat, hc, hs, neg]
  · intro i j
    fin_cases i <;> fin_cases j <;> simp [rc, rs, rs.neg, Rep.zero, Rep.one]
  · refine sq_le_of h0 ?_
    rw [turnY_eq, fro_sq, h22]
    simp [Fin.sum_univ_three]
    linarith [show (-s + Real.sin a) ^ 2 = (s - Real.sin a) ^ 2 by ring]
  · simp [Rotation.fromRotZ, Rotation.ofMat, hc, hs, neg]
  · intro i j
    fin_cases i <;> fin_cases j <;> simp [rc, rs, rs.neg, Rep.zero, Rep.one]
  · refine sq_le_of h0 ?_
    rw [turnZ_eq, fro_sq, h22]
    simp [Fin.sum_univ_three]
    linarith [show (-s + Real.sin a) ^ 2 = (s - Real.sin a) ^ 2 by ring]

theorem add_rep {a b : F32} {x : ℝ} (h : add a b = fin x) : Rep x := by
  cases a <;> cases b <;> simp only [add, reduceCtorEq] at h
  rename_i p q
  have := round_valid (p + q)
  rwa [h] at this

theorem mul_rep {A B : Rotation} {C : Mat3} (h : Rotation.mul A B = Rotation.ofMat C) (i j : Fin 3) : Rep (C i j) := by
  simp only [Rotation.mul, Rotation.ofMat, Rotation.mk.injEq, dot] at h
  obtain ⟨h1, h2, h3, h4, h5, h6, h7, h8, h9⟩ := h
  fin_cases i <;> fin_cases j
  exacts [add_rep h1, add_rep h2, add_rep h3, add_rep h4, add_rep h5, add_rep h6, add_rep h7, add_rep h8, add_rep h9]

/-- The matrix from three angles. -/
theorem C85_from3D (m : Libm) (hm : m.Accurate) (x y z : ℝ) (hx : Rep x) (hy : Rep y) (hz : Rep z) :
    ∃ B, Rotation.from3D m (fin x) (fin y) (fin z) = Rotation.ofMat B ∧ (∀ i j, Rep (B i j)) ∧
      fro (B - turnZ z * turnY y * turnX x) ≤ 2 ^ (-17 : ℤ) := by
  obtain ⟨⟨X, eX, -, kX⟩, -, -⟩ := C85_turn m hm x hx
  obtain ⟨-, ⟨Y, eY, -, kY⟩, -⟩ := C85_turn m hm y hy
  obtain ⟨-, -, ⟨Z, eZ, -, kZ⟩⟩ := C85_turn m hm z hz
  obtain ⟨C, eC, kC⟩ := mul_near (turnZ_rot z).1 (turnY_rot y).1 kZ kY (by norm_num) (by norm_num)
  obtain ⟨D, eD, kD⟩ := mul_near ((turnZ_rot z).mul (turnY_rot y)).1 (turnX_rot x).1 kC kX (by norm_num) (by norm_num)
  exact ⟨D, by rw [Rotation.from3D, eX, eY, eZ, eC, eD], mul_rep eD, kD.trans (by norm_num)⟩

/-- It is accepted as a rotation. -/
theorem C85_accepted (m : Libm) (hm : m.Accurate) (x y z : ℝ) (hx : Rep x) (hy : Rep y) (hz : Rep z)
    (eps : ℝ) (heps : Rep eps) (h : 99 / 1000000 ≤ eps) :
    Rotation.isRotation (Rotation.from3D m (fin x) (fin y) (fin z)) (fin eps) = true := by
  obtain ⟨B, h1, -, h2⟩ := C85_from3D m hm x y z hx hy hz
  rw [h1]
  exact C80_accepts B _ (((turnZ_rot z).mul (turnY_rot y)).mul (turnX_rot x)) _ eps h2 (by norm_num) heps
    (le_trans (by norm_num) h)

/-- Products of transforms without translation. -/
theorem mul_no_translation (A B : Mat3) :
    Transform.mul (Transform.ofMat A 0) (Transform.ofMat B 0) =
      ⟨Rotation.mul (Rotation.ofMat A) (Rotation.ofMat B), fin 0, fin 0, fin 0⟩ := by
  have r0 : round 0 = fin 0 := round_rep Rep.zero
  simp [Transform.mul, Transform.ofMat, Rotation.ofMat, dot, mul, add, r0]

/-- The rotation part of a transform from angles is the matrix from these angles. -/
theorem transform_from3D (m : Libm) (hm : m.Accurate) (x y z : ℝ) (hx : Rep x) (hy : Rep y) (hz : Rep z) :
    Transform.from3D m (fin x) (fin y) (fin z) = ⟨Rotation.from3D m (fin x) (fin y) (fin z), fin 0, fin 0, fin 0⟩ := by
  obtain ⟨⟨X, eX, -, kX⟩, -, -⟩ := C85_turn m hm x hx
  obtain ⟨-, ⟨Y, eY, -, kY⟩, -⟩ := C85_turn m hm y hy
  obtain ⟨-, -, ⟨Z, eZ, -, kZ⟩⟩ := C85_turn m hm z hz
  obtain ⟨C, eC, -⟩ := mul_near (turnZ_rot z).1 (turnY_rot y).1 kZ kY (by norm_num) (by norm_num)
  have fX : Transform.fromRotX m (fin x) = Transform.ofMat X 0 := by
    rw [Transform.ofMat, ← eX]; rfl
  have fY : Transform.fromRotY m (fin y) = Transform.ofMat Y 0 := by
    rw [Transform.ofMat, ← eY]; rfl
  have fZ : Transform.fromRotZ m (fin z) = Transform.ofMat Z 0 := by
    rw [Transform.ofMat, ← eZ]; rfl
  have fC : (⟨Rotation.ofMat C, fin 0, fin 0, fin 0⟩ : Transform) = Transform.ofMat C 0 := rfl
  rw [Transform.from3D, fX, fY, fZ, mul_no_translation, eC, fC, mul_no_translation, Rotation.from3D, eX, eY, eZ, eC]

/-- The transform from a position and three angles: the position is kept exactly. -/
theorem C85_position (m : Libm) (hm : m.Accurate) (p q r : F32) (x y z : ℝ) (hx : Rep x) (hy : Rep y) (hz : Rep z) :
    ∃ B, Transform.fromPosition m p q r (fin x) (fin y) (fin z) = ⟨Rotation.ofMat B, p, q, r⟩ ∧
      Transform.from3D m (fin x) (fin y) (fin z) = Transform.ofMat B 0 ∧
      fro (B - turnZ z * turnY y * turnX x) ≤ 2 ^ (-17 : ℤ) := by
  obtain ⟨B, h1, -, h2⟩ := C85_from3D m hm x y z hx hy hz
  refine ⟨B, ?_, ?_, h2⟩
  · rw [Transform.fromPosition, transform_from3D m hm x y z hx hy hz, h1]
  · rw [transform_from3D m hm x y z hx hy hz, h1]
    rfl

/-- Transforms from an axis, an angle and a position. -/
theorem C85_rotVec (m : Libm) (hm : m.Accurate) (p : Position3D) (a : ℝ) (ha : Rep a) (axis : ℤ) :
    ∃ B, Transform.fromRotVec m axis (fin a) p = ⟨Rotation.ofMat B, p.x, p.y, p.z⟩ ∧
      (axis = 1 → fro (B - turnX a) ≤ 2 ^ (-22 : ℤ)) ∧ (axis = 2 → fro (B - turnY a) ≤ 2 ^ (-22 : ℤ)) ∧
      (axis = 4 → fro (B - turnZ a) ≤ 2 ^ (-22 : ℤ)) ∧ (axis ≠ 1 → axis ≠ 2 → axis ≠ 4 → B = 1) := by
  obtain ⟨⟨X, eX, -, kX⟩, ⟨Y, eY, -, kY⟩, ⟨Z, eZ, -, kZ⟩⟩ := C85_turn m hm a ha
  by_cases h1 : axis = 1
  · subst h1
    exact ⟨X, by rw [← eX]; rfl, fun _ => kX, by simp, by simp, by simp⟩
  by_cases h2 : axis = 2
  · subst h2
    exact ⟨Y, by rw [← eY]; rfl, by simp, fun _ => kY, by simp, by simp⟩
  by_cases h4 : axis = 4
  · subst h4
    exact ⟨Z, by rw [← eZ]; rfl, by simp, by simp, fun _ => kZ, by simp⟩
  · exact ⟨1, by simp [Transform.fromRotVec, Rotation.ofMat, h1, h2, h4], by simp [h1], by simp [h2], by simp [h4], by simp⟩

/-- Transform from a pose in the plane. -/
theorem C85_pose2D (m : Libm) (hm : m.Accurate) (x y a : ℝ) (hx : Rep x) (hy : Rep y) (ha : Rep a) :
    ∃ B, Transform.fromPose2D m (fin x) (fin y) (fin a) = Transform.ofMat B ![x, y, 0] ∧
      fro (B - turnZ a) ≤ 2 ^ (-22 : ℤ) := by
  obtain ⟨-, -, ⟨Z, eZ, rZ, kZ⟩⟩ := C85_turn m hm a ha
  refine ⟨Z, ?_, kZ⟩
  have fZ : Transform.fromRotZ m (fin a) = Transform.ofMat Z 0 := by
    rw [Transform.ofMat, ← eZ]; rfl
  have r0 : round 0 = fin 0 := round_rep Rep.zero
  have rr : ∀ i j, round (Z i j) = fin (Z i j) := fun i j => round_rep (rZ i j)
  rw [Transform.fromPose2D, fZ]
  simp [Transform.mul, Transform.ofMat, Rotation.mul, Rotation.ofMat, dot, mul, add, r0, rr, round_rep hx, round_rep hy]

/-- Position and angles of one joint. Not in /repo: specification. -/
structure Joint where
  p : Vec3
  wx : ℝ
  wy : ℝ
  wz : ℝ

/-- The exact motion of a joint. Not in /repo: specification. -/
noncomputable def Joint.motion (j : Joint) : Mat3 × Vec3 := (turnZ j.wz * turnY j.wy * turnX j.wx, j.p)

/-- Forward kinematics: the product of the transforms of `n` joints, each given by a position at most `L`
long and three angles. -/
theorem C85_chain (m : Libm) (hm : m.Accurate) (L : ℝ) (hL : 2 ^ (-100 : ℤ) ≤ L) (hL' : L ≤ 2 ^ 98) (t : Product Joint)
    (h : t.All fun j => Rep j.wx ∧ Rep j.wy ∧ Rep j.wz ∧ (∀ i, Rep (j.p i)) ∧ vlen j.p ≤ L) (hN : t.size ≤ 21845) :
    ∃ A v, t.eval (fun j => Transform.fromPosition m (fin (j.p 0)) (fin (j.p 1)) (fin (j.p 2)) (fin j.wx) (fin j.wy)
        (fin j.wz)) Transform.mul = Transform.ofMat A v ∧
      (∀ i j, |A i j - (t.eval Joint.motion compose).1 i j| ≤ t.size * 2 ^ (-15 : ℤ)) ∧
      ∀ i, |v i - (t.eval Joint.motion compose).2 i| ≤ t.size ^ 2 * L * (6 * 2 ^ (-17 : ℤ)) := by
  have hN' : (t.size : ℝ) ≤ 21845 := by exact_mod_cast hN
  obtain ⟨A, v, h1, h2, h3⟩ := C79_linear
    (fun j : Joint => Transform.fromPosition m (fin (j.p 0)) (fin (j.p 1)) (fin (j.p 2)) (fin j.wx) (fin j.wy) (fin j.wz))
    Joint.motion (2 ^ (-17 : ℤ)) L (by norm_num) hL hL' t
    (Product.All.imp (fun j hj => by
      obtain ⟨k1, k2, k3, k4, k5⟩ := hj
      obtain ⟨B, b1, -, b3⟩ := C85_position m hm (fin (j.p 0)) (fin (j.p 1)) (fin (j.p 2)) j.wx j.wy j.wz k1 k2 k3
      refine ⟨⟨(((turnZ_rot j.wz).mul (turnY_rot j.wy)).mul (turnX_rot j.wx)).1, k5⟩, B, j.p, b1, b3, ?_, k4⟩
      rw [show j.p - j.motion.2 = 0 from sub_self _, show vlen (0 : Vec3) = 0 by simp [vlen]]
      have : (0 : ℝ) < 2 ^ (-100 : ℤ) := two_zpow_pos _
      exact mul_nonneg (two_zpow_pos _).le (this.le.trans hL)) h)
    (by
      have : (2 : ℝ) ^ (-17 : ℤ) = 1 / 131072 := by norm_num
      rw [this]
      linarith)
  refine ⟨A, v, h1, fun i j => (h2 i j).trans (le_of_eq ?_), fun i => (h3 i).trans (le_of_eq ?_)⟩
  · have : (2 : ℝ) ^ (-15 : ℤ) = 4 * 2 ^ (-17 : ℤ) := by norm_num
    rw [this]; ring
  · ring

/-- What is assumed can be satisfied: by rounding the exact values. Not in /repo: specification. -/
noncomputable def Libm.rounded : Libm where
  cos
    | fin x => round (Real.cos x)
    | _ => nan
  sin
    | fin x => round (Real.sin x)
    | _ => nan
  atan2
    | fin y, fin x => round (Complex.arg ⟨x, y⟩)
    | _, _ => nan

theorem rounded_accurate : Libm.rounded.Accurate where
  cos x _ := by
    have h := Real.abs_cos_le_one x
    have h1 := rnd_gen (Real.cos x)
    have h2 : |Real.cos x| ≤ 2 ^ 127 := h.trans (by norm_num)
    refine ⟨rnd (Real.cos x), round_fin h2, rnd_rep h2, h1.trans ?_⟩
    have : (2 : ℝ) ^ (-150 : ℤ) ≤ 2 ^ (-24 : ℤ) := two_zpow_le (by norm_num)
    rw [show (2 : ℝ) ^ (-23 : ℤ) = 2 ^ (-24 : ℤ) + 2 ^ (-24 : ℤ) by norm_num]
    exact add_le_add (mul_le_of_le_one_right (by positivity) h) this
  sin x _ := by
    have h := Real.abs_sin_le_one x
    have h1 := rnd_gen (Real.sin x)
    have h2 : |Real.sin x| ≤ 2 ^ 127 := h.trans (by norm_num)
    refine ⟨rnd (Real.sin x), round_fin h2, rnd_rep h2, h1.trans ?_⟩
    have : (2 : ℝ) ^ (-150 : ℤ) ≤ 2 ^ (-24 : ℤ) := two_zpow_le (by norm_num)
    rw [show (2 : ℝ) ^ (-23 : ℤ) = 2 ^ (-24 : ℤ) + 2 ^ (-24 : ℤ) by norm_num]
    exact add_le_add (mul_le_of_le_one_right (by positivity) h) this
  atan2 y x _ _ := by
    have h : |Complex.arg ⟨x, y⟩| ≤ 7 / 2 := (Complex.abs_arg_le_pi _).trans (by linarith [Real.pi_lt_d2])
    have h1 := rnd_gen (Complex.arg ⟨x, y⟩)
    have h2 : |Complex.arg ⟨x, y⟩| ≤ 2 ^ 127 := h.trans (by norm_num)
    have h3 : |rnd (Complex.arg ⟨x, y⟩) - Complex.arg ⟨x, y⟩| ≤ 2 ^ (-21 : ℤ) := by
      have : (2 : ℝ) ^ (-150 : ℤ) ≤ 2 ^ (-24 : ℤ) := two_zpow_le (by norm_num)
      have k : (2 : ℝ) ^ (-21 : ℤ) = 8 * 2 ^ (-24 : ℤ) := by norm_num
      have k0 : (0 : ℝ) < 2 ^ (-24 : ℤ) := two_zpow_pos _
      rw [k]
      generalize (2 : ℝ) ^ (-24 : ℤ) = u at *
      have := mul_le_mul_of_nonneg_left h k0.le
      linarith
    refine ⟨rnd (Complex.arg ⟨x, y⟩), round_fin h2, rnd_rep h2, ?_, ?_⟩
    · have : (2 : ℝ) ^ (-21 : ℤ) ≤ 1 / 2 := by norm_num
      generalize Complex.arg ⟨x, y⟩ = a at *
      have h4 := (abs_sub_abs_le_abs_sub (rnd a) a).trans (h3.trans this)
      linarith
    · generalize hz : (⟨x, y⟩ : ℂ) = z at *
      have e : (‖z‖ : ℂ) * Complex.exp ((rnd z.arg : ℝ) * Complex.I) - z =
          ((‖z‖ : ℂ) * Complex.exp (z.arg * Complex.I)) * (Complex.exp (Complex.I * ((rnd z.arg - z.arg : ℝ) : ℂ)) - 1) := by
        rw [mul_sub, mul_one, mul_assoc, ← Complex.exp_add, Complex.norm_mul_exp_arg_mul_I]
        congr 3
        push_cast
        ring
      rw [e, Complex.norm_mul_exp_arg_mul_I, norm_mul, mul_comm]
      exact mul_le_mul_of_nonneg_right ((Real.norm_exp_I_mul_ofReal_sub_one_le).trans h3) (norm_nonneg _)

/-! ### Examples -/

/-- The hypotheses of the theorems of this file, for any angles. -/
example : Rotation.isRotation (Rotation.from3D Libm.rounded (fin 1) (fin (-1)) (fin 0)) (fin (2 ^ (-10 : ℤ))) = true :=
  C85_accepted _ rounded_accurate 1 (-1) 0 Rep.one Rep.one.neg Rep.zero _ (Rep.two_zpow (by norm_num) (by norm_num))
    (by norm_num)

/-- Two links of length 1 with joints turned by 1 radian about the third axis. -/
example : ∃ A v, Transform.mul
      (Transform.fromPosition Libm.rounded (fin 1) (fin 0) (fin 0) (fin 0) (fin 0) (fin 1))
      (Transform.fromPosition Libm.rounded (fin 1) (fin 0) (fin 0) (fin 0) (fin 0) (fin 1)) = Transform.ofMat A v ∧
    |v 0 - (Real.cos 1 + 1)| ≤ 2 ^ (-12 : ℤ) := by
  have j : (fun j : Joint => Rep j.wx ∧ Rep j.wy ∧ Rep j.wz ∧ (∀ i, Rep (j.p i)) ∧ vlen j.p ≤ 1) ⟨![1, 0, 0], 0, 0, 1⟩ := by
    refine ⟨Rep.zero, Rep.zero, Rep.one, fun i => ?_, ?_⟩
    · fin_cases i <;> simp [Rep.zero, Rep.one]
    · simp [vlen, Fin.sum_univ_three]
  obtain ⟨A, v, h1, -, h3⟩ := C85_chain Libm.rounded rounded_accurate 1
    (zpow_le_one_of_nonpos₀ (by norm_num) (by norm_num)) (by norm_num)
    (.times (.factor ⟨![1, 0, 0], 0, 0, 1⟩) (.factor ⟨![1, 0, 0], 0, 0, 1⟩)) ⟨j, j⟩ (by simp [Product.size])
  refine ⟨A, v, h1, ?_⟩
  have h := h3 0
  have e : ((Product.times (.factor (⟨![1, 0, 0], 0, 0, 1⟩ : Joint)) (.factor ⟨![1, 0, 0], 0, 0, 1⟩)).eval Joint.motion
      compose).2 0 = Real.cos 1 + 1 := by
    simp [Product.eval, compose, Joint.motion, turnX_eq, turnY_eq, turnZ_eq, Matrix.mulVec, dotProduct, Fin.sum_univ_three,
      Matrix.mul_apply]
    rfl
  rw [e] at h
  refine h.trans ?_
  simp only [Product.size]
  norm_num

end AlMath.F32
