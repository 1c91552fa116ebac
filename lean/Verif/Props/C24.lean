import Verif.Props.C23
import Verif.Lemmas.Euler
import Mathlib.Analysis.SpecialFunctions.Trigonometric.Complex

/-!
C24: axisRotationProjection. C25: orthogonalSpace.
-/

namespace AlMath

open Spec Matrix

namespace Spec

/-- Squared (Frobenius) distance of matrices. Not in /repo: specification. -/
def matDistSq (A B : Mat3) : ℝ := ((A - B)ᵀ * (A - B)).trace

/-- `n` is the unit vector in the direction of `p`. Not in /repo: specification. -/
def IsUnitDir (p : Position3D) (n : Vec3) : Prop :=
  lenSq n = 1 ∧ ∃ r : ℝ, 0 < r ∧ p.vec = r • n

end Spec

theorem axisMatrix_rodrigues (x y z t : ℝ) :
    (axisMatrix x y z (1 - Real.cos t) (Real.sin t)).mat = rodrigues ![x, y, z] t := by
  rw [rodrigues_coord]
  ext i j
  fin_cases i <;> fin_cases j <;> simp [axisMatrix, Rotation.mat] <;> ring

theorem norm3_eq (p : Position3D) : Position3D.norm p = √(lenSq p.vec) := by
  simp [Position3D.norm, lenSq, Position3D.vec, dotProduct, Fin.sum_univ_three]

theorem norm3_zero (p : Position3D) : Position3D.norm p = 0 ↔ p.vec = 0 := by
  have hnn : 0 ≤ lenSq p.vec := by
    simp [lenSq, Position3D.vec, dotProduct, Fin.sum_univ_three]
    linarith [mul_self_nonneg p.x, mul_self_nonneg p.y, mul_self_nonneg p.z]
  rw [norm3_eq, Real.sqrt_eq_zero hnn]
  constructor
  · intro h
    simp [lenSq, Position3D.vec, dotProduct, Fin.sum_univ_three] at h
    have hx := mul_self_nonneg p.x
    have hy := mul_self_nonneg p.y
    have hz := mul_self_nonneg p.z
    ext i
    fin_cases i <;> simp [Position3D.vec] <;> apply mul_self_eq_zero.1 <;> linarith
  · intro h; rw [h]; simp [lenSq]

/-- The unit direction the library computes. -/
theorem unitDir_norm {p : Position3D} (h : Position3D.norm p ≠ 0) :
    IsUnitDir p ![1 / Position3D.norm p * p.x, 1 / Position3D.norm p * p.y,
      1 / Position3D.norm p * p.z] := by
  have hnn : 0 ≤ lenSq p.vec := by
    simp [lenSq, Position3D.vec, dotProduct, Fin.sum_univ_three]
    linarith [mul_self_nonneg p.x, mul_self_nonneg p.y, mul_self_nonneg p.z]
  have h2 : Position3D.norm p ^ 2 = p.x * p.x + p.y * p.y + p.z * p.z := by
    rw [norm3_eq, Real.sq_sqrt hnn]
    simp [lenSq, Position3D.vec, dotProduct, Fin.sum_univ_three]
  refine ⟨?_, Position3D.norm p, ?_, ?_⟩
  · simp [lenSq, dotProduct, Fin.sum_univ_three]
    field_simp
    linarith
  · exact lt_of_le_of_ne (by rw [norm3_eq]; exact Real.sqrt_nonneg _) (Ne.symm h)
  · ext i; fin_cases i <;> simp [Position3D.vec] <;> field_simp

theorem unitDir_unique {p : Position3D} {n m : Vec3} (hn : IsUnitDir p n) (hm : IsUnitDir p m) :
    n = m := by
  obtain ⟨h1, r, hr, e1⟩ := hn
  obtain ⟨h2, s, hs, e2⟩ := hm
  have h3 : lenSq (r • n) = lenSq (s • m) := by rw [← e1, ← e2]
  unfold lenSq at *
  rw [smul_dotProduct, dotProduct_smul, smul_dotProduct, dotProduct_smul, h1, h2] at h3
  simp at h3
  have : r = s := by nlinarith
  subst this
  have e : r • n = r • m := by rw [← e1, ← e2]
  exact smul_right_injective _ hr.ne' e

/-! ### C24 -/

/-- Whatever the matrix given, a returned matrix is the rotation by some angle about
the axis: a proper rotation that fixes the axis. -/
theorem C24_about_axis (axis : Position3D) (p r : Rotation)
    (h : axisRotationProjection axis p = .ok r) :
    ∃ n t, IsUnitDir axis n ∧ r.mat = rodrigues n t ∧ IsRot r.mat ∧
      r.mat *ᵥ axis.vec = axis.vec := by
  unfold axisRotationProjection at h
  dsimp only at h
  split_ifs at h with h0 h1 h2 h3
  all_goals
    have hd := unitDir_norm h0
    injection h with h
    refine ⟨_, _, hd, by rw [← h, axisMatrix_rodrigues], ?_, ?_⟩
    · rw [← h, axisMatrix_rodrigues]; exact rodrigues_isRot hd.1 _
    · rw [← h, axisMatrix_rodrigues]
      obtain ⟨r, -, e⟩ := hd.2
      rw [e, mulVec_smul, rodrigues_axis]

/-- A zero axis throws. -/
theorem C24_zero_axis (axis : Position3D) (p : Rotation) (h : axis.vec = 0) :
    axisRotationProjection axis p = .throws := by
  unfold axisRotationProjection
  dsimp only
  rw [if_pos ((norm3_zero axis).2 h)]

/-- A rotation about the axis is returned unchanged, if the axis lies in a
coordinate plane. (Missing for the full property: axes with three non-zero
coordinates, where it fails: `C24_not_idempotent`.) -/
theorem C24_idempotent_partial (axis : Position3D) (p : Rotation) (n : Vec3) (t : ℝ)
    (hn : IsUnitDir axis n) (hxyz : axis.x * axis.y * axis.z = 0) (hp : p.mat = rodrigues n t) :
    axisRotationProjection axis p = .ok p := by
  have h0 : Position3D.norm axis ≠ 0 := by
    rw [Ne, norm3_zero]
    obtain ⟨h1, r, hr, e⟩ := hn
    intro hz
    rw [hz] at e
    have : n = 0 := by
      have := smul_eq_zero.1 e.symm
      exact this.resolve_left hr.ne'
    rw [this] at h1
    simp [lenSq] at h1
  have hd := unitDir_norm h0
  have hne := unitDir_unique hn hd
  unfold axisRotationProjection
  dsimp only
  rw [if_neg h0]
  set x := 1 / Position3D.norm axis * axis.x with hx
  set y := 1 / Position3D.norm axis * axis.y with hy
  set z := 1 / Position3D.norm axis * axis.z with hz
  have hq : x * y * z = 0 := by
    rw [hx, hy, hz]
    linear_combination (1 / Position3D.norm axis) ^ 3 * hxyz
  have hu : x * x + y * y + z * z = 1 := by
    have := hd.1
    simpa [lenSq, dotProduct, Fin.sum_univ_three] using this
  have hpe : p = axisMatrix x y z (1 - Real.cos t) (Real.sin t) := by
    apply Rotation.mat_injective
    rw [axisMatrix_rodrigues, hp, hne]
  have hsc := Real.sin_sq_add_cos_sq t
  have ha : axisA p x y z = -Real.sin t := by
    rw [hpe]; simp only [axisA, axisMatrix]
    set c := Real.cos t
    set s := Real.sin t
    linear_combination (-s) * hu + (3 * (1 - c) - 3 - (((1 - c) * y * z + s * x) -
      ((1 - c) * (-y ^ 2 - x ^ 2) + 1))) * hq
  have hb : axisB p x y z = Real.cos t := by
    rw [hpe]; simp only [axisB, axisMatrix]
    linear_combination (1 - (1 - Real.cos t) * (x * x + y * y + z * z + 1)) * hu +
      (3 * Real.sin t) * hq
  have hc : axisC p x y z = 0 := by
    rw [hpe]; simp only [axisC, axisMatrix]
    linear_combination 3 * hq
  rw [ha, hb, hc]
  have e1 : -Real.sin t * -Real.sin t + Real.cos t * Real.cos t = 1 := by linarith
  rw [e1, if_neg (by norm_num), if_neg (by norm_num), Real.sqrt_one, zero_div, Real.arccos_zero]
  have hα : Real.cos (atan2 (Real.cos t) (-Real.sin t)) = -Real.sin t ∧
      Real.sin (atan2 (Real.cos t) (-Real.sin t)) = Real.cos t := by
    have := atan2_unit (y := Real.cos t) (x := -Real.sin t) (by linarith)
    exact this
  rw [Real.cos_add_pi_div_two, Real.sin_add_pi_div_two, Real.cos_sub_pi_div_two,
    Real.sin_sub_pi_div_two, hα.1, hα.2, neg_neg]
  have ht1 : axisTrace p x y z (1 - -Real.cos t) (-Real.sin t) = -1 := by
    rw [hpe]; simp only [axisTrace, axisMatrix]
    linear_combination (-2 * Real.sin t ^ 2 + 2 * (1 - Real.cos t ^ 2) *
      (x * x + y * y + z * z + 1) - 4) * hu - 2 * hsc
  have ht2 : axisTrace p x y z (1 - Real.cos t) (Real.sin t) = 3 := by
    rw [hpe]; simp only [axisTrace, axisMatrix]
    linear_combination (-4 * (1 - Real.cos t) + 2 * (1 - Real.cos t) ^ 2 *
      (x * x + y * y + z * z + 1) + 2 * Real.sin t ^ 2) * hu + 2 * hsc
  rw [ht1, ht2, if_pos (by norm_num), ← hpe]

/-- The translation of a transform is kept, and its rotation part is treated like a
Rotation. -/
theorem C24_transform (axis : Position3D) (t t' : Transform)
    (h : axisRotationProjectionTransform axis t = .ok t') :
    t'.trans = t.trans ∧
    ∃ r, axisRotationProjection axis (rotationFromTransform t) = .ok r ∧ t'.rotMat = r.mat := by
  unfold axisRotationProjectionTransform at h
  cases hr : axisRotationProjection axis (rotationFromTransform t) with
  | ok r =>
    rw [hr] at h
    simp only [Res.map] at h
    injection h with h
    subst h
    exact ⟨rfl, r, rfl, rfl⟩
  | throws => rw [hr] at h; cases h
  | ub => rw [hr] at h; cases h

/-! Where the property fails. -/

/-- The identity is not preserved when the axis is the main diagonal. -/
theorem C24_not_idempotent : ∃ axis n r, IsUnitDir axis n ∧
    axisRotationProjection axis ⟨1, 0, 0, 0, 1, 0, 0, 0, 1⟩ = .ok r ∧
    (⟨1, 0, 0, 0, 1, 0, 0, 0, 1⟩ : Rotation).mat = rodrigues n 0 ∧
    r ≠ ⟨1, 0, 0, 0, 1, 0, 0, 0, 1⟩ := by
  have hn : Position3D.norm ⟨1, 2, 2⟩ = 3 := by
    unfold Position3D.norm
    rw [show (1 * 1 + 2 * 2 + 2 * 2 : ℝ) = 3 ^ 2 by norm_num, Real.sqrt_sq (by norm_num)]
  have hd := unitDir_norm (p := ⟨1, 2, 2⟩) (by rw [hn]; norm_num)
  -- the equation every candidate angle satisfies
  have key : ∀ a b c : ℝ, a * a + b * b - c * c ≥ 0 → a * a + b * b ≠ 0 →
      ∀ β, (β = Real.arccos (c / √(a * a + b * b)) ∨ β = -Real.arccos (c / √(a * a + b * b))) →
      a * Real.cos (atan2 b a + β) + b * Real.sin (atan2 b a + β) = c := by
    intro a b c hd2 hne β hβ
    have hpos : 0 < a * a + b * b := lt_of_le_of_ne
      (by linarith [mul_self_nonneg a, mul_self_nonneg b]) (Ne.symm hne)
    set ρ := √(a * a + b * b) with hρ
    have hρ0 : 0 < ρ := Real.sqrt_pos.2 hpos
    have hρ2 : ρ ^ 2 = a * a + b * b := Real.sq_sqrt hpos.le
    have hcos : Real.cos β = c / ρ := by
      have : Real.cos (Real.arccos (c / ρ)) = c / ρ := by
        apply Real.cos_arccos
        · rw [le_div_iff₀ hρ0]; nlinarith
        · rw [div_le_iff₀ hρ0]; nlinarith
      rcases hβ with h | h <;> rw [h]
      · exact this
      · rw [Real.cos_neg]; exact this
    have h1 : a = ρ * Real.cos (atan2 b a) := (atan2_cos b a).symm
    have h2 : b = ρ * Real.sin (atan2 b a) := (atan2_sin b a).symm
    rw [Real.cos_add, Real.sin_add]
    set ca := Real.cos (atan2 b a)
    set sa := Real.sin (atan2 b a)
    have h3 : ca ^ 2 + sa ^ 2 = 1 := Real.cos_sq_add_sin_sq _
    have h4 : ρ * Real.cos β = c := by rw [hcos]; field_simp
    rw [← h4]
    have e1 : a * (ca * Real.cos β - sa * Real.sin β) + b * (sa * Real.cos β + ca * Real.sin β) =
        ρ * Real.cos β * (ca ^ 2 + sa ^ 2) := by
      rw [show a * (ca * Real.cos β - sa * Real.sin β) + b * (sa * Real.cos β + ca * Real.sin β) =
        (a * ca + b * sa) * Real.cos β + (b * ca - a * sa) * Real.sin β by ring]
      have : b * ca - a * sa = 0 := by
        linear_combination ca * h2 - sa * h1
      have h5 : a * ca + b * sa = ρ * (ca ^ 2 + sa ^ 2) := by
        linear_combination ca * h1 + sa * h2
      rw [this, h5]; ring
    rw [e1, h3, mul_one]
  have hA : axisA ⟨1, 0, 0, 0, 1, 0, 0, 0, 1⟩ (1 / 3 * 1) (1 / 3 * 2) (1 / 3 * 2) = -8 / 27 := by
    unfold axisA; norm_num
  have hB : axisB ⟨1, 0, 0, 0, 1, 0, 0, 0, 1⟩ (1 / 3 * 1) (1 / 3 * 2) (1 / 3 * 2) = 1 := by
    unfold axisB; norm_num
  have hC : axisC ⟨1, 0, 0, 0, 1, 0, 0, 0, 1⟩ (1 / 3 * 1) (1 / 3 * 2) (1 / 3 * 2) = 4 / 9 := by
    unfold axisC; norm_num
  have hbad : ∀ t : ℝ, -8 / 27 * Real.cos t + 1 * Real.sin t = 4 / 9 →
      axisMatrix (1 / 3 * 1) (1 / 3 * 2) (1 / 3 * 2) (1 - Real.cos t) (Real.sin t) ≠
        ⟨1, 0, 0, 0, 1, 0, 0, 0, 1⟩ := by
    intro t ht he
    have e1 := congrArg Rotation.r11 he
    have e2 := congrArg Rotation.r12 he
    simp only [axisMatrix] at e1 e2
    have hcos : Real.cos t = 1 := by linarith
    have hsin : Real.sin t = 0 := by rw [hcos] at e2; linarith
    rw [hcos, hsin] at ht
    norm_num at ht
  refine ⟨⟨1, 2, 2⟩, _, if axisTrace ⟨1, 0, 0, 0, 1, 0, 0, 0, 1⟩ (1 / 3 * 1) (1 / 3 * 2) (1 / 3 * 2)
      (1 - Real.cos (atan2 1 (-8 / 27) + Real.arccos (4 / 9 / √(-8 / 27 * (-8 / 27) + 1 * 1))))
      (Real.sin (atan2 1 (-8 / 27) + Real.arccos (4 / 9 / √(-8 / 27 * (-8 / 27) + 1 * 1)))) <
    axisTrace ⟨1, 0, 0, 0, 1, 0, 0, 0, 1⟩ (1 / 3 * 1) (1 / 3 * 2) (1 / 3 * 2)
      (1 - Real.cos (atan2 1 (-8 / 27) - Real.arccos (4 / 9 / √(-8 / 27 * (-8 / 27) + 1 * 1))))
      (Real.sin (atan2 1 (-8 / 27) - Real.arccos (4 / 9 / √(-8 / 27 * (-8 / 27) + 1 * 1))))
    then axisMatrix (1 / 3 * 1) (1 / 3 * 2) (1 / 3 * 2)
      (1 - Real.cos (atan2 1 (-8 / 27) - Real.arccos (4 / 9 / √(-8 / 27 * (-8 / 27) + 1 * 1))))
      (Real.sin (atan2 1 (-8 / 27) - Real.arccos (4 / 9 / √(-8 / 27 * (-8 / 27) + 1 * 1))))
    else axisMatrix (1 / 3 * 1) (1 / 3 * 2) (1 / 3 * 2)
      (1 - Real.cos (atan2 1 (-8 / 27) + Real.arccos (4 / 9 / √(-8 / 27 * (-8 / 27) + 1 * 1))))
      (Real.sin (atan2 1 (-8 / 27) + Real.arccos (4 / 9 / √(-8 / 27 * (-8 / 27) + 1 * 1)))),
    hd, ?_, ?_, ?_⟩
  · unfold axisRotationProjection
    dsimp only
    rw [hn, if_neg (by norm_num), hA, hB, hC, if_neg (by norm_num), if_neg (by norm_num)]
    split_ifs <;> rfl
  · rw [rodrigues_zero]
    ext i j; fin_cases i <;> fin_cases j <;> simp [Rotation.mat]
  · split_ifs
    · apply hbad
      have := key (-8 / 27) 1 (4 / 9) (by norm_num) (by norm_num) _ (Or.inr rfl)
      rwa [← sub_eq_add_neg] at this
    · apply hbad
      exact key (-8 / 27) 1 (4 / 9) (by norm_num) (by norm_num) _ (Or.inl rfl)

/-- A quarter turn about y, projected on the x axis, is undefined (0/0). -/
theorem C24_undefined : ∃ axis p, IsRot p.mat ∧ axis.vec ≠ 0 ∧
    axisRotationProjection axis p = .ub := by
  refine ⟨⟨1, 0, 0⟩, ⟨0, 0, 1, 0, 1, 0, -1, 0, 0⟩, ?_, ?_, ?_⟩
  · unfold Rotation.mat; rw [isRot_coord]; norm_num
  · intro h
    have := congrFun h 0
    simp [Position3D.vec] at this
  · have hn : Position3D.norm ⟨1, 0, 0⟩ = 1 := by simp [Position3D.norm]
    unfold axisRotationProjection
    dsimp only
    rw [hn, if_neg (by norm_num), if_neg, if_pos]
    · simp [axisA, axisB]
    · simp [axisA, axisB, axisC]

/-- A half turn about x, projected on the axis (1,2,2), throws although axis and
rotation are valid. -/
theorem C24_spurious_throw : ∃ axis p, IsRot p.mat ∧ axis.vec ≠ 0 ∧
    axisRotationProjection axis p = .throws := by
  refine ⟨⟨1, 2, 2⟩, ⟨1, 0, 0, 0, -1, 0, 0, 0, -1⟩, ?_, ?_, ?_⟩
  · unfold Rotation.mat; rw [isRot_coord]; norm_num
  · intro h
    have := congrFun h 0
    simp [Position3D.vec] at this
  · have hn : Position3D.norm ⟨1, 2, 2⟩ = 3 := by
      unfold Position3D.norm
      rw [show (1 * 1 + 2 * 2 + 2 * 2 : ℝ) = 3 ^ 2 by norm_num, Real.sqrt_sq (by norm_num)]
    unfold axisRotationProjection
    dsimp only
    rw [hn, if_neg (by norm_num), if_pos]
    norm_num [axisA, axisB, axisC]

/-- The result is not the closest rotation about the axis, even for the x axis. -/
theorem C24_not_closest : ∃ p r t, IsRot p.mat ∧
    axisRotationProjection ⟨1, 0, 0⟩ p = .ok r ∧
    matDistSq p.mat (rodrigues ![1, 0, 0] t) < matDistSq p.mat r.mat := by
  refine ⟨⟨9 / 25, -12 / 25, 4 / 5, 4 / 5, 3 / 5, 0, -12 / 25, 16 / 25, 3 / 5⟩,
    ⟨1, 0, 0, 0, 1, 0, 0, 0, 1⟩, Real.arccos (3 / 5), ?_, ?_, ?_⟩
  · unfold Rotation.mat; rw [isRot_coord]; norm_num
  · have hn : Position3D.norm ⟨1, 0, 0⟩ = 1 := by simp [Position3D.norm]
    unfold axisRotationProjection
    dsimp only
    rw [hn, if_neg (by norm_num)]
    have hA : axisA ⟨9 / 25, -12 / 25, 4 / 5, 4 / 5, 3 / 5, 0, -12 / 25, 16 / 25, 3 / 5⟩
        (1 / 1 * 1) (1 / 1 * 0) (1 / 1 * 0) = 0 := by unfold axisA; norm_num
    have hB : axisB ⟨9 / 25, -12 / 25, 4 / 5, 4 / 5, 3 / 5, 0, -12 / 25, 16 / 25, 3 / 5⟩
        (1 / 1 * 1) (1 / 1 * 0) (1 / 1 * 0) = 3 / 5 := by unfold axisB; norm_num
    have hC : axisC ⟨9 / 25, -12 / 25, 4 / 5, 4 / 5, 3 / 5, 0, -12 / 25, 16 / 25, 3 / 5⟩
        (1 / 1 * 1) (1 / 1 * 0) (1 / 1 * 0) = 0 := by unfold axisC; norm_num
    have hat : atan2 (3 / 5) 0 = Real.pi / 2 := by
      have := atan2_polar (r := 3 / 5) (a := Real.pi / 2) (by norm_num)
        (by linarith [Real.pi_pos]) (by linarith [Real.pi_pos])
      simpa using this
    rw [hA, hB, hC, if_neg (by norm_num), if_neg (by norm_num), zero_div, Real.arccos_zero, hat,
      sub_self, add_halves, Real.cos_pi, Real.sin_pi, Real.cos_zero, Real.sin_zero, if_pos]
    · congr 1
      ext <;> simp [axisMatrix]
    · norm_num [axisTrace]
  · have hc : Real.cos (Real.arccos (3 / 5)) = 3 / 5 := Real.cos_arccos (by norm_num) (by norm_num)
    have hs : Real.sin (Real.arccos (3 / 5)) = 4 / 5 := by
      rw [Real.sin_arccos, show (1 : ℝ) - (3 / 5) ^ 2 = (4 / 5) ^ 2 by norm_num,
        Real.sqrt_sq (by norm_num)]
    rw [rodrigues_coord, hc, hs]
    simp [matDistSq, Rotation.mat, Matrix.trace, Fin.sum_univ_three, Matrix.mul_apply]
    norm_num

theorem matDistSq_axis {n : Vec3} (hn : lenSq n = 1) (p : Rotation) (t : ℝ) :
    matDistSq p.mat (rodrigues n t) = matDistSq p.mat 0 + 3 -
      2 * axisTrace p (n 0) (n 1) (n 2) (1 - Real.cos t) (Real.sin t) := by
  have hr := (rodrigues_isRot hn t).1
  have h1 : matDistSq p.mat (rodrigues n t) = matDistSq p.mat 0 + ((rodrigues n t)ᵀ * rodrigues n t).trace -
      2 * (p.matᵀ * rodrigues n t).trace := by
    unfold matDistSq
    rw [sub_zero, transpose_sub, Matrix.sub_mul, Matrix.mul_sub, Matrix.mul_sub]
    simp only [trace_sub]
    have : ((rodrigues n t)ᵀ * p.mat).trace = (p.matᵀ * rodrigues n t).trace := by
      rw [← trace_transpose, transpose_mul, transpose_transpose]
    rw [this]; ring
  rw [h1, hr, trace_one]
  have e : n = ![n 0, n 1, n 2] := by ext i; fin_cases i <;> rfl
  have h2 : (p.matᵀ * rodrigues n t).trace = axisTrace p (n 0) (n 1) (n 2) (1 - Real.cos t) (Real.sin t) := by
    rw [e, ← axisMatrix_rodrigues]
    simp [Matrix.trace, Fin.sum_univ_three, Matrix.mul_apply, axisTrace, axisMatrix, Rotation.mat]
    ring
  rw [h2]; simp

theorem axis_solutions {a b c t : ℝ} (h : a * a + b * b ≠ 0) (hd : 0 ≤ a * a + b * b - c * c) :
    (a * Real.cos t + b * Real.sin t = c ↔
    (Real.cos t = Real.cos (atan2 b a + Real.arccos (c / √(a * a + b * b))) ∧
      Real.sin t = Real.sin (atan2 b a + Real.arccos (c / √(a * a + b * b)))) ∨
    (Real.cos t = Real.cos (atan2 b a - Real.arccos (c / √(a * a + b * b))) ∧
      Real.sin t = Real.sin (atan2 b a - Real.arccos (c / √(a * a + b * b))))) := by
  have hnn : 0 ≤ a * a + b * b := by nlinarith [mul_self_nonneg a, mul_self_nonneg b]
  have hpos : 0 < √(a * a + b * b) := Real.sqrt_pos.2 (lt_of_le_of_ne hnn (Ne.symm h))
  have hsq : √(a * a + b * b) * √(a * a + b * b) = a * a + b * b := Real.mul_self_sqrt hnn
  have ha := atan2_cos b a
  have hb := atan2_sin b a
  set ρ := √(a * a + b * b)
  set α := atan2 b a
  have hc : |c| ≤ ρ := abs_le_of_sq_le_sq' (by nlinarith) hpos.le |> abs_le.2
  have hβ : Real.cos (Real.arccos (c / ρ)) = c / ρ := by
    apply Real.cos_arccos
    · rw [le_div_iff₀ hpos]; linarith [(abs_le.1 hc).1]
    · rw [div_le_iff₀ hpos]; linarith [(abs_le.1 hc).2]
  set β := Real.arccos (c / ρ)
  have key : a * Real.cos t + b * Real.sin t = ρ * Real.cos (t - α) := by
    rw [Real.cos_sub, ← ha, ← hb]; ring_nf
  rw [key]
  constructor
  · intro e
    have e1 : Real.cos (t - α) = Real.cos β := by rw [hβ, eq_div_iff hpos.ne']; linarith
    obtain ⟨k, hk | hk⟩ := Real.cos_eq_cos_iff.1 e1
    · left
      have : t = α + β - k * (2 * Real.pi) := by linarith
      rw [this]
      exact ⟨Real.cos_sub_int_mul_two_pi _ _, Real.sin_sub_int_mul_two_pi _ _⟩
    · right
      have : t = α - β + k * (2 * Real.pi) := by linarith
      rw [this]
      exact ⟨Real.cos_add_int_mul_two_pi _ _, Real.sin_add_int_mul_two_pi _ _⟩
  · have e2 : ρ * Real.cos β = c := by rw [hβ]; field_simp
    rintro (⟨h1, h2⟩ | ⟨h1, h2⟩)
    · rw [Real.cos_sub, h1, h2, ← Real.cos_sub, add_sub_cancel_left, e2]
    · rw [Real.cos_sub, h1, h2, ← Real.cos_sub, sub_sub_cancel_left, Real.cos_neg, e2]

/-- What the code computes: among the rotations about the axis whose angle solves the equation of the code, the closest
to the matrix given. -/
theorem axisRotationProjection_spec (axis : Position3D) (p r : Rotation) (h : axisRotationProjection axis p = .ok r) :
    ∃ n θ, IsUnitDir axis n ∧ r.mat = rodrigues n θ ∧
      axisA p (n 0) (n 1) (n 2) * Real.cos θ + axisB p (n 0) (n 1) (n 2) * Real.sin θ = axisC p (n 0) (n 1) (n 2) ∧
      ∀ t, axisA p (n 0) (n 1) (n 2) * Real.cos t + axisB p (n 0) (n 1) (n 2) * Real.sin t =
        axisC p (n 0) (n 1) (n 2) → matDistSq p.mat r.mat ≤ matDistSq p.mat (rodrigues n t) := by
  unfold axisRotationProjection at h
  dsimp only at h
  by_cases h0 : Position3D.norm axis = 0
  · rw [if_pos h0] at h; cases h
  rw [if_neg h0] at h
  have hd := unitDir_norm h0
  obtain ⟨x, hx⟩ : ∃ x, x = 1 / Position3D.norm axis * axis.x := ⟨_, rfl⟩
  obtain ⟨y, hy⟩ : ∃ y, y = 1 / Position3D.norm axis * axis.y := ⟨_, rfl⟩
  obtain ⟨z, hz⟩ : ∃ z, z = 1 / Position3D.norm axis * axis.z := ⟨_, rfl⟩
  rw [← hx, ← hy, ← hz] at h hd
  split_ifs at h with h1 h2 h3
  all_goals
    injection h with h
    have hs := fun t => axis_solutions (t := t) h2 (not_lt.1 h1)
    refine ⟨![x, y, z], _, hd, by rw [← h, axisMatrix_rodrigues], ?_, ?_⟩
  · exact (hs _).2 (Or.inr ⟨rfl, rfl⟩)
  · intro t ht
    rw [← h, axisMatrix_rodrigues, matDistSq_axis hd.1, matDistSq_axis hd.1]
    simp only [Matrix.cons_val_zero, Matrix.cons_val_one, Matrix.cons_val] at ht ⊢
    rcases (hs t).1 ht with ⟨e1, e2⟩ | ⟨e1, e2⟩
    · rw [e1, e2]; linarith
    · rw [e1, e2]
  · exact (hs _).2 (Or.inl ⟨rfl, rfl⟩)
  · intro t ht
    rw [← h, axisMatrix_rodrigues, matDistSq_axis hd.1, matDistSq_axis hd.1]
    simp only [Matrix.cons_val_zero, Matrix.cons_val_one, Matrix.cons_val] at ht ⊢
    rcases (hs t).1 ht with ⟨e1, e2⟩ | ⟨e1, e2⟩
    · rw [e1, e2]
    · rw [e1, e2]; linarith [not_lt.1 h3]

theorem parallel_iff {σ u w C S : ℝ} (hσ : σ * σ = 1) (h : u * u + w * w ≠ 0) :
    (∃ m : ℝ, -S * σ = m * u ∧ C = m * w) ↔ σ * u * C + w * S = 0 := by
  constructor
  · rintro ⟨m, h1, h2⟩
    have : S = -(m * u) * σ := by linear_combination (-σ) * h1 - S * hσ
    rw [this, h2]; ring
  · intro e
    refine ⟨(w * C - σ * u * S) / (u * u + w * w), ?_, ?_⟩
    · rw [eq_comm, div_mul_eq_mul_div, div_eq_iff h]
      linear_combination σ * w * e - u * w * C * hσ
    · rw [eq_comm, div_mul_eq_mul_div, div_eq_iff h]
      linear_combination (-σ * u) * e + u * u * C * hσ

theorem axisRotationProjection_outcome {axis : Position3D} {n : Vec3} (hn : IsUnitDir axis n) (p : Rotation)
    (hc : axisC p (n 0) (n 1) (n 2) = 0) :
    (axisA p (n 0) (n 1) (n 2) * axisA p (n 0) (n 1) (n 2) +
      axisB p (n 0) (n 1) (n 2) * axisB p (n 0) (n 1) (n 2) = 0 → axisRotationProjection axis p = .ub) ∧
    (axisA p (n 0) (n 1) (n 2) * axisA p (n 0) (n 1) (n 2) +
      axisB p (n 0) (n 1) (n 2) * axisB p (n 0) (n 1) (n 2) ≠ 0 → ∃ r, axisRotationProjection axis p = .ok r) := by
  have h0 : Position3D.norm axis ≠ 0 := by
    rw [Ne, norm3_zero]
    obtain ⟨h1, r, hr, e⟩ := hn
    intro h
    rw [h] at e
    have : n = 0 := (smul_eq_zero.1 e.symm).resolve_left hr.ne'
    rw [this] at h1; simp [lenSq] at h1
  have e := unitDir_unique hn (unitDir_norm h0)
  unfold axisRotationProjection
  dsimp only
  rw [if_neg h0]
  rw [e] at hc ⊢
  simp only [Matrix.cons_val_zero, Matrix.cons_val_one, Matrix.cons_val] at hc ⊢
  rw [hc]
  generalize axisA p _ _ _ = a
  generalize axisB p _ _ _ = b
  have hnn : ¬ a * a + b * b - 0 * 0 < 0 := by nlinarith [mul_self_nonneg a, mul_self_nonneg b]
  rw [if_neg hnn]
  refine ⟨fun h => by rw [if_pos h], fun h => ?_⟩
  rw [if_neg h]
  split_ifs
  · exact ⟨_, rfl⟩
  · exact ⟨_, rfl⟩

/-- For a coordinate axis, whatever the matrix: let `v` be the projection, on the plane orthogonal to the axis, of
the image of the second coordinate vector after the axis (the image of z for the x axis, of x for the y axis, of y
for the z axis). If `v` is zero the result is undefined; if not, the result is the closest to the given matrix among the
two rotations about the axis that send that coordinate vector to the line of `v`. (Missing for the full property: the
closest among all rotations about the axis, which it is not: `C24_not_closest`.) -/
theorem C24_coordinate_partial (axis : Position3D) (p : Rotation) (k : Fin 3) (s : ℝ) (hs : s ≠ 0)
    (ha : axis.vec = Pi.single k s) (v : Vec3) (hv : v = fun i => if i = k then 0 else p.mat i (k + 2)) :
    (v = 0 → axisRotationProjection axis p = .ub) ∧
    (v ≠ 0 → ∃ r n, axisRotationProjection axis p = .ok r ∧ IsUnitDir axis n ∧ (∃ θ, r.mat = rodrigues n θ) ∧
      (∃ m : ℝ, r.mat *ᵥ Pi.single (k + 2) 1 = m • v) ∧
      ∀ t, (∃ m : ℝ, rodrigues n t *ᵥ Pi.single (k + 2) 1 = m • v) →
        matDistSq p.mat r.mat ≤ matDistSq p.mat (rodrigues n t)) := by
  obtain ⟨σ, hσ, hn⟩ : ∃ σ : ℝ, σ * σ = 1 ∧ IsUnitDir axis (Pi.single k σ) := by
    refine ⟨s / |s|, ?_, ?_, |s|, abs_pos.2 hs, ?_⟩
    · rw [div_mul_div_comm, abs_mul_abs_self, div_self (mul_ne_zero hs hs)]
    · simp only [lenSq, dotProduct_single, Pi.single_eq_same]
      rw [div_mul_div_comm, abs_mul_abs_self, div_self (mul_ne_zero hs hs)]
    · rw [ha, ← Pi.single_smul, smul_eq_mul, mul_div_cancel₀ _ (abs_pos.2 hs).ne']
  -- the equation of the code, for some entries u and w of the matrix
  obtain ⟨u, w, hA, hB, hC, hz, hp⟩ : ∃ u w : ℝ,
      axisA p ((Pi.single k σ : Vec3) 0) ((Pi.single k σ : Vec3) 1) ((Pi.single k σ : Vec3) 2) = σ * u ∧
      axisB p ((Pi.single k σ : Vec3) 0) ((Pi.single k σ : Vec3) 1) ((Pi.single k σ : Vec3) 2) = w ∧
      axisC p ((Pi.single k σ : Vec3) 0) ((Pi.single k σ : Vec3) 1) ((Pi.single k σ : Vec3) 2) = 0 ∧
      (v = 0 ↔ u = 0 ∧ w = 0) ∧
      ∀ t (m : ℝ), rodrigues (Pi.single k σ) t *ᵥ Pi.single (k + 2) 1 = m • v ↔
        -(Real.sin t) * σ = m * u ∧ Real.cos t = m * w := by
    have hσ' : ∀ c : ℝ, 1 - (1 - c) * (σ * σ) = c := fun c => by rw [hσ]; ring
    fin_cases k
    · refine ⟨p.r23, p.r33, ?_, ?_, ?_, ?_, ?_⟩
      · simp [axisA]
      · simp [axisB]; linear_combination p.r33 * hσ
      · simp [axisC]
      · rw [hv, funext_iff, Fin.forall_fin_succ, Fin.forall_fin_two]; simp [Rotation.mat]
      · intro t m
        have e : (Pi.single (0 : Fin 3) σ : Vec3) = ![σ, 0, 0] := by ext i; fin_cases i <;> rfl
        rw [hv, funext_iff, Fin.forall_fin_succ, Fin.forall_fin_two]
        simp only [Fin.zero_eta, e, rodrigues_coord]
        simp [Rotation.mat, hσ']
    · refine ⟨p.r31, p.r11, ?_, ?_, ?_, ?_, ?_⟩
      · simp [axisA]
      · simp [axisB]; linear_combination p.r11 * hσ
      · simp [axisC]
      · rw [hv, funext_iff, Fin.forall_fin_succ, Fin.forall_fin_two]; simp [Rotation.mat]; tauto
      · intro t m
        have e : (Pi.single (1 : Fin 3) σ : Vec3) = ![0, σ, 0] := by ext i; fin_cases i <;> rfl
        rw [hv, funext_iff, Fin.forall_fin_succ, Fin.forall_fin_two]
        simp only [Fin.mk_one, e, rodrigues_coord]
        simp [Rotation.mat, hσ']; tauto
    · refine ⟨p.r12, p.r22, ?_, ?_, ?_, ?_, ?_⟩
      · simp [axisA]
      · simp [axisB]; linear_combination p.r22 * hσ
      · simp [axisC]
      · rw [hv, funext_iff, Fin.forall_fin_succ, Fin.forall_fin_two]; simp [Rotation.mat]
      · intro t m
        have e : (Pi.single (2 : Fin 3) σ : Vec3) = ![0, 0, σ] := by ext i; fin_cases i <;> rfl
        rw [hv, funext_iff, Fin.forall_fin_succ, Fin.forall_fin_two]
        simp only [Fin.reduceFinMk, e, rodrigues_coord]
        simp [Rotation.mat, hσ']
  have ho := axisRotationProjection_outcome hn p hC
  rw [hA, hB] at ho
  have hq : σ * u * (σ * u) + w * w = u * u + w * w := by linear_combination u * u * hσ
  rw [hq] at ho
  constructor
  · intro h
    obtain ⟨rfl, rfl⟩ := hz.1 h
    exact ho.1 (by ring)
  · intro h
    have huw : u * u + w * w ≠ 0 := by
      intro e
      apply h
      have h1 := mul_self_nonneg u
      have h2 := mul_self_nonneg w
      exact hz.2 ⟨mul_self_eq_zero.1 (by linarith), mul_self_eq_zero.1 (by linarith)⟩
    obtain ⟨r, hr⟩ := ho.2 huw
    obtain ⟨n, θ, h1, h2, h3, h4⟩ := axisRotationProjection_spec axis p r hr
    have := unitDir_unique h1 hn
    subst this
    rw [hA, hB, hC] at h3
    simp only [hA, hB, hC] at h4
    refine ⟨r, _, hr, hn, ⟨θ, h2⟩, ?_, ?_⟩
    · obtain ⟨m, hm⟩ := (parallel_iff hσ huw).2 h3
      exact ⟨m, by rw [h2]; exact (hp θ m).2 hm⟩
    · rintro t ⟨m, hm⟩
      exact h4 t ((parallel_iff hσ huw).1 ⟨m, (hp t m).1 hm⟩)

/-- The x axis pointing backwards, and a rotation for which the projection is not the closest one. -/
example : (⟨-2, 0, 0⟩ : Position3D).vec = Pi.single 0 (-2) ∧
    (fun i => if i = (0 : Fin 3) then 0 else
      (⟨9 / 25, -12 / 25, 4 / 5, 4 / 5, 3 / 5, 0, -12 / 25, 16 / 25, 3 / 5⟩ : Rotation).mat i (0 + 2)) ≠ (0 : Vec3) := by
  constructor
  · ext i; fin_cases i <;> simp [Position3D.vec]
  · intro h
    have := congrFun h 2
    simp [Rotation.mat] at this

/-! ### C25 -/

theorem normalize3_eq {p : Position3D} (h : Position3D.norm p ≠ 0) :
    ∃ q r, Position3D.normalize p = .ok q ∧ Position3D.div p (Position3D.norm p) = .ok q ∧
      q.x * q.x + q.y * q.y + q.z * q.z = 1 ∧ 0 < r ∧
      q.x = r * p.x ∧ q.y = r * p.y ∧ q.z = r * p.z := by
  have hd := unitDir_norm h
  refine ⟨⟨1 / Position3D.norm p * p.x, 1 / Position3D.norm p * p.y, 1 / Position3D.norm p * p.z⟩,
    1 / Position3D.norm p, ?_, ?_, ?_, ?_, rfl, rfl, rfl⟩
  · unfold Position3D.normalize Position3D.div
    rw [if_neg h, if_neg h]
    congr 1
    ext <;> simp [Position3D.smul] <;> ring
  · unfold Position3D.div
    rw [if_neg h]
    congr 1
    ext <;> simp [Position3D.smul] <;> ring
  · have := hd.1
    simpa [lenSq, dotProduct, Fin.sum_univ_three] using this
  · have : 0 ≤ Position3D.norm p := by rw [norm3_eq]; exact Real.sqrt_nonneg _
    have : 0 < Position3D.norm p := lt_of_le_of_ne this (Ne.symm h)
    positivity

theorem norm3_ne {p : Position3D} (h : p.x ≠ 0 ∨ p.y ≠ 0 ∨ p.z ≠ 0) : Position3D.norm p ≠ 0 := by
  rw [Ne, norm3_zero]
  intro h0
  have hx : p.x = 0 := by simpa [Position3D.vec] using congrFun h0 0
  have hy : p.y = 0 := by simpa [Position3D.vec] using congrFun h0 1
  have hz : p.z = 0 := by simpa [Position3D.vec] using congrFun h0 2
  rcases h with h | h | h
  · exact h hx
  · exact h hy
  · exact h hz

/-- Throws exactly for the zero vector; otherwise the translation is kept, the third
column is the unit vector along the axis, the other two are unit vectors, the
second is orthogonal to both others, and the first is within 1e-4 of being
orthogonal to the third; the determinant is positive. The matrix is a proper
rotation exactly if the first coordinate of the unit axis is zero, or one of the
first two is above 1e-4. (Missing for the full property: the other axes, where it
fails: `C25_not_rotation`.) -/
theorem C25_orthogonalSpace_partial (axis : Position3D) (t : Transform) :
    (axis.vec = 0 → orthogonalSpace axis t = .throws) ∧
    (axis.vec ≠ 0 → ∃ t' n, orthogonalSpace axis t = .ok t' ∧ t'.trans = t.trans ∧
      IsUnitDir axis n ∧ t'.rotMat.col 2 = n ∧
      lenSq (t'.rotMat.col 0) = 1 ∧ lenSq (t'.rotMat.col 1) = 1 ∧
      t'.rotMat.col 0 ⬝ᵥ t'.rotMat.col 1 = 0 ∧ t'.rotMat.col 1 ⬝ᵥ t'.rotMat.col 2 = 0 ∧
      |t'.rotMat.col 0 ⬝ᵥ t'.rotMat.col 2| ≤ 0.0001 ∧ 0 < t'.rotMat.det ∧
      (IsRigid t' ↔ n 0 = 0 ∨ 0.0001 < |n 0| ∨ 0.0001 < |n 1|)) := by
  constructor
  · intro h
    unfold orthogonalSpace Position3D.div
    rw [if_pos ((norm3_zero axis).2 h)]
    rfl
  · intro h
    have h0 : Position3D.norm axis ≠ 0 := fun hn => h ((norm3_zero axis).1 hn)
    obtain ⟨n, r, -, hdiv, hu, hr, hx, hy, hz⟩ := normalize3_eq h0
    -- the auxiliary vector is not zero, and almost orthogonal to the axis
    have haux : ((orthogonalSpaceAux n).x ≠ 0 ∨ (orthogonalSpaceAux n).y ≠ 0 ∨
        (orthogonalSpaceAux n).z ≠ 0) := by
      unfold orthogonalSpaceAux
      dsimp only
      split_ifs with h1 h2
      · right; left; intro hz; simp only at hz; rw [hz] at h1; norm_num at h1
      · right; right; intro hz; simp only at hz; rw [hz] at h2; norm_num at h2
      · left
        intro hz
        simp only at hz
        rw [not_lt] at h1 h2
        have a1 := sq_abs n.x
        have a2 := sq_abs n.y
        nlinarith [abs_nonneg n.x, abs_nonneg n.y]
    obtain ⟨u, k, hnorm, -, huu, hk, ux, uy, uz⟩ := normalize3_eq (norm3_ne haux)
    have hdot : (n.x = 0 ∨ 0.0001 < |n.x| ∨ 0.0001 < |n.y| ↔
          n.x * u.x + n.y * u.y + n.z * u.z = 0) ∧
        |n.x * u.x + n.y * u.y + n.z * u.z| ≤ 0.0001 := by
      unfold orthogonalSpaceAux at ux uy uz
      dsimp only at ux uy uz
      split_ifs at ux uy uz with h1 h2
      · have : n.x * u.x + n.y * u.y + n.z * u.z = 0 := by rw [ux, uy, uz]; simp only; ring
        exact ⟨⟨fun _ => this, fun _ => Or.inr (Or.inl h1)⟩, by rw [this]; norm_num⟩
      · have : n.x * u.x + n.y * u.y + n.z * u.z = 0 := by rw [ux, uy, uz]; simp only; ring
        exact ⟨⟨fun _ => this, fun _ => Or.inr (Or.inr h2)⟩, by rw [this]; norm_num⟩
      · simp only at ux uy uz
        rw [mul_zero] at uy uz
        constructor
        · constructor
          · rintro (h3 | h3 | h3)
            · rw [h3, uy, uz]; ring
            · exact absurd h3 h1
            · exact absurd h3 h2
          · intro h3
            left
            rw [uy, uz] at huu h3
            have h4 : n.x * u.x = 0 := by linarith
            rcases mul_eq_zero.1 h4 with h5 | h5
            · exact h5
            · rw [h5] at huu; norm_num at huu
        · rw [uy, uz] at huu ⊢
          have hu1 : |u.x| = 1 := by
            have : |u.x| ^ 2 = 1 := by rw [sq_abs]; linarith
            nlinarith [abs_nonneg u.x]
          rw [mul_zero, mul_zero, add_zero, add_zero, abs_mul, hu1, mul_one]
          exact not_lt.1 h1
    have hlt : (n.x * u.x + n.y * u.y + n.z * u.z) ^ 2 < 1 := by
      rw [← sq_abs]
      nlinarith [hdot.2, abs_nonneg (n.x * u.x + n.y * u.y + n.z * u.z)]
    set δ := n.x * u.x + n.y * u.y + n.z * u.z with hδ
    set c := Position3D.cross n u with hc
    have hcc : c.x * c.x + c.y * c.y + c.z * c.z = 1 - δ ^ 2 := by
      rw [hc, hδ]; simp only [Position3D.cross]
      linear_combination (u.x * u.x + u.y * u.y + u.z * u.z) * hu + huu
    have hcne : c.x ≠ 0 ∨ c.y ≠ 0 ∨ c.z ≠ 0 := by
      by_contra hcon
      push Not at hcon
      rw [hcon.1, hcon.2.1, hcon.2.2] at hcc
      linarith
    obtain ⟨v, m, hnv, -, hvv, hm, vx, vy, vz⟩ := normalize3_eq (norm3_ne hcne)
    have hm2 : m ^ 2 * (1 - δ ^ 2) = 1 := by
      rw [← hcc, ← hvv, vx, vy, vz]; ring
    have huv : u.x * v.x + u.y * v.y + u.z * v.z = 0 := by
      rw [vx, vy, vz, hc]; simp only [Position3D.cross]; ring
    have hnv' : n.x * v.x + n.y * v.y + n.z * v.z = 0 := by
      rw [vx, vy, vz, hc]; simp only [Position3D.cross]; ring
    refine ⟨{ t with
        r11 := u.x, r21 := u.y, r31 := u.z
        r12 := v.x, r22 := v.y, r32 := v.z
        r13 := n.x, r23 := n.y, r33 := n.z }, ![n.x, n.y, n.z], ?_, rfl, ?_, ?_, ?_, ?_, ?_, ?_,
        ?_, ?_, ?_⟩
    · unfold orthogonalSpace
      rw [hdiv]
      simp only [Res.bind]
      rw [hnorm]
      simp only [Res.bind]
      rw [← hc, hnv]
    · refine ⟨?_, 1 / r, by positivity, ?_⟩
      · simp [lenSq, dotProduct, Fin.sum_univ_three]; linarith
      · ext i
        fin_cases i <;> simp [Position3D.vec, hx, hy, hz] <;> field_simp
    · ext i; fin_cases i <;> rfl
    · simp [lenSq, dotProduct, Fin.sum_univ_three, Transform.rotMat]; linarith
    · simp [lenSq, dotProduct, Fin.sum_univ_three, Transform.rotMat]; linarith
    · simp [dotProduct, Fin.sum_univ_three, Transform.rotMat]; linarith
    · simp [dotProduct, Fin.sum_univ_three, Transform.rotMat]; linarith
    · simp [dotProduct, Fin.sum_univ_three, Transform.rotMat]
      refine le_of_eq_of_le (congrArg abs ?_) (hdot.2)
      rw [hδ]; ring
    · have : m * (c.x * c.x + c.y * c.y + c.z * c.z) > 0 := by
        rw [hcc]; apply mul_pos hm; linarith
      refine lt_of_lt_of_eq this ?_
      rw [Matrix.det_fin_three]
      simp only [Transform.rotMat, Matrix.of_apply, Matrix.cons_val]
      rw [vx, vy, vz, hc]; simp only [Position3D.cross]; ring
    · constructor
      · intro hrig
        have h13 := hrig.eqs.c13
        simp only at h13
        apply hdot.1.2
        rw [hδ]; linarith
      intro hcase
      have hδ0 : δ = 0 := hdot.1.1 hcase
      have hm1 : m = 1 := by
        rw [hδ0] at hm2
        have h1 : (m - 1) * (m + 1) = 0 := by linarith
        rcases mul_eq_zero.1 h1 with h2 | h2 <;> linarith
      rw [hm1, one_mul] at vx vy vz
      have hc1 : c.x * c.x + c.y * c.y + c.z * c.z = 1 := by rw [hcc, hδ0]; ring
      clear_value δ c
      unfold IsRigid Transform.rotMat
      rw [isRot_coord]
      simp only
      refine ⟨⟨huu, hvv, hu, huv, ?_, ?_⟩, ?_⟩
      · linarith
      · linarith
      · rw [← hc1, vx, vy, vz, hc]; simp only [Position3D.cross]; ring

/-- For an axis close to z the columns are not orthogonal, so the result is not a
rotation. -/
theorem C25_not_rotation (t : Transform) : ∃ axis t', axis.vec ≠ 0 ∧
    orthogonalSpace axis t = .ok t' ∧ ¬ IsRigid t' := by
  have hne : (⟨1, 0, 20000⟩ : Position3D).vec ≠ 0 := by
    intro h
    have := congrFun h 0
    simp [Position3D.vec] at this
  obtain ⟨t', n, h1, -, h3, -, -, -, -, -, -, -, hiff⟩ :=
    (C25_orthogonalSpace_partial ⟨1, 0, 20000⟩ t).2 hne
  refine ⟨⟨1, 0, 20000⟩, t', hne, h1, ?_⟩
  rw [hiff]
  obtain ⟨h3a, r, hr, hv⟩ := h3
  have e0 : (1 : ℝ) = r * n 0 := by simpa [Position3D.vec] using congrFun hv 0
  have e1 : (0 : ℝ) = r * n 1 := by
    have := congrFun hv 1
    simpa [Position3D.vec] using this
  have e2 : (20000 : ℝ) = r * n 2 := by simpa [Position3D.vec] using congrFun hv 2
  simp [lenSq, dotProduct, Fin.sum_univ_three] at h3a
  have hn1 : n 1 = 0 := by
    rcases mul_eq_zero.1 e1.symm with h | h
    · exact absurd h hr.ne'
    · exact h
  have hn0 : 0 < n 0 := by
    by_contra hcon
    nlinarith
  have hn2 : n 2 = 20000 * n 0 := by
    have : r * (n 2 - 20000 * n 0) = 0 := by linarith
    rcases mul_eq_zero.1 this with h | h
    · exact absurd h hr.ne'
    · linarith
  rintro (h | h | h)
  · linarith
  · rw [abs_of_pos hn0] at h
    rw [hn1, hn2] at h3a
    nlinarith
  · rw [hn1] at h; norm_num at h

/-! ### The hypotheses can be met -/

/-- A rotation about an axis of the xy plane, for the idempotence theorem. -/
example (t : ℝ) : IsUnitDir ⟨3, 4, 0⟩ ![3 / 5, 4 / 5, 0] ∧ (3 : ℝ) * 4 * 0 = 0 ∧
    ∃ p : Rotation, p.mat = rodrigues ![3 / 5, 4 / 5, 0] t := by
  refine ⟨⟨?_, 5, by norm_num, ?_⟩, by norm_num, _, axisMatrix_rodrigues _ _ _ t⟩
  · simp [lenSq, dotProduct, Fin.sum_univ_three]; norm_num
  · ext i; fin_cases i <;> simp [Position3D.vec] <;> norm_num

/-- A returned projection exists. -/
example : ∃ r, axisRotationProjection ⟨1, 0, 0⟩
    ⟨9 / 25, -12 / 25, 4 / 5, 4 / 5, 3 / 5, 0, -12 / 25, 16 / 25, 3 / 5⟩ = .ok r := by
  have hn : Position3D.norm ⟨1, 0, 0⟩ = 1 := by simp [Position3D.norm]
  unfold axisRotationProjection
  dsimp only
  rw [hn, if_neg (by norm_num), if_neg (by norm_num [axisA, axisB, axisC]),
    if_neg (by norm_num [axisA, axisB])]
  split_ifs <;> exact ⟨_, rfl⟩

end AlMath
