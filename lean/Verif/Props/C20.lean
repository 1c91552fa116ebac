import Verif.Props.C09
import Verif.Lemmas.Exp
import Verif.Lemmas.Rodrigues

/-!
C20: velocityExponential is the matrix exponential of the twist, hence a rigid
motion and a one-parameter group (above the series threshold, and exactly at zero
angular velocity); below the threshold it is within 1e-10.
-/

namespace AlMath

open Spec Matrix NormedSpace

namespace Spec

/-- The 4x4 matrix of a velocity (twist). Not in /repo: specification. -/
def twist (m : Velocity6D) : Mat4 :=
  !![0, -m.wzd, m.wyd, m.xd; m.wzd, 0, -m.wxd, m.yd; -m.wyd, m.wxd, 0, m.zd; 0, 0, 0, 0]

/-- Angular velocity vector. Not in /repo: specification. -/
def angVel (m : Velocity6D) : Vec3 := ![m.wxd, m.wyd, m.wzd]

/-- Angular speed. Not in /repo: specification. -/
noncomputable def angSpeed (m : Velocity6D) : ℝ := √(lenSq (angVel m))

/-- Velocities on which the library does not use its truncated series in a
visible way: no rotation at all, or an angular speed of at least 0.001. Not in
/repo: specification. -/
def Regular (m : Velocity6D) : Prop := angVel m = 0 ∨ 0.001 ≤ angSpeed m

end Spec

theorem lenSq_angVel (m : Velocity6D) :
    lenSq (angVel m) = m.wxd * m.wxd + m.wyd * m.wyd + m.wzd * m.wzd := by
  simp [lenSq, angVel, dotProduct, Fin.sum_univ_three]

theorem twist_sq (m : Velocity6D) : twist m ^ 2 =
    !![-(m.wyd * m.wyd + m.wzd * m.wzd), m.wxd * m.wyd, m.wxd * m.wzd,
        m.wyd * m.zd - m.wzd * m.yd;
       m.wxd * m.wyd, -(m.wxd * m.wxd + m.wzd * m.wzd), m.wyd * m.wzd,
        m.wzd * m.xd - m.wxd * m.zd;
       m.wxd * m.wzd, m.wyd * m.wzd, -(m.wxd * m.wxd + m.wyd * m.wyd),
        m.wxd * m.yd - m.wyd * m.xd;
       0, 0, 0, 0] := by
  rw [pow_two]
  ext i j
  fin_cases i <;> fin_cases j <;>
    simp [twist, Matrix.mul_apply, Fin.sum_univ_four] <;> ring

/-- The cube of the twist: `-t²` times its rotation part, and the translation
column. -/
theorem twist_cube (m : Velocity6D) : twist m ^ 3 =
    let t2 := m.wxd * m.wxd + m.wyd * m.wyd + m.wzd * m.wzd
    let d := m.wxd * m.xd + m.wyd * m.yd + m.wzd * m.zd
    !![0, t2 * m.wzd, -t2 * m.wyd, m.wxd * d - t2 * m.xd;
       -t2 * m.wzd, 0, t2 * m.wxd, m.wyd * d - t2 * m.yd;
       t2 * m.wyd, -t2 * m.wxd, 0, m.wzd * d - t2 * m.zd;
       0, 0, 0, 0] := by
  rw [pow_succ, twist_sq]
  ext i j
  fin_cases i <;> fin_cases j <;>
    simp [twist, Matrix.mul_apply, Fin.sum_univ_four] <;> ring

theorem twist_four (m : Velocity6D) {t : ℝ}
    (ht : t ^ 2 = m.wxd * m.wxd + m.wyd * m.wyd + m.wzd * m.wzd) :
    twist m ^ 4 = (-t ^ 2) • twist m ^ 2 := by
  rw [ht, pow_succ, twist_cube, twist_sq]
  ext i j
  fin_cases i <;> fin_cases j <;>
    simp [twist, Matrix.mul_apply, Fin.sum_univ_four] <;> ring

/-- The matrix the library builds, in terms of powers of the twist. -/
theorem expMatrix_twist (CC SC dSC : ℝ) (m : Velocity6D)
    (h : SC = 1 - dSC * (m.wxd * m.wxd + m.wyd * m.wyd + m.wzd * m.wzd)) :
    (expMatrix CC SC dSC m).mat = 1 + twist m + CC • twist m ^ 2 + dSC • twist m ^ 3 := by
  rw [twist_cube, twist_sq, h]
  ext i j
  fin_cases i <;> fin_cases j <;>
    simp [expMatrix, Transform.mat, twist] <;> ring

theorem angSpeed_sq (m : Velocity6D) :
    angSpeed m ^ 2 = m.wxd * m.wxd + m.wyd * m.wyd + m.wzd * m.wzd := by
  unfold angSpeed
  rw [lenSq_angVel]
  apply Real.sq_sqrt
  linarith [mul_self_nonneg m.wxd, mul_self_nonneg m.wyd, mul_self_nonneg m.wzd]

theorem velocityExponential_eq (m : Velocity6D) : velocityExponential m =
    if angSpeed m ≥ 0.001 then
      expMatrix ((1 - Real.cos (angSpeed m)) / (angSpeed m * angSpeed m))
        (Real.sin (angSpeed m) / angSpeed m)
        ((angSpeed m - Real.sin (angSpeed m)) / angSpeed m ^ 3) m
    else expMatrix 0.5 (1 - angSpeed m * angSpeed m / 6) 0.166666667 m := by
  unfold velocityExponential angSpeed
  rw [lenSq_angVel]

/-- velocityExponential is the matrix exponential of the twist. -/
theorem C20_exp (m : Velocity6D) (hm : Regular m) :
    (velocityExponential m).mat = exp (twist m) := by
  have hsq := angSpeed_sq m
  rcases hm with h0 | h
  · have hx : m.wxd = 0 := by simpa [angVel] using congrFun h0 0
    have hy : m.wyd = 0 := by simpa [angVel] using congrFun h0 1
    have hz : m.wzd = 0 := by simpa [angVel] using congrFun h0 2
    have ht0 : angSpeed m = 0 := by
      rw [hx, hy, hz] at hsq
      have : angSpeed m ^ 2 = 0 := by rw [hsq]; ring
      exact pow_eq_zero_iff two_ne_zero |>.1 this
    have hA2 : twist m ^ 2 = 0 := by
      rw [twist_sq, hx, hy, hz]
      ext i j
      fin_cases i <;> fin_cases j <;> simp
    have hA3 : twist m ^ 3 = 0 := by rw [pow_succ, hA2, Matrix.zero_mul]
    have hA4 : twist m ^ 4 = (-(1:ℝ) ^ 2) • twist m ^ 2 := by
      rw [pow_succ, hA3, hA2, Matrix.zero_mul, smul_zero]
    rw [exp_closed_form (twist m) one_ne_zero hA4, hA2, hA3, velocityExponential_eq,
      if_neg (by rw [ht0]; norm_num), expMatrix_twist _ _ _ _ (by rw [ht0, hx, hy, hz]; ring), hA2,
      hA3]
    simp
  · have ht0 : angSpeed m ≠ 0 := by
      intro h0; rw [h0] at h; norm_num at h
    rw [exp_closed_form (twist m) ht0 (twist_four m hsq), velocityExponential_eq, if_pos h,
      expMatrix_twist, pow_two (angSpeed m)]
    rw [← hsq]; field_simp; ring

/-- The rotation axis is fixed, for every velocity. -/
theorem C20_axis (m : Velocity6D) :
    (velocityExponential m).rotMat *ᵥ angVel m = angVel m := by
  have key : ∀ CC SC dSC : ℝ, (expMatrix CC SC dSC m).rotMat *ᵥ angVel m = angVel m := by
    intro CC SC dSC
    ext i
    fin_cases i <;>
      simp [expMatrix, Transform.rotMat, angVel, Matrix.mulVec, dotProduct, Fin.sum_univ_three] <;>
      ring
  rw [velocityExponential_eq]
  split_ifs <;> exact key _ _ _

theorem expRot_eq (m : Velocity6D) (h : 0.001 ≤ angSpeed m) :
    (velocityExponential m).rotMat = rodrigues ((angSpeed m)⁻¹ • angVel m) (angSpeed m) := by
  have ht0 : angSpeed m ≠ 0 := by
    intro h0; rw [h0] at h; norm_num at h
  rw [velocityExponential_eq, if_pos h]
  ext i j
  fin_cases i <;> fin_cases j <;>
    simp [expMatrix, Transform.rotMat, rodrigues, skew, angVel, Matrix.mul_apply,
      Fin.sum_univ_three] <;> field_simp <;> ring

/-- Identity at zero; rigid on regular velocities, with the rotation by the
angular speed about the direction of the angular velocity. -/
theorem C20_rigid (m : Velocity6D) (hm : Regular m) :
    velocityExponential Velocity6D.zero = Transform.one ∧ IsRigid (velocityExponential m) ∧
    (0.001 ≤ angSpeed m →
      (velocityExponential m).rotMat = rodrigues ((angSpeed m)⁻¹ • angVel m) (angSpeed m)) := by
  refine ⟨?_, ?_, expRot_eq m⟩
  · rw [velocityExponential_eq, if_neg]
    · ext <;> simp [expMatrix, Velocity6D.zero, Transform.one, angSpeed, angVel, lenSq]
    · simp [angSpeed, angVel, lenSq, Velocity6D.zero]
      norm_num
  · rcases hm with h0 | h
    · have hx : m.wxd = 0 := by simpa [angVel] using congrFun h0 0
      have hy : m.wyd = 0 := by simpa [angVel] using congrFun h0 1
      have hz : m.wzd = 0 := by simpa [angVel] using congrFun h0 2
      have : (velocityExponential m).rotMat = 1 := by
        rw [velocityExponential_eq]
        split_ifs <;> ext i j <;> fin_cases i <;> fin_cases j <;>
          simp [expMatrix, Transform.rotMat, hx, hy, hz]
      unfold IsRigid; rw [this]; exact IsRot.one
    · unfold IsRigid
      rw [expRot_eq m h]
      apply rodrigues_isRot
      have ht0 : angSpeed m ≠ 0 := by
        intro h0; rw [h0] at h; norm_num at h
      have := angSpeed_sq m
      simp [lenSq, angVel, dotProduct, Fin.sum_univ_three]
      field_simp
      linarith

theorem twist_smul (m : Velocity6D) (s : ℝ) : twist (Velocity6D.smul m s) = s • twist m := by
  ext i j
  fin_cases i <;> fin_cases j <;> simp [twist, Velocity6D.smul] <;> ring

/-- One-parameter group: `exp(sV) exp(uV) = exp((s+u)V)` whenever the three
velocities are regular. -/
theorem C20_group (m : Velocity6D) (s u : ℝ) (hs : Regular (Velocity6D.smul m s))
    (hu : Regular (Velocity6D.smul m u)) (hsu : Regular (Velocity6D.smul m (s + u))) :
    Transform.mul (velocityExponential (Velocity6D.smul m s))
      (velocityExponential (Velocity6D.smul m u)) =
      velocityExponential (Velocity6D.smul m (s + u)) := by
  apply Transform.mat_injective
  rw [(C09_mul_mat _ _).1, C20_exp _ hs, C20_exp _ hu, C20_exp _ hsu, twist_smul, twist_smul,
    twist_smul, add_smul]
  rw [Matrix.exp_add_of_commute]
  exact ((Commute.refl (twist m)).smul_left s).smul_right u

theorem regular_neg {m : Velocity6D} (hm : Regular m) : Regular (Velocity6D.neg m) := by
  have h1 : angSpeed (Velocity6D.neg m) = angSpeed m := by
    unfold angSpeed; rw [lenSq_angVel, lenSq_angVel]; simp [Velocity6D.neg]
  rcases hm with h | h
  · left
    have hx : m.wxd = 0 := by simpa [angVel] using congrFun h 0
    have hy : m.wyd = 0 := by simpa [angVel] using congrFun h 1
    have hz : m.wzd = 0 := by simpa [angVel] using congrFun h 2
    ext i; fin_cases i <;> simp [angVel, Velocity6D.neg, hx, hy, hz]
  · right; rw [h1]; exact h

/-- `exp(-V)` is the inverse of `exp(V)`, through every inverse function of the
library. -/
theorem C20_inverse (m : Velocity6D) (hm : Regular m) :
    Transform.mul (velocityExponential m) (velocityExponential (Velocity6D.neg m)) =
      Transform.one ∧
    Transform.inverse (velocityExponential m) = velocityExponential (Velocity6D.neg m) := by
  have h1 : Transform.mul (velocityExponential m) (velocityExponential (Velocity6D.neg m)) =
      Transform.one := by
    apply Transform.mat_injective
    rw [(C09_mul_mat _ _).1, C20_exp _ hm, C20_exp _ (regular_neg hm)]
    have hn : twist (Velocity6D.neg m) = -twist m := by
      ext i j
      fin_cases i <;> fin_cases j <;> simp [twist, Velocity6D.neg]
    rw [hn, ← Matrix.exp_add_of_commute _ _ (Commute.neg_right (Commute.refl (twist m))), add_neg_cancel,
      exp_zero, (C09_mul_mat Transform.one Transform.one).2]
  refine ⟨h1, ?_⟩
  have hr := (C20_rigid m hm).2.1
  have := (C10_diff (velocityExponential m) Transform.one).2 hr
  rw [this.2.2 _ h1, (C10_diff _ _).1, (C09_one _).2]

/-! ### Below the threshold -/

/-- Below the threshold the result is in general not rigid. -/
theorem C20_series_not_rigid : ∃ m, ¬ IsRigid (velocityExponential m) := by
  refine ⟨⟨0, 0, 0, 0, 0, 0.0005⟩, ?_⟩
  have ht : angSpeed ⟨0, 0, 0, 0, 0, 0.0005⟩ = 0.0005 := by
    unfold angSpeed
    rw [lenSq_angVel]
    rw [show (0 * 0 + 0 * 0 + 0.0005 * 0.0005 : ℝ) = 0.0005 ^ 2 by norm_num,
      Real.sqrt_sq (by norm_num)]
  rw [velocityExponential_eq, ht, if_neg (by norm_num)]
  unfold IsRigid Transform.rotMat expMatrix
  rw [isRot_coord]
  norm_num

theorem mulb {x y X Y : ℝ} (hx : |x| ≤ X) (hy : |y| ≤ Y) : |x * y| ≤ X * Y := by
  rw [abs_mul]
  exact mul_le_mul hx hy (abs_nonneg _) ((abs_nonneg _).trans hx)

theorem addb {x y X Y : ℝ} (hx : |x| ≤ X) (hy : |y| ≤ Y) : |x + y| ≤ X + Y :=
  (abs_add_le x y).trans (add_le_add hx hy)

theorem negb {x X : ℝ} (hx : |x| ≤ X) : |-x| ≤ X := by rwa [abs_neg]

/-- Below the threshold every entry of the result is within `2e-13` of the exact
exponential in the rotation part and within `1e-10 (|xd|+|yd|+|zd|)` in the
translation part. -/
theorem C20_series_error (m : Velocity6D) (h : angSpeed m < 0.001) :
    (∀ i j, |(velocityExponential m).rotMat i j -
      (exp (twist m)) (Fin.castSucc i) (Fin.castSucc j)| ≤ 2e-13) ∧
    (∀ i, |(velocityExponential m).trans i - (exp (twist m)) (Fin.castSucc i) 3| ≤
      1e-10 * (|m.xd| + |m.yd| + |m.zd|)) := by
  set t := angSpeed m with htdef
  have hsq : t ^ 2 = m.wxd * m.wxd + m.wyd * m.wyd + m.wzd * m.wzd := angSpeed_sq m
  have ht0 : 0 ≤ t := Real.sqrt_nonneg _
  have hx : |m.wxd| ≤ t := abs_le_of_sq_le_sq (by nlinarith [mul_self_nonneg m.wyd, mul_self_nonneg m.wzd]) ht0
  have hy : |m.wyd| ≤ t := abs_le_of_sq_le_sq (by nlinarith [mul_self_nonneg m.wxd, mul_self_nonneg m.wzd]) ht0
  have hz : |m.wzd| ≤ t := abs_le_of_sq_le_sq (by nlinarith [mul_self_nonneg m.wyd, mul_self_nonneg m.wxd]) ht0
  by_cases hz0 : t = 0
  · have hreg : Regular m := by
      left
      rw [hz0] at hx hy hz
      have h1 := abs_eq_zero.1 (le_antisymm hx (abs_nonneg _))
      have h2 := abs_eq_zero.1 (le_antisymm hy (abs_nonneg _))
      have h3 := abs_eq_zero.1 (le_antisymm hz (abs_nonneg _))
      ext i; fin_cases i <;> simp [angVel, h1, h2, h3]
    rw [← C20_exp m hreg]
    constructor
    · intro i j
      have : (velocityExponential m).rotMat i j =
          (velocityExponential m).mat (Fin.castSucc i) (Fin.castSucc j) := by
        fin_cases i <;> fin_cases j <;> rfl
      rw [this, sub_self, abs_zero]; norm_num
    · intro i
      have : (velocityExponential m).trans i =
          (velocityExponential m).mat (Fin.castSucc i) 3 := by
        fin_cases i <;> rfl
      rw [this, sub_self, abs_zero]; positivity
  have htpos : 0 < t := lt_of_le_of_ne ht0 (Ne.symm hz0)
  have ht1 : |t| ≤ 1 := by rw [abs_of_pos htpos]; linarith
  have hcos := Real.cos_bound ht1
  have hsin := Real.sin_bound ht1
  rw [abs_of_pos htpos] at hcos hsin
  -- the exact exponential is the same matrix with the exact coefficients
  obtain ⟨cc, sc, ds, hexp, hcc, hsc, hds⟩ : ∃ cc sc ds : ℝ,
      exp (twist m) = (expMatrix cc sc ds m).mat ∧ |0.5 - cc| ≤ t ^ 2 * (5 / 96) ∧
      |1 - t * t / 6 - sc| ≤ t ^ 4 / 100 ∧ |0.166666667 - ds| ≤ 4e-10 + t ^ 2 / 100 := by
    refine ⟨(1 - Real.cos t) / t ^ 2, Real.sin t / t, (t - Real.sin t) / t ^ 3, ?_, ?_, ?_, ?_⟩
    · rw [exp_closed_form (twist m) hz0 (twist_four m hsq), expMatrix_twist]
      rw [← hsq]; field_simp; ring
    · have e : 0.5 - (1 - Real.cos t) / t ^ 2 = (Real.cos t - (1 - t ^ 2 / 2)) / t ^ 2 := by
        field_simp; ring
      rw [e, abs_div, abs_of_pos (show (0:ℝ) < t ^ 2 by positivity), div_le_iff₀ (by positivity)]
      linarith
    · have e : 1 - t * t / 6 - Real.sin t / t = -(Real.sin t - (t - t ^ 3 / 6)) / t := by
        field_simp; ring
      rw [e, abs_div, abs_neg, abs_of_pos htpos, div_le_iff₀ htpos]
      linarith
    · have e : 0.166666667 - (t - Real.sin t) / t ^ 3 =
          1e-9 / 3 + (Real.sin t - (t - t ^ 3 / 6)) / t ^ 3 := by
        field_simp; ring
      rw [e]
      refine (abs_add_le _ _).trans (add_le_add (by rw [abs_of_pos] <;> norm_num) ?_)
      rw [abs_div, abs_of_pos (show (0:ℝ) < t ^ 3 by positivity), div_le_iff₀ (by positivity)]
      linarith
  rw [hexp, velocityExponential_eq, if_neg (not_le.2 h)]
  rw [← htdef]
  have htt : t * t ≤ 1e-6 := by nlinarith
  have ha : |0.5 - cc| ≤ 6e-8 := hcc.trans (by nlinarith)
  have hs : |1 - t * t / 6 - sc| ≤ 1e-14 := hsc.trans (by nlinarith [mul_nonneg ht0 ht0])
  have hd : |0.166666667 - ds| ≤ 2e-8 := hds.trans (by nlinarith)
  generalize 1 - t * t / 6 = S at hs
  generalize (0.166666667 : ℝ) = D at hd
  generalize (0.5 : ℝ) = C at ha
  have hx' := hx.trans h.le
  have hy' := hy.trans h.le
  have hz' := hz.trans h.le
  have off : ∀ {p q r : ℝ}, |p| ≤ 0.001 → |q| ≤ 0.001 → |r| ≤ 0.001 →
      |(S - sc) * p + (C - cc) * (q * r)| ≤ 2e-13 := fun hp hq hr =>
    (addb (mulb hs hp) (mulb ha (mulb hq hr))).trans (by norm_num)
  have dia : ∀ {q r : ℝ}, |q| ≤ 0.001 → |r| ≤ 0.001 →
      |(C - cc) * (q * q + r * r)| ≤ 2e-13 := fun hq hr =>
    (mulb ha (addb (mulb hq hq) (mulb hr hr))).trans (by norm_num)
  have tra : ∀ {p q q' r r' x y z : ℝ}, |p| ≤ 0.001 → |q| ≤ 0.001 → |q'| ≤ 0.001 →
      |r| ≤ 0.001 → |r'| ≤ 0.001 →
      |((S - sc) + (D - ds) * (p * p)) * x + ((C - cc) * q + (D - ds) * (p * q')) * y +
        ((C - cc) * r + (D - ds) * (p * r')) * z| ≤ 1e-10 * (|x| + |y| + |z|) := by
    intro p q q' r r' x y z hp hq hq' hr hr'
    have h1 := addb (addb (mulb (addb hs (mulb hd (mulb hp hp))) (le_refl |x|))
      (mulb (addb (mulb ha hq) (mulb hd (mulb hp hq'))) (le_refl |y|)))
      (mulb (addb (mulb ha hr) (mulb hd (mulb hp hr'))) (le_refl |z|))
    refine h1.trans ?_
    norm_num
    nlinarith [abs_nonneg x, abs_nonneg y, abs_nonneg z]
  constructor
  · intro i j
    fin_cases i <;> fin_cases j
    · rw [← abs_neg]
      refine le_of_eq_of_le (congrArg abs ?_) (dia hz' hy')
      simp [expMatrix, Transform.rotMat, Transform.mat]; ring
    · refine le_of_eq_of_le (congrArg abs ?_) (off (negb hz') hx' hy')
      simp [expMatrix, Transform.rotMat, Transform.mat]; ring
    · refine le_of_eq_of_le (congrArg abs ?_) (off hy' hx' hz')
      simp [expMatrix, Transform.rotMat, Transform.mat]; ring
    · refine le_of_eq_of_le (congrArg abs ?_) (off hz' hx' hy')
      simp [expMatrix, Transform.rotMat, Transform.mat]; ring
    · rw [← abs_neg]
      refine le_of_eq_of_le (congrArg abs ?_) (dia hx' hz')
      simp [expMatrix, Transform.rotMat, Transform.mat]; ring
    · refine le_of_eq_of_le (congrArg abs ?_) (off (negb hx') hy' hz')
      simp [expMatrix, Transform.rotMat, Transform.mat]; ring
    · refine le_of_eq_of_le (congrArg abs ?_) (off (negb hy') hx' hz')
      simp [expMatrix, Transform.rotMat, Transform.mat]; ring
    · refine le_of_eq_of_le (congrArg abs ?_) (off hx' hy' hz')
      simp [expMatrix, Transform.rotMat, Transform.mat]; ring
    · rw [← abs_neg]
      refine le_of_eq_of_le (congrArg abs ?_) (dia hx' hy')
      simp [expMatrix, Transform.rotMat, Transform.mat]; ring
  · intro i
    fin_cases i
    · refine le_of_eq_of_le (congrArg abs ?_) (tra (x := m.xd) (y := m.yd) (z := m.zd)
        hx' (negb hz') hy' hy' hz')
      simp [expMatrix, Transform.trans, Transform.mat]; ring
    · refine (le_of_eq_of_le (congrArg abs ?_) (tra (x := m.yd) (y := m.xd) (z := m.zd)
        hy' hz' hx' (negb hx') hz')).trans (le_of_eq (by ring))
      simp [expMatrix, Transform.trans, Transform.mat]; ring
    · refine (le_of_eq_of_le (congrArg abs ?_) (tra (x := m.zd) (y := m.xd) (z := m.yd)
        hz' (negb hy') hx' hx' hy')).trans (le_of_eq (by ring))
      simp [expMatrix, Transform.trans, Transform.mat]; ring

/-! ### The hypotheses can be met -/

theorem angSpeed_z (w : ℝ) (hw : 0 ≤ w) (x y z : ℝ) : angSpeed ⟨x, y, z, 0, 0, w⟩ = w := by
  unfold angSpeed
  rw [lenSq_angVel]
  rw [show (0 * 0 + 0 * 0 + w * w : ℝ) = w ^ 2 by ring, Real.sqrt_sq hw]

/-- A screw motion about z: all velocities of the group law are regular. -/
example : Regular ⟨1, 2, 3, 0, 0, 1⟩ ∧ Regular (Velocity6D.smul ⟨1, 2, 3, 0, 0, 1⟩ 2) ∧
    Regular (Velocity6D.smul ⟨1, 2, 3, 0, 0, 1⟩ (2 + 0.5)) ∧ Regular ⟨1, 2, 3, 0, 0, 0⟩ ∧
    angSpeed ⟨1, 2, 3, 0, 0, 0.0005⟩ < 0.001 := by
  refine ⟨Or.inr ?_, Or.inr ?_, Or.inr ?_, Or.inl ?_, ?_⟩
  · rw [angSpeed_z _ (by norm_num)]; norm_num
  · simp only [Velocity6D.smul]
    rw [zero_mul, angSpeed_z _ (by norm_num)]; norm_num
  · simp only [Velocity6D.smul]
    rw [zero_mul, angSpeed_z _ (by norm_num)]; norm_num
  · ext i; fin_cases i <;> simp [angVel]
  · rw [angSpeed_z _ (by norm_num)]; norm_num

end AlMath
