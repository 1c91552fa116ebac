import Verif.Props.C21

/-!
C22: transformMean. Throws exactly outside [0,1]; end points; rigidity; symmetry;
left invariance; the aliasing hazard of the in-place version.
-/

namespace AlMath

open Spec Matrix

namespace Spec

/-- `g` is the relative motion from `a` to `b`. Not in /repo: specification. -/
def IsRelative (a b g : Transform) : Prop := a.mat * g.mat = b.mat

/-- Relative rotations on which the logarithm is exact: sine of the angle at least
0.001, or no rotation. Not in /repo: specification. -/
def LogRegular (g : Transform) : Prop := 0.001 ≤ logSi g ∨ g.rotMat = 1

end Spec

theorem mean_eq (a b : Transform) (d : ℝ) : transformMean a b d =
    if d > 1 ∨ d < 0 then .throws
    else .ok (Transform.mul a (velocityExponential (Velocity6D.smul
      (transformLogarithm (Transform.mul (Transform.inverse a) b)) d))) := rfl

/-- Throws exactly when the ratio is outside [0,1], whatever the transforms, and
never is undefined. -/
theorem C22_throws (a b : Transform) (d : ℝ) :
    (transformMean a b d = .throws ↔ ¬ (0 ≤ d ∧ d ≤ 1)) ∧
    (0 ≤ d ∧ d ≤ 1 → ∃ h, transformMean a b d = .ok h) := by
  rw [mean_eq]
  constructor
  · constructor
    · intro h
      by_contra hn
      rw [if_neg (by rintro (h1 | h1) <;> linarith [hn.1, hn.2])] at h
      cases h
    · intro h
      rw [if_pos]
      by_contra hn
      push Not at hn
      exact h ⟨hn.2, hn.1⟩
  · intro hn
    rw [if_neg (by rintro (h1 | h1) <;> linarith [hn.1, hn.2])]
    exact ⟨_, rfl⟩

theorem smul_zero_vel (v : Velocity6D) : Velocity6D.smul v 0 = Velocity6D.zero := by
  ext <;> simp [Velocity6D.smul, Velocity6D.zero]

theorem regular_zero : Regular Velocity6D.zero :=
  Or.inl (by ext i; fin_cases i <;> simp [angVel, Velocity6D.zero])

/-- Ratio 0 gives the first transform, for all inputs (rigid or not). -/
theorem C22_start (a b : Transform) : transformMean a b 0 = .ok a := by
  rw [mean_eq, if_neg (by norm_num), smul_zero_vel,
    (C20_rigid Velocity6D.zero regular_zero).1, (C09_one a).2]

theorem relative_unique {a b g : Transform} (ha : IsRigid a) (hg : IsRelative a b g) :
    Transform.mul (Transform.inverse a) b = g := by
  have h : Transform.mul a g = b := by
    apply Transform.mat_injective; rw [(C09_mul_mat _ _).1]; exact hg
  rw [← h, ← C09_assoc, (C09_inverse a ha).2.1, (C09_one g).1]

/-- Ratio 1 gives the second transform, whenever the relative rotation is in the
range of the logarithm. Missing for the full property: small angles and half
turns, where it fails (`C22_end_wrong`). -/
theorem C22_end_partial (a b g : Transform) (ha : IsRigid a) (hb : IsRigid b)
    (hg : IsRelative a b g) (hr : LogRegular g) : transformMean a b 1 = .ok b := by
  have hgr : IsRigid g := by
    rw [← relative_unique ha hg]
    exact (C09_closed _ b (C09_closed a a ha).2.1).2.2 hb
  rw [mean_eq, if_neg (by norm_num), relative_unique ha hg,
    show Velocity6D.smul (transformLogarithm g) 1 = transformLogarithm g by
      ext <;> simp [Velocity6D.smul],
    (C21_exp_log_partial g hgr hr).1]
  congr 1
  apply Transform.mat_injective
  rw [(C09_mul_mat _ _).1]; exact hg

/-- The property fails at ratio 1: interpolating from the identity to a half turn
about a diagonal never leaves the identity. -/
theorem C22_end_wrong : ∃ b, IsRigid b ∧ b ≠ Transform.one ∧
    ∀ d, 0 ≤ d → d ≤ 1 → transformMean Transform.one b d = .ok Transform.one := by
  have h := C21_half_turn_wrong Velocity6D.zero
  refine ⟨halfTurn, h.1, ?_, fun d h0 h1 => ?_⟩
  · rw [← h.2.2.2.2.1]; exact h.2.2.2.2.2.symm
  · have hrel : IsRelative Transform.one halfTurn halfTurn := by
      unfold IsRelative; rw [(C09_mul_mat Transform.one Transform.one).2, one_mul]
    rw [mean_eq, if_neg (by rintro (h | h) <;> linarith),
      relative_unique (C09_closed Transform.one Transform.one
        (by unfold IsRigid; rw [show Transform.one.rotMat = 1 by
          ext i j; fin_cases i <;> fin_cases j <;> simp [Transform.rotMat, Transform.one]]
            exact IsRot.one)).1 hrel]
    have hl : transformLogarithm halfTurn = Velocity6D.zero := by
      have hsi : logSi halfTurn = 0 := by unfold logSi halfTurn; simp
      have hco : logCo halfTurn = -1 := by unfold logCo halfTurn; norm_num
      unfold transformLogarithm transformLogarithmInPlace
      simp only []
      rw [hsi, hco, if_pos (by norm_num), if_neg (by norm_num), if_pos (by norm_num),
        if_neg (by simp only [halfTurn]; norm_num), if_neg (by simp only [halfTurn]; norm_num),
        if_neg (by simp only [halfTurn]; norm_num)]
      ext <;> simp [logTail, halfTurn, Velocity6D.zero]
    have hz : Velocity6D.smul Velocity6D.zero d = Velocity6D.zero := by
      ext <;> simp [Velocity6D.smul, Velocity6D.zero]
    rw [hl, hz, (C20_rigid Velocity6D.zero regular_zero).1, (C09_one _).1]

theorem angSpeed_smul (v : Velocity6D) {d : ℝ} (hd : 0 ≤ d) :
    angSpeed (Velocity6D.smul v d) = d * angSpeed v := by
  unfold angSpeed
  rw [lenSq_angVel, lenSq_angVel]
  simp only [Velocity6D.smul]
  rw [show v.wxd * d * (v.wxd * d) + v.wyd * d * (v.wyd * d) + v.wzd * d * (v.wzd * d) =
    d ^ 2 * (v.wxd * v.wxd + v.wyd * v.wyd + v.wzd * v.wzd) by ring,
    Real.sqrt_mul (sq_nonneg d), Real.sqrt_sq hd]

theorem log_angVel_zero {g : Transform} (h1 : g.rotMat = 1) :
    angVel (transformLogarithm g) = 0 := by
  have hgr : IsRigid g := by unfold IsRigid; rw [h1]; exact IsRot.one
  have h := C21_exp_log_partial g hgr (Or.inr h1)
  have e : ∀ i j, g.rotMat i j = (1 : Mat3) i j := fun i j => by rw [h1]
  have e12 : g.r12 = 0 := by simpa [Transform.rotMat] using e 0 1
  have e13 : g.r13 = 0 := by simpa [Transform.rotMat] using e 0 2
  have e21 : g.r21 = 0 := by simpa [Transform.rotMat] using e 1 0
  have e23 : g.r23 = 0 := by simpa [Transform.rotMat] using e 1 2
  have e31 : g.r31 = 0 := by simpa [Transform.rotMat] using e 2 0
  have e32 : g.r32 = 0 := by simpa [Transform.rotMat] using e 2 1
  have hsi : logSi g = 0 := by unfold logSi; rw [e12, e13, e21, e23, e31, e32]; simp
  have hco : logCo g = 1 := by
    have := rot_angle g hgr
    have e11 : g.r11 = 1 := by simpa [Transform.rotMat] using e 0 0
    have e22 : g.r22 = 1 := by simpa [Transform.rotMat] using e 1 1
    have e33 : g.r33 = 1 := by simpa [Transform.rotMat] using e 2 2
    unfold logCo; rw [e11, e22, e33]; norm_num
  have hsp : lenSq (angVel (transformLogarithm g)) = 0 := by
    rw [lenSq_angVel]
    unfold transformLogarithm transformLogarithmInPlace logTail
    simp only []
    rw [hsi, hco, if_pos (by norm_num), if_pos (by norm_num)]
    simp [e12, e13, e21, e23, e31, e32]
  rw [lenSq_angVel] at hsp
  have hx := mul_self_nonneg (transformLogarithm g).wxd
  have hy := mul_self_nonneg (transformLogarithm g).wyd
  have hz := mul_self_nonneg (transformLogarithm g).wzd
  ext i
  fin_cases i <;> simp [angVel] <;> apply mul_self_eq_zero.1 <;> linarith

/-- In between, the result is rigid, and it is the first transform followed by the
fraction `d` of the screw that leads to the second: the rotation angle of the
relative motion is `d` times the whole angle, about the same axis. -/
theorem C22_rigid_partial (a b g : Transform) (d : ℝ) (ha : IsRigid a) (hb : IsRigid b)
    (hg : IsRelative a b g) (hr : LogRegular g) (hd : 0 ≤ d ∧ d ≤ 1)
    (hd2 : d = 0 ∨ 0.001 ≤ d * Real.arccos (logCo g) ∨ g.rotMat = 1) :
    ∃ h V, transformMean a b d = .ok h ∧ IsRigid h ∧
      b.mat = a.mat * NormedSpace.exp (twist V) ∧ angSpeed V ≤ Real.pi ∧
      h.mat = a.mat * NormedSpace.exp (d • twist V) := by
  have hgr : IsRigid g := by
    rw [← relative_unique ha hg]
    exact (C09_closed _ b (C09_closed a a ha).2.1).2.2 hb
  obtain ⟨hexp, h0, hpi, hsin, hcos⟩ := C21_exp_log_partial g hgr hr
  set V := transformLogarithm g with hV
  have hsp : angSpeed V = Real.arccos (logCo g) := by
    rw [← hcos, Real.arccos_cos h0 hpi]
  have hregV : Regular V := by
    rcases hr with h | h
    · right
      have : logSi g ≤ angSpeed V := by rw [← hsin]; exact Real.sin_le h0
      linarith
    · left; exact log_angVel_zero h
  have hregd : Regular (Velocity6D.smul V d) := by
    rcases hd2 with h | h | h
    · rw [h, smul_zero_vel]; exact regular_zero
    · right; rw [angSpeed_smul V hd.1, hsp]; exact h
    · left
      have := log_angVel_zero h
      rw [← hV] at this
      have hx : V.wxd = 0 := by simpa [angVel] using congrFun this 0
      have hy : V.wyd = 0 := by simpa [angVel] using congrFun this 1
      have hz : V.wzd = 0 := by simpa [angVel] using congrFun this 2
      ext i; fin_cases i <;> simp [angVel, Velocity6D.smul, hx, hy, hz]
  refine ⟨Transform.mul a (velocityExponential (Velocity6D.smul V d)), V, ?_, ?_, ?_, hpi, ?_⟩
  · rw [mean_eq, if_neg (by rintro (h | h) <;> linarith [hd.1, hd.2]), relative_unique ha hg]
  · exact (C09_closed a _ ha).2.2 (C20_rigid _ hregd).2.1
  · rw [← C20_exp V hregV, hexp]; exact hg.symm
  · rw [(C09_mul_mat _ _).1, C20_exp _ hregd, twist_smul]

/-- The mean of a transform with itself is that transform. -/
theorem C22_self (a : Transform) (ha : IsRigid a) (d : ℝ) (hd : 0 ≤ d ∧ d ≤ 1) :
    transformMean a a d = .ok a := by
  have hrel : IsRelative a a Transform.one := by
    unfold IsRelative; rw [(C09_mul_mat Transform.one Transform.one).2, mul_one]
  have hz : transformLogarithm Transform.one = Velocity6D.zero := by
    have := (C21_log_exp Velocity6D.zero Velocity6D.zero (Or.inl (by
      ext i; fin_cases i <;> simp [angVel, Velocity6D.zero]))).2
    rwa [(C20_rigid Velocity6D.zero regular_zero).1] at this
  rw [mean_eq, if_neg (by rintro (h | h) <;> linarith [hd.1, hd.2]), relative_unique ha hrel, hz,
    show Velocity6D.smul Velocity6D.zero d = Velocity6D.zero by
      ext <;> simp [Velocity6D.smul, Velocity6D.zero],
    (C20_rigid Velocity6D.zero regular_zero).1, (C09_one a).2]

/-- Left invariance: moving both transforms by a rigid motion moves the mean. -/
theorem C22_left_invariant (c a b : Transform) (hc : IsRigid c) (ha : IsRigid a) (d : ℝ) :
    transformMean (Transform.mul c a) (Transform.mul c b) d =
      (transformMean a b d).map (Transform.mul c) := by
  have h : Transform.mul (Transform.inverse (Transform.mul c a)) (Transform.mul c b) =
      Transform.mul (Transform.inverse a) b := by
    rw [(C09_inverse_mul c a hc ha).1, C09_assoc, ← C09_assoc _ c b, (C09_inverse c hc).2.1,
      (C09_one b).1]
  rw [mean_eq, mean_eq, h]
  split_ifs
  · rfl
  · simp only [Res.map]; rw [C09_assoc]

/-- Symmetry: interpolating backwards by `1 - d` gives the same transform. -/
theorem C22_symmetric (a b g : Transform) (d : ℝ) (ha : IsRigid a) (hb : IsRigid b)
    (hg : IsRelative a b g) (hr : 0.001 ≤ logSi g) (hd : 0 ≤ d ∧ d ≤ 1)
    (hd1 : d = 0 ∨ 0.001 ≤ d * Real.arccos (logCo g))
    (hd2 : d = 1 ∨ 0.001 ≤ (1 - d) * Real.arccos (logCo g)) :
    transformMean b a (1 - d) = transformMean a b d := by
  have hgr : IsRigid g := by
    rw [← relative_unique ha hg]
    exact (C09_closed _ b (C09_closed a a ha).2.1).2.2 hb
  obtain ⟨hexp, h0, hpi, hsin, hcos⟩ := C21_exp_log_partial g hgr (Or.inl hr)
  set V := transformLogarithm g with hV
  have hsp : angSpeed V = Real.arccos (logCo g) := by
    rw [← hcos, Real.arccos_cos h0 hpi]
  have hge : 0.001 ≤ angSpeed V := by
    have : logSi g ≤ angSpeed V := by rw [← hsin]; exact Real.sin_le h0
    linarith
  have hnegsp : angSpeed (Velocity6D.neg V) = angSpeed V := by
    unfold angSpeed; rw [lenSq_angVel, lenSq_angVel]; simp [Velocity6D.neg]
  have hab : Transform.mul a g = b := by
    apply Transform.mat_injective; rw [(C09_mul_mat _ _).1]; exact hg
  have hinv : Transform.mul (Transform.inverse b) a = velocityExponential (Velocity6D.neg V) := by
    apply relative_unique hb
    unfold IsRelative
    have := (C20_inverse V (Or.inr hge)).1
    rw [hexp] at this
    rw [← (C09_mul_mat _ _).1, ← hab, C09_assoc, this, (C09_one a).2]
  have hlog : transformLogarithm (Transform.mul (Transform.inverse b) a) = Velocity6D.neg V := by
    rw [hinv]
    exact (C21_log_exp (Velocity6D.neg V) Velocity6D.zero (Or.inr (by
      rw [hnegsp]; exact ⟨hpi, by rw [hsin]; exact hr⟩))).2
  rw [mean_eq, mean_eq, if_neg (by rintro (h | h) <;> linarith [hd.1, hd.2]),
    if_neg (by rintro (h | h) <;> linarith [hd.1, hd.2]), hlog, relative_unique ha hg, ← hV]
  congr 1
  have hsm : Velocity6D.smul (Velocity6D.neg V) (1 - d) = Velocity6D.smul V (-(1 - d)) := by
    ext <;> simp [Velocity6D.smul, Velocity6D.neg] <;> ring
  have hr1 : Regular (Velocity6D.smul V (-(1 - d))) := by
    rw [← hsm]
    rcases hd2 with h | h
    · rw [h, sub_self, smul_zero_vel]; exact regular_zero
    · right; rw [angSpeed_smul _ (by linarith [hd.2]), hnegsp, hsp]; exact h
  have hr2 : Regular (Velocity6D.smul V d) := by
    rcases hd1 with h | h
    · rw [h, smul_zero_vel]; exact regular_zero
    · right; rw [angSpeed_smul V hd.1, hsp]; exact h
  have hv1 : Velocity6D.smul V 1 = V := by ext <;> simp [Velocity6D.smul]
  have hgroup := C20_group V 1 (-(1 - d)) (by rw [hv1]; exact Or.inr hge) hr1
    (by rw [show 1 + -(1 - d) = d by ring]; exact hr2)
  rw [hv1, hexp, show 1 + -(1 - d) = d by ring] at hgroup
  rw [hsm, ← hab, C09_assoc, hgroup]

/-- The in-place version may be given its output as second input, not as first. -/
theorem C22_in_place_alias :
    (∀ a b d, transformMeanInPlace (fun _ => a) id d b = transformMean a b d) ∧
    (∃ a b, IsRigid a ∧ IsRigid b ∧
      transformMeanInPlace id (fun _ => b) 0 a ≠ transformMean a b 0) := by
  refine ⟨fun a b d => rfl, ⟨⟨1, 0, 0, 1, 0, 1, 0, 0, 0, 0, 1, 0⟩, Transform.one, ?_, ?_, ?_⟩⟩
  · unfold IsRigid Transform.rotMat; rw [isRot_coord]; norm_num
  · unfold IsRigid Transform.rotMat Transform.one; rw [isRot_coord]; norm_num
  · rw [C22_start]
    unfold transformMeanInPlace
    rw [if_neg (by norm_num)]
    simp only [id]
    rw [smul_zero_vel, (C20_rigid Velocity6D.zero regular_zero).1, (C09_one _).1]
    intro h
    injection h with h
    have := congrArg Transform.r14 h
    simp [Transform.one] at this

/-! ### The hypotheses can be met -/

/-- From the identity to a quarter turn with a translation, at the middle. -/
example : ∃ a b g : Transform, IsRigid a ∧ IsRigid b ∧ IsRelative a b g ∧ 0.001 ≤ logSi g ∧
    0.001 ≤ 0.5 * Real.arccos (logCo g) := by
  refine ⟨Transform.one, ⟨0, -1, 0, 1, 1, 0, 0, 2, 0, 0, 1, 3⟩,
    ⟨0, -1, 0, 1, 1, 0, 0, 2, 0, 0, 1, 3⟩, ?_, ?_, ?_, ?_, ?_⟩
  · unfold IsRigid Transform.rotMat Transform.one; rw [isRot_coord]; norm_num
  · unfold IsRigid Transform.rotMat; rw [isRot_coord]; norm_num
  · unfold IsRelative; rw [(C09_mul_mat Transform.one Transform.one).2, one_mul]
  · unfold logSi
    rw [show ((0:ℝ) - 0) * (0 - 0) + (0 - 0) * (0 - 0) + (1 - -1) * (1 - -1) = 2 ^ 2 by norm_num,
      Real.sqrt_sq (by norm_num)]
    norm_num
  · have : logCo ⟨0, -1, 0, 1, 1, 0, 0, 2, 0, 0, 1, 3⟩ = 0 := by unfold logCo; norm_num
    rw [this, Real.arccos_zero]
    linarith [Real.pi_gt_three]

end AlMath
