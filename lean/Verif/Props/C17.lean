import Verif.Props.C15

/-!
C17: matrix to quaternion. C18: angle-axis quaternions. C19: angle/direction
rotations. C60: displacements mirror transforms.
-/

namespace AlMath

open Spec Matrix

/-- The last lines of quaternionFromTransform, for a rotation given by its unit
quaternion. -/
theorem fromTransform_core {w x y z σ : ℝ} (hw : 0 ≤ w)
    (hu : w * w + x * x + y * y + z * z = 1) (h0 : σ = 0 → x = 0 ∧ y = 0 ∧ z = 0)
    (hs : 0 < w → 0 < σ) (t : Transform)
    (htr : t.r11 + t.r22 + t.r33 + 1 = 4 * (w * w)) {k1 k2 k3 : ℝ}
    (hkx : k1 = 4 * σ * x) (hky : k2 = 4 * σ * y) (hkz : k3 = 4 * σ * z) :
    let nm := √(k1 ^ 2 + k2 ^ 2 + k3 ^ 2)
    let trace := t.r11 + t.r22 + t.r33 + 1
    let trace := if trace < 0 then 0 else trace
    let qs := 0.5 * √trace
    (if nm = 0 then Res.ok Quat.one
     else if 1 - qs ^ 2 < 0 then .ub
     else .ok ⟨qs, √(1 - qs ^ 2) / nm * k1, √(1 - qs ^ 2) / nm * k2, √(1 - qs ^ 2) / nm * k3⟩) =
      .ok ⟨w, x, y, z⟩ ∨ (w = 0 ∧
    (if nm = 0 then Res.ok Quat.one
     else if 1 - qs ^ 2 < 0 then .ub
     else .ok ⟨qs, √(1 - qs ^ 2) / nm * k1, √(1 - qs ^ 2) / nm * k2, √(1 - qs ^ 2) / nm * k3⟩) =
      .ok ⟨w, -x, -y, -z⟩) := by
  intro nm trace0 trace qs
  have hqs : qs = w := by
    have : trace = (2 * w) ^ 2 := by
      simp only [trace, trace0, htr]
      rw [if_neg (by nlinarith [mul_self_nonneg w])]; ring
    simp only [qs, this]
    rw [Real.sqrt_sq (by linarith)]; ring
  set v := √(x ^ 2 + y ^ 2 + z ^ 2) with hv
  have hv2 : v ^ 2 = x ^ 2 + y ^ 2 + z ^ 2 := Real.sq_sqrt (by positivity)
  have hv0 : 0 ≤ v := Real.sqrt_nonneg _
  have hnm : nm = 4 * |σ| * v := by
    have e : k1 ^ 2 + k2 ^ 2 + k3 ^ 2 = (4 * |σ| * v) ^ 2 := by
      rw [hkx, hky, hkz, mul_pow (4 * |σ|), mul_pow 4, sq_abs, hv2]; ring
    simp only [nm, e]
    exact Real.sqrt_sq (by positivity)
  have h1w : √(1 - w ^ 2) = v := by
    rw [hv]; congr 1; nlinarith
  have h1wn : ¬ 1 - w ^ 2 < 0 := by
    have : 0 ≤ v ^ 2 := sq_nonneg _
    rw [hv2] at this
    intro h; nlinarith
  rw [hqs, h1w, if_neg h1wn]
  by_cases hz : nm = 0
  · left
    rw [if_pos hz]
    have hxyz : x = 0 ∧ y = 0 ∧ z = 0 := by
      rw [hnm] at hz
      rcases mul_eq_zero.1 hz with h | h
      · have : |σ| = 0 := by linarith
        exact h0 (abs_eq_zero.1 this)
      · rw [h] at hv2
        have e : x ^ 2 + y ^ 2 + z ^ 2 = 0 := by rw [← hv2]; ring
        refine ⟨?_, ?_, ?_⟩ <;> apply pow_eq_zero_iff two_ne_zero |>.1 <;>
          linarith [sq_nonneg x, sq_nonneg y, sq_nonneg z]
    obtain ⟨rfl, rfl, rfl⟩ := hxyz
    have : w = 1 := by nlinarith
    rw [this]; rfl
  · rw [if_neg hz]
    have hσ : σ ≠ 0 := by
      rintro rfl; apply hz; rw [hnm]; simp
    have hvne : v ≠ 0 := by
      rintro h; apply hz; rw [hnm, h]; simp
    have hsc : v / nm * (4 * σ) = σ / |σ| := by
      rw [hnm]; field_simp [abs_ne_zero.2 hσ]
    have hcomp : ∀ c, v / nm * (4 * σ * c) = σ / |σ| * c := fun c => by
      rw [← mul_assoc, hsc]
    rw [hkx, hky, hkz, hcomp, hcomp, hcomp]
    rcases lt_or_gt_of_ne hσ with hneg | hpos
    · right
      have hw0 : w = 0 := by
        by_contra hne
        exact absurd (hs (lt_of_le_of_ne hw (Ne.symm hne))) (not_lt.2 hneg.le)
      refine ⟨hw0, ?_⟩
      rw [abs_of_neg hneg, div_neg, div_self hσ]; simp
    · left
      rw [abs_of_pos hpos, div_self hσ]; simp

/-- quaternionFromTransform is exact for every rigid transform, half-turns
included: the result is a unit quaternion with non-negative scalar part whose
matrix is the rotation part of the input. -/
theorem C17_fromTransform (t : Transform) (ht : IsRigid t) :
    ∃ q, Quat.fromTransform t = .ok q ∧ IsUnitQuat q ∧ 0 ≤ q.w ∧
      q.toTransform.rotMat = t.rotMat := by
  obtain ⟨w, x, y, z, hw, hu, e11, e12, e13, e21, e22, e23, e31, e32, e33⟩ := quat_of_rot ht.eqs
  have htr : t.r11 + t.r22 + t.r33 + 1 = 4 * (w * w) := by rw [e11, e22, e33]; nlinarith
  have hmat : (Quat.toTransform ⟨w, x, y, z⟩).rotMat = t.rotMat := by
    simp only [Transform.rotMat, Quat.toTransform, Transform.one, e11, e12, e13, e21, e22, e23,
      e31, e32, e33]
  have hmat' : w = 0 → (Quat.toTransform ⟨w, -x, -y, -z⟩).rotMat = t.rotMat := by
    intro h
    rw [← hmat, h]
    simp [Transform.rotMat, Quat.toTransform, Transform.one]
  suffices h : Quat.fromTransform t = .ok ⟨w, x, y, z⟩ ∨
      (w = 0 ∧ Quat.fromTransform t = .ok ⟨w, -x, -y, -z⟩) by
    rcases h with h | ⟨h0, h⟩
    · exact ⟨_, h, hu, hw, hmat⟩
    · refine ⟨_, h, ?_, hw, hmat' h0⟩
      unfold IsUnitQuat; simp only; linarith
  have dec : ∀ {m : ℝ}, (m = 0 → x = 0 ∧ y = 0 ∧ z = 0) → 
      (4 * w * m ≥ 0 → (w + m = 0 → x = 0 ∧ y = 0 ∧ z = 0) ∧ (0 < w → 0 < w + m)) ∧
      (¬ 4 * w * m ≥ 0 → (w - m = 0 → x = 0 ∧ y = 0 ∧ z = 0) ∧ (0 < w → 0 < w - m)) := by
    intro m hm
    refine ⟨fun h => ⟨fun h2 => hm ?_, fun h2 => ?_⟩, fun h => ⟨fun h2 => ?_, fun h2 => ?_⟩⟩
    · have : m * m ≤ 0 := by nlinarith
      nlinarith [mul_self_nonneg m, mul_self_eq_zero.1 (le_antisymm this (mul_self_nonneg m))]
    · have : 0 ≤ m := by
        by_contra hc; push Not at hc; nlinarith
      linarith
    · exfalso; apply h; have : m = w := by linarith
      rw [this]; nlinarith [mul_self_nonneg w]
    · have : m < 0 := by
        by_contra hc; push Not at hc; apply h; positivity
      linarith
  unfold Quat.fromTransform
  dsimp only
  by_cases h1 : t.r11 ≥ t.r22 ∧ t.r11 ≥ t.r33
  · have hm : x = 0 → x = 0 ∧ y = 0 ∧ z = 0 := by
      intro hx
      have a1 : y ^ 2 ≤ 0 := by rw [e11, e22, hx] at h1; nlinarith [h1.1]
      have a2 : z ^ 2 ≤ 0 := by rw [e11, e33, hx] at h1; nlinarith [h1.2]
      exact ⟨hx, pow_eq_zero_iff two_ne_zero |>.1 (le_antisymm a1 (sq_nonneg _)),
        pow_eq_zero_iff two_ne_zero |>.1 (le_antisymm a2 (sq_nonneg _))⟩
    have hsel : Quat.fromTransformSelect t (t.r32 - t.r23) (t.r13 - t.r31) (t.r21 - t.r12) =
        (t.r11 - t.r22 - t.r33 + 1, t.r21 + t.r12, t.r31 + t.r13, t.r32 - t.r23 ≥ 0) := by
      unfold Quat.fromTransformSelect; rw [if_pos h1]
    rw [hsel]; clear hsel
    simp only
    by_cases hc : t.r32 - t.r23 ≥ 0
    · have hc' : 4 * w * x ≥ 0 := by rw [e32, e23] at hc; linarith
      obtain ⟨d1, d2⟩ := (dec hm).1 hc'
      simp only [if_pos hc]
      refine fromTransform_core hw hu d1 d2 t htr ?_ ?_ ?_
      · simp only [e11, e22, e33, e32, e23]; ring
      · simp only [e12, e21, e13, e31]; ring
      · simp only [e12, e21, e13, e31]; ring
    · have hc' : ¬ 4 * w * x ≥ 0 := by intro h; apply hc; rw [e32, e23]; linarith
      obtain ⟨d1, d2⟩ := (dec hm).2 hc'
      simp only [if_neg hc]
      refine fromTransform_core hw hu d1 d2 t htr ?_ ?_ ?_
      · simp only [e11, e22, e33, e32, e23]; ring
      · simp only [e12, e21, e13, e31]; ring
      · simp only [e12, e21, e13, e31]; ring
  · by_cases h2 : t.r22 ≥ t.r33
    · have h3 : t.r22 ≥ t.r11 := by
        by_contra hc; push Not at hc; exact h1 ⟨hc.le, by linarith⟩
      have hm : y = 0 → x = 0 ∧ y = 0 ∧ z = 0 := by
        intro hy
        have a1 : x ^ 2 ≤ 0 := by rw [e11, e22, hy] at h3; nlinarith
        have a2 : z ^ 2 ≤ 0 := by rw [e22, e33, hy] at h2; nlinarith
        exact ⟨pow_eq_zero_iff two_ne_zero |>.1 (le_antisymm a1 (sq_nonneg _)), hy,
          pow_eq_zero_iff two_ne_zero |>.1 (le_antisymm a2 (sq_nonneg _))⟩
      have hsel : Quat.fromTransformSelect t (t.r32 - t.r23) (t.r13 - t.r31) (t.r21 - t.r12) =
          (t.r21 + t.r12, t.r22 - t.r11 - t.r33 + 1, t.r32 + t.r23, t.r13 - t.r31 ≥ 0) := by
        unfold Quat.fromTransformSelect; rw [if_neg h1, if_pos h2]
      rw [hsel]; clear hsel
      simp only
      by_cases hc : t.r13 - t.r31 ≥ 0
      · have hc' : 4 * w * y ≥ 0 := by rw [e13, e31] at hc; linarith
        obtain ⟨d1, d2⟩ := (dec hm).1 hc'
        simp only [if_pos hc]
        refine fromTransform_core hw hu d1 d2 t htr ?_ ?_ ?_
        · simp only [e12, e21, e23, e32]; ring
        · simp only [e11, e22, e33, e13, e31]; ring
        · simp only [e12, e21, e23, e32]; ring
      · have hc' : ¬ 4 * w * y ≥ 0 := by intro h; apply hc; rw [e13, e31]; linarith
        obtain ⟨d1, d2⟩ := (dec hm).2 hc'
        simp only [if_neg hc]
        refine fromTransform_core hw hu d1 d2 t htr ?_ ?_ ?_
        · simp only [e12, e21, e23, e32]; ring
        · simp only [e11, e22, e33, e13, e31]; ring
        · simp only [e12, e21, e23, e32]; ring
    · have h2' : t.r33 ≥ t.r22 := by push Not at h2; exact h2.le
      have h3 : t.r33 ≥ t.r11 := by
        by_contra hc; push Not at hc; exact h1 ⟨by linarith, hc.le⟩
      have hm : z = 0 → x = 0 ∧ y = 0 ∧ z = 0 := by
        intro hz
        have a1 : x ^ 2 ≤ 0 := by rw [e11, e33, hz] at h3; nlinarith
        have a2 : y ^ 2 ≤ 0 := by rw [e22, e33, hz] at h2'; nlinarith
        exact ⟨pow_eq_zero_iff two_ne_zero |>.1 (le_antisymm a1 (sq_nonneg _)),
          pow_eq_zero_iff two_ne_zero |>.1 (le_antisymm a2 (sq_nonneg _)), hz⟩
      have hsel : Quat.fromTransformSelect t (t.r32 - t.r23) (t.r13 - t.r31) (t.r21 - t.r12) =
          (t.r31 + t.r13, t.r32 + t.r23, t.r33 - t.r11 - t.r22 + 1, t.r21 - t.r12 ≥ 0) := by
        unfold Quat.fromTransformSelect; rw [if_neg h1, if_neg h2]
      rw [hsel]; clear hsel
      simp only
      by_cases hc : t.r21 - t.r12 ≥ 0
      · have hc' : 4 * w * z ≥ 0 := by rw [e21, e12] at hc; linarith
        obtain ⟨d1, d2⟩ := (dec hm).1 hc'
        simp only [if_pos hc]
        refine fromTransform_core hw hu d1 d2 t htr ?_ ?_ ?_
        · simp only [e13, e31, e23, e32]; ring
        · simp only [e13, e31, e23, e32]; ring
        · simp only [e11, e22, e33, e12, e21]; ring
      · have hc' : ¬ 4 * w * z ≥ 0 := by intro h; apply hc; rw [e21, e12]; linarith
        obtain ⟨d1, d2⟩ := (dec hm).2 hc'
        simp only [if_neg hc]
        refine fromTransform_core hw hu d1 d2 t htr ?_ ?_ ?_
        · simp only [e13, e31, e23, e32]; ring
        · simp only [e13, e31, e23, e32]; ring
        · simp only [e11, e22, e33, e12, e21]; ring

/-- Going from a unit quaternion to its transform and back gives the quaternion or
its opposite. -/
theorem C17_roundtrip (q : Quat) (hq : IsUnitQuat q) :
    Quat.fromTransform q.toTransform = .ok q ∨
    Quat.fromTransform q.toTransform = .ok (negQuat q) := by
  obtain ⟨p, hp, hup, -, hm⟩ := C17_fromTransform q.toTransform
    (toRotation_isRot q.w q.x q.y q.z hq)
  have : p.toRotation = q.toRotation := Rotation.mat_injective hm
  rcases (C16_double_cover p q hup hq).1 this with h | h
  · left; rw [hp, h]
  · right; rw [hp, h]

/-- Which of the two it is: the one whose scalar part is positive. -/
theorem C17_sign (q : Quat) (hq : IsUnitQuat q) :
    (0 < q.w → Quat.fromTransform q.toTransform = .ok q) ∧
    (q.w < 0 → Quat.fromTransform q.toTransform = .ok (negQuat q)) := by
  obtain ⟨p, hp, -, hw, -⟩ := C17_fromTransform q.toTransform
    (toRotation_isRot q.w q.x q.y q.z hq)
  have hr := C17_roundtrip q hq
  rw [hp] at hr ⊢
  constructor <;> intro h <;> rcases hr with e | e <;> injection e with e
  · rw [e]
  · rw [e] at hw; simp only [negQuat] at hw; linarith
  · rw [e] at hw; linarith
  · rw [e]

/-! ### C18 -/

theorem fromAngleAndAxis_ok (angle : ℝ) (n : Vec3) (hn : lenSq n = 1) :
    let q : Quat := ⟨Real.cos (0.5 * angle), n 0 * Real.sin (0.5 * angle),
      n 1 * Real.sin (0.5 * angle), n 2 * Real.sin (0.5 * angle)⟩
    Quat.fromAngleAndAxis angle (n 0) (n 1) (n 2) = .ok q ∧ IsUnitQuat q := by
  intro q
  have h := Real.sin_sq_add_cos_sq (0.5 * angle)
  simp [lenSq, dotProduct, Fin.sum_univ_three] at hn
  have hu : IsUnitQuat q := by
    unfold IsUnitQuat
    simp only [q]
    linear_combination h + Real.sin (0.5 * angle) ^ 2 * hn
  refine ⟨?_, hu⟩
  have hnorm : Quat.norm q = 1 := by
    unfold Quat.norm
    rw [show q.w ^ 2 + q.x ^ 2 + q.y ^ 2 + q.z ^ 2 = 1 by
      unfold IsUnitQuat at hu; linarith, Real.sqrt_one]
  show (Quat.normalize q).bind (fun _ => .ok q) = .ok q
  unfold Quat.normalize Quat.div
  rw [hnorm]; simp

/-- For a unit axis, quaternionFromAngleAndAxisRotation gives a unit quaternion
whose matrix is the rotation by the angle about the axis. The full claim (every
non-zero axis) is false, see `C18_axis_not_normalised`. -/
theorem C18_fromAngleAndAxis_partial (angle : ℝ) (n : Vec3) (hn : lenSq n = 1) :
    ∃ q, Quat.fromAngleAndAxis angle (n 0) (n 1) (n 2) = .ok q ∧ IsUnitQuat q ∧
      q.toRotation.mat = rodrigues n angle := by
  obtain ⟨h1, h2⟩ := fromAngleAndAxis_ok angle n hn
  refine ⟨_, h1, h2, ?_⟩
  have ha : angle = 2 * (0.5 * angle) := by ring
  have hc : Real.cos angle = 1 - 2 * Real.sin (0.5 * angle) ^ 2 := by
    conv_lhs => rw [ha, Real.cos_two_mul]
    linear_combination 2 * Real.sin_sq_add_cos_sq (0.5 * angle)
  have hs : Real.sin angle = 2 * Real.sin (0.5 * angle) * Real.cos (0.5 * angle) := by
    conv_lhs => rw [ha, Real.sin_two_mul]
  simp [lenSq, dotProduct, Fin.sum_univ_three] at hn
  rw [rodrigues, hc, hs]
  ext i j
  fin_cases i <;> fin_cases j <;>
    simp [Rotation.mat, Quat.toRotation, skew, Matrix.mul_apply, Fin.sum_univ_three] <;> ring

/-- The axis is not normalised: for the axis (2,0,0) the result is not a unit
quaternion, whatever the angle is unless the rotation is trivial. -/
theorem C18_axis_not_normalised (angle : ℝ) (h : Real.sin (0.5 * angle) ≠ 0) :
    ∃ q, Quat.fromAngleAndAxis angle 2 0 0 = .ok q ∧ ¬ IsUnitQuat q := by
  let q : Quat := ⟨Real.cos (0.5 * angle), 2 * Real.sin (0.5 * angle), 0 * Real.sin (0.5 * angle),
    0 * Real.sin (0.5 * angle)⟩
  have hsq : 0 < Real.sin (0.5 * angle) ^ 2 := by positivity
  have hnorm : Quat.norm q ≠ 0 := by
    unfold Quat.norm
    apply (Real.sqrt_pos.2 _).ne'
    simp only [q]
    nlinarith [sq_nonneg (Real.cos (0.5 * angle))]
  refine ⟨q, ?_, ?_⟩
  · show (Quat.normalize q).bind (fun _ => .ok q) = .ok q
    unfold Quat.normalize Quat.div
    simp [hnorm]
  · unfold IsUnitQuat
    simp only [q]
    have := Real.sin_sq_add_cos_sq (0.5 * angle)
    intro h
    nlinarith

/-- quaternionFromAngleAndAxisRotation throws exactly when the quaternion it
builds is zero: zero axis and a half-turn (odd multiple of π). -/
theorem C18_throws (angle ax ay az : ℝ) :
    Quat.fromAngleAndAxis angle ax ay az = .throws ↔
      ax = 0 ∧ ay = 0 ∧ az = 0 ∧ Real.cos (0.5 * angle) = 0 := by
  let q : Quat := ⟨Real.cos (0.5 * angle), ax * Real.sin (0.5 * angle),
    ay * Real.sin (0.5 * angle), az * Real.sin (0.5 * angle)⟩
  have hq : Quat.fromAngleAndAxis angle ax ay az = (Quat.normalize q).bind (fun _ => .ok q) := rfl
  have hn : Quat.norm q = 0 ↔ q.w = 0 ∧ q.x = 0 ∧ q.y = 0 ∧ q.z = 0 := by
    unfold Quat.norm
    rw [Real.sqrt_eq_zero (by positivity)]
    constructor
    · intro h
      refine ⟨?_, ?_, ?_, ?_⟩ <;> apply pow_eq_zero_iff two_ne_zero |>.1 <;>
        linarith [sq_nonneg q.w, sq_nonneg q.x, sq_nonneg q.y, sq_nonneg q.z]
    · rintro ⟨h1, h2, h3, h4⟩; rw [h1, h2, h3, h4]; ring
  have hth : Quat.fromAngleAndAxis angle ax ay az = .throws ↔ Quat.norm q = 0 := by
    rw [hq]; unfold Quat.normalize Quat.div
    split_ifs with h <;> simp [h]
  rw [hth, hn]
  simp only [q]
  constructor
  · rintro ⟨h1, h2, h3, h4⟩
    have hs : Real.sin (0.5 * angle) ≠ 0 := by
      intro hs
      have := Real.sin_sq_add_cos_sq (0.5 * angle)
      rw [hs, h1] at this; norm_num at this
    simp only [mul_eq_zero, hs, or_false] at h2 h3 h4
    exact ⟨h2, h3, h4, h1⟩
  · rintro ⟨rfl, rfl, rfl, h⟩
    exact ⟨h, by simp, by simp, by simp⟩

/-- angleAndAxisRotationFromQuaternion is exact for every unit quaternion whose
vector part has length at least 0.0005 (and for the identity): the angle is in
[0, 2π], the axis is a unit vector and the rotation by that angle about that axis
is the quaternion's. Missing from the full claim: non-unit quaternions (the
normalised copy is discarded) and shorter vector parts, where the returned axis
is not a unit vector. -/
theorem C18_toAngleAndAxis_partial (q : Quat) (hq : IsUnitQuat q)
    (hlen : 0.0005 ≤ √(1 - q.w ^ 2) ∨ q = Quat.one) :
    ∃ a p, Quat.toAngleAndAxis q = .ok (a, p) ∧ 0 ≤ a ∧ a ≤ 2 * Real.pi ∧ lenSq p.vec = 1 ∧
      rodrigues p.vec a = q.toRotation.mat := by
  have hnorm : Quat.norm q = 1 := by
    unfold Quat.norm
    rw [show q.w ^ 2 + q.x ^ 2 + q.y ^ 2 + q.z ^ 2 = 1 by
      unfold IsUnitQuat at hq; linarith, Real.sqrt_one]
  have hw1 : ¬ 1 < |q.w| := by
    unfold IsUnitQuat at hq
    rw [not_lt, abs_le_one_iff_mul_self_le_one]
    nlinarith [mul_self_nonneg q.x, mul_self_nonneg q.y, mul_self_nonneg q.z]
  have hwlo : -1 ≤ q.w := (abs_le.1 (not_lt.1 hw1)).1
  have hwhi : q.w ≤ 1 := (abs_le.1 (not_lt.1 hw1)).2
  unfold Quat.toAngleAndAxis Quat.normalize Quat.div
  rw [hnorm]
  simp only [one_ne_zero, if_false, Res.bind_ok, if_neg hw1]
  rcases hlen with hlen | rfl
  · set v := √(1 - q.w ^ 2) with hv
    have hv0 : 0 < v := by linarith
    have hv2 : v ^ 2 = 1 - q.w ^ 2 := by
      rw [hv]; apply Real.sq_sqrt; nlinarith
    have h1 : ¬ |v| < 0.0005 := by rw [abs_of_pos hv0]; exact not_lt.2 hlen
    simp only [if_neg h1]
    have hunit : (q.x / v) ^ 2 + (q.y / v) ^ 2 + (q.z / v) ^ 2 = 1 := by
      unfold IsUnitQuat at hq
      field_simp; rw [hv2]; linarith
    rw [hunit, Real.sqrt_one, if_neg (by norm_num)]
    refine ⟨_, _, rfl, ?_, ?_, ?_, ?_⟩
    · linarith [Real.arccos_nonneg q.w]
    · linarith [Real.arccos_le_pi q.w]
    · simp [lenSq, Position3D.vec, dotProduct, Fin.sum_univ_three]; linarith
    · have hc : Real.cos (2 * Real.arccos q.w) = 2 * q.w ^ 2 - 1 := by
        rw [Real.cos_two_mul, Real.cos_arccos hwlo hwhi]
      have hs : Real.sin (2 * Real.arccos q.w) = 2 * v * q.w := by
        rw [Real.sin_two_mul, Real.cos_arccos hwlo hwhi, Real.sin_arccos]
      rw [rodrigues, hc, hs]
      unfold IsUnitQuat at hq
      have k1 : 1 - (2 * q.w ^ 2 - 1) = 2 * v ^ 2 := by rw [hv2]; ring
      rw [k1]
      ext i j
      fin_cases i <;> fin_cases j <;>
        simp [Rotation.mat, Quat.toRotation, skew, Matrix.mul_apply, Fin.sum_univ_three,
          Position3D.vec] <;> field_simp <;> ring
  · norm_num [Quat.one]
    simp [lenSq, Position3D.vec, dotProduct, Fin.sum_univ_three]
    constructor
    · positivity
    · ext i j
      fin_cases i <;> fin_cases j <;>
        simp [rodrigues, Rotation.mat, Quat.toRotation]

/-- Below that length the returned axis is neither a unit vector nor the default
axis: there is a unit quaternion for which angleAndAxisRotationFromQuaternion
returns an axis that is not a unit vector. -/
theorem C18_axis_not_unit : ∃ q, IsUnitQuat q ∧ ∃ a p, Quat.toAngleAndAxis q = .ok (a, p) ∧
    lenSq p.vec ≠ 1 := by
  have hq : IsUnitQuat ⟨√(1 - 0.0003 ^ 2), 0.0003, 0, 0⟩ := by
    unfold IsUnitQuat
    simp only
    rw [Real.mul_self_sqrt (by norm_num)]; norm_num
  refine ⟨_, hq, ?_⟩
  have hnorm : Quat.norm ⟨√(1 - 0.0003 ^ 2), 0.0003, 0, 0⟩ = 1 := by
    unfold Quat.norm
    simp only
    rw [Real.sq_sqrt (by norm_num)]; norm_num
  have h1 : ¬ 1 < |√(1 - 0.0003 ^ 2 : ℝ)| := by
    rw [abs_of_nonneg (Real.sqrt_nonneg _), not_lt]
    apply Real.sqrt_le_one.2; norm_num
  have hs : √(1 - √(1 - 0.0003 ^ 2 : ℝ) ^ 2) = 0.0003 := by
    rw [Real.sq_sqrt (by norm_num)]
    rw [show (1 - (1 - 0.0003 ^ 2) : ℝ) = 0.0003 ^ 2 by ring, Real.sqrt_sq (by norm_num)]
  have hs2 : √((0.0003 / 1 : ℝ) ^ 2 + (0 / 1) ^ 2 + (0 / 1) ^ 2) = 0.0003 := by
    rw [show ((0.0003 / 1 : ℝ) ^ 2 + (0 / 1) ^ 2 + (0 / 1) ^ 2) = 0.0003 ^ 2 by ring,
      Real.sqrt_sq (by norm_num)]
  unfold Quat.toAngleAndAxis Quat.normalize Quat.div
  rw [hnorm]
  simp only [one_ne_zero, if_false, Res.bind_ok, if_neg h1, hs]
  have h2 : |(0.0003 : ℝ)| < 0.0005 := by rw [abs_of_pos] <;> norm_num
  have h3 : ¬ (0.0003 : ℝ) < 0.0001 := by norm_num
  simp only [if_pos h2, hs2, if_neg h3]
  refine ⟨_, _, rfl, ?_⟩
  simp [lenSq, Position3D.vec, dotProduct, Fin.sum_univ_three]
  norm_num

/-! ### C19 -/

/-- rotationFromAngleDirection throws exactly outside the band; on a unit
direction it is the rotation by the angle about the direction, fixes the
direction and agrees with the angle-axis quaternion. -/
theorem C19_fromAngleDirection (a : ℝ) (n : Vec3) :
    (Rotation.fromAngleDirection a (n 0) (n 1) (n 2) = .throws ↔
      lenSq n < 0.99999 ∨ 1.00001 < lenSq n) ∧
    (lenSq n = 1 → ∃ r q, Rotation.fromAngleDirection a (n 0) (n 1) (n 2) = .ok r ∧
      r.mat = rodrigues n a ∧ IsRot r.mat ∧ r.mat *ᵥ n = n ∧
      Quat.fromAngleAndAxis a (n 0) (n 1) (n 2) = .ok q ∧ q.toRotation = r) := by
  have hl : lenSq n = n 0 * n 0 + n 1 * n 1 + n 2 * n 2 := by
    simp [lenSq, dotProduct, Fin.sum_univ_three]
  constructor
  · unfold Rotation.fromAngleDirection
    rw [hl]
    simp only [gt_iff_lt]
    split_ifs with h
    · simpa using h.symm
    · simp only [reduceCtorEq, false_iff]
      intro h'; exact h h'.symm
  · intro hn
    obtain ⟨r, h1, h2, h3⟩ := C06_fromAngleDirection a (n 0) (n 1) (n 2) (by rw [← hl, hn])
    obtain ⟨q, h4, -, h5⟩ := C18_fromAngleAndAxis_partial a n hn
    rw [← vec3_eta n] at h2
    refine ⟨r, q, h1, h2, h3, ?_, h4, ?_⟩
    · rw [h2]; exact rodrigues_axis a
    · apply Rotation.mat_injective; rw [h5, h2]

/-- Just inside the band the result is not a rotation: the direction is not
normalised. -/
theorem C19_band_not_rotation : ∃ x r, Rotation.fromAngleDirection Real.pi x 0 0 = .ok r ∧
    ¬ IsRot r.mat := by
  refine ⟨1.000001, Rotation.angleDirectionMatrix Real.pi 1.000001 0 0, ?_, ?_⟩
  · unfold Rotation.fromAngleDirection; norm_num
  · unfold Rotation.angleDirectionMatrix Rotation.mat
    rw [isRot_coord]
    norm_num

/-! ### C60 -/

/-- transformFromDisplacement is a homomorphism from displacements with unit
quaternion to rigid transforms, and displacementFromTransform inverts it: exactly
on the transform side, up to the sign of the quaternion on the other. The full claim
would have the same displacement come back, which is false when the scalar part is negative,
see `C60_sign`. -/
theorem C60_displacement_partial (a b : Displacement) (ha : IsUnitQuat a.Q) (hb : IsUnitQuat b.Q) :
    IsRigid a.toTransform ∧ Displacement.one.toTransform = Transform.one ∧
    IsUnitQuat (Displacement.mul a b).Q ∧
    (Displacement.mul a b).toTransform = Transform.mul a.toTransform b.toTransform ∧
    (Displacement.fromTransform a.toTransform = .ok a ∨
     Displacement.fromTransform a.toTransform = .ok ⟨a.P, negQuat a.Q⟩) := by
  have hQ : (Displacement.mul a b).Q = Quat.mul a.Q b.Q := (C11_mulAssign.2.2.1 a.Q b.Q).1
  obtain ⟨hu, -, -, -, hmul, -, -⟩ := C16_homomorphism a.Q b.Q ha hb
  refine ⟨toRotation_isRot a.Q.w a.Q.x a.Q.y a.Q.z ha, ?_, by rw [hQ]; exact hu, ?_, ?_⟩
  · ext <;> simp [Displacement.toTransform, Displacement.one, Quat.toTransform, Quat.one,
      Transform.one, Position3D.zero]
  · have hact := (C16_act a.Q b.P).2 ha
    have hP : (Displacement.mul a b).P = ⟨a.P.x + (Rotation.act a.Q.toRotation b.P).x,
        a.P.y + (Rotation.act a.Q.toRotation b.P).y,
        a.P.z + (Rotation.act a.Q.toRotation b.P).z⟩ := by
      rw [← hact]; rfl
    simp only [Displacement.toTransform, hQ, hmul, hP]
    ext <;> simp [Transform.mul, Quat.toTransform, Rotation.act, Quat.toRotation, Transform.one] <;> ring
  · have hft : ∀ t u : Transform, t.r11 = u.r11 → t.r12 = u.r12 → t.r13 = u.r13 →
        t.r21 = u.r21 → t.r22 = u.r22 → t.r23 = u.r23 → t.r31 = u.r31 → t.r32 = u.r32 →
        t.r33 = u.r33 → Quat.fromTransform t = Quat.fromTransform u := by
      intro t u h1 h2 h3 h4 h5 h6 h7 h8 h9
      unfold Quat.fromTransform Quat.fromTransformSelect
      rw [h1, h2, h3, h4, h5, h6, h7, h8, h9]
    have hq := hft a.toTransform a.Q.toTransform rfl rfl rfl rfl rfl rfl rfl rfl rfl
    rcases C17_roundtrip a.Q ha with h | h
    · left; unfold Displacement.fromTransform; rw [hq, h]; rfl
    · right; unfold Displacement.fromTransform; rw [hq, h]; rfl

/-- A displacement comes back unchanged when the scalar part of its quaternion is positive, and
with the opposite quaternion, so not unchanged, when it is negative. -/
theorem C60_sign (a : Displacement) (ha : IsUnitQuat a.Q) :
    (0 < a.Q.w → Displacement.fromTransform a.toTransform = .ok a) ∧
    (a.Q.w < 0 → Displacement.fromTransform a.toTransform = .ok ⟨a.P, negQuat a.Q⟩ ∧
      Displacement.fromTransform a.toTransform ≠ .ok a) := by
  have hq : Quat.fromTransform a.toTransform = Quat.fromTransform a.Q.toTransform := rfl
  have hs := C17_sign a.Q ha
  unfold Displacement.fromTransform
  rw [hq]
  constructor
  · intro h; rw [hs.1 h]; rfl
  · intro h
    rw [hs.2 h]
    refine ⟨rfl, fun e => ?_⟩
    have e := congrArg (fun d => d.Q.w) (Res.ok.inj e)
    simp only [negQuat] at e
    linarith

example : ∃ a : Displacement, IsUnitQuat a.Q ∧ a.Q.w < 0 :=
  ⟨⟨⟨1, 2, 3⟩, ⟨-3 / 5, 4 / 5, 0, 0⟩⟩, by unfold IsUnitQuat; norm_num, by norm_num⟩

/-- From the transform of a rigid motion, the displacement with a unit quaternion that is converted back to it. -/
theorem C60_fromTransform (t : Transform) (ht : IsRigid t) :
    ∃ d, Displacement.fromTransform t = .ok d ∧ IsUnitQuat d.Q ∧ d.toTransform = t := by
  obtain ⟨q, hq, hu, -, hm⟩ := C17_fromTransform t ht
  refine ⟨⟨⟨t.r14, t.r24, t.r34⟩, q⟩, by unfold Displacement.fromTransform; rw [hq]; rfl, hu, ?_⟩
  have h : ∀ i j, q.toTransform.rotMat i j = t.rotMat i j := fun i j => by rw [hm]
  ext
  · exact h 0 0
  · exact h 0 1
  · exact h 0 2
  · rfl
  · exact h 1 0
  · exact h 1 1
  · exact h 1 2
  · rfl
  · exact h 2 0
  · exact h 2 1
  · exact h 2 2
  · rfl

/-! ### Non-trivial instances -/

/-- a half-turn about a diagonal axis -/
example : IsRigid ⟨0, 1, 0, 4, 1, 0, 0, 5, 0, 0, -1, 6⟩ := by
  unfold IsRigid Transform.rotMat; rw [isRot_coord]; norm_num
example : IsUnitQuat ⟨1/2, 1/2, -1/2, 1/2⟩ := by unfold IsUnitQuat; norm_num
example : lenSq ![3/5, 0, -4/5] = 1 := by
  simp [lenSq, dotProduct, Fin.sum_univ_three]; norm_num
example : (0.0005 : ℝ) ≤ √(1 - (1/2) ^ 2) := by
  apply Real.le_sqrt_of_sq_le; norm_num
example : Real.sin (0.5 * Real.pi) ≠ 0 := by
  rw [show (0.5 : ℝ) * Real.pi = Real.pi / 2 by ring, Real.sin_pi_div_two]; norm_num

end AlMath
