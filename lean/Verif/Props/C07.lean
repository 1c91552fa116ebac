import Verif.Props.C06

/-!
C07: the rotation validity check is sound and complete.
C08: normalisation always produces a proper rotation.
-/

namespace AlMath

open Spec Matrix

/-- Three non-negative numbers with sum 3 and product 1 are all 1. -/
theorem amgm3 {a b c : ℝ} (ha : 0 ≤ a) (hb : 0 ≤ b) (hc : 0 ≤ c) (hs : a + b + c = 3)
    (hp : a * b * c = 1) : a = 1 ∧ b = 1 ∧ c = 1 := by
  have hq : a * b + b * c + c * a ≤ 3 := by
    nlinarith [sq_nonneg (a - b), sq_nonneg (b - c), sq_nonneg (c - a)]
  have hc0 : 0 < c := by
    rcases hc.lt_or_eq with h | h
    · exact h
    · rw [← h] at hp; simp at hp
  have ha0 : 0 < a := by
    rcases ha.lt_or_eq with h | h
    · exact h
    · rw [← h] at hp; simp at hp
  have h1 : (a - b) ^ 2 * c + (b - c) ^ 2 * a + (c - a) ^ 2 * b =
      3 * (a * b + b * c + c * a) - 9 * (a * b * c) := by
    linear_combination (a * b + b * c + c * a) * hs
  rw [hp] at h1
  have n1 : 0 ≤ (a - b) ^ 2 * c := by positivity
  have n2 : 0 ≤ (b - c) ^ 2 * a := by positivity
  have n3 : 0 ≤ (c - a) ^ 2 * b := by positivity
  have e1 : (a - b) ^ 2 * c = 0 := by linarith
  have e2 : (b - c) ^ 2 * a = 0 := by linarith
  have hab : a = b := by
    rcases mul_eq_zero.1 e1 with h | h
    · exact sub_eq_zero.1 (pow_eq_zero_iff two_ne_zero |>.1 h)
    · exact absurd h hc0.ne'
  have hbc : b = c := by
    rcases mul_eq_zero.1 e2 with h | h
    · exact sub_eq_zero.1 (pow_eq_zero_iff two_ne_zero |>.1 h)
    · exact absurd h ha0.ne'
  subst hab; subst hbc
  exact ⟨by linarith, by linarith, by linarith⟩

/-- With tolerance zero the check accepts exactly the proper rotations. -/
theorem C07_isRotation_zero (r : Rotation) : Rotation.isRotation r 0 ↔ IsRot r.mat := by
  obtain ⟨a, b, c, d, e, f, g, h, i⟩ := r
  simp only [Rotation.isRotation, Rotation.determinant, not_lt, abs_nonpos_iff, gt_iff_lt]
  constructor
  · rintro ⟨h1, h2, h3, h4, h5, h6, h7⟩
    have key : (a * a + d * d + g * g) * (b * b + e * e + h * h) * (c * c + f * f + i * i) = 1 := by
      have hd : a * e * i + b * f * g + c * d * h - a * f * h - b * d * i - c * e * g = 1 := by
        linarith
      have hgram : (a * a + d * d + g * g) * (b * b + e * e + h * h) * (c * c + f * f + i * i)
          + 2 * (b * a + e * d + h * g) * (c * a + f * d + i * g) * (c * b + f * e + i * h)
          - (a * a + d * d + g * g) * (c * b + f * e + i * h) ^ 2
          - (b * b + e * e + h * h) * (c * a + f * d + i * g) ^ 2
          - (c * c + f * f + i * i) * (b * a + e * d + h * g) ^ 2
          = (a * e * i + b * f * g + c * d * h - a * f * h - b * d * i - c * e * g) ^ 2 := by
        ring
      rw [h1, h2, h3, hd] at hgram
      linarith
    obtain ⟨k1, k2, k3⟩ := amgm3 (by nlinarith [mul_self_nonneg a, mul_self_nonneg d, mul_self_nonneg g])
      (by nlinarith [mul_self_nonneg b, mul_self_nonneg e, mul_self_nonneg h])
      (by nlinarith [mul_self_nonneg c, mul_self_nonneg f, mul_self_nonneg i])
      (by linarith) key
    show IsRot !![a, b, c; d, e, f; g, h, i]
    rw [isRot_coord]
    exact ⟨⟨k1, k2, k3, by linarith, by linarith, by linarith⟩, by linarith⟩
  · intro hR
    have q := Rotation.eqs hR
    exact ⟨by linarith [q.c12], by linarith [q.c13], by linarith [q.c23], by linarith [q.r11],
      by linarith [q.r22], by linarith [q.r33], by linarith [q.det]⟩

theorem isRotation_mono (r : Rotation) {e f : ℝ} (h : e ≤ f) (hr : Rotation.isRotation r e) :
    Rotation.isRotation r f := by
  unfold Rotation.isRotation at *
  simp only [not_lt, gt_iff_lt] at *
  obtain ⟨h1, h2, h3, h4, h5, h6, h7⟩ := hr
  exact ⟨h1.trans h, h2.trans h, h3.trans h, h4.trans h, h5.trans h, h6.trans h, h7.trans h⟩

/-- Every proper rotation passes under every non-negative tolerance; no matrix
passes under a negative one; the check is monotone in the tolerance. -/
theorem C07_isRotation_complete (r : Rotation) :
    (IsRot r.mat → ∀ eps, 0 ≤ eps → Rotation.isRotation r eps) ∧
    (∀ eps, eps < 0 → ¬ Rotation.isRotation r eps) ∧
    (∀ e f, e ≤ f → Rotation.isRotation r e → Rotation.isRotation r f) := by
  refine ⟨fun h eps he => isRotation_mono r he ((C07_isRotation_zero r).2 h), ?_,
    fun e f h => isRotation_mono r h⟩
  intro eps he h
  exact h.1 (he.trans_le (abs_nonneg _))

/-- A matrix passing the check is close to a rotation in the sense that every
entry of `RᵀR - 1` off the diagonal and every row norm is within the tolerance;
in particular a determinant error is excluded: reflections never pass with a
tolerance below 2. -/
theorem C07_reflection_rejected (r : Rotation) (eps : ℝ) (heps : eps < 2)
    (hdet : r.mat.det = -1) : ¬ Rotation.isRotation r eps := by
  intro h
  have hd := h.2.2.2.2.2.2
  apply hd
  have : Rotation.determinant r = r.mat.det := by
    rw [Matrix.det_fin_three]
    simp [Rotation.determinant, Rotation.mat]; ring
  rw [this, hdet]
  norm_num
  exact heps

/-- isTransform is the same check on the rotation part. -/
theorem C07_isTransform (t : Transform) (eps : ℝ) :
    (Transform.isTransform t eps ↔ Rotation.isRotation (rotationFromTransform t) eps) ∧
    (Transform.isTransform t 0 ↔ IsRigid t) ∧
    (IsRigid t → 0 ≤ eps → Transform.isTransform t eps) := by
  refine ⟨Iff.rfl, C07_isRotation_zero (rotationFromTransform t), fun h he => ?_⟩
  exact (C07_isRotation_complete (rotationFromTransform t)).1 h eps he

/-! ### C08 -/

theorem normalizeRotation_isRot (r : Rotation) : IsRot (Rotation.normalizeRotation r).mat := by
  have hone : IsRot Rotation.one.mat := by
    unfold Rotation.one Rotation.mat; rw [isRot_coord]; norm_num
  unfold Rotation.normalizeRotation
  simp only
  split_ifs with h1 h2
  · exact hone
  · exact hone
  · set n := √(r.r13 ^ 2 + r.r23 ^ 2 + r.r33 ^ 2) with hn
    have hn0 : 0 < n := by linarith [not_lt.1 h1]
    have hn2 : n ^ 2 = r.r13 ^ 2 + r.r23 ^ 2 + r.r33 ^ 2 := Real.sq_sqrt (by positivity)
    have hc : (r.r13 / n) ^ 2 + (r.r23 / n) ^ 2 + (r.r33 / n) ^ 2 = 1 := by
      field_simp; exact hn2.symm
    generalize r.r13 / n = c at *
    generalize r.r23 / n = f at *
    generalize r.r33 / n = i at *
    set m := √((r.r22 * i - r.r32 * f) ^ 2 + (r.r32 * c - r.r12 * i) ^ 2 +
      (r.r12 * f - r.r22 * c) ^ 2) with hm
    have hm0 : 0 < m := by linarith [not_lt.1 h2]
    have hm2 : m ^ 2 = (r.r22 * i - r.r32 * f) ^ 2 + (r.r32 * c - r.r12 * i) ^ 2 +
      (r.r12 * f - r.r22 * c) ^ 2 := Real.sq_sqrt (by positivity)
    have ho : (r.r22 * i - r.r32 * f) / m * c + (r.r32 * c - r.r12 * i) / m * f +
        (r.r12 * f - r.r22 * c) / m * i = 0 := by
      field_simp; ring
    have hu : ((r.r22 * i - r.r32 * f) / m) ^ 2 + ((r.r32 * c - r.r12 * i) / m) ^ 2 +
        ((r.r12 * f - r.r22 * c) / m) ^ 2 = 1 := by
      field_simp; linear_combination -hm2
    generalize (r.r22 * i - r.r32 * f) / m = a at *
    generalize (r.r32 * c - r.r12 * i) / m = d at *
    generalize (r.r12 * f - r.r22 * c) / m = g at *
    unfold Rotation.mat
    rw [isRot_coord]
    simp only
    refine ⟨⟨by linarith, ?_, by linarith, by ring, by linarith, by ring⟩, ?_⟩
    · linear_combination hu * (c ^ 2 + f ^ 2 + i ^ 2) + hc - (a * c + d * f + g * i) * ho
    · linear_combination hu * (c ^ 2 + f ^ 2 + i ^ 2) + hc - (a * c + d * f + g * i) * ho

theorem normalizeRotation_fix (r : Rotation) (h : IsRot r.mat) :
    Rotation.normalizeRotation r = r := by
  have q := Rotation.eqs h
  have h1 : √(r.r13 ^ 2 + r.r23 ^ 2 + r.r33 ^ 2) = 1 := by
    rw [show r.r13 ^ 2 + r.r23 ^ 2 + r.r33 ^ 2 = 1 by linarith [q.c33], Real.sqrt_one]
  unfold Rotation.normalizeRotation
  simp only [h1, div_one]
  have e1 : r.r22 * r.r33 - r.r32 * r.r23 = r.r11 := by linarith [q.ka]
  have e2 : r.r32 * r.r13 - r.r12 * r.r33 = r.r21 := by linarith [q.kd]
  have e3 : r.r12 * r.r23 - r.r22 * r.r13 = r.r31 := by linarith [q.kg]
  rw [e1, e2, e3]
  have h2 : √(r.r11 ^ 2 + r.r21 ^ 2 + r.r31 ^ 2) = 1 := by
    rw [show r.r11 ^ 2 + r.r21 ^ 2 + r.r31 ^ 2 = 1 by linarith [q.c11], Real.sqrt_one]
  rw [h2]
  norm_num
  ext <;> simp only
  · linarith [q.kb]
  · linarith [q.ke]
  · linarith [q.kh]

/-- normalizeRotation yields a proper rotation for every input, fixes proper
rotations and is idempotent. -/
theorem C08_normalizeRotation (r : Rotation) :
    IsRot (Rotation.normalizeRotation r).mat ∧
    (IsRot r.mat → Rotation.normalizeRotation r = r) ∧
    Rotation.normalizeRotation (Rotation.normalizeRotation r) = Rotation.normalizeRotation r :=
  ⟨normalizeRotation_isRot r, normalizeRotation_fix r,
    normalizeRotation_fix _ (normalizeRotation_isRot r)⟩

/-- Away from the degenerate cases the third column keeps its direction and the
second column stays in the half plane spanned by the original second and third
columns (Gram-Schmidt on columns 3, 2). -/
theorem C08_direction (r : Rotation)
    (h3 : ¬ √(r.r13 ^ 2 + r.r23 ^ 2 + r.r33 ^ 2) < 0.0001)
    (h2 : ¬ √((r.r22 * r.r33 - r.r32 * r.r23) ^ 2 + (r.r32 * r.r13 - r.r12 * r.r33) ^ 2
              + (r.r12 * r.r23 - r.r22 * r.r13) ^ 2) <
            0.0001 * √(r.r13 ^ 2 + r.r23 ^ 2 + r.r33 ^ 2)) :
    ∃ k > 0, ∃ l > 0, ∃ m : ℝ,
      let s := Rotation.normalizeRotation r
      (s.r13 = k * r.r13 ∧ s.r23 = k * r.r23 ∧ s.r33 = k * r.r33) ∧
      (s.r12 = l * r.r12 + m * r.r13 ∧ s.r22 = l * r.r22 + m * r.r23 ∧
        s.r32 = l * r.r32 + m * r.r33) := by
  set n := √(r.r13 ^ 2 + r.r23 ^ 2 + r.r33 ^ 2) with hn
  have hn0 : 0 < n := by linarith [not_lt.1 h3]
  have hn2 : n ^ 2 = r.r13 ^ 2 + r.r23 ^ 2 + r.r33 ^ 2 := Real.sq_sqrt (by positivity)
  set w := √((r.r22 * r.r33 - r.r32 * r.r23) ^ 2 + (r.r32 * r.r13 - r.r12 * r.r33) ^ 2
              + (r.r12 * r.r23 - r.r22 * r.r13) ^ 2) with hw
  have hw0 : 0 < w := lt_of_lt_of_le (by positivity) (not_lt.1 h2)
  have hm : √((r.r22 * (r.r33 / n) - r.r32 * (r.r23 / n)) ^ 2 +
      (r.r32 * (r.r13 / n) - r.r12 * (r.r33 / n)) ^ 2 +
      (r.r12 * (r.r23 / n) - r.r22 * (r.r13 / n)) ^ 2) = w / n := by
    rw [hw]
    rw [eq_div_iff hn0.ne']
    rw [show n = √(n ^ 2) from (Real.sqrt_sq hn0.le).symm, ← Real.sqrt_mul (by positivity)]
    congr 1
    rw [Real.sqrt_sq hn0.le]
    field_simp
  have hmge : ¬ w / n < 0.0001 := by
    rw [div_lt_iff₀ hn0]; exact h2
  have hval : Rotation.normalizeRotation r =
      { r11 := (r.r22 * (r.r33 / n) - r.r32 * (r.r23 / n)) / (w / n)
        r21 := (r.r32 * (r.r13 / n) - r.r12 * (r.r33 / n)) / (w / n)
        r31 := (r.r12 * (r.r23 / n) - r.r22 * (r.r13 / n)) / (w / n)
        r13 := r.r13 / n
        r23 := r.r23 / n
        r33 := r.r33 / n
        r12 := r.r23 / n * ((r.r12 * (r.r23 / n) - r.r22 * (r.r13 / n)) / (w / n)) -
          r.r33 / n * ((r.r32 * (r.r13 / n) - r.r12 * (r.r33 / n)) / (w / n))
        r22 := r.r33 / n * ((r.r22 * (r.r33 / n) - r.r32 * (r.r23 / n)) / (w / n)) -
          r.r13 / n * ((r.r12 * (r.r23 / n) - r.r22 * (r.r13 / n)) / (w / n))
        r32 := r.r13 / n * ((r.r32 * (r.r13 / n) - r.r12 * (r.r33 / n)) / (w / n)) -
          r.r23 / n * ((r.r22 * (r.r33 / n) - r.r32 * (r.r23 / n)) / (w / n)) } := by
    unfold Rotation.normalizeRotation
    simp only [← hn, if_neg h3, hm, if_neg hmge]
  refine ⟨1 / n, by positivity, n / w, by positivity,
    -(r.r12 * r.r13 + r.r22 * r.r23 + r.r32 * r.r33) / (w * n), ?_⟩
  simp only [hval]
  refine ⟨⟨by ring, by ring, by ring⟩, ?_, ?_, ?_⟩
  · field_simp; linear_combination (-r.r12) * hn2
  · field_simp; linear_combination (-r.r22) * hn2
  · field_simp; linear_combination (-r.r32) * hn2

/-- normalizeTransform does the same to the rotation part and keeps the
translation. -/
theorem C08_normalizeTransform (t : Transform) :
    IsRigid (Transform.normalizeTransform t) ∧
    (Transform.normalizeTransform t).trans = t.trans ∧
    (IsRigid t → Transform.normalizeTransform t = t) ∧
    Transform.normalizeTransform (Transform.normalizeTransform t) =
      Transform.normalizeTransform t := by
  have key : ∀ t, rotationFromTransform (Transform.normalizeTransform t) =
      Rotation.normalizeRotation (rotationFromTransform t) := by
    intro t
    unfold Transform.normalizeTransform Rotation.normalizeRotation rotationFromTransform
    simp only
    split_ifs <;> rfl
  have htr : ∀ t, (Transform.normalizeTransform t).trans = t.trans := by
    intro t
    simp only [Transform.normalizeTransform, Transform.trans]
    split_ifs <;> rfl
  have hfix : ∀ t, IsRigid t → Transform.normalizeTransform t = t := by
    intro t h
    have k := key t
    rw [normalizeRotation_fix (rotationFromTransform t) h] at k
    have k2 := htr t
    have t0 := congrFun k2 0
    have t1 := congrFun k2 1
    have t2 := congrFun k2 2
    simp [Transform.trans] at t0 t1 t2
    simp only [rotationFromTransform, Rotation.mk.injEq] at k
    obtain ⟨h1, h2, h3, h4, h5, h6, h7, h8, h9⟩ := k
    ext <;> assumption
  have hrig : ∀ t, IsRigid (Transform.normalizeTransform t) := by
    intro t
    show IsRot (rotationFromTransform (Transform.normalizeTransform t)).mat
    rw [key]
    exact normalizeRotation_isRot _
  exact ⟨hrig t, htr t, hfix t, hfix _ (hrig t)⟩

/-- A transform read from any vector of 12 or 16 numbers passes the validity
check it is built with; if the numbers already were within tolerance they are
taken unchanged, otherwise the rotation part is exactly a rotation. -/
theorem C08_ofVector_valid (l : List ℝ) :
    ∃ t, Transform.ofVector l = .ok t ∧ Transform.isTransform t Transform.defaultEps := by
  have hchk : ∀ t, Transform.isTransform (Transform.checked t) Transform.defaultEps := by
    intro t
    unfold Transform.checked
    split_ifs with h
    · exact h
    · exact (C07_isTransform _ _).2.2 (C08_normalizeTransform t).1 (by norm_num [Transform.defaultEps])
  by_cases h : l.length = 12 ∨ l.length = 16
  · rcases h with h | h
    · match l, h with
      | [a, b, c, x, d, e, f, y, g, h, i, z], _ =>
        exact ⟨_, by simp [Transform.ofVector]; rfl, hchk _⟩
    · match l, h with
      | [a, b, c, x, d, e, f, y, g, h, i, z, x1, x2, x3, x4], _ =>
        exact ⟨_, by simp [Transform.ofVector]; rfl, hchk _⟩
  · refine ⟨Transform.one, by simp [Transform.ofVector, h, Transform.one], ?_⟩
    apply (C07_isTransform _ _).2.2 _ (by norm_num [Transform.defaultEps])
    unfold IsRigid Transform.rotMat Transform.one; rw [isRot_coord]; norm_num

/-- C01, exactly: reading back the vector of a transform gives the same transform if and only if its
rotation part passes the check with the default tolerance; otherwise it gives the normalised
transform. -/
theorem C01_Transform_exact (t : Transform) :
    (Transform.ofVector t.toVector = .ok t ↔ Transform.isTransform t Transform.defaultEps) ∧
    (¬ Transform.isTransform t Transform.defaultEps →
      Transform.ofVector t.toVector = .ok (Transform.normalizeTransform t)) := by
  have h : Transform.ofVector t.toVector = .ok (Transform.checked t) := by
    simp [Transform.ofVector, Transform.toVector]
  rw [h]
  unfold Transform.checked
  split_ifs with hc
  · simp [hc]
  · refine ⟨⟨fun e => ?_, fun e => absurd e hc⟩, fun _ => rfl⟩
    have e' : Transform.normalizeTransform t = t := by simpa using e
    have hr := (C08_normalizeTransform t).1
    rw [e'] at hr
    exact (C07_isTransform t _).2.2 hr (by norm_num [Transform.defaultEps])

/-- C01 fails for transforms that are not rigid: the one that doubles lengths is read back as the
identity. -/
theorem C01_Transform_changed : ∃ t : Transform, t ≠ Transform.one ∧
    Transform.ofVector t.toVector = .ok Transform.one := by
  refine ⟨⟨2, 0, 0, 0, 0, 2, 0, 0, 0, 0, 2, 0⟩, fun h => ?_, ?_⟩
  · have := congrArg Transform.r11 h
    norm_num [Transform.one] at this
  · have hc : ¬ Transform.isTransform ⟨2, 0, 0, 0, 0, 2, 0, 0, 0, 0, 2, 0⟩ Transform.defaultEps := by
      norm_num [Transform.isTransform, Transform.defaultEps]
    rw [(C01_Transform_exact _).2 hc]
    obtain ⟨hr, ht, -, -⟩ := C08_normalizeTransform ⟨2, 0, 0, 0, 0, 2, 0, 0, 0, 0, 2, 0⟩
    have h4 : √(4 : ℝ) = 2 := by
      rw [show (4 : ℝ) = 2 ^ 2 by norm_num]; exact Real.sqrt_sq (by norm_num)
    have h1 : √((0 : ℝ) ^ 2 + 0 ^ 2 + 2 ^ 2) = 2 := by norm_num [h4]
    have h2 : √((2 : ℝ) ^ 2 + 0 ^ 2 + 0 ^ 2) = 2 := by norm_num [h4]
    congr 1
    unfold Transform.normalizeTransform
    simp only [h1]
    norm_num [Transform.one, h4]

/-! ### Non-trivial instances -/

example : IsRot (Rotation.mat ⟨0, 0, 1, 1, 0, 0, 0, 1, 0⟩) := by
  unfold Rotation.mat; rw [isRot_coord]; norm_num
/-- a singular matrix is repaired to a rotation -/
example : IsRot (Rotation.normalizeRotation ⟨0, 0, 0, 0, 0, 0, 0, 0, 0⟩).mat :=
  (C08_normalizeRotation _).1
/-- hypotheses of `C08_direction` are met by a scaled identity -/
example : ¬ √((0:ℝ) ^ 2 + 0 ^ 2 + 2 ^ 2) < 0.0001 := by
  rw [show (0:ℝ) ^ 2 + 0 ^ 2 + 2 ^ 2 = 2 ^ 2 by ring, Real.sqrt_sq (by norm_num)]; norm_num

end AlMath
