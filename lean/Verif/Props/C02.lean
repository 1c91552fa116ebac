import Verif.Props.C01

/-!
C02: division by a scalar and normalisation.
-/

namespace AlMath

/-- Specification of `operator/` and `operator/=`: throws exactly on zero,
otherwise the result times the scalar is the original, and dividing a multiple
gives the original back. -/
structure ScalarDivision {α : Type} (smul : α → ℝ → α) (div divAssign : α → ℝ → Res α) :
    Prop where
  throws_iff : ∀ a v, div a v = .throws ↔ v = 0
  cancel : ∀ a v, v ≠ 0 → ∃ b, div a v = .ok b ∧ smul b v = a
  undo : ∀ a v, v ≠ 0 → div (smul a v) v = .ok a
  assign : ∀ a v, divAssign a v = div a v

/-- Specification of `norm` and `normalize`, relative to the flat vector of the
value: the norm is the Euclidean norm; `normalize` throws exactly when the norm is
zero, i.e. exactly on the zero vector; otherwise it returns a value of norm one of
which the input is a positive multiple. -/
structure Normalisation {α : Type} (toV : α → List ℝ) (smul : α → ℝ → α) (norm : α → ℝ)
    (normalize : α → Res α) : Prop where
  norm_nonneg : ∀ a, 0 ≤ norm a
  norm_sq : ∀ a, norm a ^ 2 = ((toV a).map (· ^ 2)).sum
  norm_zero : ∀ a, norm a = 0 ↔ ∀ v ∈ toV a, v = 0
  throws_iff : ∀ a, normalize a = .throws ↔ norm a = 0
  unit : ∀ a, norm a ≠ 0 → ∃ b, normalize a = .ok b ∧ norm b = 1 ∧ smul b (norm a) = a

theorem C02_Position2D_div : ScalarDivision Position2D.smul Position2D.div Position2D.divAssign where
  throws_iff a v := by by_cases h : v = 0 <;> simp [Position2D.div, h]
  cancel a v h := by
    refine ⟨_, by simp only [Position2D.div, h, if_false]; rfl, ?_⟩
    ext <;> simp [Position2D.smul] <;> field_simp
  undo a v h := by
    simp only [Position2D.div, h, if_false, Position2D.smul]
    congr 1
    ext <;> simp <;> field_simp
  assign a v := by simp [Position2D.divAssign, Position2D.div, Position2D.smulAssign, Position2D.smul]

theorem C02_Position3D_div : ScalarDivision Position3D.smul Position3D.div Position3D.divAssign where
  throws_iff a v := by by_cases h : v = 0 <;> simp [Position3D.div, h]
  cancel a v h := by
    refine ⟨_, by simp only [Position3D.div, h, if_false]; rfl, ?_⟩
    ext <;> simp [Position3D.smul] <;> field_simp
  undo a v h := by
    simp only [Position3D.div, h, if_false, Position3D.smul]
    congr 1
    ext <;> simp <;> field_simp
  assign a v := by simp [Position3D.divAssign, Position3D.div, Position3D.smulAssign, Position3D.smul]

theorem C02_Position6D_div : ScalarDivision Position6D.smul Position6D.div Position6D.divAssign where
  throws_iff a v := by by_cases h : v = 0 <;> simp [Position6D.div, h]
  cancel a v h := by
    refine ⟨_, by simp only [Position6D.div, h, if_false]; rfl, ?_⟩
    ext <;> simp [Position6D.smul] <;> field_simp
  undo a v h := by
    simp only [Position6D.div, h, if_false, Position6D.smul]
    congr 1
    ext <;> simp <;> field_simp
  assign a v := by simp [Position6D.divAssign, Position6D.div, Position6D.smulAssign, Position6D.smul]

theorem C02_Velocity3D_div : ScalarDivision Velocity3D.smul Velocity3D.div Velocity3D.divAssign where
  throws_iff a v := by by_cases h : v = 0 <;> simp [Velocity3D.div, h]
  cancel a v h := by
    refine ⟨_, by simp only [Velocity3D.div, h, if_false]; rfl, ?_⟩
    ext <;> simp [Velocity3D.smul] <;> field_simp
  undo a v h := by
    simp only [Velocity3D.div, h, if_false, Velocity3D.smul]
    congr 1
    ext <;> simp <;> field_simp
  assign a v := by simp [Velocity3D.divAssign, Velocity3D.div, Velocity3D.smulAssign, Velocity3D.smul]

theorem C02_Velocity6D_div : ScalarDivision Velocity6D.smul Velocity6D.div Velocity6D.divAssign where
  throws_iff a v := by by_cases h : v = 0 <;> simp [Velocity6D.div, h]
  cancel a v h := by
    refine ⟨_, by simp only [Velocity6D.div, h, if_false]; rfl, ?_⟩
    ext <;> simp [Velocity6D.smul] <;> field_simp
  undo a v h := by
    simp only [Velocity6D.div, h, if_false, Velocity6D.smul]
    congr 1
    ext <;> simp <;> field_simp
  assign a v := by simp [Velocity6D.divAssign, Velocity6D.div, Velocity6D.smulAssign, Velocity6D.smul]

theorem C02_Quaternion_div : ScalarDivision Quat.smul Quat.div Quat.divAssign where
  throws_iff a v := by by_cases h : v = 0 <;> simp [Quat.div, h]
  cancel a v h := by
    refine ⟨_, by simp only [Quat.div, h, if_false]; rfl, ?_⟩
    ext <;> simp [Quat.smul] <;> field_simp
  undo a v h := by
    simp only [Quat.div, h, if_false, Quat.smul]
    congr 1
    ext <;> simp <;> field_simp
  assign a v := by simp [Quat.divAssign, Quat.div, Quat.smulAssign, Quat.smul]

theorem C02_Rotation3D_div : ScalarDivision Rotation3D.smul Rotation3D.div Rotation3D.divAssign where
  throws_iff a v := by by_cases h : v = 0 <;> simp [Rotation3D.div, h]
  cancel a v h := by
    refine ⟨_, by simp only [Rotation3D.div, h, if_false]; rfl, ?_⟩
    ext <;> simp [Rotation3D.smul] <;> field_simp
  undo a v h := by
    simp only [Rotation3D.div, h, if_false, Rotation3D.smul]
    congr 1
    ext <;> simp <;> field_simp
  assign a v := by simp [Rotation3D.divAssign, Rotation3D.div, Rotation3D.smulAssign, Rotation3D.smul]

theorem C02_Pose2D_div : ScalarDivision Pose2D.smul Pose2D.div Pose2D.divAssign where
  throws_iff a v := by by_cases h : v = 0 <;> simp [Pose2D.div, h]
  cancel a v h := by
    refine ⟨_, by simp only [Pose2D.div, h, if_false]; rfl, ?_⟩
    ext <;> simp [Pose2D.smul] <;> field_simp
  undo a v h := by
    simp only [Pose2D.div, h, if_false, Pose2D.smul]
    congr 1
    ext <;> simp <;> field_simp
  assign a v := by simp [Pose2D.divAssign, Pose2D.div, Pose2D.smulAssign, Pose2D.smul]

theorem C02_Position2D_normalize :
    Normalisation Position2D.toVector Position2D.smul Position2D.norm Position2D.normalize := by
  have hnn : ∀ a : Position2D, 0 ≤ a.x * a.x + a.y * a.y := fun a => by
    linarith [mul_self_nonneg a.x, mul_self_nonneg a.y]
  have hsq : ∀ a : Position2D, Position2D.norm a ^ 2 = a.x * a.x + a.y * a.y := fun a => by
    rw [Position2D.norm, Real.sq_sqrt (hnn a)]
  have h0 : ∀ a : Position2D, 0 ≤ Position2D.norm a := fun a => Real.sqrt_nonneg _
  refine ⟨h0, ?_, ?_, ?_, ?_⟩
  · intro a; rw [hsq]; simp [Position2D.toVector]; ring
  · intro a
    constructor
    · intro h
      have h2 := hsq a
      rw [h] at h2
      have h0 := mul_self_nonneg a.x
      have h1 := mul_self_nonneg a.y
      have hz : a.x = 0 ∧ a.y = 0 := by
        have z0 : a.x = 0 := by apply mul_self_eq_zero.1; linarith
        have z1 : a.y = 0 := by apply mul_self_eq_zero.1; linarith
        exact ⟨z0, z1⟩
      simpa [Position2D.toVector] using hz
    · intro h
      have : a.x = 0 ∧ a.y = 0 := by simpa [Position2D.toVector] using h
      simp [Position2D.norm, this]
  · intro a
    by_cases h : Position2D.norm a = 0 <;> simp [Position2D.normalize, Position2D.div, h]
  · intro a h
    obtain ⟨b, hb, hs⟩ := C02_Position2D_div.cancel a _ h
    refine ⟨b, by simp [Position2D.normalize, h, hb], ?_, hs⟩
    have hpos : 0 < Position2D.norm a := lt_of_le_of_ne (h0 a) (Ne.symm h)
    have key : Position2D.norm b ^ 2 * Position2D.norm a ^ 2 = Position2D.norm a ^ 2 := by
      have e0 : b.x * Position2D.norm a = a.x := congrArg Position2D.x hs
      have e1 : b.y * Position2D.norm a = a.y := congrArg Position2D.y hs
      linear_combination Position2D.norm a ^ 2 * hsq b - hsq a
        + (b.x * Position2D.norm a + a.x) * e0
        + (b.y * Position2D.norm a + a.y) * e1
    have : Position2D.norm b ^ 2 = 1 := by
      have h2 : Position2D.norm a ^ 2 ≠ 0 := by positivity
      exact mul_right_cancel₀ h2 (by rw [key, one_mul])
    nlinarith [h0 b]

theorem C02_Position3D_normalize :
    Normalisation Position3D.toVector Position3D.smul Position3D.norm Position3D.normalize := by
  have hnn : ∀ a : Position3D, 0 ≤ a.x * a.x + a.y * a.y + a.z * a.z := fun a => by
    linarith [mul_self_nonneg a.x, mul_self_nonneg a.y, mul_self_nonneg a.z]
  have hsq : ∀ a : Position3D, Position3D.norm a ^ 2 = a.x * a.x + a.y * a.y + a.z * a.z := fun a => by
    rw [Position3D.norm, Real.sq_sqrt (hnn a)]
  have h0 : ∀ a : Position3D, 0 ≤ Position3D.norm a := fun a => Real.sqrt_nonneg _
  refine ⟨h0, ?_, ?_, ?_, ?_⟩
  · intro a; rw [hsq]; simp [Position3D.toVector]; ring
  · intro a
    constructor
    · intro h
      have h2 := hsq a
      rw [h] at h2
      have h0 := mul_self_nonneg a.x
      have h1 := mul_self_nonneg a.y
      have h2 := mul_self_nonneg a.z
      have hz : a.x = 0 ∧ a.y = 0 ∧ a.z = 0 := by
        have z0 : a.x = 0 := by apply mul_self_eq_zero.1; linarith
        have z1 : a.y = 0 := by apply mul_self_eq_zero.1; linarith
        have z2 : a.z = 0 := by apply mul_self_eq_zero.1; linarith
        exact ⟨z0, z1, z2⟩
      simpa [Position3D.toVector] using hz
    · intro h
      have : a.x = 0 ∧ a.y = 0 ∧ a.z = 0 := by simpa [Position3D.toVector] using h
      simp [Position3D.norm, this]
  · intro a
    by_cases h : Position3D.norm a = 0 <;> simp [Position3D.normalize, Position3D.div, h]
  · intro a h
    obtain ⟨b, hb, hs⟩ := C02_Position3D_div.cancel a _ h
    refine ⟨b, by simp [Position3D.normalize, h, hb], ?_, hs⟩
    have hpos : 0 < Position3D.norm a := lt_of_le_of_ne (h0 a) (Ne.symm h)
    have key : Position3D.norm b ^ 2 * Position3D.norm a ^ 2 = Position3D.norm a ^ 2 := by
      have e0 : b.x * Position3D.norm a = a.x := congrArg Position3D.x hs
      have e1 : b.y * Position3D.norm a = a.y := congrArg Position3D.y hs
      have e2 : b.z * Position3D.norm a = a.z := congrArg Position3D.z hs
      linear_combination Position3D.norm a ^ 2 * hsq b - hsq a
        + (b.x * Position3D.norm a + a.x) * e0
        + (b.y * Position3D.norm a + a.y) * e1
        + (b.z * Position3D.norm a + a.z) * e2
    have : Position3D.norm b ^ 2 = 1 := by
      have h2 : Position3D.norm a ^ 2 ≠ 0 := by positivity
      exact mul_right_cancel₀ h2 (by rw [key, one_mul])
    nlinarith [h0 b]

theorem C02_Position6D_normalize :
    Normalisation Position6D.toVector Position6D.smul Position6D.norm Position6D.normalize := by
  have hnn : ∀ a : Position6D, 0 ≤ a.x * a.x + a.y * a.y + a.z * a.z + a.wx * a.wx + a.wy * a.wy + a.wz * a.wz := fun a => by
    linarith [mul_self_nonneg a.x, mul_self_nonneg a.y, mul_self_nonneg a.z, mul_self_nonneg a.wx, mul_self_nonneg a.wy, mul_self_nonneg a.wz]
  have hsq : ∀ a : Position6D, Position6D.norm a ^ 2 = a.x * a.x + a.y * a.y + a.z * a.z + a.wx * a.wx + a.wy * a.wy + a.wz * a.wz := fun a => by
    rw [Position6D.norm, Real.sq_sqrt (hnn a)]
  have h0 : ∀ a : Position6D, 0 ≤ Position6D.norm a := fun a => Real.sqrt_nonneg _
  refine ⟨h0, ?_, ?_, ?_, ?_⟩
  · intro a; rw [hsq]; simp [Position6D.toVector]; ring
  · intro a
    constructor
    · intro h
      have h2 := hsq a
      rw [h] at h2
      have h0 := mul_self_nonneg a.x
      have h1 := mul_self_nonneg a.y
      have h2 := mul_self_nonneg a.z
      have h3 := mul_self_nonneg a.wx
      have h4 := mul_self_nonneg a.wy
      have h5 := mul_self_nonneg a.wz
      have hz : a.x = 0 ∧ a.y = 0 ∧ a.z = 0 ∧ a.wx = 0 ∧ a.wy = 0 ∧ a.wz = 0 := by
        have z0 : a.x = 0 := by apply mul_self_eq_zero.1; linarith
        have z1 : a.y = 0 := by apply mul_self_eq_zero.1; linarith
        have z2 : a.z = 0 := by apply mul_self_eq_zero.1; linarith
        have z3 : a.wx = 0 := by apply mul_self_eq_zero.1; linarith
        have z4 : a.wy = 0 := by apply mul_self_eq_zero.1; linarith
        have z5 : a.wz = 0 := by apply mul_self_eq_zero.1; linarith
        exact ⟨z0, z1, z2, z3, z4, z5⟩
      simpa [Position6D.toVector] using hz
    · intro h
      have : a.x = 0 ∧ a.y = 0 ∧ a.z = 0 ∧ a.wx = 0 ∧ a.wy = 0 ∧ a.wz = 0 := by simpa [Position6D.toVector] using h
      simp [Position6D.norm, this]
  · intro a
    by_cases h : Position6D.norm a = 0 <;> simp [Position6D.normalize, Position6D.div, h]
  · intro a h
    obtain ⟨b, hb, hs⟩ := C02_Position6D_div.cancel a _ h
    refine ⟨b, by simp [Position6D.normalize, h, hb], ?_, hs⟩
    have hpos : 0 < Position6D.norm a := lt_of_le_of_ne (h0 a) (Ne.symm h)
    have key : Position6D.norm b ^ 2 * Position6D.norm a ^ 2 = Position6D.norm a ^ 2 := by
      have e0 : b.x * Position6D.norm a = a.x := congrArg Position6D.x hs
      have e1 : b.y * Position6D.norm a = a.y := congrArg Position6D.y hs
      have e2 : b.z * Position6D.norm a = a.z := congrArg Position6D.z hs
      have e3 : b.wx * Position6D.norm a = a.wx := congrArg Position6D.wx hs
      have e4 : b.wy * Position6D.norm a = a.wy := congrArg Position6D.wy hs
      have e5 : b.wz * Position6D.norm a = a.wz := congrArg Position6D.wz hs
      linear_combination Position6D.norm a ^ 2 * hsq b - hsq a
        + (b.x * Position6D.norm a + a.x) * e0
        + (b.y * Position6D.norm a + a.y) * e1
        + (b.z * Position6D.norm a + a.z) * e2
        + (b.wx * Position6D.norm a + a.wx) * e3
        + (b.wy * Position6D.norm a + a.wy) * e4
        + (b.wz * Position6D.norm a + a.wz) * e5
    have : Position6D.norm b ^ 2 = 1 := by
      have h2 : Position6D.norm a ^ 2 ≠ 0 := by positivity
      exact mul_right_cancel₀ h2 (by rw [key, one_mul])
    nlinarith [h0 b]

theorem C02_Velocity3D_normalize :
    Normalisation Velocity3D.toVector Velocity3D.smul Velocity3D.norm Velocity3D.normalize := by
  have hnn : ∀ a : Velocity3D, 0 ≤ a.xd * a.xd + a.yd * a.yd + a.zd * a.zd := fun a => by
    linarith [mul_self_nonneg a.xd, mul_self_nonneg a.yd, mul_self_nonneg a.zd]
  have hsq : ∀ a : Velocity3D, Velocity3D.norm a ^ 2 = a.xd * a.xd + a.yd * a.yd + a.zd * a.zd := fun a => by
    rw [Velocity3D.norm, Real.sq_sqrt (hnn a)]
  have h0 : ∀ a : Velocity3D, 0 ≤ Velocity3D.norm a := fun a => Real.sqrt_nonneg _
  refine ⟨h0, ?_, ?_, ?_, ?_⟩
  · intro a; rw [hsq]; simp [Velocity3D.toVector]; ring
  · intro a
    constructor
    · intro h
      have h2 := hsq a
      rw [h] at h2
      have h0 := mul_self_nonneg a.xd
      have h1 := mul_self_nonneg a.yd
      have h2 := mul_self_nonneg a.zd
      have hz : a.xd = 0 ∧ a.yd = 0 ∧ a.zd = 0 := by
        have z0 : a.xd = 0 := by apply mul_self_eq_zero.1; linarith
        have z1 : a.yd = 0 := by apply mul_self_eq_zero.1; linarith
        have z2 : a.zd = 0 := by apply mul_self_eq_zero.1; linarith
        exact ⟨z0, z1, z2⟩
      simpa [Velocity3D.toVector] using hz
    · intro h
      have : a.xd = 0 ∧ a.yd = 0 ∧ a.zd = 0 := by simpa [Velocity3D.toVector] using h
      simp [Velocity3D.norm, this]
  · intro a
    by_cases h : Velocity3D.norm a = 0 <;> simp [Velocity3D.normalize, Velocity3D.div, h]
  · intro a h
    obtain ⟨b, hb, hs⟩ := C02_Velocity3D_div.cancel a _ h
    refine ⟨b, by simp [Velocity3D.normalize, h, hb], ?_, hs⟩
    have hpos : 0 < Velocity3D.norm a := lt_of_le_of_ne (h0 a) (Ne.symm h)
    have key : Velocity3D.norm b ^ 2 * Velocity3D.norm a ^ 2 = Velocity3D.norm a ^ 2 := by
      have e0 : b.xd * Velocity3D.norm a = a.xd := congrArg Velocity3D.xd hs
      have e1 : b.yd * Velocity3D.norm a = a.yd := congrArg Velocity3D.yd hs
      have e2 : b.zd * Velocity3D.norm a = a.zd := congrArg Velocity3D.zd hs
      linear_combination Velocity3D.norm a ^ 2 * hsq b - hsq a
        + (b.xd * Velocity3D.norm a + a.xd) * e0
        + (b.yd * Velocity3D.norm a + a.yd) * e1
        + (b.zd * Velocity3D.norm a + a.zd) * e2
    have : Velocity3D.norm b ^ 2 = 1 := by
      have h2 : Velocity3D.norm a ^ 2 ≠ 0 := by positivity
      exact mul_right_cancel₀ h2 (by rw [key, one_mul])
    nlinarith [h0 b]

theorem C02_Velocity6D_normalize :
    Normalisation Velocity6D.toVector Velocity6D.smul Velocity6D.norm Velocity6D.normalize := by
  have hnn : ∀ a : Velocity6D, 0 ≤ a.xd * a.xd + a.yd * a.yd + a.zd * a.zd + a.wxd * a.wxd + a.wyd * a.wyd + a.wzd * a.wzd := fun a => by
    linarith [mul_self_nonneg a.xd, mul_self_nonneg a.yd, mul_self_nonneg a.zd, mul_self_nonneg a.wxd, mul_self_nonneg a.wyd, mul_self_nonneg a.wzd]
  have hsq : ∀ a : Velocity6D, Velocity6D.norm a ^ 2 = a.xd * a.xd + a.yd * a.yd + a.zd * a.zd + a.wxd * a.wxd + a.wyd * a.wyd + a.wzd * a.wzd := fun a => by
    rw [Velocity6D.norm, Real.sq_sqrt (hnn a)]
  have h0 : ∀ a : Velocity6D, 0 ≤ Velocity6D.norm a := fun a => Real.sqrt_nonneg _
  refine ⟨h0, ?_, ?_, ?_, ?_⟩
  · intro a; rw [hsq]; simp [Velocity6D.toVector]; ring
  · intro a
    constructor
    · intro h
      have h2 := hsq a
      rw [h] at h2
      have h0 := mul_self_nonneg a.xd
      have h1 := mul_self_nonneg a.yd
      have h2 := mul_self_nonneg a.zd
      have h3 := mul_self_nonneg a.wxd
      have h4 := mul_self_nonneg a.wyd
      have h5 := mul_self_nonneg a.wzd
      have hz : a.xd = 0 ∧ a.yd = 0 ∧ a.zd = 0 ∧ a.wxd = 0 ∧ a.wyd = 0 ∧ a.wzd = 0 := by
        have z0 : a.xd = 0 := by apply mul_self_eq_zero.1; linarith
        have z1 : a.yd = 0 := by apply mul_self_eq_zero.1; linarith
        have z2 : a.zd = 0 := by apply mul_self_eq_zero.1; linarith
        have z3 : a.wxd = 0 := by apply mul_self_eq_zero.1; linarith
        have z4 : a.wyd = 0 := by apply mul_self_eq_zero.1; linarith
        have z5 : a.wzd = 0 := by apply mul_self_eq_zero.1; linarith
        exact ⟨z0, z1, z2, z3, z4, z5⟩
      simpa [Velocity6D.toVector] using hz
    · intro h
      have : a.xd = 0 ∧ a.yd = 0 ∧ a.zd = 0 ∧ a.wxd = 0 ∧ a.wyd = 0 ∧ a.wzd = 0 := by simpa [Velocity6D.toVector] using h
      simp [Velocity6D.norm, this]
  · intro a
    by_cases h : Velocity6D.norm a = 0 <;> simp [Velocity6D.normalize, Velocity6D.div, h]
  · intro a h
    obtain ⟨b, hb, hs⟩ := C02_Velocity6D_div.cancel a _ h
    refine ⟨b, by simp [Velocity6D.normalize, h, hb], ?_, hs⟩
    have hpos : 0 < Velocity6D.norm a := lt_of_le_of_ne (h0 a) (Ne.symm h)
    have key : Velocity6D.norm b ^ 2 * Velocity6D.norm a ^ 2 = Velocity6D.norm a ^ 2 := by
      have e0 : b.xd * Velocity6D.norm a = a.xd := congrArg Velocity6D.xd hs
      have e1 : b.yd * Velocity6D.norm a = a.yd := congrArg Velocity6D.yd hs
      have e2 : b.zd * Velocity6D.norm a = a.zd := congrArg Velocity6D.zd hs
      have e3 : b.wxd * Velocity6D.norm a = a.wxd := congrArg Velocity6D.wxd hs
      have e4 : b.wyd * Velocity6D.norm a = a.wyd := congrArg Velocity6D.wyd hs
      have e5 : b.wzd * Velocity6D.norm a = a.wzd := congrArg Velocity6D.wzd hs
      linear_combination Velocity6D.norm a ^ 2 * hsq b - hsq a
        + (b.xd * Velocity6D.norm a + a.xd) * e0
        + (b.yd * Velocity6D.norm a + a.yd) * e1
        + (b.zd * Velocity6D.norm a + a.zd) * e2
        + (b.wxd * Velocity6D.norm a + a.wxd) * e3
        + (b.wyd * Velocity6D.norm a + a.wyd) * e4
        + (b.wzd * Velocity6D.norm a + a.wzd) * e5
    have : Velocity6D.norm b ^ 2 = 1 := by
      have h2 : Velocity6D.norm a ^ 2 ≠ 0 := by positivity
      exact mul_right_cancel₀ h2 (by rw [key, one_mul])
    nlinarith [h0 b]

theorem C02_Quaternion_normalize :
    Normalisation Quat.toVector Quat.smul Quat.norm Quat.normalize := by
  have hnn : ∀ a : Quat, 0 ≤ a.w ^ 2 + a.x ^ 2 + a.y ^ 2 + a.z ^ 2 := fun a => by positivity
  have hsq : ∀ a : Quat, Quat.norm a ^ 2 = a.w ^ 2 + a.x ^ 2 + a.y ^ 2 + a.z ^ 2 := fun a => by
    rw [Quat.norm, Real.sq_sqrt (hnn a)]
  have h0 : ∀ a : Quat, 0 ≤ Quat.norm a := fun a => Real.sqrt_nonneg _
  refine ⟨h0, ?_, ?_, ?_, ?_⟩
  · intro a; rw [hsq]; simp [Quat.toVector]; ring
  · intro a
    constructor
    · intro h
      have h2 := hsq a
      rw [h] at h2
      have h0 := sq_nonneg a.w
      have h1 := sq_nonneg a.x
      have h2 := sq_nonneg a.y
      have h3 := sq_nonneg a.z
      have hz : a.w = 0 ∧ a.x = 0 ∧ a.y = 0 ∧ a.z = 0 := by
        have z0 : a.w = 0 := by apply pow_eq_zero_iff (two_ne_zero) |>.1; linarith
        have z1 : a.x = 0 := by apply pow_eq_zero_iff (two_ne_zero) |>.1; linarith
        have z2 : a.y = 0 := by apply pow_eq_zero_iff (two_ne_zero) |>.1; linarith
        have z3 : a.z = 0 := by apply pow_eq_zero_iff (two_ne_zero) |>.1; linarith
        exact ⟨z0, z1, z2, z3⟩
      simpa [Quat.toVector] using hz
    · intro h
      have : a.w = 0 ∧ a.x = 0 ∧ a.y = 0 ∧ a.z = 0 := by simpa [Quat.toVector] using h
      simp [Quat.norm, this]
  · intro a
    by_cases h : Quat.norm a = 0 <;> simp [Quat.normalize, Quat.div, h]
  · intro a h
    obtain ⟨b, hb, hs⟩ := C02_Quaternion_div.cancel a _ h
    refine ⟨b, by simp [Quat.normalize, h, hb], ?_, hs⟩
    have hpos : 0 < Quat.norm a := lt_of_le_of_ne (h0 a) (Ne.symm h)
    have key : Quat.norm b ^ 2 * Quat.norm a ^ 2 = Quat.norm a ^ 2 := by
      have e0 : b.w * Quat.norm a = a.w := congrArg Quat.w hs
      have e1 : b.x * Quat.norm a = a.x := congrArg Quat.x hs
      have e2 : b.y * Quat.norm a = a.y := congrArg Quat.y hs
      have e3 : b.z * Quat.norm a = a.z := congrArg Quat.z hs
      linear_combination Quat.norm a ^ 2 * hsq b - hsq a
        + (b.w * Quat.norm a + a.w) * e0
        + (b.x * Quat.norm a + a.x) * e1
        + (b.y * Quat.norm a + a.y) * e2
        + (b.z * Quat.norm a + a.z) * e3
    have : Quat.norm b ^ 2 = 1 := by
      have h2 : Quat.norm a ^ 2 ≠ 0 := by positivity
      exact mul_right_cancel₀ h2 (by rw [key, one_mul])
    nlinarith [h0 b]

/-- `Pose2D::normalize` keeps `theta` and scales the translation to length one; it
throws exactly when the translation is shorter than `1e-4` (not only when it is
zero: the claim fails for such poses, `C02_Pose2D_rejects_nonzero`). -/
theorem C02_Pose2D_normalize_partial (p : Pose2D) :
    (Pose2D.normalize p = .throws ↔ √(p.x ^ 2 + p.y ^ 2) < 1e-4) ∧
    (¬ √(p.x ^ 2 + p.y ^ 2) < 1e-4 →
      ∃ q, Pose2D.normalize p = .ok q ∧ q.x ^ 2 + q.y ^ 2 = 1 ∧ q.theta = p.theta ∧
        q.x * √(p.x ^ 2 + p.y ^ 2) = p.x ∧ q.y * √(p.x ^ 2 + p.y ^ 2) = p.y) := by
  have hn : Pose2D.norm p = √(p.x ^ 2 + p.y ^ 2) := by simp [Pose2D.norm, sq]
  have habs : |Pose2D.norm p| = √(p.x ^ 2 + p.y ^ 2) := by
    rw [hn]; exact abs_of_nonneg (Real.sqrt_nonneg _)
  constructor
  · unfold Pose2D.normalize
    rw [habs]
    split_ifs with h <;> simp [h]
  · intro h
    have hne : √(p.x ^ 2 + p.y ^ 2) ≠ 0 := by
      intro h0; apply h; rw [h0]; norm_num
    have hs : √(p.x ^ 2 + p.y ^ 2) ^ 2 = p.x ^ 2 + p.y ^ 2 := Real.sq_sqrt (by positivity)
    refine ⟨⟨p.x / Pose2D.norm p, p.y / Pose2D.norm p, p.theta⟩, ?_, ?_, rfl, ?_, ?_⟩
    · simp only [Pose2D.normalize]; rw [habs, if_neg h]
    · simp only [hn, div_pow]
      rw [hs, ← add_div, div_self]
      rw [← hs]; positivity
    · simp only [hn]; field_simp
    · simp only [hn]; field_simp

/-- The claim "normalising throws exactly when the norm is zero" fails for Pose2D:
a short non-zero translation is rejected. -/
theorem C02_Pose2D_rejects_nonzero :
    ∃ p : Pose2D, Pose2D.norm p ≠ 0 ∧ Pose2D.normalize p = .throws := by
  refine ⟨⟨0.00001, 0, 0⟩, ?_, ?_⟩
  · simp only [Pose2D.norm]
    rw [mul_zero, add_zero, Real.sqrt_mul_self (by norm_num)]; norm_num
  · rw [(C02_Pose2D_normalize_partial _).1]
    rw [show ((0.00001 : ℝ) ^ 2 + (0 : ℝ) ^ 2) = 0.00001 ^ 2 by ring,
      Real.sqrt_sq (by norm_num)]
    norm_num

/-! ### Non-trivial instances -/

example : Position2D.div ⟨2, 4⟩ 2 = .ok ⟨1, 2⟩ := by
  have := C02_Position2D_div.undo ⟨1, 2⟩ 2 (by norm_num)
  simpa [Position2D.smul] using (by
    rw [show (⟨2, 4⟩ : Position2D) = Position2D.smul ⟨1, 2⟩ 2 by simp [Position2D.smul]; norm_num]
    exact this)
example : Position3D.div ⟨2, 4, 5⟩ 0 = .throws := (C02_Position3D_div.throws_iff _ _).2 rfl
example : Position2D.norm ⟨3, 4⟩ ≠ 0 := by
  intro h
  have := (C02_Position2D_normalize.norm_zero ⟨3, 4⟩).1 h 3 (by simp [Position2D.toVector])
  norm_num at this
example : ∃ b, Quat.normalize ⟨0, 3, 0, 4⟩ = .ok b ∧ Quat.norm b = 1 := by
  obtain ⟨b, h, h1, _⟩ := C02_Quaternion_normalize.unit ⟨0, 3, 0, 4⟩ (by
    intro h
    have := (C02_Quaternion_normalize.norm_zero ⟨0, 3, 0, 4⟩).1 h 3 (by simp [Quat.toVector])
    norm_num at this)
  exact ⟨b, h, h1⟩

end AlMath
