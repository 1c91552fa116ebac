import Verif.Props.C09
import Verif.Props.C13
import Verif.Lemmas.QuatRot
import Verif.Lemmas.Rodrigues
import Mathlib.Algebra.Quaternion

/-!
C15: quaternion algebra is Hamilton's. C16: quaternions and matrices describe the
same rotations. C17: matrix to quaternion. C18: angle-axis. C19: angle-direction.
C60: displacements.
-/

namespace AlMath

open Spec Matrix
open scoped Quaternion

namespace Spec

/-- The library's quaternion as one of Mathlib's (fields of
almath/types/alquaternion.h). -/
def _root_.AlMath.Quat.toH (q : Quat) : ℍ[ℝ] := ⟨q.w, q.x, q.y, q.z⟩

/-- Unit quaternion. Not in /repo: specification. -/
def IsUnitQuat (q : Quat) : Prop := q.w * q.w + q.x * q.x + q.y * q.y + q.z * q.z = 1

/-- The opposite quaternion. Not in /repo: specification. -/
def negQuat (q : Quat) : Quat := ⟨-q.w, -q.x, -q.y, -q.z⟩

/-- A point as a pure quaternion. Not in /repo: specification. -/
def pureH (p : Position3D) : ℍ[ℝ] := ⟨0, p.x, p.y, p.z⟩

@[simp] theorem toH_re (q : Quat) : q.toH.re = q.w := rfl
@[simp] theorem toH_imI (q : Quat) : q.toH.imI = q.x := rfl
@[simp] theorem toH_imJ (q : Quat) : q.toH.imJ = q.y := rfl
@[simp] theorem toH_imK (q : Quat) : q.toH.imK = q.z := rfl
@[simp] theorem pureH_re (p : Position3D) : (pureH p).re = 0 := rfl
@[simp] theorem pureH_imI (p : Position3D) : (pureH p).imI = p.x := rfl
@[simp] theorem pureH_imJ (p : Position3D) : (pureH p).imJ = p.y := rfl
@[simp] theorem pureH_imK (p : Position3D) : (pureH p).imK = p.z := rfl

end Spec

/-- The product is the product of Hamilton's quaternions, the inverse is the
conjugate, the norm is the quaternion norm. -/
theorem C15_hamilton (p q : Quat) :
    (Quat.mul p q).toH = p.toH * q.toH ∧ Quat.one.toH = 1 ∧
    (Quat.inverse p).toH = star p.toH ∧ Quat.norm p = √(Quaternion.normSq p.toH) := by
  refine ⟨?_, ?_, ?_, ?_⟩
  · ext <;> simp [Quat.mul] <;> ring
  · ext <;> simp [Quat.one]
  · ext <;> simp [Quat.inverse, Quat.inverseOutBody]
  · simp [Quat.norm, Quaternion.normSq_def']

theorem toH_injective {p q : Quat} (h : p.toH = q.toH) : p = q := by
  have h1 := congrArg QuaternionAlgebra.re h
  have h2 := congrArg QuaternionAlgebra.imI h
  have h3 := congrArg QuaternionAlgebra.imJ h
  have h4 := congrArg QuaternionAlgebra.imK h
  ext <;> assumption

theorem C15_algebra (p q r : Quat) :
    Quat.mul (Quat.mul p q) r = Quat.mul p (Quat.mul q r) ∧
    Quat.mul Quat.one p = p ∧ Quat.mul p Quat.one = p ∧
    Quat.norm (Quat.mul p q) = Quat.norm p * Quat.norm q ∧
    Quat.inverse (Quat.mul p q) = Quat.mul (Quat.inverse q) (Quat.inverse p) ∧
    Quat.inverse (Quat.inverse p) = p := by
  refine ⟨?_, ?_, ?_, ?_, ?_, ?_⟩
  · apply toH_injective; simp only [(C15_hamilton _ _).1, mul_assoc]
  · apply toH_injective; simp only [(C15_hamilton _ _).1, (C15_hamilton p p).2.1, one_mul]
  · apply toH_injective; simp only [(C15_hamilton _ _).1, (C15_hamilton p p).2.1, mul_one]
  · rw [(C15_hamilton _ p).2.2.2, (C15_hamilton p p).2.2.2, (C15_hamilton q p).2.2.2,
      (C15_hamilton p q).1, map_mul, Real.sqrt_mul (Quaternion.normSq_nonneg)]
  · apply toH_injective
    simp only [(C15_hamilton _ _).1, (C15_hamilton _ p).2.2.1, star_mul]
  · apply toH_injective; simp only [(C15_hamilton _ p).2.2.1, star_star]

/-- `q * inverse q` and `inverse q * q` are the squared norm; so the inverse is a
two-sided inverse exactly for unit quaternions. -/
theorem C15_inverse (q : Quat) :
    (IsUnitQuat q ↔ Quat.mul q (Quat.inverse q) = Quat.one) ∧
    (IsUnitQuat q ↔ Quat.mul (Quat.inverse q) q = Quat.one) := by
  constructor
  · constructor
    · intro h
      ext <;> simp [Quat.mul, Quat.inverse, Quat.inverseOutBody, Quat.one]
      · unfold IsUnitQuat at h; linarith
      · ring
      · ring
      · ring
    · intro h
      have := congrArg Quat.w h
      simp [Quat.mul, Quat.inverse, Quat.inverseOutBody, Quat.one] at this
      unfold IsUnitQuat; linarith
  · constructor
    · intro h
      ext <;> simp [Quat.mul, Quat.inverse, Quat.inverseOutBody, Quat.one]
      · unfold IsUnitQuat at h; linarith
      · ring
      · ring
      · ring
    · intro h
      have := congrArg Quat.w h
      simp [Quat.mul, Quat.inverse, Quat.inverseOutBody, Quat.one] at this
      unfold IsUnitQuat; linarith

/-! ### C16 -/

theorem toRotation_neg (q : Quat) : (negQuat q).toRotation = q.toRotation := by
  ext <;> simp [negQuat, Quat.toRotation]

/-- Homomorphism into proper rotations; inverse to transpose. -/
theorem C16_homomorphism (p q : Quat) (hp : IsUnitQuat p) (hq : IsUnitQuat q) :
    IsUnitQuat (Quat.mul p q) ∧ IsRot p.toRotation.mat ∧
    (Quat.mul p q).toRotation.mat = p.toRotation.mat * q.toRotation.mat ∧
    (Quat.inverse p).toRotation.mat = p.toRotation.matᵀ ∧
    (Quat.mul p q).toTransform = Transform.mul p.toTransform q.toTransform ∧
    p.toTransform.rotMat = p.toRotation.mat ∧ p.toTransform.trans = 0 := by
  have hu : IsUnitQuat (Quat.mul p q) := by
    unfold IsUnitQuat at *
    have : (Quat.mul p q).w * (Quat.mul p q).w + (Quat.mul p q).x * (Quat.mul p q).x +
      (Quat.mul p q).y * (Quat.mul p q).y + (Quat.mul p q).z * (Quat.mul p q).z =
      (p.w * p.w + p.x * p.x + p.y * p.y + p.z * p.z) *
        (q.w * q.w + q.x * q.x + q.y * q.y + q.z * q.z) := by
      simp only [Quat.mul]; ring
    rw [this, hp, hq, one_mul]
  have hrot : Quat.toRotation (Quat.mul p q) = Rotation.mul p.toRotation q.toRotation := by
    obtain ⟨a, b, c, d⟩ := p
    obtain ⟨e, f, g, h⟩ := q
    unfold IsUnitQuat at hp hq
    simp only at hp hq
    have ha : a * a = 1 - b * b - c * c - d * d := by linarith
    have he : e * e = 1 - f * f - g * g - h * h := by linarith
    ext <;> simp only [Quat.toRotation, Quat.mul, Rotation.mul, Rotation.mulAssign,
      Rotation.mulAssignBody] <;> grind
  refine ⟨hu, toRotation_isRot _ _ _ _ hp, by rw [hrot, mat_mul], ?_, ?_, ?_, ?_⟩
  · ext i j
    fin_cases i <;> fin_cases j <;>
      simp [Rotation.mat, Quat.toRotation, Quat.inverse, Quat.inverseOutBody] <;> ring
  · have key : rotationFromTransform (Quat.mul p q).toTransform =
        Rotation.mul (rotationFromTransform p.toTransform) (rotationFromTransform q.toTransform) :=
      hrot
    simp only [rotationFromTransform, Rotation.mul, Rotation.mulAssign, Rotation.mulAssignBody,
      Rotation.mk.injEq] at key
    obtain ⟨h1, h2, h3, h4, h5, h6, h7, h8, h9⟩ := key
    ext <;> first | assumption | simp [Quat.toTransform, Transform.mul, Transform.one]
  · rfl
  · ext i; fin_cases i <;> simp [Quat.toTransform, Transform.trans, Transform.one]

theorem sq4_zero {a b c d : ℝ} (h : a ^ 2 + b ^ 2 + c ^ 2 + d ^ 2 = 0) :
    a = 0 ∧ b = 0 ∧ c = 0 ∧ d = 0 := by
  have n1 := sq_nonneg a; have n2 := sq_nonneg b
  have n3 := sq_nonneg c; have n4 := sq_nonneg d
  refine ⟨?_, ?_, ?_, ?_⟩ <;> apply pow_eq_zero_iff two_ne_zero |>.1 <;> linarith

/-- Two unit quaternions give the same matrix exactly when equal up to sign. -/
theorem C16_double_cover (p q : Quat) (hp : IsUnitQuat p) (hq : IsUnitQuat q) :
    p.toRotation = q.toRotation ↔ p = q ∨ p = negQuat q := by
  constructor
  · intro h
    obtain ⟨a, b, c, d⟩ := p
    obtain ⟨e, f, g, k⟩ := q
    unfold IsUnitQuat at hp hq
    simp only [Quat.toRotation, Rotation.mk.injEq] at h hp hq
    obtain ⟨h1, h2, h3, h4, h5, h6, h7, h8, h9⟩ := h
    have aa : a * a = e * e := by linarith
    have bb : b * b = f * f := by linarith
    have cc : c * c = g * g := by linarith
    have dd : d * d = k * k := by linarith
    have ab : a * b = e * f := by linarith
    have ac : a * c = e * g := by linarith
    have ad : a * d = e * k := by linarith
    have bc : b * c = f * g := by linarith
    have bd : b * d = f * k := by linarith
    have cd : c * d = g * k := by linarith
    -- the scalar product is ±1
    have hs : (a * e + b * f + c * g + d * k) ^ 2 = 1 := by
      have e1 : (a * e + b * f + c * g + d * k) ^ 2 =
          (a * a) * (e * e) + (b * b) * (f * f) + (c * c) * (g * g) + (d * d) * (k * k) +
          2 * ((a * b) * (e * f) + (a * c) * (e * g) + (a * d) * (e * k) + (b * c) * (f * g) +
            (b * d) * (f * k) + (c * d) * (g * k)) := by ring
      rw [e1, aa, bb, cc, dd, ab, ac, ad, bc, bd, cd]
      have e2 : (e * e + f * f + g * g + k * k) ^ 2 = 1 := by rw [hq]; ring
      linear_combination e2
    rcases sq_eq_one_iff.1 hs with h | h
    · left
      have hz : (a - e) ^ 2 + (b - f) ^ 2 + (c - g) ^ 2 + (d - k) ^ 2 = 0 := by
        linear_combination hp + hq - 2 * h
      obtain ⟨z1, z2, z3, z4⟩ := sq4_zero hz
      ext <;> simp only <;> linarith
    · right
      have hz : (a + e) ^ 2 + (b + f) ^ 2 + (c + g) ^ 2 + (d + k) ^ 2 = 0 := by
        linear_combination hp + hq + 2 * h
      obtain ⟨z1, z2, z3, z4⟩ := sq4_zero hz
      ext <;> simp only [negQuat] <;> linarith
  · rintro (h | h)
    · rw [h]
    · rw [h, toRotation_neg]

/-- Applying the quaternion to a point is Hamilton's `q p q*` for every
quaternion, and equals applying the matrix for a unit quaternion. -/
theorem C16_act (q : Quat) (p : Position3D) :
    pureH (Quat.act q p) = q.toH * pureH p * star q.toH ∧
    (IsUnitQuat q → Quat.act q p = Rotation.act q.toRotation p) := by
  constructor
  · ext <;> simp [Quat.act] <;> ring
  · intro h
    unfold IsUnitQuat at h
    ext
    · simp only [Quat.act, Rotation.act, Quat.toRotation]; linear_combination p.x * h
    · simp only [Quat.act, Rotation.act, Quat.toRotation]; linear_combination p.y * h
    · simp only [Quat.act, Rotation.act, Quat.toRotation]; linear_combination p.z * h

/-- quaternionFromRotation3D gives a unit quaternion with the matrix of the Euler
angles. -/
theorem C16_fromRotation3D (r : Rotation3D) :
    IsUnitQuat (Quat.fromRotation3D r) ∧
    (Quat.fromRotation3D r).toRotation = Rotation.from3DRotation r.wx r.wy r.wz := by
  have hx : r.wx = 2 * (0.5 * r.wx) := by ring
  have hy : r.wy = 2 * (0.5 * r.wy) := by ring
  have hz : r.wz = 2 * (0.5 * r.wz) := by ring
  have ex := Real.sin_sq_add_cos_sq (0.5 * r.wx)
  have ey := Real.sin_sq_add_cos_sq (0.5 * r.wy)
  have ez := Real.sin_sq_add_cos_sq (0.5 * r.wz)
  have cx : Real.cos r.wx = 2 * Real.cos (0.5 * r.wx) ^ 2 - 1 := by
    conv_lhs => rw [hx, Real.cos_two_mul]
  have cy : Real.cos r.wy = 2 * Real.cos (0.5 * r.wy) ^ 2 - 1 := by
    conv_lhs => rw [hy, Real.cos_two_mul]
  have cz : Real.cos r.wz = 2 * Real.cos (0.5 * r.wz) ^ 2 - 1 := by
    conv_lhs => rw [hz, Real.cos_two_mul]
  have sx : Real.sin r.wx = 2 * Real.sin (0.5 * r.wx) * Real.cos (0.5 * r.wx) := by
    conv_lhs => rw [hx, Real.sin_two_mul]
  have sy : Real.sin r.wy = 2 * Real.sin (0.5 * r.wy) * Real.cos (0.5 * r.wy) := by
    conv_lhs => rw [hy, Real.sin_two_mul]
  have sz : Real.sin r.wz = 2 * Real.sin (0.5 * r.wz) * Real.cos (0.5 * r.wz) := by
    conv_lhs => rw [hz, Real.sin_two_mul]
  constructor
  · unfold IsUnitQuat
    simp only [Quat.fromRotation3D]
    generalize Real.cos (0.5 * r.wx) = a at *
    generalize Real.sin (0.5 * r.wx) = b at *
    generalize Real.cos (0.5 * r.wy) = c at *
    generalize Real.sin (0.5 * r.wy) = d at *
    generalize Real.cos (0.5 * r.wz) = e at *
    generalize Real.sin (0.5 * r.wz) = f at *
    have : (b ^ 2 + a ^ 2) * (d ^ 2 + c ^ 2) * (f ^ 2 + e ^ 2) = 1 := by rw [ex, ey, ez]; ring
    linear_combination this
  · ext <;> simp only [Quat.fromRotation3D, Quat.toRotation, Rotation.from3DRotation,
      Rotation.mul, Rotation.mulAssign, Rotation.mulAssignBody, Rotation.fromRotX,
      Rotation.fromRotY, Rotation.fromRotZ, Rotation.one, cx, cy, cz, sx, sy, sz] <;>
    generalize Real.cos (0.5 * r.wx) = a at * <;>
    generalize Real.sin (0.5 * r.wx) = b at * <;>
    generalize Real.cos (0.5 * r.wy) = c at * <;>
    generalize Real.sin (0.5 * r.wy) = d at * <;>
    generalize Real.cos (0.5 * r.wz) = e at * <;>
    generalize Real.sin (0.5 * r.wz) = f at * <;>
    clear hx hy hz cx cy cz sx sy sz <;> grind

end AlMath
