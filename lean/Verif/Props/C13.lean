import Verif.Props.C09
import Verif.Lemmas.Euler

/-!
C13: Euler-angle extraction inverts construction on every rotation.
C14: extracted angles are in the canonical range.
-/

namespace AlMath

open Spec Matrix

/-- The algebra behind the extraction: with `(co, s)` a unit vector aligned with
the first column's horizontal part, the extraction formulas rebuild the matrix. -/
theorem euler_algebra {a b c d e f g h i co s r : ℝ} (q : RotEqs a b c d e f g h i)
    (hcs : co ^ 2 + s ^ 2 = 1) (ha : r * co = a) (hd : r * s = d) :
    let cx := co * e - s * b
    let sx := s * c - co * f
    let cy := co * a + s * d
    let sy := -g
    cx * cx + sx * sx = 1 ∧ cy * cy + sy * sy = 1 ∧ cy = r ∧
    a = co * cy ∧ d = s * cy ∧
    b = co * sy * sx - s * cx ∧ e = s * sy * sx + co * cx ∧ h = cy * sx ∧
    c = co * sy * cx + s * sx ∧ f = s * sy * cx - co * sx ∧ i = cy * cx := by
  have h1 : co * d = s * a := by rw [← ha, ← hd]; ring
  have hr : co * a + s * d = r := by rw [← ha, ← hd]; linear_combination r * hcs
  obtain ⟨⟩ := q
  intro cx sx cy sy
  refine ⟨?_, ?_, ?_, ?_, ?_, ?_, ?_, ?_, ?_, ?_, ?_⟩ <;> simp only [cx, sx, cy, sy] <;> grind

/-- rotation3DFromRotation followed by rotationFrom3DRotation is the identity on
every proper rotation, including gimbal lock. -/
theorem C13_rotation (r : Rotation) (hr : IsRot r.mat) :
    let w := rotation3DFromRotation r
    Rotation.from3DRotation w.wx w.wy w.wz = r := by
  have q := Rotation.eqs hr
  intro w
  have hc := atan2_cos r.r21 r.r11
  have hs := atan2_sin r.r21 r.r11
  have hcs := Real.cos_sq_add_sin_sq (atan2 r.r21 r.r11)
  obtain ⟨hx, hy, -, e1, e2, e3, e4, e5, e6, e7, e8⟩ := euler_algebra q hcs hc hs
  have ux := atan2_unit hx
  have uy := atan2_unit hy
  have wx : w.wx = atan2 (Real.sin (atan2 r.r21 r.r11) * r.r13 -
      Real.cos (atan2 r.r21 r.r11) * r.r23) (Real.cos (atan2 r.r21 r.r11) * r.r22 -
      Real.sin (atan2 r.r21 r.r11) * r.r12) := rfl
  have wy : w.wy = atan2 (-r.r31) (Real.cos (atan2 r.r21 r.r11) * r.r11 +
      Real.sin (atan2 r.r21 r.r11) * r.r21) := rfl
  have wz : w.wz = atan2 r.r21 r.r11 := rfl
  rw [← wx] at ux
  rw [← wy] at uy
  ext <;> simp only [Rotation.from3DRotation, Rotation.mul, Rotation.mulAssign,
    Rotation.mulAssignBody, Rotation.fromRotX, Rotation.fromRotY, Rotation.fromRotZ, Rotation.one,
    ux.1, ux.2, uy.1, uy.2, wz] <;> linarith

theorem from3D_eq (wx wy wz : ℝ) : rotationFromTransform (Transform.from3DRotation wx wy wz) =
    Rotation.from3DRotation wx wy wz := by
  ext <;> simp only [rotationFromTransform, Transform.from3DRotation, Rotation.from3DRotation,
    Rotation.mul, Rotation.mulAssign, Rotation.mulAssignBody, Rotation.fromRotX,
    Rotation.fromRotY, Rotation.fromRotZ, Rotation.one, Transform.mulAssign,
    Transform.mulAssignBody, Transform.fromRotX, Transform.fromRotY, Transform.fromRotZ,
    Transform.one]

/-- position6DFromTransform then transformFromPosition6D is the identity on every
rigid transform. -/
theorem C13_transform (t : Transform) (ht : IsRigid t) :
    transformFromPosition6D (position6DFromTransform t) = t := by
  have h := C13_rotation (rotationFromTransform t) ht
  have h2 : rotationFromTransform (transformFromPosition6D (position6DFromTransform t)) =
      rotationFromTransform t := by
    have h3 := from3D_eq (rotation3DFromTransform t).wx (rotation3DFromTransform t).wy
      (rotation3DFromTransform t).wz
    exact h3.trans h
  simp only [rotationFromTransform, Rotation.mk.injEq] at h2
  obtain ⟨h1, h2, h3, h4, h5, h6, h7, h8, h9⟩ := h2
  ext
  · exact h1
  · exact h2
  · exact h3
  · rfl
  · exact h4
  · exact h5
  · exact h6
  · rfl
  · exact h7
  · exact h8
  · exact h9
  · rfl

/-- rotation3DFromTransform then transformFromRotation3D gives back the rotation
part with a zero translation; and rotation3DFromQuaternion of a unit quaternion
gives angles whose rotation is the quaternion's. -/
theorem C13_rotation3D (t : Transform) (ht : IsRigid t) (u : Quat)
    (hu : u.w * u.w + u.x * u.x + u.y * u.y + u.z * u.z = 1) :
    (transformFromRotation3D (rotation3DFromTransform t)).rotMat = t.rotMat ∧
    (transformFromRotation3D (rotation3DFromTransform t)).trans = 0 ∧
    Rotation.from3DRotation u.toRotation3D.wx u.toRotation3D.wy u.toRotation3D.wz =
      u.toRotation := by
  refine ⟨?_, ?_, ?_⟩
  · have h := C13_rotation (rotationFromTransform t) ht
    have h2 := from3D_eq (rotation3DFromTransform t).wx (rotation3DFromTransform t).wy
      (rotation3DFromTransform t).wz
    exact congrArg Rotation.mat (h2.trans h)
  · ext i
    fin_cases i <;> simp [transformFromRotation3D, Transform.trans, Transform.from3DRotation,
      Transform.mulAssign, Transform.mulAssignBody, Transform.fromRotX, Transform.fromRotY,
      Transform.fromRotZ, Transform.one]
  · exact C13_rotation u.toRotation (toRotation_isRot u.w u.x u.y u.z hu)

/-! ### C14 -/

/-- Ranges of the extracted angles, for every rigid transform. The three
extraction functions agree. -/
theorem C14_range (t : Transform) (ht : IsRigid t) :
    let p := position6DFromTransform t
    (-Real.pi < p.wx ∧ p.wx ≤ Real.pi) ∧
    (-(Real.pi / 2) ≤ p.wy ∧ p.wy ≤ Real.pi / 2) ∧
    (-Real.pi < p.wz ∧ p.wz ≤ Real.pi) ∧
    (p.x = t.r14 ∧ p.y = t.r24 ∧ p.z = t.r34) ∧
    rotation3DFromTransform t = ⟨p.wx, p.wy, p.wz⟩ ∧
    rotation3DFromRotation (rotationFromTransform t) = ⟨p.wx, p.wy, p.wz⟩ := by
  intro p
  refine ⟨atan2_mem _ _, ?_, atan2_mem _ _, ⟨rfl, rfl, rfl⟩, rfl, rfl⟩
  apply atan2_mem_right
  have hc := atan2_cos t.r21 t.r11
  have hs := atan2_sin t.r21 t.r11
  have hcs := Real.cos_sq_add_sin_sq (atan2 t.r21 t.r11)
  have := (euler_algebra ht.eqs hcs hc hs).2.2.1
  show 0 ≤ Real.cos (atan2 t.r21 t.r11) * t.r11 + Real.sin (atan2 t.r21 t.r11) * t.r21
  rw [this]
  exact Real.sqrt_nonneg _

/-- Building then extracting returns the same angles and position on the open
canonical range. -/
theorem C14_extract_build (p : Position6D)
    (hx : -Real.pi < p.wx ∧ p.wx ≤ Real.pi)
    (hy : -(Real.pi / 2) < p.wy ∧ p.wy < Real.pi / 2)
    (hz : -Real.pi < p.wz ∧ p.wz ≤ Real.pi) :
    position6DFromTransform (transformFromPosition6D p) = p := by
  have hcy : 0 < Real.cos p.wy := Real.cos_pos_of_mem_Ioo hy
  have sx := Real.cos_sq_add_sin_sq p.wx
  have sz := Real.cos_sq_add_sin_sq p.wz
  have e := from3D_eq p.wx p.wy p.wz
  have r11 : (transformFromPosition6D p).r11 = Real.cos p.wy * Real.cos p.wz := by
    simp [transformFromPosition6D, Transform.fromPosition6, Transform.from3DRotation,
      Transform.mulAssign, Transform.mulAssignBody, Transform.fromRotX, Transform.fromRotY,
      Transform.fromRotZ, Transform.one]
    ring
  have r21 : (transformFromPosition6D p).r21 = Real.cos p.wy * Real.sin p.wz := by
    simp [transformFromPosition6D, Transform.fromPosition6, Transform.from3DRotation,
      Transform.mulAssign, Transform.mulAssignBody, Transform.fromRotX, Transform.fromRotY,
      Transform.fromRotZ, Transform.one]
    ring
  have hwz : atan2 (transformFromPosition6D p).r21 (transformFromPosition6D p).r11 = p.wz := by
    rw [r11, r21]
    exact atan2_polar hcy hz.1 hz.2
  have hwy : atan2 (1 * Real.sin p.wy) (1 * Real.cos p.wy) = p.wy :=
    atan2_polar one_pos (by linarith [hy.1, Real.pi_pos]) (by linarith [hy.2, Real.pi_pos])
  have hwx : atan2 (1 * Real.sin p.wx) (1 * Real.cos p.wx) = p.wx :=
    atan2_polar one_pos hx.1 hx.2
  ext
  · rfl
  · rfl
  · rfl
  · simp only [position6DFromTransform, hwz]
    refine Eq.trans ?_ hwx
    congr 1
    · simp [transformFromPosition6D, Transform.fromPosition6, Transform.from3DRotation,
        Transform.mulAssign, Transform.mulAssignBody, Transform.fromRotX, Transform.fromRotY,
        Transform.fromRotZ, Transform.one]
      linear_combination (Real.sin p.wx) * sz
    · simp [transformFromPosition6D, Transform.fromPosition6, Transform.from3DRotation,
        Transform.mulAssign, Transform.mulAssignBody, Transform.fromRotX, Transform.fromRotY,
        Transform.fromRotZ, Transform.one]
      linear_combination (Real.cos p.wx) * sz
  · simp only [position6DFromTransform, hwz]
    refine Eq.trans ?_ hwy
    congr 1
    · simp [transformFromPosition6D, Transform.fromPosition6, Transform.from3DRotation,
        Transform.mulAssign, Transform.mulAssignBody, Transform.fromRotX, Transform.fromRotY,
        Transform.fromRotZ, Transform.one]
    · rw [r11, r21]
      linear_combination (Real.cos p.wy) * sz
  · exact hwz

/-- The canonical range cannot be closed at gimbal lock: two different triples
with `wy = π/2` build the same transform, so no extraction can return both. -/
theorem C14_gimbal_lock (s d : ℝ) :
    transformFromPosition6D ⟨0, 0, 0, s + d, Real.pi / 2, d⟩ =
      transformFromPosition6D ⟨0, 0, 0, s, Real.pi / 2, 0⟩ := by
  ext <;> simp [transformFromPosition6D, Transform.fromPosition6, Transform.from3DRotation,
        Transform.mulAssign, Transform.mulAssignBody, Transform.fromRotX, Transform.fromRotY,
        Transform.fromRotZ, Transform.one, Real.sin_add, Real.cos_add]
  · linear_combination (Real.sin s) * (Real.sin_sq_add_cos_sq d)
  · linear_combination (Real.cos s) * (Real.sin_sq_add_cos_sq d)
  · linear_combination (Real.cos s) * (Real.sin_sq_add_cos_sq d)
  · linear_combination (-Real.sin s) * (Real.sin_sq_add_cos_sq d)

/-! ### Non-trivial instances -/

/-- gimbal lock: `wy = π/2` -/
example : IsRigid ⟨0, 0, 1, 7, 0, 1, 0, 8, -1, 0, 0, 9⟩ := by
  unfold IsRigid Transform.rotMat; rw [isRot_coord]; norm_num
example : -Real.pi < (1:ℝ) ∧ (1:ℝ) ≤ Real.pi := ⟨by linarith [Real.two_le_pi], by linarith [Real.two_le_pi]⟩
example : (1/2:ℝ) * (1/2) + (1/2) * (1/2) + (1/2) * (1/2) + (1/2) * (1/2) = 1 := by norm_num

end AlMath
