import Verif.Lemmas.Rot

/-!
C04: planar poses form a group. C05: they act on points as rigid motions.

Specification: the pose `(x, y, θ)` is the motion `z ↦ (x + iy) + e^{iθ} z` of the
complex plane.
-/

namespace AlMath

/-- A planar point as a complex number. Specification. -/
noncomputable def Position2D.toC (p : Position2D) : ℂ := ⟨p.x, p.y⟩

/-- The motion of the plane a planar pose stands for. Specification. -/
noncomputable def Pose2D.motion (p : Pose2D) (z : ℂ) : ℂ :=
  ⟨p.x, p.y⟩ + Complex.exp (p.theta * Complex.I) * z

theorem Pose2D.motion_re (p : Pose2D) (z : ℂ) :
    (p.motion z).re = p.x + Real.cos p.theta * z.re - Real.sin p.theta * z.im := by
  simp [Pose2D.motion, Complex.exp_ofReal_mul_I_re, Complex.exp_ofReal_mul_I_im]; ring

theorem Pose2D.motion_im (p : Pose2D) (z : ℂ) :
    (p.motion z).im = p.y + Real.sin p.theta * z.re + Real.cos p.theta * z.im := by
  simp [Pose2D.motion, Complex.exp_ofReal_mul_I_re, Complex.exp_ofReal_mul_I_im]; ring

/-- Composition of poses is composition of motions, and angles add. -/
theorem C04_mul_motion (p q : Pose2D) :
    (∀ z, (Pose2D.mul p q).motion z = p.motion (q.motion z)) ∧
    (Pose2D.mul p q).theta = p.theta + q.theta := by
  refine ⟨fun z => ?_, rfl⟩
  apply Complex.ext
  · simp only [Pose2D.motion_re, Pose2D.motion_im, Pose2D.mul, Real.cos_add, Real.sin_add]; ring
  · simp only [Pose2D.motion_re, Pose2D.motion_im, Pose2D.mul, Real.cos_add, Real.sin_add]; ring

theorem C04_assoc (p q r : Pose2D) :
    Pose2D.mul (Pose2D.mul p q) r = Pose2D.mul p (Pose2D.mul q r) := by
  ext <;> simp only [Pose2D.mul, Real.cos_add, Real.sin_add] <;> ring

theorem C04_one_mul (p : Pose2D) : Pose2D.mul Pose2D.one p = p := by
  ext <;> simp [Pose2D.mul, Pose2D.one]

theorem C04_mul_one (p : Pose2D) : Pose2D.mul p Pose2D.one = p := by
  ext <;> simp [Pose2D.mul, Pose2D.one]

theorem C04_mul_inverse (p : Pose2D) : Pose2D.mul p (Pose2D.inverse p) = Pose2D.one := by
  have h := Real.sin_sq_add_cos_sq p.theta
  ext
  · simp only [Pose2D.mul, Pose2D.inverse, Pose2D.inverseOutBody,
      Pose2D.invertInPlace, Pose2D.one, Real.cos_neg,
      Real.sin_neg]
    linear_combination (-p.x) * h
  · simp only [Pose2D.mul, Pose2D.inverse, Pose2D.inverseOutBody,
      Pose2D.invertInPlace, Pose2D.one, Real.cos_neg,
      Real.sin_neg]
    linear_combination (-p.y) * h
  · simp [Pose2D.mul, Pose2D.inverse, Pose2D.inverseOutBody,
      Pose2D.invertInPlace, Pose2D.one]

theorem C04_inverse_mul (p : Pose2D) : Pose2D.mul (Pose2D.inverse p) p = Pose2D.one := by
  ext
  · simp only [Pose2D.mul, Pose2D.inverse, Pose2D.inverseOutBody,
      Pose2D.invertInPlace, Pose2D.one, Real.cos_neg,
      Real.sin_neg]; ring
  · simp only [Pose2D.mul, Pose2D.inverse, Pose2D.inverseOutBody,
      Pose2D.invertInPlace, Pose2D.one, Real.cos_neg,
      Real.sin_neg]; ring
  · simp [Pose2D.mul, Pose2D.inverse, Pose2D.inverseOutBody,
      Pose2D.invertInPlace, Pose2D.one]

/-- The in-place forms agree with the value forms, also when an object is composed
with itself or inverted onto itself. -/
theorem C04_inplace (p q : Pose2D) :
    Pose2D.mulAssign p q = Pose2D.mul p q ∧
    Pose2D.mulAssignSelf p = Pose2D.mul p p ∧
    Pose2D.inverseOutBody (fun _ => p) q = Pose2D.inverse p ∧
    Pose2D.inverseOutBody id p = Pose2D.inverse p ∧
    Pose2D.invertInPlace p = Pose2D.inverse p ∧ Pose2D.pinv p = Pose2D.inverse p := by
  refine ⟨?_, ?_, rfl, rfl, rfl, rfl⟩
  · ext <;> simp only [Pose2D.mulAssign, Pose2D.mulAssignBody, Pose2D.mul] <;> ring
  · ext <;> simp only [Pose2D.mulAssignSelf, Pose2D.mulAssignBody, Pose2D.mul, id] <;> ring

theorem C04_diff (p q : Pose2D) : Pose2D.mul p (Pose2D.diff p q) = q := by
  have h : Pose2D.diff p q = Pose2D.mul (Pose2D.inverse p) q := by
    unfold Pose2D.diff
    rw [(C04_inplace _ _).1]; rfl
  rw [h, ← C04_assoc, C04_mul_inverse, C04_one_mul]

/-- Inverse reverses products and is involutive; difference of a pose with
itself is the identity. -/
theorem C04_inverse_laws (p q : Pose2D) :
    Pose2D.inverse (Pose2D.mul p q) = Pose2D.mul (Pose2D.inverse q) (Pose2D.inverse p) ∧
    Pose2D.inverse (Pose2D.inverse p) = p ∧ Pose2D.diff p p = Pose2D.one := by
  refine ⟨?_, ?_, ?_⟩
  · have := C04_inverse_mul (Pose2D.mul p q)
    calc Pose2D.inverse (Pose2D.mul p q)
        = Pose2D.mul (Pose2D.inverse (Pose2D.mul p q))
            (Pose2D.mul (Pose2D.mul p q) (Pose2D.mul (Pose2D.inverse q) (Pose2D.inverse p))) := by
          rw [C04_assoc p q, ← C04_assoc q, C04_mul_inverse, C04_one_mul, C04_mul_inverse,
            C04_mul_one]
      _ = _ := by rw [← C04_assoc, this, C04_one_mul]
  · calc Pose2D.inverse (Pose2D.inverse p)
        = Pose2D.mul (Pose2D.mul p (Pose2D.inverse p)) (Pose2D.inverse (Pose2D.inverse p)) := by
          rw [C04_mul_inverse, C04_one_mul]
      _ = p := by rw [C04_assoc, C04_mul_inverse, C04_mul_one]
  · unfold Pose2D.diff
    rw [(C04_inplace _ _).1]
    exact C04_inverse_mul p

/-! ### C05 -/

/-- Applying a pose to a point is the motion it stands for. -/
theorem C05_act_motion (p : Pose2D) (q : Position2D) :
    (Pose2D.act p q).toC = p.motion q.toC := by
  apply Complex.ext
  · rw [Pose2D.motion_re]; rfl
  · rw [Pose2D.motion_im]; rfl

theorem C05_act_mul (p q : Pose2D) (a : Position2D) :
    Pose2D.act (Pose2D.mul p q) a = Pose2D.act p (Pose2D.act q a) ∧
    Pose2D.act Pose2D.one a = a := by
  constructor
  · ext <;> simp only [Pose2D.act, Pose2D.mul, Real.cos_add, Real.sin_add] <;> ring
  · ext <;> simp [Pose2D.act, Pose2D.one]

theorem C05_isometry (p : Pose2D) (a b : Position2D) :
    Position2D.distance (Pose2D.act p a) (Pose2D.act p b) = Position2D.distance a b := by
  unfold Position2D.distance Position2D.distanceSquared Pose2D.act
  congr 1
  have h := Real.sin_sq_add_cos_sq p.theta
  simp only
  linear_combination ((a.x - b.x) ^ 2 + (a.y - b.y) ^ 2) * h

/-- Orientation: the signed area spanned by three points is preserved. -/
theorem C05_orientation (p : Pose2D) (a b c : Position2D) :
    Position2D.cross (Position2D.sub (Pose2D.act p b) (Pose2D.act p a))
        (Position2D.sub (Pose2D.act p c) (Pose2D.act p a)) =
      Position2D.cross (Position2D.sub b a) (Position2D.sub c a) := by
  have h := Real.sin_sq_add_cos_sq p.theta
  simp only [Position2D.cross, Position2D.sub, Pose2D.act]
  linear_combination ((b.x - a.x) * (c.y - a.y) - (b.y - a.y) * (c.x - a.x)) * h

/-- Agreement with the 3-D transform of the same pose: on points of the plane
(both the Position2D and the Position3D action) and on products; extracting the
pose from the transform gives it back up to a multiple of 2π in theta. -/
theorem C05_transform (p q : Pose2D) (a : Position2D) (z : ℝ) :
    Transform.act2D (transformFromPose2D p) a = ⟨(Pose2D.act p a).x, (Pose2D.act p a).y, 0⟩ ∧
    Transform.act (transformFromPose2D p) ⟨a.x, a.y, z⟩ =
      ⟨(Pose2D.act p a).x, (Pose2D.act p a).y, z⟩ ∧
    transformFromPose2D (Pose2D.mul p q) =
      Transform.mul (transformFromPose2D p) (transformFromPose2D q) ∧
    transformFromPose2D (pose2DFromTransform (transformFromPose2D p)) = transformFromPose2D p := by
  refine ⟨?_, ?_, ?_, ?_⟩
  · ext <;> simp [Transform.act2D, transformFromPose2D, Transform.mulAssign,
      Transform.mulAssignBody, Transform.fromPosition3, Transform.fromRotZ, Transform.one,
      Pose2D.act] <;> ring
  · ext <;> simp [Transform.act, transformFromPose2D, Transform.mulAssign,
      Transform.mulAssignBody, Transform.fromPosition3, Transform.fromRotZ, Transform.one,
      Pose2D.act] <;> ring
  · ext <;> simp [transformFromPose2D, Transform.mulAssign,
      Transform.mulAssignBody, Transform.fromPosition3, Transform.fromRotZ, Transform.one,
      Pose2D.mul, Transform.mul, Real.cos_add, Real.sin_add] <;> ring
  · have key : ∀ θ : ℝ, Real.cos (atan2 (Real.sin θ) (Real.cos θ)) = Real.cos θ ∧
        Real.sin (atan2 (Real.sin θ) (Real.cos θ)) = Real.sin θ := by
      intro θ
      have hn : ‖(⟨Real.cos θ, Real.sin θ⟩ : ℂ)‖ = 1 := by
        rw [Complex.norm_def, Complex.normSq_mk, ← sq, ← sq, add_comm, Real.sin_sq_add_cos_sq,
          Real.sqrt_one]
      have hne : (⟨Real.cos θ, Real.sin θ⟩ : ℂ) ≠ 0 := by
        intro h; rw [h] at hn; simp at hn
      unfold atan2
      rw [Complex.cos_arg hne, Complex.sin_arg, hn]
      simp
    have hk := key p.theta
    ext <;> simp [transformFromPose2D, pose2DFromTransform, Transform.mulAssign,
      Transform.mulAssignBody, Transform.fromPosition3, Transform.fromRotZ, Transform.one, hk]

/-! ### Non-trivial instances -/

example : Pose2D.mul ⟨1, 2, Real.pi / 2⟩ ⟨1, 0, 3⟩ = ⟨1, 3, Real.pi / 2 + 3⟩ := by
  ext <;> simp [Pose2D.mul]; norm_num
example : Pose2D.act ⟨1, 2, Real.pi / 2⟩ ⟨3, 0⟩ = ⟨1, 5⟩ := by
  ext <;> simp [Pose2D.act]; norm_num

end AlMath
