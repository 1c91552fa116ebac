import Verif.Props.C02
import Verif.Model.Aggregates

/-!
C03: distances are metrics and `isNear` is a tolerance relation.
-/

namespace AlMath

/-- Metric axioms. Specification. -/
structure IsMetric {α : Type} (d : α → α → ℝ) : Prop where
  nonneg : ∀ a b, 0 ≤ d a b
  eq_zero : ∀ a b, d a b = 0 ↔ a = b
  symm : ∀ a b, d a b = d b a
  triangle : ∀ a b c, d a c ≤ d a b + d b c

/-- Tolerance relation: `near a b eps` as documented. Specification. -/
structure IsTolerance {α : Type} (near : α → α → ℝ → Prop) : Prop where
  refl : ∀ a eps, 0 ≤ eps → near a a eps
  symm : ∀ a b eps, near a b eps → near b a eps
  mono : ∀ a b e f, e ≤ f → near a b e → near a b f
  zero : ∀ a b, near a b 0 ↔ a = b
  nonneg : ∀ a b eps, near a b eps → 0 ≤ eps
  add : ∀ a b c e f, near a b e → near b c f → near a c (e + f)

theorem minkowski3 (a b c x y z : ℝ) :
    √((a + x) ^ 2 + (b + y) ^ 2 + (c + z) ^ 2) ≤
      √(a ^ 2 + b ^ 2 + c ^ 2) + √(x ^ 2 + y ^ 2 + z ^ 2) := by
  apply Real.sqrt_le_iff.2
  have h1 : √(a ^ 2 + b ^ 2 + c ^ 2) ^ 2 = a ^ 2 + b ^ 2 + c ^ 2 := Real.sq_sqrt (by positivity)
  have h2 : √(x ^ 2 + y ^ 2 + z ^ 2) ^ 2 = x ^ 2 + y ^ 2 + z ^ 2 := Real.sq_sqrt (by positivity)
  have h3 : a * x + b * y + c * z ≤ √(a ^ 2 + b ^ 2 + c ^ 2) * √(x ^ 2 + y ^ 2 + z ^ 2) := by
    rw [← Real.sqrt_mul (by positivity)]
    apply Real.le_sqrt_of_sq_le
    nlinarith [sq_nonneg (a * y - b * x), sq_nonneg (a * z - c * x), sq_nonneg (b * z - c * y)]
  refine ⟨by positivity, ?_⟩
  nlinarith

theorem C03_Position3D_distance : IsMetric Position3D.distance where
  nonneg _ _ := Real.sqrt_nonneg _
  eq_zero a b := by
    unfold Position3D.distance
    rw [Real.sqrt_eq_zero (by unfold Position3D.distanceSquared; linarith [mul_self_nonneg (a.x - b.x), mul_self_nonneg (a.y - b.y), mul_self_nonneg (a.z - b.z)])]
    unfold Position3D.distanceSquared
    constructor
    · intro h
      have hx := mul_self_nonneg (a.x - b.x)
      have hy := mul_self_nonneg (a.y - b.y)
      have hz := mul_self_nonneg (a.z - b.z)
      ext
      · exact sub_eq_zero.1 (mul_self_eq_zero.1 (by linarith))
      · exact sub_eq_zero.1 (mul_self_eq_zero.1 (by linarith))
      · exact sub_eq_zero.1 (mul_self_eq_zero.1 (by linarith))
    · rintro rfl; ring
  symm a b := by
    unfold Position3D.distance Position3D.distanceSquared; congr 1; ring
  triangle a b c := by
    unfold Position3D.distance Position3D.distanceSquared
    have := minkowski3 (a.x - b.x) (a.y - b.y) (a.z - b.z) (b.x - c.x) (b.y - c.y) (b.z - c.z)
    simp only [← sq]
    convert this using 3 <;> ring

theorem C03_Position2D_distance : IsMetric Position2D.distance := by
  have key : ∀ a b : Position2D, Position2D.distance a b =
      Position3D.distance ⟨a.x, a.y, 0⟩ ⟨b.x, b.y, 0⟩ := by
    intro a b
    unfold Position2D.distance Position2D.distanceSquared Position3D.distance
      Position3D.distanceSquared
    congr 1; ring
  refine ⟨fun _ _ => Real.sqrt_nonneg _, ?_, ?_, ?_⟩
  · intro a b
    rw [key, C03_Position3D_distance.eq_zero]
    simp only [Position3D.mk.injEq, and_true]
    exact ⟨fun h => Position2D.ext h.1 h.2, fun h => by subst h; simp⟩
  · intro a b; rw [key, key, C03_Position3D_distance.symm]
  · intro a b c; rw [key, key, key]; exact C03_Position3D_distance.triangle _ _ _

/-- The distance of Pose2D, Position6D and Transform is the distance of the
translation parts; the squared versions are the squares. -/
theorem C03_translation_only :
    (∀ p q : Pose2D, Pose2D.distance p q = Position2D.distance ⟨p.x, p.y⟩ ⟨q.x, q.y⟩) ∧
    (∀ p q : Position6D, Position6D.distance p q = Position3D.distance ⟨p.x, p.y, p.z⟩ ⟨q.x, q.y, q.z⟩) ∧
    (∀ p q : Transform, Transform.distance p q =
      Position3D.distance ⟨p.r14, p.r24, p.r34⟩ ⟨q.r14, q.r24, q.r34⟩) ∧
    (∀ p q : Position2D, Position2D.distanceSquared p q = Position2D.distance p q ^ 2) ∧
    (∀ p q : Position3D, Position3D.distanceSquared p q = Position3D.distance p q ^ 2) ∧
    (∀ p q : Pose2D, Pose2D.distanceSquared p q = Pose2D.distance p q ^ 2) ∧
    (∀ p q : Position6D, Position6D.distanceSquared p q = Position6D.distance p q ^ 2) ∧
    (∀ p q : Transform, Transform.distanceSquared p q = Transform.distance p q ^ 2) := by
  refine ⟨fun _ _ => rfl, fun _ _ => rfl, fun _ _ => rfl, ?_, ?_, ?_, ?_, ?_⟩
  · intro p q; exact (Real.sq_sqrt (by unfold Position2D.distanceSquared; linarith [mul_self_nonneg (p.x - q.x), mul_self_nonneg (p.y - q.y)])).symm
  · intro p q; exact (Real.sq_sqrt (by unfold Position3D.distanceSquared; linarith [mul_self_nonneg (p.x - q.x), mul_self_nonneg (p.y - q.y), mul_self_nonneg (p.z - q.z)])).symm
  · intro p q; exact (Real.sq_sqrt (by unfold Pose2D.distanceSquared; linarith [mul_self_nonneg (p.x - q.x), mul_self_nonneg (p.y - q.y)])).symm
  · intro p q; exact (Real.sq_sqrt (by unfold Position6D.distanceSquared; linarith [mul_self_nonneg (p.x - q.x), mul_self_nonneg (p.y - q.y), mul_self_nonneg (p.z - q.z)])).symm
  · intro p q; exact (Real.sq_sqrt (by simp only [Transform.distanceSquared]; linarith [mul_self_nonneg (p.r14 - q.r14), mul_self_nonneg (p.r24 - q.r24), mul_self_nonneg (p.r34 - q.r34)])).symm

/-- Consequently distance zero does not identify poses. -/
theorem C03_pose_distance_not_metric :
    ∃ p q : Pose2D, p ≠ q ∧ Pose2D.distance p q = 0 := by
  refine ⟨⟨1, 2, 0⟩, ⟨1, 2, 3⟩, by simp, ?_⟩
  simp [Pose2D.distance, Pose2D.distanceSquared]

theorem near_refl (x e : ℝ) (h : 0 ≤ e) : |x - x| ≤ e := by simpa using h
theorem near_symm {x y e : ℝ} (h : |x - y| ≤ e) : |y - x| ≤ e := by rwa [abs_sub_comm]
theorem near_zero {x y : ℝ} : |x - y| ≤ 0 ↔ x = y := by
  rw [abs_nonpos_iff, sub_eq_zero]
theorem near_add {x y z e f : ℝ} (h : |x - y| ≤ e) (h' : |y - z| ≤ f) : |x - z| ≤ e + f :=
  (abs_sub_le x y z).trans (add_le_add h h')

theorem C03_Position2D_isNear : IsTolerance Position2D.isNear where
  refl a e h := ⟨near_refl _ _ h, near_refl _ _ h⟩
  symm a b e := fun ⟨h0, h1⟩ => ⟨near_symm h0, near_symm h1⟩
  mono a b e f h := fun ⟨h0, h1⟩ => ⟨h0.trans h, h1.trans h⟩
  zero a b := by
    simp only [Position2D.isNear, near_zero, Position2D.ext_iff]
  nonneg a b e := fun h => (abs_nonneg _).trans h.1
  add a b c e f := fun ⟨h0, h1⟩ ⟨k0, k1⟩ =>
    ⟨near_add h0 k0, near_add h1 k1⟩

theorem C03_Position2D_eq (a b : Position2D) : Position2D.eq a b ↔ a = b := by
  simp only [Position2D.eq, Position2D.ext_iff]

theorem C03_Position3D_isNear : IsTolerance Position3D.isNear where
  refl a e h := ⟨near_refl _ _ h, near_refl _ _ h, near_refl _ _ h⟩
  symm a b e := fun ⟨h0, h1, h2⟩ => ⟨near_symm h0, near_symm h1, near_symm h2⟩
  mono a b e f h := fun ⟨h0, h1, h2⟩ => ⟨h0.trans h, h1.trans h, h2.trans h⟩
  zero a b := by
    simp only [Position3D.isNear, near_zero, Position3D.ext_iff]
  nonneg a b e := fun h => (abs_nonneg _).trans h.1
  add a b c e f := fun ⟨h0, h1, h2⟩ ⟨k0, k1, k2⟩ =>
    ⟨near_add h0 k0, near_add h1 k1, near_add h2 k2⟩

theorem C03_Position3D_eq (a b : Position3D) : Position3D.eq a b ↔ a = b := by
  simp only [Position3D.eq, Position3D.ext_iff]

theorem C03_Position6D_isNear : IsTolerance Position6D.isNear where
  refl a e h := ⟨near_refl _ _ h, near_refl _ _ h, near_refl _ _ h, near_refl _ _ h, near_refl _ _ h, near_refl _ _ h⟩
  symm a b e := fun ⟨h0, h1, h2, h3, h4, h5⟩ => ⟨near_symm h0, near_symm h1, near_symm h2, near_symm h3, near_symm h4, near_symm h5⟩
  mono a b e f h := fun ⟨h0, h1, h2, h3, h4, h5⟩ => ⟨h0.trans h, h1.trans h, h2.trans h, h3.trans h, h4.trans h, h5.trans h⟩
  zero a b := by
    simp only [Position6D.isNear, near_zero, Position6D.ext_iff]
  nonneg a b e := fun h => (abs_nonneg _).trans h.1
  add a b c e f := fun ⟨h0, h1, h2, h3, h4, h5⟩ ⟨k0, k1, k2, k3, k4, k5⟩ =>
    ⟨near_add h0 k0, near_add h1 k1, near_add h2 k2, near_add h3 k3, near_add h4 k4, near_add h5 k5⟩

theorem C03_Position6D_eq (a b : Position6D) : Position6D.eq a b ↔ a = b := by
  simp only [Position6D.eq, Position6D.ext_iff]

theorem C03_Velocity3D_isNear : IsTolerance Velocity3D.isNear where
  refl a e h := ⟨near_refl _ _ h, near_refl _ _ h, near_refl _ _ h⟩
  symm a b e := fun ⟨h0, h1, h2⟩ => ⟨near_symm h0, near_symm h1, near_symm h2⟩
  mono a b e f h := fun ⟨h0, h1, h2⟩ => ⟨h0.trans h, h1.trans h, h2.trans h⟩
  zero a b := by
    simp only [Velocity3D.isNear, near_zero, Velocity3D.ext_iff]
  nonneg a b e := fun h => (abs_nonneg _).trans h.1
  add a b c e f := fun ⟨h0, h1, h2⟩ ⟨k0, k1, k2⟩ =>
    ⟨near_add h0 k0, near_add h1 k1, near_add h2 k2⟩

theorem C03_Velocity3D_eq (a b : Velocity3D) : Velocity3D.eq a b ↔ a = b := by
  simp only [Velocity3D.eq, Velocity3D.ext_iff]

theorem C03_Velocity6D_isNear : IsTolerance Velocity6D.isNear where
  refl a e h := ⟨near_refl _ _ h, near_refl _ _ h, near_refl _ _ h, near_refl _ _ h, near_refl _ _ h, near_refl _ _ h⟩
  symm a b e := fun ⟨h0, h1, h2, h3, h4, h5⟩ => ⟨near_symm h0, near_symm h1, near_symm h2, near_symm h3, near_symm h4, near_symm h5⟩
  mono a b e f h := fun ⟨h0, h1, h2, h3, h4, h5⟩ => ⟨h0.trans h, h1.trans h, h2.trans h, h3.trans h, h4.trans h, h5.trans h⟩
  zero a b := by
    simp only [Velocity6D.isNear, near_zero, Velocity6D.ext_iff]
  nonneg a b e := fun h => (abs_nonneg _).trans h.1
  add a b c e f := fun ⟨h0, h1, h2, h3, h4, h5⟩ ⟨k0, k1, k2, k3, k4, k5⟩ =>
    ⟨near_add h0 k0, near_add h1 k1, near_add h2 k2, near_add h3 k3, near_add h4 k4, near_add h5 k5⟩

theorem C03_Velocity6D_eq (a b : Velocity6D) : Velocity6D.eq a b ↔ a = b := by
  simp only [Velocity6D.eq, Velocity6D.ext_iff]

theorem C03_Rotation3D_isNear : IsTolerance Rotation3D.isNear where
  refl a e h := ⟨near_refl _ _ h, near_refl _ _ h, near_refl _ _ h⟩
  symm a b e := fun ⟨h0, h1, h2⟩ => ⟨near_symm h0, near_symm h1, near_symm h2⟩
  mono a b e f h := fun ⟨h0, h1, h2⟩ => ⟨h0.trans h, h1.trans h, h2.trans h⟩
  zero a b := by
    simp only [Rotation3D.isNear, near_zero, Rotation3D.ext_iff]
  nonneg a b e := fun h => (abs_nonneg _).trans h.1
  add a b c e f := fun ⟨h0, h1, h2⟩ ⟨k0, k1, k2⟩ =>
    ⟨near_add h0 k0, near_add h1 k1, near_add h2 k2⟩

theorem C03_Rotation3D_eq (a b : Rotation3D) : Rotation3D.eq a b ↔ a = b := by
  simp only [Rotation3D.eq, Rotation3D.ext_iff]

theorem C03_Pose2D_isNear : IsTolerance Pose2D.isNear where
  refl a e h := ⟨near_refl _ _ h, near_refl _ _ h, near_refl _ _ h⟩
  symm a b e := fun ⟨h0, h1, h2⟩ => ⟨near_symm h0, near_symm h1, near_symm h2⟩
  mono a b e f h := fun ⟨h0, h1, h2⟩ => ⟨h0.trans h, h1.trans h, h2.trans h⟩
  zero a b := by
    simp only [Pose2D.isNear, near_zero, Pose2D.ext_iff]
  nonneg a b e := fun h => (abs_nonneg _).trans h.1
  add a b c e f := fun ⟨h0, h1, h2⟩ ⟨k0, k1, k2⟩ =>
    ⟨near_add h0 k0, near_add h1 k1, near_add h2 k2⟩

theorem C03_Pose2D_eq (a b : Pose2D) : Pose2D.eq a b ↔ a = b := by
  simp only [Pose2D.eq, Pose2D.ext_iff]

theorem C03_Rotation_isNear : IsTolerance Rotation.isNear where
  refl a e h := ⟨near_refl _ _ h, near_refl _ _ h, near_refl _ _ h, near_refl _ _ h, near_refl _ _ h, near_refl _ _ h, near_refl _ _ h, near_refl _ _ h, near_refl _ _ h⟩
  symm a b e := fun ⟨h0, h1, h2, h3, h4, h5, h6, h7, h8⟩ => ⟨near_symm h0, near_symm h1, near_symm h2, near_symm h3, near_symm h4, near_symm h5, near_symm h6, near_symm h7, near_symm h8⟩
  mono a b e f h := fun ⟨h0, h1, h2, h3, h4, h5, h6, h7, h8⟩ => ⟨h0.trans h, h1.trans h, h2.trans h, h3.trans h, h4.trans h, h5.trans h, h6.trans h, h7.trans h, h8.trans h⟩
  zero a b := by
    simp only [Rotation.isNear, near_zero, Rotation.ext_iff]
  nonneg a b e := fun h => (abs_nonneg _).trans h.1
  add a b c e f := fun ⟨h0, h1, h2, h3, h4, h5, h6, h7, h8⟩ ⟨k0, k1, k2, k3, k4, k5, k6, k7, k8⟩ =>
    ⟨near_add h0 k0, near_add h1 k1, near_add h2 k2, near_add h3 k3, near_add h4 k4, near_add h5 k5, near_add h6 k6, near_add h7 k7, near_add h8 k8⟩

theorem C03_Rotation_eq (a b : Rotation) : Rotation.eq a b ↔ a = b := by
  simp only [Rotation.eq, Rotation.ext_iff]

theorem C03_Transform_isNear : IsTolerance Transform.isNear where
  refl a e h := ⟨near_refl _ _ h, near_refl _ _ h, near_refl _ _ h, near_refl _ _ h, near_refl _ _ h, near_refl _ _ h, near_refl _ _ h, near_refl _ _ h, near_refl _ _ h, near_refl _ _ h, near_refl _ _ h, near_refl _ _ h⟩
  symm a b e := fun ⟨h0, h1, h2, h3, h4, h5, h6, h7, h8, h9, h10, h11⟩ => ⟨near_symm h0, near_symm h1, near_symm h2, near_symm h3, near_symm h4, near_symm h5, near_symm h6, near_symm h7, near_symm h8, near_symm h9, near_symm h10, near_symm h11⟩
  mono a b e f h := fun ⟨h0, h1, h2, h3, h4, h5, h6, h7, h8, h9, h10, h11⟩ => ⟨h0.trans h, h1.trans h, h2.trans h, h3.trans h, h4.trans h, h5.trans h, h6.trans h, h7.trans h, h8.trans h, h9.trans h, h10.trans h, h11.trans h⟩
  zero a b := by
    simp only [Transform.isNear, near_zero, Transform.ext_iff]
    tauto
  nonneg a b e := fun h => (abs_nonneg _).trans h.1
  add a b c e f := fun ⟨h0, h1, h2, h3, h4, h5, h6, h7, h8, h9, h10, h11⟩ ⟨k0, k1, k2, k3, k4, k5, k6, k7, k8, k9, k10, k11⟩ =>
    ⟨near_add h0 k0, near_add h1 k1, near_add h2 k2, near_add h3 k3, near_add h4 k4, near_add h5 k5, near_add h6 k6, near_add h7 k7, near_add h8 k8, near_add h9 k9, near_add h10 k10, near_add h11 k11⟩

theorem C03_Transform_eq (a b : Transform) : Transform.eq a b ↔ a = b := by
  simp only [Transform.eq, Transform.ext_iff]

theorem C03_Quaternion_eq (a b : Quat) : Quat.eq a b ↔ a = b := by
  simp only [Quat.eq, Quat.ext_iff]

theorem C03_PositionAndVelocity_isNear : IsTolerance PositionAndVelocity.isNear where
  refl a e h := ⟨near_refl _ _ h, near_refl _ _ h⟩
  symm a b e := fun ⟨h0, h1⟩ => ⟨near_symm h0, near_symm h1⟩
  mono a b e f h := fun ⟨h0, h1⟩ => ⟨h0.trans h, h1.trans h⟩
  zero a b := by
    simp only [PositionAndVelocity.isNear, near_zero, PositionAndVelocity.ext_iff]
  nonneg a b e := fun h => (abs_nonneg _).trans h.1
  add a b c e f := fun ⟨h0, h1⟩ ⟨k0, k1⟩ => ⟨near_add h0 k0, near_add h1 k1⟩

theorem C03_TransformAndVelocity6D_isNear : IsTolerance TransformAndVelocity6D.isNear where
  refl a e h := ⟨C03_Transform_isNear.refl _ _ h, C03_Velocity6D_isNear.refl _ _ h⟩
  symm a b e := fun ⟨h0, h1⟩ => ⟨C03_Transform_isNear.symm _ _ _ h0, C03_Velocity6D_isNear.symm _ _ _ h1⟩
  mono a b e f h := fun ⟨h0, h1⟩ =>
    ⟨C03_Transform_isNear.mono _ _ _ _ h h0, C03_Velocity6D_isNear.mono _ _ _ _ h h1⟩
  zero a b := by
    rw [TransformAndVelocity6D.isNear, C03_Transform_isNear.zero, C03_Velocity6D_isNear.zero,
      TransformAndVelocity6D.ext_iff]
  nonneg a b e := fun h => C03_Transform_isNear.nonneg _ _ _ h.1
  add a b c e f := fun ⟨h0, h1⟩ ⟨k0, k1⟩ =>
    ⟨C03_Transform_isNear.add _ _ _ _ _ h0 k0, C03_Velocity6D_isNear.add _ _ _ _ _ h1 k1⟩

/-- `isNear` against the metric: within distance `eps` implies near, near implies
within `√3 · eps`. -/
theorem C03_Position3D_isNear_distance (a b : Position3D) (eps : ℝ) (h : 0 ≤ eps) :
    (Position3D.distance a b ≤ eps → Position3D.isNear a b eps) ∧
    (Position3D.isNear a b eps → Position3D.distance a b ≤ √3 * eps) := by
  unfold Position3D.distance Position3D.distanceSquared Position3D.isNear
  constructor
  · intro hd
    have h2 := (Real.sqrt_le_left h).1 hd
    refine ⟨abs_le_of_sq_le_sq ?_ h, abs_le_of_sq_le_sq ?_ h, abs_le_of_sq_le_sq ?_ h⟩ <;>
      nlinarith [mul_self_nonneg (a.x - b.x), mul_self_nonneg (a.y - b.y),
        mul_self_nonneg (a.z - b.z)]
  · rintro ⟨hx, hy, hz⟩
    rw [show √3 * eps = √(3 * eps ^ 2) by
      rw [Real.sqrt_mul (by norm_num), Real.sqrt_sq h]]
    apply Real.sqrt_le_sqrt
    have sqx := sq_le_sq' (abs_le.1 hx).1 (abs_le.1 hx).2
    have sqy := sq_le_sq' (abs_le.1 hy).1 (abs_le.1 hy).2
    have sqz := sq_le_sq' (abs_le.1 hz).1 (abs_le.1 hz).2
    nlinarith

/-- `Quaternion::isNear` is strict and identifies `q` with `-q`: symmetric,
monotone, reflexive for positive tolerance; near for every positive tolerance
exactly when equal up to sign. Missing for the full claim: reflexivity and equality for tolerance
zero, which fail (`C03_Quaternion_isNear_zero`). -/
theorem C03_Quaternion_isNear_partial :
    (∀ p eps, 0 < eps → Quat.isNear p p eps) ∧
    (∀ p q eps, Quat.isNear p q eps → Quat.isNear q p eps) ∧
    (∀ p q e f, e ≤ f → Quat.isNear p q e → Quat.isNear p q f) ∧
    (∀ p q, (∀ eps > 0, Quat.isNear p q eps) ↔
      p = q ∨ p = ⟨-q.w, -q.x, -q.y, -q.z⟩) := by
  refine ⟨?_, ?_, ?_, ?_⟩
  · intro p e h; left; simpa using h
  · rintro p q e (⟨h1, h2, h3, h4⟩ | ⟨h1, h2, h3, h4⟩)
    · left; simp only [abs_sub_comm] at *; exact ⟨h1, h2, h3, h4⟩
    · right; simp only [add_comm q.w, add_comm q.x, add_comm q.y, add_comm q.z]
      exact ⟨h1, h2, h3, h4⟩
  · rintro p q e f h (⟨h1, h2, h3, h4⟩ | ⟨h1, h2, h3, h4⟩)
    · left; exact ⟨h1.trans_le h, h2.trans_le h, h3.trans_le h, h4.trans_le h⟩
    · right; exact ⟨h1.trans_le h, h2.trans_le h, h3.trans_le h, h4.trans_le h⟩
  · intro p q
    constructor
    · intro h
      by_contra hcon
      push Not at hcon
      obtain ⟨h1, h2⟩ := hcon
      -- the largest component difference is positive on both sides
      have hm : 0 < max (max |p.w - q.w| |p.x - q.x|) (max |p.y - q.y| |p.z - q.z|) := by
        by_contra hle
        have hle := not_lt.1 hle
        simp only [max_le_iff, near_zero] at hle
        exact h1 (Quat.ext hle.1.1 hle.1.2 hle.2.1 hle.2.2)
      have hM : 0 < max (max |p.w + q.w| |p.x + q.x|) (max |p.y + q.y| |p.z + q.z|) := by
        by_contra hle
        have hle := not_lt.1 hle
        simp only [max_le_iff, abs_nonpos_iff] at hle
        exact h2 (Quat.ext (by simp only; linarith [hle.1.1]) (by simp only; linarith [hle.1.2])
          (by simp only; linarith [hle.2.1]) (by simp only; linarith [hle.2.2]))
      rcases h _ (lt_min hm hM) with ⟨a1, a2, a3, a4⟩ | ⟨a1, a2, a3, a4⟩
      · have := max_lt (max_lt (a1.trans_le (min_le_left _ _)) (a2.trans_le (min_le_left _ _)))
          (max_lt (a3.trans_le (min_le_left _ _)) (a4.trans_le (min_le_left _ _)))
        exact lt_irrefl _ this
      · have := max_lt (max_lt (a1.trans_le (min_le_right _ _)) (a2.trans_le (min_le_right _ _)))
          (max_lt (a3.trans_le (min_le_right _ _)) (a4.trans_le (min_le_right _ _)))
        exact lt_irrefl _ this
    · rintro (rfl | rfl) e he
      · left; simpa using he
      · right; simpa using he

/-- With tolerance zero no quaternion is near itself, so the general claim "with
tolerance zero `isNear` is equality" fails for Quaternion. -/
theorem C03_Quaternion_isNear_zero (p q : Quat) : ¬ Quat.isNear p q 0 := by
  rintro (⟨h, _⟩ | ⟨h, _⟩) <;> exact absurd h (not_lt.2 (abs_nonneg _))

/-- A displacement is near itself up to the sign of its quaternion. -/
theorem C03_Displacement_isNear (a b : Displacement) :
    (∀ eps > 0, Displacement.isNear a b eps) ↔
      a.P = b.P ∧ (a.Q = b.Q ∨ a.Q = ⟨-b.Q.w, -b.Q.x, -b.Q.y, -b.Q.z⟩) := by
  rw [← (C03_Quaternion_isNear_partial.2.2.2 a.Q b.Q)]
  constructor
  · intro h
    refine ⟨?_, fun e he => (h e he).2⟩
    rw [← C03_Position3D_isNear.zero]
    exact ⟨le_of_forall_pos_le_add fun e he => by simpa using (h e he).1.1,
      le_of_forall_pos_le_add fun e he => by simpa using (h e he).1.2.1,
      le_of_forall_pos_le_add fun e he => by simpa using (h e he).1.2.2⟩
  · rintro ⟨h1, h2⟩ e he
    exact ⟨by rw [h1]; exact C03_Position3D_isNear.refl _ _ he.le, h2 e he⟩

/-! ### Non-trivial instances -/

example : Position2D.distance ⟨0, 0⟩ ⟨3, 4⟩ = 5 := by
  unfold Position2D.distance Position2D.distanceSquared
  rw [show ((0:ℝ) - 3) * (0 - 3) + (0 - 4) * (0 - 4) = 5 ^ 2 by norm_num,
    Real.sqrt_sq (by norm_num)]
example : Position3D.isNear ⟨1, 2, 3⟩ ⟨1, 2.5, 3⟩ 0.5 := by
  unfold Position3D.isNear; norm_num [abs_le]
example : Quat.isNear ⟨1, 0, 0, 0⟩ ⟨-1, 0, 0, 0⟩ 0.1 := by
  unfold Quat.isNear; norm_num

end AlMath
