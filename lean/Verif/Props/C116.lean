import Verif.Model.FloatNearTypes
import Verif.Lemmas.FloatDot
import Verif.Props.C75

/-!
C116: comparisons with a tolerance of planar, six-component, transform and quaternion types in single precision.
-/

namespace AlMath.F32

/-- All differences are within `e`. Not in /repo: specification. -/
def CompWithin {n : ℕ} (u v : Fin n → ℝ) (e : ℝ) : Prop := ∀ i, |u i - v i| ≤ e

/-- All differences are within `e`, up to one rounding. Not in /repo: specification. -/
def CompAboutWithin {n : ℕ} (u v : Fin n → ℝ) (e : ℝ) : Prop := ∀ i, |u i - v i| * (1 - 2 ^ (-24 : ℤ)) ≤ e

/-- A comparison that accepts what is within the tolerance, and nothing else up to one rounding. Not in /repo:
specification. -/
def Tolerant (n : ℕ) (R : (Fin n → ℝ) → (Fin n → ℝ) → ℝ → Prop) : Prop :=
  ∀ u v e, (∀ i, Rep (u i)) → (∀ i, Rep (v i)) → Rep e → (CompWithin u v e → R u v e) ∧ (R u v e → CompAboutWithin u v e)

theorem tolerant_of {n : ℕ} {R : (Fin n → ℝ) → (Fin n → ℝ) → ℝ → Prop}
    (h : ∀ u v e, R u v e ↔ ∀ i, near (fin (u i)) (fin (v i)) (fin e)) : Tolerant n R := by
  intro u v e hu hv he
  have k := fun i => C75_near (u i) (v i) e (hu i) (hv i) he
  rw [h]
  exact ⟨fun w i => (k i).1 (w i), fun w i => (k i).2 (w i)⟩

/-- Comparison of two positions in the plane. -/
theorem C116_position2D : Tolerant 2 (fun u v e =>
    Position2D.isNear ⟨fin (u 0), fin (u 1)⟩ ⟨fin (v 0), fin (v 1)⟩ (fin e)) :=
  tolerant_of fun u v e => by simp [Position2D.isNear, Fin.forall_fin_succ]

/-- Comparison of two poses: the angles are compared as numbers, not up to whole turns. -/
theorem C116_pose2D : Tolerant 3 (fun u v e =>
    Pose2D.isNear ⟨fin (u 0), fin (u 1), fin (u 2)⟩ ⟨fin (v 0), fin (v 1), fin (v 2)⟩ (fin e)) :=
  tolerant_of fun u v e => by simp [Pose2D.isNear, Fin.forall_fin_succ]

/-- Comparison of two positions with six components. -/
theorem C116_position6D : Tolerant 6 (fun u v e =>
    Position6D.isNear ⟨fin (u 0), fin (u 1), fin (u 2), fin (u 3), fin (u 4), fin (u 5)⟩
      ⟨fin (v 0), fin (v 1), fin (v 2), fin (v 3), fin (v 4), fin (v 5)⟩ (fin e)) :=
  tolerant_of fun u v e => by
    rw [Position6D.isNear]
    refine ⟨?_, fun h => ⟨h 0, h 1, h 2, h 3, h 4, h 5⟩⟩
    rintro ⟨h0, h1, h2, h3, h4, h5⟩ i
    fin_cases i <;> assumption

/-- Comparison of two velocities with six components. -/
theorem C116_velocity6D : Tolerant 6 (fun u v e =>
    Velocity6D.isNear ⟨fin (u 0), fin (u 1), fin (u 2), fin (u 3), fin (u 4), fin (u 5)⟩
      ⟨fin (v 0), fin (v 1), fin (v 2), fin (v 3), fin (v 4), fin (v 5)⟩ (fin e)) :=
  tolerant_of fun u v e => by
    rw [Velocity6D.isNear]
    refine ⟨?_, fun h => ⟨h 0, h 1, h 2, h 3, h 4, h 5⟩⟩
    rintro ⟨h0, h1, h2, h3, h4, h5⟩ i
    fin_cases i <;> assumption

/-- Comparison of two transforms, given by their twelve elements. -/
theorem C116_transform : Tolerant 12 (fun u v e =>
    Transform.isNear ⟨⟨fin (u 0), fin (u 1), fin (u 2), fin (u 3), fin (u 4), fin (u 5), fin (u 6), fin (u 7), fin (u 8)⟩,
        fin (u 9), fin (u 10), fin (u 11)⟩
      ⟨⟨fin (v 0), fin (v 1), fin (v 2), fin (v 3), fin (v 4), fin (v 5), fin (v 6), fin (v 7), fin (v 8)⟩,
        fin (v 9), fin (v 10), fin (v 11)⟩ (fin e)) :=
  tolerant_of fun u v e => by
    rw [Transform.isNear]
    refine ⟨?_, fun h => ⟨h 0, h 1, h 2, h 3, h 4, h 5, h 6, h 7, h 8, h 9, h 10, h 11⟩⟩
    rintro ⟨h0, h1, h2, h3, h4, h5, h6, h7, h8, h9, h10, h11⟩ i
    fin_cases i <;> assumption

/-- The strict comparison of one difference. -/
theorem strict_near {x y e : ℝ} (hx : Rep x) (hy : Rep y) (he : Rep e) :
    (lt (abs (sub (fin x) (fin y))) (fin e) → |x - y| < e) ∧
    (|x - y| * (1 + 2 ^ (-24 : ℤ)) < e → lt (abs (sub (fin x) (fin y))) (fin e)) := by
  have hr := abs_rnd (x - y)
  have he2 := (abs_lt.1 he.lt).2
  have h1 := rnd_add hx.grid hy.neg.grid
  rw [← sub_eq_add_neg] at h1
  have h2 := le_of_err h1
  have ap : F32.abs pinf = pinf := rfl
  have an : F32.abs ninf = pinf := rfl
  rw [sub, neg, add, ← sub_eq_add_neg, round]
  constructor
  · intro h
    split_ifs at h
    · rw [ap] at h
      exact h.elim
    · rw [an] at h
      exact h.elim
    · have h : |rnd (x - y)| < e := h
      rw [hr] at h
      by_contra hc
      exact absurd (le_rnd_of_le he.grid (not_lt.1 hc)) (not_le.2 h)
  · intro h
    have h3 : |rnd (x - y)| < e := by linarith
    obtain ⟨h4, h5⟩ := abs_lt.1 h3
    rw [if_neg (by linarith), if_neg (by linarith)]
    exact h3

theorem add_eq_sub (x y : ℝ) : add (fin x) (fin y) = sub (fin x) (fin (-y)) := by
  rw [sub, neg, neg_neg]

/-- The strict comparison of one sum. -/
theorem strict_opp {x y e : ℝ} (hx : Rep x) (hy : Rep y) (he : Rep e) :
    (lt (abs (add (fin x) (fin y))) (fin e) → |x + y| < e) ∧
    (|x + y| * (1 + 2 ^ (-24 : ℤ)) < e → lt (abs (add (fin x) (fin y))) (fin e)) := by
  have := strict_near hx hy.neg he
  rwa [sub_neg_eq_add, ← add_eq_sub] at this

/-- Comparison of two quaternions: what is accepted differs by less than the tolerance, exactly, from the other or from
its opposite; what does so with the margin of one rounding is accepted. -/
theorem C116_quaternion (u v : Fin 4 → ℝ) (e : ℝ) (hu : ∀ i, Rep (u i)) (hv : ∀ i, Rep (v i)) (he : Rep e) :
    (Quat.isNear ⟨fin (u 0), fin (u 1), fin (u 2), fin (u 3)⟩ ⟨fin (v 0), fin (v 1), fin (v 2), fin (v 3)⟩ (fin e) →
      (∀ i, |u i - v i| < e) ∨ ∀ i, |u i + v i| < e) ∧
    (((∀ i, |u i - v i| * (1 + 2 ^ (-24 : ℤ)) < e) ∨ ∀ i, |u i + v i| * (1 + 2 ^ (-24 : ℤ)) < e) →
      Quat.isNear ⟨fin (u 0), fin (u 1), fin (u 2), fin (u 3)⟩ ⟨fin (v 0), fin (v 1), fin (v 2), fin (v 3)⟩ (fin e)) := by
  have k := fun i => strict_near (hu i) (hv i) he
  have l := fun i => strict_opp (hu i) (hv i) he
  constructor
  · rintro (⟨h0, h1, h2, h3⟩ | ⟨h0, h1, h2, h3⟩)
    · left
      intro i
      fin_cases i
      exacts [(k 0).1 h0, (k 1).1 h1, (k 2).1 h2, (k 3).1 h3]
    · right
      intro i
      fin_cases i
      exacts [(l 0).1 h0, (l 1).1 h1, (l 2).1 h2, (l 3).1 h3]
  · rintro (h | h)
    · exact .inl ⟨(k 0).2 (h 0), (k 1).2 (h 1), (k 2).2 (h 2), (k 3).2 (h 3)⟩
    · exact .inr ⟨(l 0).2 (h 0), (l 1).2 (h 1), (l 2).2 (h 2), (l 3).2 (h 3)⟩

/-- Unlike all other types, no quaternion is near itself for the tolerance 0. -/
theorem C116_quaternion_zero (p q : Quat) : ¬ Quat.isNear p q (fin 0) := by
  have key : ∀ a : F32, ¬ lt (abs a) (fin 0) := by
    intro a
    cases a with
    | fin x => exact not_lt.2 (abs_nonneg x)
    | _ => exact fun h => h
  rintro (⟨h, -⟩ | ⟨h, -⟩) <;> exact key _ h

/-- Comparison of two displacements: the positions with a weak and the quaternions with a strict comparison. -/
theorem C116_displacement (p q : Fin 3 → ℝ) (u v : Fin 4 → ℝ) (e : ℝ) (hp : ∀ i, Rep (p i)) (hq : ∀ i, Rep (q i))
    (hu : ∀ i, Rep (u i)) (hv : ∀ i, Rep (v i)) (he : Rep e) :
    (Displacement.isNear ⟨⟨fin (p 0), fin (p 1), fin (p 2)⟩, ⟨fin (u 0), fin (u 1), fin (u 2), fin (u 3)⟩⟩
        ⟨⟨fin (q 0), fin (q 1), fin (q 2)⟩, ⟨fin (v 0), fin (v 1), fin (v 2), fin (v 3)⟩⟩ (fin e) →
      CompAboutWithin p q e ∧ ((∀ i, |u i - v i| < e) ∨ ∀ i, |u i + v i| < e)) ∧
    (CompWithin p q e → ((∀ i, |u i - v i| * (1 + 2 ^ (-24 : ℤ)) < e) ∨ ∀ i, |u i + v i| * (1 + 2 ^ (-24 : ℤ)) < e) →
      Displacement.isNear ⟨⟨fin (p 0), fin (p 1), fin (p 2)⟩, ⟨fin (u 0), fin (u 1), fin (u 2), fin (u 3)⟩⟩
        ⟨⟨fin (q 0), fin (q 1), fin (q 2)⟩, ⟨fin (v 0), fin (v 1), fin (v 2), fin (v 3)⟩⟩ (fin e)) := by
  have k := fun i => C75_near (p i) (q i) e (hp i) (hq i) he
  have l := C116_quaternion u v e hu hv he
  constructor
  · rintro ⟨⟨h0, h1, h2⟩, h⟩
    refine ⟨fun i => ?_, l.1 h⟩
    fin_cases i
    exacts [(k 0).2 h0, (k 1).2 h1, (k 2).2 h2]
  · intro h h'
    exact ⟨⟨(k 0).1 (h 0), (k 1).1 (h 1), (k 2).1 (h 2)⟩, l.2 h'⟩

/-! ### Examples -/

/-- Poses that differ by the tolerance are near, and those that differ by more than it are not. -/
example : Pose2D.isNear ⟨fin 1, fin 0, fin 1⟩ ⟨fin 0, fin 1, fin 0⟩ (fin 1) ∧
    ¬ Pose2D.isNear ⟨fin 1, fin 0, fin 1⟩ ⟨fin 0, fin 1, fin (-1)⟩ (fin 1) := by
  have r : ∀ i, Rep ((![1, 0, 1] : Fin 3 → ℝ) i) := by
    intro i
    fin_cases i
    exacts [Rep.one, Rep.zero, Rep.one]
  refine ⟨(C116_pose2D ![1, 0, 1] ![0, 1, 0] 1 r ?_ Rep.one).1 ?_, fun h => ?_⟩
  · intro i
    fin_cases i
    exacts [Rep.zero, Rep.one, Rep.zero]
  · intro i
    fin_cases i <;> simp
  · have : |(1 : ℝ) - -1| * (1 - 2 ^ (-24 : ℤ)) ≤ 1 := (C116_pose2D ![1, 0, 1] ![0, 1, -1] 1 r (by
      intro i
      fin_cases i
      exacts [Rep.zero, Rep.one, Rep.one.neg]) Rep.one).2 h 2
    norm_num at this

/-- Quaternions near up to the sign. -/
example : Quat.isNear ⟨fin 1, fin 0, fin 0, fin 0⟩ ⟨fin (-1), fin 0, fin 0, fin 0⟩ (fin 1) := by
  refine (C116_quaternion ![1, 0, 0, 0] ![-1, 0, 0, 0] 1 ?_ ?_ Rep.one).2 (.inr ?_)
  · intro i
    fin_cases i
    exacts [Rep.one, Rep.zero, Rep.zero, Rep.zero]
  · intro i
    fin_cases i
    exacts [Rep.one.neg, Rep.zero, Rep.zero, Rep.zero]
  · intro i
    fin_cases i <;> simp

end AlMath.F32
