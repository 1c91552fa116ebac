import Verif.Lemmas.Rot
import Verif.Model.Aggregates
import Mathlib.Data.List.Basic

/-!
C01: flat-vector conversion of every value type.

The specification uses only lists: `toVector` has the documented length,
constructing from it gives the value back, constructing from a vector of the
documented length and flattening gives the vector back, and any other length
gives the documented fallback. "Never reads outside the vector" is the fact that
the outcome is always `ok` (the model's `Res.read` is `ub` out of range).
-/

namespace AlMath

open Spec

/-- Specification of a flat-vector conversion pair: round trips in both
directions for length `n`, fallback `d` for every other length. -/
structure FlatVector {α : Type} (ofV : List ℝ → Res α) (toV : α → List ℝ) (n : ℕ) (d : α) :
    Prop where
  length : ∀ a, (toV a).length = n
  ofTo : ∀ a, ofV (toV a) = .ok a
  toOf : ∀ l, l.length = n → ∃ a, ofV l = .ok a ∧ toV a = l
  fallback : ∀ l, l.length ≠ n → ofV l = .ok d

theorem C01_Position2D : FlatVector Position2D.ofVector Position2D.toVector 2 ⟨0, 0⟩ where
  length _ := rfl
  ofTo a := by simp [Position2D.ofVector, Position2D.toVector]
  toOf l h := by
    match l, h with
    | [a, b], _ => exact ⟨⟨a, b⟩, by simp [Position2D.ofVector], rfl⟩
  fallback l h := by simp [Position2D.ofVector, h]

theorem C01_Position3D : FlatVector Position3D.ofVector Position3D.toVector 3 ⟨0, 0, 0⟩ where
  length _ := rfl
  ofTo a := by simp [Position3D.ofVector, Position3D.toVector]
  toOf l h := by
    match l, h with
    | [a, b, c], _ => exact ⟨⟨a, b, c⟩, by simp [Position3D.ofVector], rfl⟩
  fallback l h := by simp [Position3D.ofVector, h]

theorem C01_Position6D : FlatVector Position6D.ofVector Position6D.toVector 6 ⟨0, 0, 0, 0, 0, 0⟩ where
  length _ := rfl
  ofTo a := by simp [Position6D.ofVector, Position6D.toVector]
  toOf l h := by
    match l, h with
    | [a, b, c, d, e, f], _ => exact ⟨⟨a, b, c, d, e, f⟩, by simp [Position6D.ofVector], rfl⟩
  fallback l h := by simp [Position6D.ofVector, h]

theorem C01_Velocity3D : FlatVector Velocity3D.ofVector Velocity3D.toVector 3 ⟨0, 0, 0⟩ where
  length _ := rfl
  ofTo a := by simp [Velocity3D.ofVector, Velocity3D.toVector]
  toOf l h := by
    match l, h with
    | [a, b, c], _ => exact ⟨⟨a, b, c⟩, by simp [Velocity3D.ofVector], rfl⟩
  fallback l h := by simp [Velocity3D.ofVector, h]

theorem C01_Velocity6D : FlatVector Velocity6D.ofVector Velocity6D.toVector 6 ⟨0, 0, 0, 0, 0, 0⟩ where
  length _ := rfl
  ofTo a := by simp [Velocity6D.ofVector, Velocity6D.toVector]
  toOf l h := by
    match l, h with
    | [a, b, c, d, e, f], _ => exact ⟨⟨a, b, c, d, e, f⟩, by simp [Velocity6D.ofVector], rfl⟩
  fallback l h := by simp [Velocity6D.ofVector, h]

theorem C01_Rotation3D : FlatVector Rotation3D.ofVector Rotation3D.toVector 3 ⟨0, 0, 0⟩ where
  length _ := rfl
  ofTo a := by simp [Rotation3D.ofVector, Rotation3D.toVector]
  toOf l h := by
    match l, h with
    | [a, b, c], _ => exact ⟨⟨a, b, c⟩, by simp [Rotation3D.ofVector], rfl⟩
  fallback l h := by simp [Rotation3D.ofVector, h]

theorem C01_Pose2D : FlatVector Pose2D.ofVector Pose2D.toVector 3 ⟨0, 0, 0⟩ where
  length _ := rfl
  ofTo a := by simp [Pose2D.ofVector, Pose2D.toVector]
  toOf l h := by
    match l, h with
    | [a, b, c], _ => exact ⟨⟨a, b, c⟩, by simp [Pose2D.ofVector], rfl⟩
  fallback l h := by simp [Pose2D.ofVector, h]

theorem C01_Quaternion : FlatVector Quat.ofVector Quat.toVector 4 ⟨0, 0, 0, 0⟩ where
  length _ := rfl
  ofTo a := by simp [Quat.ofVector, Quat.toVector]
  toOf l h := by
    match l, h with
    | [a, b, c, d], _ => exact ⟨⟨a, b, c, d⟩, by simp [Quat.ofVector], rfl⟩
  fallback l h := by simp [Quat.ofVector, h]

/-- The fallback of the Quaternion constructor is not the default-constructed
value (its message says "set to default value") and is not a rotation: its norm
is zero. -/
theorem C01_Quaternion_fallback_not_default :
    ∃ l q, Quat.ofVector l = .ok q ∧ q ≠ Quat.one ∧ Quat.norm q = 0 := by
  refine ⟨[], ⟨0, 0, 0, 0⟩, by simp [Quat.ofVector], ?_, by simp [Quat.norm]⟩
  intro h
  have := congrArg Quat.w h
  simp [Quat.one] at this

/-- C01: `PositionAndVelocity` has no constructor from a vector; its two fields can be read back. -/
theorem C01_PositionAndVelocity (p : PositionAndVelocity) :
    p.toVector.length = 2 ∧ p.toVector[0]? = some p.q ∧ p.toVector[1]? = some p.dq :=
  ⟨rfl, rfl, rfl⟩

/-- Rotation: round trip through nine floats. -/
theorem C01_Rotation_roundtrip (r : Rotation) :
    (Rotation.toVector r).length = 9 ∧ Rotation.ofVector (Rotation.toVector r) = .ok r := by
  refine ⟨rfl, ?_⟩
  simp [Rotation.ofVector, Rotation.toVector]

/-- Rotation from any vector: nine floats are taken row by row; twelve or
sixteen floats are the rows of a transform, whose fourth column (and row) is
skipped; any other size gives the identity. The outcome is always `ok`. -/
theorem C01_Rotation_ofVector (l : List ℝ) :
    (l.length = 9 → ∃ r, Rotation.ofVector l = .ok r ∧ Rotation.toVector r = l) ∧
    (l.length = 12 ∨ l.length = 16 →
      ∃ r, Rotation.ofVector l = .ok r ∧
        ∀ (i j : Fin 3), r.mat i j = l.getD (4 * i.val + j.val) 0) ∧
    (l.length ≠ 9 → l.length ≠ 12 → l.length ≠ 16 → Rotation.ofVector l = .ok Rotation.one) := by
  refine ⟨fun h => ?_, fun h => ?_, fun h1 h2 h3 => ?_⟩
  · match l, h with
    | [a, b, c, d, e, f, g, h, i], _ =>
      exact ⟨⟨a, b, c, d, e, f, g, h, i⟩, by simp [Rotation.ofVector], rfl⟩
  · rcases h with h | h
    · match l, h with
      | [a, b, c, x, d, e, f, y, g, h, i, z], _ =>
        refine ⟨⟨a, b, c, d, e, f, g, h, i⟩, by simp [Rotation.ofVector], ?_⟩
        intro p q
        fin_cases p <;> fin_cases q <;> simp [Rotation.mat]
    · match l, h with
      | [a, b, c, x, d, e, f, y, g, h, i, z, x1, x2, x3, x4], _ =>
        refine ⟨⟨a, b, c, d, e, f, g, h, i⟩, by simp [Rotation.ofVector], ?_⟩
        intro p q
        fin_cases p <;> fin_cases q <;> simp [Rotation.mat]
  · simp [Rotation.ofVector, Rotation.one, h1, h2, h3]

/-- Transform: round trip through sixteen floats (and through the twelve floats
of the deprecated `transformToFloatVector`) for every rigid transform. Missing for the full claim:
transforms that are not rigid, which the constructor normalises (`C01_Transform_exact`,
`C01_Transform_changed`). -/
theorem C01_Transform_roundtrip_partial (t : Transform) (ht : IsRigid t) :
    (Transform.toVector t).length = 16 ∧ Transform.ofVector (Transform.toVector t) = .ok t ∧
    (Transform.toFloatVector t).length = 12 ∧
    Transform.ofVector (Transform.toFloatVector t) = .ok t := by
  have e := ht.eqs
  have hchk : Transform.checked t = t := by
    have : Transform.isTransform t Transform.defaultEps := by
      unfold Transform.isTransform Transform.defaultEps Transform.determinant
      have h1 : t.r12 * t.r11 + t.r22 * t.r21 + t.r32 * t.r31 = 0 := by
        linarith [e.c12]
      have h2 : t.r13 * t.r11 + t.r23 * t.r21 + t.r33 * t.r31 = 0 := by
        linarith [e.c13]
      have h3 : t.r13 * t.r12 + t.r23 * t.r22 + t.r33 * t.r32 = 0 := by
        linarith [e.c23]
      rw [h1, h2, h3, e.r11, e.r22, e.r33, e.det]
      norm_num
    simp [Transform.checked, this]
  refine ⟨rfl, ?_, rfl, ?_⟩
  · simp [Transform.ofVector, Transform.toVector, hchk]
  · simp [Transform.ofVector, Transform.toFloatVector, hchk]

/-- Transform from any vector: always `ok`; sizes other than 12 and 16 give the
identity; otherwise the translation is copied. -/
theorem C01_Transform_ofVector (l : List ℝ) :
    (l.length = 12 ∨ l.length = 16 →
      ∃ t, Transform.ofVector l = .ok t ∧ ∀ i : Fin 3, t.trans i = l.getD (4 * i.val + 3) 0) ∧
    (l.length ≠ 12 → l.length ≠ 16 → Transform.ofVector l = .ok Transform.one) := by
  have hnt : ∀ t : Transform, (Transform.checked t).trans = t.trans := by
    intro t
    unfold Transform.checked
    split_ifs
    · rfl
    · simp only [Transform.normalizeTransform, Transform.trans]
      split_ifs <;> rfl
  refine ⟨fun h => ?_, fun h2 h3 => ?_⟩
  · rcases h with h | h
    · match l, h with
      | [a, b, c, x, d, e, f, y, g, h, i, z], _ =>
        refine ⟨_, by simp [Transform.ofVector]; rfl, ?_⟩
        intro p
        rw [hnt]
        fin_cases p <;> simp [Transform.trans]
    · match l, h with
      | [a, b, c, x, d, e, f, y, g, h, i, z, x1, x2, x3, x4], _ =>
        refine ⟨_, by simp [Transform.ofVector]; rfl, ?_⟩
        intro p
        rw [hnt]
        fin_cases p <;> simp [Transform.trans]
  · simp [Transform.ofVector, Transform.one, h2, h3]

/-! ### `writeToVector` -/

/-- Specification of `writeToVector`: with room for all values, the buffer
keeps its prefix and suffix, the middle is the flattened value and the iterator
ends just after it; without room the behaviour is undefined. -/
def WritesFlat {α : Type} (w : α → List ℝ × ℕ → Res (List ℝ × ℕ)) (toV : α → List ℝ) : Prop :=
  ∀ (a : α) (pre mid post : List ℝ),
    (mid.length = (toV a).length →
      w a (pre ++ mid ++ post, pre.length) =
        .ok (pre ++ toV a ++ post, pre.length + (toV a).length)) ∧
    (mid.length < (toV a).length → w a (pre ++ mid, pre.length) = .ub)

theorem Res.writeAll_room {α : Type} (vs : List α) :
    ∀ (pre mid post : List α), mid.length = vs.length →
      Res.writeAll (pre ++ mid ++ post, pre.length) vs =
        .ok (pre ++ vs ++ post, pre.length + vs.length) := by
  induction vs with
  | nil =>
    intro pre mid post h
    have : mid = [] := List.length_eq_zero_iff.1 h
    subst this
    simp [Res.writeAll]
  | cons v vs ih =>
    intro pre mid post h
    match mid, h with
    | m :: mid, h =>
      have h' : mid.length = vs.length := by simpa using h
      have hlt : pre.length < (pre ++ m :: mid ++ post).length := by simp
      have hset : (pre ++ m :: mid ++ post).set pre.length v = (pre ++ [v]) ++ mid ++ post := by
        simp
      simp only [Res.writeAll, Res.writeStep, hlt, if_true, Res.bind_ok, hset]
      have := ih (pre ++ [v]) mid post h'
      simp only [List.length_append, List.length_singleton] at this
      rw [this]
      simp
      omega

theorem Res.writeAll_short {α : Type} (vs : List α) :
    ∀ (pre mid : List α), mid.length < vs.length →
      Res.writeAll (pre ++ mid, pre.length) vs = .ub := by
  induction vs with
  | nil => intro pre mid h; simp at h
  | cons v vs ih =>
    intro pre mid h
    match mid, h with
    | [], _ => simp [Res.writeAll, Res.writeStep]
    | m :: mid, h =>
      have hlt : pre.length < (pre ++ m :: mid).length := by simp
      have hset : (pre ++ m :: mid).set pre.length v = (pre ++ [v]) ++ mid := by simp
      simp only [Res.writeAll, Res.writeStep, hlt, if_true, Res.bind_ok, hset]
      have := ih (pre ++ [v]) mid (by simpa using h)
      simpa using this

theorem C01_Position2D_write : WritesFlat Position2D.writeToVector Position2D.toVector :=
  fun a pre mid post =>
    ⟨Res.writeAll_room (Position2D.toVector a) pre mid post, Res.writeAll_short (Position2D.toVector a) pre mid⟩

theorem C01_Position3D_write : WritesFlat Position3D.writeToVector Position3D.toVector :=
  fun a pre mid post =>
    ⟨Res.writeAll_room (Position3D.toVector a) pre mid post, Res.writeAll_short (Position3D.toVector a) pre mid⟩

theorem C01_Position6D_write : WritesFlat Position6D.writeToVector Position6D.toVector :=
  fun a pre mid post =>
    ⟨Res.writeAll_room (Position6D.toVector a) pre mid post, Res.writeAll_short (Position6D.toVector a) pre mid⟩

theorem C01_Velocity3D_write : WritesFlat Velocity3D.writeToVector Velocity3D.toVector :=
  fun a pre mid post =>
    ⟨Res.writeAll_room (Velocity3D.toVector a) pre mid post, Res.writeAll_short (Velocity3D.toVector a) pre mid⟩

theorem C01_Velocity6D_write : WritesFlat Velocity6D.writeToVector Velocity6D.toVector :=
  fun a pre mid post =>
    ⟨Res.writeAll_room (Velocity6D.toVector a) pre mid post, Res.writeAll_short (Velocity6D.toVector a) pre mid⟩

theorem C01_Pose2D_write : WritesFlat Pose2D.writeToVector Pose2D.toVector :=
  fun a pre mid post =>
    ⟨Res.writeAll_room (Pose2D.toVector a) pre mid post, Res.writeAll_short (Pose2D.toVector a) pre mid⟩

theorem C01_Transform_write : WritesFlat Transform.writeToVector Transform.toVector :=
  fun a pre mid post =>
    ⟨Res.writeAll_room (Transform.toVector a) pre mid post, Res.writeAll_short (Transform.toVector a) pre mid⟩

/-! ### Non-trivial instances -/

example : Position3D.ofVector [1, 2, 3] = .ok ⟨1, 2, 3⟩ := C01_Position3D.ofTo ⟨1, 2, 3⟩
example : Position3D.ofVector [1, 2] = .ok ⟨0, 0, 0⟩ := C01_Position3D.fallback _ (by simp)
example : Position6D.ofVector [1, 2, 3, 4, 5, 6] = .ok ⟨1, 2, 3, 4, 5, 6⟩ :=
  C01_Position6D.ofTo ⟨1, 2, 3, 4, 5, 6⟩
example : Position2D.writeToVector ⟨7, 8⟩ ([1, 2, 3, 4], 1) = .ok ([1, 7, 8, 4], 3) :=
  (C01_Position2D_write ⟨7, 8⟩ [1] [2, 3] [4]).1 rfl
example : Position2D.writeToVector ⟨7, 8⟩ ([1, 2], 1) = .ub :=
  (C01_Position2D_write ⟨7, 8⟩ [1] [2] []).2 (by decide)
/-- a rigid transform that is not the identity -/
example : IsRigid ⟨0, -1, 0, 5, 1, 0, 0, 6, 0, 0, 1, 7⟩ := by
  unfold IsRigid Transform.rotMat; rw [isRot_coord]; norm_num

end AlMath
