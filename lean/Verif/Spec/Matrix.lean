import Verif.Model.Helpers

/-!
Specification vocabulary: matrices, rotations and rigid motions in Mathlib's
terms. Nothing here refers to how the library computes; the only link to the
model are the readings `Rotation.mat`, `Transform.mat`, `Position3D.vec` of the
C++ fields as matrices and vectors.
-/

namespace AlMath.Spec

open Matrix

/-- 3-vectors. Not in /repo: specification. -/
abbrev Vec3 := Fin 3 → ℝ

/-- 3x3 matrices. Not in /repo: specification. -/
abbrev Mat3 := Matrix (Fin 3) (Fin 3) ℝ

/-- 4x4 matrices. Not in /repo: specification. -/
abbrev Mat4 := Matrix (Fin 4) (Fin 4) ℝ

/-- Proper rotation matrix. Not in /repo: specification. -/
def IsRot (R : Mat3) : Prop := Rᵀ * R = 1 ∧ R.det = 1

/-- The library's 3x3 matrix as a matrix (reading of the fields declared in
almath/types/alrotation.h:31-67). -/
def _root_.AlMath.Rotation.mat (r : Rotation) : Mat3 :=
  !![r.r11, r.r12, r.r13; r.r21, r.r22, r.r23; r.r31, r.r32, r.r33]

/-- Rotation part of the library's transform (fields of
almath/types/altransform.h). -/
def _root_.AlMath.Transform.rotMat (t : Transform) : Mat3 :=
  !![t.r11, t.r12, t.r13; t.r21, t.r22, t.r23; t.r31, t.r32, t.r33]

/-- Translation part of the library's transform (fields of
almath/types/altransform.h). -/
def _root_.AlMath.Transform.trans (t : Transform) : Vec3 := ![t.r14, t.r24, t.r34]

/-- The 4x4 homogeneous matrix a transform stands for (fields of
almath/types/altransform.h; the last row is implicit). -/
noncomputable def _root_.AlMath.Transform.mat (t : Transform) : Mat4 :=
  !![t.r11, t.r12, t.r13, t.r14; t.r21, t.r22, t.r23, t.r24; t.r31, t.r32, t.r33, t.r34;
     0, 0, 0, 1]

/-- A point as a vector (fields of almath/types/alposition3d.h). -/
def _root_.AlMath.Position3D.vec (p : Position3D) : Vec3 := ![p.x, p.y, p.z]

/-- Rigid motion: the rotation part is a proper rotation. Not in /repo: specification. -/
def IsRigid (t : Transform) : Prop := IsRot t.rotMat

/-- Cross-product matrix of a vector. Not in /repo: specification. -/
def skew (w : Vec3) : Mat3 :=
  !![0, -w 2, w 1; w 2, 0, -w 0; -w 1, w 0, 0]

/-- Rodrigues' formula: rotation by `a` about the unit axis `n`. Not in /repo:
specification. -/
noncomputable def rodrigues (n : Vec3) (a : ℝ) : Mat3 :=
  1 + Real.sin a • skew n + (1 - Real.cos a) • (skew n * skew n)

/-- Euclidean length squared. Not in /repo: specification. -/
def lenSq (v : Vec3) : ℝ := v ⬝ᵥ v

end AlMath.Spec
