import Verif.Model.EigenMap
import Verif.Model.Helpers
import Verif.Spec.Matrix

/-!
C92: conversions to and from the matrices of Eigen.
-/

namespace AlMath.EigenMap

open AlMath.Spec Matrix

namespace Spec

/-- The matrix of an affine map: the linear part and the translation side by side. Not in /repo: specification. -/
def beside (l : Mat3) (v : Vec3) : Matrix (Fin 3) (Fin 4) ℝ := fun i j => Fin.lastCases (v i) (fun k => l i k) j

/-- Linear part. Not in /repo: specification. -/
def linear (a : Matrix (Fin 3) (Fin 4) ℝ) : Mat3 := fun i j => a i j.castSucc

/-- Translation. Not in /repo: specification. -/
def translation (a : Matrix (Fin 3) (Fin 4) ℝ) : Vec3 := fun i => a i 3

/-- Image of a point by an affine map. Not in /repo: specification. -/
def image (a : Matrix (Fin 3) (Fin 4) ℝ) (v : Vec3) : Vec3 := linear a *ᵥ v + translation a

end Spec

open Spec

theorem beside_last (l : Mat3) (v : Vec3) (i : Fin 3) : beside l v i 3 = v i := by
  show Fin.lastCases (motive := fun _ => ℝ) _ _ (Fin.last 3) = _
  rw [Fin.lastCases_last]

theorem beside_castSucc (l : Mat3) (v : Vec3) (i j : Fin 3) : beside l v i j.castSucc = l i j := by
  unfold beside
  rw [Fin.lastCases_castSucc]

/-- The entries: the matrices are the linear part of the transform and its translation. -/
theorem C92_entries (t : Transform) :
    toEigenMatrix34 t = beside t.rotMat t.trans ∧ toEigenAffineCompact3 t = beside t.rotMat t.trans ∧
    toEigenMatrix3 t = t.rotMat := by
  have h : toEigenMatrix34 t = beside t.rotMat t.trans := by
    ext i j
    refine Fin.lastCases ?_ (fun j => ?_) j
    · rw [show (Fin.last 3) = 3 from rfl, beside_last]; fin_cases i <;> rfl
    · rw [beside_castSucc]; fin_cases i <;> fin_cases j <;> rfl
  refine ⟨h, h, ?_⟩
  ext i j
  fin_cases i <;> fin_cases j <;> rfl

example : toEigenMatrix34 ⟨1, 2, 3, 4, 5, 6, 7, 8, 9, 10, 11, 12⟩ 1 2 = 7 := rfl

/-- Converting back gives the same, both ways. -/
theorem C92_round_trip (t : Transform) (a : Matrix (Fin 3) (Fin 4) ℝ) :
    toALMathTransform (toEigenMatrix34 t) = t ∧ toEigenMatrix34 (toALMathTransform a) = a ∧
    toALMathTransform (toEigenAffineCompact3 t) = t ∧ toEigenAffineCompact3 (toALMathTransform a) = a := by
  have h : toEigenMatrix34 (toALMathTransform a) = a := by
    ext i j
    fin_cases i <;> fin_cases j <;> rfl
  exact ⟨rfl, h, rfl, h⟩

/-- Transforms of Eigen with four rows: the last row is dropped, and that is all that is lost. -/
theorem C92_affine (a b : Matrix (Fin 4) (Fin 4) ℝ) :
    toALMathTransformAffine a = toALMathTransformAffine b ↔ ∀ i : Fin 3, a i.castSucc = b i.castSucc := by
  have h := fun a => (C92_round_trip Transform.one a).2.1
  constructor
  · intro e i
    have e : toALMathTransform (a.submatrix Fin.castSucc id) = toALMathTransform (b.submatrix Fin.castSucc id) := e
    have := congrArg toEigenMatrix34 e
    rw [h, h] at this
    exact congrFun this i
  · intro e
    have : a.submatrix Fin.castSucc id = (b.submatrix Fin.castSucc id : Matrix (Fin 3) (Fin 4) ℝ) := by
      ext i j
      exact congrFun (e i) j
    unfold toALMathTransformAffine
    rw [this]

/-- Composition, identity and images of points are those of affine maps. -/
theorem C92_compose (s t : Transform) (p : Position3D) :
    linear (toEigenAffineCompact3 (Transform.mul s t)) =
      linear (toEigenAffineCompact3 s) * linear (toEigenAffineCompact3 t) ∧
    translation (toEigenAffineCompact3 (Transform.mul s t)) =
      image (toEigenAffineCompact3 s) (translation (toEigenAffineCompact3 t)) ∧
    toEigenAffineCompact3 Transform.one = beside 1 0 ∧
    toEigenVector3 (t.act p) = image (toEigenAffineCompact3 t) (toEigenVector3 p) := by
  have hl : ∀ t : Transform, linear (toEigenAffineCompact3 t) = t.rotMat := fun t => by
    rw [(C92_entries t).2.1]; ext i j; exact beside_castSucc _ _ _ _
  have ht : ∀ t : Transform, translation (toEigenAffineCompact3 t) = t.trans := fun t => by
    rw [(C92_entries t).2.1]; ext i; exact beside_last _ _ _
  refine ⟨?_, ?_, ?_, ?_⟩
  · rw [hl, hl, hl]
    ext i j
    fin_cases i <;> fin_cases j <;>
      simp [Transform.rotMat, Transform.mul, Matrix.mul_apply, Fin.sum_univ_three] <;> ring
  · unfold image
    rw [ht, hl, ht, ht]
    ext i
    fin_cases i <;> simp [Transform.rotMat, Transform.trans, Transform.mul, Matrix.mulVec, dotProduct,
      Fin.sum_univ_three] <;> ring
  · rw [(C92_entries _).2.1]
    congr 1
    · ext i j; fin_cases i <;> fin_cases j <;> rfl
    · ext i; fin_cases i <;> rfl
  · unfold image
    rw [hl, ht]
    ext i
    fin_cases i <;> simp [Transform.rotMat, Transform.trans, Transform.act, Matrix.mulVec, dotProduct,
      Fin.sum_univ_three, toEigenVector3, positionCells] <;> ring

/-- Positions and velocities. -/
theorem C92_vectors (p : Position3D) (v : Fin 3 → ℝ) (w : Fin 6 → ℝ) :
    toALMathPosition3D (toEigenVector3 p) = p ∧ toEigenVector3 (toALMathPosition3D v) = v ∧
    toEigenVector3 p = p.vec ∧ toALMathVelocity6DMap w = toALMathVelocity6D w ∧
    toALMathVelocity6D w = ⟨w 0, w 1, w 2, w 3, w 4, w 5⟩ := by
  refine ⟨rfl, ?_, rfl, rfl, rfl⟩
  ext i; fin_cases i <;> rfl

end AlMath.EigenMap
