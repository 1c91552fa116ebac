import Verif.Spec.Matrix

/-!
Lengths of vectors and Frobenius norm of matrices, with which errors are measured.
-/

namespace AlMath.Spec

/-- Euclidean length. Not in /repo: specification. -/
noncomputable def vlen (v : Vec3) : ℝ := Real.sqrt (∑ i, v i ^ 2)

/-- Frobenius norm. Not in /repo: specification. -/
noncomputable def fro (A : Mat3) : ℝ := Real.sqrt (∑ i, ∑ j, A i j ^ 2)

end AlMath.Spec
