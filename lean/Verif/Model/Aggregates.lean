import Verif.Model.Transform

/-!
Model of the aggregates `PositionAndVelocity` (src/types/alpositionandvelocity.cpp) and
`TransformAndVelocity6D` (src/types/altransformandvelocity6d.cpp).
-/

namespace AlMath

/-- almath/types/alpositionandvelocity.h:24-29 (fields). -/
@[ext] structure PositionAndVelocity where
  q : ℝ
  dq : ℝ

namespace PositionAndVelocity

/-- src/types/alpositionandvelocity.cpp:19-25 (`isNear`). -/
def isNear (a b : PositionAndVelocity) (eps : ℝ) : Prop := |a.q - b.q| ≤ eps ∧ |a.dq - b.dq| ≤ eps

/-- src/types/alpositionandvelocity.cpp:27-39 (both `toVector` overloads). -/
def toVector (p : PositionAndVelocity) : List ℝ := [p.q, p.dq]

end PositionAndVelocity

/-- almath/types/altransformandvelocity6d.h:24-27 (fields). -/
@[ext] structure TransformAndVelocity6D where
  T : Transform
  V : Velocity6D

namespace TransformAndVelocity6D

/-- src/types/altransformandvelocity6d.cpp:13 (default constructor). -/
noncomputable def default : TransformAndVelocity6D := ⟨.one, .zero⟩

/-- src/types/altransformandvelocity6d.cpp:19-25 (`isNear`). -/
def isNear (a b : TransformAndVelocity6D) (eps : ℝ) : Prop :=
  a.T.isNear b.T eps ∧ a.V.isNear b.V eps

end TransformAndVelocity6D

end AlMath
