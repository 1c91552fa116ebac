import Verif.Model.Transform
import Mathlib.Data.Matrix.Basic
import Mathlib.Data.Fin.VecNotation

/-!
Model of the conversions between the types of the library and matrices of Eigen (almath/scenegraph/almatheigen.h).

Simplifications. The members of a structure are in memory one after the other, without padding; a pointer to the first one
gives access to all of them (which the code assumes; strictly it is undefined). Eigen's `Map` views the numbers at an
address as a matrix, by rows or by columns. Values are only copied, so that nothing is rounded.
-/

namespace AlMath.EigenMap

/-- The memory from `&tr.r1_c1` on: the members in the order of almath/types/altransform.h:26-28. -/
def transformCells (t : Transform) : Fin 12 → ℝ :=
  ![t.r11, t.r12, t.r13, t.r14, t.r21, t.r22, t.r23, t.r24, t.r31, t.r32, t.r33, t.r34]

/-- The transform with given memory (almath/types/altransform.h:26-28). -/
def transformOfCells (m : Fin 12 → ℝ) : Transform :=
  ⟨m 0, m 1, m 2, m 3, m 4, m 5, m 6, m 7, m 8, m 9, m 10, m 11⟩

/-- The memory from `&v.x` on (almath/types/alposition3d.h:26-30). -/
def positionCells (p : Position3D) : Fin 3 → ℝ := ![p.x, p.y, p.z]

/-- The velocity with given memory from `&out.xd` on (almath/types/alvelocity6d.h:27-37). -/
def velocityOfCells (m : Fin 6 → ℝ) : Velocity6D := ⟨m 0, m 1, m 2, m 3, m 4, m 5⟩

/-- Position in memory of an entry of `Matrix34frm`, which is stored by rows (almath/scenegraph/almatheigen.h:22). -/
def cell (i : Fin 3) (j : Fin 4) : Fin 12 := ⟨4 * i + j, by omega⟩

/-- Reading through `Eigen::Map<const Matrix34frm>` (almath/scenegraph/almatheigen.h:26, 31, 46). -/
def load (m : Fin 12 → ℝ) : Matrix (Fin 3) (Fin 4) ℝ := fun i j => m (cell i j)

/-- Writing through `Eigen::Map<Matrix34frm>` (almath/scenegraph/almatheigen.h:55, 68). -/
def store (a : Matrix (Fin 3) (Fin 4) ℝ) : Fin 12 → ℝ := fun k => a ⟨k / 4, by omega⟩ ⟨k % 4, by omega⟩

/-- almath/scenegraph/almatheigen.h:25-27 (`toEigenMatrix34`). -/
def toEigenMatrix34 (t : Transform) : Matrix (Fin 3) (Fin 4) ℝ := load (transformCells t)

/-- almath/scenegraph/almatheigen.h:29-32 (`toEigenMatrix3`): the block of 3 rows and 3 columns at the top left. -/
def toEigenMatrix3 (t : Transform) : Matrix (Fin 3) (Fin 3) ℝ := fun i j => load (transformCells t) i j.castSucc

/-- almath/scenegraph/almatheigen.h:40-42 (`toEigenVector3`). -/
def toEigenVector3 (p : Position3D) : Fin 3 → ℝ := positionCells p

/-- almath/scenegraph/almatheigen.h:44-47 (`toEigenAffineCompact3`): Eigen keeps the three rows. -/
def toEigenAffineCompact3 (t : Transform) : Matrix (Fin 3) (Fin 4) ℝ := load (transformCells t)

/-- almath/scenegraph/almatheigen.h:49-63 (both `toALMathTransform` of a matrix). -/
def toALMathTransform (a : Matrix (Fin 3) (Fin 4) ℝ) : Transform := transformOfCells (store a)

/-- almath/scenegraph/almatheigen.h:65-77 (both `toALMathTransform` of an `Eigen::Transform` that is not compact): its
`affine()` is made of the first three rows. -/
def toALMathTransformAffine (a : Matrix (Fin 4) (Fin 4) ℝ) : Transform :=
  transformOfCells (store (a.submatrix Fin.castSucc id))

/-- almath/scenegraph/almatheigen.h:79-86 (`toALMathPosition3D`). -/
def toALMathPosition3D (v : Fin 3 → ℝ) : Position3D := ⟨v 0, v 1, v 2⟩

/-- almath/scenegraph/almatheigen.h:88-97 (`toALMathVelocity6D` with an output). -/
def toALMathVelocity6DMap (v : Fin 6 → ℝ) : Velocity6D := velocityOfCells v

/-- almath/scenegraph/almatheigen.h:99-106 (`toALMathVelocity6D`). -/
def toALMathVelocity6D (v : Fin 6 → ℝ) : Velocity6D := ⟨v 0, v 1, v 2, v 3, v 4, v 5⟩

end AlMath.EigenMap
