import Verif.Model.FloatLog

/-!
The mean of two transforms (src/tools/altransformhelpers.cpp) with rounding, overflow, NaN and infinities. The functions of
`<cmath>` are parameters. Same simplifications as in Model/Float32.lean.
-/

namespace AlMath.F32

/-- almath/types/alvelocity6d.h:204-213, src/types/alvelocity6d.cpp:176-181 (`operator*` of a number and a velocity). -/
noncomputable def Velocity6D.smul (v : Velocity6D) (x : F32) : Velocity6D :=
  ⟨mul v.xd x, mul v.yd x, mul v.zd x, mul v.wxd x, mul v.wyd x, mul v.wzd x⟩

open Classical in
/-- src/tools/altransformhelpers.cpp:407-437 (`transformMeanInPlace` with an output that is none of the inputs, and
`transformMean`). -/
noncomputable def transformMean (l : Libm) (atan2 : F32 → F32 → F32) (pow2 pow3 : F32 → F64) (a b : Transform) (dist : F32) :
    Res Transform :=
  if lt (fin 1) dist ∨ lt dist (fin 0) then .throws
  else
    let v := transformLogarithm atan2 pow2 (Transform.mul (Transform.inverse a) b)
    .ok (Transform.mul a (velocityExponential l pow3 (Velocity6D.smul v dist)))

end AlMath.F32
