import Verif.Model.FloatTypes
import Verif.Model.Float64

/-!
Model of `Quaternion` (src/types/alquaternion.cpp) and of the conversion to a matrix (src/tools/almath.cpp,
src/tools/altransformhelpers.cpp) with rounding, overflow, NaN and infinities. Same
simplifications as in Model/Float32.lean.
-/

namespace AlMath.F32

/-- almath/types/alquaternion.h:24-33 (fields). -/
@[ext] structure Quat where
  w : F32
  x : F32
  y : F32
  z : F32

namespace Quat

/-- almath/types/alquaternion.h:116-123 (`operator*`), also src/types/alquaternion.cpp:51-69 (`operator*=`). -/
noncomputable def mul (p q : Quat) : Quat :=
  ⟨sub (sub (sub (F32.mul p.w q.w) (F32.mul p.x q.x)) (F32.mul p.y q.y)) (F32.mul p.z q.z),
    sub (add (add (F32.mul p.w q.x) (F32.mul q.w p.x)) (F32.mul p.y q.z)) (F32.mul p.z q.y),
    sub (add (add (F32.mul p.w q.y) (F32.mul q.w p.y)) (F32.mul p.z q.x)) (F32.mul p.x q.z),
    sub (add (add (F32.mul p.w q.z) (F32.mul q.w p.z)) (F32.mul p.x q.y)) (F32.mul p.y q.x)⟩

/-- almath/types/alquaternion.h:141-144 (`operator*` with a scalar). -/
noncomputable def smul (q : Quat) (v : F32) : Quat :=
  ⟨F32.mul q.w v, F32.mul q.x v, F32.mul q.y v, F32.mul q.z v⟩

open Classical in
/-- src/types/alquaternion.cpp:109-117 (`operator/`). -/
noncomputable def div (q : Quat) (v : F32) : Res Quat :=
  if F32.eq v (fin 0) then .throws else .ok (smul q (F32.div (fin 1) v))

/-- src/types/alquaternion.cpp:194-200 (`norm`): computed in `double`. -/
noncomputable def norm (q : Quat) : F32 :=
  F64.toFloat (F64.sqrt (F64.add (F64.add (F64.add (F64.sq q.w) (F64.sq q.x)) (F64.sq q.y)) (F64.sq q.z)))

open Classical in
/-- src/types/alquaternion.cpp:202-211 (`normalize`). -/
noncomputable def normalize (q : Quat) : Res Quat :=
  if F32.eq (norm q) (fin 0) then .throws else div q (norm q)

/-- src/types/alquaternion.cpp:213-235 (`inverse`, `quaternionInverse`). -/
def inverse (q : Quat) : Quat := ⟨q.w, neg q.x, neg q.y, neg q.z⟩

/-- The diagonal elements `1.0f - 2.0f*(std::pow(a, 2) + std::pow(b, 2))`, computed in `double`:
src/tools/almath.cpp:365. -/
noncomputable def diagonal (a b : F32) : F32 :=
  F64.toFloat (F64.sub (fin 1) (F64.mul (fin 2) (F64.add (F64.sq a) (F64.sq b))))

/-- src/tools/almath.cpp:361-376 (`rotationFromQuaternion`), also
src/tools/altransformhelpers.cpp:1133-1151 (`transformFromQuaternion`). -/
noncomputable def toRotation (q : Quat) : Rotation :=
  ⟨diagonal q.y q.z, F32.mul (fin 2) (sub (F32.mul q.x q.y) (F32.mul q.z q.w)),
    F32.mul (fin 2) (add (F32.mul q.x q.z) (F32.mul q.y q.w)),
    F32.mul (fin 2) (add (F32.mul q.x q.y) (F32.mul q.z q.w)), diagonal q.x q.z,
    F32.mul (fin 2) (sub (F32.mul q.y q.z) (F32.mul q.x q.w)),
    F32.mul (fin 2) (sub (F32.mul q.x q.z) (F32.mul q.y q.w)),
    F32.mul (fin 2) (add (F32.mul q.y q.z) (F32.mul q.x q.w)), diagonal q.x q.y⟩

end Quat

end AlMath.F32
