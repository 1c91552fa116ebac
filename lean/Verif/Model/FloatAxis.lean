import Verif.Model.FloatAngles
import Verif.Model.FloatNormalize
import Verif.Model.FloatQuat

/-!
Model of the conversions between a quaternion and an angle with an axis (src/types/alquaternion.cpp) with rounding,
overflow, NaN and infinities. `std::acos` is a parameter. Same simplifications as in Model/Float32.lean.
-/

namespace AlMath.F32.Quat

/-- src/types/alquaternion.cpp:133-165 (`quaternionFromAngleAndAxisRotation`, `fromAngleAndAxisRotation`;
`qua.normalize()` returns a copy that is discarded, but it can throw). -/
noncomputable def fromAngleAndAxis (m : Libm) (angle ax ay az : F32) : Res Quat :=
  let sin_a := m.sin (F32.mul (fin (1 / 2)) angle)
  let cos_a := m.cos (F32.mul (fin (1 / 2)) angle)
  let qua : Quat := ⟨cos_a, F32.mul ax sin_a, F32.mul ay sin_a, F32.mul az sin_a⟩
  (normalize qua).bind fun _ => .ok qua

open Classical in
/-- src/types/alquaternion.cpp:238-285 (`angleAndAxisRotationFromQuaternion`; `copy.normalize()` is discarded
but can throw; expressions with `std::pow` are computed in `double`). Result: angle and axis. -/
noncomputable def toAngleAndAxis (acos : F32 → F32) (q : Quat) : Res (F32 × Position3D) :=
  (normalize q).bind fun _ =>
    let angle := F32.mul (fin 2) (acos q.w)
    let sinAngle := F64.toFloat (F64.sqrt (F64.sub (fin 1) (F64.sq q.w)))
    let sinAngle := if lt (abs sinAngle) (round (5 / 10000)) then fin 1 else sinAngle
    let ax := F32.div q.x sinAngle
    let ay := F32.div q.y sinAngle
    let az := F32.div q.z sinAngle
    if lt (norm3 ax ay az) (round (1 / 10000)) then .ok (angle, ⟨fin 1, fin 0, fin 0⟩)
    else .ok (angle, ⟨ax, ay, az⟩)

end AlMath.F32.Quat
