import Verif.Model.FloatQuat
import Verif.Model.FloatAngles
import Verif.Model.FloatNormalize
import Verif.Model.FloatExp

/-!
Conversions between angles, matrices and quaternions (src/tools/almath.cpp, src/tools/altransformhelpers.cpp) with
rounding, overflow, NaN and infinities modelled. Same simplifications as in Model/Float32.lean.
-/

namespace AlMath.F32

namespace Quat

/-- src/tools/almath.cpp:336-359 (`quaternionFromRotation3D`). -/
noncomputable def fromRotation3D (m : Libm) (r : Rotation3D) : Quat :=
  let cx := m.cos (F32.mul (fin (1 / 2)) r.wx)
  let cy := m.cos (F32.mul (fin (1 / 2)) r.wy)
  let cz := m.cos (F32.mul (fin (1 / 2)) r.wz)
  let sx := m.sin (F32.mul (fin (1 / 2)) r.wx)
  let sy := m.sin (F32.mul (fin (1 / 2)) r.wy)
  let sz := m.sin (F32.mul (fin (1 / 2)) r.wz)
  ⟨add (F32.mul (F32.mul cz cy) cx) (F32.mul (F32.mul sz sy) sx),
    sub (F32.mul (F32.mul cz cy) sx) (F32.mul (F32.mul sz sy) cx),
    add (F32.mul (F32.mul cz sy) cx) (F32.mul (F32.mul cy sz) sx),
    sub (F32.mul (F32.mul cy sz) cx) (F32.mul (F32.mul cz sy) sx)⟩

/-- src/tools/almath.cpp:387-408 (`rotation3DFromQuaternion`; lines 394-399 are those of `rotation3DFromRotation`). -/
noncomputable def toRotation3D (m : Libm) (q : Quat) : Rotation3D := Rotation3D.fromRotation m (toRotation q)

open Classical in
/-- src/tools/altransformhelpers.cpp:1174-1196 (`kx1`, `ky1`, `kz1` and `add`, by the largest diagonal element). -/
noncomputable def fromTransformSelect (r : Rotation) (kx ky kz : F32) : F32 × F32 × F32 × Prop :=
  if le r.r22 r.r11 ∧ le r.r33 r.r11 then
    (add (sub (sub r.r11 r.r22) r.r33) (fin 1), add r.r21 r.r12, add r.r31 r.r13, le (fin 0) kx)
  else if le r.r33 r.r22 then
    (add r.r21 r.r12, add (sub (sub r.r22 r.r11) r.r33) (fin 1), add r.r32 r.r23, le (fin 0) ky)
  else
    (add r.r31 r.r13, add r.r32 r.r23, add (sub (sub r.r33 r.r11) r.r22) (fin 1), le (fin 0) kz)

open Classical in
/-- src/tools/altransformhelpers.cpp:1218-1225 (`trace` and `qs`). -/
noncomputable def fromTransformScalar (r : Rotation) : F32 :=
  let trace := add (add (add r.r11 r.r22) r.r33) (fin 1)
  let trace := if lt trace (fin 0) then fin 0 else trace
  F32.mul (fin (1 / 2)) (sqrt trace)

open Classical in
/-- src/tools/altransformhelpers.cpp:1211-1227 (from the vector `(kx, ky, kz)` on; the argument of the square
root and the quotient by `nm` are of type `double`). -/
noncomputable def fromTransformEnd (r : Rotation) (kx ky kz : F32) : Quat :=
  let nm := norm3 kx ky kz
  if F32.eq nm (fin 0) then ⟨fin 1, fin 0, fin 0, fin 0⟩
  else
    let qs := fromTransformScalar r
    let s := F64.toFloat (F64.div (F64.sqrt (F64.sub (fin 1) (F64.sq qs))) nm)
    ⟨qs, F32.mul s kx, F32.mul s ky, F32.mul s kz⟩

open Classical in
/-- src/tools/altransformhelpers.cpp:1154-1228 (`quaternionFromTransform`; the last column is not read). -/
noncomputable def fromTransform (t : Transform) : Quat :=
  let kx := sub t.r.r32 t.r.r23
  let ky := sub t.r.r13 t.r.r31
  let kz := sub t.r.r21 t.r.r12
  let s := fromTransformSelect t.r kx ky kz
  if s.2.2.2 then fromTransformEnd t.r (add kx s.1) (add ky s.2.1) (add kz s.2.2.1)
  else fromTransformEnd t.r (sub kx s.1) (sub ky s.2.1) (sub kz s.2.2.1)

end Quat

/-- almath/types/aldisplacement.h:22-40 (fields). -/
structure Displacement where
  P : Position3D
  Q : Quat

/-- src/tools/altransformhelpers.cpp:1231-1238 (`transformFromDisplacement`). -/
noncomputable def Displacement.toTransform (d : Displacement) : Transform := ⟨d.Q.toRotation, d.P.x, d.P.y, d.P.z⟩

/-- src/tools/altransformhelpers.cpp:1240-1245 (`displacementFromTransform`). -/
noncomputable def Displacement.fromTransform (t : Transform) : Displacement :=
  ⟨⟨t.r14, t.r24, t.r34⟩, Quat.fromTransform t⟩

end AlMath.F32
