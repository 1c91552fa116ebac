import Verif.Model.FloatTypes
import Verif.Model.Float64

/-!
`normalizeRotation` and `normalizeTransform` in single precision. The norms are computed in double precision, because
`std::pow(x, 2)` of a `float` is a `double`.
-/

namespace AlMath.F32

/-- The norm of a column: src/types/alrotation.cpp:456-459, 487-489. -/
noncomputable def norm3 (a b c : F32) : F32 :=
  F64.toFloat (F64.sqrt (F64.add (F64.add (F64.sq a) (F64.sq b)) (F64.sq c)))

namespace Rotation

/-- The rotation part is set to the identity: src/types/alrotation.cpp:467-477. -/
def identity : Rotation := ⟨fin 1, fin 0, fin 0, fin 0, fin 1, fin 0, fin 0, fin 0, fin 1⟩

/-- src/types/alrotation.cpp:453 (`lEpsilon`, the `float` nearest to 0.0001). -/
noncomputable def lEpsilon : F32 := F32.round (1 / 10000)

open Classical in
/-- src/types/alrotation.cpp:451-523 (`normalizeRotation`). -/
noncomputable def normalizeRotation (p : Rotation) : Rotation :=
  let n := norm3 p.r13 p.r23 p.r33
  if lt n lEpsilon then identity
  else
    let p := { p with r13 := div p.r13 n, r23 := div p.r23 n, r33 := div p.r33 n }
    let x1 := sub (F32.mul p.r22 p.r33) (F32.mul p.r32 p.r23)
    let x2 := sub (F32.mul p.r32 p.r13) (F32.mul p.r12 p.r33)
    let x3 := sub (F32.mul p.r12 p.r23) (F32.mul p.r22 p.r13)
    let n := norm3 x1 x2 x3
    if lt n lEpsilon then identity
    else
      let p := { p with r11 := div x1 n, r21 := div x2 n, r31 := div x3 n }
      { p with
        r12 := sub (F32.mul p.r23 p.r31) (F32.mul p.r33 p.r21)
        r22 := sub (F32.mul p.r33 p.r11) (F32.mul p.r13 p.r31)
        r32 := sub (F32.mul p.r13 p.r21) (F32.mul p.r23 p.r11) }

end Rotation

/-- src/types/altransform.cpp:412-483 (`normalizeTransform`): the same statements on the rotation part; the last
column is not touched. -/
noncomputable def Transform.normalizeTransform (t : Transform) : Transform :=
  { t with r := Rotation.normalizeRotation t.r }

end AlMath.F32
