import Verif.Model.FloatTypes

/-!
Model of the conversions between angles and matrices (src/types/alrotation.cpp, src/types/altransform.cpp,
src/tools/altransformhelpers.cpp) with rounding, overflow, NaN and infinities. The functions of `<cmath>`
are parameters. Same simplifications as in Model/Float32.lean.
-/

namespace AlMath.F32

/-- `std::cos`, `std::sin` and `std::atan2` of `<cmath>` on `float`. Not in /repo: language semantics. -/
structure Libm where
  cos : F32 → F32
  sin : F32 → F32
  atan2 : F32 → F32 → F32

namespace Rotation

/-- src/types/alrotation.cpp:400-410 (`rotationFromRotX`). -/
def fromRotX (m : Libm) (a : F32) : Rotation :=
  ⟨fin 1, fin 0, fin 0, fin 0, m.cos a, neg (m.sin a), fin 0, m.sin a, m.cos a⟩

/-- src/types/alrotation.cpp:413-423 (`rotationFromRotY`). -/
def fromRotY (m : Libm) (a : F32) : Rotation :=
  ⟨m.cos a, fin 0, m.sin a, fin 0, fin 1, fin 0, neg (m.sin a), fin 0, m.cos a⟩

/-- src/types/alrotation.cpp:426-436 (`rotationFromRotZ`). -/
def fromRotZ (m : Libm) (a : F32) : Rotation :=
  ⟨m.cos a, neg (m.sin a), fin 0, m.sin a, m.cos a, fin 0, fin 0, fin 0, fin 1⟩

/-- src/types/alrotation.cpp:439-449 (`rotationFrom3DRotation`). -/
noncomputable def from3D (m : Libm) (wx wy wz : F32) : Rotation :=
  mul (mul (fromRotZ m wz) (fromRotY m wy)) (fromRotX m wx)

open Classical in
/-- src/types/alrotation.cpp:343-382 (`rotationFromAngleDirection`). -/
noncomputable def fromAngleDirection (m : Libm) (a x y z : F32) : Res Rotation :=
  let norm := dot x y z x y z
  if lt (round (100001 / 100000)) norm ∨ lt norm (round (99999 / 100000)) then .throws
  else
    let t1 := m.cos a
    let t2 := sub (fin 1) t1
    let t3 := F32.mul x x
    let t6 := F32.mul t2 x
    let t7 := F32.mul t6 y
    let t8 := m.sin a
    let t9 := F32.mul t8 z
    let t11 := F32.mul t6 z
    let t12 := F32.mul t8 y
    let t15 := F32.mul y y
    let t19 := F32.mul (F32.mul t2 y) z
    let t20 := F32.mul t8 x
    let t24 := F32.mul z z
    .ok ⟨add t1 (F32.mul t2 t3), sub t7 t9, add t11 t12, add t7 t9, add t1 (F32.mul t2 t15), sub t19 t20, sub t11 t12,
      add t19 t20, add t1 (F32.mul t2 t24)⟩

end Rotation

namespace Transform

/-- src/types/altransform.cpp:587-597 (`transformFromRotX`). -/
def fromRotX (m : Libm) (a : F32) : Transform :=
  ⟨⟨fin 1, fin 0, fin 0, fin 0, m.cos a, neg (m.sin a), fin 0, m.sin a, m.cos a⟩, fin 0, fin 0, fin 0⟩

/-- src/types/altransform.cpp:600-610 (`transformFromRotY`). -/
def fromRotY (m : Libm) (a : F32) : Transform :=
  ⟨⟨m.cos a, fin 0, m.sin a, fin 0, fin 1, fin 0, neg (m.sin a), fin 0, m.cos a⟩, fin 0, fin 0, fin 0⟩

/-- src/types/altransform.cpp:613-623 (`transformFromRotZ`). -/
def fromRotZ (m : Libm) (a : F32) : Transform :=
  ⟨⟨m.cos a, neg (m.sin a), fin 0, m.sin a, m.cos a, fin 0, fin 0, fin 0, fin 1⟩, fin 0, fin 0, fin 0⟩

/-- src/types/altransform.cpp:626-635 (`transformFrom3DRotation`). -/
noncomputable def from3D (m : Libm) (wx wy wz : F32) : Transform :=
  mul (mul (fromRotZ m wz) (fromRotY m wy)) (fromRotX m wx)

/-- src/types/altransform.cpp:638-664 (`transformFromPosition`). -/
noncomputable def fromPosition (m : Libm) (x y z wx wy wz : F32) : Transform :=
  { from3D m wx wy wz with r14 := x, r24 := y, r34 := z }

/-- src/tools/altransformhelpers.cpp:995-1037 (`transformFromRotVecInPlace`; the masks are 1, 2 and 4 by
almath/types/alaxismask.h:38-41). -/
def fromRotVec (m : Libm) (axis : ℤ) (a : F32) (p : Position3D) : Transform :=
  ⟨if axis = 1 then ⟨fin 1, fin 0, fin 0, fin 0, m.cos a, neg (m.sin a), fin 0, m.sin a, m.cos a⟩
    else if axis = 2 then ⟨m.cos a, fin 0, m.sin a, fin 0, fin 1, fin 0, neg (m.sin a), fin 0, m.cos a⟩
    else if axis = 4 then ⟨m.cos a, neg (m.sin a), fin 0, m.sin a, m.cos a, fin 0, fin 0, fin 0, fin 1⟩
    else ⟨fin 1, fin 0, fin 0, fin 0, fin 1, fin 0, fin 0, fin 0, fin 1⟩, p.x, p.y, p.z⟩

/-- src/tools/altransformhelpers.cpp:533-547 (`transformFromPose2D`). -/
noncomputable def fromPose2D (m : Libm) (x y a : F32) : Transform :=
  mul ⟨⟨fin 1, fin 0, fin 0, fin 0, fin 1, fin 0, fin 0, fin 0, fin 1⟩, x, y, fin 0⟩ (fromRotZ m a)

end Transform

/-- almath/types/alrotation3d.h:23-28 (fields). -/
@[ext] structure Rotation3D where
  wx : F32
  wy : F32
  wz : F32

/-- src/tools/altransformhelpers.cpp:666-675 (`rotation3DFromRotation`), also 654-663
(`rotation3DFromTransform`) and 517-521 (`position6DFromTransformInPlace`). -/
noncomputable def Rotation3D.fromRotation (m : Libm) (r : Rotation) : Rotation3D :=
  let wz := m.atan2 r.r21 r.r11
  let sy := m.sin wz
  let cy := m.cos wz
  ⟨m.atan2 (sub (mul sy r.r13) (mul cy r.r23)) (sub (mul cy r.r22) (mul sy r.r12)),
    m.atan2 (neg r.r31) (add (mul cy r.r11) (mul sy r.r21)), wz⟩

end AlMath.F32
