import Verif.Model.Transform

/-!
Model of `Quaternion` (src/types/alquaternion.cpp), of the quaternion functions of
src/tools/almath.cpp and src/tools/altransformhelpers.cpp, and of `Displacement`.
-/

namespace AlMath

/-- almath/types/alquaternion.h:24-33 (fields). -/
@[ext] structure Quat where
  w : ℝ
  x : ℝ
  y : ℝ
  z : ℝ

namespace Quat

/-- src/types/alquaternion.cpp:16 (default constructor). -/
noncomputable def one : Quat := ⟨1, 0, 0, 0⟩

/-- src/types/alquaternion.cpp:28-49 (constructor from a vector; a wrong size
gives four zeros, which is not the default-constructed value). -/
noncomputable def ofVector (l : List ℝ) : Res Quat :=
  if l.length = 4 then do
    return ⟨← Res.read l 0, ← Res.read l 1, ← Res.read l 2, ← Res.read l 3⟩
  else return ⟨0, 0, 0, 0⟩

/-- src/types/alquaternion.cpp:168-182 (both `toVector` overloads). -/
def toVector (q : Quat) : List ℝ := [q.w, q.x, q.y, q.z]

/-- almath/types/alquaternion.h:116-123 (`operator*`). -/
noncomputable def mul (p q : Quat) : Quat :=
  ⟨p.w * q.w - p.x * q.x - p.y * q.y - p.z * q.z,
   p.w * q.x + q.w * p.x + p.y * q.z - p.z * q.y,
   p.w * q.y + q.w * p.y + p.z * q.x - p.x * q.z,
   p.w * q.z + q.w * p.z + p.x * q.y - p.y * q.x⟩

/-- src/types/alquaternion.cpp:53-68 (the statements of `operator*=`; `rhs` as in
`Rotation.mulAssignBody`). -/
noncomputable def mulAssignBody (self : Quat) (rhs : Quat → Quat) : Quat :=
  let w1 := self.w
  let x1 := self.x
  let y1 := self.y
  let z1 := self.z
  let s := self
  let s := { s with w := w1 * (rhs s).w - x1 * (rhs s).x - y1 * (rhs s).y - z1 * (rhs s).z }
  let s := { s with x := w1 * (rhs s).x + (rhs s).w * x1 + y1 * (rhs s).z - z1 * (rhs s).y }
  let s := { s with y := w1 * (rhs s).y + (rhs s).w * y1 + z1 * (rhs s).x - x1 * (rhs s).z }
  { s with z := w1 * (rhs s).z + (rhs s).w * z1 + x1 * (rhs s).y - y1 * (rhs s).x }

/-- src/types/alquaternion.cpp:51-69 (`a *= b`, distinct objects). -/
noncomputable def mulAssign (a b : Quat) : Quat := mulAssignBody a (fun _ => b)

/-- src/types/alquaternion.cpp:58-62 (`a *= a`: the right operand is copied first). -/
noncomputable def mulAssignSelf (a : Quat) : Quat :=
  let copy := a
  mulAssign a copy

/-- almath/types/alquaternion.h:141-144 (`operator*` with a scalar). -/
noncomputable def smul (q : Quat) (v : ℝ) : Quat := ⟨q.w * v, q.x * v, q.y * v, q.z * v⟩

/-- src/types/alquaternion.cpp:88-95 (`operator*=` with a scalar). -/
noncomputable def smulAssign (q : Quat) (v : ℝ) : Quat :=
  { q with w := q.w * v, x := q.x * v, y := q.y * v, z := q.z * v }

/-- src/types/alquaternion.cpp:109-117 (`operator/`). -/
noncomputable def div (q : Quat) (v : ℝ) : Res Quat :=
  if v = 0 then .throws else .ok (smul q (1 / v))

/-- src/types/alquaternion.cpp:98-107 (`operator/=`). -/
noncomputable def divAssign (q : Quat) (v : ℝ) : Res Quat :=
  if v = 0 then .throws else .ok (smulAssign q (1 / v))

/-- src/types/alquaternion.cpp:119-125 (`operator==`). -/
def eq (p q : Quat) : Prop := p.w = q.w ∧ p.x = q.x ∧ p.y = q.y ∧ p.z = q.z

/-- src/types/alquaternion.cpp:71-85 (`isNear`, strict, identifies `q` and `-q`). -/
def isNear (p q : Quat) (eps : ℝ) : Prop :=
  (|p.w - q.w| < eps ∧ |p.x - q.x| < eps ∧ |p.y - q.y| < eps ∧ |p.z - q.z| < eps) ∨
  (|p.w + q.w| < eps ∧ |p.x + q.x| < eps ∧ |p.y + q.y| < eps ∧ |p.z + q.z| < eps)

/-- src/types/alquaternion.cpp:194-200 (`norm`). -/
noncomputable def norm (q : Quat) : ℝ := √(q.w ^ 2 + q.x ^ 2 + q.y ^ 2 + q.z ^ 2)

/-- src/types/alquaternion.cpp:202-211 (`normalize`). -/
noncomputable def normalize (q : Quat) : Res Quat :=
  if norm q = 0 then .throws else div q (norm q)

/-- src/types/alquaternion.cpp:219-227 (`quaternionInverse` with an out-parameter;
`q` gives what the reference reads in a given state of the result). -/
noncomputable def inverseOutBody (q : Quat → Quat) (o : Quat) : Quat :=
  let o := { o with w := (q o).w }
  let o := { o with x := -(q o).x }
  let o := { o with y := -(q o).y }
  { o with z := -(q o).z }

/-- src/types/alquaternion.cpp:213-235 (`inverse`, `quaternionInverse`: the conjugate). -/
noncomputable def inverse (q : Quat) : Quat := inverseOutBody (fun _ => q) one

/-- src/types/alquaternion.cpp:133-165 (`quaternionFromAngleAndAxisRotation`,
`fromAngleAndAxisRotation`; `qua.normalize()` returns a copy that is discarded,
but it can throw). -/
noncomputable def fromAngleAndAxis (angle ax ay az : ℝ) : Res Quat :=
  let sin_a := Real.sin (0.5 * angle)
  let cos_a := Real.cos (0.5 * angle)
  let qua : Quat := ⟨cos_a, ax * sin_a, ay * sin_a, az * sin_a⟩
  (normalize qua).bind fun _ => .ok qua

/-- src/types/alquaternion.cpp:238-285 (`angleAndAxisRotationFromQuaternion`;
`copy.normalize()` is discarded but can throw; `acos` and `sqrt` are outside
their domain, NaN, when `|w| > 1`). Result: angle and axis. -/
noncomputable def toAngleAndAxis (q : Quat) : Res (ℝ × Position3D) :=
  (normalize q).bind fun _ =>
    if 1 < |q.w| then .ub
    else
      let angle := 2 * Real.arccos q.w
      let sinAngle := √(1 - q.w ^ 2)
      let sinAngle := if |sinAngle| < 0.0005 then 1 else sinAngle
      let ax := q.x / sinAngle
      let ay := q.y / sinAngle
      let az := q.z / sinAngle
      let normAxe := √(ax ^ 2 + ay ^ 2 + az ^ 2)
      if normAxe < 0.0001 then .ok (angle, ⟨1, 0, 0⟩)
      else .ok (angle, ⟨ax, ay, az⟩)

/-- src/tools/almath.cpp:164-184 (`operator*(Quaternion, Position3D)`). -/
noncomputable def act (q : Quat) (p : Position3D) : Position3D :=
  { x := q.w * q.w * p.x + 2 * q.y * q.w * p.z
          + (-2 * q.z * q.w * p.y + q.x * q.x * p.x)
          + (2 * q.y * q.x * p.y + 2 * q.z * q.x * p.z)
          + (-q.z * q.z * p.x - q.y * q.y * p.x)
    y := 2 * q.x * q.y * p.x + q.y * q.y * p.y
          + (2 * q.z * q.y * p.z + 2 * q.w * q.z * p.x)
          + (-q.z * q.z * p.y + q.w * q.w * p.y)
          + (-2 * q.x * q.w * p.z - q.x * q.x * p.y)
    z := 2 * q.x * q.z * p.x + 2 * q.y * q.z * p.y
          + (q.z * q.z * p.z - 2 * q.w * q.y * p.x)
          + (-q.y * q.y * p.z + 2 * q.w * q.x * p.y)
          + (-q.x * q.x * p.z + q.w * q.w * p.z) }

/-- src/tools/almath.cpp:336-359 (`quaternionFromRotation3D`, both overloads). -/
noncomputable def fromRotation3D (r : Rotation3D) : Quat :=
  let cx := Real.cos (0.5 * r.wx)
  let cy := Real.cos (0.5 * r.wy)
  let cz := Real.cos (0.5 * r.wz)
  let sx := Real.sin (0.5 * r.wx)
  let sy := Real.sin (0.5 * r.wy)
  let sz := Real.sin (0.5 * r.wz)
  ⟨cz * cy * cx + sz * sy * sx,
   cz * cy * sx - sz * sy * cx,
   cz * sy * cx + cy * sz * sx,
   cy * sz * cx - cz * sy * sx⟩

/-- src/tools/almath.cpp:361-384 (`rotationFromQuaternion` of a `Quaternion`). -/
noncomputable def toRotation (q : Quat) : Rotation :=
  ⟨1 - 2 * (q.y ^ 2 + q.z ^ 2), 2 * (q.x * q.y - q.z * q.w), 2 * (q.x * q.z + q.y * q.w),
   2 * (q.x * q.y + q.z * q.w), 1 - 2 * (q.x ^ 2 + q.z ^ 2), 2 * (q.y * q.z - q.x * q.w),
   2 * (q.x * q.z - q.y * q.w), 2 * (q.y * q.z + q.x * q.w), 1 - 2 * (q.x ^ 2 + q.y ^ 2)⟩

/-- src/tools/almath.cpp:387-408 (`rotation3DFromQuaternion`, both overloads). -/
noncomputable def toRotation3D (q : Quat) : Rotation3D :=
  let r := toRotation q
  let wz := atan2 r.r21 r.r11
  let sy := Real.sin wz
  let cy := Real.cos wz
  { wx := atan2 (sy * r.r13 - cy * r.r23) (cy * r.r22 - sy * r.r12)
    wy := atan2 (-r.r31) (cy * r.r11 + sy * r.r21)
    wz := wz }

/-- src/tools/altransformhelpers.cpp:1133-1151 (`transformFromQuaternion`). -/
noncomputable def toTransform (q : Quat) : Transform :=
  { Transform.one with
    r11 := 1 - 2 * (q.y ^ 2 + q.z ^ 2)
    r12 := 2 * (q.x * q.y - q.z * q.w)
    r13 := 2 * (q.x * q.z + q.y * q.w)
    r21 := 2 * (q.x * q.y + q.z * q.w)
    r22 := 1 - 2 * (q.x ^ 2 + q.z ^ 2)
    r23 := 2 * (q.y * q.z - q.x * q.w)
    r31 := 2 * (q.x * q.z - q.y * q.w)
    r32 := 2 * (q.y * q.z + q.x * q.w)
    r33 := 1 - 2 * (q.x ^ 2 + q.y ^ 2) }

/-- src/tools/altransformhelpers.cpp:1175-1195 (selection of `kx1 ky1 kz1 add` by
the largest diagonal entry). -/
noncomputable def fromTransformSelect (t : Transform) (kx ky kz : ℝ) : ℝ × ℝ × ℝ × Prop :=
  if t.r11 ≥ t.r22 ∧ t.r11 ≥ t.r33 then
    (t.r11 - t.r22 - t.r33 + 1, t.r21 + t.r12, t.r31 + t.r13, kx ≥ 0)
  else if t.r22 ≥ t.r33 then
    (t.r21 + t.r12, t.r22 - t.r11 - t.r33 + 1, t.r32 + t.r23, ky ≥ 0)
  else
    (t.r31 + t.r13, t.r32 + t.r23, t.r33 - t.r11 - t.r22 + 1, kz ≥ 0)

open Classical in
/-- src/tools/altransformhelpers.cpp:1154-1228 (`quaternionFromTransform`; the
square root `sqrt(1 - qs²)` is outside its domain, NaN, when `qs² > 1`). -/
noncomputable def fromTransform (t : Transform) : Res Quat :=
  let kx := t.r32 - t.r23
  let ky := t.r13 - t.r31
  let kz := t.r21 - t.r12
  let sel := fromTransformSelect t kx ky kz
  let k : Position3D :=
    if sel.2.2.2 then ⟨kx + sel.1, ky + sel.2.1, kz + sel.2.2.1⟩
    else ⟨kx - sel.1, ky - sel.2.1, kz - sel.2.2.1⟩
  let nm := √(k.x ^ 2 + k.y ^ 2 + k.z ^ 2)
  if nm = 0 then .ok one
  else
    let trace := t.r11 + t.r22 + t.r33 + 1
    let trace := if trace < 0 then 0 else trace
    let qs := 0.5 * √trace
    if 1 - qs ^ 2 < 0 then .ub
    else
      let s := √(1 - qs ^ 2) / nm
      .ok ⟨qs, s * k.x, s * k.y, s * k.z⟩

end Quat

/-- almath/types/aldisplacement.h:22-40 (fields). -/
@[ext] structure Displacement where
  P : Position3D
  Q : Quat

namespace Displacement

/-- src/types/aldisplacement.cpp:12 (default constructor). -/
noncomputable def one : Displacement := ⟨Position3D.zero, Quat.one⟩

/-- src/types/aldisplacement.cpp:19-24 (`operator*=`; `rhs` is what the reference
reads in a given state of `*this`; the quaternion product copies when aliased). -/
noncomputable def mulAssignBody (self : Displacement) (rhs : Displacement → Displacement) :
    Displacement :=
  let s := { self with P := Position3D.addAssign self.P (Quat.act self.Q (rhs self).P) }
  { s with Q := Quat.mulAssign s.Q (rhs s).Q }

/-- src/types/aldisplacement.cpp:19-24 (`a *= b`, distinct objects). -/
noncomputable def mulAssign (a b : Displacement) : Displacement := mulAssignBody a (fun _ => b)

/-- src/types/aldisplacement.cpp:19-24 (`a *= a`, same object on both sides). -/
noncomputable def mulAssignSelf (a : Displacement) : Displacement := mulAssignBody a id

/-- src/types/aldisplacement.cpp:34-39 (`operator*`). -/
noncomputable def mul (a b : Displacement) : Displacement := mulAssign a b

/-- src/types/aldisplacement.cpp:26-32 (`isNear`). -/
def isNear (a b : Displacement) (eps : ℝ) : Prop :=
  Position3D.isNear a.P b.P eps ∧ Quat.isNear a.Q b.Q eps

/-- src/tools/altransformhelpers.cpp:1231-1238 (`transformFromDisplacement`). -/
noncomputable def toTransform (d : Displacement) : Transform :=
  { Quat.toTransform d.Q with r14 := d.P.x, r24 := d.P.y, r34 := d.P.z }

/-- src/tools/altransformhelpers.cpp:1240-1245 (`displacementFromTransform`). -/
noncomputable def fromTransform (t : Transform) : Res Displacement :=
  (Quat.fromTransform t).map fun q => ⟨⟨t.r14, t.r24, t.r34⟩, q⟩

end Displacement

/-- src/tools/almath.cpp:410-422 (`quaternionPosition3DFromPosition6D`). -/
noncomputable def quaternionPosition3DFromPosition6D (p : Position6D) : Quat × Position3D :=
  (Quat.fromRotation3D ⟨p.wx, p.wy, p.wz⟩, ⟨p.x, p.y, p.z⟩)

end AlMath
