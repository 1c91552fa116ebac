import Verif.Model.Vec

/-!
Model of `Rotation` (3x3 matrix, src/types/alrotation.cpp). Field `rij` is the
C++ field `ri_cj`.
-/

namespace AlMath

/-- almath/types/alrotation.h:31-67 (fields). -/
@[ext] structure Rotation where
  r11 : ℝ
  r12 : ℝ
  r13 : ℝ
  r21 : ℝ
  r22 : ℝ
  r23 : ℝ
  r31 : ℝ
  r32 : ℝ
  r33 : ℝ

namespace Rotation

/-- src/types/alrotation.cpp:16-19 (default constructor). -/
noncomputable def one : Rotation := ⟨1, 0, 0, 0, 1, 0, 0, 0, 1⟩

/-- src/types/alrotation.cpp:21-69 (constructor from a vector of 9, 12 or 16
floats; any other size gives the identity). -/
noncomputable def ofVector (l : List ℝ) : Res Rotation :=
  if l.length = 9 then do
    return ⟨← Res.read l 0, ← Res.read l 1, ← Res.read l 2,
            ← Res.read l 3, ← Res.read l 4, ← Res.read l 5,
            ← Res.read l 6, ← Res.read l 7, ← Res.read l 8⟩
  else if l.length = 12 ∨ l.length = 16 then do
    return ⟨← Res.read l 0, ← Res.read l 1, ← Res.read l 2,
            ← Res.read l 4, ← Res.read l 5, ← Res.read l 6,
            ← Res.read l 8, ← Res.read l 9, ← Res.read l 10⟩
  else return ⟨1, 0, 0, 0, 1, 0, 0, 0, 1⟩

/-- src/types/alrotation.cpp:260-281 (both `toVector` overloads). -/
def toVector (r : Rotation) : List ℝ :=
  [r.r11, r.r12, r.r13, r.r21, r.r22, r.r23, r.r31, r.r32, r.r33]

/-- src/types/alrotation.cpp:84-104 (the statements of `operator*=` after the
aliasing test). `rhs` is what a read through the reference `pRot2` yields in a
given state of `*this`: constant when the operands are distinct objects, the
identity function when they are the same object. -/
noncomputable def mulAssignBody (self : Rotation) (rhs : Rotation → Rotation) : Rotation :=
  let c1 := self.r11
  let c2 := self.r12
  let c3 := self.r13
  let s := { self with r11 := c1 * (rhs self).r11 + c2 * (rhs self).r21 + c3 * (rhs self).r31 }
  let s := { s with r12 := c1 * (rhs s).r12 + c2 * (rhs s).r22 + c3 * (rhs s).r32 }
  let s := { s with r13 := c1 * (rhs s).r13 + c2 * (rhs s).r23 + c3 * (rhs s).r33 }
  let c1 := s.r21
  let c2 := s.r22
  let c3 := s.r23
  let s := { s with r21 := c1 * (rhs s).r11 + c2 * (rhs s).r21 + c3 * (rhs s).r31 }
  let s := { s with r22 := c1 * (rhs s).r12 + c2 * (rhs s).r22 + c3 * (rhs s).r32 }
  let s := { s with r23 := c1 * (rhs s).r13 + c2 * (rhs s).r23 + c3 * (rhs s).r33 }
  let c1 := s.r31
  let c2 := s.r32
  let c3 := s.r33
  let s := { s with r31 := c1 * (rhs s).r11 + c2 * (rhs s).r21 + c3 * (rhs s).r31 }
  let s := { s with r32 := c1 * (rhs s).r12 + c2 * (rhs s).r22 + c3 * (rhs s).r32 }
  { s with r33 := c1 * (rhs s).r13 + c2 * (rhs s).r23 + c3 * (rhs s).r33 }

/-- src/types/alrotation.cpp:72-105 (`a *= b` with `a`, `b` distinct objects). -/
noncomputable def mulAssign (a b : Rotation) : Rotation := mulAssignBody a (fun _ => b)

/-- src/types/alrotation.cpp:78-82 (`a *= a`: the right operand is copied first). -/
noncomputable def mulAssignSelf (a : Rotation) : Rotation :=
  let copy := a
  mulAssign a copy

/-- src/types/alrotation.cpp:108-113 (`operator*`). -/
noncomputable def mul (a b : Rotation) : Rotation := mulAssign a b

/-- src/types/alrotation.cpp:116-127 (`operator==`). -/
def eq (a b : Rotation) : Prop :=
  a.r11 = b.r11 ∧ a.r12 = b.r12 ∧ a.r13 = b.r13 ∧
  a.r21 = b.r21 ∧ a.r22 = b.r22 ∧ a.r23 = b.r23 ∧
  a.r31 = b.r31 ∧ a.r32 = b.r32 ∧ a.r33 = b.r33

/-- src/types/alrotation.cpp:135-148 (`isNear`). -/
def isNear (a b : Rotation) (eps : ℝ) : Prop :=
  |a.r11 - b.r11| ≤ eps ∧ |a.r12 - b.r12| ≤ eps ∧ |a.r13 - b.r13| ≤ eps ∧
  |a.r21 - b.r21| ≤ eps ∧ |a.r22 - b.r22| ≤ eps ∧ |a.r23 - b.r23| ≤ eps ∧
  |a.r31 - b.r31| ≤ eps ∧ |a.r32 - b.r32| ≤ eps ∧ |a.r33 - b.r33| ≤ eps

/-- src/types/alrotation.cpp:304-312 (`determinant`). -/
noncomputable def determinant (r : Rotation) : ℝ :=
  r.r11 * r.r22 * r.r33 + r.r12 * r.r23 * r.r31 + r.r13 * r.r21 * r.r32
    - r.r11 * r.r23 * r.r32 - r.r12 * r.r21 * r.r33 - r.r13 * r.r22 * r.r31

/-- src/types/alrotation.cpp:151-200 (`isRotation`: column pairs, row norms and
determinant, each within `eps`). -/
def isRotation (r : Rotation) (eps : ℝ) : Prop :=
  ¬ |r.r12 * r.r11 + r.r22 * r.r21 + r.r32 * r.r31| > eps ∧
  ¬ |r.r13 * r.r11 + r.r23 * r.r21 + r.r33 * r.r31| > eps ∧
  ¬ |r.r13 * r.r12 + r.r23 * r.r22 + r.r33 * r.r32| > eps ∧
  ¬ |r.r11 * r.r11 + r.r12 * r.r12 + r.r13 * r.r13 - 1| > eps ∧
  ¬ |r.r21 * r.r21 + r.r22 * r.r22 + r.r23 * r.r23 - 1| > eps ∧
  ¬ |r.r31 * r.r31 + r.r32 * r.r32 + r.r33 * r.r33 - 1| > eps ∧
  ¬ |determinant r - 1| > eps

/-- src/types/alrotation.cpp:284-301 (`transpose`). -/
def transpose (r : Rotation) : Rotation :=
  ⟨r.r11, r.r21, r.r31, r.r12, r.r22, r.r32, r.r13, r.r23, r.r33⟩

/-- src/types/alrotation.cpp:315-341 (`rotationFromQuaternion` of four floats). -/
noncomputable def fromQuaternion4 (a b c d : ℝ) : Rotation :=
  let t2 := a * b
  let t3 := a * c
  let t4 := a * d
  let t5 := -b * b
  let t6 := b * c
  let t7 := b * d
  let t8 := -c * c
  let t9 := c * d
  let t10 := -d * d
  ⟨2 * (t8 + t10) + 1, 2 * (t6 - t4), 2 * (t7 + t3),
   2 * (t6 + t4), 2 * (t5 + t10) + 1, 2 * (t9 - t2),
   2 * (t7 - t3), 2 * (t9 + t2), 2 * (t5 + t8) + 1⟩

/-- src/types/alrotation.cpp:358-381 (the matrix built once the norm test has passed). -/
noncomputable def angleDirectionMatrix (angle x y z : ℝ) : Rotation :=
  let t1 := Real.cos angle
  let t2 := 1 - t1
  let t3 := x * x
  let t6 := t2 * x
  let t7 := t6 * y
  let t8 := Real.sin angle
  let t9 := t8 * z
  let t11 := t6 * z
  let t12 := t8 * y
  let t15 := y * y
  let t19 := t2 * y * z
  let t20 := t8 * x
  let t24 := z * z
  ⟨t1 + t2 * t3, t7 - t9, t11 + t12,
   t7 + t9, t1 + t2 * t15, t19 - t20,
   t11 - t12, t19 + t20, t1 + t2 * t24⟩

/-- src/types/alrotation.cpp:343-382 (`rotationFromAngleDirection`); the
Position3D overload src/tools/almath.cpp:219-228 forwards to it. -/
noncomputable def fromAngleDirection (angle x y z : ℝ) : Res Rotation :=
  let norm := x * x + y * y + z * z
  if norm > 1.00001 ∨ norm < 0.99999 then .throws
  else .ok (angleDirectionMatrix angle x y z)

/-- src/types/alrotation.cpp:385-397 (`applyRotation`). -/
noncomputable def applyRotation (r : Rotation) (p : Position3D) : Position3D :=
  let x := p.x
  let y := p.y
  let z := p.z
  ⟨x * r.r11 + y * r.r12 + z * r.r13,
   x * r.r21 + y * r.r22 + z * r.r23,
   x * r.r31 + y * r.r32 + z * r.r33⟩

/-- src/types/alrotation.cpp:400-410 (`rotationFromRotX`). -/
noncomputable def fromRotX (a : ℝ) : Rotation :=
  { one with r22 := Real.cos a, r23 := -Real.sin a, r32 := Real.sin a, r33 := Real.cos a }

/-- src/types/alrotation.cpp:413-423 (`rotationFromRotY`). -/
noncomputable def fromRotY (a : ℝ) : Rotation :=
  { one with r11 := Real.cos a, r13 := Real.sin a, r31 := -Real.sin a, r33 := Real.cos a }

/-- src/types/alrotation.cpp:426-436 (`rotationFromRotZ`). -/
noncomputable def fromRotZ (a : ℝ) : Rotation :=
  { one with r11 := Real.cos a, r12 := -Real.sin a, r21 := Real.sin a, r22 := Real.cos a }

/-- almath/types/alrotation.h:251-256 (`fromRotXPi`). -/
noncomputable def fromRotXPi : Rotation := { one with r22 := -1, r33 := -1 }

/-- almath/types/alrotation.h:271-276 (`fromRotYPi`). -/
noncomputable def fromRotYPi : Rotation := { one with r11 := -1, r33 := -1 }

/-- almath/types/alrotation.h:294-299 (`fromRotZPi`). -/
noncomputable def fromRotZPi : Rotation := { one with r11 := -1, r22 := -1 }

/-- almath/types/alrotation.h:304-311 (`fromRotZHalfPi`). -/
noncomputable def fromRotZHalfPi : Rotation := { one with r11 := 0, r12 := -1, r21 := 1, r22 := 0 }

/-- src/types/alrotation.cpp:439-449 (`rotationFrom3DRotation`). -/
noncomputable def from3DRotation (wx wy wz : ℝ) : Rotation :=
  mulAssign (mulAssign (fromRotZ wz) (fromRotY wy)) (fromRotX wx)

/-- src/types/alrotation.cpp:451-523 (`normalizeRotation`). The divisions are
guarded by the tests `lNorm < lEpsilon`. -/
noncomputable def normalizeRotation (p : Rotation) : Rotation :=
  let eps : ℝ := 0.0001
  let n := √(p.r13 ^ 2 + p.r23 ^ 2 + p.r33 ^ 2)
  if n < eps then one
  else
    let p := { p with r13 := p.r13 / n, r23 := p.r23 / n, r33 := p.r33 / n }
    let x1 := p.r22 * p.r33 - p.r32 * p.r23
    let x2 := p.r32 * p.r13 - p.r12 * p.r33
    let x3 := p.r12 * p.r23 - p.r22 * p.r13
    let n := √(x1 ^ 2 + x2 ^ 2 + x3 ^ 2)
    if n < eps then one
    else
      let p := { p with r11 := x1 / n, r21 := x2 / n, r31 := x3 / n }
      { p with
        r12 := p.r23 * p.r31 - p.r33 * p.r21
        r22 := p.r33 * p.r11 - p.r13 * p.r31
        r32 := p.r13 * p.r21 - p.r23 * p.r11 }

/-- src/tools/almath.cpp:154-162 (`operator*(Rotation, Position3D)`). -/
noncomputable def act (r : Rotation) (p : Position3D) : Position3D :=
  ⟨r.r11 * p.x + r.r12 * p.y + r.r13 * p.z,
   r.r21 * p.x + r.r22 * p.y + r.r23 * p.z,
   r.r31 * p.x + r.r32 * p.y + r.r33 * p.z⟩

/-- src/tools/almath.cpp:209-217 (`operator*(Rotation, Velocity3D)`). -/
noncomputable def actVelocity (r : Rotation) (v : Velocity3D) : Velocity3D :=
  ⟨r.r11 * v.xd + r.r12 * v.yd + r.r13 * v.zd,
   r.r21 * v.xd + r.r22 * v.yd + r.r23 * v.zd,
   r.r31 * v.xd + r.r32 * v.yd + r.r33 * v.zd⟩

end Rotation

/-- src/types/alposition3d.cpp:221-229 (`crossProduct` with an out-parameter).
`rp`, `rq` give what the references read in a given state of the result object. -/
noncomputable def crossProductOut (rp rq : Position3D → Position3D) (res : Position3D) :
    Position3D :=
  let s := { res with x := (rp res).y * (rq res).z - (rp res).z * (rq res).y }
  let s := { s with y := (rp s).z * (rq s).x - (rp s).x * (rq s).z }
  { s with z := (rp s).x * (rq s).y - (rp s).y * (rq s).x }

end AlMath
