import Verif.Model.Rotation

/-!
Model of `Transform` (3x4 matrix, src/types/altransform.cpp). Field `rij` is the
C++ field `ri_cj`.
-/

namespace AlMath

/-- almath/types/altransform.h:26-28 (fields). -/
@[ext] structure Transform where
  r11 : ℝ
  r12 : ℝ
  r13 : ℝ
  r14 : ℝ
  r21 : ℝ
  r22 : ℝ
  r23 : ℝ
  r24 : ℝ
  r31 : ℝ
  r32 : ℝ
  r33 : ℝ
  r34 : ℝ

namespace Transform

/-- src/types/altransform.cpp:14-17 (default constructor). -/
noncomputable def one : Transform := ⟨1, 0, 0, 0, 0, 1, 0, 0, 0, 0, 1, 0⟩

/-- src/types/altransform.cpp:526-534 (`determinant`). -/
noncomputable def determinant (t : Transform) : ℝ :=
  t.r11 * t.r22 * t.r33 + t.r12 * t.r23 * t.r31 + t.r13 * t.r21 * t.r32
    - t.r11 * t.r23 * t.r32 - t.r12 * t.r21 * t.r33 - t.r13 * t.r22 * t.r31

/-- src/types/altransform.cpp:536-554 (`determinant` of a vector of floats). -/
noncomputable def determinantOfVector : List ℝ → ℝ
  | [a, b, c, _, d, e, f, _, g, h, i, _] =>
      a * e * i + b * f * g + c * d * h - a * f * h - b * d * i - c * e * g
  | [a, b, c, _, d, e, f, _, g, h, i, _, _, _, _, _] =>
      a * e * i + b * f * g + c * d * h - a * f * h - b * d * i - c * e * g
  | _ => 0

/-- src/types/altransform.cpp:194-243 (`isTransform`). -/
def isTransform (t : Transform) (eps : ℝ) : Prop :=
  ¬ |t.r12 * t.r11 + t.r22 * t.r21 + t.r32 * t.r31| > eps ∧
  ¬ |t.r13 * t.r11 + t.r23 * t.r21 + t.r33 * t.r31| > eps ∧
  ¬ |t.r13 * t.r12 + t.r23 * t.r22 + t.r33 * t.r32| > eps ∧
  ¬ |t.r11 * t.r11 + t.r12 * t.r12 + t.r13 * t.r13 - 1| > eps ∧
  ¬ |t.r21 * t.r21 + t.r22 * t.r22 + t.r23 * t.r23 - 1| > eps ∧
  ¬ |t.r31 * t.r31 + t.r32 * t.r32 + t.r33 * t.r33 - 1| > eps ∧
  ¬ |determinant t - 1| > eps

/-- almath/types/altransform.h:151-152 (default argument of `isTransform`): `0.0001f`. -/
noncomputable def defaultEps : ℝ := 0.0001

/-- src/types/altransform.cpp:412-483 (`normalizeTransform`). -/
noncomputable def normalizeTransform (p : Transform) : Transform :=
  let eps : ℝ := 0.0001
  let n := √(p.r13 ^ 2 + p.r23 ^ 2 + p.r33 ^ 2)
  if n < eps then
    { p with r11 := 1, r12 := 0, r13 := 0, r21 := 0, r22 := 1, r23 := 0,
             r31 := 0, r32 := 0, r33 := 1 }
  else
    let p := { p with r13 := p.r13 / n, r23 := p.r23 / n, r33 := p.r33 / n }
    let x1 := p.r22 * p.r33 - p.r32 * p.r23
    let x2 := p.r32 * p.r13 - p.r12 * p.r33
    let x3 := p.r12 * p.r23 - p.r22 * p.r13
    let n := √(x1 ^ 2 + x2 ^ 2 + x3 ^ 2)
    if n < eps then
      { p with r11 := 1, r12 := 0, r13 := 0, r21 := 0, r22 := 1, r23 := 0,
               r31 := 0, r32 := 0, r33 := 1 }
    else
      let p := { p with r11 := x1 / n, r21 := x2 / n, r31 := x3 / n }
      { p with
        r12 := p.r23 * p.r31 - p.r33 * p.r21
        r22 := p.r33 * p.r11 - p.r13 * p.r31
        r32 := p.r13 * p.r21 - p.r23 * p.r11 }

open Classical in
/-- src/types/altransform.cpp:39-51 (the check and repair done by the vector
constructor). -/
noncomputable def checked (t : Transform) : Transform :=
  if isTransform t defaultEps then t else normalizeTransform t

/-- src/types/altransform.cpp:19-76 (constructor from a vector of 12 or 16
floats; any other size gives the identity). -/
noncomputable def ofVector (l : List ℝ) : Res Transform :=
  if l.length = 12 ∨ l.length = 16 then do
    let t : Transform :=
      ⟨← Res.read l 0, ← Res.read l 1, ← Res.read l 2, ← Res.read l 3,
       ← Res.read l 4, ← Res.read l 5, ← Res.read l 6, ← Res.read l 7,
       ← Res.read l 8, ← Res.read l 9, ← Res.read l 10, ← Res.read l 11⟩
    return checked t
  else return ⟨1, 0, 0, 0, 0, 1, 0, 0, 0, 0, 1, 0⟩

/-- src/types/altransform.cpp:327-357 (both `toVector` overloads). -/
noncomputable def toVector (t : Transform) : List ℝ :=
  [t.r11, t.r12, t.r13, t.r14, t.r21, t.r22, t.r23, t.r24,
   t.r31, t.r32, t.r33, t.r34, 0, 0, 0, 1]

/-- src/types/altransform.cpp:359-380 (`writeToVector`: sixteen values written
through an advancing iterator). -/
noncomputable def writeToVector (t : Transform) (st : List ℝ × ℕ) : Res (List ℝ × ℕ) :=
  Res.writeAll st
    [t.r11, t.r12, t.r13, t.r14, t.r21, t.r22, t.r23, t.r24,
     t.r31, t.r32, t.r33, t.r34, 0, 0, 0, 1]

/-- src/types/altransform.cpp:494-524 (deprecated `transformToFloatVector`). -/
def toFloatVector (t : Transform) : List ℝ :=
  [t.r11, t.r12, t.r13, t.r14, t.r21, t.r22, t.r23, t.r24, t.r31, t.r32, t.r33, t.r34]

/-- src/types/altransform.cpp:78-98, 638-648 (constructor from three floats and
`transformFromPosition` of three floats). -/
noncomputable def fromPosition3 (x y z : ℝ) : Transform :=
  { one with r14 := x, r24 := y, r34 := z }

/-- src/types/altransform.cpp:108-130 (the statements of `operator*=` after the
aliasing test; `rhs` as in `Rotation.mulAssignBody`). -/
noncomputable def mulAssignBody (self : Transform) (rhs : Transform → Transform) : Transform :=
  let c1 := self.r11
  let c2 := self.r12
  let c3 := self.r13
  let s := { self with r11 := c1 * (rhs self).r11 + c2 * (rhs self).r21 + c3 * (rhs self).r31 }
  let s := { s with r12 := c1 * (rhs s).r12 + c2 * (rhs s).r22 + c3 * (rhs s).r32 }
  let s := { s with r13 := c1 * (rhs s).r13 + c2 * (rhs s).r23 + c3 * (rhs s).r33 }
  let s := { s with r14 := c1 * (rhs s).r14 + c2 * (rhs s).r24 + c3 * (rhs s).r34 + s.r14 }
  let c1 := s.r21
  let c2 := s.r22
  let c3 := s.r23
  let s := { s with r21 := c1 * (rhs s).r11 + c2 * (rhs s).r21 + c3 * (rhs s).r31 }
  let s := { s with r22 := c1 * (rhs s).r12 + c2 * (rhs s).r22 + c3 * (rhs s).r32 }
  let s := { s with r23 := c1 * (rhs s).r13 + c2 * (rhs s).r23 + c3 * (rhs s).r33 }
  let s := { s with r24 := c1 * (rhs s).r14 + c2 * (rhs s).r24 + c3 * (rhs s).r34 + s.r24 }
  let c1 := s.r31
  let c2 := s.r32
  let c3 := s.r33
  let s := { s with r31 := c1 * (rhs s).r11 + c2 * (rhs s).r21 + c3 * (rhs s).r31 }
  let s := { s with r32 := c1 * (rhs s).r12 + c2 * (rhs s).r22 + c3 * (rhs s).r32 }
  let s := { s with r33 := c1 * (rhs s).r13 + c2 * (rhs s).r23 + c3 * (rhs s).r33 }
  { s with r34 := c1 * (rhs s).r14 + c2 * (rhs s).r24 + c3 * (rhs s).r34 + s.r34 }

/-- src/types/altransform.cpp:100-131 (`a *= b` with `a`, `b` distinct objects). -/
noncomputable def mulAssign (a b : Transform) : Transform := mulAssignBody a (fun _ => b)

/-- src/types/altransform.cpp:102-106 (`a *= a`: the right operand is copied first). -/
noncomputable def mulAssignSelf (a : Transform) : Transform :=
  let copy := a
  mulAssign a copy

/-- src/types/altransform.cpp:133-151 (`operator*`). -/
noncomputable def mul (a b : Transform) : Transform :=
  { r11 := a.r11 * b.r11 + a.r12 * b.r21 + a.r13 * b.r31
    r12 := a.r11 * b.r12 + a.r12 * b.r22 + a.r13 * b.r32
    r13 := a.r11 * b.r13 + a.r12 * b.r23 + a.r13 * b.r33
    r14 := a.r11 * b.r14 + a.r12 * b.r24 + a.r13 * b.r34 + a.r14
    r21 := a.r21 * b.r11 + a.r22 * b.r21 + a.r23 * b.r31
    r22 := a.r21 * b.r12 + a.r22 * b.r22 + a.r23 * b.r32
    r23 := a.r21 * b.r13 + a.r22 * b.r23 + a.r23 * b.r33
    r24 := a.r21 * b.r14 + a.r22 * b.r24 + a.r23 * b.r34 + a.r24
    r31 := a.r31 * b.r11 + a.r32 * b.r21 + a.r33 * b.r31
    r32 := a.r31 * b.r12 + a.r32 * b.r22 + a.r33 * b.r32
    r33 := a.r31 * b.r13 + a.r32 * b.r23 + a.r33 * b.r33
    r34 := a.r31 * b.r14 + a.r32 * b.r24 + a.r33 * b.r34 + a.r34 }

/-- src/types/altransform.cpp:153-167 (`operator==`). -/
def eq (a b : Transform) : Prop :=
  a.r11 = b.r11 ∧ a.r12 = b.r12 ∧ a.r13 = b.r13 ∧ a.r14 = b.r14 ∧
  a.r21 = b.r21 ∧ a.r22 = b.r22 ∧ a.r23 = b.r23 ∧ a.r24 = b.r24 ∧
  a.r31 = b.r31 ∧ a.r32 = b.r32 ∧ a.r33 = b.r33 ∧ a.r34 = b.r34

/-- src/types/altransform.cpp:175-191 (`isNear`). -/
def isNear (a b : Transform) (eps : ℝ) : Prop :=
  |a.r11 - b.r11| ≤ eps ∧ |a.r12 - b.r12| ≤ eps ∧ |a.r13 - b.r13| ≤ eps ∧
  |a.r21 - b.r21| ≤ eps ∧ |a.r22 - b.r22| ≤ eps ∧ |a.r23 - b.r23| ≤ eps ∧
  |a.r31 - b.r31| ≤ eps ∧ |a.r32 - b.r32| ≤ eps ∧ |a.r33 - b.r33| ≤ eps ∧
  |a.r14 - b.r14| ≤ eps ∧ |a.r24 - b.r24| ≤ eps ∧ |a.r34 - b.r34| ≤ eps

/-- src/types/altransform.cpp:485-491 (`norm`). -/
noncomputable def norm (t : Transform) : ℝ := √(t.r14 * t.r14 + t.r24 * t.r24 + t.r34 * t.r34)

/-- src/types/altransform.cpp:382-409 (`transformPreMultiply`). `t` gives what
the reference `pT` reads in a given state of `pTOut`. -/
noncomputable def preMultiplyBody (t : Transform → Transform) (o : Transform) : Transform :=
  let r1 := o.r11
  let r2 := o.r21
  let o := { o with r11 := (t o).r11 * r1 + (t o).r12 * r2 + (t o).r13 * o.r31 }
  let o := { o with r21 := (t o).r21 * r1 + (t o).r22 * r2 + (t o).r23 * o.r31 }
  let o := { o with r31 := (t o).r31 * r1 + (t o).r32 * r2 + (t o).r33 * o.r31 }
  let r1 := o.r12
  let r2 := o.r22
  let o := { o with r12 := (t o).r11 * r1 + (t o).r12 * r2 + (t o).r13 * o.r32 }
  let o := { o with r22 := (t o).r21 * r1 + (t o).r22 * r2 + (t o).r23 * o.r32 }
  let o := { o with r32 := (t o).r31 * r1 + (t o).r32 * r2 + (t o).r33 * o.r32 }
  let r1 := o.r13
  let r2 := o.r23
  let o := { o with r13 := (t o).r11 * r1 + (t o).r12 * r2 + (t o).r13 * o.r33 }
  let o := { o with r23 := (t o).r21 * r1 + (t o).r22 * r2 + (t o).r23 * o.r33 }
  let o := { o with r33 := (t o).r31 * r1 + (t o).r32 * r2 + (t o).r33 * o.r33 }
  let r1 := o.r14
  let r2 := o.r24
  let o := { o with r14 := (t o).r11 * r1 + (t o).r12 * r2 + (t o).r13 * o.r34 + (t o).r14 }
  let o := { o with r24 := (t o).r21 * r1 + (t o).r22 * r2 + (t o).r23 * o.r34 + (t o).r24 }
  { o with r34 := (t o).r31 * r1 + (t o).r32 * r2 + (t o).r33 * o.r34 + (t o).r34 }

/-- src/types/altransform.cpp:382-409 (`transformPreMultiply`, distinct objects). -/
noncomputable def preMultiply (t o : Transform) : Transform := preMultiplyBody (fun _ => t) o

/-- src/types/altransform.cpp:557-576 (`transformInverse` with an out-parameter).
`t` gives what the reference `pT` reads in a given state of `pTOut`. -/
noncomputable def inverseOutBody (t : Transform → Transform) (o : Transform) : Transform :=
  let o := { o with r11 := (t o).r11 }
  let o := { o with r12 := (t o).r21 }
  let o := { o with r13 := (t o).r31 }
  let o := { o with r21 := (t o).r12 }
  let o := { o with r22 := (t o).r22 }
  let o := { o with r23 := (t o).r32 }
  let o := { o with r31 := (t o).r13 }
  let o := { o with r32 := (t o).r23 }
  let o := { o with r33 := (t o).r33 }
  let o := { o with r14 := -((t o).r11 * (t o).r14 + (t o).r21 * (t o).r24 + (t o).r31 * (t o).r34) }
  let o := { o with r24 := -((t o).r12 * (t o).r14 + (t o).r22 * (t o).r24 + (t o).r32 * (t o).r34) }
  { o with r34 := -((t o).r13 * (t o).r14 + (t o).r23 * (t o).r24 + (t o).r33 * (t o).r34) }

/-- src/types/altransform.cpp:557-584 (`transformInverse`, `Transform::inverse`). -/
noncomputable def inverse (t : Transform) : Transform := inverseOutBody (fun _ => t) one

/-- src/types/altransform.cpp:667-686 (`transformInvertInPlace`, statement by statement). -/
noncomputable def invertInPlace (p : Transform) : Transform :=
  let tmp0 := p.r12
  let p := { p with r12 := p.r21 }
  let p := { p with r21 := tmp0 }
  let tmp0 := p.r13
  let p := { p with r13 := p.r31 }
  let p := { p with r31 := tmp0 }
  let tmp0 := p.r23
  let p := { p with r23 := p.r32 }
  let p := { p with r32 := tmp0 }
  let tmp0 := -(p.r11 * p.r14 + p.r12 * p.r24 + p.r13 * p.r34)
  let tmp1 := -(p.r21 * p.r14 + p.r22 * p.r24 + p.r23 * p.r34)
  let p := { p with r34 := -(p.r31 * p.r14 + p.r32 * p.r24 + p.r33 * p.r34) }
  let p := { p with r24 := tmp1 }
  { p with r14 := tmp0 }

/-- src/types/altransform.cpp:688-693 (`pinv`). -/
noncomputable def pinv (t : Transform) : Transform := invertInPlace t

/-- src/types/altransform.cpp:312-315, 696-705 (`diff`, `transformDiff`). -/
noncomputable def diff (a b : Transform) : Transform := mulAssign (invertInPlace a) b

/-- src/types/altransform.cpp:707-718 (`transformDistanceSquared`). -/
noncomputable def distanceSquared (a b : Transform) : ℝ :=
  let tmp := a.r14 - b.r14
  let tot := tmp * tmp
  let tmp := a.r24 - b.r24
  let tot := tot + tmp * tmp
  let tmp := a.r34 - b.r34
  tot + tmp * tmp

/-- src/types/altransform.cpp:721-726 (`transformDistance`). -/
noncomputable def distance (a b : Transform) : ℝ := √(distanceSquared a b)

/-- src/types/altransform.cpp:587-597 (`transformFromRotX`). -/
noncomputable def fromRotX (a : ℝ) : Transform :=
  { one with r22 := Real.cos a, r23 := -Real.sin a, r32 := Real.sin a, r33 := Real.cos a }

/-- src/types/altransform.cpp:600-610 (`transformFromRotY`). -/
noncomputable def fromRotY (a : ℝ) : Transform :=
  { one with r11 := Real.cos a, r13 := Real.sin a, r31 := -Real.sin a, r33 := Real.cos a }

/-- src/types/altransform.cpp:613-623 (`transformFromRotZ`). -/
noncomputable def fromRotZ (a : ℝ) : Transform :=
  { one with r11 := Real.cos a, r12 := -Real.sin a, r21 := Real.sin a, r22 := Real.cos a }

/-- src/types/altransform.cpp:626-635 (`transformFrom3DRotation`). -/
noncomputable def from3DRotation (wx wy wz : ℝ) : Transform :=
  mulAssign (mulAssign (fromRotZ wz) (fromRotY wy)) (fromRotX wx)

/-- src/types/altransform.cpp:651-665 (`transformFromPosition` of six floats). -/
noncomputable def fromPosition6 (x y z wx wy wz : ℝ) : Transform :=
  { from3DRotation wx wy wz with r14 := x, r24 := y, r34 := z }

end Transform

end AlMath
