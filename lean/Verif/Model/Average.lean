import Verif.Model.Transform
import Mathlib.Data.Matrix.Mul
import Mathlib.Data.Fin.VecNotation

/-!
Model of `averageTransforms` (almath/scenegraph/almatheigen.h).

Simplifications. `float` is exact real arithmetic, and the number of transforms fits `int`. Eigen's
quaternions (release 3.3) are modelled by the code below: their conversion from and to matrices
follows Eigen/src/Geometry/Quaternion.h, which is not part of /repo. A division by zero or the
square root of a negative number is an undefined outcome; `normalize` of the zero quaternion too
(some releases of Eigen divide by the zero norm, others leave the quaternion).
-/

namespace AlMath.Average

/-- Eigen's `Quaternion<float>`, used in almath/scenegraph/almatheigen.h:35. -/
@[ext] structure EQuat where
  vec : Fin 3 → ℝ
  w : ℝ

/-- The 3x3 block that almath/scenegraph/almatheigen.h:37 gives to Eigen. -/
def block (t : Transform) : Fin 3 → Fin 3 → ℝ :=
  ![![t.r11, t.r12, t.r13], ![t.r21, t.r22, t.r23], ![t.r31, t.r32, t.r33]]

open Classical in
/-- Index of a largest diagonal entry, in Eigen's assignment of a 3x3 matrix to a quaternion (used in
almath/scenegraph/almatheigen.h:34-38). -/
noncomputable def pivot (m : Fin 3 → Fin 3 → ℝ) : Fin 3 :=
  let i : Fin 3 := if m 1 1 > m 0 0 then 1 else 0
  if m 2 2 > m i i then 2 else i

open Classical in
/-- Eigen's assignment of a 3x3 matrix to a quaternion, for matrices without positive trace (used in
almath/scenegraph/almatheigen.h:34-38). -/
noncomputable def ofPivot (m : Fin 3 → Fin 3 → ℝ) (i : Fin 3) : Res EQuat :=
  let j := i + 1
  let k := j + 1
  let a := m i i - m j j - m k k + 1
  if a ≤ 0 then .ub
  else
    let t := √a
    let qi := 0.5 * t
    let t := 0.5 / t
    let w := (m k j - m j k) * t
    let qj := (m j i + m i j) * t
    let qk := (m k i + m i k) * t
    .ok ⟨fun l => if l = i then qi else if l = j then qj else qk, w⟩

open Classical in
/-- Eigen's assignment of a 3x3 matrix to a quaternion, used in
almath/scenegraph/almatheigen.h:34-38 (`toEigenQuaternion`). -/
noncomputable def ofMatrix (m : Fin 3 → Fin 3 → ℝ) : Res EQuat :=
  let t := m 0 0 + m 1 1 + m 2 2
  if t > 0 then
    let t := √(t + 1)
    let w := 0.5 * t
    let t := 0.5 / t
    .ok ⟨![(m 2 1 - m 1 2) * t, (m 0 2 - m 2 0) * t, (m 1 0 - m 0 1) * t], w⟩
  else ofPivot m (pivot m)

/-- almath/scenegraph/almatheigen.h:34-38 (`toEigenQuaternion`). -/
noncomputable def toEigenQuaternion (t : Transform) : Res EQuat := ofMatrix (block t)

/-- Eigen's `dot` of quaternions, used in almath/scenegraph/almatheigen.h:130. -/
def EQuat.dot (p q : EQuat) : ℝ :=
  p.vec 0 * q.vec 0 + p.vec 1 * q.vec 1 + p.vec 2 * q.vec 2 + p.w * q.w

/-- Eigen's `toRotationMatrix`, used in almath/scenegraph/almatheigen.h:143. -/
noncomputable def EQuat.toRotationMatrix (q : EQuat) : Fin 3 → Fin 3 → ℝ :=
  let tx := 2 * q.vec 0
  let ty := 2 * q.vec 1
  let tz := 2 * q.vec 2
  let twx := tx * q.w
  let twy := ty * q.w
  let twz := tz * q.w
  let txx := tx * q.vec 0
  let txy := ty * q.vec 0
  let txz := tz * q.vec 0
  let tyy := ty * q.vec 1
  let tyz := tz * q.vec 1
  let tzz := tz * q.vec 2
  ![![1 - (tyy + tzz), txy - twz, txz + twy], ![txy + twz, 1 - (txx + tzz), tyz - twx],
    ![txz - twy, tyz + twx, 1 - (txx + tyy)]]

open Classical in
/-- Eigen's `normalize` of quaternions, used in almath/scenegraph/almatheigen.h:140. Of zero
it is undefined here: it divides by zero before Eigen 3.3 and gives zero since. -/
noncomputable def EQuat.normalize (q : EQuat) : Res EQuat :=
  let n := √(q.dot q)
  if n = 0 then .ub else .ok ⟨fun l => q.vec l / n, q.w / n⟩

/-- The accumulators of almath/scenegraph/almatheigen.h:122-123. -/
structure Cumul where
  position : Fin 3 → ℝ
  quat : EQuat

open Classical in
/-- almath/scenegraph/almatheigen.h:125-138 (body of the loop of `averageTransforms`). -/
noncomputable def cumulate (firstQuat : EQuat) (c : Cumul) (tf : Transform) : Res Cumul :=
  (toEigenQuaternion tf).map fun q =>
    let areQuaternionsClose := q.dot firstQuat ≥ 0
    let newRotation : EQuat := if ¬ areQuaternionsClose then ⟨fun l => -q.vec l, -q.w⟩ else q
    { quat := ⟨fun l => c.quat.vec l + newRotation.vec l, c.quat.w + newRotation.w⟩
      position := fun l => c.position l + ![tf.r14, tf.r24, tf.r34] l }

/-- almath/scenegraph/almatheigen.h:124-139 (loop of `averageTransforms`). -/
noncomputable def cumulateAll (firstQuat : EQuat) : Cumul → List Transform → Res Cumul
  | c, [] => .ok c
  | c, tf :: range => (cumulate firstQuat c tf).bind fun c' => cumulateAll firstQuat c' range

/-- almath/scenegraph/almatheigen.h:112-146 (`averageTransforms`). -/
noncomputable def averageTransforms : List Transform → Res Transform
  | [] => .throws
  | first :: rest =>
    let averageFactor : ℝ := 1 / ((first :: rest).length : ℝ)
    (toEigenQuaternion first).bind fun firstQuat =>
    (cumulateAll firstQuat ⟨fun _ => 0, ⟨fun _ => 0, 0⟩⟩ (first :: rest)).bind fun c =>
    c.quat.normalize.bind fun q =>
    let m := q.toRotationMatrix
    let p := fun l => c.position l * averageFactor
    .ok ⟨m 0 0, m 0 1, m 0 2, p 0, m 1 0, m 1 1, m 1 2, p 1, m 2 0, m 2 1, m 2 2, p 2⟩

end AlMath.Average
