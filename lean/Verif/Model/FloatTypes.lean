import Verif.Model.Float32
import Verif.Model.AlMath

/-!
The part of almath for which rounding, overflow, NaN and infinities are modelled: `clipData`, `modulo2PI`,
`weightedMeanAngle` of src/tools/almath.cpp, `Position3D`, `Rotation`, and the product and check of `Transform`.
Same simplifications as in Model/Float32.lean.
-/

namespace AlMath.F32

/-- `std::fmod` of `<cmath>`, which is exact. Not in /repo: language semantics. -/
noncomputable def fmod : F32 → F32 → F32
  | fin x, fin y => if y = 0 then nan else fin (AlMath.fmod x y)
  | fin x, pinf => fin x
  | fin x, ninf => fin x
  | _, _ => nan

open Classical in
/-- src/tools/almath.cpp:19-31 (`modulo2PIInPlace`), almath/tools/altrigonometry.h:16-17. -/
noncomputable def modulo2PI (angle : F32) : F32 :=
  let angle := fmod angle (fin twoPiF)
  if lt (fin piF) angle then sub angle (fin twoPiF)
  else if lt angle (neg (fin piF)) then add angle (fin twoPiF)
  else angle

open Classical in
/-- src/tools/almath.cpp:67-75 (`clipData`; `boost::algorithm::clamp(v, lo, hi)` is
`v < lo ? lo : hi < v ? hi : v`). The new value and the returned flag. -/
noncomputable def clipData (mn mx d : F32) : F32 × Bool :=
  let d' := if lt d mn then mn else if lt mx d then mx else d
  (d', decide (¬ eq d d'))

/-- `|a - b| <= eps`, as in src/types/alposition3d.cpp:67. -/
noncomputable def near (a b eps : F32) : Prop := le (abs (sub a b)) eps

/-- The expression `a*x + b*y + c*z`, as in src/types/alposition3d.cpp:218. -/
noncomputable def dot (a b c x y z : F32) : F32 := add (add (mul a x) (mul b y)) (mul c z)

/-- almath/types/alposition3d.h:24-30 (fields). -/
@[ext] structure Position3D where
  x : F32
  y : F32
  z : F32

namespace Position3D

/-- src/types/alposition3d.cpp:63-70 (`isNear`). -/
noncomputable def isNear (p q : Position3D) (eps : F32) : Prop :=
  near p.x q.x eps ∧ near p.y q.y eps ∧ near p.z q.z eps

/-- src/types/alposition3d.cpp:106-111 (`operator==`). -/
def eq (p q : Position3D) : Prop := F32.eq p.x q.x ∧ F32.eq p.y q.y ∧ F32.eq p.z q.z

/-- src/types/alposition3d.cpp:113-116 (`operator!=`). -/
def ne (p q : Position3D) : Prop := ¬ eq p q

/-- src/types/alposition3d.cpp:72-75 (`operator*`). -/
noncomputable def smul (p : Position3D) (v : F32) : Position3D := ⟨mul p.x v, mul p.y v, mul p.z v⟩

open Classical in
/-- src/types/alposition3d.cpp:77-85 (`operator/`). -/
noncomputable def div (p : Position3D) (v : F32) : Res Position3D :=
  if F32.eq v (fin 0) then .throws else .ok (smul p (F32.div (fin 1) v))

/-- src/types/alposition3d.cpp:197-200 (`norm`). -/
noncomputable def norm (p : Position3D) : F32 := sqrt (dot p.x p.y p.z p.x p.y p.z)

open Classical in
/-- src/types/alposition3d.cpp:202-212 (`normalize`). -/
noncomputable def normalize (p : Position3D) : Res Position3D :=
  if F32.eq (norm p) (fin 0) then .throws else div p (norm p)

/-- src/types/alposition3d.cpp:214-219 (`dotProduct`). -/
noncomputable def dotProduct (p q : Position3D) : F32 := dot p.x p.y p.z q.x q.y q.z

/-- src/types/alposition3d.cpp:221-238 (`crossProduct`). -/
noncomputable def crossProduct (p q : Position3D) : Position3D :=
  ⟨sub (mul p.y q.z) (mul p.z q.y), sub (mul p.z q.x) (mul p.x q.z), sub (mul p.x q.y) (mul p.y q.x)⟩

/-- src/types/alposition3d.cpp:180-187 (`distanceSquared`). -/
noncomputable def distanceSquared (p q : Position3D) : F32 :=
  dot (sub p.x q.x) (sub p.y q.y) (sub p.z q.z) (sub p.x q.x) (sub p.y q.y) (sub p.z q.z)

/-- src/types/alposition3d.cpp:190-195 (`distance`). -/
noncomputable def distance (p q : Position3D) : F32 := sqrt (distanceSquared p q)

/-- src/types/alposition3d.cpp:240-244 (`isUnitVector`). -/
noncomputable def isUnitVector (p : Position3D) (eps : F32) : Prop := le (abs (sub (fin 1) (norm p))) eps

/-- src/types/alposition3d.cpp:246-251 (`isOrthogonal`). -/
noncomputable def isOrthogonal (p q : Position3D) (eps : F32) : Prop := le (abs (dotProduct p q)) eps

end Position3D

/-- almath/types/alrotation.h:36-68 (fields). -/
@[ext] structure Rotation where
  r11 : F32
  r12 : F32
  r13 : F32
  r21 : F32
  r22 : F32
  r23 : F32
  r31 : F32
  r32 : F32
  r33 : F32

namespace Rotation

/-- src/types/alrotation.cpp:72-113 (`operator*`, `operator*=`). -/
noncomputable def mul (a b : Rotation) : Rotation :=
  ⟨dot a.r11 a.r12 a.r13 b.r11 b.r21 b.r31, dot a.r11 a.r12 a.r13 b.r12 b.r22 b.r32,
    dot a.r11 a.r12 a.r13 b.r13 b.r23 b.r33,
    dot a.r21 a.r22 a.r23 b.r11 b.r21 b.r31, dot a.r21 a.r22 a.r23 b.r12 b.r22 b.r32,
    dot a.r21 a.r22 a.r23 b.r13 b.r23 b.r33,
    dot a.r31 a.r32 a.r33 b.r11 b.r21 b.r31, dot a.r31 a.r32 a.r33 b.r12 b.r22 b.r32,
    dot a.r31 a.r32 a.r33 b.r13 b.r23 b.r33⟩

/-- src/types/alrotation.cpp:135-148 (`isNear`). -/
noncomputable def isNear (a b : Rotation) (eps : F32) : Prop :=
  near a.r11 b.r11 eps ∧ near a.r12 b.r12 eps ∧ near a.r13 b.r13 eps ∧
  near a.r21 b.r21 eps ∧ near a.r22 b.r22 eps ∧ near a.r23 b.r23 eps ∧
  near a.r31 b.r31 eps ∧ near a.r32 b.r32 eps ∧ near a.r33 b.r33 eps

/-- src/types/alrotation.cpp:304-312 (`determinant`). -/
noncomputable def determinant (a : Rotation) : F32 :=
  sub (sub (sub (add (add (F32.mul (F32.mul a.r11 a.r22) a.r33) (F32.mul (F32.mul a.r12 a.r23) a.r31))
    (F32.mul (F32.mul a.r13 a.r21) a.r32)) (F32.mul (F32.mul a.r11 a.r23) a.r32))
    (F32.mul (F32.mul a.r12 a.r21) a.r33)) (F32.mul (F32.mul a.r13 a.r22) a.r31)

open Classical in
/-- src/types/alrotation.cpp:151-200 (`isRotation`). -/
noncomputable def isRotation (a : Rotation) (eps : F32) : Bool :=
  if lt eps (abs (dot a.r12 a.r22 a.r32 a.r11 a.r21 a.r31)) then false
  else if lt eps (abs (dot a.r13 a.r23 a.r33 a.r11 a.r21 a.r31)) then false
  else if lt eps (abs (dot a.r13 a.r23 a.r33 a.r12 a.r22 a.r32)) then false
  else if lt eps (abs (sub (dot a.r11 a.r12 a.r13 a.r11 a.r12 a.r13) (fin 1))) then false
  else if lt eps (abs (sub (dot a.r21 a.r22 a.r23 a.r21 a.r22 a.r23) (fin 1))) then false
  else if lt eps (abs (sub (dot a.r31 a.r32 a.r33 a.r31 a.r32 a.r33) (fin 1))) then false
  else if lt eps (abs (sub (determinant a) (fin 1))) then false
  else true

/-- src/types/alrotation.cpp:284-301 (`transpose`). -/
def transpose (a : Rotation) : Rotation := ⟨a.r11, a.r21, a.r31, a.r12, a.r22, a.r32, a.r13, a.r23, a.r33⟩

/-- src/tools/almath.cpp:154-162 (`operator*` on a position). -/
noncomputable def apply (a : Rotation) (p : Position3D) : Position3D :=
  ⟨dot a.r11 a.r12 a.r13 p.x p.y p.z, dot a.r21 a.r22 a.r23 p.x p.y p.z, dot a.r31 a.r32 a.r33 p.x p.y p.z⟩

end Rotation

/-- almath/types/altransform.h:26-28 (fields): the rotation part and the last column. -/
@[ext] structure Transform where
  r : Rotation
  r14 : F32
  r24 : F32
  r34 : F32

namespace Transform

/-- src/types/altransform.cpp:133-151 (`operator*`), also 100-131 (`operator*=`). -/
noncomputable def mul (a b : Transform) : Transform :=
  ⟨Rotation.mul a.r b.r, add (dot a.r.r11 a.r.r12 a.r.r13 b.r14 b.r24 b.r34) a.r14,
    add (dot a.r.r21 a.r.r22 a.r.r23 b.r14 b.r24 b.r34) a.r24,
    add (dot a.r.r31 a.r.r32 a.r.r33 b.r14 b.r24 b.r34) a.r34⟩

/-- src/types/altransform.cpp:194-243 (`isTransform`), 526-534 (`determinant`): the same tests as
`isRotation`. -/
noncomputable def isTransform (a : Transform) (eps : F32) : Bool := Rotation.isRotation a.r eps

/-- src/tools/altransformhelpers.cpp:745-754 (`operator*` on a position). -/
noncomputable def apply (a : Transform) (p : Position3D) : Position3D :=
  ⟨add (dot a.r.r11 a.r.r12 a.r.r13 p.x p.y p.z) a.r14, add (dot a.r.r21 a.r.r22 a.r.r23 p.x p.y p.z) a.r24,
    add (dot a.r.r31 a.r.r32 a.r.r33 p.x p.y p.z) a.r34⟩

/-- src/types/altransform.cpp:557-584 (`transformInverse`), 667-693 (`transformInvertInPlace`, `pinv`). -/
noncomputable def inverse (a : Transform) : Transform :=
  ⟨Rotation.transpose a.r, neg (dot a.r.r11 a.r.r21 a.r.r31 a.r14 a.r24 a.r34),
    neg (dot a.r.r12 a.r.r22 a.r.r32 a.r14 a.r24 a.r34), neg (dot a.r.r13 a.r.r23 a.r.r33 a.r14 a.r24 a.r34)⟩

/-- src/types/altransform.cpp:696-705 (`transformDiff`). -/
noncomputable def diff (a b : Transform) : Transform := mul (inverse a) b

/-- src/types/altransform.cpp:707-726 (`transformDistanceSquared`, `transformDistance`). -/
noncomputable def distance (a b : Transform) : F32 :=
  Position3D.distance ⟨a.r14, a.r24, a.r34⟩ ⟨b.r14, b.r24, b.r34⟩

end Transform

open Classical in
/-- src/tools/almath.cpp:52-60 (the loop of `weightedMeanAngle`), with `std::cos` and `std::sin` as parameters.
Advancing the weight iterator past its end is undefined. -/
noncomputable def weightedMeanLoop (cos sin : F32 → F32) : List F32 → List F32 → F32 × F32 → Res (F32 × F32)
  | [], _, s => .ok s
  | _ :: _, [], _ => .ub
  | a :: as, w :: ws, s =>
    if le w (fin 0) then .throws
    else weightedMeanLoop cos sin as ws (add s.1 (F32.mul (cos a) w), add s.2 (F32.mul (sin a) w))

/-- src/types/alposition2d.cpp:180-183 (`norm`), see `weightedMeanAngle`. -/
noncomputable def norm2 (x y : F32) : F32 := sqrt (add (F32.mul x x) (F32.mul y y))

open Classical in
/-- src/tools/almath.cpp:45-65 (`weightedMeanAngle`), with `std::cos`, `std::sin` and `std::atan2` as
parameters, and the float nearest to 0.001 as `small`. -/
noncomputable def weightedMeanAngle (cos sin : F32 → F32) (atan2 : F32 → F32 → F32) (small : ℝ)
    (angles weights : List F32) : Res F32 :=
  if angles.length ≠ weights.length then .throws
  else (weightedMeanLoop cos sin angles weights (fin 0, fin 0)).bind fun s =>
    if lt (norm2 s.1 s.2) (fin small) then .throws
    else .ok (modulo2PI (atan2 s.2 s.1))

end AlMath.F32
