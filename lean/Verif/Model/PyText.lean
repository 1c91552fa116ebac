import Verif.Model.DecimalText
import Verif.Model.FloatMap
import Verif.Model.FloatQuat
import Verif.Model.FloatAngles

/-!
Model of the texts of objects in Python: the members `__repr__` and `__str__` that almath.i adds.

Each of them writes with `sprintf` into a static array of 1024 characters. Numbers are converted by `%g`, that is with six
significant digits (Model/DecimalText.lean; the signs of zeros and of NaN are not modelled, they add at most one
character). What SWIG does with the text, which it copies at once, is not modelled.
-/

namespace AlMath.PyText

open AlMath.F32

/-- A part of a format: a text, `%g` with its argument or `%d` with its argument (almath.i:199-200, 397-400). -/
inductive Item where
  | s (t : String)
  | g (x : F32)
  | d (n : ℤ)

/-- The text of an integer (`%d`). Not in /repo: language semantics. -/
def printInt (n : ℤ) : List Char :=
  if n = 0 then ['0'] else if n < 0 then '-' :: (Decimal.digits n.natAbs).map Nat.digitChar
  else (Decimal.digits n.natAbs).map Nat.digitChar

/-- The text of one part. Not in /repo: language semantics. -/
noncomputable def Item.text : Item → List Char
  | .s t => t.toList
  | .g x => Decimal.print 6 x
  | .d n => printInt n

/-- The text that `sprintf` writes, without the zero at its end. Not in /repo: language semantics. -/
noncomputable def textOf (l : List Item) : List Char := l.flatMap Item.text

/-- `sprintf(tmp, ...)` with `static char tmp[1024]` (almath.i:198-200): undefined if the text and the zero at its end do not
fit. -/
noncomputable def sprintf (l : List Item) : Res (List Char) :=
  if (textOf l).length + 1 ≤ 1024 then .ok (textOf l) else .ub

/-- almath/types/alpose2d.h:26-32 (fields). -/
structure Pose2D where
  x : F32
  y : F32
  theta : F32

/-- almath/types/alposition6d.h:26-36 (fields). -/
structure Position6D where
  x : F32
  y : F32
  z : F32
  wx : F32
  wy : F32
  wz : F32

/-- almath/types/alvelocity3d.h:26-31 (fields). -/
structure Velocity3D where
  xd : F32
  yd : F32
  zd : F32

/-- almath/types/alvelocity6d.h:27-37 (fields). -/
structure Velocity6D where
  xd : F32
  yd : F32
  zd : F32
  wxd : F32
  wyd : F32
  wzd : F32

/-- almath.i:197-202. -/
noncomputable def reprPose2D (p : Pose2D) : Res (List Char) :=
  sprintf [.s "Pose2D(x=", .g p.x, .s ", y=", .g p.y, .s ", theta=", .g p.theta, .s ")"]

/-- almath.i:210-215. -/
noncomputable def reprPosition2D (p : F32.Position2D) : Res (List Char) :=
  sprintf [.s "Position2D(x=", .g p.x, .s ", y=", .g p.y, .s ")"]

/-- almath.i:224-229. -/
noncomputable def reprPosition3D (p : F32.Position3D) : Res (List Char) :=
  sprintf [.s "Position3D(x=", .g p.x, .s ", y=", .g p.y, .s ", z=", .g p.z, .s ")"]

/-- almath.i:238-243. -/
noncomputable def reprQuaternion (q : F32.Quat) : Res (List Char) :=
  sprintf [.s "Quaternion(w=", .g q.w, .s ", x=", .g q.x, .s ", y=", .g q.y, .s ", z=", .g q.z, .s ")"]

/-- almath.i:247-253. -/
noncomputable def reprPosition6D (p : Position6D) : Res (List Char) :=
  sprintf [.s "Position6D(x=", .g p.x, .s ", y=", .g p.y, .s ", z=", .g p.z, .s ", wx=", .g p.wx, .s ", wy=", .g p.wy,
    .s ", wz=", .g p.wz, .s ")"]

/-- almath.i:261-266. -/
noncomputable def reprPositionAndVelocity (q dq : F32) : Res (List Char) :=
  sprintf [.s "PositionAndVelocity(q=", .g q, .s ", dq=", .g dq, .s ")"]

/-- almath.i:271-280 (`Rotation.__str__`). -/
noncomputable def strRotation (r : F32.Rotation) : Res (List Char) :=
  sprintf [.s "[[", .g r.r11, .s ", ", .g r.r12, .s ", ", .g r.r13, .s "]\n [", .g r.r21, .s ", ", .g r.r22, .s ", ", .g r.r23,
    .s "]\n [", .g r.r31, .s ", ", .g r.r32, .s ", ", .g r.r33, .s "]]"]

/-- almath.i:282-291 (`Rotation.__repr__`). -/
noncomputable def reprRotation (r : F32.Rotation) : Res (List Char) :=
  sprintf [.s "Rotation([", .g r.r11, .s ", ", .g r.r12, .s ", ", .g r.r13, .s "\n          ", .g r.r21, .s ", ", .g r.r22,
    .s ", ", .g r.r23, .s "\n          ", .g r.r31, .s ", ", .g r.r32, .s ", ", .g r.r33, .s "])"]

/-- almath.i:300-305. -/
noncomputable def reprRotation3D (r : F32.Rotation3D) : Res (List Char) :=
  sprintf [.s "Rotation3D(wx=", .g r.wx, .s ", wy=", .g r.wy, .s ", wz=", .g r.wz, .s ")"]

/-- almath.i:310-319 (`Transform.__str__`). -/
noncomputable def strTransform (t : F32.Transform) : Res (List Char) :=
  sprintf [.s "[[", .g t.r.r11, .s ", ", .g t.r.r12, .s ", ", .g t.r.r13, .s ", ", .g t.r14,
    .s "]\n [", .g t.r.r21, .s ", ", .g t.r.r22, .s ", ", .g t.r.r23, .s ", ", .g t.r24,
    .s "]\n [", .g t.r.r31, .s ", ", .g t.r.r32, .s ", ", .g t.r.r33, .s ", ", .g t.r34, .s "]]"]

/-- almath.i:321-330 (`Transform.__repr__`). -/
noncomputable def reprTransform (t : F32.Transform) : Res (List Char) :=
  sprintf [.s "Transform([", .g t.r.r11, .s ", ", .g t.r.r12, .s ", ", .g t.r.r13, .s ", ", .g t.r14,
    .s "\n           ", .g t.r.r21, .s ", ", .g t.r.r22, .s ", ", .g t.r.r23, .s ", ", .g t.r24,
    .s "\n           ", .g t.r.r31, .s ", ", .g t.r.r32, .s ", ", .g t.r.r33, .s ", ", .g t.r34, .s "])"]

/-- almath.i:340-352. -/
noncomputable def reprTransformAndVelocity6D (t : F32.Transform) (v : Velocity6D) : Res (List Char) :=
  sprintf [.s "TransformAndVelocity6D(T=Transform([", .g t.r.r11, .s ", ", .g t.r.r12, .s ", ", .g t.r.r13, .s ", ", .g t.r14,
    .s "\n                                    ", .g t.r.r21, .s ", ", .g t.r.r22, .s ", ", .g t.r.r23, .s ", ", .g t.r24,
    .s "\n                                    ", .g t.r.r31, .s ", ", .g t.r.r32, .s ", ", .g t.r.r33, .s ", ", .g t.r34,
    .s "]),\n                       V=Velocity6D(xd=", .g v.xd, .s ", yd=", .g v.yd, .s ", zd=", .g v.zd, .s ", wxd=", .g v.wxd,
    .s ", wyd=", .g v.wyd, .s ", wzd=", .g v.wzd, .s "))"]

/-- almath.i:356-363. -/
noncomputable def reprDisplacement (p : F32.Position3D) (q : F32.Quat) : Res (List Char) :=
  sprintf [.s "Displacement(P=Position3D(x=", .g p.x, .s ", y=", .g p.y, .s ", z=", .g p.z,
    .s ")\n             Q=Quaternion(w=", .g q.w, .s ", x=", .g q.x, .s ", y=", .g q.y, .s ", z=", .g q.z, .s "))\n"]

/-- almath.i:367-372. -/
noncomputable def reprVelocity3D (v : Velocity3D) : Res (List Char) :=
  sprintf [.s "Velocity3D(xd=", .g v.xd, .s ", yd=", .g v.yd, .s ", zd=", .g v.zd, .s ")"]

/-- almath.i:380-386. As in the code, the parenthesis at the end is missing. -/
noncomputable def reprVelocity6D (v : Velocity6D) : Res (List Char) :=
  sprintf [.s "Velocity6D(xd=", .g v.xd, .s ", yd=", .g v.yd, .s ", zd=", .g v.zd, .s ", wxd=", .g v.wxd, .s ", wyd=", .g v.wyd,
    .s ", wzd=", .g v.wzd]

/-- almath.i:394-401. -/
noncomputable def reprOccupancyMapParams (size : ℤ) (m : F32.MapParams) : Res (List Char) :=
  sprintf [.s "OccupancyMapParams(size=", .d size, .s ", metersPerPixel=", .g m.metersPerPixel,
    .s ", originOffset=Position2D(x=", .g m.originOffset.x, .s ", y=", .g m.originOffset.y, .s "))"]

/-- almath.i:405-410. -/
noncomputable def reprPoint2Di (p : Point2Di) : Res (List Char) :=
  sprintf [.s "Point2Di(x=", .d p.x, .s ", y=", .d p.y, .s ")"]

/-- almath.i:99-104, 116-120, 133-137 and 150-154 (the loop over the elements that remain, and the last element). -/
noncomputable def vectorItems {α : Type} (repr : α → Res (List Char)) : List α → Res (List Char)
  | [] => .ok []
  | [x] => repr x
  | x :: xs =>
    (repr x).bind fun t =>
    (vectorItems repr xs).bind fun r => .ok (t ++ ", ".toList ++ r)

/-- almath.i:94-108, 111-125, 128-142 and 145-159 (`__repr__` of the vectors; `name` is the start of the text). -/
noncomputable def reprVector {α : Type} (name : String) (repr : α → Res (List Char)) (l : List α) : Res (List Char) :=
  (if 0 < l.length then vectorItems repr l else .ok []).bind fun t => .ok (name.toList ++ t ++ "])".toList ++ ['\n'])

/-- almath.i:94-108 (numbers are inserted in the stream with the default precision, 6). -/
noncomputable def reprVectorFloat (l : List F32) : Res (List Char) :=
  reprVector "vectorFloat([" (fun x => .ok (Decimal.print 6 x)) l

/-- almath.i:111-125. -/
noncomputable def reprVectorPosition2D (l : List F32.Position2D) : Res (List Char) :=
  reprVector "vectorPosition2D([" reprPosition2D l

/-- almath.i:128-142. -/
noncomputable def reprVectorPose2D (l : List Pose2D) : Res (List Char) :=
  reprVector "vectorPose2D([" reprPose2D l

/-- almath.i:145-159. -/
noncomputable def reprVectorPosition6D (l : List Position6D) : Res (List Char) :=
  reprVector "vectorPosition6D([" reprPosition6D l

end AlMath.PyText
