import Verif.Model.FloatAngles
import Verif.Model.FloatMap

/-!
Model of planar poses (almath/types/alpose2d.h, src/types/alpose2d.cpp) with rounding, overflow, NaN and infinities. The
functions of `<cmath>` are parameters. Same simplifications as in Model/Float32.lean.
-/

namespace AlMath.F32

/-- almath/types/alpose2d.h:26-32 (fields). -/
structure Pose2D where
  x : F32
  y : F32
  theta : F32

namespace Pose2D

/-- almath/types/alpose2d.h:183-190 (`operator*`, composition). -/
noncomputable def mul (m : Libm) (p q : Pose2D) : Pose2D :=
  ⟨sub (add p.x (F32.mul (m.cos p.theta) q.x)) (F32.mul (m.sin p.theta) q.y),
    add (add p.y (F32.mul (m.sin p.theta) q.x)) (F32.mul (m.cos p.theta) q.y),
    add p.theta q.theta⟩

/-- src/types/alpose2d.cpp:47-59 (`operator*=`; the reads of `pPos2.x` and `pPos2.y` come first, so that `a *= a` is
`mulAssign a a`). -/
noncomputable def mulAssign (m : Libm) (p q : Pose2D) : Pose2D :=
  let cs := m.cos p.theta
  let sn := m.sin p.theta
  ⟨add p.x (sub (F32.mul cs q.x) (F32.mul sn q.y)), add p.y (add (F32.mul sn q.x) (F32.mul cs q.y)), add p.theta q.theta⟩

/-- src/types/alpose2d.cpp:203-213 (`pose2dInvertInPlace`), 190-193 (`inverse`), 230-237 (`pinv`). -/
noncomputable def inverse (m : Libm) (p : Pose2D) : Pose2D :=
  let theta := neg p.theta
  let cos := m.cos theta
  let sin := m.sin theta
  ⟨neg (sub (F32.mul p.x cos) (F32.mul p.y sin)), neg (add (F32.mul p.y cos) (F32.mul p.x sin)), theta⟩

/-- src/types/alpose2d.cpp:215-223 (`pose2dDiff`), 128-131 (`diff`). -/
noncomputable def diff (m : Libm) (p q : Pose2D) : Pose2D := mulAssign m (inverse m p) q

/-- src/tools/almath.cpp:327-334 (`operator*(Pose2D, Position2D)`). -/
noncomputable def act (m : Libm) (p : Pose2D) (q : Position2D) : Position2D :=
  ⟨sub (add p.x (F32.mul (m.cos p.theta) q.x)) (F32.mul (m.sin p.theta) q.y),
    add (add p.y (F32.mul (m.sin p.theta) q.x)) (F32.mul (m.cos p.theta) q.y)⟩

/-- src/tools/almath.cpp:110-120 and 123-135 (`changeReferencePose2D`, input and output distinct, and
`changeReferencePose2DInPlace`). -/
noncomputable def changeReference (m : Libm) (t : F32) (p : Pose2D) : Pose2D :=
  ⟨sub (F32.mul (m.cos t) p.x) (F32.mul (m.sin t) p.y), add (F32.mul (m.sin t) p.x) (F32.mul (m.cos t) p.y), p.theta⟩

end Pose2D

end AlMath.F32
