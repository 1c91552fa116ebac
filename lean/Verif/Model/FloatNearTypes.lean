import Verif.Model.FloatConvert
import Verif.Model.FloatFrame
import Verif.Model.FloatPose
import Verif.Model.FloatQuat

/-!
The comparisons with a tolerance of the remaining types (src/types) with rounding, overflow, NaN and infinities modelled.
Same simplifications as in Model/Float32.lean.
-/

namespace AlMath.F32

/-- src/types/alposition2d.cpp:61-67 (`isNear`). -/
noncomputable def Position2D.isNear (p q : Position2D) (eps : F32) : Prop := near p.x q.x eps ∧ near p.y q.y eps

/-- src/types/alpose2d.cpp:181-188 (`isNear`). -/
noncomputable def Pose2D.isNear (p q : Pose2D) (eps : F32) : Prop :=
  near p.x q.x eps ∧ near p.y q.y eps ∧ near p.theta q.theta eps

/-- src/types/alposition6d.cpp:98-108 (`isNear`). -/
noncomputable def Position6D.isNear (p q : Position6D) (eps : F32) : Prop :=
  near p.x q.x eps ∧ near p.y q.y eps ∧ near p.z q.z eps ∧ near p.wx q.wx eps ∧ near p.wy q.wy eps ∧ near p.wz q.wz eps

/-- src/types/alvelocity6d.cpp:124-134 (`isNear`). -/
noncomputable def Velocity6D.isNear (p q : Velocity6D) (eps : F32) : Prop :=
  near p.xd q.xd eps ∧ near p.yd q.yd eps ∧ near p.zd q.zd eps ∧ near p.wxd q.wxd eps ∧ near p.wyd q.wyd eps ∧
  near p.wzd q.wzd eps

/-- src/types/altransform.cpp:175-191 (`isNear`). -/
noncomputable def Transform.isNear (a b : Transform) (eps : F32) : Prop :=
  near a.r.r11 b.r.r11 eps ∧ near a.r.r12 b.r.r12 eps ∧ near a.r.r13 b.r.r13 eps ∧
  near a.r.r21 b.r.r21 eps ∧ near a.r.r22 b.r.r22 eps ∧ near a.r.r23 b.r.r23 eps ∧
  near a.r.r31 b.r.r31 eps ∧ near a.r.r32 b.r.r32 eps ∧ near a.r.r33 b.r.r33 eps ∧
  near a.r14 b.r14 eps ∧ near a.r24 b.r24 eps ∧ near a.r34 b.r34 eps

/-- src/types/alquaternion.cpp:71-85 (`isNear`): strict comparisons, of the differences or of the sums. -/
noncomputable def Quat.isNear (p q : Quat) (eps : F32) : Prop :=
  (lt (abs (sub p.w q.w)) eps ∧ lt (abs (sub p.x q.x)) eps ∧ lt (abs (sub p.y q.y)) eps ∧ lt (abs (sub p.z q.z)) eps) ∨
  (lt (abs (add p.w q.w)) eps ∧ lt (abs (add p.x q.x)) eps ∧ lt (abs (add p.y q.y)) eps ∧ lt (abs (add p.z q.z)) eps)

/-- src/types/aldisplacement.cpp:26-32 (`isNear`). -/
noncomputable def Displacement.isNear (a b : Displacement) (eps : F32) : Prop :=
  Position3D.isNear a.P b.P eps ∧ Quat.isNear a.Q b.Q eps

end AlMath.F32
