import Verif.Model.FloatFrame
import Verif.Model.FloatMean

/-!
Norms, distances and normalisation of the types with six components (src/types/alposition6d.cpp,
src/types/alvelocity6d.cpp) with rounding, overflow, NaN and infinities modelled. Same simplifications as in
Model/Float32.lean.
-/

namespace AlMath.F32

namespace Position6D

/-- almath/types/alposition6d.h:226-235 (`operator*`). -/
noncomputable def smul (p : Position6D) (v : F32) : Position6D :=
  ⟨mul p.x v, mul p.y v, mul p.z v, mul p.wx v, mul p.wy v, mul p.wz v⟩

open Classical in
/-- src/types/alposition6d.cpp:110-118 (`operator/`). -/
noncomputable def div (p : Position6D) (v : F32) : Res Position6D :=
  if F32.eq v (fin 0) then .throws else .ok (smul p (F32.div (fin 1) v))

/-- src/types/alposition6d.cpp:200-207 (`distanceSquared`): the first three components only. -/
noncomputable def distanceSquared (p q : Position6D) : F32 :=
  dot (sub p.x q.x) (sub p.y q.y) (sub p.z q.z) (sub p.x q.x) (sub p.y q.y) (sub p.z q.z)

/-- src/types/alposition6d.cpp:209-214 (`distance`). -/
noncomputable def distance (p q : Position6D) : F32 := sqrt (distanceSquared p q)

/-- src/types/alposition6d.cpp:216-220 (`norm`). -/
noncomputable def norm (p : Position6D) : F32 :=
  sqrt (add (add (add (add (add (mul p.x p.x) (mul p.y p.y)) (mul p.z p.z)) (mul p.wx p.wx)) (mul p.wy p.wy)) (mul p.wz p.wz))

open Classical in
/-- src/types/alposition6d.cpp:222-231 (`normalize`). -/
noncomputable def normalize (p : Position6D) : Res Position6D :=
  if F32.eq (norm p) (fin 0) then .throws else div p (norm p)

end Position6D

namespace Velocity6D

open Classical in
/-- src/types/alvelocity6d.cpp:72-80 (`operator/`). -/
noncomputable def div (p : Velocity6D) (v : F32) : Res Velocity6D :=
  if F32.eq v (fin 0) then .throws else .ok (smul p (F32.div (fin 1) v))

/-- src/types/alvelocity6d.cpp:184-193 (`norm`). -/
noncomputable def norm (p : Velocity6D) : F32 :=
  sqrt (add (add (add (add (add (mul p.xd p.xd) (mul p.yd p.yd)) (mul p.zd p.zd)) (mul p.wxd p.wxd)) (mul p.wyd p.wyd))
    (mul p.wzd p.wzd))

open Classical in
/-- src/types/alvelocity6d.cpp:196-205 (`normalize`). -/
noncomputable def normalize (p : Velocity6D) : Res Velocity6D :=
  if F32.eq (norm p) (fin 0) then .throws else div p (norm p)

end Velocity6D

end AlMath.F32
