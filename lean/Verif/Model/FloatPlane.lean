import Verif.Model.FloatPose

/-!
Products, norms, distances and normalisation in the plane (src/types/alposition2d.cpp, src/types/alpose2d.cpp) with
rounding, overflow, NaN and infinities modelled. Same simplifications as in Model/Float32.lean.
-/

namespace AlMath.F32

namespace Position2D

/-- almath/types/alposition2d.h:180-183 (`operator*`). -/
noncomputable def smul (p : Position2D) (v : F32) : Position2D := ⟨mul p.x v, mul p.y v⟩

open Classical in
/-- src/types/alposition2d.cpp:76-84 (`operator/`). -/
noncomputable def div (p : Position2D) (v : F32) : Res Position2D :=
  if F32.eq v (fin 0) then .throws else .ok (smul p (F32.div (fin 1) v))

/-- src/types/alposition2d.cpp:166-171 (`distanceSquared`). -/
noncomputable def distanceSquared (p q : Position2D) : F32 :=
  add (mul (sub p.x q.x) (sub p.x q.x)) (mul (sub p.y q.y) (sub p.y q.y))

/-- src/types/alposition2d.cpp:173-178 (`distance`). -/
noncomputable def distance (p q : Position2D) : F32 := sqrt (distanceSquared p q)

/-- src/types/alposition2d.cpp:180-183 (`norm`). -/
noncomputable def norm (p : Position2D) : F32 := sqrt (add (mul p.x p.x) (mul p.y p.y))

open Classical in
/-- src/types/alposition2d.cpp:185-194 (`normalize`). -/
noncomputable def normalize (p : Position2D) : Res Position2D :=
  if F32.eq (norm p) (fin 0) then .throws else div p (norm p)

/-- src/types/alposition2d.cpp:196-201 (`dotProduct`). -/
noncomputable def dotProduct (p q : Position2D) : F32 := add (mul p.x q.x) (mul p.y q.y)

/-- src/types/alposition2d.cpp:204-218 (`crossProduct`, both forms). -/
noncomputable def crossProduct (p q : Position2D) : F32 := sub (mul p.x q.y) (mul p.y q.x)

end Position2D

namespace Pose2D

/-- src/types/alpose2d.cpp:166-171, 89-92 (`distanceSquared`). -/
noncomputable def distanceSquared (p q : Pose2D) : F32 :=
  add (F32.mul (sub p.x q.x) (sub p.x q.x)) (F32.mul (sub p.y q.y) (sub p.y q.y))

/-- src/types/alpose2d.cpp:173-178, 94-97 (`distance`). -/
noncomputable def distance (p q : Pose2D) : F32 := sqrt (distanceSquared p q)

/-- almath/types/alpose2d.h:302-305 (`norm`). -/
noncomputable def norm (p : Pose2D) : F32 := sqrt (add (F32.mul p.x p.x) (F32.mul p.y p.y))

open Classical in
/-- src/types/alpose2d.cpp:155-164 (`normalize`). -/
noncomputable def normalize (p : Pose2D) : Res Pose2D :=
  if lt (abs (norm p)) (round (1 / 10000)) then .throws else .ok ⟨F32.div p.x (norm p), F32.div p.y (norm p), p.theta⟩

end Pose2D

end AlMath.F32
