import Verif.Model.FloatPlane

/-!
Polar coordinates (src/types/alposition2d.cpp, src/types/alpose2d.cpp) with rounding, overflow, NaN and infinities
modelled. The functions of `<cmath>` are parameters. Same simplifications as in Model/Float32.lean.
-/

namespace AlMath.F32

/-- src/types/alposition2d.cpp:161-164 (`getAngle`). -/
def Position2D.getAngle (m : Libm) (p : Position2D) : F32 := m.atan2 p.y p.x

/-- src/types/alposition2d.cpp:220-226 (`fromPolarCoordinates`). -/
noncomputable def Position2D.fromPolar (m : Libm) (r a : F32) : Position2D := ⟨mul r (m.cos a), mul r (m.sin a)⟩

/-- almath/types/alpose2d.h:323-326 (`getAngle`). -/
def Pose2D.getAngle (m : Libm) (p : Pose2D) : F32 := m.atan2 p.y p.x

/-- src/types/alpose2d.cpp:239-246 (`fromPolarCoordinates`). -/
noncomputable def Pose2D.fromPolar (m : Libm) (r a : F32) : Pose2D := ⟨F32.mul r (m.cos a), F32.mul r (m.sin a), a⟩

end AlMath.F32
