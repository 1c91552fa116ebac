import Verif.Model.FloatTypes

/-!
The conversions of occupancy maps (almath/types/occupancymapparams.h, src/types/occupancymapparams.cpp) with
rounding, overflow, NaN and infinities. Same simplifications as in Model/Float32.lean.
-/

namespace AlMath.F32

/-- The conversion of an `int` to `float`. Not in /repo: language semantics. -/
noncomputable def ofInt (n : ℤ) : F32 := round n

/-- `static_cast<int>` of a `float`: undefined if the integer part is not an `int`. Not in /repo: language
semantics. -/
noncomputable def toInt : F32 → Res ℤ
  | fin x => castInt x
  | _ => .ub

open Classical in
/-- almath/types/occupancymapparams.h:52-57 (`roundToInt`). -/
noncomputable def roundToInt (x : F32) : Res ℤ :=
  if le (fin 0) x then toInt (add x (fin (1 / 2))) else toInt (sub x (fin (1 / 2)))

/-- almath/types/alposition2d.h:25-29 (fields). -/
structure Position2D where
  x : F32
  y : F32

/-- almath/types/occupancymapparams.h:131-139 (the fields that conversions read). -/
structure MapParams where
  metersPerPixel : F32
  originOffset : Position2D

namespace MapParams

/-- src/types/occupancymapparams.cpp:12-23 (the constructor and `initOriginOffset`). -/
noncomputable def new (size : ℤ) (mpp : F32) (c : Position2D) : MapParams :=
  ⟨mpp, sub c.x (F32.mul (div (ofInt size) (fin 2)) mpp), add c.y (F32.mul (div (ofInt size) (fin 2)) mpp)⟩

/-- almath/types/occupancymapparams.h:78-90 (`getPixelFromOffsetAndScale`), called by `getPixelFromPosition` and
`getPixelFromPose` (src/types/occupancymapparams.cpp:37-48). -/
noncomputable def getPixelFromPosition (m : MapParams) (p : Position2D) : Res Point2Di :=
  let k := div (fin 1) m.metersPerPixel
  let xx := F32.mul (sub p.x m.originOffset.x) k
  (roundToInt xx).bind fun x =>
  let yy := F32.mul (neg (sub p.y m.originOffset.y)) k
  (roundToInt yy).bind fun y =>
  .ok ⟨x, y⟩

/-- src/types/occupancymapparams.cpp:55-59 (`getPositionFromPixel`). -/
noncomputable def getPositionFromPixel (m : MapParams) (q : Point2Di) : Res Position2D :=
  (OccupancyMapParams.negInt q.y).bind fun ny =>
  .ok ⟨add (F32.mul (ofInt q.x) m.metersPerPixel) m.originOffset.x,
       add (F32.mul (ofInt ny) m.metersPerPixel) m.originOffset.y⟩

end MapParams

end AlMath.F32
