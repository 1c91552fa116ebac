import Verif.Model.FloatTypes

/-!
Rotational inertia of a point mass (src/tools/almath.cpp) with rounding, overflow, NaN and infinities modelled. Same
simplifications as in Model/Float32.lean.
-/

namespace AlMath.F32

/-- src/tools/almath.cpp:425-440 (`pointMassRotationalInertia`: the nine elements; `boost::math::pow<2>` of a `float` is the
product in single precision). -/
noncomputable def pointMassRotationalInertia (m : F32) (p : Position3D) : List F32 :=
  let x2 := mul p.x p.x
  let y2 := mul p.y p.y
  let z2 := mul p.z p.z
  let i0 := mul m (add y2 z2)
  let i4 := mul m (add x2 z2)
  let i8 := mul m (add x2 y2)
  let i3 := mul (mul (neg m) p.x) p.y
  let i1 := i3
  let i6 := mul (mul (neg m) p.x) p.z
  let i2 := i6
  let i7 := mul (mul (neg m) p.y) p.z
  let i5 := i7
  [i0, i1, i2, i3, i4, i5, i6, i7, i8]

end AlMath.F32
