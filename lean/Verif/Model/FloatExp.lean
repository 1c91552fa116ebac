import Verif.Model.FloatAngles
import Verif.Model.Float64

/-!
The exponential of a velocity (src/tools/altransformhelpers.cpp) with rounding, overflow, NaN and infinities. The
functions of `<cmath>` are parameters. Same simplifications as in Model/Float32.lean.
-/

namespace AlMath

open Classical in
/-- Division of numbers of type `double`, a zero divisor being taken to be positive. Not in /repo: language semantics. -/
noncomputable def F64.div : F64 → F64 → F64
  | .fin x, .fin y => if y = 0 then F32.infOf x else F64.round (x / y)
  | .nan, _ => .nan
  | _, .nan => .nan
  | .fin _, _ => .fin 0
  | .pinf, .fin y => if y < 0 then .ninf else .pinf
  | .ninf, .fin y => if y < 0 then .pinf else .ninf
  | _, _ => .nan

namespace F32

/-- almath/types/alvelocity6d.h:26-37 (members of `Velocity6D`). -/
@[ext] structure Velocity6D where
  xd : F32
  yd : F32
  zd : F32
  wxd : F32
  wyd : F32
  wzd : F32

/-- src/tools/altransformhelpers.cpp:222-243 (the matrix built from the three coefficients). -/
noncomputable def expMatrix (CC SC dSC : F32) (p : Velocity6D) : Transform :=
  { r := ⟨sub (fin 1) (mul CC (add (mul p.wzd p.wzd) (mul p.wyd p.wyd))),
          add (mul (neg SC) p.wzd) (mul (mul CC p.wxd) p.wyd),
          add (mul SC p.wyd) (mul (mul CC p.wxd) p.wzd),
          add (mul SC p.wzd) (mul (mul CC p.wxd) p.wyd),
          sub (fin 1) (mul CC (add (mul p.wxd p.wxd) (mul p.wzd p.wzd))),
          add (mul (neg SC) p.wxd) (mul (mul CC p.wyd) p.wzd),
          add (mul (neg SC) p.wyd) (mul (mul CC p.wxd) p.wzd),
          add (mul SC p.wxd) (mul (mul CC p.wyd) p.wzd),
          sub (fin 1) (mul CC (add (mul p.wxd p.wxd) (mul p.wyd p.wyd)))⟩
    r14 := add (add (mul (add SC (mul (mul dSC p.wxd) p.wxd)) p.xd)
        (mul (add (mul (neg CC) p.wzd) (mul (mul dSC p.wxd) p.wyd)) p.yd))
        (mul (add (mul CC p.wyd) (mul (mul dSC p.wxd) p.wzd)) p.zd)
    r24 := add (add (mul (add (mul CC p.wzd) (mul (mul dSC p.wyd) p.wxd)) p.xd)
        (mul (add SC (mul (mul dSC p.wyd) p.wyd)) p.yd))
        (mul (add (mul (neg CC) p.wxd) (mul (mul dSC p.wyd) p.wzd)) p.zd)
    r34 := add (add (mul (add (mul (neg CC) p.wyd) (mul (mul dSC p.wzd) p.wxd)) p.xd)
        (mul (add (mul CC p.wxd) (mul (mul dSC p.wzd) p.wyd)) p.yd))
        (mul (add SC (mul (mul dSC p.wzd) p.wzd)) p.zd) }

open Classical in
/-- src/tools/altransformhelpers.cpp:199-252 (`velocityExponentialInPlace`, `velocityExponential`). `std::pow(t, 3)` is a
`double`, and so is the quotient by it, until it is stored in `dSC`; `pow3` is this function of `t`. -/
noncomputable def velocityExponential (m : Libm) (pow3 : F32 → F64) (p : Velocity6D) : Transform :=
  let t := sqrt (add (add (mul p.wxd p.wxd) (mul p.wyd p.wyd)) (mul p.wzd p.wzd))
  if le (round 0.001) t then
    expMatrix (div (sub (fin 1) (m.cos t)) (mul t t)) (div (m.sin t) t)
      (F64.toFloat (F64.div (sub t (m.sin t)) (pow3 t))) p
  else expMatrix (fin 0.5) (sub (fin 1) (div (mul t t) (fin 6))) (round 0.166666667) p

end F32

end AlMath
