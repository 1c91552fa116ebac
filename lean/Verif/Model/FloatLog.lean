import Verif.Model.FloatExp

/-!
The logarithm of a transform (src/tools/altransformhelpers.cpp) with rounding, overflow, NaN and infinities. The functions
of `<cmath>` are parameters. Same simplifications as in Model/Float32.lean.
-/

namespace AlMath.F32

/-- src/tools/altransformhelpers.cpp:78-80 (`si`). -/
noncomputable def logSi (h : Rotation) : F32 :=
  mul (fin 0.5) (sqrt (add (add (mul (sub h.r32 h.r23) (sub h.r32 h.r23)) (mul (sub h.r13 h.r31) (sub h.r13 h.r31)))
    (mul (sub h.r21 h.r12) (sub h.r21 h.r12))))

/-- src/tools/altransformhelpers.cpp:81 (`co`). -/
noncomputable def logCo (h : Rotation) : F32 := mul (fin 0.5) (sub (add (add h.r11 h.r22) h.r33) (fin 1))

/-- src/tools/altransformhelpers.cpp:86, 151-162 (the last value given to `lambda`). -/
noncomputable def logLambda (si co angle : F32) : F32 :=
  open Classical in
  if lt angle (round 0.001) then div (fin 1) (fin 12)
  else if lt (sub (fin piF) (round 0.001)) angle ∨ lt angle (add (neg (fin piF)) (round 0.001)) then round 0.101
  else div (mul (fin 0.5) (sub (mul (fin 2) si) (mul angle (add (fin 1) co)))) (mul (mul angle angle) si)

/-- src/tools/altransformhelpers.cpp:149-186 (`coeff_2`, `lambda` and the translation; the other fields of `v` are kept).
`std::pow(coeff, 2)` is a `double`; `pow2` is this function of `coeff`. -/
noncomputable def logTail (pow2 : F32 → F64) (h : Transform) (si co angle coeff : F32) (v : Velocity6D) : Velocity6D :=
  let c2 := F64.toFloat (pow2 coeff)
  let lambda := logLambda si co angle
  { v with
    xd := add (add (mul h.r24 (sub (mul (mul (mul c2 (sub h.r.r13 h.r.r31)) (sub h.r.r32 h.r.r23)) lambda)
              (mul (mul (fin 0.5) coeff) (sub h.r.r12 h.r.r21))))
            (mul h.r34 (sub (mul (mul (mul c2 (sub h.r.r12 h.r.r21)) (sub h.r.r23 h.r.r32)) lambda)
              (mul (mul (fin 0.5) coeff) (sub h.r.r13 h.r.r31)))))
          (mul h.r14 (add (mul (mul c2 (add (mul (sub h.r.r13 h.r.r31) (sub h.r.r31 h.r.r13))
              (mul (sub h.r.r12 h.r.r21) (sub h.r.r21 h.r.r12)))) lambda) (fin 1)))
    yd := add (add (mul h.r24 (add (mul (mul c2 (add (mul (sub h.r.r23 h.r.r32) (sub h.r.r32 h.r.r23))
              (mul (sub h.r.r12 h.r.r21) (sub h.r.r21 h.r.r12)))) lambda) (fin 1)))
            (mul h.r14 (sub (mul (mul (mul c2 (sub h.r.r31 h.r.r13)) (sub h.r.r23 h.r.r32)) lambda)
              (mul (mul (fin 0.5) coeff) (sub h.r.r21 h.r.r12)))))
          (mul h.r34 (sub (mul (mul (mul c2 (sub h.r.r21 h.r.r12)) (sub h.r.r13 h.r.r31)) lambda)
            (mul (mul (fin 0.5) coeff) (sub h.r.r23 h.r.r32))))
    zd := add (add (mul h.r34 (add (mul (mul c2 (add (mul (sub h.r.r23 h.r.r32) (sub h.r.r32 h.r.r23))
              (mul (sub h.r.r13 h.r.r31) (sub h.r.r31 h.r.r13)))) lambda) (fin 1)))
            (mul h.r14 (sub (mul (mul (mul c2 (sub h.r.r21 h.r.r12)) (sub h.r.r32 h.r.r23)) lambda)
              (mul (mul (fin 0.5) coeff) (sub h.r.r31 h.r.r13)))))
          (mul h.r24 (sub (mul (mul (mul c2 (sub h.r.r12 h.r.r21)) (sub h.r.r31 h.r.r13)) lambda)
            (mul (mul (fin 0.5) coeff) (sub h.r.r32 h.r.r23)))) }

/-- src/tools/altransformhelpers.cpp:92-94, 144-146 (the angular part for a given `coeff`). -/
noncomputable def logAngular (h : Rotation) (coeff : F32) (v : Velocity6D) : Velocity6D :=
  { v with
    wxd := mul coeff (sub h.r32 h.r23)
    wyd := mul coeff (sub h.r13 h.r31)
    wzd := mul coeff (sub h.r21 h.r12) }

/-- src/tools/altransformhelpers.cpp:71-188 (`transformLogarithmInPlace`). `v` is the previous content of the output. -/
noncomputable def transformLogarithmInPlace (atan2 : F32 → F32 → F32) (pow2 : F32 → F64) (h : Transform) (v : Velocity6D) :
    Velocity6D :=
  let epsilon := round 0.001
  let si := logSi h.r
  let co := logCo h.r
  let angle := atan2 si co
  open Classical in
  if lt si epsilon then
    if lt (sub (fin 1) epsilon) co then
      let coeff := div angle (add (mul (fin 2) si) epsilon)
      logTail pow2 h si co angle coeff (logAngular h.r coeff v)
    else if lt co (add (fin (-1)) epsilon) then
      let lambda := div (fin 1) (mul (fin piF) (fin piF))
      let one := sub (fin 1) (mul (mul lambda angle) angle)
      if lt (sub (fin 1) epsilon) h.r.r11 then
        { wxd := angle, wyd := fin 0, wzd := fin 0
          xd := h.r14
          yd := add (mul one h.r24) (mul (mul (fin 0.5) angle) h.r34)
          zd := add (mul (mul (fin (-0.5)) angle) h.r24) (mul one h.r34) }
      else if lt (sub (fin 1) epsilon) h.r.r22 then
        { wxd := fin 0, wyd := angle, wzd := fin 0
          xd := sub (mul one h.r14) (mul (mul (fin 0.5) angle) h.r34)
          yd := h.r24
          zd := add (mul (mul (fin 0.5) angle) h.r14) (mul one h.r34) }
      else if lt (sub (fin 1) epsilon) h.r.r33 then
        { wxd := fin 0, wyd := fin 0, wzd := angle
          xd := add (mul one h.r14) (mul (mul (fin 0.5) angle) h.r24)
          yd := add (mul (mul (fin (-0.5)) angle) h.r14) (mul one h.r24)
          zd := h.r34 }
      else logTail pow2 h si co angle (fin 0) v
    else logTail pow2 h si co angle (fin 0) v
  else
    let coeff := div angle (mul (fin 2) si)
    logTail pow2 h si co angle coeff (logAngular h.r coeff v)

/-- src/tools/altransformhelpers.cpp:191-196 (`transformLogarithm`). -/
noncomputable def transformLogarithm (atan2 : F32 → F32 → F32) (pow2 : F32 → F64) (h : Transform) : Velocity6D :=
  transformLogarithmInPlace atan2 pow2 h ⟨fin 0, fin 0, fin 0, fin 0, fin 0, fin 0⟩

end AlMath.F32
