import Verif.Model.Quaternion

/-!
Model of src/tools/altransformhelpers.cpp (except the quaternion functions, which
are in `Verif.Model.Quaternion`).
-/

namespace AlMath

/-- almath/tools/altrigonometry.h:17 (`PI`): exact value of the single-precision
constant nearest to `3.14159265358979323846f`. -/
noncomputable def piF : ℝ := 13176795 / 4194304

/-- almath/tools/altrigonometry.h:16 (`_2_PI_`): exact value of the
single-precision constant, twice `piF`. -/
noncomputable def twoPiF : ℝ := 13176795 / 2097152

/-- src/tools/altransformhelpers.cpp:18-68 (`transformFromRotationPosition3D`, both
overloads). -/
def transformFromRotationPosition3D (r : Rotation) (p : Position3D) : Transform :=
  ⟨r.r11, r.r12, r.r13, p.x, r.r21, r.r22, r.r23, p.y, r.r31, r.r32, r.r33, p.z⟩

/-- src/tools/altransformhelpers.cpp:440-455 (`transformFromPosition3D`). -/
noncomputable def transformFromPosition3D (p : Position3D) : Transform :=
  { Transform.one with r14 := p.x, r24 := p.y, r34 := p.z }

/-- src/tools/altransformhelpers.cpp:458-473 (`transformFromRotationInPlace`). -/
def transformFromRotationInPlace (r : Rotation) (t : Transform) : Transform :=
  { t with r11 := r.r11, r12 := r.r12, r13 := r.r13,
           r21 := r.r21, r22 := r.r22, r23 := r.r23,
           r31 := r.r31, r32 := r.r32, r33 := r.r33 }

/-- src/tools/altransformhelpers.cpp:476-481 (`transformFromRotation`). -/
noncomputable def transformFromRotation (r : Rotation) : Transform :=
  transformFromRotationInPlace r Transform.one

/-- src/tools/altransformhelpers.cpp:484-507 (`rotationFromTransform`, both variants). -/
def rotationFromTransform (t : Transform) : Rotation :=
  ⟨t.r11, t.r12, t.r13, t.r21, t.r22, t.r23, t.r31, t.r32, t.r33⟩

/-- src/tools/altransformhelpers.cpp:510-530 (`position6DFromTransform`, both variants). -/
noncomputable def position6DFromTransform (t : Transform) : Position6D :=
  let wz := atan2 t.r21 t.r11
  let sy := Real.sin wz
  let cy := Real.cos wz
  { x := t.r14
    y := t.r24
    z := t.r34
    wx := atan2 (sy * t.r13 - cy * t.r23) (cy * t.r22 - sy * t.r12)
    wy := atan2 (-t.r31) (cy * t.r11 + sy * t.r21)
    wz := wz }

/-- src/tools/altransformhelpers.cpp:533-547 (`transformFromPose2D`, both variants). -/
noncomputable def transformFromPose2D (p : Pose2D) : Transform :=
  Transform.mulAssign (Transform.fromPosition3 p.x p.y 0) (Transform.fromRotZ p.theta)

/-- src/tools/altransformhelpers.cpp:550-563 (`position2DFromTransform`). -/
def position2DFromTransform (t : Transform) : Position2D := ⟨t.r14, t.r24⟩

/-- src/tools/altransformhelpers.cpp:565-580 (`pose2DFromTransform`). -/
noncomputable def pose2DFromTransform (t : Transform) : Pose2D :=
  ⟨t.r14, t.r24, atan2 t.r21 t.r11⟩

/-- src/tools/altransformhelpers.cpp:583-589 (`transformFromRotation3D`). -/
noncomputable def transformFromRotation3D (r : Rotation3D) : Transform :=
  Transform.from3DRotation r.wx r.wy r.wz

/-- src/tools/altransformhelpers.cpp:592-601 (`transformFromPosition6D`). -/
noncomputable def transformFromPosition6D (p : Position6D) : Transform :=
  Transform.fromPosition6 p.x p.y p.z p.wx p.wy p.wz

/-- src/tools/altransformhelpers.cpp:604-633 (`position6DFromTransformDiff`). -/
noncomputable def position6DFromTransformDiff (c t : Transform) : Position6D :=
  { x := t.r14 - c.r14
    y := t.r24 - c.r24
    z := t.r34 - c.r34
    wx := 0.5 * ((c.r21 * t.r31 - c.r31 * t.r21) + (c.r22 * t.r32 - c.r32 * t.r22)
                  + (c.r23 * t.r33 - c.r33 * t.r23))
    wy := 0.5 * ((c.r31 * t.r11 - c.r11 * t.r31) + (c.r32 * t.r12 - c.r12 * t.r32)
                  + (c.r33 * t.r13 - c.r13 * t.r33))
    wz := 0.5 * ((c.r11 * t.r21 - c.r21 * t.r11) + (c.r12 * t.r22 - c.r22 * t.r12)
                  + (c.r13 * t.r23 - c.r23 * t.r13)) }

/-- src/tools/altransformhelpers.cpp:636-651 (`position3DFromTransform`). -/
def position3DFromTransform (t : Transform) : Position3D := ⟨t.r14, t.r24, t.r34⟩

/-- src/tools/altransformhelpers.cpp:654-663 (`rotation3DFromTransform`). -/
noncomputable def rotation3DFromTransform (t : Transform) : Rotation3D :=
  let wz := atan2 t.r21 t.r11
  let sy := Real.sin wz
  let cy := Real.cos wz
  { wx := atan2 (sy * t.r13 - cy * t.r23) (cy * t.r22 - sy * t.r12)
    wy := atan2 (-t.r31) (cy * t.r11 + sy * t.r21)
    wz := wz }

/-- src/tools/altransformhelpers.cpp:666-675 (`rotation3DFromRotation`). -/
noncomputable def rotation3DFromRotation (r : Rotation) : Rotation3D :=
  let wz := atan2 r.r21 r.r11
  let sy := Real.sin wz
  let cy := Real.cos wz
  { wx := atan2 (sy * r.r13 - cy * r.r23) (cy * r.r22 - sy * r.r12)
    wy := atan2 (-r.r31) (cy * r.r11 + sy * r.r21)
    wz := wz }

/-- src/tools/altransformhelpers.cpp:710-732 (`rotationFromAxesXYZ`; the `assert`s
are preconditions and not part of the computation). -/
def rotationFromAxesXYZ (x y z : Position3D) : Rotation :=
  ⟨x.x, y.x, z.x, x.y, y.y, z.y, x.z, y.z, z.z⟩

/-- src/tools/altransformhelpers.cpp:677-686 (`rotationFromAxesXY`). -/
noncomputable def rotationFromAxesXY (x y : Position3D) : Rotation :=
  rotationFromAxesXYZ x y (Position3D.cross x y)

/-- src/tools/altransformhelpers.cpp:688-697 (`rotationFromAxesXZ`). -/
noncomputable def rotationFromAxesXZ (x z : Position3D) : Rotation :=
  rotationFromAxesXYZ x (Position3D.cross z x) z

/-- src/tools/altransformhelpers.cpp:699-708 (`rotationFromAxesYZ`). -/
noncomputable def rotationFromAxesYZ (y z : Position3D) : Rotation :=
  rotationFromAxesXYZ (Position3D.cross y z) y z

/-- src/tools/altransformhelpers.cpp:733-742 (`operator*(Transform, Position2D)`). -/
noncomputable def Transform.act2D (t : Transform) (p : Position2D) : Position3D :=
  ⟨t.r11 * p.x + t.r12 * p.y + t.r14,
   t.r21 * p.x + t.r22 * p.y + t.r24,
   t.r31 * p.x + t.r32 * p.y + t.r34⟩

/-- src/tools/altransformhelpers.cpp:745-754 (`operator*(Transform, Position3D)`). -/
noncomputable def Transform.act (t : Transform) (p : Position3D) : Position3D :=
  ⟨t.r11 * p.x + t.r12 * p.y + t.r13 * p.z + t.r14,
   t.r21 * p.x + t.r22 * p.y + t.r23 * p.z + t.r24,
   t.r31 * p.x + t.r32 * p.y + t.r33 * p.z + t.r34⟩

/-! ### Change of reference -/

/-- src/tools/altransformhelpers.cpp:255-266 (`changeReferenceVelocity6D`, distinct
input and output). -/
noncomputable def changeReferenceVelocity6D (h : Transform) (v : Velocity6D) : Velocity6D :=
  ⟨h.r11 * v.xd + h.r12 * v.yd + h.r13 * v.zd,
   h.r21 * v.xd + h.r22 * v.yd + h.r23 * v.zd,
   h.r31 * v.xd + h.r32 * v.yd + h.r33 * v.zd,
   h.r11 * v.wxd + h.r12 * v.wyd + h.r13 * v.wzd,
   h.r21 * v.wxd + h.r22 * v.wyd + h.r23 * v.wzd,
   h.r31 * v.wxd + h.r32 * v.wyd + h.r33 * v.wzd⟩

/-- src/tools/altransformhelpers.cpp:269-280 (`changeReferencePosition6D`). -/
noncomputable def changeReferencePosition6D (h : Transform) (v : Position6D) : Position6D :=
  ⟨h.r11 * v.x + h.r12 * v.y + h.r13 * v.z,
   h.r21 * v.x + h.r22 * v.y + h.r23 * v.z,
   h.r31 * v.x + h.r32 * v.y + h.r33 * v.z,
   h.r11 * v.wx + h.r12 * v.wy + h.r13 * v.wz,
   h.r21 * v.wx + h.r22 * v.wy + h.r23 * v.wz,
   h.r31 * v.wx + h.r32 * v.wy + h.r33 * v.wz⟩

/-- src/tools/altransformhelpers.cpp:283-295 (`changeReferencePosition3DInPlace`). -/
noncomputable def changeReferencePosition3DInPlace (h : Transform) (p : Position3D) :
    Position3D :=
  let x := p.x
  let y := p.y
  let z := p.z
  let p := { p with x := h.r11 * x + h.r12 * y + h.r13 * z }
  let p := { p with y := h.r21 * x + h.r22 * y + h.r23 * z }
  { p with z := h.r31 * x + h.r32 * y + h.r33 * z }

/-- src/tools/altransformhelpers.cpp:298-310 (`changeReferenceTransposePosition3DInPlace`). -/
noncomputable def changeReferenceTransposePosition3DInPlace (h : Transform) (p : Position3D) :
    Position3D :=
  let x := p.x
  let y := p.y
  let z := p.z
  let p := { p with x := h.r11 * x + h.r21 * y + h.r31 * z }
  let p := { p with y := h.r12 * x + h.r22 * y + h.r32 * z }
  { p with z := h.r13 * x + h.r23 * y + h.r33 * z }

/-- src/tools/altransformhelpers.cpp:313-321 (`changeReferencePosition3D`). -/
noncomputable def changeReferencePosition3D (h : Transform) (p : Position3D) : Position3D :=
  ⟨h.r11 * p.x + h.r12 * p.y + h.r13 * p.z,
   h.r21 * p.x + h.r22 * p.y + h.r23 * p.z,
   h.r31 * p.x + h.r32 * p.y + h.r33 * p.z⟩

/-- src/tools/altransformhelpers.cpp:324-332 (`changeReferenceTransposePosition3D`). -/
noncomputable def changeReferenceTransposePosition3D (h : Transform) (p : Position3D) :
    Position3D :=
  ⟨h.r11 * p.x + h.r21 * p.y + h.r31 * p.z,
   h.r12 * p.x + h.r22 * p.y + h.r32 * p.z,
   h.r13 * p.x + h.r23 * p.y + h.r33 * p.z⟩

/-- src/tools/altransformhelpers.cpp:335-354 (`changeReferenceTransform`). -/
noncomputable def changeReferenceTransform (h t : Transform) : Transform :=
  { r11 := h.r11 * t.r11 + h.r12 * t.r21 + h.r13 * t.r31
    r12 := h.r11 * t.r12 + h.r12 * t.r22 + h.r13 * t.r32
    r13 := h.r11 * t.r13 + h.r12 * t.r23 + h.r13 * t.r33
    r14 := h.r11 * t.r14 + h.r12 * t.r24 + h.r13 * t.r34
    r21 := h.r21 * t.r11 + h.r22 * t.r21 + h.r23 * t.r31
    r22 := h.r21 * t.r12 + h.r22 * t.r22 + h.r23 * t.r32
    r23 := h.r21 * t.r13 + h.r22 * t.r23 + h.r23 * t.r33
    r24 := h.r21 * t.r14 + h.r22 * t.r24 + h.r23 * t.r34
    r31 := h.r31 * t.r11 + h.r32 * t.r21 + h.r33 * t.r31
    r32 := h.r31 * t.r12 + h.r32 * t.r22 + h.r33 * t.r32
    r33 := h.r31 * t.r13 + h.r32 * t.r23 + h.r33 * t.r33
    r34 := h.r31 * t.r14 + h.r32 * t.r24 + h.r33 * t.r34 }

/-- src/tools/altransformhelpers.cpp:357-376 (`changeReferenceTransposeTransform`). -/
noncomputable def changeReferenceTransposeTransform (h t : Transform) : Transform :=
  { r11 := h.r11 * t.r11 + h.r21 * t.r21 + h.r31 * t.r31
    r12 := h.r11 * t.r12 + h.r21 * t.r22 + h.r31 * t.r32
    r13 := h.r11 * t.r13 + h.r21 * t.r23 + h.r31 * t.r33
    r14 := h.r11 * t.r14 + h.r21 * t.r24 + h.r31 * t.r34
    r21 := h.r12 * t.r11 + h.r22 * t.r21 + h.r32 * t.r31
    r22 := h.r12 * t.r12 + h.r22 * t.r22 + h.r32 * t.r32
    r23 := h.r12 * t.r13 + h.r22 * t.r23 + h.r32 * t.r33
    r24 := h.r12 * t.r14 + h.r22 * t.r24 + h.r32 * t.r34
    r31 := h.r13 * t.r11 + h.r23 * t.r21 + h.r33 * t.r31
    r32 := h.r13 * t.r12 + h.r23 * t.r22 + h.r33 * t.r32
    r33 := h.r13 * t.r13 + h.r23 * t.r23 + h.r33 * t.r33
    r34 := h.r13 * t.r14 + h.r23 * t.r24 + h.r33 * t.r34 }

/-- src/tools/altransformhelpers.cpp:379-390 (`changeReferenceTransposeVelocity6D`). -/
noncomputable def changeReferenceTransposeVelocity6D (h : Transform) (v : Velocity6D) :
    Velocity6D :=
  ⟨h.r11 * v.xd + h.r21 * v.yd + h.r31 * v.zd,
   h.r12 * v.xd + h.r22 * v.yd + h.r32 * v.zd,
   h.r13 * v.xd + h.r23 * v.yd + h.r33 * v.zd,
   h.r11 * v.wxd + h.r21 * v.wyd + h.r31 * v.wzd,
   h.r12 * v.wxd + h.r22 * v.wyd + h.r32 * v.wzd,
   h.r13 * v.wxd + h.r23 * v.wyd + h.r33 * v.wzd⟩

/-- src/tools/altransformhelpers.cpp:393-404 (`changeReferenceTransposePosition6D`). -/
noncomputable def changeReferenceTransposePosition6D (h : Transform) (v : Position6D) :
    Position6D :=
  ⟨h.r11 * v.x + h.r21 * v.y + h.r31 * v.z,
   h.r12 * v.x + h.r22 * v.y + h.r32 * v.z,
   h.r13 * v.x + h.r23 * v.y + h.r33 * v.z,
   h.r11 * v.wx + h.r21 * v.wy + h.r31 * v.wz,
   h.r12 * v.wx + h.r22 * v.wy + h.r32 * v.wz,
   h.r13 * v.wx + h.r23 * v.wy + h.r33 * v.wz⟩

/-! ### Exponential and logarithm -/

/-- src/tools/altransformhelpers.cpp:222-243 (the matrix built from the three
coefficients). -/
noncomputable def expMatrix (CC SC dSC : ℝ) (m : Velocity6D) : Transform :=
  { r11 := 1 - CC * (m.wzd * m.wzd + m.wyd * m.wyd)
    r12 := -SC * m.wzd + CC * m.wxd * m.wyd
    r13 := SC * m.wyd + CC * m.wxd * m.wzd
    r21 := SC * m.wzd + CC * m.wxd * m.wyd
    r22 := 1 - CC * (m.wxd * m.wxd + m.wzd * m.wzd)
    r23 := -SC * m.wxd + CC * m.wyd * m.wzd
    r31 := -SC * m.wyd + CC * m.wxd * m.wzd
    r32 := SC * m.wxd + CC * m.wyd * m.wzd
    r33 := 1 - CC * (m.wxd * m.wxd + m.wyd * m.wyd)
    r14 := (SC + dSC * m.wxd * m.wxd) * m.xd + (-CC * m.wzd + dSC * m.wxd * m.wyd) * m.yd
            + (CC * m.wyd + dSC * m.wxd * m.wzd) * m.zd
    r24 := (CC * m.wzd + dSC * m.wyd * m.wxd) * m.xd + (SC + dSC * m.wyd * m.wyd) * m.yd
            + (-CC * m.wxd + dSC * m.wyd * m.wzd) * m.zd
    r34 := (-CC * m.wyd + dSC * m.wzd * m.wxd) * m.xd
            + (CC * m.wxd + dSC * m.wzd * m.wyd) * m.yd + (SC + dSC * m.wzd * m.wzd) * m.zd }

/-- src/tools/altransformhelpers.cpp:199-252 (`velocityExponential`, both variants;
all fields of the output are written from the input, which has another type, so
aliasing is impossible). The literal `0.166666667f` is its decimal value. -/
noncomputable def velocityExponential (m : Velocity6D) : Transform :=
  let t := √(m.wxd * m.wxd + m.wyd * m.wyd + m.wzd * m.wzd)
  if t ≥ 0.001 then
    expMatrix ((1 - Real.cos t) / (t * t)) (Real.sin t / t) ((t - Real.sin t) / t ^ 3) m
  else
    expMatrix 0.5 (1 - t * t / 6) 0.166666667 m

/-- src/tools/altransformhelpers.cpp:78-80 (`si`). -/
noncomputable def logSi (h : Transform) : ℝ :=
  0.5 * √((h.r32 - h.r23) * (h.r32 - h.r23) + (h.r13 - h.r31) * (h.r13 - h.r31)
            + (h.r21 - h.r12) * (h.r21 - h.r12))

/-- src/tools/altransformhelpers.cpp:81 (`co`). -/
noncomputable def logCo (h : Transform) : ℝ := 0.5 * (h.r11 + h.r22 + h.r33 - 1)

/-- src/tools/altransformhelpers.cpp:149-186 (translation part of the logarithm, once
`coeff` is known; the fields `wxd wyd wzd` of `v` are kept). The division in the last
case of `lambda` is guarded: it is reached with `angle = 0` or `si = 0` for no input
(`angle ≥ epsilon` and `si > 0` there, see `logTail_guard`). -/
noncomputable def logTail (h : Transform) (si co angle coeff : ℝ) (v : Velocity6D) : Velocity6D :=
  let epsilon : ℝ := 0.001
  let coeff_2 := coeff ^ 2
  let lambda : ℝ :=
    if angle < epsilon then 1 / 12
    else if angle > piF - epsilon ∨ angle < -piF + epsilon then 0.101
    else 0.5 * (2 * si - angle * (1 + co)) / (angle * angle * si)
  { v with
    xd := h.r24 * (coeff_2 * (h.r13 - h.r31) * (h.r32 - h.r23) * lambda
              - 0.5 * coeff * (h.r12 - h.r21))
          + h.r34 * (coeff_2 * (h.r12 - h.r21) * (h.r23 - h.r32) * lambda
              - 0.5 * coeff * (h.r13 - h.r31))
          + h.r14 * (coeff_2 * ((h.r13 - h.r31) * (h.r31 - h.r13)
              + (h.r12 - h.r21) * (h.r21 - h.r12)) * lambda + 1)
    yd := h.r24 * (coeff_2 * ((h.r23 - h.r32) * (h.r32 - h.r23)
              + (h.r12 - h.r21) * (h.r21 - h.r12)) * lambda + 1)
          + h.r14 * (coeff_2 * (h.r31 - h.r13) * (h.r23 - h.r32) * lambda
              - 0.5 * coeff * (h.r21 - h.r12))
          + h.r34 * (coeff_2 * (h.r21 - h.r12) * (h.r13 - h.r31) * lambda
              - 0.5 * coeff * (h.r23 - h.r32))
    zd := h.r34 * (coeff_2 * ((h.r23 - h.r32) * (h.r32 - h.r23)
              + (h.r13 - h.r31) * (h.r31 - h.r13)) * lambda + 1)
          + h.r14 * (coeff_2 * (h.r21 - h.r12) * (h.r32 - h.r23) * lambda
              - 0.5 * coeff * (h.r31 - h.r13))
          + h.r24 * (coeff_2 * (h.r12 - h.r21) * (h.r31 - h.r13) * lambda
              - 0.5 * coeff * (h.r32 - h.r23)) }

/-- src/tools/altransformhelpers.cpp:71-188 (`transformLogarithmInPlace`). `v` is
the previous content of the output: two branches leave its angular part
unwritten. -/
noncomputable def transformLogarithmInPlace (h : Transform) (v : Velocity6D) : Velocity6D :=
  let epsilon : ℝ := 0.001
  let si := logSi h
  let co := logCo h
  let angle := atan2 si co
  if si < epsilon then
    if co > 1 - epsilon then
      let coeff := angle / (2 * si + epsilon)
      let v := { v with wxd := coeff * (h.r32 - h.r23), wyd := coeff * (h.r13 - h.r31),
                        wzd := coeff * (h.r21 - h.r12) }
      logTail h si co angle coeff v
    else if co < -1 + epsilon then
      let lambda := 1 / (piF * piF)
      if h.r11 > 1 - epsilon then
        { wxd := angle, wyd := 0, wzd := 0
          xd := h.r14
          yd := (1 - lambda * angle * angle) * h.r24 + 0.5 * angle * h.r34
          zd := -0.5 * angle * h.r24 + (1 - lambda * angle * angle) * h.r34 }
      else if h.r22 > 1 - epsilon then
        { wxd := 0, wyd := angle, wzd := 0
          xd := (1 - lambda * angle * angle) * h.r14 - 0.5 * angle * h.r34
          yd := h.r24
          zd := 0.5 * angle * h.r14 + (1 - lambda * angle * angle) * h.r34 }
      else if h.r33 > 1 - epsilon then
        { wxd := 0, wyd := 0, wzd := angle
          xd := (1 - lambda * angle * angle) * h.r14 + 0.5 * angle * h.r24
          yd := -0.5 * angle * h.r14 + (1 - lambda * angle * angle) * h.r24
          zd := h.r34 }
      else logTail h si co angle 0 v
    else logTail h si co angle 0 v
  else
    let coeff := angle / (2 * si)
    let v := { v with wxd := coeff * (h.r32 - h.r23), wyd := coeff * (h.r13 - h.r31),
                      wzd := coeff * (h.r21 - h.r12) }
    logTail h si co angle coeff v

/-- src/tools/altransformhelpers.cpp:191-196 (`transformLogarithm`). -/
noncomputable def transformLogarithm (h : Transform) : Velocity6D :=
  transformLogarithmInPlace h Velocity6D.zero

/-- src/tools/altransformhelpers.cpp:407-426 (`transformMeanInPlace`). `in1`, `in2`
give what the references `pHIn1`, `pHIn2` read in a given state of `pHOut`. -/
noncomputable def transformMeanInPlace (in1 in2 : Transform → Transform) (dist : ℝ)
    (out : Transform) : Res Transform :=
  if dist > 1 ∨ dist < 0 then .throws
  else
    let in1i := Transform.inverse (in1 out)
    let v := transformLogarithm (Transform.mul in1i (in2 out))
    let out := velocityExponential (Velocity6D.smul v dist)
    .ok (Transform.mul (in1 out) out)

/-- src/tools/altransformhelpers.cpp:429-437 (`transformMean`). -/
noncomputable def transformMean (a b : Transform) (dist : ℝ) : Res Transform :=
  transformMeanInPlace (fun _ => a) (fun _ => b) dist Transform.one

/-! ### Axis projection, rotation vectors, orthogonal frame -/

/-- src/tools/altransformhelpers.cpp:862-885 (matrix written for the chosen angle;
`c1` is one minus the cosine). -/
noncomputable def axisMatrix (x y z c1 s1 : ℝ) : Rotation :=
  { r11 := c1 * (-z ^ 2 - y ^ 2) + 1
    r12 := c1 * x * y - s1 * z
    r13 := c1 * x * z + s1 * y
    r21 := s1 * z + c1 * x * y
    r22 := c1 * (-z ^ 2 - x ^ 2) + 1
    r23 := c1 * y * z - s1 * x
    r31 := c1 * x * z - s1 * y
    r32 := c1 * y * z + s1 * x
    r33 := c1 * (-y ^ 2 - x ^ 2) + 1 }

/-- src/tools/altransformhelpers.cpp:841-859 (`trace_1`, `trace_2`). -/
noncomputable def axisTrace (p : Rotation) (x y z c1 s1 : ℝ) : ℝ :=
  p.r11 * (c1 * (-z ^ 2 - y ^ 2) + 1) + p.r22 * (c1 * (-z ^ 2 - x ^ 2) + 1)
    + p.r32 * (c1 * y * z + s1 * x) + p.r23 * (c1 * y * z - s1 * x)
    + p.r13 * (c1 * x * z + s1 * y) + p.r31 * (c1 * x * z - s1 * y)
    + p.r21 * (s1 * z + c1 * x * y) + p.r12 * (c1 * x * y - s1 * z)
    + p.r33 * (c1 * (-y ^ 2 - x ^ 2) + 1)

/-- src/tools/altransformhelpers.cpp:808-811 (coefficient `a`; the last term of the
second line reads `r3_c2` where the symmetric formula has `r3_c3`). -/
noncomputable def axisA (p : Rotation) (x y z : ℝ) : ℝ :=
  x * (p.r23 - z * (x * p.r21 + y * p.r22 + z * p.r23))
    + y * (p.r31 - x * (x * p.r31 + y * p.r32 + z * p.r32))
    + z * (p.r12 - y * (x * p.r11 + y * p.r12 + z * p.r13))

/-- src/tools/altransformhelpers.cpp:813-816 (coefficient `b`). -/
noncomputable def axisB (p : Rotation) (x y z : ℝ) : ℝ :=
  x * (-p.r31 * z + p.r33 * x) + y * (p.r11 * y - p.r12 * x) + z * (p.r22 * z - p.r23 * y)

/-- src/tools/altransformhelpers.cpp:818-821 (coefficient `c`). -/
noncomputable def axisC (p : Rotation) (x y z : ℝ) : ℝ :=
  x * (z * x * p.r21 + z * y * p.r22 + z * z * p.r23)
    + y * (x * x * p.r31 + x * y * p.r32 + x * z * p.r33)
    + z * (y * x * p.r11 + y * y * p.r12 + y * z * p.r13)

/-- src/tools/altransformhelpers.cpp:777-887 (`axisRotationProjection` of a Rotation).
`acos(c / sqrt(a² + b²))` is `0/0`, NaN, when `a = b = 0`: outcome `ub`. -/
noncomputable def axisRotationProjection (axis : Position3D) (p : Rotation) : Res Rotation :=
  let n := Position3D.norm axis
  if n = 0 then .throws
  else
    let inw := 1 / n
    let x := inw * axis.x
    let y := inw * axis.y
    let z := inw * axis.z
    let a := axisA p x y z
    let b := axisB p x y z
    let c := axisC p x y z
    let d2 := a * a + b * b - c * c
    if d2 < 0 then .throws
    else if a * a + b * b = 0 then .ub
    else
      let alpha := atan2 b a
      let beta := Real.arccos (c / √(a * a + b * b))
      let cos_1 := 1 - Real.cos (alpha + beta)
      let cos_2 := 1 - Real.cos (alpha - beta)
      let sin_1 := Real.sin (alpha + beta)
      let sin_2 := Real.sin (alpha - beta)
      if axisTrace p x y z cos_1 sin_1 < axisTrace p x y z cos_2 sin_2 then
        .ok (axisMatrix x y z cos_2 sin_2)
      else .ok (axisMatrix x y z cos_1 sin_1)

/-- src/tools/altransformhelpers.cpp:757-774, 890-991 (`axisRotationProjection` of a
Transform and the in-place Transform overload, whose statements are those of the
Rotation overload applied to the rotation part; translation kept). -/
noncomputable def axisRotationProjectionTransform (axis : Position3D) (t : Transform) :
    Res Transform :=
  (axisRotationProjection axis (rotationFromTransform t)).map fun r =>
    transformFromRotationInPlace r t

/-- src/tools/altransformhelpers.cpp:995-1048 (`transformFromRotVec` of an axis mask,
an angle and a translation; the masks are `AXIS_MASK_X = 1`, `AXIS_MASK_Y = 2`,
`AXIS_MASK_Z = 4`, almath/types/alaxismask.h). -/
noncomputable def transformFromRotVec (axis : ℤ) (theta : ℝ) (m : Position3D) : Transform :=
  let c := Real.cos theta
  let s := Real.sin theta
  let t := { Transform.one with r14 := m.x, r24 := m.y, r34 := m.z }
  if axis = 1 then { t with r22 := c, r23 := -s, r32 := s, r33 := c }
  else if axis = 2 then { t with r11 := c, r13 := s, r31 := -s, r33 := c }
  else if axis = 4 then { t with r11 := c, r12 := -s, r21 := s, r22 := c }
  else t

/-- src/tools/altransformhelpers.cpp:1051-1068 (`transformFromRotVec` of a translation). -/
noncomputable def transformFromRotVecPosition (p : Position3D) : Transform :=
  transformFromRotVec 8 0 p

/-- src/tools/altransformhelpers.cpp:1071-1082 (`transformFromRotVec` of an axis and an angle). -/
noncomputable def transformFromRotVecAxis (axis : ℤ) (theta : ℝ) : Transform :=
  transformFromRotVec axis theta Position3D.zero

/-- src/tools/altransformhelpers.cpp:1094-1106 (choice of the auxiliary axis). -/
noncomputable def orthogonalSpaceAux (a : Position3D) : Position3D :=
  let coef : ℝ := 0.0001
  if |a.x| > coef then ⟨-a.y, a.x, 0⟩
  else if |a.y| > coef then ⟨0, -a.z, a.y⟩
  else ⟨a.z, 0, 0⟩

/-- src/tools/altransformhelpers.cpp:1085-1131 (`orthogonalSpace`, both overloads; the
translation column of the output argument `t` is kept). -/
noncomputable def orthogonalSpace (axis : Position3D) (t : Transform) : Res Transform :=
  (Position3D.div axis (Position3D.norm axis)).bind fun axis3 =>
  (Position3D.normalize (orthogonalSpaceAux axis3)).bind fun axis1 =>
  (Position3D.normalize (Position3D.cross axis3 axis1)).bind fun axis2 =>
  .ok { t with
    r11 := axis1.x, r21 := axis1.y, r31 := axis1.z
    r12 := axis2.x, r22 := axis2.y, r32 := axis2.z
    r13 := axis3.x, r23 := axis3.y, r33 := axis3.z }

end AlMath
