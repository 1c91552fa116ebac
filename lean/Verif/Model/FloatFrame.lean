import Verif.Model.FloatExp

/-!
Changes of reference frame (src/tools/altransformhelpers.cpp) with rounding, overflow, NaN and infinities modelled. Same
simplifications as in Model/Float32.lean; inputs and outputs are distinct objects.
-/

namespace AlMath.F32

/-- almath/types/alposition6d.h:24-36 (fields). -/
@[ext] structure Position6D where
  x : F32
  y : F32
  z : F32
  wx : F32
  wy : F32
  wz : F32

/-- src/tools/altransformhelpers.cpp:255-266 (`changeReferenceVelocity6D`). -/
noncomputable def changeReferenceVelocity6D (h : Transform) (v : Velocity6D) : Velocity6D :=
  ⟨dot h.r.r11 h.r.r12 h.r.r13 v.xd v.yd v.zd, dot h.r.r21 h.r.r22 h.r.r23 v.xd v.yd v.zd,
    dot h.r.r31 h.r.r32 h.r.r33 v.xd v.yd v.zd, dot h.r.r11 h.r.r12 h.r.r13 v.wxd v.wyd v.wzd,
    dot h.r.r21 h.r.r22 h.r.r23 v.wxd v.wyd v.wzd, dot h.r.r31 h.r.r32 h.r.r33 v.wxd v.wyd v.wzd⟩

/-- src/tools/altransformhelpers.cpp:269-280 (`changeReferencePosition6D`). -/
noncomputable def changeReferencePosition6D (h : Transform) (p : Position6D) : Position6D :=
  ⟨dot h.r.r11 h.r.r12 h.r.r13 p.x p.y p.z, dot h.r.r21 h.r.r22 h.r.r23 p.x p.y p.z,
    dot h.r.r31 h.r.r32 h.r.r33 p.x p.y p.z, dot h.r.r11 h.r.r12 h.r.r13 p.wx p.wy p.wz,
    dot h.r.r21 h.r.r22 h.r.r23 p.wx p.wy p.wz, dot h.r.r31 h.r.r32 h.r.r33 p.wx p.wy p.wz⟩

/-- src/tools/altransformhelpers.cpp:313-321 (`changeReferencePosition3D`), also 283-295
(`changeReferencePosition3DInPlace`). -/
noncomputable def changeReferencePosition3D (h : Transform) (p : Position3D) : Position3D :=
  ⟨dot h.r.r11 h.r.r12 h.r.r13 p.x p.y p.z, dot h.r.r21 h.r.r22 h.r.r23 p.x p.y p.z, dot h.r.r31 h.r.r32 h.r.r33 p.x p.y p.z⟩

/-- src/tools/altransformhelpers.cpp:324-332 (`changeReferenceTransposePosition3D`), also 298-310
(`changeReferenceTransposePosition3DInPlace`). -/
noncomputable def changeReferenceTransposePosition3D (h : Transform) (p : Position3D) : Position3D :=
  ⟨dot h.r.r11 h.r.r21 h.r.r31 p.x p.y p.z, dot h.r.r12 h.r.r22 h.r.r32 p.x p.y p.z, dot h.r.r13 h.r.r23 h.r.r33 p.x p.y p.z⟩

/-- src/tools/altransformhelpers.cpp:335-354 (`changeReferenceTransform`). -/
noncomputable def changeReferenceTransform (h t : Transform) : Transform :=
  ⟨⟨dot h.r.r11 h.r.r12 h.r.r13 t.r.r11 t.r.r21 t.r.r31, dot h.r.r11 h.r.r12 h.r.r13 t.r.r12 t.r.r22 t.r.r32,
      dot h.r.r11 h.r.r12 h.r.r13 t.r.r13 t.r.r23 t.r.r33,
      dot h.r.r21 h.r.r22 h.r.r23 t.r.r11 t.r.r21 t.r.r31, dot h.r.r21 h.r.r22 h.r.r23 t.r.r12 t.r.r22 t.r.r32,
      dot h.r.r21 h.r.r22 h.r.r23 t.r.r13 t.r.r23 t.r.r33,
      dot h.r.r31 h.r.r32 h.r.r33 t.r.r11 t.r.r21 t.r.r31, dot h.r.r31 h.r.r32 h.r.r33 t.r.r12 t.r.r22 t.r.r32,
      dot h.r.r31 h.r.r32 h.r.r33 t.r.r13 t.r.r23 t.r.r33⟩,
    dot h.r.r11 h.r.r12 h.r.r13 t.r14 t.r24 t.r34, dot h.r.r21 h.r.r22 h.r.r23 t.r14 t.r24 t.r34,
    dot h.r.r31 h.r.r32 h.r.r33 t.r14 t.r24 t.r34⟩

/-- src/tools/altransformhelpers.cpp:357-376 (`changeReferenceTransposeTransform`). -/
noncomputable def changeReferenceTransposeTransform (h t : Transform) : Transform :=
  ⟨⟨dot h.r.r11 h.r.r21 h.r.r31 t.r.r11 t.r.r21 t.r.r31, dot h.r.r11 h.r.r21 h.r.r31 t.r.r12 t.r.r22 t.r.r32,
      dot h.r.r11 h.r.r21 h.r.r31 t.r.r13 t.r.r23 t.r.r33,
      dot h.r.r12 h.r.r22 h.r.r32 t.r.r11 t.r.r21 t.r.r31, dot h.r.r12 h.r.r22 h.r.r32 t.r.r12 t.r.r22 t.r.r32,
      dot h.r.r12 h.r.r22 h.r.r32 t.r.r13 t.r.r23 t.r.r33,
      dot h.r.r13 h.r.r23 h.r.r33 t.r.r11 t.r.r21 t.r.r31, dot h.r.r13 h.r.r23 h.r.r33 t.r.r12 t.r.r22 t.r.r32,
      dot h.r.r13 h.r.r23 h.r.r33 t.r.r13 t.r.r23 t.r.r33⟩,
    dot h.r.r11 h.r.r21 h.r.r31 t.r14 t.r24 t.r34, dot h.r.r12 h.r.r22 h.r.r32 t.r14 t.r24 t.r34,
    dot h.r.r13 h.r.r23 h.r.r33 t.r14 t.r24 t.r34⟩

/-- src/tools/altransformhelpers.cpp:379-390 (`changeReferenceTransposeVelocity6D`). -/
noncomputable def changeReferenceTransposeVelocity6D (h : Transform) (v : Velocity6D) : Velocity6D :=
  ⟨dot h.r.r11 h.r.r21 h.r.r31 v.xd v.yd v.zd, dot h.r.r12 h.r.r22 h.r.r32 v.xd v.yd v.zd,
    dot h.r.r13 h.r.r23 h.r.r33 v.xd v.yd v.zd, dot h.r.r11 h.r.r21 h.r.r31 v.wxd v.wyd v.wzd,
    dot h.r.r12 h.r.r22 h.r.r32 v.wxd v.wyd v.wzd, dot h.r.r13 h.r.r23 h.r.r33 v.wxd v.wyd v.wzd⟩

/-- src/tools/altransformhelpers.cpp:393-404 (`changeReferenceTransposePosition6D`). -/
noncomputable def changeReferenceTransposePosition6D (h : Transform) (p : Position6D) : Position6D :=
  ⟨dot h.r.r11 h.r.r21 h.r.r31 p.x p.y p.z, dot h.r.r12 h.r.r22 h.r.r32 p.x p.y p.z,
    dot h.r.r13 h.r.r23 h.r.r33 p.x p.y p.z, dot h.r.r11 h.r.r21 h.r.r31 p.wx p.wy p.wz,
    dot h.r.r12 h.r.r22 h.r.r32 p.wx p.wy p.wz, dot h.r.r13 h.r.r23 h.r.r33 p.wx p.wy p.wz⟩

/-- src/tools/altransformhelpers.cpp:612-622 (one of the angular components: `0.5` times the sum of three differences
of products). -/
noncomputable def diffAngle (a1 a2 a3 b1 b2 b3 c1 c2 c3 d1 d2 d3 : F32) : F32 :=
  mul (fin (1 / 2)) (add (add (sub (mul a1 b1) (mul c1 d1)) (sub (mul a2 b2) (mul c2 d2))) (sub (mul a3 b3) (mul c3 d3)))

/-- src/tools/altransformhelpers.cpp:604-623 (`position6DFromTransformDiffInPlace`). -/
noncomputable def position6DFromTransformDiff (c t : Transform) : Position6D :=
  ⟨sub t.r14 c.r14, sub t.r24 c.r24, sub t.r34 c.r34,
    diffAngle c.r.r21 c.r.r22 c.r.r23 t.r.r31 t.r.r32 t.r.r33 c.r.r31 c.r.r32 c.r.r33 t.r.r21 t.r.r22 t.r.r23,
    diffAngle c.r.r31 c.r.r32 c.r.r33 t.r.r11 t.r.r12 t.r.r13 c.r.r11 c.r.r12 c.r.r13 t.r.r31 t.r.r32 t.r.r33,
    diffAngle c.r.r11 c.r.r12 c.r.r13 t.r.r21 t.r.r22 t.r.r23 c.r.r21 c.r.r22 c.r.r23 t.r.r11 t.r.r12 t.r.r13⟩

end AlMath.F32
