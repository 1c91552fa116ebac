import Verif.Model.FloatTypes

/-!
Bases built from axes and pills, with rounding, overflow, NaN and infinities modelled. Same simplifications as in
Model/Float32.lean. A violated `assert` is undefined behaviour; with `NDEBUG` the assertions are absent and the
value given under satisfied assertions is returned in all cases.
-/

namespace AlMath.F32

namespace Position3D

/-- almath/types/alposition3d.h:120-123 (`operator+`). -/
noncomputable def add (p q : Position3D) : Position3D := ⟨F32.add p.x q.x, F32.add p.y q.y, F32.add p.z q.z⟩

/-- almath/types/alposition3d.h:129-132 (binary `operator-`). -/
noncomputable def sub (p q : Position3D) : Position3D := ⟨F32.sub p.x q.x, F32.sub p.y q.y, F32.sub p.z q.z⟩

end Position3D

/-- almath/types/alposition3d.h:302 (the default tolerance `0.0001f` of `isUnitVector`). -/
noncomputable def unitEps : F32 := round (1 / 10000)

/-- src/tools/altransformhelpers.cpp:683, 694, 705, 718-720 (the tolerance `1e-3f`). -/
noncomputable def orthoEps : F32 := round (1 / 1000)

open Classical in
/-- src/tools/altransformhelpers.cpp:710-732 (`rotationFromAxesXYZ`). -/
noncomputable def rotationFromAxesXYZ (x y z : Position3D) : Res Rotation :=
  if x.isUnitVector unitEps ∧ y.isUnitVector unitEps ∧ z.isUnitVector unitEps ∧
      x.isOrthogonal y orthoEps ∧ x.isOrthogonal z orthoEps ∧ y.isOrthogonal z orthoEps then
    .ok ⟨x.x, y.x, z.x, x.y, y.y, z.y, x.z, y.z, z.z⟩
  else .ub

open Classical in
/-- src/tools/altransformhelpers.cpp:677-686 (`rotationFromAxesXY`). -/
noncomputable def rotationFromAxesXY (x y : Position3D) : Res Rotation :=
  if x.isUnitVector unitEps ∧ y.isUnitVector unitEps ∧ x.isOrthogonal y orthoEps then
    rotationFromAxesXYZ x y (x.crossProduct y)
  else .ub

open Classical in
/-- src/tools/altransformhelpers.cpp:688-697 (`rotationFromAxesXZ`). -/
noncomputable def rotationFromAxesXZ (x z : Position3D) : Res Rotation :=
  if x.isUnitVector unitEps ∧ z.isUnitVector unitEps ∧ x.isOrthogonal z orthoEps then
    rotationFromAxesXYZ x (z.crossProduct x) z
  else .ub

open Classical in
/-- src/tools/altransformhelpers.cpp:699-708 (`rotationFromAxesYZ`). -/
noncomputable def rotationFromAxesYZ (y z : Position3D) : Res Rotation :=
  if y.isUnitVector unitEps ∧ z.isUnitVector unitEps ∧ y.isOrthogonal z orthoEps then
    rotationFromAxesXYZ (y.crossProduct z) y z
  else .ub

open Classical in
/-- src/tools/altransformhelpers.cpp:1094-1106 (choice of the auxiliary axis). -/
noncomputable def orthogonalSpaceAux (a : Position3D) : Position3D :=
  if lt (round (1 / 10000)) (abs a.x) then ⟨neg a.y, a.x, fin 0⟩
  else if lt (round (1 / 10000)) (abs a.y) then ⟨fin 0, neg a.z, a.y⟩
  else ⟨a.z, fin 0, fin 0⟩

/-- src/tools/altransformhelpers.cpp:1085-1131 (`orthogonalSpace`, both overloads; the translation column of the
output argument `t` is kept). -/
noncomputable def orthogonalSpace (axis : Position3D) (t : Transform) : Res Transform :=
  (axis.div axis.norm).bind fun axis3 =>
  (orthogonalSpaceAux axis3).normalize.bind fun axis1 =>
  (axis3.crossProduct axis1).normalize.bind fun axis2 =>
  .ok { t with r := ⟨axis1.x, axis2.x, axis3.x, axis1.y, axis2.y, axis3.y, axis1.z, axis2.z, axis3.z⟩ }

/-- src/tools/altransformhelpers.cpp:440-455 (`transformFromPosition3D`). -/
noncomputable def transformFromPosition3D (p : Position3D) : Transform :=
  ⟨⟨fin 1, fin 0, fin 0, fin 0, fin 1, fin 0, fin 0, fin 0, fin 1⟩, p.x, p.y, p.z⟩

/-- src/geometrics/shapes3d_utils.cpp:14-20 (`getSphereCentersFromPill`). -/
noncomputable def getSphereCentersFromPill (halfExtent : F32) (t : Transform) : Position3D × Position3D :=
  (t.apply ⟨fin 0, fin 0, halfExtent⟩, t.apply ⟨fin 0, fin 0, neg halfExtent⟩)

/-- src/geometrics/shapes3d_utils.cpp:22-31 (`computePillParameters`). -/
noncomputable def computePillParameters (a b : Position3D) : Res (F32 × Transform) :=
  let halfExtent := mul (fin (1 / 2)) (a.distance b)
  let halfDelta := (b.sub a).smul (fin (1 / 2))
  let center := a.add halfDelta
  (orthogonalSpace halfDelta (transformFromPosition3D center)).map fun t => (halfExtent, t)

end AlMath.F32
