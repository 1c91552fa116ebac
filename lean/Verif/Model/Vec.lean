import Verif.Basic

/-!
Model of the vector-like value types of `src/types`: Position2D, Position3D,
Position6D, Velocity3D, Velocity6D, Rotation3D and the vector-space part of
Pose2D. Scalars are real numbers (exact arithmetic). The mutating operators
`+=`, `-=`, `*=`, `/=` return the new value of `*this`. Warnings written to
`std::cerr` are not modelled.
-/

namespace AlMath

/-! ### Position2D -/

/-- almath/types/alposition2d.h:24-29 (fields `x`, `y`). -/
@[ext] structure Position2D where
  x : ℝ
  y : ℝ

namespace Position2D

/-- src/types/alposition2d.cpp:15 (default constructor). -/
noncomputable def zero : Position2D := ⟨0, 0⟩

/-- src/types/alposition2d.cpp:17 (constructor from one float). -/
noncomputable def fill (v : ℝ) : Position2D := ⟨v, v⟩

/-- src/types/alposition2d.cpp:21-38 (constructor from a vector). -/
noncomputable def ofVector (l : List ℝ) : Res Position2D :=
  if l.length = 2 then do return ⟨← Res.read l 0, ← Res.read l 1⟩
  else return ⟨0, 0⟩

/-- src/types/alposition2d.cpp:141-153 (both `toVector` overloads; the
`resize(2)` of the out-parameter overload makes the old content irrelevant). -/
def toVector (p : Position2D) : List ℝ := [p.x, p.y]

/-- src/types/alposition2d.cpp:155-159 (`writeToVector`: the fields written through an advancing iterator). -/
def writeToVector (p : Position2D) (st : List ℝ × ℕ) : Res (List ℝ × ℕ) :=
  Res.writeAll st [p.x, p.y]

/-- almath/types/alposition2d.h:116-119 (`operator+`). -/
noncomputable def add (p q : Position2D) : Position2D := ⟨p.x + q.x, p.y + q.y⟩

/-- almath/types/alposition2d.h:125-128 (binary `operator-`). -/
noncomputable def sub (p q : Position2D) : Position2D := ⟨p.x - q.x, p.y - q.y⟩

/-- almath/types/alposition2d.h:141-144 (unary `operator-`). -/
noncomputable def neg (p : Position2D) : Position2D := ⟨-p.x, -p.y⟩

/-- almath/types/alposition2d.h:180-183, src/types/alposition2d.cpp:69-74
(`operator*` with a scalar on either side). -/
noncomputable def smul (p : Position2D) (v : ℝ) : Position2D := ⟨p.x * v, p.y * v⟩

/-- src/types/alposition2d.cpp:40-45 (`operator+=`). -/
noncomputable def addAssign (p q : Position2D) : Position2D :=
  { p with x := p.x + q.x, y := p.y + q.y }

/-- src/types/alposition2d.cpp:47-52 (`operator-=`). -/
noncomputable def subAssign (p q : Position2D) : Position2D :=
  { p with x := p.x - q.x, y := p.y - q.y }

/-- src/types/alposition2d.cpp:86-91 (`operator*=`). -/
noncomputable def smulAssign (p : Position2D) (v : ℝ) : Position2D :=
  { p with x := p.x * v, y := p.y * v }

/-- src/types/alposition2d.cpp:76-84 (`operator/`). -/
noncomputable def div (p : Position2D) (v : ℝ) : Res Position2D :=
  if v = 0 then .throws else .ok (smul p (1 / v))

/-- src/types/alposition2d.cpp:93-102 (`operator/=`). -/
noncomputable def divAssign (p : Position2D) (v : ℝ) : Res Position2D :=
  if v = 0 then .throws else .ok (smulAssign p (1 / v))

/-- src/types/alposition2d.cpp:135-139 (`operator==`). -/
def eq (p q : Position2D) : Prop := p.x = q.x ∧ p.y = q.y

/-- src/types/alposition2d.cpp:61-67 (`isNear`). -/
def isNear (p q : Position2D) (eps : ℝ) : Prop :=
  |p.x - q.x| ≤ eps ∧ |p.y - q.y| ≤ eps

/-- src/types/alposition2d.cpp:166-171 (`distanceSquared`). -/
noncomputable def distanceSquared (p q : Position2D) : ℝ :=
  (p.x - q.x) * (p.x - q.x) + (p.y - q.y) * (p.y - q.y)

/-- src/types/alposition2d.cpp:173-178 (`distance`). -/
noncomputable def distance (p q : Position2D) : ℝ := √(distanceSquared p q)

/-- src/types/alposition2d.cpp:180-183 (`norm`). -/
noncomputable def norm (p : Position2D) : ℝ := √(p.x * p.x + p.y * p.y)

/-- src/types/alposition2d.cpp:185-194 (`normalize`). -/
noncomputable def normalize (p : Position2D) : Res Position2D :=
  if norm p = 0 then .throws else div p (norm p)

/-- src/types/alposition2d.cpp:196-201 (`dotProduct`). -/
noncomputable def dot (p q : Position2D) : ℝ := p.x * q.x + p.y * q.y

/-- src/types/alposition2d.cpp:204-218 (`crossProduct`, both overloads). -/
noncomputable def cross (p q : Position2D) : ℝ := p.x * q.y - p.y * q.x

/-- src/types/alposition2d.cpp:161-164 (`getAngle`). -/
noncomputable def getAngle (p : Position2D) : ℝ := atan2 p.y p.x

/-- src/types/alposition2d.cpp:220-226 (`fromPolarCoordinates`). -/
noncomputable def fromPolar (r a : ℝ) : Position2D := ⟨r * Real.cos a, r * Real.sin a⟩

end Position2D

/-! ### Position3D -/

/-- almath/types/alposition3d.h:24-31 (fields `x`, `y`, `z`). -/
@[ext] structure Position3D where
  x : ℝ
  y : ℝ
  z : ℝ

namespace Position3D

/-- src/types/alposition3d.cpp:15 (default constructor). -/
noncomputable def zero : Position3D := ⟨0, 0, 0⟩

/-- src/types/alposition3d.cpp:17 (constructor from one float). -/
noncomputable def fill (v : ℝ) : Position3D := ⟨v, v, v⟩

/-- src/types/alposition3d.cpp:25-44 (constructor from a vector). -/
noncomputable def ofVector (l : List ℝ) : Res Position3D :=
  if l.length = 3 then do return ⟨← Res.read l 0, ← Res.read l 1, ← Res.read l 2⟩
  else return ⟨0, 0, 0⟩

/-- src/types/alposition3d.cpp:148-161 (both `toVector` overloads). -/
def toVector (p : Position3D) : List ℝ := [p.x, p.y, p.z]

/-- src/types/alposition3d.cpp:163-168 (`writeToVector`: the fields written through an advancing iterator). -/
def writeToVector (p : Position3D) (st : List ℝ × ℕ) : Res (List ℝ × ℕ) :=
  Res.writeAll st [p.x, p.y, p.z]

/-- almath/types/alposition3d.h:120-123 (`operator+`). -/
noncomputable def add (p q : Position3D) : Position3D := ⟨p.x + q.x, p.y + q.y, p.z + q.z⟩

/-- almath/types/alposition3d.h:129-132 (binary `operator-`). -/
noncomputable def sub (p q : Position3D) : Position3D := ⟨p.x - q.x, p.y - q.y, p.z - q.z⟩

/-- almath/types/alposition3d.h:145-148 (unary `operator-`). -/
noncomputable def neg (p : Position3D) : Position3D := ⟨-p.x, -p.y, -p.z⟩

/-- src/types/alposition3d.cpp:72-75 (`operator*` with a scalar). -/
noncomputable def smul (p : Position3D) (v : ℝ) : Position3D := ⟨p.x * v, p.y * v, p.z * v⟩

/-- src/types/alposition3d.cpp:46-52 (`operator+=`). -/
noncomputable def addAssign (p q : Position3D) : Position3D :=
  { p with x := p.x + q.x, y := p.y + q.y, z := p.z + q.z }

/-- src/types/alposition3d.cpp:54-60 (`operator-=`). -/
noncomputable def subAssign (p q : Position3D) : Position3D :=
  { p with x := p.x - q.x, y := p.y - q.y, z := p.z - q.z }

/-- src/types/alposition3d.cpp:87-93 (`operator*=`). -/
noncomputable def smulAssign (p : Position3D) (v : ℝ) : Position3D :=
  { p with x := p.x * v, y := p.y * v, z := p.z * v }

/-- src/types/alposition3d.cpp:77-85 (`operator/`). -/
noncomputable def div (p : Position3D) (v : ℝ) : Res Position3D :=
  if v = 0 then .throws else .ok (smul p (1 / v))

/-- src/types/alposition3d.cpp:95-104 (`operator/=`). -/
noncomputable def divAssign (p : Position3D) (v : ℝ) : Res Position3D :=
  if v = 0 then .throws else .ok (smulAssign p (1 / v))

/-- src/types/alposition3d.cpp:106-111 (`operator==`). -/
def eq (p q : Position3D) : Prop := p.x = q.x ∧ p.y = q.y ∧ p.z = q.z

/-- src/types/alposition3d.cpp:63-70 (`isNear`). -/
def isNear (p q : Position3D) (eps : ℝ) : Prop :=
  |p.x - q.x| ≤ eps ∧ |p.y - q.y| ≤ eps ∧ |p.z - q.z| ≤ eps

/-- src/types/alposition3d.cpp:180-187 (`distanceSquared`). -/
noncomputable def distanceSquared (p q : Position3D) : ℝ :=
  (p.x - q.x) * (p.x - q.x) + (p.y - q.y) * (p.y - q.y) + (p.z - q.z) * (p.z - q.z)

/-- src/types/alposition3d.cpp:190-195 (`distance`). -/
noncomputable def distance (p q : Position3D) : ℝ := √(distanceSquared p q)

/-- src/types/alposition3d.cpp:197-200 (`norm`). -/
noncomputable def norm (p : Position3D) : ℝ := √(p.x * p.x + p.y * p.y + p.z * p.z)

/-- src/types/alposition3d.cpp:202-212 (`normalize`). -/
noncomputable def normalize (p : Position3D) : Res Position3D :=
  if norm p = 0 then .throws else div p (norm p)

/-- src/types/alposition3d.cpp:214-219 (`dotProduct`). -/
noncomputable def dot (p q : Position3D) : ℝ := p.x * q.x + p.y * q.y + p.z * q.z

/-- src/types/alposition3d.cpp:231-238 (`crossProduct` returning a value). -/
noncomputable def cross (p q : Position3D) : Position3D :=
  ⟨p.y * q.z - p.z * q.y, p.z * q.x - p.x * q.z, p.x * q.y - p.y * q.x⟩

/-- src/types/alposition3d.cpp:240-244 (`isUnitVector`). -/
def isUnitVector (p : Position3D) (eps : ℝ) : Prop := |1 - norm p| ≤ eps

/-- src/types/alposition3d.cpp:246-251 (`isOrthogonal`). -/
def isOrthogonal (p q : Position3D) (eps : ℝ) : Prop := |dot p q| ≤ eps

end Position3D

/-! ### Position6D -/

/-- almath/types/alposition6d.h:24-37 (fields). -/
@[ext] structure Position6D where
  x : ℝ
  y : ℝ
  z : ℝ
  wx : ℝ
  wy : ℝ
  wz : ℝ

namespace Position6D

/-- src/types/alposition6d.cpp:15-21 (default constructor). -/
noncomputable def zero : Position6D := ⟨0, 0, 0, 0, 0, 0⟩

/-- src/types/alposition6d.cpp:45-72 (constructor from a vector). -/
noncomputable def ofVector (l : List ℝ) : Res Position6D :=
  if l.length = 6 then do return ⟨← Res.read l 0, ← Res.read l 1, ← Res.read l 2, ← Res.read l 3, ← Res.read l 4, ← Res.read l 5⟩
  else return ⟨0, 0, 0, 0, 0, 0⟩

/-- src/types/alposition6d.cpp:172-188 (both `toVector` overloads). -/
def toVector (p : Position6D) : List ℝ := [p.x, p.y, p.z, p.wx, p.wy, p.wz]

/-- src/types/alposition6d.cpp:190-198 (`writeToVector`: the fields written through an advancing iterator). -/
def writeToVector (p : Position6D) (st : List ℝ × ℕ) : Res (List ℝ × ℕ) :=
  Res.writeAll st [p.x, p.y, p.z, p.wx, p.wy, p.wz]

/-- almath/types/alposition6d.h:156-166 (`operator+`). -/
noncomputable def add (p q : Position6D) : Position6D :=
  ⟨p.x + q.x, p.y + q.y, p.z + q.z, p.wx + q.wx, p.wy + q.wy, p.wz + q.wz⟩

/-- almath/types/alposition6d.h:171-181 (binary `operator-`). -/
noncomputable def sub (p q : Position6D) : Position6D :=
  ⟨p.x - q.x, p.y - q.y, p.z - q.z, p.wx - q.wx, p.wy - q.wy, p.wz - q.wz⟩

/-- almath/types/alposition6d.h:193-196 (unary `operator-`). -/
noncomputable def neg (p : Position6D) : Position6D :=
  ⟨-p.x, -p.y, -p.z, -p.wx, -p.wy, -p.wz⟩

/-- almath/types/alposition6d.h:226-235 (`operator*` with a scalar). -/
noncomputable def smul (p : Position6D) (v : ℝ) : Position6D :=
  ⟨p.x * v, p.y * v, p.z * v, p.wx * v, p.wy * v, p.wz * v⟩

/-- src/types/alposition6d.cpp:74-83 (`operator+=`). -/
noncomputable def addAssign (p q : Position6D) : Position6D :=
  { p with x := p.x + q.x, y := p.y + q.y, z := p.z + q.z,
           wx := p.wx + q.wx, wy := p.wy + q.wy, wz := p.wz + q.wz }

/-- src/types/alposition6d.cpp:86-95 (`operator-=`). -/
noncomputable def subAssign (p q : Position6D) : Position6D :=
  { p with x := p.x - q.x, y := p.y - q.y, z := p.z - q.z,
           wx := p.wx - q.wx, wy := p.wy - q.wy, wz := p.wz - q.wz }

/-- src/types/alposition6d.cpp:135-144 (`operator*=`). -/
noncomputable def smulAssign (p : Position6D) (v : ℝ) : Position6D :=
  { p with x := p.x * v, y := p.y * v, z := p.z * v,
           wx := p.wx * v, wy := p.wy * v, wz := p.wz * v }

/-- src/types/alposition6d.cpp:110-118 (`operator/`). -/
noncomputable def div (p : Position6D) (v : ℝ) : Res Position6D :=
  if v = 0 then .throws else .ok (smul p (1 / v))

/-- src/types/alposition6d.cpp:146-155 (`operator/=`). -/
noncomputable def divAssign (p : Position6D) (v : ℝ) : Res Position6D :=
  if v = 0 then .throws else .ok (smulAssign p (1 / v))

/-- src/types/alposition6d.cpp:120-128 (`operator==`). -/
def eq (p q : Position6D) : Prop :=
  p.x = q.x ∧ p.y = q.y ∧ p.z = q.z ∧ p.wx = q.wx ∧ p.wy = q.wy ∧ p.wz = q.wz

/-- src/types/alposition6d.cpp:98-108 (`isNear`). -/
def isNear (p q : Position6D) (eps : ℝ) : Prop :=
  |p.x - q.x| ≤ eps ∧ |p.y - q.y| ≤ eps ∧ |p.z - q.z| ≤ eps ∧
  |p.wx - q.wx| ≤ eps ∧ |p.wy - q.wy| ≤ eps ∧ |p.wz - q.wz| ≤ eps

/-- src/types/alposition6d.cpp:200-207 (`distanceSquared`, translation only). -/
noncomputable def distanceSquared (p q : Position6D) : ℝ :=
  (p.x - q.x) * (p.x - q.x) + (p.y - q.y) * (p.y - q.y) + (p.z - q.z) * (p.z - q.z)

/-- src/types/alposition6d.cpp:209-214 (`distance`). -/
noncomputable def distance (p q : Position6D) : ℝ := √(distanceSquared p q)

/-- src/types/alposition6d.cpp:216-220 (`norm`). -/
noncomputable def norm (p : Position6D) : ℝ :=
  √(p.x * p.x + p.y * p.y + p.z * p.z + p.wx * p.wx + p.wy * p.wy + p.wz * p.wz)

/-- src/types/alposition6d.cpp:222-231 (`normalize`). -/
noncomputable def normalize (p : Position6D) : Res Position6D :=
  if norm p = 0 then .throws else div p (norm p)

end Position6D

/-! ### Velocity3D -/

/-- almath/types/alvelocity3d.h:24-31 (fields). -/
@[ext] structure Velocity3D where
  xd : ℝ
  yd : ℝ
  zd : ℝ

namespace Velocity3D

/-- src/types/alvelocity3d.cpp:15-17 (default constructor). -/
noncomputable def zero : Velocity3D := ⟨0, 0, 0⟩

/-- src/types/alvelocity3d.cpp:31-50 (constructor from a vector). -/
noncomputable def ofVector (l : List ℝ) : Res Velocity3D :=
  if l.length = 3 then do return ⟨← Res.read l 0, ← Res.read l 1, ← Res.read l 2⟩
  else return ⟨0, 0, 0⟩

/-- src/types/alvelocity3d.cpp:141-154 (both `toVector` overloads). -/
def toVector (p : Velocity3D) : List ℝ := [p.xd, p.yd, p.zd]

/-- src/types/alvelocity3d.cpp:156-161 (`writeToVector`: the fields written through an advancing iterator). -/
def writeToVector (p : Velocity3D) (st : List ℝ × ℕ) : Res (List ℝ × ℕ) :=
  Res.writeAll st [p.xd, p.yd, p.zd]

/-- almath/types/alvelocity3d.h:120-123 (`operator+`). -/
noncomputable def add (p q : Velocity3D) : Velocity3D := ⟨p.xd + q.xd, p.yd + q.yd, p.zd + q.zd⟩

/-- almath/types/alvelocity3d.h:129-135 (binary `operator-`). -/
noncomputable def sub (p q : Velocity3D) : Velocity3D := ⟨p.xd - q.xd, p.yd - q.yd, p.zd - q.zd⟩

/-- almath/types/alvelocity3d.h:148-151 (unary `operator-`). -/
noncomputable def neg (p : Velocity3D) : Velocity3D := ⟨-p.xd, -p.yd, -p.zd⟩

/-- almath/types/alvelocity3d.h:181-184, src/types/alvelocity3d.cpp:78-83
(`operator*` with a scalar on either side). -/
noncomputable def smul (p : Velocity3D) (v : ℝ) : Velocity3D := ⟨p.xd * v, p.yd * v, p.zd * v⟩

/-- src/types/alvelocity3d.cpp:52-58 (`operator+=`). -/
noncomputable def addAssign (p q : Velocity3D) : Velocity3D :=
  { p with xd := p.xd + q.xd, yd := p.yd + q.yd, zd := p.zd + q.zd }

/-- src/types/alvelocity3d.cpp:60-66 (`operator-=`). -/
noncomputable def subAssign (p q : Velocity3D) : Velocity3D :=
  { p with xd := p.xd - q.xd, yd := p.yd - q.yd, zd := p.zd - q.zd }

/-- src/types/alvelocity3d.cpp:111-117 (`operator*=`). -/
noncomputable def smulAssign (p : Velocity3D) (v : ℝ) : Velocity3D :=
  { p with xd := p.xd * v, yd := p.yd * v, zd := p.zd * v }

/-- src/types/alvelocity3d.cpp:86-94 (`operator/`). -/
noncomputable def div (p : Velocity3D) (v : ℝ) : Res Velocity3D :=
  if v = 0 then .throws else .ok (smul p (1 / v))

/-- src/types/alvelocity3d.cpp:119-128 (`operator/=`). -/
noncomputable def divAssign (p : Velocity3D) (v : ℝ) : Res Velocity3D :=
  if v = 0 then .throws else .ok (smulAssign p (1 / v))

/-- src/types/alvelocity3d.cpp:97-102 (`operator==`). -/
def eq (p q : Velocity3D) : Prop := p.xd = q.xd ∧ p.yd = q.yd ∧ p.zd = q.zd

/-- src/types/alvelocity3d.cpp:69-76 (`isNear`). -/
def isNear (p q : Velocity3D) (eps : ℝ) : Prop :=
  |p.xd - q.xd| ≤ eps ∧ |p.yd - q.yd| ≤ eps ∧ |p.zd - q.zd| ≤ eps

/-- src/types/alvelocity3d.cpp:163-169 (`norm`). -/
noncomputable def norm (p : Velocity3D) : ℝ := √(p.xd * p.xd + p.yd * p.yd + p.zd * p.zd)

/-- src/types/alvelocity3d.cpp:172-181 (`normalize`). -/
noncomputable def normalize (p : Velocity3D) : Res Velocity3D :=
  if norm p = 0 then .throws else div p (norm p)

end Velocity3D

/-! ### Velocity6D -/

/-- almath/types/alvelocity6d.h:25-38 (fields). -/
@[ext] structure Velocity6D where
  xd : ℝ
  yd : ℝ
  zd : ℝ
  wxd : ℝ
  wyd : ℝ
  wzd : ℝ

namespace Velocity6D

/-- src/types/alvelocity6d.cpp:15-21 (default constructor). -/
noncomputable def zero : Velocity6D := ⟨0, 0, 0, 0, 0, 0⟩

/-- src/types/alvelocity6d.cpp:45-70 (constructor from a vector). -/
noncomputable def ofVector (l : List ℝ) : Res Velocity6D :=
  if l.length = 6 then do return ⟨← Res.read l 0, ← Res.read l 1, ← Res.read l 2, ← Res.read l 3, ← Res.read l 4, ← Res.read l 5⟩
  else return ⟨0, 0, 0, 0, 0, 0⟩

/-- src/types/alvelocity6d.cpp:146-164 (both `toVector` overloads). -/
def toVector (p : Velocity6D) : List ℝ := [p.xd, p.yd, p.zd, p.wxd, p.wyd, p.wzd]

/-- src/types/alvelocity6d.cpp:166-174 (`writeToVector`: the fields written through an advancing iterator). -/
def writeToVector (p : Velocity6D) (st : List ℝ × ℕ) : Res (List ℝ × ℕ) :=
  Res.writeAll st [p.xd, p.yd, p.zd, p.wxd, p.wyd, p.wzd]

/-- almath/types/alvelocity6d.h:158-168 (`operator+`). -/
noncomputable def add (p q : Velocity6D) : Velocity6D :=
  ⟨p.xd + q.xd, p.yd + q.yd, p.zd + q.zd, p.wxd + q.wxd, p.wyd + q.wyd, p.wzd + q.wzd⟩

/-- almath/types/alvelocity6d.h:173-183 (binary `operator-`). -/
noncomputable def sub (p q : Velocity6D) : Velocity6D :=
  ⟨p.xd - q.xd, p.yd - q.yd, p.zd - q.zd, p.wxd - q.wxd, p.wyd - q.wyd, p.wzd - q.wzd⟩

/-- almath/types/alvelocity6d.h:195-198 (unary `operator-`). -/
noncomputable def neg (p : Velocity6D) : Velocity6D :=
  ⟨-p.xd, -p.yd, -p.zd, -p.wxd, -p.wyd, -p.wzd⟩

/-- almath/types/alvelocity6d.h:204-214, src/types/alvelocity6d.cpp:176-181
(`operator*` with a scalar on either side). -/
noncomputable def smul (p : Velocity6D) (v : ℝ) : Velocity6D :=
  ⟨p.xd * v, p.yd * v, p.zd * v, p.wxd * v, p.wyd * v, p.wzd * v⟩

/-- src/types/alvelocity6d.cpp:100-110 (`operator*=`). -/
noncomputable def smulAssign (p : Velocity6D) (v : ℝ) : Velocity6D :=
  { p with xd := p.xd * v, yd := p.yd * v, zd := p.zd * v,
           wxd := p.wxd * v, wyd := p.wyd * v, wzd := p.wzd * v }

/-- src/types/alvelocity6d.cpp:72-80 (`operator/`). -/
noncomputable def div (p : Velocity6D) (v : ℝ) : Res Velocity6D :=
  if v = 0 then .throws else .ok (smul p (1 / v))

/-- src/types/alvelocity6d.cpp:113-122 (`operator/=`). -/
noncomputable def divAssign (p : Velocity6D) (v : ℝ) : Res Velocity6D :=
  if v = 0 then .throws else .ok (smulAssign p (1 / v))

/-- src/types/alvelocity6d.cpp:83-91 (`operator==`). -/
def eq (p q : Velocity6D) : Prop :=
  p.xd = q.xd ∧ p.yd = q.yd ∧ p.zd = q.zd ∧ p.wxd = q.wxd ∧ p.wyd = q.wyd ∧ p.wzd = q.wzd

/-- src/types/alvelocity6d.cpp:124-134 (`isNear`). -/
def isNear (p q : Velocity6D) (eps : ℝ) : Prop :=
  |p.xd - q.xd| ≤ eps ∧ |p.yd - q.yd| ≤ eps ∧ |p.zd - q.zd| ≤ eps ∧
  |p.wxd - q.wxd| ≤ eps ∧ |p.wyd - q.wyd| ≤ eps ∧ |p.wzd - q.wzd| ≤ eps

/-- src/types/alvelocity6d.cpp:184-193 (`norm`). -/
noncomputable def norm (p : Velocity6D) : ℝ :=
  √(p.xd * p.xd + p.yd * p.yd + p.zd * p.zd + p.wxd * p.wxd + p.wyd * p.wyd + p.wzd * p.wzd)

/-- src/types/alvelocity6d.cpp:196-205 (`normalize`). -/
noncomputable def normalize (p : Velocity6D) : Res Velocity6D :=
  if norm p = 0 then .throws else div p (norm p)

end Velocity6D

/-! ### Rotation3D -/

/-- almath/types/alrotation3d.h:22-29 (fields: roll, pitch, yaw). -/
@[ext] structure Rotation3D where
  wx : ℝ
  wy : ℝ
  wz : ℝ

namespace Rotation3D

/-- src/types/alrotation3d.cpp:15-18 (default constructor). -/
noncomputable def zero : Rotation3D := ⟨0, 0, 0⟩

/-- src/types/alrotation3d.cpp:33-52 (constructor from a vector). -/
noncomputable def ofVector (l : List ℝ) : Res Rotation3D :=
  if l.length = 3 then do return ⟨← Res.read l 0, ← Res.read l 1, ← Res.read l 2⟩
  else return ⟨0, 0, 0⟩

/-- src/types/alrotation3d.cpp:130-143 (both `toVector` overloads). -/
def toVector (p : Rotation3D) : List ℝ := [p.wx, p.wy, p.wz]

/-- almath/types/alrotation3d.h:118-124 (`operator+`). -/
noncomputable def add (p q : Rotation3D) : Rotation3D := ⟨p.wx + q.wx, p.wy + q.wy, p.wz + q.wz⟩

/-- almath/types/alrotation3d.h:130-136 (binary `operator-`). -/
noncomputable def sub (p q : Rotation3D) : Rotation3D := ⟨p.wx - q.wx, p.wy - q.wy, p.wz - q.wz⟩

/-- almath/types/alrotation3d.h:166-169 (`operator*` with a scalar). -/
noncomputable def smul (p : Rotation3D) (v : ℝ) : Rotation3D := ⟨p.wx * v, p.wy * v, p.wz * v⟩

/-- src/types/alrotation3d.cpp:54-60 (`operator+=`). -/
noncomputable def addAssign (p q : Rotation3D) : Rotation3D :=
  { p with wx := p.wx + q.wx, wy := p.wy + q.wy, wz := p.wz + q.wz }

/-- src/types/alrotation3d.cpp:63-69 (`operator-=`). -/
noncomputable def subAssign (p q : Rotation3D) : Rotation3D :=
  { p with wx := p.wx - q.wx, wy := p.wy - q.wy, wz := p.wz - q.wz }

/-- src/types/alrotation3d.cpp:94-100 (`operator*=`). -/
noncomputable def smulAssign (p : Rotation3D) (v : ℝ) : Rotation3D :=
  { p with wx := p.wx * v, wy := p.wy * v, wz := p.wz * v }

/-- src/types/alrotation3d.cpp:84-92 (`operator/`). -/
noncomputable def div (p : Rotation3D) (v : ℝ) : Res Rotation3D :=
  if v = 0 then .throws else .ok (smul p (1 / v))

/-- src/types/alrotation3d.cpp:102-111 (`operator/=`). -/
noncomputable def divAssign (p : Rotation3D) (v : ℝ) : Res Rotation3D :=
  if v = 0 then .throws else .ok (smulAssign p (1 / v))

/-- src/types/alrotation3d.cpp:72-77 (`operator==`). -/
def eq (p q : Rotation3D) : Prop := p.wx = q.wx ∧ p.wy = q.wy ∧ p.wz = q.wz

/-- src/types/alrotation3d.cpp:114-121 (`isNear`). -/
def isNear (p q : Rotation3D) (eps : ℝ) : Prop :=
  |p.wx - q.wx| ≤ eps ∧ |p.wy - q.wy| ≤ eps ∧ |p.wz - q.wz| ≤ eps

/-- src/types/alrotation3d.cpp:146-150 (`norm`). -/
noncomputable def norm (p : Rotation3D) : ℝ := √(p.wx * p.wx + p.wy * p.wy + p.wz * p.wz)

end Rotation3D

/-! ### Pose2D -/

/-- almath/types/alpose2d.h:26-32 (fields). -/
@[ext] structure Pose2D where
  x : ℝ
  y : ℝ
  theta : ℝ

namespace Pose2D

/-- src/types/alpose2d.cpp:14 (default constructor). -/
noncomputable def one : Pose2D := ⟨0, 0, 0⟩

/-- src/types/alpose2d.cpp:26-45 (constructor from a vector). -/
noncomputable def ofVector (l : List ℝ) : Res Pose2D :=
  if l.length = 3 then do return ⟨← Res.read l 0, ← Res.read l 1, ← Res.read l 2⟩
  else return ⟨0, 0, 0⟩

/-- src/types/alpose2d.cpp:133-146 (both `toVector` overloads). -/
def toVector (p : Pose2D) : List ℝ := [p.x, p.y, p.theta]

/-- src/types/alpose2d.cpp:148-153 (`writeToVector`: the fields written through an advancing iterator). -/
def writeToVector (p : Pose2D) (st : List ℝ × ℕ) : Res (List ℝ × ℕ) :=
  Res.writeAll st [p.x, p.y, p.theta]

/-- almath/types/alpose2d.h:131-134 (`operator+`). -/
noncomputable def add (p q : Pose2D) : Pose2D := ⟨p.x + q.x, p.y + q.y, p.theta + q.theta⟩

/-- almath/types/alpose2d.h:140-143 (binary `operator-`). -/
noncomputable def sub (p q : Pose2D) : Pose2D := ⟨p.x - q.x, p.y - q.y, p.theta - q.theta⟩

/-- almath/types/alpose2d.h:156-159 (unary `operator-`). -/
noncomputable def neg (p : Pose2D) : Pose2D := ⟨-p.x, -p.y, -p.theta⟩

/-- almath/types/alpose2d.h:207-210 (`operator*` with a scalar). -/
noncomputable def smul (p : Pose2D) (v : ℝ) : Pose2D := ⟨p.x * v, p.y * v, p.theta * v⟩

/-- src/types/alpose2d.cpp:61-67 (`operator+=`). -/
noncomputable def addAssign (p q : Pose2D) : Pose2D :=
  { p with x := p.x + q.x, y := p.y + q.y, theta := p.theta + q.theta }

/-- src/types/alpose2d.cpp:69-75 (`operator-=`). -/
noncomputable def subAssign (p q : Pose2D) : Pose2D :=
  { p with x := p.x - q.x, y := p.y - q.y, theta := p.theta - q.theta }

/-- src/types/alpose2d.cpp:109-115 (`operator*=` with a scalar). -/
noncomputable def smulAssign (p : Pose2D) (v : ℝ) : Pose2D :=
  { p with x := p.x * v, y := p.y * v, theta := p.theta * v }

/-- src/types/alpose2d.cpp:99-107 (`operator/`). -/
noncomputable def div (p : Pose2D) (v : ℝ) : Res Pose2D :=
  if v = 0 then .throws else .ok (smul p (1 / v))

/-- src/types/alpose2d.cpp:117-126 (`operator/=`). -/
noncomputable def divAssign (p : Pose2D) (v : ℝ) : Res Pose2D :=
  if v = 0 then .throws else .ok (smulAssign p (1 / v))

/-- src/types/alpose2d.cpp:77-82 (`operator==`). -/
def eq (p q : Pose2D) : Prop := p.x = q.x ∧ p.y = q.y ∧ p.theta = q.theta

/-- src/types/alpose2d.cpp:181-188 (`isNear`). -/
def isNear (p q : Pose2D) (eps : ℝ) : Prop :=
  |p.x - q.x| ≤ eps ∧ |p.y - q.y| ≤ eps ∧ |p.theta - q.theta| ≤ eps

/-- src/types/alpose2d.cpp:166-171 (`distanceSquared`, translation only). -/
noncomputable def distanceSquared (p q : Pose2D) : ℝ :=
  (p.x - q.x) * (p.x - q.x) + (p.y - q.y) * (p.y - q.y)

/-- src/types/alpose2d.cpp:173-178 (`distance`). -/
noncomputable def distance (p q : Pose2D) : ℝ := √(distanceSquared p q)

/-- almath/types/alpose2d.h:302-305 (`norm`). -/
noncomputable def norm (p : Pose2D) : ℝ := √(p.x * p.x + p.y * p.y)

/-- src/types/alpose2d.cpp:155-164 (`normalize`; the guard is `|norm| < 1e-4`,
so the two divisions never divide by zero). -/
noncomputable def normalize (p : Pose2D) : Res Pose2D :=
  if |norm p| < 1e-4 then .throws else .ok ⟨p.x / norm p, p.y / norm p, p.theta⟩

/-- almath/types/alpose2d.h:323-326 (`getAngle`). -/
noncomputable def getAngle (p : Pose2D) : ℝ := atan2 p.y p.x

/-- src/types/alpose2d.cpp:239-246 (`fromPolarCoordinates`). -/
noncomputable def fromPolar (r a : ℝ) : Pose2D := ⟨r * Real.cos a, r * Real.sin a, a⟩

/-- almath/types/alpose2d.h:183-190 (`operator*`, composition). -/
noncomputable def mul (p q : Pose2D) : Pose2D :=
  ⟨p.x + Real.cos p.theta * q.x - Real.sin p.theta * q.y,
   p.y + Real.sin p.theta * q.x + Real.cos p.theta * q.y,
   p.theta + q.theta⟩

/-- src/types/alpose2d.cpp:47-59 (the statements of `operator*=`). `rhs` is what a
read through the reference `pPos2` yields in a given state of `*this`: constant when
the operands are distinct objects, the identity when they are the same object. -/
noncomputable def mulAssignBody (self : Pose2D) (rhs : Pose2D → Pose2D) : Pose2D :=
  let x0 := (rhs self).x
  let y0 := (rhs self).y
  let cs := Real.cos self.theta
  let sn := Real.sin self.theta
  let s := { self with x := self.x + (cs * x0 - sn * y0) }
  let s := { s with y := s.y + (sn * x0 + cs * y0) }
  { s with theta := s.theta + (rhs s).theta }

/-- src/types/alpose2d.cpp:47-59 (`a *= b`, distinct objects). -/
noncomputable def mulAssign (p q : Pose2D) : Pose2D := mulAssignBody p (fun _ => q)

/-- src/types/alpose2d.cpp:47-59 (`a *= a`). -/
noncomputable def mulAssignSelf (p : Pose2D) : Pose2D := mulAssignBody p id

/-- src/types/alpose2d.cpp:203-213 (`pose2dInvertInPlace`, statement by statement). -/
noncomputable def invertInPlace (p : Pose2D) : Pose2D :=
  let p := { p with theta := -p.theta }
  let c := Real.cos p.theta
  let s := Real.sin p.theta
  let x := p.x
  let p := { p with x := -(x * c - p.y * s) }
  { p with y := -(p.y * c + x * s) }

/-- src/types/alpose2d.cpp:195-201 (`pose2DInverse` with an out-parameter whose
previous content is `o`; `p` is what the reference `pIn` reads in a given state of
`pOut`). -/
noncomputable def inverseOutBody (p : Pose2D → Pose2D) (o : Pose2D) : Pose2D :=
  let o := p o
  invertInPlace o

/-- src/types/alpose2d.cpp:190-193, 225-230 (`inverse`, `pose2DInverse`). -/
noncomputable def inverse (p : Pose2D) : Pose2D := inverseOutBody (fun _ => p) one

/-- src/types/alpose2d.cpp:232-237 (`pinv`). -/
noncomputable def pinv (p : Pose2D) : Pose2D := invertInPlace p

/-- src/types/alpose2d.cpp:128-131, 215-223 (`diff`, `pose2dDiff`). -/
noncomputable def diff (p q : Pose2D) : Pose2D := mulAssign (invertInPlace p) q

/-- src/tools/almath.cpp:327-334 (`operator*(Pose2D, Position2D)`). -/
noncomputable def act (p : Pose2D) (q : Position2D) : Position2D :=
  ⟨p.x + Real.cos p.theta * q.x - Real.sin p.theta * q.y,
   p.y + Real.sin p.theta * q.x + Real.cos p.theta * q.y⟩

/-- src/tools/almath.cpp:110-120 (`changeReferencePose2D`, input and output distinct). -/
noncomputable def changeReference (t : ℝ) (p : Pose2D) : Pose2D :=
  ⟨Real.cos t * p.x - Real.sin t * p.y, Real.sin t * p.x + Real.cos t * p.y, p.theta⟩

/-- src/tools/almath.cpp:123-134 (`changeReferencePose2DInPlace`). -/
noncomputable def changeReferenceInPlace (t : ℝ) (p : Pose2D) : Pose2D :=
  let xOld := p.x
  let yOld := p.y
  let p := { p with x := Real.cos t * xOld - Real.sin t * yOld }
  { p with y := Real.sin t * xOld + Real.cos t * yOld }

/-- src/tools/almath.cpp:110-120 called with the same object as input and
output: the second statement reads the already overwritten `x`. -/
noncomputable def changeReferenceAliased (t : ℝ) (p : Pose2D) : Pose2D :=
  let p := { p with x := Real.cos t * p.x - Real.sin t * p.y }
  let p := { p with y := Real.sin t * p.x + Real.cos t * p.y }
  { p with theta := p.theta }

end Pose2D

/-! ### Conversions between the vector types -/

/-- src/tools/almath.cpp:137-140 (`position3DFromPosition6D`). -/
def position3DFromPosition6D (p : Position6D) : Position3D := ⟨p.x, p.y, p.z⟩

/-- src/tools/almath.cpp:143-152 (`position6DFromVelocity6D`). -/
def position6DFromVelocity6D (v : Velocity6D) : Position6D :=
  ⟨v.xd, v.yd, v.zd, v.wxd, v.wyd, v.wzd⟩

/-- src/tools/almath.cpp:186-197 (`operator*(float, Position6D)`). -/
noncomputable def velocity6DOfPosition6D (k : ℝ) (p : Position6D) : Velocity6D :=
  ⟨k * p.x, k * p.y, k * p.z, k * p.wx, k * p.wy, k * p.wz⟩

/-- src/tools/almath.cpp:199-207 (`operator*(float, Position3D)`). -/
noncomputable def velocity3DOfPosition3D (k : ℝ) (p : Position3D) : Velocity3D :=
  ⟨k * p.x, k * p.y, k * p.z⟩

/-- src/tools/almath.cpp:231-243 (`position2DFromPose2D` and in-place variant). -/
def position2DFromPose2D (p : Pose2D) : Position2D := ⟨p.x, p.y⟩

/-- src/tools/almath.cpp:246-268 (`position6DFromPose2D` and in-place variant). -/
noncomputable def position6DFromPose2D (p : Pose2D) : Position6D := ⟨p.x, p.y, 0, 0, 0, p.theta⟩

/-- src/tools/almath.cpp:271-291 (`position6DFromPosition3D` and in-place variant). -/
noncomputable def position6DFromPosition3D (p : Position3D) : Position6D :=
  ⟨p.x, p.y, p.z, 0, 0, 0⟩

/-- src/tools/almath.cpp:293-306 (`pose2DFromPosition6D` and in-place variant). -/
def pose2DFromPosition6D (p : Position6D) : Pose2D := ⟨p.x, p.y, p.wz⟩

/-- src/tools/almath.cpp:309-324 (`pose2DFromPosition2D` and in-place variant). -/
def pose2DFromPosition2D (p : Position2D) (a : ℝ) : Pose2D := ⟨p.x, p.y, a⟩

end AlMath
