import Verif.Model.FloatPose

/-!
Model of `src/tools/aldubinscurve.cpp` with rounding, overflow, NaN and infinities. The functions of `<cmath>` are parameters;
`sin` and `cos` (not qualified by `std::` in the code) are taken to be the functions on `float`. Same simplifications as in
Model/Float32.lean and Model/Dubins.lean.
-/

namespace AlMath.F32

/-- src/tools/aldubinscurve.cpp:20-32 (`dubinsTangent`). -/
structure DubinsTangent where
  x : F32 := fin 0
  y : F32 := fin 0
  isLeft : Bool := false

/-- src/tools/aldubinscurve.cpp:242-275 (the four elements of `pCircles`). -/
structure DubinsCircles where
  c0 : Position2D
  c1 : Position2D
  c2 : Position2D
  c3 : Position2D

/-- src/tools/aldubinscurve.cpp:100-104 (`tangentLength`). -/
noncomputable def tangentLength (t : DubinsTangent × DubinsTangent) : F32 :=
  add (mul (sub t.1.x t.2.x) (sub t.1.x t.2.x)) (mul (sub t.1.y t.2.y) (sub t.1.y t.2.y))

open Classical in
/-- src/tools/aldubinscurve.cpp:98-111 (loop of `xComputeBestTangent` over the remaining pairs; state: shortest length so far
and best pair). -/
noncomputable def bestLoop : List (DubinsTangent × DubinsTangent) → F32 → DubinsTangent × DubinsTangent →
    DubinsTangent × DubinsTangent
  | [], _, best => best
  | t :: ts, shortest, best =>
    let len := tangentLength t
    if lt len shortest then bestLoop ts len t else bestLoop ts shortest best

/-- src/tools/aldubinscurve.cpp:78-112 (`xComputeBestTangent`), starting from `FLT_MAX`. The best pair is default constructed by
the caller (lines 309-310). -/
noncomputable def xComputeBestTangent (ts : List (DubinsTangent × DubinsTangent)) : DubinsTangent × DubinsTangent :=
  bestLoop ts (fin (2 ^ 128 - 2 ^ 104)) ({}, {})

/-- src/tools/aldubinscurve.cpp:115-172 (`xComputeTangent`). -/
noncomputable def xComputeTangent (c1 c2 : Position2D) (sens : ℤ) (r : F32) (sameSide : Bool) : DubinsTangent × DubinsTangent :=
  let dist := sqrt (add (mul (sub c1.x c2.x) (sub c1.x c2.x)) (mul (sub c1.y c2.y) (sub c1.y c2.y)))
  let rd := div r dist
  let cosTheta := if sameSide then fin 0 else div (mul r (fin 2)) dist
  let sinTheta := if sameSide then fin 1 else sqrt (sub (fin 1) (mul cosTheta cosTheta))
  let slope : Position2D :=
    ⟨add (mul cosTheta (sub c2.x c1.x)) (mul (mul (fin sens) sinTheta) (sub c2.y c1.y)),
     add (mul (mul (fin (-sens)) sinTheta) (sub c2.x c1.x)) (mul cosTheta (sub c2.y c1.y))⟩
  let p1 : DubinsTangent := { x := add c1.x (mul rd slope.x), y := add c1.y (mul rd slope.y) }
  let p2 : DubinsTangent :=
    if sameSide then { x := add c2.x (mul rd slope.x), y := add c2.y (mul rd slope.y) }
    else { x := sub c2.x (mul rd slope.x), y := sub c2.y (mul rd slope.y) }
  (p1, p2)

/-- src/tools/aldubinscurve.cpp:175-239 (`xGetTangents`). -/
noncomputable def xGetTangents (c : DubinsCircles) (r : F32) : List (DubinsTangent × DubinsTangent) :=
  let t0 := xComputeTangent c.c0 c.c2 1 r true
  let t1 := xComputeTangent c.c0 c.c3 1 r false
  let t2 := xComputeTangent c.c1 c.c2 (-1) r false
  let t3 := xComputeTangent c.c1 c.c3 (-1) r true
  [({ t0.1 with isLeft := true }, { t0.2 with isLeft := true }),
   ({ t1.1 with isLeft := true }, { t1.2 with isLeft := false }),
   ({ t2.1 with isLeft := false }, { t2.2 with isLeft := true }),
   ({ t3.1 with isLeft := false }, { t3.2 with isLeft := false })]

/-- src/tools/aldubinscurve.cpp:242-275 (`xGetCircles`). -/
noncomputable def xGetCircles (m : Libm) (pose : Pose2D) (r : F32) : DubinsCircles :=
  ⟨⟨fin 0, r⟩, ⟨fin 0, neg r⟩,
   ⟨sub pose.x (mul (m.sin pose.theta) r), add pose.y (mul (m.cos pose.theta) r)⟩,
   ⟨add pose.x (mul (m.sin pose.theta) r), sub pose.y (mul (m.cos pose.theta) r)⟩⟩

open Classical in
/-- src/tools/aldubinscurve.cpp:333-347 (first check of the angle of rotation: the heading of the first pose). -/
noncomputable def dubinsHeading1 (isLeft : Bool) (angle1 : F32) : F32 :=
  let t := if isLeft ∧ lt angle1 (fin 0) then add (mul (fin 2) (fin piF)) angle1 else angle1
  if ¬ isLeft ∧ lt (fin 0) angle1 then add (mul (fin 2) (fin piF)) angle1 else t

open Classical in
/-- src/tools/aldubinscurve.cpp:348-357 (second check of the angle of rotation: the heading of the second pose, from the
headings of the segment and of the target). -/
noncomputable def dubinsHeading2 (isLeft : Bool) (theta target : F32) : F32 :=
  let angle2 := sub target theta
  let t := if isLeft ∧ lt angle2 (fin 0) then add (sub (mul (fin 2) (fin piF)) angle2) target else theta
  if ¬ isLeft ∧ lt (fin 0) angle2 then add (sub (mul (fin 2) (fin piF)) angle2) target else t

open Classical in
/-- src/tools/aldubinscurve.cpp:278-360 (`getDubinsSolutions`). -/
noncomputable def getDubinsSolutions (m : Libm) (target : Pose2D) (r : F32) : Res (List Pose2D) :=
  let dist := sqrt (add (mul target.x target.x) (mul target.y target.y))
  if lt dist (mul (fin 4) r) then .throws
  else
    let best := xComputeBestTangent (xGetTangents (xGetCircles m target r) r)
    let theta := m.atan2 (sub best.2.y best.1.y) (sub best.2.x best.1.x)
    .ok [⟨best.1.x, best.1.y, dubinsHeading1 best.1.isLeft theta⟩,
      ⟨best.2.x, best.2.y, dubinsHeading2 best.2.isLeft theta target.theta⟩, target]

end AlMath.F32
