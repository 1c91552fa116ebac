import Verif.Model.Helpers

/-!
Model of `src/tools/aldubinscurve.cpp`.

The vectors of fixed size created by `getDubinsSolutions` (four circles, four pairs of
tangent points) are modelled by structures and pairs, so the size checks at the start of
the helpers, which cannot fail when called from `getDubinsSolutions`, are left out.
-/

namespace AlMath

/-- src/tools/aldubinscurve.cpp:20-32 (`dubinsTangent`). -/
@[ext] structure DubinsTangent where
  x : ℝ := 0
  y : ℝ := 0
  isLeft : Bool := false

/-- src/tools/aldubinscurve.cpp:242-275 (the four elements of `pCircles`). -/
structure DubinsCircles where
  c0 : Position2D
  c1 : Position2D
  c2 : Position2D
  c3 : Position2D

/-- C++ `FLT_MAX`, used at src/tools/aldubinscurve.cpp:95. -/
def fltMax : ℝ := 2 ^ 128 - 2 ^ 104

/-- src/tools/aldubinscurve.cpp:94-111 (loop of `xComputeBestTangent` over the remaining
pairs; state: shortest length so far and best pair). -/
noncomputable def bestLoop : List (DubinsTangent × DubinsTangent) → ℝ →
    DubinsTangent × DubinsTangent → DubinsTangent × DubinsTangent
  | [], _, best => best
  | t :: ts, shortest, best =>
    let len := (t.1.x - t.2.x) * (t.1.x - t.2.x) + (t.1.y - t.2.y) * (t.1.y - t.2.y)
    if len < shortest then bestLoop ts len t else bestLoop ts shortest best

/-- src/tools/aldubinscurve.cpp:78-112 (`xComputeBestTangent`). The best pair is default
constructed by the caller (lines 309-310). -/
noncomputable def xComputeBestTangent (ts : List (DubinsTangent × DubinsTangent)) :
    DubinsTangent × DubinsTangent :=
  bestLoop ts fltMax ({}, {})

/-- src/tools/aldubinscurve.cpp:115-172 (`xComputeTangent`). Division by a zero distance
and the square root of a negative number (NaN in C++) are modelled as undefined. -/
noncomputable def xComputeTangent (c1 c2 : Position2D) (sens : ℤ) (r : ℝ) (sameSide : Bool) :
    Res (DubinsTangent × DubinsTangent) :=
  let dist := √((c1.x - c2.x) * (c1.x - c2.x) + (c1.y - c2.y) * (c1.y - c2.y))
  if dist = 0 then .ub
  else
    let rd := r / dist
    let cosTheta := if sameSide then 0 else r * 2 / dist
    if ¬ sameSide ∧ 1 - cosTheta * cosTheta < 0 then .ub
    else
      let sinTheta := if sameSide then 1 else √(1 - cosTheta * cosTheta)
      let slope : Position2D :=
        ⟨cosTheta * (c2.x - c1.x) + sens * sinTheta * (c2.y - c1.y),
         -sens * sinTheta * (c2.x - c1.x) + cosTheta * (c2.y - c1.y)⟩
      let p1 : DubinsTangent := { x := c1.x + rd * slope.x, y := c1.y + rd * slope.y }
      let p2 : DubinsTangent :=
        if sameSide then { x := c2.x + rd * slope.x, y := c2.y + rd * slope.y }
        else { x := c2.x - rd * slope.x, y := c2.y - rd * slope.y }
      .ok (p1, p2)

/-- src/tools/aldubinscurve.cpp:175-239 (`xGetTangents`). -/
noncomputable def xGetTangents (c : DubinsCircles) (r : ℝ) :
    Res (List (DubinsTangent × DubinsTangent)) :=
  (xComputeTangent c.c0 c.c2 1 r true).bind fun t0 =>
  (xComputeTangent c.c0 c.c3 1 r false).bind fun t1 =>
  (xComputeTangent c.c1 c.c2 (-1) r false).bind fun t2 =>
  (xComputeTangent c.c1 c.c3 (-1) r true).bind fun t3 =>
  .ok [({ t0.1 with isLeft := true }, { t0.2 with isLeft := true }),
       ({ t1.1 with isLeft := true }, { t1.2 with isLeft := false }),
       ({ t2.1 with isLeft := false }, { t2.2 with isLeft := true }),
       ({ t3.1 with isLeft := false }, { t3.2 with isLeft := false })]

/-- src/tools/aldubinscurve.cpp:242-275 (`xGetCircles`). -/
noncomputable def xGetCircles (pose : Pose2D) (r : ℝ) : DubinsCircles :=
  ⟨⟨0, r⟩, ⟨0, -r⟩,
   ⟨pose.x - Real.sin pose.theta * r, pose.y + Real.cos pose.theta * r⟩,
   ⟨pose.x + Real.sin pose.theta * r, pose.y - Real.cos pose.theta * r⟩⟩

/-- src/tools/aldubinscurve.cpp:278-360 (`getDubinsSolutions`). -/
noncomputable def getDubinsSolutions (target : Pose2D) (r : ℝ) : Res (List Pose2D) :=
  let dist := √(target.x * target.x + target.y * target.y)
  if dist < 4 * r then .throws
  else
    (xGetTangents (xGetCircles target r) r).bind fun tangents =>
    let best := xComputeBestTangent tangents
    let theta := atan2 (best.2.y - best.1.y) (best.2.x - best.1.x)
    let sol0 : Pose2D := ⟨best.1.x, best.1.y, theta⟩
    let sol1 : Pose2D := ⟨best.2.x, best.2.y, theta⟩
    let sol2 := target
    let angle1 := sol0.theta
    let sol0 := if best.1.isLeft ∧ angle1 < 0 then { sol0 with theta := 2 * piF + angle1 }
                else sol0
    let sol0 := if ¬ best.1.isLeft ∧ angle1 > 0 then { sol0 with theta := 2 * piF + angle1 }
                else sol0
    let angle2 := sol2.theta - sol1.theta
    let sol1 := if best.2.isLeft ∧ angle2 < 0
                then { sol1 with theta := 2 * piF - angle2 + sol2.theta } else sol1
    let sol1 := if ¬ best.2.isLeft ∧ angle2 > 0
                then { sol1 with theta := 2 * piF - angle2 + sol2.theta } else sol1
    .ok [sol0, sol1, sol2]

end AlMath
