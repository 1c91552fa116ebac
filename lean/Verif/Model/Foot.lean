import Verif.Model.Helpers

/-!
Model of `src/tools/avoidfootcollision.cpp`. Boxes are lists of vertices of any length.
-/

namespace AlMath

/-- src/tools/avoidfootcollision.cpp:31-80 (`xIntersectionSegment2D`). The inputs are passed
by value; `c` is the previous content of the output, kept when the result is false. The
three divisions are guarded by the comparisons with the tolerance. -/
noncomputable def xIntersectionSegment2D (xA1 yA1 xA2 yA2 xB1 yB1 xB2 yB2 : ℝ)
    (c : Position2D) : Bool × Position2D :=
  let gxA := xA2 - xA1
  let gyA := yA2 - yA1
  let gxB := xB2 - xB1
  let gyB := yB2 - yB1
  let tol : ℝ := 0.00001
  let den := gxB * gyA - gxA * gyB
  if |den| < tol then (false, c)
  else
    let rB := (gyA * (xA1 - xB1) + gxA * (yB1 - yA1)) / den
    if rB < 0 ∨ rB > 1 then (false, c)
    else if |gxA| < tol ∧ |gyA| < tol then (false, c)
    else
      let rA := if |gxA| < tol then (yB1 - yA1 + rB * gyB) / gyA
                else (xB1 - xA1 + rB * gxB) / gxA
      if rA < 0 ∨ rA > 1 then (false, c)
      else (true, ⟨xA1 + rA * gxA, yA1 + rA * gyA⟩)

/-- src/tools/avoidfootcollision.cpp:82-95 (`intersectionSegment2D`). -/
noncomputable def intersectionSegment2D (a1 a2 b1 b2 c : Position2D) : Bool × Position2D :=
  xIntersectionSegment2D a1.x a1.y a2.x a2.y b1.x b1.y b2.x b2.y c

/-- src/tools/avoidfootcollision.cpp:126-145 (loop of `xPointsInsideBox` over the remaining
values of `i`). -/
noncomputable def insideLoop (box : List Position2D) (p : Position2D) : List ℕ → Res Bool
  | [] => .ok true
  | i :: is =>
    let j := if i + 1 = box.length then 0 else i + 1
    (Res.read box j).bind fun vj =>
    (Res.read box i).bind fun vi =>
    let dx := vj.x - vi.x
    let dy := vj.y - vi.y
    let tx := p.x - vi.x
    let ty := p.y - vi.y
    let det := dx * ty - dy * tx
    if det ≥ 0 then .ok false else insideLoop box p is

/-- src/tools/avoidfootcollision.cpp:109-146 (`xPointsInsideBox`). -/
noncomputable def xPointsInsideBox (box : List Position2D) (p : Position2D) : Res Bool :=
  insideLoop box p (List.range box.length)

/-- src/tools/avoidfootcollision.cpp:160-169 (inner loop of `areTwoBoxesInCollision` over the
remaining values of `ib`). The intersection point is not used by the caller. -/
noncomputable def sidesLoopB (a b : List Position2D) (ia : ℕ) : List ℕ → Res Bool
  | [] => .ok false
  | ib :: ibs =>
    (Res.read a ia).bind fun a1 =>
    (Res.read a ((ia + 1) % a.length)).bind fun a2 =>
    (Res.read b ib).bind fun b1 =>
    (Res.read b ((ib + 1) % b.length)).bind fun b2 =>
    if (intersectionSegment2D a1 a2 b1 b2 Position2D.zero).1 then .ok true
    else sidesLoopB a b ia ibs

/-- src/tools/avoidfootcollision.cpp:158-170 (outer loop of `areTwoBoxesInCollision` over the
remaining values of `ia`). -/
noncomputable def sidesLoopA (a b : List Position2D) : List ℕ → Res Bool
  | [] => .ok false
  | ia :: ias =>
    (sidesLoopB a b ia (List.range b.length)).bind fun r =>
    if r then .ok true else sidesLoopA a b ias

/-- src/tools/avoidfootcollision.cpp:149-188 (`areTwoBoxesInCollision`). -/
noncomputable def areTwoBoxesInCollision (a b : List Position2D) : Res Bool :=
  (sidesLoopA a b (List.range a.length)).bind fun r =>
  if r then .ok true
  else
    (if a.length > 0 then (Res.read a 0).bind fun a0 => xPointsInsideBox b a0
     else .ok false).bind fun r =>
    if r then .ok true
    else
      (if b.length > 0 then (Res.read b 0).bind fun b0 => xPointsInsideBox a b0
       else .ok false).bind fun r =>
      if r then .ok true else .ok false

/-- src/tools/avoidfootcollision.cpp:192-203 (`computeBox`; the output is cleared, so its
previous content does not matter; input and output are distinct vectors). -/
noncomputable def computeBox (box : List Position2D) (pose : Pose2D) : List Position2D :=
  box.map fun v => pose.act v

/-- src/tools/avoidfootcollision.cpp:214-217 (local variables of `dichotomie`, with the
angle written into the move). -/
@[ext] structure DichoState where
  min : ℝ
  max : ℝ
  best : ℝ
  pose : Pose2D

/-- src/tools/avoidfootcollision.cpp:221-237 (one turn of the loop of `dichotomie`). -/
noncomputable def dichoStep (fixed moving : List Position2D) (s : DichoState) :
    Res DichoState :=
  let middle := (s.min + s.max) * 0.5
  let pose := { s.pose with theta := middle }
  (areTwoBoxesInCollision fixed (computeBox moving pose)).bind fun r =>
  if r then .ok { s with max := middle, pose := pose }
  else .ok { s with best := middle, min := middle, pose := pose }

/-- src/tools/avoidfootcollision.cpp:221-237 (loop of `dichotomie`, `n` turns). -/
noncomputable def dichoLoop (fixed moving : List Position2D) : ℕ → DichoState → Res DichoState
  | 0, s => .ok s
  | n + 1, s => (dichoStep fixed moving s).bind fun s => dichoLoop fixed moving n s

/-- src/tools/avoidfootcollision.cpp:206-239 (`dichotomie`: the new value of the move). -/
noncomputable def dichotomie (fixed moving : List Position2D) (pose : Pose2D) : Res Pose2D :=
  (dichoLoop fixed moving 5 ⟨0, pose.theta, 0, pose⟩).bind fun s =>
  .ok { s.pose with theta := s.best }

/-- src/tools/avoidfootcollision.cpp:245-276 (`avoidFootCollision`: the flag and the new
value of the move). -/
noncomputable def avoidFootCollision (left right : List Position2D) (isLeftSupport : Bool)
    (move : Pose2D) : Res (Bool × Pose2D) :=
  if isLeftSupport then
    (areTwoBoxesInCollision left (computeBox right move)).bind fun r =>
    if r then (dichotomie left right move).bind fun m => .ok (true, m)
    else .ok (false, move)
  else
    (areTwoBoxesInCollision right (computeBox left move)).bind fun r =>
    if r then (dichotomie right left move).bind fun m => .ok (true, m)
    else .ok (false, move)

/-- src/tools/avoidfootcollision.cpp:279-314 (`clipFootWithEllipse`: the flag and the new value
of the move). A zero half-axis makes the first quotients infinite or NaN: modelled as
undefined. (The last quotient has a positive denominator then.) -/
noncomputable def clipFootWithEllipse (maxX maxY : ℝ) (move : Pose2D) : Res (Bool × Pose2D) :=
  let a := |maxX|
  let b := |maxY|
  let a2 := a ^ 2
  let b2 := b ^ 2
  if a2 = 0 ∨ b2 = 0 then .ub
  else
    let norm := move.x * move.x / a2 + move.y * move.y / b2
    if norm < 1.00001 then .ok (false, move)
    else
      let theta := atan2 move.y move.x
      let c := Real.cos theta
      let s := Real.sin theta
      let t := (a * b) / √(b2 * c * c + a2 * s * s)
      .ok (true, { move with x := t * c, y := t * s })

end AlMath
