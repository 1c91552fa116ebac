import Verif.Model.Float64
import Verif.Model.FloatPose

/-!
Model of `src/tools/avoidfootcollision.cpp` with rounding, overflow, NaN and infinities. The functions of `<cmath>` are
parameters. Same simplifications as in Model/Float32.lean; boxes are lists of vertices of any length, as in Model/Foot.lean.
-/

namespace AlMath.F32

open Classical in
/-- src/tools/avoidfootcollision.cpp:31-80 (`xIntersectionSegment2D`). The inputs are passed by value; `c` is the previous
content of the output, kept when the result is false. -/
noncomputable def xIntersectionSegment2D (xA1 yA1 xA2 yA2 xB1 yB1 xB2 yB2 : F32) (c : Position2D) : Bool × Position2D :=
  let gxA := sub xA2 xA1
  let gyA := sub yA2 yA1
  let gxB := sub xB2 xB1
  let gyB := sub yB2 yB1
  let tol := round 0.00001
  let den := sub (mul gxB gyA) (mul gxA gyB)
  if lt (abs den) tol then (false, c)
  else
    let rB := div (add (mul gyA (sub xA1 xB1)) (mul gxA (sub yB1 yA1))) den
    if lt rB (fin 0) ∨ lt (fin 1) rB then (false, c)
    else if lt (abs gxA) tol ∧ lt (abs gyA) tol then (false, c)
    else
      let rA := if lt (abs gxA) tol then div (add (sub yB1 yA1) (mul rB gyB)) gyA
                else div (add (sub xB1 xA1) (mul rB gxB)) gxA
      if lt rA (fin 0) ∨ lt (fin 1) rA then (false, c)
      else (true, ⟨add xA1 (mul rA gxA), add yA1 (mul rA gyA)⟩)

/-- src/tools/avoidfootcollision.cpp:82-95 (`intersectionSegment2D`). -/
noncomputable def intersectionSegment2D (a1 a2 b1 b2 c : Position2D) : Bool × Position2D :=
  xIntersectionSegment2D a1.x a1.y a2.x a2.y b1.x b1.y b2.x b2.y c

open Classical in
/-- src/tools/avoidfootcollision.cpp:126-145 (loop of `xPointsInsideBox` over the remaining values of `i`). -/
noncomputable def insideLoop (box : List Position2D) (p : Position2D) : List ℕ → Res Bool
  | [] => .ok true
  | i :: is =>
    let j := if i + 1 = box.length then 0 else i + 1
    (Res.read box j).bind fun vj =>
    (Res.read box i).bind fun vi =>
    let dx := sub vj.x vi.x
    let dy := sub vj.y vi.y
    let tx := sub p.x vi.x
    let ty := sub p.y vi.y
    let det := sub (mul dx ty) (mul dy tx)
    if le (fin 0) det then .ok false else insideLoop box p is

/-- src/tools/avoidfootcollision.cpp:109-146 (`xPointsInsideBox`). -/
noncomputable def xPointsInsideBox (box : List Position2D) (p : Position2D) : Res Bool :=
  insideLoop box p (List.range box.length)

/-- src/tools/avoidfootcollision.cpp:160-169 (inner loop of `areTwoBoxesInCollision` over the remaining values of `ib`). The
output for the intersection point, which the caller does not use, starts at zero. -/
noncomputable def sidesLoopB (a b : List Position2D) (ia : ℕ) : List ℕ → Res Bool
  | [] => .ok false
  | ib :: ibs =>
    (Res.read a ia).bind fun a1 =>
    (Res.read a ((ia + 1) % a.length)).bind fun a2 =>
    (Res.read b ib).bind fun b1 =>
    (Res.read b ((ib + 1) % b.length)).bind fun b2 =>
    if (intersectionSegment2D a1 a2 b1 b2 ⟨fin 0, fin 0⟩).1 then .ok true
    else sidesLoopB a b ia ibs

/-- src/tools/avoidfootcollision.cpp:158-170 (outer loop of `areTwoBoxesInCollision` over the remaining values of `ia`). -/
noncomputable def sidesLoopA (a b : List Position2D) : List ℕ → Res Bool
  | [] => .ok false
  | ia :: ias =>
    (sidesLoopB a b ia (List.range b.length)).bind fun r =>
    if r then .ok true else sidesLoopA a b ias

/-- src/tools/avoidfootcollision.cpp:149-188 (`areTwoBoxesInCollision`). -/
noncomputable def areTwoBoxesInCollision (a b : List Position2D) : Res Bool :=
  (sidesLoopA a b (List.range a.length)).bind fun r =>
  if r then .ok true
  else
    (if a.length > 0 then (Res.read a 0).bind fun a0 => xPointsInsideBox b a0
     else .ok false).bind fun r =>
    if r then .ok true
    else
      (if b.length > 0 then (Res.read b 0).bind fun b0 => xPointsInsideBox a b0
       else .ok false).bind fun r =>
      if r then .ok true else .ok false

/-- src/tools/avoidfootcollision.cpp:192-203 (`computeBox`; the output is cleared, so its previous content does not matter;
input and output are distinct vectors). -/
noncomputable def computeBox (m : Libm) (box : List Position2D) (pose : Pose2D) : List Position2D :=
  box.map fun v => pose.act m v

/-- src/tools/avoidfootcollision.cpp:214-217 (local variables of `dichotomie`, with the angle written into the move). -/
structure DichoState where
  min : F32
  max : F32
  best : F32
  pose : Pose2D

/-- src/tools/avoidfootcollision.cpp:221-237 (one turn of the loop of `dichotomie`). -/
noncomputable def dichoStep (m : Libm) (fixed moving : List Position2D) (s : DichoState) : Res DichoState :=
  let middle := mul (add s.min s.max) (fin (1 / 2))
  let pose := { s.pose with theta := middle }
  (areTwoBoxesInCollision fixed (computeBox m moving pose)).bind fun r =>
  if r then .ok { s with max := middle, pose := pose }
  else .ok { s with best := middle, min := middle, pose := pose }

/-- src/tools/avoidfootcollision.cpp:221-237 (loop of `dichotomie`, `n` turns). -/
noncomputable def dichoLoop (m : Libm) (fixed moving : List Position2D) : ℕ → DichoState → Res DichoState
  | 0, s => .ok s
  | n + 1, s => (dichoStep m fixed moving s).bind fun s => dichoLoop m fixed moving n s

/-- src/tools/avoidfootcollision.cpp:206-239 (`dichotomie`: the new value of the move). -/
noncomputable def dichotomie (m : Libm) (fixed moving : List Position2D) (pose : Pose2D) : Res Pose2D :=
  (dichoLoop m fixed moving 5 ⟨fin 0, pose.theta, fin 0, pose⟩).bind fun s =>
  .ok { s.pose with theta := s.best }

/-- src/tools/avoidfootcollision.cpp:245-276 (`avoidFootCollision`: the flag and the new value of the move). -/
noncomputable def avoidFootCollision (m : Libm) (left right : List Position2D) (isLeftSupport : Bool) (move : Pose2D) :
    Res (Bool × Pose2D) :=
  if isLeftSupport then
    (areTwoBoxesInCollision left (computeBox m right move)).bind fun r =>
    if r then (dichotomie m left right move).bind fun p => .ok (true, p)
    else .ok (false, move)
  else
    (areTwoBoxesInCollision right (computeBox m left move)).bind fun r =>
    if r then (dichotomie m right left move).bind fun p => .ok (true, p)
    else .ok (false, move)

open Classical in
/-- src/tools/avoidfootcollision.cpp:279-314 (`clipFootWithEllipse`: the flag and the new value of the move). The squares are
computed by `std::pow` on `double` and converted to `float`. -/
noncomputable def clipFootWithEllipse (m : Libm) (maxX maxY : F32) (move : Pose2D) : Bool × Pose2D :=
  let a := abs maxX
  let b := abs maxY
  let a2 := F64.toFloat (F64.sq a)
  let b2 := F64.toFloat (F64.sq b)
  let norm := add (div (mul move.x move.x) a2) (div (mul move.y move.y) b2)
  if lt norm (round 1.00001) then (false, move)
  else
    let theta := m.atan2 move.y move.x
    let c := m.cos theta
    let s := m.sin theta
    let t := div (mul a b) (sqrt (add (mul (mul b2 c) c) (mul (mul a2 s) s)))
    (true, { move with x := mul t c, y := mul t s })

end AlMath.F32
