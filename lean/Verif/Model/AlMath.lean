import Mathlib.Algebra.Order.Floor.Ring
import Verif.Model.Helpers

/-!
Model of the angle, clipping and inertia helpers of `src/tools/almath.cpp`, of
`src/types/alaxismask.cpp`, `src/geometrics/shapes3d_utils.cpp` and
`src/types/occupancymapparams.cpp`.
-/

namespace AlMath

/-- Conversion of a floating-point value to an integer: rounding toward zero (the
integer part used by `static_cast<int>` and `std::fmod`). Not in /repo: `<cmath>`. -/
noncomputable def truncZ (x : ℝ) : ℤ := if 0 ≤ x then ⌊x⌋ else ⌈x⌉

/-- `std::fmod(x, y)` of `<cmath>` for `y ≠ 0`: `x` minus `y` times the quotient rounded
toward zero. (This operation is exact in floating point as well.) -/
noncomputable def fmod (x y : ℝ) : ℝ := x - y * truncZ (x / y)

/-- src/tools/almath.cpp:19-31 (`modulo2PIInPlace`). -/
noncomputable def modulo2PIInPlace (angle : ℝ) : ℝ :=
  let angle := fmod angle twoPiF
  if angle > piF then angle - twoPiF
  else if angle < -piF then angle + twoPiF
  else angle

/-- src/tools/almath.cpp:33-38 (`modulo2PI`). -/
noncomputable def modulo2PI (angle : ℝ) : ℝ := modulo2PIInPlace angle

/-- src/tools/almath.cpp:50-60 (loop of `weightedMeanAngle`; `weightSum` is never read
and is left out). Advancing the weight iterator past its end is undefined. -/
noncomputable def weightedMeanLoop : List ℝ → List ℝ → Position2D → Res Position2D
  | [], _, s => .ok s
  | _ :: _, [], _ => .ub
  | a :: as, w :: ws, s =>
    if w ≤ 0 then .throws
    else weightedMeanLoop as ws
      (Position2D.addAssign s (Position2D.smul ⟨Real.cos a, Real.sin a⟩ w))

/-- src/tools/almath.cpp:45-65 (`weightedMeanAngle`). -/
noncomputable def weightedMeanAngle (angles weights : List ℝ) : Res ℝ :=
  if angles.length ≠ weights.length then .throws
  else (weightedMeanLoop angles weights Position2D.zero).bind fun s =>
    if Position2D.norm s < 0.001 then .throws
    else .ok (modulo2PI (atan2 s.y s.x))

/-- src/tools/almath.cpp:40-43 (`meanAngle`). -/
noncomputable def meanAngle (angles : List ℝ) : Res ℝ :=
  weightedMeanAngle angles (List.replicate angles.length 1)

open Classical in
/-- src/tools/almath.cpp:67-75 (`clipData` on one float; `boost::algorithm::clamp(v, lo, hi)`
is `v < lo ? lo : hi < v ? hi : v`). Returns the new value and the flag. -/
noncomputable def clipFloat (mn mx d : ℝ) : ℝ × Bool :=
  let d' := if d < mn then mn else if mx < d then mx else d
  (d', decide (d ≠ d'))

/-- src/tools/almath.cpp:83-89 (one turn of the loop of `clipData` on a vector). The bounds
are passed by reference and may refer to elements of the vector: they are given as
functions of its current content. -/
noncomputable def clipVectorStep (mn mx : List ℝ → ℝ) (st : List ℝ × Bool) (i : ℕ) :
    List ℝ × Bool :=
  match st.1[i]? with
  | none => st
  | some d =>
    let r := clipFloat (mn st.1) (mx st.1) d
    (st.1.set i r.1, if r.2 then true else st.2)

/-- src/tools/almath.cpp:77-91 (`clipData` on a vector, with bounds that may alias). -/
noncomputable def clipVectorView (mn mx : List ℝ → ℝ) (l : List ℝ) : List ℝ × Bool :=
  (List.range l.length).foldl (clipVectorStep mn mx) (l, false)

/-- src/tools/almath.cpp:77-91 (`clipData` on a vector). -/
noncomputable def clipVector (mn mx : ℝ) (l : List ℝ) : List ℝ × Bool :=
  clipVectorView (fun _ => mn) (fun _ => mx) l

/-- src/tools/almath.cpp:99-105 (one turn of the loop of `clipData` on a matrix). -/
noncomputable def clipMatrixStep (mn mx : ℝ) (st : List (List ℝ) × Bool) (i : ℕ) :
    List (List ℝ) × Bool :=
  match st.1[i]? with
  | none => st
  | some row =>
    let r := clipVector mn mx row
    (st.1.set i r.1, if r.2 then true else st.2)

/-- src/tools/almath.cpp:93-107 (`clipData` on a vector of vectors). -/
noncomputable def clipMatrix (mn mx : ℝ) (l : List (List ℝ)) : List (List ℝ) × Bool :=
  (List.range l.length).foldl (clipMatrixStep mn mx) (l, false)

/-- src/tools/almath.cpp:425-440 (`pointMassRotationalInertia`: the nine elements, the
output vector being resized to nine and entirely overwritten). -/
noncomputable def pointMassRotationalInertia (m : ℝ) (p : Position3D) : List ℝ :=
  let x2 := p.x ^ 2
  let y2 := p.y ^ 2
  let z2 := p.z ^ 2
  let i0 := m * (y2 + z2)
  let i4 := m * (x2 + z2)
  let i8 := m * (x2 + y2)
  let i3 := -m * p.x * p.y
  let i1 := i3
  let i6 := -m * p.x * p.z
  let i2 := i6
  let i7 := -m * p.y * p.z
  let i5 := i7
  [i0, i1, i2, i3, i4, i5, i6, i7, i8]

/-- src/types/alaxismask.cpp:12-15 (`isAxisMask`). -/
def isAxisMask (m : ℤ) : Prop := m < 64 ∧ m ≥ 1

/-- src/geometrics/shapes3d_utils.cpp:14-20 (`getSphereCentersFromPill`). -/
noncomputable def getSphereCentersFromPill (halfExtent : ℝ) (t : Transform) :
    Position3D × Position3D :=
  (t.act ⟨0, 0, halfExtent⟩, t.act ⟨0, 0, -halfExtent⟩)

/-- src/geometrics/shapes3d_utils.cpp:22-31 (`computePillParameters`). -/
noncomputable def computePillParameters (a b : Position3D) : Res (ℝ × Transform) :=
  let halfExtent := 0.5 * Position3D.distance a b
  let halfDelta := Position3D.smul (Position3D.sub b a) 0.5
  let center := Position3D.add a halfDelta
  (orthogonalSpace halfDelta (transformFromPosition3D center)).map fun t => (halfExtent, t)

/-! ### Occupancy map -/

/-- almath/types/occupancymapparams.h:18-25 (`Point2Di`: two `int`s). -/
@[ext] structure Point2Di where
  x : ℤ
  y : ℤ

/-- almath/types/occupancymapparams.h:35-47 (`Pose2Di`). -/
@[ext] structure Pose2Di where
  x : ℤ
  y : ℤ
  theta : ℝ

/-- Range of `int` (32 bits). Not in /repo: platform assumption. -/
def IsInt (n : ℤ) : Prop := -2147483648 ≤ n ∧ n ≤ 2147483647

open Classical in
/-- `static_cast<int>(x)`: undefined behaviour when the integer part does not fit.
Not in /repo: language semantics. -/
noncomputable def castInt (x : ℝ) : Res ℤ := if IsInt (truncZ x) then .ok (truncZ x) else .ub

/-- almath/types/occupancymapparams.h:52-57 (`roundToInt`). -/
noncomputable def roundToInt (x : ℝ) : Res ℤ :=
  if x ≥ 0 then castInt (x + 0.5) else castInt (x - 0.5)

/-- almath/types/occupancymapparams.h:67-140 (`OccupancyMapParams` data members). -/
@[ext] structure OccupancyMapParams where
  size : ℤ
  metersPerPixel : ℝ
  originOffset : Position2D
  obstacleProbabilityThreshold : ℝ

namespace OccupancyMapParams

/-- src/types/occupancymapparams.cpp:21-35 (`initOriginOffset`). -/
noncomputable def initOriginOffset (m : OccupancyMapParams) (c : Position2D) :
    OccupancyMapParams :=
  { m with originOffset := ⟨c.x - ((m.size : ℝ) / 2.0 * m.metersPerPixel),
                            c.y + ((m.size : ℝ) / 2.0 * m.metersPerPixel)⟩ }

/-- src/types/occupancymapparams.cpp:12-19 (constructor; `originOffset` is default
constructed, then set). -/
noncomputable def mk' (size : ℤ) (mpp : ℝ) (c : Position2D) (thr : ℝ) : OccupancyMapParams :=
  initOriginOffset ⟨size, mpp, Position2D.zero, thr⟩ c

/-- almath/types/occupancymapparams.h:78-90 (`getPixelFromOffsetAndScale`). For a zero
scale the quotient is infinite or NaN and its conversion to `int` is undefined. -/
noncomputable def getPixelFromOffsetAndScale (pose : Pose2D) (mpp : ℝ) (off : Position2D) :
    Res Point2Di :=
  if mpp = 0 then .ub
  else
    let k := 1 / mpp
    let xx := (pose.x - off.x) * k
    (roundToInt xx).bind fun x =>
    let yy := -(pose.y - off.y) * k
    (roundToInt yy).bind fun y =>
    .ok ⟨x, y⟩

/-- src/types/occupancymapparams.cpp:37-40 (`getPixelFromPose`). -/
noncomputable def getPixelFromPose (m : OccupancyMapParams) (p : Pose2D) : Res Point2Di :=
  getPixelFromOffsetAndScale p m.metersPerPixel m.originOffset

/-- src/types/occupancymapparams.cpp:44-48 (`getPixelFromPosition`). -/
noncomputable def getPixelFromPosition (m : OccupancyMapParams) (p : Position2D) :
    Res Point2Di :=
  getPixelFromOffsetAndScale (pose2DFromPosition2D p 0) m.metersPerPixel m.originOffset

/-- Unary minus on an `int`: undefined behaviour on the smallest `int`. Not in /repo:
language semantics. -/
def negInt (n : ℤ) : Res ℤ := if n = -2147483648 then .ub else .ok (-n)

/-- src/types/occupancymapparams.cpp:50-53 (`getPoseFromPixel`). -/
noncomputable def getPoseFromPixel (m : OccupancyMapParams) (p : Pose2Di) : Res Pose2D :=
  (negInt p.y).bind fun ny =>
  .ok ⟨p.x * m.metersPerPixel + m.originOffset.x, ny * m.metersPerPixel + m.originOffset.y,
       p.theta⟩

/-- src/types/occupancymapparams.cpp:55-59 (`getPositionFromPixel`). -/
noncomputable def getPositionFromPixel (m : OccupancyMapParams) (p : Point2Di) :
    Res Position2D :=
  (negInt p.y).bind fun ny =>
  .ok ⟨p.x * m.metersPerPixel + m.originOffset.x, ny * m.metersPerPixel + m.originOffset.y⟩

/-- src/types/occupancymapparams.cpp:61-66 (`getDeltaPixelFromDeltaPosition`). -/
noncomputable def getDeltaPixelFromDeltaPosition (m : OccupancyMapParams) (p : Position2D) :
    Res Point2Di :=
  getPixelFromOffsetAndScale (pose2DFromPosition2D p 0) m.metersPerPixel Position2D.zero

end OccupancyMapParams

end AlMath
