import Verif.Model.Dsp
import Verif.Model.FloatTypes

/-!
The digital filter (src/dsp/digitalfilter.cpp) and the PID controller (src/dsp/pidcontroller.cpp) with rounding,
overflow, NaN and infinities. Same simplifications as in Model/Float32.lean. A division by zero is not undefined
here: it gives an infinity or NaN, as IEEE 754 says.
-/

namespace AlMath.F32

/-! ### Digital filter -/

/-- almath/dsp/digitalfilter.h:57-64 (members of `DigitalFilter`). -/
structure DigitalFilter where
  bufIn : CircBuf F32
  bufOut : CircBuf F32
  dcGain : F32
  weightsIn : List F32
  weightsOut : List F32

namespace DigitalFilter

/-- src/dsp/digitalfilter.cpp:16-19 (default constructor). -/
noncomputable def default : DigitalFilter := ⟨CircBuf.empty, CircBuf.empty, fin 1, [fin 1], []⟩

/-- src/dsp/digitalfilter.cpp:23-32 (`configureFilter`). -/
noncomputable def configure (f : DigitalFilter) (weightsIn weightsOut : List F32) (dcGain : F32) : DigitalFilter :=
  { f with dcGain := dcGain, weightsIn := weightsIn, weightsOut := weightsOut,
           bufIn := f.bufIn.setCapacity weightsIn.length,
           bufOut := f.bufOut.setCapacity weightsOut.length }

/-- src/dsp/digitalfilter.cpp:34-38 (`resetFilter`). -/
def reset (f : DigitalFilter) : DigitalFilter := { f with bufIn := f.bufIn.clear, bufOut := f.bufOut.clear }

/-- src/dsp/digitalfilter.cpp:49-56 (either loop of `processFilter` over the remaining values of `i`, `acc` being
`lOutputData`). Reading outside a buffer is undefined. -/
noncomputable def accumulate (buf weights : List F32) : List ℕ → F32 → Res F32
  | [], acc => .ok acc
  | i :: is, acc =>
    (Res.read buf i).bind fun b =>
    (Res.read weights i).bind fun w =>
    accumulate buf weights is (add acc (F32.mul b w))

open Classical in
/-- src/dsp/digitalfilter.cpp:40-62 (`processFilter`). -/
noncomputable def process (f : DigitalFilter) (input : F32) : Res (F32 × DigitalFilter) :=
  let f := { f with bufIn := f.bufIn.push (div input f.dcGain) }
  (if f.bufIn.full ∧ f.bufOut.full then
    (accumulate f.bufIn.data f.weightsIn (List.range f.weightsIn.length) (fin 0)).bind fun acc =>
    accumulate f.bufOut.data f.weightsOut (List.range f.weightsOut.length) acc
  else .ok input).bind fun out =>
  .ok (out, { f with bufOut := f.bufOut.push out })

/-- A sequence of calls of `processFilter` (src/dsp/digitalfilter.cpp:40-62): the outputs and the final object. -/
noncomputable def processAll (f : DigitalFilter) : List F32 → Res (List F32 × DigitalFilter)
  | [] => .ok ([], f)
  | x :: xs =>
    (f.process x).bind fun r =>
    (r.2.processAll xs).bind fun rs =>
    .ok (r.1 :: rs.1, rs.2)

end DigitalFilter

/-! ### PID controller -/

/-- almath/dsp/pidcontroller.h:46-61 (members of `PIDController`). -/
structure Pid where
  kp : F32
  kv : F32
  ki : F32
  period : F32
  threshold : F32
  staticOffset : F32
  err : F32
  previousErr : F32
  dErr : F32
  iErr : F32
  firstIteration : Bool

namespace Pid

/-- src/dsp/pidcontroller.cpp:20-32 (default constructor). -/
noncomputable def default : Pid := ⟨fin 0, fin 0, fin 0, fin 1, fin 0, fin 0, fin 0, fin 0, fin 0, fin 0, true⟩

/-- src/dsp/pidcontroller.cpp:186-196 (`xCheckPositif`: true if it does not throw). -/
def checkPositif (v : F32) : Prop := ¬ lt v (fin 0)

/-- src/dsp/pidcontroller.cpp:198-208 (`xCheckStriclyPositif`: true if it does not throw). -/
def checkStriclyPositif (v : F32) : Prop := ¬ le v (fin 0)

/-- src/dsp/pidcontroller.cpp:175-183 (`xCheckData`: true if none of the checks throws). -/
def checkData (s : Pid) : Prop :=
  checkPositif s.kp ∧ checkPositif s.kv ∧ checkPositif s.ki ∧ checkPositif s.threshold ∧
  checkPositif s.staticOffset ∧ checkStriclyPositif s.period

open Classical in
/-- src/dsp/pidcontroller.cpp:35-54 (constructor with parameters). If it throws there is no object. -/
noncomputable def construct (kp kv ki threshold staticOffset period : F32) : Res Pid :=
  let s : Pid := ⟨kp, kv, ki, period, threshold, staticOffset, fin 0, fin 0, fin 0, fin 0, true⟩
  if s.checkData then .ok s else .throws

/-- src/dsp/pidcontroller.cpp:167-173 (`xResetParameters`; `fPreviousErr` is not reset). -/
noncomputable def resetParameters (s : Pid) : Pid :=
  { s with err := fin 0, dErr := fin 0, iErr := fin 0, firstIteration := true }

/-- src/dsp/pidcontroller.cpp:60-63 (`initialize()`). -/
noncomputable def «initialize» (s : Pid) : Pid := s.resetParameters

open Classical in
/-- src/dsp/pidcontroller.cpp:65-81 (`initialize` with parameters). The members are assigned before the check. -/
noncomputable def initializeWith (s : Pid) (kp kv ki threshold staticOffset period : F32) : Res Unit × Pid :=
  let s := { s with kp := kp, kv := kv, ki := ki, threshold := threshold, staticOffset := staticOffset, period := period }
  if s.checkData then (.ok (), s.resetParameters) else (.throws, s)

open Classical in
/-- src/dsp/pidcontroller.cpp:113-121 (`setGains`). -/
noncomputable def setGains (s : Pid) (kp kv ki : F32) : Res Unit × Pid :=
  if checkPositif kp ∧ checkPositif kv ∧ checkPositif ki then (.ok (), { s with kp := kp, kv := kv, ki := ki })
  else (.throws, s)

/-- src/dsp/pidcontroller.cpp:98-110 and 151-163 (end of both feedback functions: update of the derivative `d`, of
the integral, and result). -/
noncomputable def finish (s : Pid) (period d : F32) : F32 × Pid :=
  let s := if s.firstIteration then { s with dErr := fin 0, firstIteration := false }
           else { s with dErr := div d period }
  let s := { s with iErr := add s.iErr (F32.mul s.err period) }
  (add (add (add s.staticOffset (F32.mul s.kp s.err)) (F32.mul s.kv s.dErr)) (F32.mul s.ki s.iErr), s)

open Classical in
/-- src/dsp/pidcontroller.cpp:83-111 (`computeFeedbackAbsolute`). -/
noncomputable def computeFeedbackAbsolute (s : Pid) (absoluteErr : F32) : F32 × Pid :=
  let s := { s with previousErr := s.err }
  let s := { s with err := absoluteErr }
  let s := if lt s.threshold s.err then { s with err := sub s.err s.threshold } else { s with err := fin 0 }
  s.finish s.period (abs (sub s.err s.previousErr))

open Classical in
/-- src/dsp/pidcontroller.cpp:124-164 (`computeFeedback`). As in the code, both branches of the test on `pPeriod`
give the configured period. -/
noncomputable def computeFeedback (s : Pid) (command sensor pPeriod : F32) : F32 × Pid :=
  let period := s.period
  let period := if lt (fin 0) pPeriod then s.period else period
  let s := { s with previousErr := s.err }
  let s := { s with err := sub command sensor }
  let s := if lt s.threshold s.err then { s with err := sub s.err s.threshold }
           else if lt s.err (neg s.threshold) then { s with err := add s.err s.threshold }
           else { s with err := fin 0 }
  s.finish period (sub s.err s.previousErr)

end Pid

end AlMath.F32
