import Verif.Model.Helpers

/-!
Model of `src/dsp/pidcontroller.cpp` and `src/dsp/digitalfilter.cpp`.

Methods are modelled as functions from the object to an outcome and the new object, also
when they throw: an exception does not undo what was assigned before it.
-/

namespace AlMath

/-! ### PID controller -/

/-- almath/dsp/pidcontroller.h:46-61 (members of `PIDController`). -/
@[ext] structure Pid where
  kp : ℝ
  kv : ℝ
  ki : ℝ
  period : ℝ
  threshold : ℝ
  staticOffset : ℝ
  err : ℝ
  previousErr : ℝ
  dErr : ℝ
  iErr : ℝ
  firstIteration : Bool

/-- src/dsp/pidcontroller.cpp:20-32 (default constructor). -/
noncomputable def Pid.default : Pid :=
  ⟨0, 0, 0, 1, 0, 0, 0, 0, 0, 0, true⟩

/-- src/dsp/pidcontroller.cpp:186-196 (`xCheckPositif`: true if it does not throw). -/
def Pid.checkPositif (v : ℝ) : Prop := ¬ v < 0

/-- src/dsp/pidcontroller.cpp:198-208 (`xCheckStriclyPositif`: true if it does not throw). -/
def Pid.checkStriclyPositif (v : ℝ) : Prop := ¬ v ≤ 0

/-- src/dsp/pidcontroller.cpp:175-183 (`xCheckData`: true if none of the checks throws). -/
def Pid.checkData (s : Pid) : Prop :=
  Pid.checkPositif s.kp ∧ Pid.checkPositif s.kv ∧ Pid.checkPositif s.ki ∧
  Pid.checkPositif s.threshold ∧ Pid.checkPositif s.staticOffset ∧
  Pid.checkStriclyPositif s.period

open Classical in
/-- src/dsp/pidcontroller.cpp:35-54 (constructor with parameters). If it throws there is no
object. -/
noncomputable def Pid.construct (kp kv ki threshold staticOffset period : ℝ) : Res Pid :=
  let s : Pid := ⟨kp, kv, ki, period, threshold, staticOffset, 0, 0, 0, 0, true⟩
  if s.checkData then .ok s else .throws

/-- src/dsp/pidcontroller.cpp:167-173 (`xResetParameters`; `fPreviousErr` is not reset). -/
noncomputable def Pid.resetParameters (s : Pid) : Pid :=
  { s with err := 0, dErr := 0, iErr := 0, firstIteration := true }

/-- src/dsp/pidcontroller.cpp:60-63 (`initialize()`). -/
noncomputable def Pid.initialize (s : Pid) : Res Unit × Pid := (.ok (), s.resetParameters)

open Classical in
/-- src/dsp/pidcontroller.cpp:65-81 (`initialize` with parameters). The members are assigned
before the check. -/
noncomputable def Pid.initializeWith (s : Pid) (kp kv ki threshold staticOffset period : ℝ) :
    Res Unit × Pid :=
  let s := { s with kp := kp, kv := kv, ki := ki, threshold := threshold,
                    staticOffset := staticOffset, period := period }
  if s.checkData then (.ok (), s.resetParameters) else (.throws, s)

open Classical in
/-- src/dsp/pidcontroller.cpp:113-121 (`setGains`). -/
noncomputable def Pid.setGains (s : Pid) (kp kv ki : ℝ) : Res Unit × Pid :=
  if Pid.checkPositif kp ∧ Pid.checkPositif kv ∧ Pid.checkPositif ki then
    (.ok (), { s with kp := kp, kv := kv, ki := ki })
  else (.throws, s)

/-- src/dsp/pidcontroller.cpp:98-110 and 151-163 (end of both feedback functions: update of
the derivative `d`, of the integral, and result). A division by a zero period is modelled as
undefined. -/
noncomputable def Pid.finish (s : Pid) (period d : ℝ) : Res ℝ × Pid :=
  if s.firstIteration then
    let s := { s with dErr := 0, firstIteration := false }
    let s := { s with iErr := s.iErr + s.err * period }
    (.ok (s.staticOffset + s.kp * s.err + s.kv * s.dErr + s.ki * s.iErr), s)
  else if period = 0 then (.ub, s)
  else
    let s := { s with dErr := d / period }
    let s := { s with iErr := s.iErr + s.err * period }
    (.ok (s.staticOffset + s.kp * s.err + s.kv * s.dErr + s.ki * s.iErr), s)

/-- src/dsp/pidcontroller.cpp:83-111 (`computeFeedbackAbsolute`). -/
noncomputable def Pid.computeFeedbackAbsolute (s : Pid) (absoluteErr : ℝ) : Res ℝ × Pid :=
  let s := { s with previousErr := s.err }
  let s := { s with err := absoluteErr }
  let s := if s.err > s.threshold then { s with err := s.err - s.threshold }
           else { s with err := 0 }
  s.finish s.period |s.err - s.previousErr|

/-- src/dsp/pidcontroller.cpp:124-164 (`computeFeedback`). As in the code, both branches of the
test on `pPeriod` give the configured period. -/
noncomputable def Pid.computeFeedback (s : Pid) (command sensor pPeriod : ℝ) : Res ℝ × Pid :=
  let period := s.period
  let period := if pPeriod > 0 then s.period else period
  let s := { s with previousErr := s.err }
  let s := { s with err := command - sensor }
  let s := if s.err > s.threshold then { s with err := s.err - s.threshold }
           else if s.err < -s.threshold then { s with err := s.err + s.threshold }
           else { s with err := 0 }
  s.finish period (s.err - s.previousErr)

/-! ### Digital filter -/

/-- `boost::circular_buffer<float>` as used in almath/dsp/digitalfilter.h:58-59: capacity and
content, oldest element first. The behaviour of the Boost class is taken from its
documentation. The type of the elements is a parameter: real numbers here, binary32 values in
`Model/FloatDsp.lean`. -/
@[ext] structure CircBuf (α : Type) where
  cap : ℕ
  data : List α

/-- `boost::circular_buffer` default constructor (almath/dsp/digitalfilter.h:58-59): capacity
zero. -/
def CircBuf.empty {α : Type} : CircBuf α := ⟨0, []⟩

/-- `boost::circular_buffer::push_back`, called at src/dsp/digitalfilter.cpp:43 and 59: nothing
if the capacity is zero; the oldest element is overwritten if full. -/
def CircBuf.push {α : Type} (b : CircBuf α) (v : α) : CircBuf α :=
  if b.cap = 0 then b
  else if b.data.length = b.cap then { b with data := b.data.tail ++ [v] }
  else { b with data := b.data ++ [v] }

/-- `boost::circular_buffer::set_capacity`, called at src/dsp/digitalfilter.cpp:30-31: the last
elements are dropped if there are too many. -/
def CircBuf.setCapacity {α : Type} (b : CircBuf α) (n : ℕ) : CircBuf α := ⟨n, b.data.take n⟩

/-- `boost::circular_buffer::clear`, called at src/dsp/digitalfilter.cpp:36-37. -/
def CircBuf.clear {α : Type} (b : CircBuf α) : CircBuf α := { b with data := [] }

/-- `boost::circular_buffer::full`, called at src/dsp/digitalfilter.cpp:45. -/
def CircBuf.full {α : Type} (b : CircBuf α) : Prop := b.data.length = b.cap

/-- almath/dsp/digitalfilter.h:57-64 (members of `DigitalFilter`). -/
@[ext] structure DigitalFilter where
  bufIn : CircBuf ℝ
  bufOut : CircBuf ℝ
  dcGain : ℝ
  weightsIn : List ℝ
  weightsOut : List ℝ

/-- src/dsp/digitalfilter.cpp:16-19 (default constructor): the buffers have capacity zero, the
input weights have one element. -/
noncomputable def DigitalFilter.default : DigitalFilter :=
  ⟨CircBuf.empty, CircBuf.empty, 1, [1], []⟩

/-- src/dsp/digitalfilter.cpp:23-32 (`configureFilter`). -/
noncomputable def DigitalFilter.configure (f : DigitalFilter) (weightsIn weightsOut : List ℝ)
    (dcGain : ℝ) : DigitalFilter :=
  { f with dcGain := dcGain, weightsIn := weightsIn, weightsOut := weightsOut,
           bufIn := f.bufIn.setCapacity weightsIn.length,
           bufOut := f.bufOut.setCapacity weightsOut.length }

/-- src/dsp/digitalfilter.cpp:34-38 (`resetFilter`). -/
def DigitalFilter.reset (f : DigitalFilter) : DigitalFilter :=
  { f with bufIn := f.bufIn.clear, bufOut := f.bufOut.clear }

/-- src/dsp/digitalfilter.cpp:49-56 (either loop of `processFilter` over the remaining values
of `i`, `acc` being `lOutputData`). Reading outside a buffer is undefined. -/
noncomputable def DigitalFilter.accumulate (buf weights : List ℝ) : List ℕ → ℝ → Res ℝ
  | [], acc => .ok acc
  | i :: is, acc =>
    (Res.read buf i).bind fun b =>
    (Res.read weights i).bind fun w =>
    DigitalFilter.accumulate buf weights is (acc + b * w)

open Classical in
/-- src/dsp/digitalfilter.cpp:40-62 (`processFilter`). A zero gain is modelled as undefined
(division by zero). -/
noncomputable def DigitalFilter.process (f : DigitalFilter) (input : ℝ) :
    Res (ℝ × DigitalFilter) :=
  if f.dcGain = 0 then .ub
  else
    let f := { f with bufIn := f.bufIn.push (input / f.dcGain) }
    (if f.bufIn.full ∧ f.bufOut.full then
      (DigitalFilter.accumulate f.bufIn.data f.weightsIn (List.range f.weightsIn.length) 0).bind
        fun acc =>
      DigitalFilter.accumulate f.bufOut.data f.weightsOut (List.range f.weightsOut.length) acc
    else .ok input).bind fun out =>
    .ok (out, { f with bufOut := f.bufOut.push out })

/-- A sequence of calls of `processFilter` (src/dsp/digitalfilter.cpp:40-62): the outputs and
the final object. -/
noncomputable def DigitalFilter.processAll (f : DigitalFilter) :
    List ℝ → Res (List ℝ × DigitalFilter)
  | [] => .ok ([], f)
  | x :: xs =>
    (f.process x).bind fun r =>
    (r.2.processAll xs).bind fun rs =>
    .ok (r.1 :: rs.1, rs.2)

end AlMath
