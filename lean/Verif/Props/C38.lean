import Verif.Model.Dsp

/-!
C38: validity of the PID configuration. C39: the PID law over every history.
-/

namespace AlMath

namespace Spec

/-- A valid PID configuration. Not in /repo: specification. -/
def ValidPid (kp kv ki threshold staticOffset period : ℝ) : Prop :=
  0 ≤ kp ∧ 0 ≤ kv ∧ 0 ≤ ki ∧ 0 ≤ threshold ∧ 0 ≤ staticOffset ∧ 0 < period

/-- The controller holds a valid configuration. Not in /repo: specification. -/
def HasValidConfig (s : Pid) : Prop :=
  ValidPid s.kp s.kv s.ki s.threshold s.staticOffset s.period

/-- A call on a PID controller. Not in /repo: specification. -/
inductive PidCall where
  | reset
  | initializeWith (kp kv ki threshold staticOffset period : ℝ)
  | setGains (kp kv ki : ℝ)
  | feedback (command sensor period : ℝ)
  | feedbackAbsolute (err : ℝ)

/-- Effect of a call: outcome (with the value for the feedback functions) and new controller.
Not in /repo: specification. -/
noncomputable def pidCall (s : Pid) : PidCall → Res (Option ℝ) × Pid
  | .reset => (s.initialize.1.map fun _ => none, s.initialize.2)
  | .initializeWith kp kv ki t o p =>
    ((s.initializeWith kp kv ki t o p).1.map fun _ => none, (s.initializeWith kp kv ki t o p).2)
  | .setGains kp kv ki => ((s.setGains kp kv ki).1.map fun _ => none, (s.setGains kp kv ki).2)
  | .feedback c m p => ((s.computeFeedback c m p).1.map some, (s.computeFeedback c m p).2)
  | .feedbackAbsolute e => ((s.computeFeedbackAbsolute e).1.map some, (s.computeFeedbackAbsolute e).2)

/-- The controller after a history of calls, accepted or rejected. Not in /repo:
specification. -/
noncomputable def pidHistory (s : Pid) (h : List PidCall) : Pid :=
  h.foldl (fun s c => (pidCall s c).2) s

end Spec

open Spec

theorem checkData_iff (s : Pid) : s.checkData ↔ HasValidConfig s := by
  simp only [Pid.checkData, Pid.checkPositif, Pid.checkStriclyPositif, HasValidConfig, ValidPid,
    not_lt, not_le]

theorem construct_valid {kp kv ki t o p : ℝ} (h : ValidPid kp kv ki t o p) :
    Pid.construct kp kv ki t o p = .ok ⟨kp, kv, ki, p, t, o, 0, 0, 0, 0, true⟩ :=
  if_pos ((checkData_iff ⟨kp, kv, ki, p, t, o, 0, 0, 0, 0, true⟩).2 h)

theorem construct_invalid {kp kv ki t o p : ℝ} (h : ¬ ValidPid kp kv ki t o p) :
    Pid.construct kp kv ki t o p = .throws :=
  if_neg fun hc => h ((checkData_iff ⟨kp, kv, ki, p, t, o, 0, 0, 0, 0, true⟩).1 hc)

theorem initializeWith_valid (s : Pid) {kp kv ki t o p : ℝ} (h : ValidPid kp kv ki t o p) :
    s.initializeWith kp kv ki t o p =
      (.ok (), ({ s with kp := kp, kv := kv, ki := ki, threshold := t, staticOffset := o,
                         period := p } : Pid).resetParameters) :=
  if_pos ((checkData_iff
    ⟨kp, kv, ki, p, t, o, s.err, s.previousErr, s.dErr, s.iErr, s.firstIteration⟩).2 h)

theorem initializeWith_invalid (s : Pid) {kp kv ki t o p : ℝ} (h : ¬ ValidPid kp kv ki t o p) :
    s.initializeWith kp kv ki t o p =
      (.throws, { s with kp := kp, kv := kv, ki := ki, threshold := t, staticOffset := o,
                         period := p }) :=
  if_neg fun hc => h ((checkData_iff
    ⟨kp, kv, ki, p, t, o, s.err, s.previousErr, s.dErr, s.iErr, s.firstIteration⟩).1 hc)

open Classical in
theorem setGains_eq (s : Pid) (kp kv ki : ℝ) : s.setGains kp kv ki =
    if 0 ≤ kp ∧ 0 ≤ kv ∧ 0 ≤ ki then (.ok (), { s with kp := kp, kv := kv, ki := ki })
    else (.throws, s) := by
  unfold Pid.setGains Pid.checkPositif
  by_cases h : 0 ≤ kp ∧ 0 ≤ kv ∧ 0 ≤ ki
  · rw [if_pos h, if_pos (by simpa using h)]
  · rw [if_neg h, if_neg (by simpa using h)]

/-- The constructor and `initialize` accept exactly the valid parameters, and `setGains`
exactly the non-negative gains. -/
theorem C38_accepts (s : Pid) (kp kv ki t o p : ℝ) :
    ((∃ r, Pid.construct kp kv ki t o p = .ok r) ↔ ValidPid kp kv ki t o p) ∧
    (Pid.construct kp kv ki t o p = .throws ↔ ¬ ValidPid kp kv ki t o p) ∧
    ((s.initializeWith kp kv ki t o p).1 = .ok () ↔ ValidPid kp kv ki t o p) ∧
    ((s.initializeWith kp kv ki t o p).1 = .throws ↔ ¬ ValidPid kp kv ki t o p) ∧
    ((s.setGains kp kv ki).1 = .ok () ↔ 0 ≤ kp ∧ 0 ≤ kv ∧ 0 ≤ ki) ∧
    ((s.setGains kp kv ki).1 = .throws ↔ ¬ (0 ≤ kp ∧ 0 ≤ kv ∧ 0 ≤ ki)) := by
  by_cases hv : ValidPid kp kv ki t o p
  · have e1 := construct_valid hv
    have e2 := initializeWith_valid s hv
    have hg : 0 ≤ kp ∧ 0 ≤ kv ∧ 0 ≤ ki := ⟨hv.1, hv.2.1, hv.2.2.1⟩
    rw [e1, e2]
    refine ⟨by simp [hv], by simp [hv], by simp [hv], by simp [hv], ?_, ?_⟩ <;>
    · rw [setGains_eq, if_pos hg]; simp [hg]
  · have e1 := construct_invalid hv
    have e2 := initializeWith_invalid s hv
    rw [e1, e2]
    refine ⟨by simp [hv], by simp [hv], by simp [hv], by simp [hv], ?_, ?_⟩
    · rw [setGains_eq]; split_ifs with h <;> simp [h]
    · rw [setGains_eq]; split_ifs with h <;> simp [h]

/-- A rejected `setGains` leaves the controller unchanged. -/
theorem C38_setGains_rejected_partial (s : Pid) (kp kv ki : ℝ)
    (h : (s.setGains kp kv ki).1 = .throws) : (s.setGains kp kv ki).2 = s := by
  unfold Pid.setGains at h ⊢
  split_ifs at h ⊢ with hc
  rfl

example (s : Pid) : (s.setGains 1 (-2) 0).1 = .throws := by
  rw [(C38_accepts s 1 (-2) 0 0 0 1).2.2.2.2.2]; norm_num

/-- A rejected `initialize` does change the controller: it keeps the rejected values. -/
theorem C38_initialize_rejected_changes : ∃ (s : Pid) (kp kv ki t o p : ℝ),
    HasValidConfig s ∧ (s.initializeWith kp kv ki t o p).1 = .throws ∧
    ¬ HasValidConfig (s.initializeWith kp kv ki t o p).2 := by
  refine ⟨Pid.default, 1, 1, 1, 0, 0, 0, by norm_num [HasValidConfig, ValidPid, Pid.default], ?_, ?_⟩
  · rw [(C38_accepts _ _ _ _ _ _ _).2.2.2.1]; norm_num [ValidPid]
  · rw [initializeWith_invalid _ (by norm_num [ValidPid])]
    norm_num [HasValidConfig, ValidPid]

theorem finish_config (s : Pid) (p d : ℝ) :
    (s.finish p d).2.kp = s.kp ∧ (s.finish p d).2.kv = s.kv ∧ (s.finish p d).2.ki = s.ki ∧
    (s.finish p d).2.threshold = s.threshold ∧ (s.finish p d).2.staticOffset = s.staticOffset ∧
    (s.finish p d).2.period = s.period := by
  unfold Pid.finish
  split_ifs <;> simp

/-- The error after the dead band, for the two feedback functions. -/
noncomputable def bandErr (t e : ℝ) : ℝ := if e > t then e - t else if e < -t then e + t else 0

/-- The error after the dead band, absolute version. -/
noncomputable def bandErrAbs (t e : ℝ) : ℝ := if e > t then e - t else 0

theorem feedback_eq (s : Pid) (c m p : ℝ) : s.computeFeedback c m p =
    ({ s with previousErr := s.err, err := bandErr s.threshold (c - m) } : Pid).finish s.period
      (bandErr s.threshold (c - m) - s.err) := by
  unfold Pid.computeFeedback bandErr
  simp only [ite_self]
  split_ifs <;> rfl

theorem feedbackAbs_eq (s : Pid) (e : ℝ) : s.computeFeedbackAbsolute e =
    ({ s with previousErr := s.err, err := bandErrAbs s.threshold e } : Pid).finish s.period
      |bandErrAbs s.threshold e - s.err| := by
  unfold Pid.computeFeedbackAbsolute bandErrAbs
  dsimp only
  split_ifs <;> rfl

/-- One call keeps a valid configuration, unless it is a rejected `initialize`. -/
theorem pidCall_valid (s : Pid) (c : PidCall) (hs : HasValidConfig s)
    (hc : ∀ kp kv ki t o p, c = .initializeWith kp kv ki t o p → ValidPid kp kv ki t o p) :
    HasValidConfig (pidCall s c).2 ∧ (pidCall s c).1 ≠ .ub := by
  cases c with
  | reset => exact ⟨hs, by simp [pidCall, Pid.initialize]⟩
  | initializeWith kp kv ki t o p =>
    have hv := hc _ _ _ _ _ _ rfl
    have h1 := ((C38_accepts s kp kv ki t o p).2.2.1).2 hv
    refine ⟨?_, by simp [pidCall, h1]⟩
    simp only [pidCall]
    rw [initializeWith_valid s hv]
    exact hv
  | setGains kp kv ki =>
    simp only [pidCall]
    rw [setGains_eq]
    split_ifs with h
    · exact ⟨⟨h.1, h.2.1, h.2.2, hs.2.2.2⟩, by simp⟩
    · exact ⟨hs, by simp⟩
  | feedback c m p =>
    simp only [pidCall]
    rw [feedback_eq]
    constructor
    · obtain ⟨e1, e2, e3, e4, e5, e6⟩ := finish_config
        { s with previousErr := s.err, err := bandErr s.threshold (c - m) } s.period
        (bandErr s.threshold (c - m) - s.err)
      unfold HasValidConfig
      rw [e1, e2, e3, e4, e5, e6]; exact hs
    · unfold Pid.finish
      have := hs.2.2.2.2.2.ne'
      split_ifs <;> simp
  | feedbackAbsolute e =>
    simp only [pidCall]
    rw [feedbackAbs_eq]
    constructor
    · obtain ⟨e1, e2, e3, e4, e5, e6⟩ := finish_config
        { s with previousErr := s.err, err := bandErrAbs s.threshold e } s.period
        |bandErrAbs s.threshold e - s.err|
      unfold HasValidConfig
      rw [e1, e2, e3, e4, e5, e6]; exact hs
    · unfold Pid.finish
      have := hs.2.2.2.2.2.ne'
      split_ifs <;> simp

/-- After any history of calls in which every `initialize` with parameters is accepted
(`setGains` may be rejected), the configuration is valid and no call so far divided by
zero. -/
theorem C38_history (s : Pid) (h : List PidCall) (hs : HasValidConfig s)
    (hc : ∀ kp kv ki t o p, .initializeWith kp kv ki t o p ∈ h → ValidPid kp kv ki t o p) :
    HasValidConfig (pidHistory s h) ∧
    ∀ n c, h[n]? = some c → (pidCall (pidHistory s (h.take n)) c).1 ≠ .ub := by
  induction h generalizing s with
  | nil => exact ⟨hs, by simp⟩
  | cons c h ih =>
    have h1 := pidCall_valid s c hs fun kp kv ki t o p e => hc kp kv ki t o p (by simp [e])
    obtain ⟨i1, i2⟩ := ih _ h1.1 fun kp kv ki t o p e => hc kp kv ki t o p (by simp [e])
    refine ⟨i1, ?_⟩
    intro n d hd
    cases n with
    | zero =>
      simp at hd
      subst hd
      simpa [pidHistory] using h1.2
    | succ n => exact i2 n d (by simpa using hd)

example : HasValidConfig Pid.default ∧ ∀ kp kv ki t o p, PidCall.initializeWith kp kv ki t o p ∈
    [PidCall.feedback 2 1 (-1), .setGains (-1) 0 0, .initializeWith 1 2 3 0.1 0 0.02] →
    ValidPid kp kv ki t o p := by
  constructor
  · norm_num [HasValidConfig, ValidPid, Pid.default]
  · intro kp kv ki t o p h
    simp at h
    obtain ⟨rfl, rfl, rfl, rfl, rfl, rfl⟩ := h
    norm_num [ValidPid]

/-- Constructed controllers are valid. -/
theorem C38_constructed (kp kv ki t o p : ℝ) (s : Pid) (h : Pid.construct kp kv ki t o p = .ok s) :
    HasValidConfig s ∧ HasValidConfig Pid.default := by
  refine ⟨?_, by norm_num [HasValidConfig, ValidPid, Pid.default]⟩
  have hv := ((C38_accepts s kp kv ki t o p).1).1 ⟨s, h⟩
  rw [construct_valid hv] at h
  rw [← Res.ok.inj h]; exact hv

/-- The default constructor gives the controller with zero gains, threshold and offset, and period
1. -/
theorem C38_default : Pid.construct 0 0 0 0 0 1 = .ok Pid.default :=
  construct_valid (by norm_num [ValidPid])

example : ∃ s, Pid.construct 1 2 3 0.1 0 0.02 = .ok s :=
  ((C38_accepts Pid.default _ _ _ _ _ _).1).2 (by norm_num [ValidPid])

/-- After a rejected `initialize` a feedback can divide by zero. -/
theorem C38_rejected_then_zero_division : ∃ (s : Pid) (c1 c2 c3 : PidCall),
    HasValidConfig s ∧ (pidCall (pidHistory s [c1]) c2).1 = .throws ∧
    (pidCall (pidHistory s [c1, c2]) c3).1 = .ub := by
  refine ⟨Pid.default, .feedback 1 0 (-1), .initializeWith 1 1 1 0 0 0, .feedback 1 0 (-1),
    by norm_num [HasValidConfig, ValidPid, Pid.default], ?_, ?_⟩
  · simp only [pidCall]
    rw [(C38_accepts _ _ _ _ _ _ _).2.2.2.1.2 (by norm_num [ValidPid])]; rfl
  · have e : (pidHistory Pid.default [.feedback 1 0 (-1), .initializeWith 1 1 1 0 0 0]).period = 0 ∧
        (pidHistory Pid.default [.feedback 1 0 (-1), .initializeWith 1 1 1 0 0 0]).firstIteration
          = false := by
      simp only [pidHistory, List.foldl_cons, List.foldl_nil, pidCall]
      rw [feedback_eq]
      rw [initializeWith_invalid _ (by norm_num [ValidPid])]
      refine ⟨rfl, ?_⟩
      simp [Pid.finish, Pid.default]
    simp only [pidCall]
    rw [feedback_eq]
    unfold Pid.finish
    simp [e.1, e.2]

/-! ### C39 -/

namespace Spec

/-- Dead band: errors of magnitude at most `t` count as zero, others are shifted towards zero
by `t`. Not in /repo: specification. -/
noncomputable def deadBand (t e : ℝ) : ℝ :=
  if |e| ≤ t then 0 else if 0 < e then e - t else e + t

/-- The samples seen by the integral and derivative: one for each feedback call.
Not in /repo: specification. -/
noncomputable def sample (t : ℝ) : PidCall → Option ℝ
  | .feedback c m _ => some (deadBand t (c - m))
  | .feedbackAbsolute e => some (max (e - t) 0)
  | _ => none

open Classical in
/-- The gains after a history of calls: those of the last call of `setGains` with
non-negative values. Not in /repo: specification. -/
noncomputable def gainsAfter (g : ℝ × ℝ × ℝ) : List PidCall → ℝ × ℝ × ℝ
  | [] => g
  | .setGains kp kv ki :: h =>
    gainsAfter (if 0 ≤ kp ∧ 0 ≤ kv ∧ 0 ≤ ki then (kp, kv, ki) else g) h
  | _ :: h => gainsAfter g h

/-- The history has no `initialize`. Not in /repo: specification. -/
def NoInit (h : List PidCall) : Prop :=
  ∀ c ∈ h, c ≠ .reset ∧ ∀ kp kv ki t o p, c ≠ .initializeWith kp kv ki t o p

end Spec

theorem bandErr_eq (t e : ℝ) (ht : 0 ≤ t) : bandErr t e = deadBand t e := by
  unfold bandErr deadBand
  rcases le_or_gt |e| t with h | h
  · rw [if_pos h]
    obtain ⟨h1, h2⟩ := abs_le.1 h
    rw [if_neg (by linarith), if_neg (by linarith)]
  · rw [if_neg (not_le.2 h)]
    rcases lt_abs.1 h with h1 | h1
    · rw [if_pos h1, if_pos (by linarith)]
    · rw [if_neg (by linarith), if_pos (by linarith), if_neg (by linarith)]

theorem bandErrAbs_eq (t e : ℝ) : bandErrAbs t e = max (e - t) 0 := by
  unfold bandErrAbs
  split_ifs with h
  · rw [max_eq_left (by linarith)]
  · rw [max_eq_right (by linarith)]

/-- State of the controller expressed with the samples seen since initialisation. -/
def PidInv (s0 s : Pid) (g : ℝ × ℝ × ℝ) (xs : List ℝ) : Prop :=
  s.kp = g.1 ∧ s.kv = g.2.1 ∧ s.ki = g.2.2 ∧ s.threshold = s0.threshold ∧
  s.staticOffset = s0.staticOffset ∧ s.period = s0.period ∧ s.iErr = xs.sum * s0.period ∧
  (s.firstIteration = true ↔ xs = []) ∧ (∀ x, xs.getLast? = some x → s.err = x)

theorem finish_inv (s0 s : Pid) (g : ℝ × ℝ × ℝ) (xs : List ℝ) (x d : ℝ) (hT : s0.period ≠ 0)
    (h : PidInv s0 s g xs) :
    PidInv s0 (({ s with previousErr := s.err, err := x } : Pid).finish s.period d).2 g
      (xs ++ [x]) ∧
    (({ s with previousErr := s.err, err := x } : Pid).finish s.period d).1 =
      .ok (s0.staticOffset + g.1 * x + g.2.1 * (if xs = [] then 0 else d / s0.period) +
        g.2.2 * ((xs.sum + x) * s0.period)) := by
  obtain ⟨h1, h2, h3, h4, h5, h6, h7, h8, h9⟩ := h
  unfold Pid.finish
  by_cases hx : xs = []
  · have hf := h8.2 hx
    simp only [hf, if_true, hx]
    refine ⟨⟨h1, h2, h3, h4, h5, h6, ?_, by simp, by simp⟩, ?_⟩
    · simp [h7, hx, h6]
    · simp [h1, h2, h3, h5, h6, h7, hx]
  · have hf : s.firstIteration = false := by
      rw [← Bool.not_eq_true]; rw [h8]; exact hx
    simp only [hf, Bool.false_eq_true, if_false, hx]
    rw [if_neg (by rw [h6]; exact hT)]
    refine ⟨⟨h1, h2, h3, h4, h5, h6, ?_, by simp, by simp⟩, ?_⟩
    · simp [h7, h6]; ring
    · simp only [h1, h2, h3, h5, h6, h7]; congr 1; ring

open Classical in
theorem history_inv (s0 s : Pid) (g : ℝ × ℝ × ℝ) (xs : List ℝ) (h : List PidCall)
    (hT : s0.period ≠ 0) (ht : 0 ≤ s0.threshold) (hn : NoInit h) (hi : PidInv s0 s g xs) :
    PidInv s0 (pidHistory s h) (gainsAfter g h) (xs ++ h.filterMap (sample s0.threshold)) := by
  induction h generalizing s g xs with
  | nil => simpa [pidHistory, gainsAfter] using hi
  | cons c h ih =>
    have hn' : NoInit h := fun d hd => hn d (by simp [hd])
    have ec : pidHistory s (c :: h) = pidHistory (pidCall s c).2 h := rfl
    rw [ec]
    cases c with
    | reset => exact absurd rfl (hn _ (by simp)).1
    | initializeWith kp kv ki t o p => exact absurd rfl ((hn _ (by simp)).2 kp kv ki t o p)
    | setGains kp kv ki =>
      have : PidInv s0 (pidCall s (.setGains kp kv ki)).2
          (if 0 ≤ kp ∧ 0 ≤ kv ∧ 0 ≤ ki then (kp, kv, ki) else g) xs := by
        simp only [pidCall]
        rw [setGains_eq]
        split_ifs with hc
        · exact ⟨rfl, rfl, rfl, hi.2.2.2⟩
        · exact hi
      have := ih _ _ _ hn' this
      simpa [List.filterMap_cons, sample, gainsAfter] using this
    | feedback c m p =>
      have h4 := hi.2.2.2.1
      have : PidInv s0 (pidCall s (.feedback c m p)).2 g (xs ++ [deadBand s0.threshold (c - m)]) := by
        simp only [pidCall]
        have hb : bandErr s.threshold (c - m) = deadBand s0.threshold (c - m) := by
          rw [h4, bandErr_eq _ _ ht]
        rw [feedback_eq, hb]
        exact (finish_inv s0 s g xs _ _ hT hi).1
      have := ih _ _ _ hn' this
      simpa [List.filterMap_cons, sample, gainsAfter] using this
    | feedbackAbsolute e =>
      have h4 := hi.2.2.2.1
      have : PidInv s0 (pidCall s (.feedbackAbsolute e)).2 g (xs ++ [max (e - s0.threshold) 0]) := by
        simp only [pidCall]
        have hb : bandErrAbs s.threshold e = max (e - s0.threshold) 0 := by
          rw [h4, bandErrAbs_eq]
        rw [feedbackAbs_eq, hb]
        exact (finish_inv s0 s g xs _ _ hT hi).1
      have := ih _ _ _ hn' this
      simpa [List.filterMap_cons, sample, gainsAfter] using this

/-- After `initialize()` (also done by the constructor and by an accepted `initialize`, see
`C39_start`) and any history of feedback calls and gain changes, the next feedback is
the PID law: with `e` the error after the dead band, `xs` the earlier samples and `T` the
configured period, `offset + kp e + kv (e - last xs)/T + ki T (sum xs + e)`, with no
derivative term on the first sample; the gains are the last accepted ones.
Missing from the property: the period passed to the call is ignored
(`C39_period_ignored`). -/
theorem C39_law_partial (s : Pid) (h : List PidCall) (hs : HasValidConfig s) (hn : NoInit h)
    (command sensor pPeriod : ℝ) :
    ((pidHistory s.initialize.2 h).computeFeedback command sensor pPeriod).1 =
      .ok (s.staticOffset
        + (gainsAfter (s.kp, s.kv, s.ki) h).1 * deadBand s.threshold (command - sensor)
        + (gainsAfter (s.kp, s.kv, s.ki) h).2.1 *
          (match (h.filterMap (sample s.threshold)).getLast? with
            | none => 0
            | some x => (deadBand s.threshold (command - sensor) - x) / s.period)
        + (gainsAfter (s.kp, s.kv, s.ki) h).2.2 *
          (((h.filterMap (sample s.threshold)).sum + deadBand s.threshold (command - sensor))
            * s.period)) := by
  have hT : s.period ≠ 0 := hs.2.2.2.2.2.ne'
  have hi : PidInv s s.initialize.2 (s.kp, s.kv, s.ki) [] :=
    ⟨rfl, rfl, rfl, rfl, rfl, rfl, by simp [Pid.initialize, Pid.resetParameters],
      by simp [Pid.initialize, Pid.resetParameters], by simp⟩
  have h2 := history_inv s s.initialize.2 _ [] h hT hs.2.2.2.1 hn hi
  rw [List.nil_append] at h2
  have h4 := h2.2.2.2.1
  have hlast := h2.2.2.2.2.2.2.2.2
  have hb : ∀ e, bandErr (pidHistory s.initialize.2 h).threshold e = deadBand s.threshold e := by
    intro e; rw [h4, bandErr_eq _ _ hs.2.2.2.1]
  rw [feedback_eq, hb, (finish_inv s _ _ _ _ _ hT h2).2]
  congr 3
  cases hl : (h.filterMap (sample s.threshold)).getLast? with
  | none => rw [if_pos (List.getLast?_eq_none_iff.1 hl)]
  | some x =>
    rw [if_neg (by intro hc; rw [hc] at hl; simp at hl), hlast x hl]

/-- The absolute version: only errors above the threshold count, and the derivative term
uses the magnitude of the change. -/
theorem C39_law_absolute (s : Pid) (h : List PidCall) (hs : HasValidConfig s) (hn : NoInit h)
    (err : ℝ) :
    ((pidHistory s.initialize.2 h).computeFeedbackAbsolute err).1 =
      .ok (s.staticOffset + (gainsAfter (s.kp, s.kv, s.ki) h).1 * max (err - s.threshold) 0
        + (gainsAfter (s.kp, s.kv, s.ki) h).2.1 *
          (match (h.filterMap (sample s.threshold)).getLast? with
            | none => 0
            | some x => |max (err - s.threshold) 0 - x| / s.period)
        + (gainsAfter (s.kp, s.kv, s.ki) h).2.2 *
          (((h.filterMap (sample s.threshold)).sum + max (err - s.threshold) 0) * s.period)) := by
  have hT : s.period ≠ 0 := hs.2.2.2.2.2.ne'
  have hi : PidInv s s.initialize.2 (s.kp, s.kv, s.ki) [] :=
    ⟨rfl, rfl, rfl, rfl, rfl, rfl, by simp [Pid.initialize, Pid.resetParameters],
      by simp [Pid.initialize, Pid.resetParameters], by simp⟩
  have h2 := history_inv s s.initialize.2 _ [] h hT hs.2.2.2.1 hn hi
  rw [List.nil_append] at h2
  have h4 := h2.2.2.2.1
  have hlast := h2.2.2.2.2.2.2.2.2
  have hb : ∀ e, bandErrAbs (pidHistory s.initialize.2 h).threshold e = max (e - s.threshold) 0 := by
    intro e; rw [h4, bandErrAbs_eq]
  rw [feedbackAbs_eq, hb, (finish_inv s _ _ _ _ _ hT h2).2]
  congr 3
  cases hl : (h.filterMap (sample s.threshold)).getLast? with
  | none => rw [if_pos (List.getLast?_eq_none_iff.1 hl)]
  | some x =>
    rw [if_neg (by intro hc; rw [hc] at hl; simp at hl), hlast x hl]

/-- A history and a controller meeting the hypotheses of the two theorems. -/
example : HasValidConfig ⟨1, 2, 3, 0.02, 0.1, 0, 0, 0, 0, 0, true⟩ ∧
    NoInit [.feedback 1 0 0.5, .setGains 2 2 2, .feedbackAbsolute 3] := by
  constructor
  · norm_num [HasValidConfig, ValidPid]
  · intro c hc
    simp at hc
    rcases hc with rfl | rfl | rfl <;> simp

/-- A newly constructed controller is as after `initialize()`, and an accepted `initialize`
with parameters behaves as constructing a new controller: the same feedbacks after every
history. -/
theorem C39_start (s : Pid) (kp kv ki t o p : ℝ) (hv : ValidPid kp kv ki t o p)
    (h : List PidCall) (hn : NoInit h) (command sensor pPeriod : ℝ) :
    ∃ s', Pid.construct kp kv ki t o p = .ok s' ∧ s'.initialize.2 = s' ∧
      Pid.default.initialize.2 = Pid.default ∧
      ((pidHistory (s.initializeWith kp kv ki t o p).2 h).computeFeedback command sensor pPeriod).1 =
      ((pidHistory s' h).computeFeedback command sensor pPeriod).1 := by
  have e1 := construct_valid hv
  refine ⟨_, e1, rfl, rfl, ?_⟩
  have e2 : (s.initializeWith kp kv ki t o p).2 =
      ({ s with kp := kp, kv := kv, ki := ki, threshold := t, staticOffset := o,
                period := p } : Pid).initialize.2 := by
    rw [initializeWith_valid s hv]
    rfl
  rw [e2, C39_law_partial
    ⟨kp, kv, ki, p, t, o, s.err, s.previousErr, s.dErr, s.iErr, s.firstIteration⟩ h hv hn]
  have e3 : (⟨kp, kv, ki, p, t, o, 0, 0, 0, 0, true⟩ : Pid) =
    (⟨kp, kv, ki, p, t, o, 0, 0, 0, 0, true⟩ : Pid).initialize.2 := rfl
  rw [e3, C39_law_partial ⟨kp, kv, ki, p, t, o, 0, 0, 0, 0, true⟩ h hv hn]

example : ValidPid 1 2 3 0.1 0 0.02 := by norm_num [ValidPid]

/-- The period passed to `computeFeedback` is ignored. -/
theorem C39_period_ignored (s : Pid) (c m p p' : ℝ) :
    s.computeFeedback c m p = s.computeFeedback c m p' := by
  rw [feedback_eq, feedback_eq]

end AlMath
