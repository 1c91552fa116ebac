import Verif.Model.RosTime
import Mathlib.Order.Basic

/-!
C56: conversion between durations and ROS times.
-/

namespace AlMath

open RosTime

namespace Spec

/-- A valid ROS time: fields in range, and not the zero that means "not a time". Not in /repo:
specification. -/
def ValidTime (t : Time) : Prop := t.sec < 2 ^ 32 ∧ t.nsec < 10 ^ 9 ∧ ¬ (t.sec = 0 ∧ t.nsec = 0)

/-- Nanoseconds since the epoch. Not in /repo: specification. -/
def nanos (t : Time) : ℤ := t.sec * 10 ^ 9 + t.nsec

/-- A signed 64-bit number. Not in /repo: specification. -/
def IsInt64 (d : ℤ) : Prop := -2 ^ 63 ≤ d ∧ d < 2 ^ 63

/-- The first and the last valid time, in nanoseconds. Not in /repo: specification. -/
def firstNanos : ℤ := 1
/-- See `firstNanos`. Not in /repo: specification. -/
def lastNanos : ℤ := (2 ^ 32 - 1) * 10 ^ 9 + 999999999

/-- Order of times: seconds, then nanoseconds. Not in /repo: specification. -/
def NotAfter (a b : Time) : Prop := a.sec < b.sec ∨ (a.sec = b.sec ∧ a.nsec ≤ b.nsec)

end Spec

open Spec

theorem toValidRosTime_eq (d : ℤ) :
    toValidRosTime d = .ok (Time.fromNSec (min lastNanos (max 1 d)).toNat) := by
  have hr : 0 ≤ min lastNanos (max 1 d) ∧ min lastNanos (max 1 d) < 2 ^ 64 := by
    unfold lastNanos; omega
  have e1 : i64 (((2 ^ 32 - 1 : ℕ) : ℤ) * 1000000000) = .ok 4294967295000000000 := by
    unfold i64; rw [if_pos (by norm_num)]; norm_num
  have e2 : i64 (999999999 + 4294967295000000000) = .ok 4294967295999999999 := by
    unfold i64; rw [if_pos (by norm_num)]; norm_num
  unfold toValidRosTime
  simp only [e1, e2, Res.bind_ok]
  rw [if_neg (by simp [timeMin, Time.toNSec]), if_neg (by simp [timeMax, Time.toNSec])]
  have e3 : (4294967295999999999 : ℤ) = lastNanos := by unfold lastNanos; norm_num
  rw [e3, Int.emod_eq_of_lt hr.1 hr.2]

/-- `toValidRosTime` returns a valid time for every duration (no overflow, no failed assertion); the
time is the duration itself when it is in the range of valid times, and the nearest bound of this
range otherwise. -/
theorem C56_clip (d : ℤ) (_hd : IsInt64 d) :
    ∃ t, toValidRosTime d = .ok t ∧ ValidTime t ∧
      nanos t = if d < firstNanos then firstNanos else if lastNanos < d then lastNanos else d := by
  refine ⟨_, toValidRosTime_eq d, ?_, ?_⟩
  · unfold ValidTime Time.fromNSec lastNanos
    simp only
    refine ⟨?_, ?_, ?_⟩ <;> omega
  · unfold nanos Time.fromNSec firstNanos lastNanos
    simp only
    split_ifs <;> omega

/-- `toValidRosTime` is monotone. -/
theorem C56_monotone (d e : ℤ) (_hd : IsInt64 d) (_he : IsInt64 e) (h : d ≤ e) :
    ∃ t u, toValidRosTime d = .ok t ∧ toValidRosTime e = .ok u ∧ NotAfter t u := by
  refine ⟨_, _, toValidRosTime_eq d, toValidRosTime_eq e, ?_⟩
  unfold NotAfter Time.fromNSec lastNanos
  simp only
  omega

/-- A duration in the range of valid times converts back to itself. -/
theorem C56_roundtrip (d : ℤ) (h0 : firstNanos ≤ d) (h1 : d ≤ lastNanos) :
    (toValidRosTime d).bind toQiDuration = .ok d := by
  rw [toValidRosTime_eq]
  simp only [Res.bind_ok]
  unfold toQiDuration
  unfold firstNanos at h0
  have e : min lastNanos (max 1 d) = d := by unfold lastNanos at *; omega
  rw [e, if_neg]
  · unfold i64 Time.toNSec Time.fromNSec lastNanos at *
    simp only
    rw [if_pos (by omega)]
    congr 1
    omega
  · unfold Time.le timeMax Time.fromNSec lastNanos at *
    simp only
    omega

/-- A valid time converts to a duration, without overflow, and back to itself. -/
theorem C56_back (t : Time) (ht : ValidTime t) :
    ∃ d, toQiDuration t = .ok d ∧ d = nanos t ∧ IsInt64 d ∧ toValidRosTime d = .ok t := by
  obtain ⟨h1, h2, h3⟩ := ht
  have hle : t.le timeMax := by unfold Time.le timeMax; simp only; omega
  refine ⟨nanos t, ?_, rfl, ?_, ?_⟩
  · unfold toQiDuration
    rw [if_neg (not_not.2 hle)]
    unfold i64 Time.toNSec nanos
    rw [if_pos (by push_cast; omega)]
    push_cast
    congr 1
  · unfold IsInt64 nanos; omega
  · rw [toValidRosTime_eq]
    congr 1
    have e : min lastNanos (max 1 (nanos t)) = nanos t := by
      unfold lastNanos nanos; omega
    rw [e]
    unfold Time.fromNSec nanos
    obtain ⟨s, n⟩ := t
    simp only [Time.mk.injEq]
    simp only at h1 h2 h3
    constructor <;> omega

example : IsInt64 1700000000123456789 ∧ firstNanos ≤ 1700000000123456789 ∧
    (1700000000123456789 : ℤ) ≤ lastNanos ∧ ValidTime ⟨1700000000, 123456789⟩ := by
  unfold IsInt64 firstNanos lastNanos ValidTime; norm_num

example : IsInt64 (-5) ∧ IsInt64 (2 ^ 62) ∧ (-5 : ℤ) ≤ 2 ^ 62 := by
  unfold IsInt64; norm_num

end AlMath
