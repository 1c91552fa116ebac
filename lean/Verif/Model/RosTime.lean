import Verif.Basic

/-!
Model of almath/scenegraph/qirostime.h: conversion between durations and ROS times.

Simplifications. `qi::Duration` is a signed 64-bit number of nanoseconds, given as an integer;
arithmetic on `qirep` is checked for overflow. `ros::Time` is trusted: two unsigned 32-bit fields,
`fromNSec` is division by 10^9 (fields wrap modulo 2^32) and `toNSec` the inverse. A violated
assertion is undefined behaviour.
-/

namespace AlMath.RosTime

/-- A computation on `qirep` (almath/scenegraph/qirostime.h:51-55): overflow is undefined. -/
def i64 (x : ℤ) : Res ℤ := if -2 ^ 63 ≤ x ∧ x < 2 ^ 63 then .ok x else .ub

/-- `ros::Time` (almath/scenegraph/qirostime.h:58). -/
structure Time where
  sec : ℕ
  nsec : ℕ
  deriving DecidableEq

/-- `ros::Time::fromNSec`, whose argument is unsigned (called in
almath/scenegraph/qirostime.h:59). -/
def Time.fromNSec (t : ℕ) : Time := ⟨t / 1000000000 % 2 ^ 32, t % 1000000000⟩

/-- `ros::Time::toNSec` (called in almath/scenegraph/qirostime.h:68). -/
def Time.toNSec (t : Time) : ℕ := t.sec * 1000000000 + t.nsec

/-- `ros::TIME_MIN` (almath/scenegraph/qirostime.h:56). -/
def timeMin : Time := ⟨0, 1⟩

/-- `ros::TIME_MAX` (almath/scenegraph/qirostime.h:57). -/
def timeMax : Time := ⟨2 ^ 32 - 1, 999999999⟩

/-- `operator<=` of `ros::Time` (used in almath/scenegraph/qirostime.h:67). -/
def Time.le (a b : Time) : Prop := a.sec < b.sec ∨ (a.sec = b.sec ∧ a.nsec ≤ b.nsec)

instance (a b : Time) : Decidable (Time.le a b) := by unfold Time.le; infer_instance

/-- almath/scenegraph/qirostime.h:34-61 (`toValidRosTime`). The argument of `fromNSec` converts to
an unsigned 64-bit number. -/
def toValidRosTime (timeSinceEpoch : ℤ) : Res Time :=
  let rosMin : ℤ := 1
  (i64 (((2 ^ 32 - 1 : ℕ) : ℤ) * 1000000000)).bind fun p =>
  (i64 (999999999 + p)).bind fun rosMax =>
  if ¬ rosMin = (timeMin.toNSec : ℤ) then .ub
  else if ¬ rosMax = (timeMax.toNSec : ℤ) then .ub
  else .ok (Time.fromNSec ((min rosMax (max rosMin timeSinceEpoch)) % 2 ^ 64).toNat)

/-- almath/scenegraph/qirostime.h:63-69 (`toQiDuration`). -/
def toQiDuration (time : Time) : Res ℤ :=
  if ¬ time.le timeMax then .ub else i64 time.toNSec

end AlMath.RosTime
