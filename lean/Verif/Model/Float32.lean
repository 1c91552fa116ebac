import Verif.Basic
import Mathlib.Data.Int.Log
import Mathlib.Algebra.Order.Floor.Ring

/-!
Model of the C++ type `float` as IEEE 754 binary32, rounding to nearest, ties to even. Not in /repo: the
language. The other models use real numbers instead; this one is for the theorems about
rounding, overflow and NaN.

Simplifications: a zero has no sign, all NaN are the same, operations are rounded one by one to
`float` (`FLT_EVAL_METHOD` 0, no fused multiply-add, no `-ffast-math`).
-/

namespace AlMath.F32

/-- The finite values of the format. Not in /repo: language semantics. -/
def Rep (x : ℝ) : Prop :=
  ∃ m e : ℤ, |m| < 2 ^ 24 ∧ -149 ≤ e ∧ e ≤ 104 ∧ x = m * (2 : ℝ) ^ e

/-- The exponent of the last bit of the significand of the values near `x`. Not in /repo: language
semantics. -/
noncomputable def lastBit (x : ℝ) : ℤ := max (Int.log 2 |x| - 23) (-149)

/-- The integer nearest to `y`, the even one if there are two. Not in /repo: language semantics. -/
noncomputable def nearestInt (y : ℝ) : ℤ :=
  if Int.fract y < 1 / 2 then ⌊y⌋
  else if 1 / 2 < Int.fract y then ⌊y⌋ + 1
  else if Even ⌊y⌋ then ⌊y⌋ else ⌊y⌋ + 1

/-- Rounding without upper bound of the exponent. Not in /repo: language semantics. -/
noncomputable def rnd (x : ℝ) : ℝ := nearestInt (x / (2 : ℝ) ^ lastBit x) * (2 : ℝ) ^ lastBit x

end AlMath.F32

namespace AlMath

/-- A value of type `float`. Not in /repo: language semantics. -/
inductive F32 where
  | nan
  | pinf
  | ninf
  | fin (x : ℝ)

namespace F32

/-- A value that the format has. Not in /repo: language semantics. -/
def Valid : F32 → Prop
  | fin x => Rep x
  | _ => True

/-- The result of an operation whose exact result is `x`. Not in /repo: language semantics. -/
noncomputable def round (x : ℝ) : F32 :=
  if 2 ^ 128 ≤ rnd x then pinf else if rnd x ≤ -2 ^ 128 then ninf else fin (rnd x)

/-- Infinity with the sign of `x`, NaN for 0. Not in /repo: language semantics. -/
noncomputable def infOf (x : ℝ) : F32 := if 0 < x then pinf else if x < 0 then ninf else nan

/-- Unary minus. Not in /repo: language semantics. -/
def neg : F32 → F32
  | nan => nan
  | pinf => ninf
  | ninf => pinf
  | fin x => fin (-x)

/-- Addition. Not in /repo: language semantics. -/
noncomputable def add : F32 → F32 → F32
  | fin x, fin y => round (x + y)
  | nan, _ => nan
  | _, nan => nan
  | pinf, ninf => nan
  | ninf, pinf => nan
  | pinf, _ => pinf
  | _, pinf => pinf
  | ninf, _ => ninf
  | _, ninf => ninf

/-- Subtraction. Not in /repo: language semantics. -/
noncomputable def sub (a b : F32) : F32 := add a (neg b)

/-- Multiplication. Not in /repo: language semantics. -/
noncomputable def mul : F32 → F32 → F32
  | fin x, fin y => round (x * y)
  | nan, _ => nan
  | _, nan => nan
  | pinf, fin y => infOf y
  | ninf, fin y => infOf (-y)
  | fin x, pinf => infOf x
  | fin x, ninf => infOf (-x)
  | pinf, pinf => pinf
  | ninf, ninf => pinf
  | pinf, ninf => ninf
  | ninf, pinf => ninf

open Classical in
/-- Division, a zero divisor being taken to be positive. Not in /repo: language semantics. -/
noncomputable def div : F32 → F32 → F32
  | fin x, fin y => if y = 0 then infOf x else round (x / y)
  | nan, _ => nan
  | _, nan => nan
  | fin _, _ => fin 0
  | pinf, fin y => if y < 0 then ninf else pinf
  | ninf, fin y => if y < 0 then pinf else ninf
  | _, _ => nan

/-- `std::sqrt` of `<cmath>`. Not in /repo: language semantics. -/
noncomputable def sqrt : F32 → F32
  | fin x => if x < 0 then nan else round (Real.sqrt x)
  | pinf => pinf
  | _ => nan

/-- `std::abs` and `std::fabs` of `<cmath>`. Not in /repo: language semantics. -/
noncomputable def abs : F32 → F32
  | fin x => fin |x|
  | nan => nan
  | _ => pinf

/-- The comparison `<`. Not in /repo: language semantics. -/
def lt : F32 → F32 → Prop
  | fin x, fin y => x < y
  | ninf, fin _ => True
  | ninf, pinf => True
  | fin _, pinf => True
  | _, _ => False

/-- The comparison `==`. Not in /repo: language semantics. -/
def eq : F32 → F32 → Prop
  | fin x, fin y => x = y
  | pinf, pinf => True
  | ninf, ninf => True
  | _, _ => False

/-- The comparison `<=`. Not in /repo: language semantics. -/
def le (a b : F32) : Prop := lt a b ∨ eq a b

end F32

end AlMath
