import Verif.Model.Float32

/-!
Model of the C++ type `double` as IEEE 754 binary64, rounding to nearest, ties to even, as far as almath uses it for
intermediate results: `std::pow(x, 2)` of a `float` is a `double` (since C++11), and so are the sums, products and square
roots of such squares, until they are stored in a `float`. Not in /repo: the language. Same
simplifications as in Model/Float32.lean.
-/

namespace AlMath

/-- A value of type `double`. The constructors are those of `F32`. Not in /repo: language semantics. -/
abbrev F64 := F32

namespace F64

open F32

/-- The exponent of the last bit of the significand of the values near `x`. Not in /repo: language semantics. -/
noncomputable def lastBit (x : ℝ) : ℤ := max (Int.log 2 |x| - 52) (-1074)

/-- Rounding without upper bound of the exponent. Not in /repo: language semantics. -/
noncomputable def rnd (x : ℝ) : ℝ := nearestInt (x / (2 : ℝ) ^ lastBit x) * (2 : ℝ) ^ lastBit x

/-- The result of an operation whose exact result is `x`. Not in /repo: language semantics. -/
noncomputable def round (x : ℝ) : F64 :=
  if 2 ^ 1024 ≤ rnd x then pinf else if rnd x ≤ -2 ^ 1024 then ninf else fin (rnd x)

/-- Addition. Not in /repo: language semantics. -/
noncomputable def add : F64 → F64 → F64
  | fin x, fin y => round (x + y)
  | nan, _ => nan
  | _, nan => nan
  | pinf, ninf => nan
  | ninf, pinf => nan
  | pinf, _ => pinf
  | _, pinf => pinf
  | ninf, _ => ninf
  | _, ninf => ninf

/-- Subtraction. Not in /repo: language semantics. -/
noncomputable def sub (a b : F64) : F64 := add a (F32.neg b)

/-- Multiplication. Not in /repo: language semantics. -/
noncomputable def mul : F64 → F64 → F64
  | fin x, fin y => round (x * y)
  | nan, _ => nan
  | _, nan => nan
  | pinf, fin y => infOf y
  | ninf, fin y => infOf (-y)
  | fin x, pinf => infOf x
  | fin x, ninf => infOf (-x)
  | pinf, pinf => pinf
  | ninf, ninf => pinf
  | pinf, ninf => ninf
  | ninf, pinf => ninf

/-- `std::sqrt` of `<cmath>`. Not in /repo: language semantics. -/
noncomputable def sqrt : F64 → F64
  | fin x => if x < 0 then nan else round (Real.sqrt x)
  | pinf => pinf
  | _ => nan

/-- `std::pow(x, 2)` of `<cmath>`, taken to be correctly rounded; the square of a `float` is a `double` without
rounding. Not in /repo: language semantics. -/
noncomputable def sq (x : F64) : F64 := mul x x

/-- Conversion to `float`. Not in /repo: language semantics. -/
noncomputable def toFloat : F64 → F32
  | fin x => F32.round x
  | a => a

end F64

end AlMath
