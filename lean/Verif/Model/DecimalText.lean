import Verif.Model.UrdfText
import Verif.Model.Float64
import Mathlib.Data.Nat.Digits.Defs
import Mathlib.Data.List.DropRight

/-!
Model of the numbers written in the attributes of documents and read in them: the stream operators for
floating-point numbers, used with the precision of almath/scenegraph/urdf.h:35-52.

Simplifications. The streams are those of libstdc++ in the "C" locale, where both conversions are
correctly rounded; a zero has no sign; a text is a list of characters.
-/

namespace AlMath.Decimal

open AlMath.F32

/-- The digits of a number, the first one being the most significant. Not in /repo: language semantics. -/
def digits (n : ℕ) : List ℕ := (Nat.digits 10 n).reverse

/-- A positive number rounded to `p` significant digits: `D` and `X` stand for D * 10^(X - p + 1), where `D` has
`p` digits. Not in /repo: language semantics. -/
noncomputable def roundDigits (p : ℕ) (x : ℝ) : ℕ × ℤ :=
  let X := Int.log 10 x
  let D := (nearestInt (x / (10 : ℝ) ^ (X - (p - 1)))).toNat
  if D = 10 ^ p then (10 ^ (p - 1), X + 1) else (D, X)

/-- Digits without the zeros at the end. Not in /repo: language semantics. -/
def strip (l : List ℕ) : List ℕ := l.rdropWhile (· = 0)

/-- Digits before and after the decimal point, which is written only when needed. Not in /repo: language
semantics. -/
def point (i f : List ℕ) : List Char :=
  i.map Nat.digitChar ++ if f = [] then [] else '.' :: f.map Nat.digitChar

/-- An exponent, with at least two digits. Not in /repo: language semantics. -/
def exponent (X : ℤ) : List Char :=
  'e' :: (if X < 0 then '-' else '+') ::
    (if X.natAbs < 10 then [0, X.natAbs] else digits X.natAbs).map Nat.digitChar

/-- The text of a positive number with `p` significant digits (conversion `%.pg` of `printf`). Not in /repo:
language semantics. -/
noncomputable def printPos (p : ℕ) (x : ℝ) : List Char :=
  let X := (roundDigits p x).2
  let ds := digits (roundDigits p x).1
  if -4 ≤ X ∧ X < p then
    if 0 ≤ X then point (ds.take (X.toNat + 1)) (strip (ds.drop (X.toNat + 1)))
    else point [0] (strip (List.replicate (-X - 1).toNat 0 ++ ds))
  else point (ds.take 1) (strip (ds.drop 1)) ++ exponent X

/-- The text of a number. Not in /repo: language semantics. -/
noncomputable def printReal (p : ℕ) (x : ℝ) : List Char :=
  if x = 0 then ['0'] else if x < 0 then '-' :: printPos p (-x) else printPos p x

/-- `s << e` for a stream with precision `p`. Not in /repo: language semantics. -/
noncomputable def print (p : ℕ) : F64 → List Char
  | fin x => printReal p x
  | nan => ['n', 'a', 'n']
  | pinf => ['i', 'n', 'f']
  | ninf => ['-', 'i', 'n', 'f']

/-- Whether there is a minus sign, and what follows the sign. Not in /repo: language semantics. -/
def readSign : List Char → Bool × List Char
  | [] => (false, [])
  | c :: l => if c = '-' then (true, l) else if c = '+' then (false, l) else (false, c :: l)

/-- The number that some digits stand for. Not in /repo: language semantics. -/
def number (l : List Char) : ℕ := l.foldl (fun a c => 10 * a + (c.toNat - 48)) 0

/-- Reads the rest of a number: nothing or an exponent. Not in /repo: language semantics. -/
def readExponent : List Char → Option ℤ
  | [] => some 0
  | c :: l =>
    if c = 'e' ∨ c = 'E' then
      let l' := (readSign l).2
      if l' ≠ [] ∧ l'.all Char.isDigit then
        some (if (readSign l).1 then -(number l' : ℤ) else number l')
      else none
    else none

/-- The digits after a decimal point, if there is one, and the rest. Not in /repo: language semantics. -/
def readFraction : List Char → List Char × List Char
  | [] => ([], [])
  | c :: l => if c = '.' then (l.takeWhile Char.isDigit, l.dropWhile Char.isDigit) else ([], c :: l)

/-- Reads a number without sign: digits with maybe a point, at least one digit, maybe an exponent, and nothing
else. Not in /repo: language semantics. -/
noncomputable def readUnsigned (l : List Char) : Option ℝ :=
  let i := l.takeWhile Char.isDigit
  let f := (readFraction (l.dropWhile Char.isDigit)).1
  let r := (readFraction (l.dropWhile Char.isDigit)).2
  if i ++ f = [] then none
  else (readExponent r).map fun e : ℤ => (number (i ++ f) : ℝ) * (10 : ℝ) ^ (e - (f.length : ℤ))

/-- Reads a number. Not in /repo: language semantics. -/
noncomputable def readReal (l : List Char) : Option ℝ :=
  (readUnsigned (readSign l).2).map fun v => if (readSign l).1 then -v else v

/-- `s >> e` for a text that holds nothing but a number, with blanks around or not: `none` if it does not, or
if the number is too large (almath/scenegraph/urdf.h:45-50 and the end of the stream being reached, which boost
checks afterwards). `round` is the rounding of the type of `e`. -/
noncomputable def parse (round : ℝ → F64) (l : List Char) : Option ℝ :=
  match readReal ((l.dropWhile UrdfText.isBlank).rdropWhile UrdfText.isBlank) with
  | none => none
  | some v => match round v with
    | fin y => some y
    | _ => none

/-- almath/scenegraph/urdf.h:41-44 (`insert`): `max_digits10` of `double` is 17. -/
noncomputable def putDouble (e : F64) : List Char := print 17 e

/-- almath/scenegraph/urdf.h:45-50 (`extract`). -/
noncomputable def getDouble (l : List Char) : Option ℝ := parse F64.round l

end AlMath.Decimal
