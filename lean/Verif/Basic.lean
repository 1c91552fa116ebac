import Mathlib.Analysis.Real.Sqrt
import Mathlib.Analysis.SpecialFunctions.Complex.Arg
import Mathlib.Analysis.SpecialFunctions.Trigonometric.Inverse
import Mathlib.LinearAlgebra.Matrix.Determinant.Basic
import Mathlib.LinearAlgebra.Matrix.NonsingularInverse
import Mathlib.Tactic.Ring
import Mathlib.Tactic.Linarith
import Mathlib.Tactic.NormNum
import Mathlib.Tactic.FieldSimp
import Mathlib.Tactic.Positivity
import Mathlib.Tactic.LinearCombination
import Mathlib.Tactic.FinCases

/-!
Shared vocabulary of the model: call outcomes and the scalar functions of
`<cmath>` in exact arithmetic.
-/

namespace AlMath

universe u

/-- Outcome of a C++ call: a returned value, a thrown exception, or undefined
behaviour (also used for a NaN produced by an unguarded `0/0` or a function
evaluated outside its domain). Not in /repo: modelling vocabulary. -/
inductive Res (α : Type*) where
  | ok (a : α)
  | throws
  | ub
  deriving DecidableEq, Repr

namespace Res

variable {α β : Type*}

/-- Sequencing of calls: an exception or undefined behaviour in the first call
ends the sequence. Not in /repo: modelling vocabulary. -/
def bind (x : Res α) (f : α → Res β) : Res β :=
  match x with
  | ok a => f a
  | throws => throws
  | ub => ub

/-- Post-processing of a returned value. Not in /repo: modelling vocabulary. -/
def map (f : α → β) (x : Res α) : Res β :=
  match x with
  | ok a => ok (f a)
  | throws => throws
  | ub => ub

instance : Monad Res where
  pure := ok
  bind := bind

/-- Indexing a `std::vector` with `operator[]`: undefined behaviour past the end. Not
in /repo: modelling vocabulary. -/
def read (l : List α) (i : ℕ) : Res α :=
  match l[i]? with
  | some a => ok a
  | none => ub

/-- `*it++ = v` on an iterator into a `std::vector` at index `pos`: undefined
behaviour at or past the end. Not in /repo: modelling vocabulary. -/
def writeStep (st : List α × ℕ) (v : α) : Res (List α × ℕ) :=
  if st.2 < st.1.length then ok (st.1.set st.2 v, st.2 + 1) else ub

/-- A sequence of `*it++ = v`. Not in /repo: modelling vocabulary. -/
def writeAll (st : List α × ℕ) : List α → Res (List α × ℕ)
  | [] => ok st
  | v :: vs => bind (writeStep st v) fun st => writeAll st vs

@[simp] theorem bind_def {α β : Type u} (x : Res α) (f : α → Res β) : (x >>= f) = bind x f := rfl
@[simp] theorem pure_def (a : α) : (pure a : Res α) = ok a := rfl
@[simp] theorem read_zero_cons (a : α) (l : List α) : read (a :: l) 0 = ok a := rfl
@[simp] theorem read_succ_cons (a : α) (l : List α) (n : ℕ) :
    read (a :: l) (n + 1) = read l n := rfl
@[simp] theorem bind_ok (a : α) (f : α → Res β) : bind (ok a) f = f a := rfl
@[simp] theorem bind_throws (f : α → Res β) : bind (throws : Res α) f = throws := rfl
@[simp] theorem bind_ub (f : α → Res β) : bind (ub : Res α) f = ub := rfl
@[simp] theorem map_ok (a : α) (f : α → β) : map f (ok a) = ok (f a) := rfl
@[simp] theorem map_throws (f : α → β) : map f (throws : Res α) = throws := rfl
@[simp] theorem map_ub (f : α → β) : map f (ub : Res α) = ub := rfl

theorem bind_eq_ok {x : Res α} {f : α → Res β} {b : β} :
    bind x f = ok b ↔ ∃ a, x = ok a ∧ f a = ok b := by
  cases x <;> simp

theorem map_eq_ok {x : Res α} {f : α → β} {b : β} :
    map f x = ok b ↔ ∃ a, x = ok a ∧ f a = b := by
  cases x <;> simp

end Res

/-- `std::atan2(y, x)` of `<cmath>` in exact arithmetic: the argument of
`x + i y` in `(-π, π]`, and `0` at the origin (signed zeros are not modelled). -/
noncomputable def atan2 (y x : ℝ) : ℝ := Complex.arg ⟨x, y⟩

end AlMath
