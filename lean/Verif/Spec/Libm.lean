import Verif.Model.FloatAngles
import Verif.Spec.Matrix
import Mathlib.Analysis.SpecialFunctions.Trigonometric.Inverse

/-!
What is assumed of the functions of `<cmath>` on `float`.
-/

namespace AlMath.F32

open AlMath.Spec

/-- Cosine and sine are off by at most `2^-23`, and the direction of the arc tangent is off by at most
`2^-21`. An implementation that is off by at most one unit in the last place satisfies this, whatever it
does with the signs of zeros. Not in /repo: specification. -/
structure Libm.Accurate (m : Libm) : Prop where
  cos : ∀ x, Rep x → ∃ c, m.cos (fin x) = fin c ∧ Rep c ∧ |c - Real.cos x| ≤ 2 ^ (-23 : ℤ)
  sin : ∀ x, Rep x → ∃ s, m.sin (fin x) = fin s ∧ Rep s ∧ |s - Real.sin x| ≤ 2 ^ (-23 : ℤ)
  atan2 : ∀ y x, Rep y → Rep x → ∃ a, m.atan2 (fin y) (fin x) = fin a ∧ Rep a ∧ |a| ≤ 4 ∧
    ‖(‖(⟨x, y⟩ : ℂ)‖ : ℂ) * Complex.exp (a * Complex.I) - ⟨x, y⟩‖ ≤ 2 ^ (-21 : ℤ) * ‖(⟨x, y⟩ : ℂ)‖

/-- The arc cosine is off by at most `2^-21`, and NaN outside its domain. Not in /repo: specification. -/
structure AcosAccurate (acos : F32 → F32) : Prop where
  value : ∀ w, Rep w → |w| ≤ 1 → ∃ t, acos (fin w) = fin t ∧ Rep t ∧ |t - Real.arccos w| ≤ 2 ^ (-21 : ℤ)
  domain : ∀ w, 1 < |w| → acos (fin w) = nan

/-- Exact rotation about the first axis. Not in /repo: specification. -/
noncomputable def turnX (a : ℝ) : Mat3 := rodrigues ![1, 0, 0] a

/-- Exact rotation about the second axis. Not in /repo: specification. -/
noncomputable def turnY (a : ℝ) : Mat3 := rodrigues ![0, 1, 0] a

/-- Exact rotation about the third axis. Not in /repo: specification. -/
noncomputable def turnZ (a : ℝ) : Mat3 := rodrigues ![0, 0, 1] a

end AlMath.F32
