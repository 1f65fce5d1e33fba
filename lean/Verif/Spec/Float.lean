import Mathlib.Analysis.Normed.Group.Basic
import Mathlib.Data.Real.Basic

/-!
# Double-precision numbers and correct rounding

IEEE 754 binary64 without infinities and NaNs: results are assumed not to overflow. Rounding is to a nearest
double; which of two equally near doubles is chosen is left open (Python, NumPy and C use the even one).
-/

namespace Verif.Spec

/-- `x` is a finite double: `m * 2 ^ e` with a significand of 53 bits and an exponent of at least -1074 (no upper bound). -/
def IsDouble (x : ℝ) : Prop := ∃ m e : ℤ, |m| < 2 ^ 53 ∧ -1074 ≤ e ∧ x = m * (2 : ℝ) ^ e

/-- `rnd` rounds every real number to a nearest double. -/
structure IsRounding (rnd : ℝ → ℝ) : Prop where
  isDouble : ∀ x, IsDouble (rnd x)
  nearest : ∀ x y, IsDouble y → |rnd x - x| ≤ |y - x|

/-- A sequence of steps `(dt, time)` of a clock that shows `t0` in the beginning: all steps are positive and at most `intDt`,
they are added with rounding, and the clock always advances. -/
def ClockSteps (rnd : ℝ → ℝ) (intDt : ℝ) : ℝ → List (ℝ × ℝ) → Prop
  | _, [] => True
  | t0, (dt, t) :: steps => 0 < dt ∧ dt ≤ intDt ∧ t = rnd (t0 + dt) ∧ t0 < t ∧ ClockSteps rnd intDt t steps

/-- Time that the clock shows in the end. -/
def clockEnd (t0 : ℝ) (steps : List (ℝ × ℝ)) : ℝ := steps.foldl (fun _ p => p.2) t0

end Verif.Spec
