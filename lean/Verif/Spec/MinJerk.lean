import Verif.Model.MinJerk
import Mathlib.Analysis.Calculus.Deriv.Pow
import Mathlib.Analysis.Calculus.IteratedDeriv.Defs
import Mathlib.MeasureTheory.Integral.IntervalIntegral.Basic

/-! # The minimum jerk movement -/

namespace Verif.Spec

/-- The minimum jerk movement from `a` to `b` of duration `T`. -/
noncomputable def minimumJerk (a b T t : ℝ) : ℝ :=
  a + (b - a) * (10 * (t / T) ^ 3 - 15 * (t / T) ^ 4 + 6 * (t / T) ^ 5)

/-- A smooth movement from `a` to `b` of duration `T` that starts and ends at rest, with zero acceleration: `x1`, `x2`, `x3`
are the first three derivatives of `x0`, the last one is continuous. -/
structure SmoothMovement (a b T : ℝ) (x0 x1 x2 x3 : ℝ → ℝ) : Prop where
  d0 : ∀ t, HasDerivAt x0 (x1 t) t
  d1 : ∀ t, HasDerivAt x1 (x2 t) t
  d2 : ∀ t, HasDerivAt x2 (x3 t) t
  jerk : Continuous x3
  start : x0 0 = a ∧ x1 0 = 0 ∧ x2 0 = 0
  stop : x0 T = b ∧ x1 T = 0 ∧ x2 T = 0

/-- Cost of a movement: integral of the squared jerk. -/
noncomputable def jerkCost (T : ℝ) (x3 : ℝ → ℝ) : ℝ := ∫ t in (0 : ℝ)..T, x3 t ^ 2

end Verif.Spec
