import Verif.Model.DmpStep

/-!
# Step sizes for which an integrator of the DMP is stable

`α`, `β` are the gains of one dimension, `τ` the execution time, `dt` the time between two calls of `step` (or two rows of
`open_loop`), `intDt` the step size of the Euler methods.
-/

namespace Verif.Spec

/-- Step sizes that are small enough for the gains. -/
inductive Stable (sf : StepFunction) (dt intDt τ α β : ℝ) : Prop
  /-- Euler, any `dt`. With the default gains 25 and 25/4 the condition is `375 * intDt ≤ τ`. -/
  | euler (hsf : sf = .euler ∨ sf = .eulerCython) (hint : 0 < intDt)
      (h : 2 * intDt * (α + 2 * β) * (α + β) ≤ β * τ)
  /-- Euler, `dt` a multiple of `intDt`. With the default gains the condition is `intDt < 0.0662 * τ`. -/
  | eulerMultiple (hsf : sf = .euler ∨ sf = .eulerCython) (hint : 0 < intDt) (n : ℕ) (hn : 0 < n) (hdt : dt = n * intDt)
      (h : intDt ^ 2 * (α * β) + 2 * (intDt * α * τ) < 4 * τ ^ 2)
  /-- Runge-Kutta. With the default gains the second condition follows from the first one, `6.25 * dt < τ`. -/
  | rk4 (hsf : sf = .rk4 ∨ sf = .rk4Cython) (h1 : dt * β < τ)
      (h2 : 2 * (dt * α * τ) < 4 * τ ^ 2 + dt ^ 2 * (α * β))

end Verif.Spec
