import Mathlib.Analysis.SpecialFunctions.Exp
import Mathlib.Analysis.SpecialFunctions.Pow.Real
import Verif.Py
import Verif.Np

/-!
# Decay to a goal up to a floor of rounding errors

For a system `ydd = k * (g - y) - c * yd`.
-/

namespace Verif.Spec

/-- A rate at which deviations decay at least. -/
noncomputable def decayRate (k c : ℝ) : ℝ := k * c / (8 * (k + c ^ 2))

/-- A frequency, by which positions and velocities are compared. -/
noncomputable def frequency (k c : ℝ) : ℝ := √(k + c ^ 2 / 2)

/-- Size of a deviation: `e` of the position and `v` of the velocity. -/
noncomputable def stateDeviation (k c e v : ℝ) : ℝ := frequency k c * |e| + |v|

/-- Deviation that can be caused by rounding errors. `2 ** -53` is the relative rounding error of double precision, `2 ** -1074` the
smallest positive double. -/
noncomputable def roundingFloor (k c dt intDt g : ℝ) : ℝ :=
  4 * (dt / intDt + 1) * (1 + 2 / (decayRate k c * dt)) *
    ((2 : ℝ) ^ (-53 : ℤ) * (frequency k c * |g|) +
      (2 * (intDt * (5 + 2 * k)) + 4 * (1 + frequency k c)) * (2 : ℝ) ^ (-1074 : ℤ))

/-- Deviation that can be caused by rounding errors and forces of size `force` in a DMP with execution time `tau`:
`tau ** 2 * ydd = alpha * (beta * (g - y) - tau * yd) + f`. -/
noncomputable def dmpFloor (alpha beta tau dt intDt g force : ℝ) : ℝ :=
  4 * (dt / intDt + 1) * (1 + 2 / (decayRate (alpha * beta / tau ^ 2) (alpha / tau) * dt)) *
    (2 * (intDt * (force / tau ^ 2)) +
      5 / 2 * (2 : ℝ) ^ (-53 : ℤ) * (frequency (alpha * beta / tau ^ 2) (alpha / tau) * |g|) +
      (2 * (intDt * (2 * (alpha * (beta + 4) + 2) / tau ^ 2 + 1)) + 4 * (1 + frequency (alpha * beta / tau ^ 2) (alpha / tau))) *
        (2 : ℝ) ^ (-1074 : ℤ))

/-- The same for the Runge-Kutta method, where `slow` and `fast` are the rates of decay of the DMP: the solutions of
`tau ** 2 * ydd = alpha * (beta * (g - y) - tau * yd)` are sums of `exp(-slow * t)` and `exp(-fast * t)`. -/
noncomputable def rk4Floor (slow fast alpha beta tau dt g force : ℝ) : ℝ :=
  (1 + 5 / (slow * dt)) * (fast / slow *
    (14 * (dt * (force / tau ^ 2) / fast) + 2400 * (2 : ℝ) ^ (-53 : ℤ) * |g| +
      2400 * (2 : ℝ) ^ (-1074 : ℤ) * (1 + 1 / fast + (2 * (alpha * (beta + 4) + 2) / tau ^ 2 + 2) / fast ^ 2)))

/-- `slow` and `fast` are the rates of decay of a DMP. There are such rates if `beta <= alpha / 4`. -/
def IsDecayRates (slow fast alpha beta tau : ℝ) : Prop :=
  0 < slow ∧ slow ≤ fast ∧ slow + fast = alpha / tau ∧ slow * fast = alpha * beta / tau ^ 2

/-- Calls of `step` with arbitrary arguments; all results are returned. -/
def calls {σ : Type} {p v : ℕ} (step : Vec p → Vec v → Py σ (Vec p × Vec v)) :
    List (Vec p × Vec v) → Py σ (List (Vec p × Vec v))
  | [] => pure []
  | a :: as => do
    let r ← step a.1 a.2
    let rest ← calls step as
    return r :: rest

end Verif.Spec
