import Mathlib.Analysis.Calculus.Deriv.Basic
import Verif.Spec.Solution

/-! # The differential equations that the Runge-Kutta integrator approximates -/

namespace Verif.Spec
variable {d m : ℕ}

/-- Position `y` and velocity `v` solve the differential equation of the DMP `s` with phase and forcing term evaluated at
time `t + δ` instead of `t`. -/
structure SolvesDmpAhead (s : DMP d m) (δ t0 : ℝ) (x0 : Vec d × Vec d) (y v : ℝ → Vec d) : Prop where
  start : (y t0, v t0) = x0
  velocity : ∀ t k, HasDerivAt (fun t => y t k) (v t k) t
  acceleration : ∀ t k, HasDerivAt (fun t => v t k)
    (dmpAcceleration (s.alphaY k) (s.betaY k) (s.goalY k) (s.startY k) s.executionTime s.smooth
      (s.ft.phaseAt (t + δ)) (s.ft.call (t + δ) k) (y t k) (v t k)) t

/-- `w` is the derivative of the solution `y` with respect to `δ` at `δ = 0`: it is zero at time `t0` and obeys the
linearised equation, driven by the partial derivative of the acceleration with respect to time. -/
structure SolvesShift (s : DMP d m) (t0 : ℝ) (y v w wd : ℝ → Vec d) : Prop where
  start : (w t0, wd t0) = 0
  velocity : ∀ t k, HasDerivAt (fun t => w t k) (wd t k) t
  acceleration : ∀ t k, HasDerivAt (fun t => wd t k)
    ((s.alphaY k * (-s.betaY k * w t k - s.executionTime * wd t k)) / s.executionTime ^ 2 +
      deriv (fun r => dmpAcceleration (s.alphaY k) (s.betaY k) (s.goalY k) (s.startY k) s.executionTime s.smooth
        (s.ft.phaseAt r) (s.ft.call r k) (y t k) (v t k)) t) t

end Verif.Spec
