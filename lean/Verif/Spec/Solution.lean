import Mathlib.Analysis.Calculus.Deriv.Basic
import Verif.Spec.Dmp
import Verif.Model.Dmp
import Verif.Model.SpringDamper

/-! # The differential equations that the integrators approximate -/

namespace Verif.Spec
variable {d m : ℕ}

/-- Position `y` and velocity `v` solve the differential equation of the DMP `s`,
`τ² y'' = α (β (goal - y) - τ y' - smoothing) + forcing_term(t)`, and are equal to `x0` at time `t0`. -/
structure SolvesDmp (s : DMP d m) (t0 : ℝ) (x0 : Vec d × Vec d) (y v : ℝ → Vec d) : Prop where
  start : (y t0, v t0) = x0
  velocity : ∀ t k, HasDerivAt (fun t => y t k) (v t k) t
  acceleration : ∀ t k, HasDerivAt (fun t => v t k)
    (dmpAcceleration (s.alphaY k) (s.betaY k) (s.goalY k) (s.startY k) s.executionTime s.smooth
      (s.ft.phaseAt t) (s.ft.call t k) (y t k) (v t k)) t

/-- Largest step of an integrator: Euler methods divide `dt` into steps of at most `int_dt`, Runge-Kutta methods make one
step of length `dt`. -/
noncomputable def largestStep (dt intDt : ℝ) : StepFunction → ℝ
  | .euler | .eulerCython => min intDt dt
  | .rk4 | .rk4Cython => dt

/-- Position `y` and velocity `v` solve `y'' = k (goal - y) - c y'` and are equal to `x0` at time `t0`. -/
structure SolvesSpring (goal : Vec d) (k c t0 : ℝ) (x0 : Vec d × Vec d) (y v : ℝ → Vec d) : Prop where
  start : (y t0, v t0) = x0
  velocity : ∀ t i, HasDerivAt (fun t => y t i) (v t i) t
  acceleration : ∀ t i, HasDerivAt (fun t => v t i) (k * (goal i - y t i) - c * v t i) t

end Verif.Spec
