import Verif.Spec.Solution
import Verif.Spec.OrientationSolution

/-! # The differential equation of the position of a Cartesian DMP -/

namespace Verif.Spec
variable {m : ℕ}

/-- Positions `y` and velocities `v` solve the differential equation of the position of the Cartesian DMP `s`,
`τ² y'' = α (β (goal - y) - τ y' - smoothing) + forcing_term(t)`, and are equal to `x0` at time `t0`. -/
structure SolvesPosition (s : CartesianDMP m) (t0 : ℝ) (x0 : Vec 3 × Vec 3) (y v : ℝ → Vec 3) : Prop where
  start : (y t0, v t0) = x0
  velocity : ∀ t k, HasDerivAt (fun t => y t k) (v t k) t
  acceleration : ∀ t k, HasDerivAt (fun t => v t k)
    (dmpAcceleration (linear s.alphaY k) (linear s.betaY k) (position s.goalY k) (position s.startY k) s.executionTime s.smooth
      (s.ftPos.phaseAt t) (s.ftPos.call t k) (y t k) (v t k)) t

end Verif.Spec
