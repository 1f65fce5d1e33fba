import Verif.Spec.PositionSolution

/-! # The differential equation of the positions of a Cartesian DMP, ahead of time -/

namespace Verif.Spec
variable {m : ℕ}

/-- Positions `y` and velocities `v` solve the differential equation of the positions of `s` with phase and forcing term evaluated
at time `t + δ` instead of `t`. -/
structure SolvesPositionAhead (s : CartesianDMP m) (δ t0 : ℝ) (x0 : Vec 3 × Vec 3) (y v : ℝ → Vec 3) : Prop where
  start : (y t0, v t0) = x0
  velocity : ∀ t k, HasDerivAt (fun t => y t k) (v t k) t
  acceleration : ∀ t k, HasDerivAt (fun t => v t k)
    (dmpAcceleration (linear s.alphaY k) (linear s.betaY k) (position s.goalY k) (position s.startY k) s.executionTime s.smooth
      (s.ftPos.phaseAt (t + δ)) (s.ftPos.call (t + δ) k) (y t k) (v t k)) t

end Verif.Spec
