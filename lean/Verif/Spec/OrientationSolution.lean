import Verif.Spec.OrientationMovement
import Verif.Model.CartesianDmp

/-! # The differential equation of the orientation of a Cartesian DMP -/

namespace Verif.Spec
variable {m : ℕ}

/-- Angular acceleration of the orientation of a DMP, `τ² w' = α (β a - τ w - smoothing) + force`, where `a` is the rotation
vector to the goal, `a₀` the one from the start to the goal and `z` the phase. -/
noncomputable def orientationAcceleration (α β a a₀ τ : ℝ) (smooth : Bool) (z force w : ℝ) : ℝ :=
  (α * (β * a - τ * w - (if smooth then β * a₀ * z else 0)) + force) / τ ^ 2

/-- Orientations `q` and angular velocities `w` solve the differential equation of the orientation of the Cartesian DMP `s` until
time `R`, and the angle to the goal is always less than half a turn. -/
structure SolvesOrientation (s : CartesianDMP m) (R : ℝ) (q : ℝ → Vec 4) (w : ℝ → Vec 3) : Prop where
  unit : ∀ t ∈ Set.Icc 0 R, UnitQuat (q t)
  angle : ∀ t ∈ Set.Icc 0 R, rotationAngle (orientation s.goalY) (q t) < Real.pi
  velocity : ∀ t ∈ Set.Icc 0 R,
    HasDerivWithinAt (fun t => quat (q t)) ((1 / 2 : ℝ) • (Spec.pure (w t) * quat (q t))) (Set.Icc 0 R) t
  acceleration : ∀ t ∈ Set.Icc 0 R, ∀ a a₀ : Vec 3, IsRotationTo (orientation s.goalY) (q t) a →
    IsRotationTo (orientation s.goalY) (orientation s.startY) a₀ → ∀ k, HasDerivWithinAt (fun t => w t k)
      (orientationAcceleration (angular s.alphaY k) (angular s.betaY k) (a k) (a₀ k) s.executionTime s.smooth
        (s.ftRot.phaseAt t) (s.ftRot.call t k) (w t k)) (Set.Icc 0 R) t

/-- Orientations `q` and angular velocities `w` solve the differential equation `w' = k a - c w` of an orientation on a spring with
damper between the times `t₀` and `R`, where `a` is the rotation vector to the goal, and the angle to the goal is always less than
half a turn. -/
structure SolvesSpringOrientation (goal : Vec 4) (k c t₀ R : ℝ) (q : ℝ → Vec 4) (w : ℝ → Vec 3) : Prop where
  unit : ∀ t ∈ Set.Icc t₀ R, UnitQuat (q t)
  angle : ∀ t ∈ Set.Icc t₀ R, rotationAngle goal (q t) < Real.pi
  velocity : ∀ t ∈ Set.Icc t₀ R,
    HasDerivWithinAt (fun t => quat (q t)) ((1 / 2 : ℝ) • (Spec.pure (w t) * quat (q t))) (Set.Icc t₀ R) t
  acceleration : ∀ t ∈ Set.Icc t₀ R, ∀ a : Vec 3, IsRotationTo goal (q t) a → ∀ j,
    HasDerivWithinAt (fun t => w t j) (k * a j - c * w t j) (Set.Icc t₀ R) t

end Verif.Spec
