import Verif.Spec.Solution

/-!
# Direct movements to the goal

Positions that move from the start to the goal and neither turn around nor leave the way between them.
-/

namespace Verif.Spec
variable {d : ℕ}

/-- Positions and velocities of a direct movement: each coordinate is always between the start and the goal, never moves
away from the goal, and the velocity never points away from it. `r i` is the fraction of the way that remains after step
`i`. -/
def DirectMovement (start goal : Vec d) (xs : ℕ → Vec d × Vec d) : Prop :=
  ∀ k, ∃ r w : ℕ → ℝ, r 0 = 1 ∧ Antitone r ∧ (∀ i, 0 ≤ r i) ∧ (∀ i, 0 ≤ w i) ∧
    ∀ i, (xs i).1 k = goal k + r i * (start k - goal k) ∧ (xs i).2 k = w i * (goal k - start k)

/-- The movement is direct and on the straight line from the start to the goal: the remaining fraction of the way is the
same in all dimensions. -/
def StraightMovement (start goal : Vec d) (xs : ℕ → Vec d × Vec d) : Prop :=
  ∃ r w : ℕ → ℝ, r 0 = 1 ∧ Antitone r ∧ (∀ i, 0 ≤ r i) ∧ (∀ i, 0 ≤ w i) ∧
    ∀ i, (xs i).1 = goal + r i • (start - goal) ∧ (xs i).2 = w i • (goal - start)

/-- Gains `α` and `β` are at least critically damped, and steps of the integrator are not longer than `τ / α`. -/
structure NoOvershoot (sf : StepFunction) (dt intDt τ α β : ℝ) : Prop where
  stiffness : 0 < β
  damping : 4 * β ≤ α
  positive : 0 < intDt
  step : largestStep dt intDt sf * α ≤ τ

end Verif.Spec
