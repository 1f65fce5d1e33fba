import Verif.Model.StateFollowing

/-! # Attractor of the state-following DMP -/

namespace Verif.Spec

open scoped BigOperators

/-- Positive weights that sum to one. -/
def ConvexWeights {n : ℕ} (h : Fin n → ℝ) : Prop := (∀ i, 0 < h i) ∧ ∑ i, h i = 1

/-- Acceleration of a spring-damper system with stiffness `α β`, damping `α` and time constant `τ`, attracted by `a`. -/
noncomputable def attraction (α β τ a y yd : ℝ) : ℝ := α * (β * (a - y) - τ * yd) / τ ^ 2

end Verif.Spec
