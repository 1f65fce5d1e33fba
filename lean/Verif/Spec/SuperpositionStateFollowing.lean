import Verif.Spec.Superposition
import Verif.Model.StateFollowing

/-!
# Superposition of state-following DMPs

Two state-following DMPs that are executed by the same system, and the one whose start, current state and via points are
the sum of `p` times those of the first and `q` times those of the second one.
-/

namespace Verif
variable {d n : ℕ}

/-- Two state-following DMPs differ only in start, goal, current state and via points. -/
structure StateFollowingDMP.SameSystem (s₁ s₂ : StateFollowingDMP d n) : Prop where
  t : s₂.t = s₁.t
  lastT : s₂.lastT = s₁.lastT
  executionTime : s₂.executionTime = s₁.executionTime
  dt : s₂.dt = s₁.dt
  intDt : s₂.intDt = s₁.intDt
  alphaY : s₂.alphaY = s₁.alphaY
  betaY : s₂.betaY = s₁.betaY
  ft : s₂.ft = { s₁.ft with viapoints := s₂.ft.viapoints }

/-- The state-following DMP with mixed start, goal, current state and via points. -/
def StateFollowingDMP.mix (p q : ℝ) (s₁ s₂ : StateFollowingDMP d n) : StateFollowingDMP d n :=
  { s₁ with
    toMovement := s₁.toMovement.mix p q s₂.toMovement
    ft := { s₁.ft with viapoints := fun i => Spec.mix p q (s₁.ft.viapoints i) (s₂.ft.viapoints i) } }

end Verif
