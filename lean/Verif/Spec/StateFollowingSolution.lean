import Mathlib.Analysis.Calculus.Deriv.Basic
import Verif.Spec.StateFollowing

/-! # The differential equation of the state-following DMP -/

namespace Verif.Spec
variable {d n : ℕ}

open scoped BigOperators

/-- The point that attracts the state-following DMP `s` at time `t`: the mean of the via points with the activations
returned by the forcing term. -/
noncomputable def attractor (s : StateFollowingDMP d n) (t : ℝ) : Vec d := fun k =>
  ∑ i, s.ft.call t i * s.ft.viapoints i k

/-- Position `y` and velocity `v` solve `τ² y'' = α (β (attractor(t) - y) - τ y')` with half the execution time as `τ`, and
are equal to `x0` at time `t0`. -/
structure SolvesStateFollowing (s : StateFollowingDMP d n) (t0 : ℝ) (x0 : Vec d × Vec d) (y v : ℝ → Vec d) : Prop where
  start : (y t0, v t0) = x0
  velocity : ∀ t k, HasDerivAt (fun t => y t k) (v t k) t
  acceleration : ∀ t k, HasDerivAt (fun t => v t k)
    (attraction (s.alphaY k) (s.betaY k) (s.executionTime / 2) (attractor s t k) (y t k) (v t k)) t

end Verif.Spec
