import Mathlib.Analysis.Calculus.Deriv.Basic
import Verif.Np

/-! # Movements that a movement primitive can be asked to represent -/

namespace Verif.Spec

/-- A twice continuously differentiable movement `y` of duration `τ` with velocity `v` and acceleration `a`. -/
structure TwiceDifferentiable {d : ℕ} (τ : ℝ) (y v a : ℝ → Vec d) : Prop where
  velocity : ∀ t ∈ Set.Icc 0 τ, ∀ k, HasDerivWithinAt (fun t => y t k) (v t k) (Set.Icc 0 τ) t
  acceleration : ∀ t ∈ Set.Icc 0 τ, ∀ k, HasDerivWithinAt (fun t => v t k) (a t k) (Set.Icc 0 τ) t
  continuous : ∀ k, ContinuousOn (fun t => a t k) (Set.Icc 0 τ)

/-- `n + 2` equidistant time stamps, `np.linspace(0, τ, n + 2)`. -/
noncomputable def linspaceTimes (τ : ℝ) (n : ℕ) : Fin (n + 2) → ℝ := fun i => i * (τ / (n + 1))

end Verif.Spec
