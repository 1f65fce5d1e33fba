import Mathlib.Topology.ContinuousOn
import Mathlib.Topology.MetricSpace.Pseudo.Defs
import Mathlib.Topology.Instances.Real.Lemmas
import Mathlib.Data.Real.Basic

/-! # Distributions of trajectories -/

namespace Verif.Spec

/-- Mean `μ s k` and covariance `C s k s' l` of the positions in dimensions `k`, `l` at relative times `s`, `s'` (from 0 to 1) of a
distribution of trajectories: both are continuous functions of time; the covariance is symmetric and no linear combination of
positions has a negative variance. -/
structure TrajectoryDistribution {d : ℕ} (μ : ℝ → Fin d → ℝ) (C : ℝ → Fin d → ℝ → Fin d → ℝ) : Prop where
  mean : ∀ k, ContinuousOn (fun s => μ s k) (Set.Icc 0 1)
  cov : ∀ k l, ContinuousOn (fun p : ℝ × ℝ => C p.1 k p.2 l) (Set.Icc 0 1 ×ˢ Set.Icc 0 1)
  symm : ∀ s k s' l, C s k s' l = C s' l s k
  nonneg : ∀ (n : ℕ) (s : Fin n → ℝ) (k : Fin n → Fin d) (c : Fin n → ℝ), (∀ i, s i ∈ Set.Icc (0 : ℝ) 1) →
    0 ≤ ∑ i, ∑ j, c i * C (s i) (k i) (s j) (k j) * c j

end Verif.Spec
