import Verif.Spec.Promp
import Mathlib.Probability.Distributions.Gaussian.Multivariate
import Mathlib.Probability.HasLaw

/-!
# Specification: random trajectories
-/

namespace Verif.Spec
open MeasureTheory ProbabilityTheory

/-- The random vector `X` is normally distributed with the given mean and covariance. -/
def NormallyDistributed {Ω κ : Type} [MeasurableSpace Ω] [Fintype κ] [DecidableEq κ] (P : Measure Ω) (X : Ω → κ → ℝ)
    (mean : κ → ℝ) (C : Matrix κ κ ℝ) : Prop :=
  HasLaw (fun ω => WithLp.toLp 2 (X ω)) (multivariateGaussian (WithLp.toLp 2 mean) C) P

/-- `random_state.multivariate_normal(mean, cov, n)` as documented by numpy: independent vectors, each one normally
distributed with the given mean and covariance. (`ι` are the indices of the samples.) -/
structure MultivariateNormalSamples {Ω κ ι : Type} [MeasurableSpace Ω] [Fintype κ] [DecidableEq κ] (P : Measure Ω)
    (samples : ι → Ω → κ → ℝ) (mean : κ → ℝ) (C : Matrix κ κ ℝ) : Prop where
  normal : ∀ j, NormallyDistributed P (samples j) mean C
  independent : iIndepFun samples P

/-- All positions of a trajectory in one vector: first all positions of the first dimension, as in `cov_trajectory`. -/
def allPositions {n d : ℕ} (Y : Matrix (Fin n) (Fin d) ℝ) : Fin (d * n) → ℝ := fun x =>
  Y (finProdFinEquiv.symm x).2 (finProdFinEquiv.symm x).1

end Verif.Spec
