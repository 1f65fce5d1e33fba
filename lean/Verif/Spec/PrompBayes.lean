import Verif.Spec.PrompSamples
import Verif.Spec.PrompConditions

/-! # Specification: conditional distributions of weights -/

namespace Verif.Spec
open MeasureTheory ProbabilityTheory

/-- Covariance of the observation noise: none if `y_cov` is not given. -/
def noiseCov {d : ℕ} : YCov d → Matrix (Fin d) (Fin d) ℝ
  | .full R => R
  | _ => 0

/-- The distribution of `X` given `Y` is normal with mean `mean (Y ω)` and covariance `C (Y ω)`: for all events `X ∈ A` and `Y ∈ B`, the
probability of both is the integral of the probability of `A` over the outcomes with `Y ∈ B`. -/
def NormallyDistributedGiven {Ω κ η : Type} [MeasurableSpace Ω] [MeasurableSpace η] [Fintype κ] [DecidableEq κ] (P : Measure Ω)
    (X : Ω → κ → ℝ) (Y : Ω → η) (mean : η → κ → ℝ) (C : η → Matrix κ κ ℝ) : Prop :=
  ∀ (A : Set (κ → ℝ)) (B : Set η), MeasurableSet A → MeasurableSet B →
    P {ω | X ω ∈ A ∧ Y ω ∈ B} =
      ∫⁻ ω in {ω | Y ω ∈ B}, multivariateGaussian (WithLp.toLp 2 (mean (Y ω))) (C (Y ω)) {x | x.ofLp ∈ A} ∂P

end Verif.Spec
