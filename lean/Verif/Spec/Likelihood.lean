import Verif.Spec.PrompEM
import Mathlib.LinearAlgebra.Matrix.NonsingularInverse

/-!
# Specification: likelihood of demonstrations

A ProMP with the noise variance `v` says how demonstrations come about: weights are drawn from the normal distribution
with the mean `μ` and the covariance `C`, and independent noise with variance `v` is added to the filtered positions of
the trajectory. The filtered positions of a demonstration are then normally distributed.
-/

namespace Verif.Spec
open Matrix Verif

/-- Logarithm of the density of a normal distribution with the covariance `S` at a point that deviates by `r` from the
mean. -/
noncomputable def logDensity {κ : Type} [Fintype κ] [DecidableEq κ] (S : Matrix κ κ ℝ) (r : κ → ℝ) : ℝ :=
  -(Fintype.card κ * Real.log (2 * Real.pi) + Real.log S.det + r ⬝ᵥ (S⁻¹ *ᵥ r)) / 2

variable {d w : ℕ}

/-- Deviations of the filtered positions of a demonstration from those of the trajectory with the weights `W`. -/
noncomputable def deviation (e : Demo d) (W : Fin (d * w) → ℝ) : Fin d × Fin e.n → ℝ :=
  fun x => filtered (fun i => e.y i x.1 - prompPosition W (e.s i) x.1) x.2

/-- Filtered positions of the trajectory whose weights are all 0 except for the weight `a`, which is 1. -/
noncomputable def feature (e : Demo d) (a : Fin (d * w)) : Fin d × Fin e.n → ℝ :=
  fun x => filtered (fun i => prompPosition (w := w) (Pi.single a 1) (e.s i) x.1) x.2

/-- Covariances of the filtered positions of demonstrations. -/
noncomputable def outputCov (e : Demo d) (C : Matrix (Fin (d * w)) (Fin (d * w)) ℝ) (v : ℝ) :
    Matrix (Fin d × Fin e.n) (Fin d × Fin e.n) ℝ :=
  fun x y => (∑ a, ∑ b, feature e a x * C a b * feature e b y) + if x = y then v else 0

/-- Logarithm of the likelihood of independent demonstrations. -/
noncomputable def logLikelihood (demos : List (Demo d)) (μ : Fin (d * w) → ℝ)
    (C : Matrix (Fin (d * w)) (Fin (d * w)) ℝ) (v : ℝ) : ℝ :=
  (demos.map fun e => logDensity (outputCov e C v) (deviation e μ)).sum

end Verif.Spec
