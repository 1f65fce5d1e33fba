import Verif.Spec.Promp
import Mathlib.Analysis.Matrix.PosDef

/-!
# Specification: one update of expectation maximization

Given a Gaussian distribution of weights (`mean`, `cov`) and a noise variance, every demonstration has a posterior
distribution of weights: its negative logarithm is, up to a constant and a factor 2, `objective`, and a Gaussian posterior
is given by the minimum and the curvature of the objective. The update averages the posterior distributions.
-/

namespace Verif.Spec
open Matrix Verif

/-- A demonstration of `n` positions at normalised times `s`. -/
structure Demo (d : ℕ) where
  n : ℕ
  s : Fin n → ℝ
  y : Fin n → Fin d → ℝ

/-- The demonstration that is given to `imitate`: times are normalised such that the largest is 1. -/
def Normalised {d : ℕ} (demo : PrompDemo d) (e : Demo d) : Prop :=
  ∃ (T : Fin e.n → ℝ) (m : ℝ), demo = ⟨e.n, .float T, Matrix.of e.y⟩ ∧ IsLargest T m ∧ 0 < m ∧ ∀ i, e.s i = T i / m

/-- Filter of an error signal: 0.7 times the next error is subtracted from each error. -/
noncomputable def filtered {n : ℕ} (r : Fin n → ℝ) (i : Fin n) : ℝ :=
  r i - 7 / 10 * if h : i.val + 1 < n then r ⟨i.val + 1, h⟩ else 0

variable {d w : ℕ}

/-- Sum of squares of the filtered errors of the trajectory that belongs to the weights `W`. -/
noncomputable def misfit (e : Demo d) (W : Fin (d * w) → ℝ) : ℝ :=
  ∑ k, ∑ i, filtered (fun i => e.y i k - prompPosition W (e.s i) k) i ^ 2

/-- Expected sum of squares of the filtered deviations from the mean trajectory when the covariance of weights is `C`. -/
noncomputable def spread (e : Demo d) (C : Matrix (Fin (d * w)) (Fin (d * w)) ℝ) : ℝ :=
  ∑ x, ∑ y, C x y * ∑ k, ∑ i, filtered (fun i => prompPosition (w := w) (Pi.single x 1) (e.s i) k) i *
    filtered (fun i => prompPosition (w := w) (Pi.single y 1) (e.s i) k) i

/-- Negative logarithm of the posterior density of weights (times 2, up to a constant). -/
noncomputable def objective (p : EMState (d * w)) (e : Demo d) (W : Fin (d * w) → ℝ) : ℝ :=
  misfit e W / p.variance + (W - p.mean) ⬝ᵥ (p.cov⁻¹ *ᵥ (W - p.mean))

/-- `q` is the Gaussian whose density is proportional to the posterior density. -/
def IsPosterior (p : EMState (d * w)) (e : Demo d) (q : EMPosterior (d * w)) : Prop :=
  q.cov.PosDef ∧ ∀ z, objective p e (q.mean + z) = objective p e q.mean + z ⬝ᵥ (q.cov⁻¹ *ᵥ z)

/-- One update. The denominator of the variance is the one that the code uses (the expected value of the squared errors
would have to be divided by the number of observed values). -/
def EMUpdate (demos : List (Demo d)) (p p' : EMState (d * w)) : Prop :=
  ∃ qs : List (EMPosterior (d * w)), List.Forall₂ (IsPosterior p) demos qs ∧
    p'.mean = (1 / (demos.length : ℝ)) • (qs.map fun q => q.mean).sum ∧
    p'.cov = (1 / (demos.length : ℝ)) •
      ((qs.map fun q => vecMulVec (q.mean - p'.mean) (q.mean - p'.mean)).sum + (qs.map fun q => q.cov).sum) ∧
    p'.variance = (List.zipWith (fun e q => misfit e q.mean + spread e q.cov) demos qs).sum /
      (Real.sqrt (qs.map fun q => q.mean ⬝ᵥ q.mean).sum * demos.length * d * (demos.map fun e => e.n).sum + 2)

end Verif.Spec
