import Verif.Model.PrompEM

/-!
# Specification of probabilistic movement primitives

A ProMP is a Gaussian distribution of weights. A vector of weights `W k a` (dimension `k`, basis function `a`)
describes the trajectory `s ↦ ∑ a, activation a s * W k a` over normalised time `s`. This file does not refer
to functions of the model except for the constructor and the methods that define the reachable objects.
-/

namespace Verif.Spec
open Matrix Verif

/-- `m` is the largest entry of `T`. -/
def IsLargest {n : ℕ} (T : Fin n → ℝ) (m : ℝ) : Prop := (∃ i, T i = m) ∧ ∀ i, T i ≤ m

/-- Centre of basis function `a`: equally spaced over normalised time. -/
noncomputable def centre (w : ℕ) (a : Fin w) : ℝ := if w = 1 then 0 else (a : ℝ) / ((w : ℝ) - 1)

/-- Gaussian basis function; neighbouring functions overlap by a factor that 0.7 determines. -/
noncomputable def rbf (w : ℕ) (s : ℝ) (a : Fin w) : ℝ :=
  Real.exp (-(4 * (w : ℝ) ^ 2 * Real.log (10 / 7)) * (s - centre w a) ^ 2)

/-- Normalised basis function. -/
noncomputable def activation (w : ℕ) (s : ℝ) (a : Fin w) : ℝ := rbf w s a / ∑ b, rbf w s b

/-- Flat index of weight `a` of dimension `k`. -/
def flat {d w : ℕ} (k : Fin d) (a : Fin w) : Fin (d * w) := finProdFinEquiv (k, a)

/-- Position in dimension `k` at normalised time `s` of the trajectory that belongs to the weights `W`. -/
noncomputable def prompPosition {d w : ℕ} (W : Fin (d * w) → ℝ) (s : ℝ) (k : Fin d) : ℝ :=
  ∑ a, activation w s a * W (flat k a)

/-- Covariance of position `k` at normalised time `s` and position `l` at normalised time `s'` when the
covariance of the weights is `C`. -/
noncomputable def covariance {d w : ℕ} (C : Matrix (Fin (d * w)) (Fin (d * w)) ℝ) (s : ℝ) (k : Fin d)
    (s' : ℝ) (l : Fin d) : ℝ :=
  ∑ a, ∑ b, activation w s a * C (flat k a) (flat l b) * activation w s' b

/-- ProMPs that a user can obtain. -/
inductive Reachable {d w : ℕ} : ProMP d w → Prop
  | init : Reachable (ProMP.init d w)
  | fromWeightDistribution {p : ProMP d w} (h : Reachable p) (mean : Vec (d * w))
      (cov : Matrix (Fin (d * w)) (Fin (d * w)) ℝ) : Reachable (p.fromWeightDistribution mean cov)
  | condition {p q p' : ProMP d w} (h : Reachable p) {y : Vec d} {c : YCov d} {t tMax : ℝ}
      (hq : (ProMP.conditionPosition y c t tMax).exec p = (.ok q, p')) : Reachable q
  | imitate {p : ProMP d w} (h : Reachable p) (demos : List (PrompDemo d)) (nIter : ℕ) (minDelta : ℝ) :
      Reachable ((ProMP.imitate demos nIter minDelta).exec p).2

/-- Whenever the ProMP is queried with times of which the `i`-th is, relative to the largest, equal to `s`:
the mean passes exactly through `y`, the variance is zero and the position is uncorrelated to all others. -/
def PassesThrough {d w : ℕ} (q : ProMP d w) (s : ℝ) (y : Fin d → ℝ) : Prop :=
  ∀ (n : ℕ) (T : Fin n → ℝ) (m : ℝ), IsLargest T m → m ≠ 0 → ∀ i : Fin n, T i / m = s →
    ∃ Y V C T', q.meanTrajectory.exec (.float T) = (.ok Y, T') ∧ q.varTrajectory.exec (.float T) = (.ok V, T') ∧
      q.covTrajectory.exec (.float T) = (.ok C, T') ∧
      ∀ k, Y i k = y k ∧ V i k = 0 ∧ ∀ x, C (flat k i) x = 0 ∧ C x (flat k i) = 0

end Verif.Spec
