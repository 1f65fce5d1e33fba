import Verif.Spec.Promp

/-!
# Specification: probabilistic movement primitives in other units of time and other coordinates

A linear map `A` of the space of positions (a rotation, a mirror image, a permutation of the axes, other units of
length) maps trajectories, covariances of trajectories, weights and demonstrations.
-/

namespace Verif.Spec
open Matrix Verif

variable {d w n : ℕ}

/-- Every position (row) of `Y'` is the map of the position in `Y`. -/
def RowsMapped (A : Matrix (Fin d) (Fin d) ℝ) (Y Y' : Matrix (Fin n) (Fin d) ℝ) : Prop :=
  ∀ i k, Y' i k = ∑ l, A k l * Y i l

/-- Weights are coordinates of "control points": for each basis function the control point is mapped. -/
def WeightsMapped (A : Matrix (Fin d) (Fin d) ℝ) (W W' : Vec (d * w)) : Prop :=
  ∀ k a, W' (flat k a) = ∑ l, A k l * W (flat l a)

/-- Covariances of positions (or control points) at all pairs of times (or for all pairs of basis functions). -/
def CovMapped (A : Matrix (Fin d) (Fin d) ℝ) (C C' : Matrix (Fin (d * n)) (Fin (d * n)) ℝ) : Prop :=
  ∀ k i l j, C' (flat k i) (flat l j) = ∑ k', ∑ l', A k k' * C (flat k' i) (flat l' j) * A l l'

/-- `p'` is the primitive `p` in the new coordinates. -/
structure PrompMapped (A : Matrix (Fin d) (Fin d) ℝ) (p p' : ProMP d w) : Prop where
  mean : WeightsMapped A p.weightMean p'.weightMean
  cov : CovMapped A p.weightCov p'.weightCov
  variance : p'.variance = p.variance

/-- The demonstration in the new coordinates and in any other unit of time. -/
def DemoMapped (A : Matrix (Fin d) (Fin d) ℝ) (demo demo' : PrompDemo d) : Prop :=
  ∃ (n : ℕ) (T : Fin n → ℝ) (Y Y' : Matrix (Fin n) (Fin d) ℝ) (c : ℝ), 0 < c ∧ demo = ⟨n, .float T, Y⟩ ∧
    demo' = ⟨n, .float fun i => c * T i, Y'⟩ ∧ RowsMapped A Y Y'

/-- Rotations, mirror images and permutations of the axes: the columns are orthonormal. -/
def Orthonormal (A : Matrix (Fin d) (Fin d) ℝ) : Prop :=
  ∀ k l, ∑ j, A j k * A j l = if k = l then 1 else 0

end Verif.Spec
