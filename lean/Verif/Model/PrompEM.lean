import Verif.Model.Promp

/-!
# Expectation maximization of a ProMP (`movement_primitives/promp.py`, lines 304-411 and 572-603)

The list of demonstrations is not empty (`np.mean` of an empty array gives nan), every demonstration has as
many times as positions.
-/

namespace Verif
open Matrix

/-- A demonstration: `Ts[demo_idx]` and `Ys[demo_idx]`. -/
structure PrompDemo (d : ℕ) where
  n : ℕ
  T : TimeArray n
  Y : Matrix (Fin n) (Fin d) ℝ

/-- `H_partial`, `promp.py` lines 346-349 with `gamma = 0.7`: the identity with `-gamma` above the diagonal. -/
noncomputable def hPartial (n : ℕ) : Matrix (Fin n) (Fin n) ℝ :=
  Matrix.of fun i j => if i.val + 1 = j.val then -(7 / 10) else if i = j then 1 else 0

/-- Terms that `imitate` precomputes for one demonstration, `promp.py` lines 344-393. -/
structure EMTerms (D : ℕ) where
  RTR : ℝ
  PhiHTR : Vec D
  PhiHTHPhiT : Matrix (Fin D) (Fin D) ℝ

/-- Current estimate: `self.weight_mean`, `self.weight_cov`, `self.variance`. -/
structure EMState (D : ℕ) where
  mean : Vec D
  cov : Matrix (Fin D) (Fin D) ℝ
  variance : ℝ

/-- Result of the E-step for one demonstration: `means[demo_idx], covs[demo_idx]`. -/
structure EMPosterior (D : ℕ) where
  mean : Vec D
  cov : Matrix (Fin D) (Fin D) ℝ

/-- `np.linalg.norm(x)` of a vector. -/
noncomputable def vecNorm {D : ℕ} (x : Vec D) : ℝ := Real.sqrt (x ⬝ᵥ x)

/-- `ProMP._expectation(PhiHTR, PhiHTHPhiT)`, `promp.py` lines 572-577. -/
noncomputable def emExpectation {D : ℕ} (s : EMState D) (e : EMTerms D) : EMPosterior D :=
  let cov := pinv ((1 / s.variance) • e.PhiHTHPhiT + pinv s.cov)
  { mean := cov *ᵥ ((1 / s.variance) • e.PhiHTR + pinv s.cov *ᵥ s.mean)
    cov := cov }

/-- Contribution of one demonstration to the variance, loop body in `promp.py` lines 590-598. -/
noncomputable def emResidual {D : ℕ} (q : EMPosterior D) (e : EMTerms D) : ℝ :=
  (e.PhiHTHPhiT * q.cov).trace + e.RTR - 2 * (e.PhiHTR ⬝ᵥ q.mean) + q.mean ⬝ᵥ (e.PhiHTHPhiT *ᵥ q.mean)

/-- `ProMP._maximization(means, covs, RRs, PhiHTR, PhiHTHPhiTs, n_samples)`, `promp.py` lines 579-602;
`d = self.n_dims`. -/
noncomputable def emMaximization {D : ℕ} (d nSamples : ℕ) (qs : List (EMPosterior D × EMTerms D)) : EMState D :=
  let M : ℝ := qs.length
  let mean : Vec D := (1 / M) • (qs.map fun q => q.1.mean).sum
  { mean := mean
    cov := (1 / M) • ((qs.map fun q => vecMulVec (q.1.mean - mean) (q.1.mean - mean)).sum
      + (qs.map fun q => q.1.cov).sum)
    variance := (qs.map fun q => emResidual q.1 q.2).sum
      / (Real.sqrt (qs.map fun q => q.1.mean ⬝ᵥ q.1.mean).sum * M * d * nSamples + 2) }

/-- One iteration of the loop of `imitate`, `promp.py` lines 397-404. -/
noncomputable def emStep {D : ℕ} (d nSamples : ℕ) (terms : List (EMTerms D)) (s : EMState D) : EMState D :=
  emMaximization d nSamples (terms.map fun e => (emExpectation s e, e))

/-- Loop of `imitate`, `promp.py` lines 397-411: at most `n_iter` iterations, stopping when the mean moves
by less than `min_delta`. -/
noncomputable def emLoop {D : ℕ} (d nSamples : ℕ) (terms : List (EMTerms D)) (minDelta : ℝ) :
    ℕ → EMState D → EMState D
  | 0, s => s
  | k + 1, s =>
    let s' := emStep d nSamples terms s
    open Classical in
    if vecNorm (s'.mean - s.mean) < minDelta then s' else emLoop d nSamples terms minDelta k s'

namespace ProMP
variable {d w : ℕ}

/-- Precomputed terms of one demonstration, `promp.py` lines 344-393: a method of the demonstration, whose
times are divided in place. -/
noncomputable def emTerms (p : ProMP d w) {n : ℕ} (Y : Matrix (Fin n) (Fin d) ℝ) :
    Py (TimeArray n) (EMTerms (d * w)) := do
  let H := ndBlockDiagonal (hPartial n) d
  let R := H *ᵥ ravel2 Yᵀ
  let PhiHT := (← p.rbfsNdSequence) * Hᵀ
  return { RTR := R ⬝ᵥ R, PhiHTR := PhiHT *ᵥ R, PhiHTHPhiT := PhiHT * PhiHTᵀ }

/-- Precomputed terms of all demonstrations, in order. -/
noncomputable def emTermsAll (p : ProMP d w) : List (PrompDemo d) → Except PyErr (List (EMTerms (d * w)))
  | [] => return []
  | demo :: rest => do
    let e ← ((p.emTerms demo.Y).exec demo.T).1
    let es ← p.emTermsAll rest
    return e :: es

/-- `ProMP.imitate(Ts, Ys, n_iter, min_delta)`, `promp.py` lines 304-411. (The effect on the arrays in `Ts`
is that of `_rbfs_nd_sequence` on each of them and is not part of the state here.) -/
noncomputable def imitate (demos : List (PrompDemo d)) (nIter : ℕ) (minDelta : ℝ) : Py (ProMP d w) Unit := do
  modify fun p => { p with variance := some 1 }
  let p ← get
  let terms ← Py.lift (p.emTermsAll demos)
  let nSamples := (demos.map fun demo => demo.n).sum
  let s := emLoop d nSamples terms minDelta nIter { mean := p.weightMean, cov := p.weightCov, variance := 1 }
  modify fun p => { p with weightMean := s.mean, weightCov := s.cov, variance := some s.variance }

end ProMP

end Verif
