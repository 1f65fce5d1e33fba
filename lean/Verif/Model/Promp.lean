import Verif.Model.Imitate
import Mathlib.Analysis.SpecialFunctions.Log.Basic
import Mathlib.Analysis.SpecialFunctions.Sqrt
import Mathlib.LinearAlgebra.Matrix.NonsingularInverse

/-!
# Probabilistic movement primitives (`movement_primitives/promp.py`)

`ProMP d w` has `d = n_dims` dimensions and `w = n_weights_per_dim` weights per dimension. Arrays with
`n_dims * n_weights_per_dim` or `n_dims * n_steps` entries are kept flat, as in the code, in C order: entry
`(k, a)` of a reshaped array is entry `k * n_cols + a` of the flat array (`finProdFinEquiv (k, a)`).

A query such as `mean_trajectory(T)` is a method whose state is the caller's array `T`, because the code
divides that array in place. Division by a largest time of zero gives nan in numpy and 0 in Lean: theorems
assume that the largest time is not zero.
-/

namespace Verif
open Matrix

/-- `np.linspace(0, 1, n)`. -/
noncomputable def linspace01 (n : ℕ) : Vec n := fun i => if n = 1 then 0 else (i : ℝ) / ((n : ℝ) - 1)

/-- `np.linalg.inv(A)`: LinAlgError if `A` is singular. -/
noncomputable def npInv {n : ℕ} (A : Matrix (Fin n) (Fin n) ℝ) : Except PyErr (Matrix (Fin n) (Fin n) ℝ) :=
  open Classical in if A.det = 0 then .error .linAlgError else .ok A⁻¹

/-- `np.max(T)`: ValueError for an empty array. -/
noncomputable def npMax {n : ℕ} (T : Vec n) : Except PyErr ℝ :=
  if h : 0 < n then .ok (Finset.univ.sup' ⟨⟨0, h⟩, Finset.mem_univ _⟩ T) else .error .valueError

/-- `X.reshape(rows, cols)` of a flat array (C order). -/
def reshape2 {rows cols : ℕ} (x : Vec (rows * cols)) : Matrix (Fin rows) (Fin cols) ℝ :=
  Matrix.of fun i j => x (finProdFinEquiv (i, j))

/-- `X.ravel()` of a 2D array (C order). -/
def ravel2 {rows cols : ℕ} (X : Matrix (Fin rows) (Fin cols) ℝ) : Vec (rows * cols) :=
  fun x => X x.divNat x.modNat

/-- `full[r0:r0 + r, c0:c0 + c] = block`. -/
def assignBlock {R C r c : ℕ} (full : Matrix (Fin R) (Fin C) ℝ) (r0 c0 : ℕ) (block : Matrix (Fin r) (Fin c) ℝ) :
    Matrix (Fin R) (Fin C) ℝ :=
  Matrix.of fun i j =>
    if h : (r0 ≤ i.val ∧ i.val < r0 + r) ∧ (c0 ≤ j.val ∧ j.val < c0 + c) then
      block ⟨i.val - r0, by omega⟩ ⟨j.val - c0, by omega⟩
    else full i j

/-- `_nd_block_diagonal(partial_1d, n_dims)`, `promp.py` lines 606-632: the loop over `j` writes one block
after the other into an array of zeros. -/
def ndBlockDiagonal {r c : ℕ} (partial1d : Matrix (Fin r) (Fin c) ℝ) (d : ℕ) :
    Matrix (Fin (d * r)) (Fin (d * c)) ℝ :=
  (List.range d).foldl (fun full j => assignBlock full (r * j) (c * j) partial1d) 0

/-- A 1D array of times: floats, or integers (which numpy refuses to divide in place). -/
inductive TimeArray (n : ℕ) where
  | float (T : Vec n)
  | int (T : Fin n → ℤ)

/-- State of a `ProMP`, `promp.py` lines 54-63. `variance` exists only after `imitate` (line 339). -/
@[ext] structure ProMP (d w : ℕ) where
  weightMean : Vec (d * w)
  weightCov : Matrix (Fin (d * w)) (Fin (d * w)) ℝ
  centers : Vec w
  variance : Option ℝ

/-- `y_cov` of `condition_position`: None, a `(d, d)` array, or an array of shape `(d,)` or `(1, d)`, which
numpy adds to every row. -/
inductive YCov (d : ℕ) where
  | none
  | full (C : Matrix (Fin d) (Fin d) ℝ)
  | row (v : Vec d)

/-- The `(d, d)` array that is added when `y_cov + Psi_t.T.dot(weight_cov).dot(Psi_t)` is evaluated,
`promp.py` lines 144-148. -/
def YCov.broadcast {d : ℕ} : YCov d → Matrix (Fin d) (Fin d) ℝ
  | .none => 0
  | .full C => C
  | .row v => Matrix.of fun _ j => v j

/-- Squared width `h` of the basis functions, `promp.py` lines 433, 492 and 551. -/
noncomputable def rbfH (w : ℕ) (overlap : ℝ) : ℝ := -1 / (8 * (w : ℝ) ^ 2 * Real.log overlap)

namespace ProMP
variable {d w : ℕ}

/-- `ProMP.__init__(n_dims, n_weights_per_dim)`, `promp.py` lines 54-63. -/
noncomputable def init (d w : ℕ) : ProMP d w where
  weightMean := 0
  weightCov := 1
  centers := linspace01 w
  variance := none

/-- `ProMP.from_weight_distribution`, `promp.py` lines 284-302. -/
def fromWeightDistribution (mean : Vec (d * w)) (cov : Matrix (Fin (d * w)) (Fin (d * w)) ℝ)
    (p : ProMP d w) : ProMP d w :=
  { p with weightMean := mean, weightCov := cov }

/-- Unnormalised activation of basis function `a` at normalised time `s`, `promp.py` lines 436 and 495-496. -/
noncomputable def gauss (p : ProMP d w) (overlap s : ℝ) (a : Fin w) : ℝ :=
  Real.exp (-(s - p.centers a) ^ 2 / (2 * rbfH w overlap))

/-- `ProMP._rbfs_1d_point(t, t_max, overlap=0.7)`, `promp.py` lines 413-444. -/
noncomputable def rbfs1dPoint (p : ProMP d w) (t tMax : ℝ) : Except PyErr (Vec w) :=
  open Classical in
  if tMax = 0 then .error .zeroDivisionError
  else
    let s := t / tMax
    .ok fun a => p.gauss (7 / 10) s a / ∑ b, p.gauss (7 / 10) s b

/-- `T = np.atleast_2d(T); T /= np.max(T)`, `promp.py` lines 495-496 and 553-554: `atleast_2d` returns a view,
so that the caller's array is divided. -/
noncomputable def normalizeTimes {n : ℕ} : Py (TimeArray n) (Vec n) := do
  match (← get) with
  | .int T => do
    let _ ← Py.lift (npMax fun i => (T i : ℝ))
    throw .typeError
  | .float T => do
    let m ← Py.lift (npMax T)
    modify fun _ => .float fun i => T i / m
    return fun i => T i / m

/-- `ProMP._rbfs_1d_sequence(T, overlap=0.7, normalize)`, `promp.py` lines 467-506. -/
noncomputable def rbfs1dSequence {n : ℕ} (p : ProMP d w) (normalize : Bool) :
    Py (TimeArray n) (Matrix (Fin w) (Fin n) ℝ) := do
  let T ← normalizeTimes
  return Matrix.of fun a i =>
    if normalize then p.gauss (7 / 10) (T i) a / ∑ b, p.gauss (7 / 10) (T i) b
    else p.gauss (7 / 10) (T i) a

/-- `ProMP._rbfs_nd_sequence(T)`, `promp.py` lines 446-465. -/
noncomputable def rbfsNdSequence {n : ℕ} (p : ProMP d w) :
    Py (TimeArray n) (Matrix (Fin (d * w)) (Fin (d * n)) ℝ) := do
  let activations ← p.rbfs1dSequence true
  return ndBlockDiagonal activations d

/-- `ProMP._rbfs_derivative_1d_sequence(T)`, `promp.py` lines 529-570. -/
noncomputable def rbfsDerivative1dSequence {n : ℕ} (p : ProMP d w) :
    Py (TimeArray n) (Matrix (Fin w) (Fin n) ℝ) := do
  let h := rbfH w (7 / 10)
  let rbfs ← p.rbfs1dSequence false
  let T ← normalizeTimes
  return Matrix.of fun a i =>
    let deriv := fun b : Fin w => (p.centers b - T i) / h * rbfs b i
    let rbfsSum := ∑ b, rbfs b i
    let derivSum := ∑ b, deriv b
    (deriv a * rbfsSum - rbfs a i * derivSum) / rbfsSum ^ 2

/-- `ProMP._rbfs_derivative_nd_sequence(T)`, `promp.py` lines 508-526. -/
noncomputable def rbfsDerivativeNdSequence {n : ℕ} (p : ProMP d w) :
    Py (TimeArray n) (Matrix (Fin (d * w)) (Fin (d * n)) ℝ) := do
  let activations ← p.rbfsDerivative1dSequence
  return ndBlockDiagonal activations d

/-- `ProMP.trajectory_from_weights(T, weights)`, `promp.py` lines 91-108. -/
noncomputable def trajectoryFromWeights {n : ℕ} (p : ProMP d w) (weights : Vec (d * w)) :
    Py (TimeArray n) (Matrix (Fin n) (Fin d) ℝ) := do
  let Phi ← p.rbfsNdSequence
  return (reshape2 (Phiᵀ *ᵥ weights))ᵀ

/-- `ProMP.mean_trajectory(T)`, `promp.py` lines 163-176. -/
noncomputable def meanTrajectory {n : ℕ} (p : ProMP d w) : Py (TimeArray n) (Matrix (Fin n) (Fin d) ℝ) :=
  p.trajectoryFromWeights p.weightMean

/-- `ProMP.cov_trajectory(T)`, `promp.py` lines 178-192. -/
noncomputable def covTrajectory {n : ℕ} (p : ProMP d w) :
    Py (TimeArray n) (Matrix (Fin (d * n)) (Fin (d * n)) ℝ) := do
  let Phi ← p.rbfsNdSequence
  return Phiᵀ * p.weightCov * Phi

/-- `ProMP.var_trajectory(T)`, `promp.py` lines 194-208. -/
noncomputable def varTrajectory {n : ℕ} (p : ProMP d w) : Py (TimeArray n) (Matrix (Fin n) (Fin d) ℝ) := do
  let cov ← p.covTrajectory (n := n)
  return Matrix.of fun i k => max ((reshape2 (cov.diag))ᵀ i k) 0

/-- `ProMP.mean_velocities(T)`, `promp.py` lines 210-224. -/
noncomputable def meanVelocities {n : ℕ} (p : ProMP d w) : Py (TimeArray n) (Matrix (Fin n) (Fin d) ℝ) := do
  let Phi ← p.rbfsDerivativeNdSequence
  return (reshape2 (Phiᵀ *ᵥ p.weightMean))ᵀ

/-- `ProMP.cov_velocities(T)`, `promp.py` lines 226-240. -/
noncomputable def covVelocities {n : ℕ} (p : ProMP d w) :
    Py (TimeArray n) (Matrix (Fin (d * n)) (Fin (d * n)) ℝ) := do
  let Phi ← p.rbfsDerivativeNdSequence
  return Phiᵀ * p.weightCov * Phi

/-- `ProMP.var_velocities(T)`, `promp.py` lines 242-256. -/
noncomputable def varVelocities {n : ℕ} (p : ProMP d w) : Py (TimeArray n) (Matrix (Fin n) (Fin d) ℝ) := do
  let cov ← p.covVelocities (n := n)
  return Matrix.of fun i k => max ((reshape2 (cov.diag))ᵀ i k) 0

/-- `ProMP.weights(T, Y, lmbda)`, `promp.py` lines 65-89. -/
noncomputable def weights {n : ℕ} (p : ProMP d w) (Y : Matrix (Fin n) (Fin d) ℝ) (lmbda : ℝ) :
    Py (TimeArray n) (Vec (d * w)) := do
  let activations := (← p.rbfsNdSequence)ᵀ
  return (pinv (activationsᵀ * activations + lmbda • 1) * activationsᵀ) *ᵥ ravel2 Yᵀ

/-- Loop of `ProMP.sample_trajectories(T, n_samples, random_state)`, `promp.py` lines 277-282, for the weights
drawn from the random number generator (`random_state.multivariate_normal` is not modelled). -/
noncomputable def sampleTrajectories {n : ℕ} (p : ProMP d w) :
    List (Vec (d * w)) → Py (TimeArray n) (List (Matrix (Fin n) (Fin d) ℝ))
  | [] => return []
  | s :: rest => do
    let Y ← p.trajectoryFromWeights s
    let Ys ← p.sampleTrajectories rest
    return Y :: Ys

/-- `ProMP.condition_position(y_mean, y_cov, t, t_max)`, `promp.py` lines 110-161, a method of the ProMP. -/
noncomputable def conditionPosition (yMean : Vec d) (yCov : YCov d) (t tMax : ℝ) :
    Py (ProMP d w) (ProMP d w) := do
  let p ← get
  let phi ← Py.lift (p.rbfs1dPoint t tMax)
  let block : Matrix (Fin w) (Fin 1) ℝ := Matrix.of fun a _ => phi a
  let Psi : Matrix (Fin (d * w)) (Fin d) ℝ := (ndBlockDiagonal block d).submatrix id (Fin.cast (by simp))
  let inverse ← Py.lift (npInv (yCov.broadcast + Psiᵀ * p.weightCov * Psi))
  let commonTerm := p.weightCov * Psi * inverse
  let weightMean := p.weightMean + commonTerm *ᵥ (yMean - Psiᵀ *ᵥ p.weightMean)
  let weightCov := p.weightCov - commonTerm * Psiᵀ * p.weightCov
  return (ProMP.init d w).fromWeightDistribution weightMean weightCov

/-- Loop of `via_points(promp, ts, y_cond, y_conditional_cov)`, `promp.py` lines 635-677: triples of time,
position and row `y_conditional_cov[[idx]]` (zeros if the argument is None). -/
noncomputable def viaPointsLoop : List (ℝ × Vec d × Vec d) → ProMP d w → Except PyErr (ProMP d w)
  | [], p => return p
  | (t, y, v) :: rest, p => do
    let p' ← ((conditionPosition y (.row v) t 1).exec p).1
    viaPointsLoop rest p'

/-- `via_points(promp, ts, y_cond)` without covariances, `promp.py` lines 667-677. -/
noncomputable def viaPoints (p : ProMP d w) (points : List (ℝ × Vec d)) : Except PyErr (ProMP d w) :=
  viaPointsLoop (points.map fun q => (q.1, q.2, 0)) p

/-- `via_points(promp, ts, y_cond, y_conditional_cov)` with covariances, `promp.py` lines 667-677:
`y_conditional_cov[[idx]]` is row `idx` of the array that was passed. -/
noncomputable def viaPointsCov (p : ProMP d w) (points : List (ℝ × Vec d × Vec d)) : Except PyErr (ProMP d w) :=
  viaPointsLoop points p

end ProMP

end Verif
