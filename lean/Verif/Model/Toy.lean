import Verif.Model.Promp
import Mathlib.Analysis.SpecialFunctions.Trigonometric.Basic

/-!
# Toy data (`movement_primitives/data/_toy_1d.py`)

The random generator is represented by the numbers that it draws: the two values of `random_state.rand()` and
the vector `random_state.randn(n_steps)` of every demonstration.
-/

namespace Verif
open Matrix

/-- `create_finite_differences_matrix_1d(n_steps, dt)`, `data/_toy_1d.py` lines 74-81: three fancy-index
assignments to an array of zeros, in the order of the code, then the division. -/
noncomputable def createFiniteDifferencesMatrix1d (n : ℕ) (dt : ℝ) : Matrix (Fin (n + 2)) (Fin n) ℝ :=
  let A₀ : Matrix (Fin (n + 2)) (Fin n) ℝ := 0
  let A₁ : Matrix (Fin (n + 2)) (Fin n) ℝ := Matrix.of fun i j => if i.val = j.val then 1 else A₀ i j
  let A₂ : Matrix (Fin (n + 2)) (Fin n) ℝ := Matrix.of fun i j => if i.val = j.val + 2 then 1 else A₁ i j
  let A₃ : Matrix (Fin (n + 2)) (Fin n) ℝ := Matrix.of fun i j => if i.val = j.val + 1 then -2 * 1 else A₂ i j
  Matrix.of fun i j => A₃ i j / dt ^ 2

/-- What numpy documents about the result `L` of `np.linalg.cholesky(S)`: `L` is lower triangular with positive
diagonal and `L L^T = S`. -/
structure IsCholesky {n : ℕ} (L S : Matrix (Fin n) (Fin n) ℝ) : Prop where
  lower : ∀ i j, i < j → L i j = 0
  diag_pos : ∀ i, 0 < L i i
  mul_transpose : L * Lᵀ = S

/-- `np.linalg.cholesky(S)`: a Cholesky factor, LinAlgError if there is none. -/
noncomputable def npCholesky {n : ℕ} (S : Matrix (Fin n) (Fin n) ℝ) :
    Except PyErr (Matrix (Fin n) (Fin n) ℝ) :=
  open Classical in if h : ∃ L, IsCholesky L S then .ok h.choose else .error .linAlgError

/-- `np.linspace(a, b, n)`. -/
noncomputable def linspace (a b : ℝ) (n : ℕ) : Vec n := fun i => a + linspace01 n i * (b - a)

/-- Random numbers drawn for one demonstration. -/
structure ToyDraws (n : ℕ) where
  /-- first `random_state.rand()` -/
  u : ℝ
  /-- second `random_state.rand()` -/
  v : ℝ
  /-- `random_state.randn(n_steps)` -/
  z : Vec n

/-- `generate_1d_trajectory_distribution(n_demos, n_steps, initial_offset_range, final_offset_range,
noise_per_step_range, random_state)`, `data/_toy_1d.py` lines 37-55. `1.0 / (n_steps - 1)` is a division of
Python numbers and raises ZeroDivisionError for `n_steps = 1`. A draw that the code skips because the range is
zero is not used. -/
noncomputable def generate1dTrajectoryDistribution (nDemos n : ℕ)
    (initialOffsetRange finalOffsetRange noisePerStepRange : ℝ) (draws : Fin nDemos → ToyDraws n) :
    Except PyErr (Vec n × (Fin nDemos → Vec n)) := do
  let T := linspace 0 1 n
  if (n : ℝ) - 1 = 0 then throw .zeroDivisionError
  let A := createFiniteDifferencesMatrix1d n (1 / ((n : ℝ) - 1))
  let cov ← npInv (Aᵀ * A)
  let L ← npCholesky cov
  return (T, fun demo =>
    let Y₀ : Vec n := fun k => Real.cos (2 * Real.pi * T k)
    let Y₁ : Vec n :=
      if initialOffsetRange ≠ 0 ∨ finalOffsetRange ≠ 0 then
        let initialOffset := initialOffsetRange * ((draws demo).u - 0.5)
        let finalOffset := finalOffsetRange * ((draws demo).v - 0.5)
        fun k => Y₀ k + linspace initialOffset finalOffset n k
      else Y₀
    if noisePerStepRange ≠ 0 then
      fun k => Y₁ k + noisePerStepRange * (L *ᵥ (draws demo).z) k
    else Y₁)

end Verif
