import Verif.Np
import Mathlib.LinearAlgebra.Matrix.Determinant.Basic
import Mathlib.Analysis.SpecialFunctions.Sqrt
import Mathlib.Analysis.SpecialFunctions.Trigonometric.Basic

/-!
# Specification of rotations, rigid transforms and minimum search
-/

namespace Verif.Spec
open Matrix

/-- Proper rotation matrices. -/
def IsRotation (R : Matrix (Fin 3) (Fin 3) ℝ) : Prop := Rᵀ * R = 1 ∧ R.det = 1

/-- Homogeneous matrix of the transform `x ↦ R x + p`. -/
def pose (R : Matrix (Fin 3) (Fin 3) ℝ) (p : Vec 3) : Matrix (Fin 4) (Fin 4) ℝ :=
  !![R 0 0, R 0 1, R 0 2, p 0;
     R 1 0, R 1 1, R 1 2, p 1;
     R 2 0, R 2 1, R 2 2, p 2;
     0, 0, 0, 1]

/-- Homogeneous matrices of rigid motions. -/
def IsRigid (M : Matrix (Fin 4) (Fin 4) ℝ) : Prop := ∃ R p, IsRotation R ∧ M = pose R p

/-- Unit vectors of length one in space. -/
def IsUnitAxis (u : Vec 3) : Prop := u 0 ^ 2 + u 1 ^ 2 + u 2 ^ 2 = 1

/-- Rotation of `v` about the unit axis `u` by the angle `θ` (Rodrigues' formula). -/
noncomputable def rotate (u : Vec 3) (θ : ℝ) (v : Vec 3) : Vec 3 :=
  fun i => Real.cos θ * v i + Real.sin θ * (![u 1 * v 2 - u 2 * v 1, u 2 * v 0 - u 0 * v 2, u 0 * v 1 - u 1 * v 0]) i
    + (1 - Real.cos θ) * (u 0 * v 0 + u 1 * v 1 + u 2 * v 2) * u i

/-- Length of a vector. -/
noncomputable def length3 (v : Vec 3) : ℝ := Real.sqrt (v 0 ^ 2 + v 1 ^ 2 + v 2 ^ 2)

/-- `v` lies between the bounds. -/
def Within {n : ℕ} (bounds : Fin n → ℝ × ℝ) (q : Vec n) : Prop := ∀ i, (bounds i).1 ≤ q i ∧ q i ≤ (bounds i).2

/-- The closest admissible value of a joint with the given limits (`none`: unlimited). -/
def IsClipped (lower upper : Option ℝ) (value clipped : ℝ) : Prop :=
  (∀ lo ∈ lower, lo ≤ clipped) ∧ (∀ hi ∈ upper, clipped ≤ hi) ∧
  ∀ x, (∀ lo ∈ lower, lo ≤ x) → (∀ hi ∈ upper, x ≤ hi) → |clipped - value| ≤ |x - value|

/-- A minimiser (of a function that can fail, from a start value, in bounds) is sound if its result lies in the
bounds and it reports the value of the function there. -/
def SoundMinimizer {n : ℕ} {ε : Type}
    (minimize : String → (Vec n → Except ε ℝ) → Vec n → (Fin n → ℝ × ℝ) → Except ε (Vec n × ℝ)) : Prop :=
  ∀ solver f x0 bounds x e, (∀ i, (bounds i).1 ≤ (bounds i).2) → minimize solver f x0 bounds = .ok (x, e) →
    Within bounds x ∧ f x = .ok e

/-- The outcome of a search with at most `N` attempts, of which attempt `k` would give a solution with error
`e k`: after `K` attempts the solution of attempt `i` is returned. The search stops at the first success, and
otherwise after `N` attempts; the solution is the first one with the smallest error. -/
structure BestOf (N : ℕ) (tolerance : ℝ) (e : ℕ → ℝ) (K i : ℕ) : Prop where
  attempts : 1 ≤ K ∧ K ≤ N
  no_early_success : ∀ k, k + 1 < K → tolerance < e k
  stop : K < N → e (K - 1) ≤ tolerance
  made : i < K
  smallest : ∀ k < K, e i ≤ e k
  first : ∀ k < i, e i < e k

end Verif.Spec
