import Verif.Np
import Mathlib.Algebra.BigOperators.Group.Finset.Basic

/-!
# Specification of the toy data

A trajectory with `n` samples is extended by zeros on both sides; its acceleration at a sample is the second
difference quotient.
-/

namespace Verif.Spec

/-- Sample `k` of `x`, zero outside of the trajectory. -/
noncomputable def padded {n : ℕ} (x : Vec n) (k : ℤ) : ℝ :=
  if h : 0 ≤ k ∧ k < n then x ⟨k.toNat, by omega⟩ else 0

/-- Second difference quotient of the extended trajectory at sample `k`. -/
noncomputable def secondDifference {n : ℕ} (x : Vec n) (dt : ℝ) (k : ℤ) : ℝ :=
  (padded x (k - 1) - 2 * padded x k + padded x (k + 1)) / dt ^ 2

/-- Sum of the squared accelerations over all samples `-1, ..., n`. -/
noncomputable def roughness {n : ℕ} (x : Vec n) (dt : ℝ) : ℝ :=
  ∑ r : Fin (n + 2), secondDifference x dt ((r.val : ℤ) - 1) ^ 2

end Verif.Spec
