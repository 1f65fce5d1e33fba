import Verif.Np

/-! # Fit and size of weights -/

namespace Verif.Spec

/-- Sum of squared differences of two arrays of forces (one vector per time). -/
noncomputable def squaredError {d n : ℕ} (F G : Fin n → Vec d) : ℝ := ∑ t, ∑ k, (F t k - G t k) ^ 2

/-- Sum of squared weights. -/
noncomputable def squaredWeights {d m : ℕ} (W : Fin d → Fin m → ℝ) : ℝ := ∑ k, ∑ i, W k i ^ 2

end Verif.Spec
