import Verif.Np

/-! # Specifications for imitation learning -/

namespace Verif.Spec

/-- Finite difference of samples `x` at times `T`: central in the interior, one-sided at both ends. -/
noncomputable def finiteDifference {n : ℕ} (T x : Fin (n + 2) → ℝ) (i : Fin (n + 2)) : ℝ :=
  let next : Fin (n + 2) := if h : i.val + 1 < n + 2 then ⟨i.val + 1, h⟩ else i
  let prev : Fin (n + 2) := ⟨i.val - 1, by omega⟩
  (x next - x prev) / (T next - T prev)

/-- Regularised squared error between target forces `F` and the forces `f W t` produced with weights `W`. -/
noncomputable def regularizedError {d m n : ℕ} (F : Fin n → Vec d) (f : (Fin d → Fin m → ℝ) → Fin n → Vec d)
    (reg : ℝ) (W : Fin d → Fin m → ℝ) : ℝ :=
  ∑ t, ∑ k, (F t k - f W t k) ^ 2 + reg * ∑ k, ∑ i, W k i ^ 2

end Verif.Spec
