import Mathlib.Data.Real.Basic
import Mathlib.Algebra.Order.Floor.Ring
import Mathlib.Algebra.Order.Archimedean.Real.Basic
import Mathlib.Algebra.Algebra.Pi

/-!
# numpy functions used by the model

Modelled from numpy's documentation over real numbers; arrays of shape `(n,)` are `Fin n → ℝ`
(`Vec n`), for which Lean's pointwise operations are numpy's element-wise operations.
-/

namespace Verif

/-- A numpy array of shape `(n,)`. -/
abbrev Vec (n : ℕ) := Fin n → ℝ

/-- Length of `np.arange(start, stop, step)`: `max(0, ceil((stop - start) / step))`. -/
noncomputable def arangeLen (start stop step : ℝ) : ℕ := ⌈(stop - start) / step⌉₊

/-- Entry `i` of `np.arange(start, stop, step)`. -/
noncomputable def arangeAt (start step : ℝ) (i : ℕ) : ℝ := start + i * step

/-- `np.gradient(x)` for a 1D array with at least two entries: one-sided differences at both ends,
central differences in the interior. (numpy raises ValueError for fewer than two entries.) -/
noncomputable def gradient {n : ℕ} (x : Fin (n + 2) → ℝ) (i : Fin (n + 2)) : ℝ :=
  if i.val = 0 then x 1 - x 0
  else if h : i.val + 1 < n + 2 then
    (x ⟨i.val + 1, h⟩ - x ⟨i.val - 1, by omega⟩) / 2
  else x i - x ⟨i.val - 1, by omega⟩

end Verif
