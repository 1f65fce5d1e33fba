import Verif.Py
import Verif.Np

/-! # Time grids of `open_loop` -/

namespace Verif.Spec

/-- The times `0, dt, 2 dt, ...` up to the first one that is not before `runT`. -/
def TimeGrid (dt runT : ℝ) (T : List ℝ) : Prop :=
  0 < T.length ∧ (∀ i (hi : i < T.length), T[i] = i * dt) ∧ runT ≤ (T.length - 1 : ℕ) * dt ∧
    ∀ i : ℕ, i + 1 < T.length → i * dt < runT

end Verif.Spec
