import Verif.Np
import Mathlib.Analysis.Real.Sqrt

/-! # Step sizes for which the integration of a spring-damper system is stable -/

namespace Verif.Spec

/-- Damping of a spring-damper system with stiffness `k`: the given one or the critical one. -/
noncomputable def damping (k : ℝ) (c : Option ℝ) : ℝ := c.getD (2 * √k)

/-- `k` stiffness, `c` damping, `dt` time between two results, `intDt` step size of the integration. Either any `dt` and
a conservative bound, or `dt` a multiple of `intDt` and the exact bound. -/
def StableSpring (k c dt intDt : ℝ) : Prop :=
  0 < k ∧ 0 < c ∧ 0 < dt ∧ 0 < intDt ∧
    (2 * intDt * (2 * k + c ^ 2) * (k + c ^ 2) ≤ k * c ∨
      (∃ n : ℕ, 0 < n ∧ dt = n * intDt) ∧ intDt ^ 2 * k + 2 * (intDt * c) < 4)

end Verif.Spec
