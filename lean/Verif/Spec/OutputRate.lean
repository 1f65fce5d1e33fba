import Verif.Np

/-! # Trajectories sampled with different time steps -/

namespace Verif.Spec
variable {p : ℕ}

/-- `coarse` is a trajectory sampled every `K` steps of `fine`: for every row `K * i` of `fine` there is a row `i` of
`coarse`, with the same time and the same configuration. -/
def EveryKth (K : ℕ) (fine coarse : List ℝ × List (Vec p)) : Prop :=
  ∀ i, (h : K * i < fine.1.length) → ∃ (h1 : K * i < fine.2.length) (h2 : i < coarse.1.length) (h3 : i < coarse.2.length),
    coarse.1[i] = fine.1[K * i] ∧ coarse.2[i] = fine.2[K * i]

end Verif.Spec
