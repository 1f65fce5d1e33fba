import Verif.Py
import Mathlib.Analysis.SpecialFunctions.Log.Basic

/-!
# Canonical system (`movement_primitives/dmp/_canonical_system.py`)
-/

namespace Verif

/-- `canonical_system_alpha(goal_z, goal_t, start_t)`, `dmp/_canonical_system.py` lines 4-47. -/
noncomputable def canonicalSystemAlpha (goalZ goalT startT : ℝ) : Except PyErr ℝ :=
  if goalZ ≤ 0 then .error .valueError
  else if goalT ≤ startT then .error .valueError
  else .ok (-Real.log goalZ)

/-- `phase(t, alpha, goal_t, start_t)`, `dmp/_canonical_system.py` lines 49-95 (same formula in
`dmp_fast.pyx` lines 21-44). -/
noncomputable def phase (t alpha goalT startT : ℝ) : ℝ :=
  Real.exp (-alpha * (t - startT) / (goalT - startT))

end Verif
