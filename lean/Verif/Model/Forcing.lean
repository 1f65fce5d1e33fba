import Verif.Model.Canonical
import Verif.Np
import Mathlib.Algebra.BigOperators.Fin

/-!
# Forcing term (`movement_primitives/dmp/_forcing_term.py`)
-/

namespace Verif

open scoped BigOperators

/-- Attributes of `ForcingTerm`, `dmp/_forcing_term.py` lines 37-75. `d` is `n_dims`, `m` is
`n_weights_per_dim`. -/
structure ForcingTerm (d m : ℕ) where
  goalT : ℝ
  startT : ℝ
  overlap : ℝ
  alphaZ : ℝ
  logOverlap : ℝ
  executionTime : ℝ
  weights : Fin d → Fin m → ℝ
  centers : Fin m → ℝ
  widths : Fin m → ℝ

namespace ForcingTerm
variable {d m : ℕ}

/-- Centers as computed by `_init_rbfs`, lines 57-65: the first one at `start_t`, all others at
`i * step` (the code does not add `start_t` here). -/
noncomputable def initCenter (m : ℕ) (goalT startT alphaZ : ℝ) (i : ℕ) : ℝ :=
  if i = 0 then phase startT alphaZ goalT startT
  else phase (i * ((goalT - startT) / (m - 1 : ℝ))) alphaZ goalT startT

/-- Widths as computed by `_init_rbfs`, lines 66-73. For equal neighbouring centers numpy yields `inf`
while this definition yields `0` (Lean's division by zero); all theorems exclude that case or are
about it. -/
noncomputable def initWidth (m : ℕ) (goalT startT alphaZ logOverlap : ℝ) (i : ℕ) : ℝ :=
  let j := if i + 1 < m then i else m - 2
  logOverlap / (initCenter m goalT startT alphaZ (j + 1) - initCenter m goalT startT alphaZ j) ^ 2

/-- `ForcingTerm.__init__`, lines 37-75; `math.log` raises ValueError for a non-positive `overlap`. -/
noncomputable def create (d m : ℕ) (goalT startT overlap alphaZ : ℝ) :
    Except PyErr (ForcingTerm d m) :=
  if m ≤ 1 then .error .valueError
  else if goalT ≤ startT then .error .valueError
  else if overlap ≤ 0 then .error .valueError
  else .ok
    { goalT := goalT, startT := startT, overlap := overlap, alphaZ := alphaZ
      logOverlap := -Real.log overlap
      executionTime := goalT - startT
      weights := fun _ _ => 0
      centers := fun i => initCenter m goalT startT alphaZ i
      widths := fun i => initWidth m goalT startT alphaZ (-Real.log overlap) i }

/-- Unnormalised activation of basis function `i`: `_activations`, lines 77-80. -/
noncomputable def rbf (ft : ForcingTerm d m) (z : ℝ) (i : Fin m) : ℝ :=
  Real.exp (-ft.widths i * (z - ft.centers i) ^ 2)

/-- `_activations(z)`, lines 75-80, one column (one phase value). -/
noncomputable def activations (ft : ForcingTerm d m) (z : ℝ) (i : Fin m) : ℝ :=
  ft.rbf z i / ∑ j, ft.rbf z j

/-- `ForcingTerm.phase(t)`, lines 86-88. -/
noncomputable def phaseAt (ft : ForcingTerm d m) (t : ℝ) : ℝ :=
  phase t ft.alphaZ ft.goalT ft.startT

/-- `forcing_term(z)`, lines 90-93, one column: `z * weights_.dot(activations)`. -/
noncomputable def force (ft : ForcingTerm d m) (z : ℝ) : Vec d :=
  fun k => z * ∑ i, ft.weights k i * ft.activations z i

/-- `__call__(t)`, lines 95-96. -/
noncomputable def call (ft : ForcingTerm d m) (t : ℝ) : Vec d := ft.force (ft.phaseAt t)

/-- `design_matrix(T)`, lines 82-84; `T` has `n + 1` entries (numpy raises IndexError for none). The phase
is computed from the first and last entry of `T`. -/
noncomputable def designMatrix (ft : ForcingTerm d m) {n : ℕ} (T : Fin (n + 1) → ℝ) :
    Fin m → Fin (n + 1) → ℝ :=
  fun i k =>
    let z := phase (T k) ft.alphaZ (T (Fin.last n)) (T 0)
    z * ft.activations z i

end ForcingTerm
end Verif
