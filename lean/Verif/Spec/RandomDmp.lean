import Verif.Model.Dmp
import Verif.Model.SpringDamper
import Verif.Spec.PrompSamples

/-! # Specification: DMPs with random parameters -/

namespace Verif.Spec
open Verif

/-- Weights, start and goal of a DMP in one vector (the order of `dmp_to_state_space_distribution.py`). -/
abbrev DmpParameters (d m : ℕ) : Type := Fin (d * m) ⊕ Fin d ⊕ Fin d

/-- `dmp.configure(start_y=start, goal_y=goal); dmp.set_weights(weights); dmp.open_loop(run_t, step_function=name)` -/
noncomputable def openLoopOfParameters {d m : ℕ} (runT : Option ℝ) (name : String) (x : DmpParameters d m → ℝ) :
    Py (DMP d m) (List ℝ × List (Vec d)) := do
  DMP.configure { startY := some (List.ofFn fun k => x (.inr (.inl k))), goalY := some (List.ofFn fun k => x (.inr (.inr k))) }
  DMP.setWeights (List.ofFn fun i => x (.inl i))
  DMP.openLoop runT none name

/-- Weights (as returned by `get_weights`), start and goal of a DMP. -/
def parametersOf {d m : ℕ} (s : DMP d m) : DmpParameters d m → ℝ :=
  Sum.elim (fun i => s.ft.weights i.divNat i.modNat) (Sum.elim s.startY s.goalY)

/-- `spring_damper.configure(start_y=start, goal_y=goal); spring_damper.open_loop(run_t)` -/
noncomputable def springDamperOpenLoopOf {d : ℕ} (runT : ℝ) (x : Fin d ⊕ Fin d → ℝ) :
    Py (SpringDamper d) (List ℝ × List (Vec d)) := do
  SpringDamper.configure { startY := some (List.ofFn fun k => x (.inl k)), goalY := some (List.ofFn fun k => x (.inr k)) }
  SpringDamper.openLoop runT none

/-- All positions of the first `n` rows of a trajectory. -/
def rowValues {d : ℕ} (n : ℕ) (Y : List (Vec d)) : Fin n × Fin d → ℝ := fun z => (Y[z.1.val]?.getD 0) z.2

end Verif.Spec
