import Verif.Model.DmpStep
import Verif.Model.FinalVelocity
import Verif.Lemmas.Py
import Mathlib.Data.Fin.VecNotation

/-! # C98: precomputed couplings of the step functions of DMPs

The documentation of `coupling_term_precomputed` is "A precomputed coupling term, i.e., additional velocity and acceleration
from another coupling term."
-/

namespace Verif
variable {d m : ℕ}

/-- **C98 (DMPWithFinalVelocity).** A precomputed coupling is added to that of the coupling term, and without coupling term
it acts like a constant coupling term. -/
theorem C98_final_velocity (a : StepArgs d m) (c : Coupling d) (q : Vec d × Vec d) (lastT t : ℝ) (s : Vec d × Vec d) :
    { a with coupling := some c, precomputed := some q }.fvStep lastT t s =
      { a with coupling := some fun y yd => ((c y yd).1 + q.1, (c y yd).2 + q.2), precomputed := none }.fvStep lastT t s ∧
    { a with coupling := none, precomputed := some q }.fvStep lastT t s =
      { a with coupling := some fun _ _ => q, precomputed := none }.fvStep lastT t s := by
  refine ⟨rfl, ?_⟩
  have : ∀ k, ({ a with coupling := none, precomputed := some q } : StepArgs d m).fvBody k =
      ({ a with coupling := some fun _ _ => q, precomputed := none } : StepArgs d m).fvBody k := by
    intro k
    funext dt t s
    simp [StepArgs.fvBody, StepArgs.fvCoupling]
  unfold StepArgs.fvStep
  simp only [this]

/-- **C98 (DMP, acceleration).** Without coupling term, a precomputed acceleration acts like a coupling term with this
constant acceleration, for each of the four step functions. -/
theorem C98_acceleration (sf : StepFunction) (a : StepArgs d m) (v : Vec d) (lastT t : ℝ) (s : Vec d × Vec d) :
    sf.run { a with coupling := none, precomputed := some (0, v) } lastT t s =
      sf.run { a with coupling := some fun _ _ => (0, v), precomputed := none } lastT t s := by
  cases sf with
  | rk4 =>
    have h : ∀ τ x, ({ a with coupling := some fun _ _ => (0, v), precomputed := none } : StepArgs d m).addCd τ x = x := by
      intro τ x
      simp [StepArgs.addCd]
    simp only [StepFunction.run, StepArgs.stepRk4, h]
    rfl
  | rk4Cython =>
    simp only [StepFunction.run, StepArgs.stepRk4Cy, Pi.zero_apply, zero_div, add_zero]
    rfl
  | euler =>
    have : ({ a with coupling := none, precomputed := some (0, v) } : StepArgs d m).eulerBody =
        ({ a with coupling := some fun _ _ => (0, v), precomputed := none } : StepArgs d m).eulerBody := by
      funext dt t s
      simp [StepArgs.eulerBody, StepArgs.acc, StepArgs.addCd, StepArgs.initialCdd]
      rfl
    simp only [StepFunction.run, StepArgs.stepEuler, this]
  | eulerCython =>
    have : ({ a with coupling := none, precomputed := some (0, v) } : StepArgs d m).eulerBodyCy =
        ({ a with coupling := some fun _ _ => (0, v), precomputed := none } : StepArgs d m).eulerBodyCy := by
      funext dt t s
      simp [StepArgs.eulerBodyCy, StepArgs.cyCoupling]
    simp only [StepFunction.run, StepArgs.stepEulerCy, this]

/-- **C98 (Cython Euler).** Without coupling term, velocity and acceleration of a precomputed coupling act like a constant
coupling term. -/
theorem C98_euler_cython (a : StepArgs d m) (q : Vec d × Vec d) (lastT t : ℝ) (s : Vec d × Vec d) :
    StepFunction.eulerCython.run { a with coupling := none, precomputed := some q } lastT t s =
      StepFunction.eulerCython.run { a with coupling := some fun _ _ => q, precomputed := none } lastT t s := by
  have : ({ a with coupling := none, precomputed := some q } : StepArgs d m).eulerBodyCy =
      ({ a with coupling := some fun _ _ => q, precomputed := none } : StepArgs d m).eulerBodyCy := by
    funext dt t s
    simp [StepArgs.eulerBodyCy, StepArgs.cyCoupling]
  simp only [StepFunction.run, StepArgs.stepEulerCy, this]

/-- **C98 (finding).** The other three step functions of DMPs ignore the velocity of a precomputed coupling. -/
theorem C98_finding_velocity_ignored {sf : StepFunction} (hsf : sf ≠ .eulerCython) (a : StepArgs d m) (c : Option (Coupling d))
    (q : Vec d × Vec d) (lastT t : ℝ) (s : Vec d × Vec d) :
    sf.run { a with coupling := c, precomputed := some q } lastT t s =
      sf.run { a with coupling := c, precomputed := some (0, q.2) } lastT t s := by
  cases sf with
  | eulerCython => exact absurd rfl hsf
  | rk4 => rfl
  | rk4Cython => rfl
  | euler => rfl

/-- **C98 (finding).** None of the four step functions of DMPs adds a precomputed coupling to the coupling of a coupling
term: if there is a coupling term, a precomputed coupling is ignored. -/
theorem C98_finding_ignored_with_coupling (sf : StepFunction) (a : StepArgs d m) (c : Coupling d) (q : Vec d × Vec d)
    (lastT t : ℝ) (s : Vec d × Vec d) :
    sf.run { a with coupling := some c, precomputed := some q } lastT t s =
      sf.run { a with coupling := some c, precomputed := none } lastT t s := by
  cases sf with
  | rk4 => simp only [StepFunction.run, StepArgs.stepRk4, StepArgs.acc, StepArgs.addCd]
  | rk4Cython => simp only [StepFunction.run, StepArgs.stepRk4Cy, StepArgs.accCy]
  | euler =>
    have : ({ a with coupling := some c, precomputed := some q } : StepArgs d m).eulerBody =
        ({ a with coupling := some c, precomputed := none } : StepArgs d m).eulerBody := by
      funext dt t s
      simp only [StepArgs.eulerBody, StepArgs.acc, StepArgs.addCd]
    simp only [StepFunction.run, StepArgs.stepEuler, this]
  | eulerCython =>
    have : ({ a with coupling := some c, precomputed := some q } : StepArgs d m).eulerBodyCy =
        ({ a with coupling := some c, precomputed := none } : StepArgs d m).eulerBodyCy := by
      funext dt t s
      simp only [StepArgs.eulerBodyCy, StepArgs.cyCoupling]
    simp only [StepFunction.run, StepArgs.stepEulerCy, this]

/-- **C98 (finding).** So Python and Cython Euler steps differ with a precomputed velocity `w`: after one sub-step the
velocities differ by `w / execution_time`. -/
theorem C98_finding_difference (a : StepArgs d m) (hc : a.coupling = none) {w v : Vec d} (hp : a.precomputed = some (w, v))
    (hT : a.startT < a.goalT) {lastT t : ℝ} (ht : a.startT < t) (hlt : lastT < t) (hint : t - lastT < a.intDt)
    (s : Vec d × Vec d) :
    ∃ y yd y' yd', StepFunction.euler.run a lastT t s = .ok (y, yd) ∧
      StepFunction.eulerCython.run a lastT t s = .ok (y', yd') ∧ ∀ k, yd' k = yd k + w k / (a.goalT - a.startT) := by
  simp only [StepFunction.run, StepArgs.stepEuler, StepArgs.stepEulerCy, not_le.2 hT, not_le.2 ht, if_false]
  rw [intLoop_step _ hlt, intLoop_step _ hlt]
  simp only [if_pos hint, add_sub_cancel]
  rw [intLoop_done _ le_rfl, intLoop_done _ le_rfl]
  refine ⟨_, _, _, _, rfl, rfl, fun k => ?_⟩
  simp only [StepArgs.cyCoupling, StepArgs.acc, StepArgs.initialCdd, hc, hp, Pi.add_apply, Pi.smul_apply, smul_eq_mul]
  have hsm : (if a.smooth = true then a.betaY * (a.goalY - a.startY) * (fun _ => a.ft.phaseAt t) else 0 : Vec d) k =
      if a.smooth = true then a.betaY k * (a.goalY k - a.startY k) * a.ft.phaseAt t else 0 := by
    split_ifs <;> rfl
  rw [hsm]
  ring

/-- Hypotheses of the last theorem are met, with a velocity that is not zero. -/
example : ∃ a : StepArgs 1 2, a.coupling = none ∧ a.precomputed = some (![1], ![2]) ∧ a.startT < a.goalT ∧
    a.startT < (1 / 2000 : ℝ) ∧ (1 / 2000 - 0 : ℝ) < a.intDt := by
  refine ⟨{ goalY := ![1], goalYd := 0, goalYdd := 0, startY := 0, startYd := 0, startYdd := 0, goalT := 1, startT := 0
            alphaY := 1, betaY := 1, precomputed := some (![1], ![2]), ft := ⟨1, 0, 1, 1, 0, 1, fun _ _ => 0, 0, 0⟩ },
    rfl, rfl, ?_, ?_, ?_⟩ <;> norm_num

end Verif
