import Verif.Model.Dmp
import Verif.Lemmas.DmpStep

/-! # Helper lemmas about the `DMP` class -/

namespace Verif
namespace DMP
variable {d m : ℕ}

/-- State in which the step function is called. -/
def beginStep (s : DMP d m) : DMP d m :=
  { s with
    lastT := some s.t
    t := s.t + s.dt
    currentY := if s.initialized then s.currentY else s.startY
    currentYd := if s.initialized then s.currentYd else s.startYd
    initialized := true }

/-- Outcome of a step. -/
def finishStep (s1 : DMP d m) : Except PyErr (Vec d × Vec d) → Except PyErr (Vec d × Vec d) × DMP d m
  | .ok r => (.ok r, { s1 with currentY := r.1, currentYd := r.2 })
  | .error e => (.error e, s1)

theorem exec_step (coupling : Option (Coupling d)) (sf : StepFunction) (lastY lastYd : Vec d) (s : DMP d m) :
    (step coupling sf lastY lastYd).exec s =
      finishStep s.beginStep (sf.run (s.beginStep.stepArgs coupling (s.beginStep.currentY - lastY)) s.t
        (s.t + s.dt) (s.beginStep.currentY, s.beginStep.currentYd)) := by
  unfold step
  simp only [Py.exec_bind, Py.exec_lift, Py.exec_get, Py.exec_modify, Py.exec_pure]
  have e : (if s.initialized = true then ({ s with lastT := some s.t, t := s.t + s.dt } : DMP d m) else
      { s with lastT := some s.t, t := s.t + s.dt, currentY := s.startY, currentYd := s.startYd,
               initialized := true }) = s.beginStep := by
    unfold beginStep
    cases s.initialized <;> simp
  rw [e]
  have hl : s.beginStep.lastT.getD 0 = s.t := rfl
  have ht : s.beginStep.t = s.t + s.dt := rfl
  simp only [hl, ht]
  cases sf.run (s.beginStep.stepArgs coupling (s.beginStep.currentY - lastY)) s.t
        (s.t + s.dt) (s.beginStep.currentY, s.beginStep.currentYd) <;> rfl

end DMP
end Verif
