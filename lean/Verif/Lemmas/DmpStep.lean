import Verif.Model.DmpStep
import Verif.Lemmas.Py
import Verif.Spec.Dmp
import Mathlib.Tactic.Module
import Mathlib.Tactic.Abel

/-! # Helper lemmas about the step functions -/

namespace Verif
namespace StepArgs
variable {d m : ℕ} (a : StepArgs d m)

theorem accCy_eq (Y V cdd : Vec d) (z τ : ℝ) (f tdd : Vec d) :
    a.accCy Y V cdd z τ f tdd = a.acc Y V cdd z τ f tdd := by
  funext k
  unfold accCy acc
  cases a.smooth <;> cases a.coupling <;> simp

/-- Acceleration of one dimension without coupling term. -/
theorem acc_apply (hc : a.coupling = none) (Y V cdd : Vec d) (z τ : ℝ) (f tdd : Vec d) (k : Fin d) :
    a.acc Y V cdd z τ f tdd k =
      Spec.dmpAcceleration (a.alphaY k) (a.betaY k) (a.goalY k) (a.startY k) τ a.smooth z
        (f k + cdd k + tdd k) (Y k) (V k) := by
  unfold acc Spec.dmpAcceleration
  rw [hc]
  cases a.smooth <;> simp <;> ring

theorem eulerBody_none (hc : a.coupling = none) (dt t : ℝ) (s : Vec d × Vec d) :
    a.eulerBody dt t s =
      let ydd := a.acc s.1 s.2 a.initialCdd (a.ft.phaseAt t) (a.goalT - a.startT)
        (a.ft.force (a.ft.phaseAt t)) (fun k => a.pGain * a.trackingError k / dt)
      (s.1 + dt • (s.2 + dt • ydd), s.2 + dt • ydd) := by
  unfold eulerBody addCd
  rw [hc]

theorem cyCoupling_none (hc : a.coupling = none) (hp : ∀ p, a.precomputed = some p → p.1 = 0)
    (s : Vec d × Vec d) : a.cyCoupling s = (0, a.initialCdd) := by
  unfold cyCoupling initialCdd
  rw [hc]
  cases h : a.precomputed with
  | none => rfl
  | some p => rw [← hp p h]

theorem eulerBodyCy_eq (hc : a.coupling = none) (hp : ∀ p, a.precomputed = some p → p.1 = 0)
    (dt t : ℝ) (s : Vec d × Vec d) : a.eulerBodyCy dt t s = a.eulerBody dt t s := by
  rw [eulerBody_none a hc]
  unfold eulerBodyCy
  rw [cyCoupling_none a hc hp]
  ext k
  · simp only [acc_apply a hc, Spec.dmpAcceleration, Pi.add_apply, Pi.smul_apply, smul_eq_mul, Pi.zero_apply]
    ring
  · simp only [acc_apply a hc, Spec.dmpAcceleration, Pi.add_apply, Pi.smul_apply, smul_eq_mul, Pi.zero_apply]
    ring

end StepArgs
end Verif
