import Verif.Lemmas.FloatDmp
import Verif.Props.FloatGoal
import Verif.Lemmas.Dmp
import Verif.Lemmas.DmpStep

/-!
# C106: DMPs reach their goals in double precision
-/

namespace Verif
open Spec

variable {d m : ℕ}

/-- Object after the bookkeeping of `step`. -/
noncomputable def DMP.beginStepFl (rnd : ℝ → ℝ) (s : DMP d m) : DMP d m :=
  { s.beginStep with t := rnd (s.t + s.dt) }

theorem DMP.exec_stepFl (o : FloatOps d) (coupling : Option (Coupling d)) (sf : StepFunction) (lastY lastYd : Vec d) (s : DMP d m) :
    (DMP.stepFl o coupling sf lastY lastYd).exec s =
      finishStep (s.beginStepFl o.rnd) (sf.runFl o ((s.beginStepFl o.rnd).stepArgs coupling
        (fun i => o.rnd ((s.beginStepFl o.rnd).currentY i - lastY i))) s.t (o.rnd (s.t + s.dt))
          ((s.beginStepFl o.rnd).currentY, (s.beginStepFl o.rnd).currentYd)) := by
  unfold stepFl
  simp only [Py.exec_bind, Py.exec_lift, Py.exec_get, Py.exec_modify, Py.exec_pure]
  have e : (if s.initialized = true then ({ s with lastT := some s.t, t := o.rnd (s.t + s.dt) } : DMP d m) else
      { s with lastT := some s.t, t := o.rnd (s.t + s.dt), currentY := s.startY, currentYd := s.startYd,
               initialized := true }) = s.beginStepFl o.rnd := by
    unfold beginStepFl beginStep
    cases s.initialized <;> simp
  rw [e]
  have hl : (s.beginStepFl o.rnd).lastT.getD 0 = s.t := rfl
  have ht : (s.beginStepFl o.rnd).t = o.rnd (s.t + s.dt) := rfl
  simp only [hl, ht]
  cases sf.runFl o ((s.beginStepFl o.rnd).stepArgs coupling
    (fun i => o.rnd ((s.beginStepFl o.rnd).currentY i - lastY i))) s.t (o.rnd (s.t + s.dt))
      ((s.beginStepFl o.rnd).currentY, (s.beginStepFl o.rnd).currentYd) <;> rfl

/-! ## Exact arithmetic is the special case of the remaining model -/

/-- The operations of exact arithmetic with the forcing term `ft`. -/
noncomputable def FloatOps.exact (ft : ForcingTerm d m) : FloatOps d where
  rnd := id
  sq := fun x => x ^ 2
  phase := ft.phaseAt
  force := fun t => ft.force (ft.phaseAt t)

/-- Without rounding, the step functions are those of the remaining model. -/
theorem StepFunction.runFl_exact (sf : StepFunction) {ft : ForcingTerm d m} : ∀ a : StepArgs d m, a.ft = ft →
    sf.runFl (FloatOps.exact ft) a = sf.run a := by
  have h1 : ∀ (a : StepArgs d m), a.ft = ft → (FloatOps.exact ft).eulerBody a = a.eulerBody := by
    intro a ha
    funext dt t x
    unfold FloatOps.eulerBody StepArgs.eulerBody StepArgs.acc FloatOps.springForce FloatOps.smoothing StepArgs.initialCdd
      StepArgs.addCd FloatOps.exact
    rw [ha]
    simp only [id_eq]
    rcases a.coupling with _ | c <;> rcases a.precomputed with _ | p <;> rcases a.smooth with _ | _ <;>
      simp [Pi.add_def, smul_eq_mul, Pi.smul_def]
  have h2 : ∀ (a : StepArgs d m), a.ft = ft → (FloatOps.exact ft).eulerBodyCy a = a.eulerBodyCy := by
    intro a ha
    funext dt t x
    unfold FloatOps.eulerBodyCy StepArgs.eulerBodyCy FloatOps.springForce FloatOps.smoothing FloatOps.exact
    rw [ha]
    simp only [id_eq]
  have hacc : ∀ (a : StepArgs d m), a.ft = ft → ∀ (tdd : Vec d) t x, (FloatOps.exact ft).acc a
      ((FloatOps.exact ft).initialCdd a) tdd t x =
      a.acc x.1 x.2 a.initialCdd (a.ft.phaseAt t) (a.goalT - a.startT) (a.ft.force (a.ft.phaseAt t)) tdd := by
    intro a ha tdd t x
    unfold FloatOps.acc StepArgs.acc FloatOps.springForce FloatOps.smoothing StepArgs.initialCdd FloatOps.initialCdd FloatOps.exact
    rw [ha]
    simp only [id_eq]
    rcases a.coupling with _ | c <;> rcases a.precomputed with _ | p <;> rcases a.smooth with _ | _ <;> simp
  have hcd : ∀ (a : StepArgs d m) x, (FloatOps.exact ft).addCd a x = a.addCd (a.goalT - a.startT) x := fun _ _ => rfl
  have hax : ∀ (z : ℝ) (x v : Vec d), (FloatOps.exact ft).axpy z x v = x + z • v := fun _ _ _ => rfl
  intro a ha
  funext lastT t x
  cases sf with
  | euler =>
    show (FloatOps.exact ft).stepEuler a lastT t x = a.stepEuler lastT t x
    unfold FloatOps.stepEuler StepArgs.stepEuler
    rw [h1 a ha]
    show (if a.goalT ≤ a.startT then _ else if t ≤ a.startT then _ else intLoopFl id a.intDt t a.eulerBody lastT x) = _
    rw [C79_exact]
  | eulerCython =>
    show (FloatOps.exact ft).stepEulerCy a lastT t x = a.stepEulerCy lastT t x
    unfold FloatOps.stepEulerCy StepArgs.stepEulerCy
    rw [h2 a ha]
    show (if a.goalT ≤ a.startT then _ else intLoopFl id a.intDt t a.eulerBodyCy lastT
      (if t ≤ a.startT then (a.startY, a.startYd) else x)) = _
    rw [C79_exact]
  | rk4 =>
    show (FloatOps.exact ft).stepRk4 a lastT t x = a.stepRk4 lastT t x
    unfold FloatOps.stepRk4 FloatOps.stages
    simp only [hacc a ha, hcd, hax]
    rfl
  | rk4Cython =>
    show (FloatOps.exact ft).stepRk4Cy a lastT t x = a.stepRk4Cy lastT t x
    unfold FloatOps.stepRk4Cy FloatOps.stages StepArgs.stepRk4Cy
    simp only [hacc a ha, hcd, hax, StepArgs.accCy_eq]
    unfold StepArgs.addCd
    rcases a.coupling with _ | c <;> rfl

/-- C106: without rounding, the floating-point model of `DMP.step` is the model about which the other properties are proved. -/
theorem C106_dmp_exact (coupling : Option (Coupling d)) (sf : StepFunction) (y yd : Vec d) (s : DMP d m) :
    (DMP.stepFl (FloatOps.exact s.ft) coupling sf y yd).exec s = (DMP.step coupling sf y yd).exec s := by
  have hb : s.beginStepFl (FloatOps.exact s.ft).rnd = s.beginStep := rfl
  have hft : ∀ te, (s.beginStep.stepArgs coupling te).ft = s.ft := fun te => by
    unfold DMP.beginStep DMP.stepArgs
    rfl
  rw [DMP.exec_stepFl, DMP.exec_step, hb, sf.runFl_exact _ (hft _)]
  rfl

/-! ## One integration step -/

theorem Rounds.mono {u u' w : ℝ} {rnd : ℝ → ℝ} (h : Rounds u w rnd) (hu : u ≤ u') : Rounds u' w rnd := fun x =>
  (h x).trans (by have := mul_le_mul_of_nonneg_right hu (abs_nonneg x); linarith)

/-- The two loop bodies compute the same as long as there is neither a coupling term nor a tracking error. -/
theorem eulerBodies_eq {o : FloatOps d} (h : IsRounding o.rnd) (a : StepArgs d m) (hcp : a.coupling = none) (hpre : a.precomputed = none)
    (hp : a.pGain = 0) (dt t : ℝ) (s : Vec d × Vec d) :
    (o.eulerBody a dt t s = ((fun i => o.rnd (s.1 i + o.rnd (dt * o.rnd (s.2 i + o.rnd (dt * o.rnd (o.springForce a t s i /
        o.sq (o.rnd (a.goalT - a.startT)))))))), fun i => o.rnd (s.2 i + o.rnd (dt * o.rnd (o.springForce a t s i /
        o.sq (o.rnd (a.goalT - a.startT))))))) ∧
      o.eulerBodyCy a dt t s = o.eulerBody a dt t s := by
  have r0 := h.of_isDouble isDouble_zero
  have hround : ∀ x : ℝ, o.rnd (o.rnd x) = o.rnd x := fun x => h.of_isDouble (h.isDouble x)
  have hsf : ∀ i, o.rnd (o.springForce a t s i) = o.springForce a t s i := fun i => hround _
  have e1 : o.eulerBody a dt t s = ((fun i => o.rnd (s.1 i + o.rnd (dt * o.rnd (s.2 i + o.rnd (dt * o.rnd (o.springForce a t s i /
        o.sq (o.rnd (a.goalT - a.startT)))))))), fun i => o.rnd (s.2 i + o.rnd (dt * o.rnd (o.springForce a t s i /
        o.sq (o.rnd (a.goalT - a.startT)))))) := by
    unfold FloatOps.eulerBody
    rw [hcp, hpre, hp]
    simp only [zero_mul, r0, zero_div, Pi.zero_apply, add_zero, hsf]
  refine ⟨e1, ?_⟩
  rw [e1]
  unfold FloatOps.eulerBodyCy StepArgs.cyCoupling
  rw [hcp, hpre, hp]
  simp only [zero_mul, r0, zero_div, Pi.zero_apply, add_zero, hsf, hround]

/-- Additive part of the error of an integration step. -/
noncomputable def dmpStepError (α β τ intDt g Φ : ℝ) : ℝ :=
  2 * (intDt * (Φ / τ ^ 2)) + 5 / 2 * (2 : ℝ) ^ (-53 : ℤ) * (frequency (α * β / τ ^ 2) (α / τ) * |g|) +
    (2 * (intDt * (2 * (α * (β + 4) + 2) / τ ^ 2 + 1)) + 4 * (1 + frequency (α * β / τ ^ 2) (α / τ))) * (2 : ℝ) ^ (-1074 : ℤ)

theorem dmpStepError_force (α β τ intDt g Φ : ℝ) :
    dmpStepError α β τ intDt g Φ = dmpStepError α β τ intDt g 0 + 2 * (intDt * (Φ / τ ^ 2)) := by
  unfold dmpStepError
  generalize (2 : ℝ) ^ (-1074 : ℤ) = w
  generalize (2 : ℝ) ^ (-53 : ℤ) = u
  ring

theorem eulerBody_decay {o : FloatOps d} (h : IsRounding o.rnd) (a : StepArgs d m) (hcp : a.coupling = none)
    (hpre : a.precomputed = none) (hp : a.pGain = 0) {τ : ℝ} (hτ : 0 < τ) (hτe : o.rnd (a.goalT - a.startT) = τ)
    (hsq : |o.sq τ - τ ^ 2| ≤ (2 : ℝ) ^ (-52 : ℤ) * τ ^ 2) {i : Fin d} (hα : 0 < a.alphaY i) (hβ : 0 < a.betaY i) {k c Φ : ℝ}
    (hk : k = a.alphaY i * a.betaY i / τ ^ 2) (hc : c = a.alphaY i / τ)
    (hstab : 2 * a.intDt * (2 * k + c ^ 2) * (k + c ^ 2) ≤ k * c) {z t : ℝ} (hz : 0 < z) (hzi : z ≤ a.intDt)
    (hΦ : |o.force t i| + a.alphaY i * |o.smoothing a t i| ≤ Φ) (s : Vec d × Vec d) :
    sdNorm k c ((o.eulerBody a z t s).1 i - a.goalY i, (o.eulerBody a z t s).2 i) ≤
      (1 - decayRate k c * z + 50 * (2 : ℝ) ^ (-53 : ℤ)) * sdNorm k c (s.1 i - a.goalY i, s.2 i) +
        dmpStepError (a.alphaY i) (a.betaY i) τ a.intDt (a.goalY i) Φ := by
  have hu1 : (2 : ℝ) ^ (-53 : ℤ) ≤ 1 / 1000 := by norm_num
  have hu2 : 5 / 2 * (2 : ℝ) ^ (-53 : ℤ) ≤ 1 / 1000 := by norm_num
  have hu0 : (0 : ℝ) ≤ (2 : ℝ) ^ (-53 : ℤ) := by positivity
  have hw0 : (0 : ℝ) ≤ (2 : ℝ) ^ (-1074 : ℤ) := by positivity
  have hk0 : 0 < k := by rw [hk]; positivity
  have hc0 : 0 < c := by rw [hc]; positivity
  have hr := h.rounds
  have hr' : Rounds (5 / 2 * (2 : ℝ) ^ (-53 : ℤ)) ((2 : ℝ) ^ (-1074 : ℤ)) o.rnd := hr.mono (by linarith)
  have hs0 : 0 < frequency k c := Real.sqrt_pos.2 (by positivity)
  have hs : frequency k c ^ 2 = k + c ^ 2 / 2 := Real.sq_sqrt (by positivity)
  have hcond : 4 * (z * (k + c ^ 2 / 2)) * (k + c ^ 2) ≤ k * c := by
    refine le_trans ?_ hstab
    have : z * ((2 * k + c ^ 2) * (k + c ^ 2)) ≤ a.intDt * ((2 * k + c ^ 2) * (k + c ^ 2)) :=
      mul_le_mul_of_nonneg_right hzi (by positivity)
    linarith
  have hsq' : |o.sq τ - τ ^ 2| ≤ 2 * (2 : ℝ) ^ (-53 : ℤ) * τ ^ 2 := by
    refine hsq.trans (le_of_eq ?_)
    norm_num
  have ha := dmp_acceleration hr hu0 hu1 hw0 hα hβ hτ hsq' (a.goalY i) (s.1 i) (s.2 i) (o.smoothing a t i) (o.force t i)
  rw [← hk, ← hc] at ha
  have hΦ0 : 0 ≤ Φ := le_trans (by positivity) hΦ
  have hΦτ : (|o.force t i| + a.alphaY i * |o.smoothing a t i|) / τ ^ 2 ≤ Φ / τ ^ 2 := div_le_div_of_nonneg_right hΦ (by positivity)
  have hφ : |(o.force t i - a.alphaY i * o.smoothing a t i) / τ ^ 2| ≤ Φ / τ ^ 2 := by
    rw [abs_div, abs_of_pos (show 0 < τ ^ 2 by positivity)]
    refine le_trans (div_le_div_of_nonneg_right ?_ (by positivity)) hΦτ
    refine (abs_sub _ _).trans ?_
    rw [abs_mul, abs_of_pos hα]
  rw [(eulerBodies_eq h a hcp hpre hp z t s).1]
  have hE0 : 0 ≤ 10 * (2 : ℝ) ^ (-53 : ℤ) * (Φ / τ ^ 2) +
      (2 * (a.alphaY i * (a.betaY i + 4) + 2) / τ ^ 2 + 1) * (2 : ℝ) ^ (-1074 : ℤ) := by positivity
  have key := rounded_step hr' (by positivity) hu2 hw0 hk0 hc0 hs0 hs hz hcond (g := a.goalY i) (s.1 i - a.goalY i, s.2 i)
    (f := (o.force t i - a.alphaY i * o.smoothing a t i) / τ ^ 2) hE0
    (a := o.rnd (o.springForce a t s i / o.sq (o.rnd (a.goalT - a.startT)))) (by
      rw [hτe]
      unfold FloatOps.springForce
      rw [hτe]
      refine ha.trans ?_
      have := mul_le_mul_of_nonneg_left hΦτ (show 0 ≤ 10 * (2 : ℝ) ^ (-53 : ℤ) by positivity)
      simp only
      linarith)
  simp only at key ⊢
  rw [add_sub_cancel] at key
  refine key.trans ?_
  have e : sdRate k c = decayRate k c := rfl
  rw [e, dmpStepError, ← hk, ← hc]
  have q0 : 0 ≤ Φ / τ ^ 2 := by positivity
  have q1 : z * (3 / 2 * |(o.force t i - a.alphaY i * o.smoothing a t i) / τ ^ 2| + 2 * (10 * (2 : ℝ) ^ (-53 : ℤ) * (Φ / τ ^ 2) +
      (2 * (a.alphaY i * (a.betaY i + 4) + 2) / τ ^ 2 + 1) * (2 : ℝ) ^ (-1074 : ℤ))) ≤
      a.intDt * (2 * (Φ / τ ^ 2) + 2 * ((2 * (a.alphaY i * (a.betaY i + 4) + 2) / τ ^ 2 + 1) * (2 : ℝ) ^ (-1074 : ℤ))) := by
    refine mul_le_mul hzi ?_ (by positivity) (by linarith)
    have := mul_le_mul_of_nonneg_right hu1 q0
    generalize (2 : ℝ) ^ (-53 : ℤ) = u at *
    linarith
  generalize (2 : ℝ) ^ (-1074 : ℤ) = w at *
  generalize (2 : ℝ) ^ (-53 : ℤ) = u at *
  linarith

/-! ## Calls of `step` -/

/-- One call of a step function from time `T` to time `T'`. -/
theorem eulerFl_decay {o : FloatOps d} (h : IsRounding o.rnd) {sf : StepFunction} (hsf : sf = .euler ∨ sf = .eulerCython) (a : StepArgs d m) (hcp : a.coupling = none)
    (hpre : a.precomputed = none) (hp : a.pGain = 0) (hst : a.startT = 0) (hτ : 0 < a.goalT) (hτe : IsDouble a.goalT)
    (hsq : |o.sq a.goalT - a.goalT ^ 2| ≤ (2 : ℝ) ^ (-52 : ℤ) * a.goalT ^ 2) {i : Fin d} (hα : 0 < a.alphaY i) (hβ : 0 < a.betaY i)
    {k c Φ dt T T' : ℝ} (hk : k = a.alphaY i * a.betaY i / a.goalT ^ 2) (hc : c = a.alphaY i / a.goalT)
    (hstab : 2 * a.intDt * (2 * k + c ^ 2) * (k + c ^ 2) ≤ k * c)
    (hi : IsDouble a.intDt) (hi0 : 0 < a.intDt) (hdt : 0 < dt)
    (h1 : (2 : ℝ) ^ (-36 : ℤ) ≤ decayRate k c * a.intDt) (h2 : (2 : ℝ) ^ (-36 : ℤ) ≤ decayRate k c * dt)
    (h3 : dt ≤ (2 : ℝ) ^ 40 * a.intDt) (hT : IsDouble T) (hT' : IsDouble T') (hT0 : 0 ≤ T) (hD : |T' - T - dt| ≤ dt / 256)
    (hbig : (2 : ℝ) ^ (-44 : ℤ) * T' ≤ a.intDt)
    (hΦ : ∀ t, T < t → |o.force t i| + a.alphaY i * |o.smoothing a t i| ≤ Φ) (s : Vec d × Vec d) :
    ∃ s', sf.runFl o a T T' s = .ok s' ∧
      sdNorm k c (s'.1 i - a.goalY i, s'.2 i) ≤ Real.exp (-(decayRate k c * dt / 2)) * sdNorm k c (s.1 i - a.goalY i, s.2 i) +
        4 * (dt / a.intDt + 1) * dmpStepError (a.alphaY i) (a.betaY i) a.goalT a.intDt (a.goalY i) Φ := by
  have hk0 : 0 < k := by rw [hk]; positivity
  have hc0 : 0 < c := by rw [hc]; positivity
  have hη : 0 < decayRate k c := sdRate_pos hk0 hc0
  have hε : 50 * (2 : ℝ) ^ (-53 : ℤ) ≤ (2 : ℝ) ^ (-47 : ℤ) := by norm_num
  have hf0 : 0 ≤ frequency (a.alphaY i * a.betaY i / a.goalT ^ 2) (a.alphaY i / a.goalT) := Real.sqrt_nonneg _
  have hΦ0 : 0 ≤ Φ := le_trans (by positivity) (hΦ (T + 1) (by linarith))
  have hb : 0 ≤ dmpStepError (a.alphaY i) (a.betaY i) a.goalT a.intDt (a.goalY i) Φ := by unfold dmpStepError; positivity
  obtain ⟨s', hs', hN⟩ := call_decay h hi hT hT' hT0 hi0 hdt hD hbig hη (by positivity) hε hb h1 h2 h3 (o.eulerBody a) s
  have hτe' : o.rnd (a.goalT - a.startT) = a.goalT := by rw [hst, sub_zero, h.of_isDouble hτe]
  have hT'0 : 0 < T' := by
    have := (abs_le.1 hD).1
    linarith
  refine ⟨s', ?_, hN (fun s => sdNorm k c (s.1 i - a.goalY i, s.2 i)) (fun _ => sdNorm_nonneg _)
    (fun z hz hzi t ht x => eulerBody_decay h a hcp hpre hp hτ hτe' hsq hα hβ hk hc hstab hz hzi (hΦ t ht) x)⟩
  rcases hsf with rfl | rfl
  · show o.stepEuler a T T' s = _
    unfold FloatOps.stepEuler
    rw [if_neg (by rw [hst]; linarith), if_neg (by rw [hst]; linarith)]
    exact hs'
  · show o.stepEulerCy a T T' s = _
    have hb : o.eulerBodyCy a = o.eulerBody a := by
      funext z t x
      exact (eulerBodies_eq h a hcp hpre hp z t x).2
    unfold FloatOps.stepEulerCy
    rw [if_neg (by rw [hst]; linarith)]
    simp only
    rw [if_neg (by rw [hst]; linarith), hb]
    exact hs'

/-- Calls of `step`. -/
theorem calls_decay {o : FloatOps d} (h : IsRounding o.rnd) {sf : StepFunction} (hsf : sf = .euler ∨ sf = .eulerCython) {i : Fin d} {k c : ℝ} (Φ X : ℕ → ℝ) :
    ∀ (args : List (Vec d × Vec d)) (m0 : ℕ) (s : DMP d m), s.t = clockFl o.rnd s.dt m0 → IsDouble s.dt → IsDouble s.intDt →
    IsDouble s.executionTime → 0 < s.dt → 0 < s.intDt → 0 < s.executionTime →
    |o.sq s.executionTime - s.executionTime ^ 2| ≤ (2 : ℝ) ^ (-52 : ℤ) * s.executionTime ^ 2 → s.pGain = 0 →
    0 < s.alphaY i → 0 < s.betaY i → k = s.alphaY i * s.betaY i / s.executionTime ^ 2 → c = s.alphaY i / s.executionTime →
    2 * s.intDt * (2 * k + c ^ 2) * (k + c ^ 2) ≤ k * c →
    (2 : ℝ) ^ (-36 : ℤ) ≤ decayRate k c * s.intDt → (2 : ℝ) ^ (-36 : ℤ) ≤ decayRate k c * s.dt →
    s.dt ≤ (2 : ℝ) ^ 40 * s.intDt → m0 + args.length ≤ 2 ^ 43 → (m0 + args.length : ℕ) * s.dt ≤ (2 : ℝ) ^ 43 * s.intDt →
    (∀ n t, m0 ≤ n → n < m0 + args.length → clockFl o.rnd s.dt n < t → |o.force t i| + s.alphaY i * |o.smoothing (s.stepArgs none 0) t i| ≤ Φ n) →
    (∀ n, m0 ≤ n → n < m0 + args.length → Real.exp (-(decayRate k c * s.dt / 2)) * X n +
      4 * (s.dt / s.intDt + 1) * dmpStepError (s.alphaY i) (s.betaY i) s.executionTime s.intDt (s.goalY i) (Φ n) ≤ X (n + 1)) →
    sdNorm k c ((if s.initialized then s.currentY else s.startY) i - s.goalY i, (if s.initialized then s.currentYd else s.startYd) i) ≤
      X m0 →
    ∃ out s', (calls (DMP.stepFl o none sf) args).exec s = (.ok out, s') ∧ out.length = args.length ∧
      ∀ j (hj : j < out.length), sdNorm k c (out[j].1 i - s.goalY i, out[j].2 i) ≤ X (m0 + j + 1)
  | [], _, s => fun _ _ _ _ _ _ _ _ _ _ _ _ _ _ _ _ _ _ _ _ _ _ => ⟨[], s, rfl, rfl, by intro j hj; simp at hj⟩
  | x :: args, m0, s => by
    intro ht hd hi hτe hdt hi0 hτ hsq hp hα hβ hk hc hstab h1 h2 h3 hn hn' hΦ hX hx
    rw [List.length_cons] at hn hn'
    have hk0 : 0 < k := by rw [hk]; positivity
    have hc0 : 0 < c := by rw [hc]; positivity
    have hη : 0 < decayRate k c := sdRate_pos hk0 hc0
    have hm1 : clockFl o.rnd s.dt (m0 + 1) ≤ 2 * ((m0 + 1 : ℕ) * s.dt) := clock_le h hd hdt (by omega)
    have hm0 : clockFl o.rnd s.dt m0 ≤ 2 * ((m0 : ℕ) * s.dt) := clock_le h hd hdt (by omega)
    have e44 : (2 : ℝ) ^ (-44 : ℤ) * (2 * (2 : ℝ) ^ 43) = 1 := by norm_num
    have hbig : (2 : ℝ) ^ (-44 : ℤ) * clockFl o.rnd s.dt (m0 + 1) ≤ s.intDt := by
      have a1 : ((m0 + 1 : ℕ) : ℝ) * s.dt ≤ (m0 + (args.length + 1) : ℕ) * s.dt :=
        mul_le_mul_of_nonneg_right (by exact_mod_cast (by omega : m0 + 1 ≤ m0 + (args.length + 1))) hdt.le
      have a2 : clockFl o.rnd s.dt (m0 + 1) ≤ 2 * (2 : ℝ) ^ 43 * s.intDt := by linarith
      have := mul_le_mul_of_nonneg_left a2 (show (0 : ℝ) ≤ (2 : ℝ) ^ (-44 : ℤ) by positivity)
      rw [← mul_assoc, e44, one_mul] at this
      exact this
    have hbig' : (2 : ℝ) ^ (-44 : ℤ) * clockFl o.rnd s.dt m0 ≤ s.dt := by
      have a1 : ((m0 : ℕ) : ℝ) * s.dt ≤ (2 : ℝ) ^ 43 * s.dt :=
        mul_le_mul_of_nonneg_right (by exact_mod_cast (by omega : m0 ≤ 2 ^ 43)) hdt.le
      have a2 : clockFl o.rnd s.dt m0 ≤ 2 * (2 : ℝ) ^ 43 * s.dt := by linarith
      have := mul_le_mul_of_nonneg_left a2 (show (0 : ℝ) ≤ (2 : ℝ) ^ (-44 : ℤ) by positivity)
      rw [← mul_assoc, e44, one_mul] at this
      exact this
    have hT := isDouble_clock h (dt := s.dt) m0
    have hT0 := clock_nonneg h hdt.le m0
    have hadv := clock_advance h hd hT hdt hT0 hbig'
    obtain ⟨r, hr, hrN⟩ := eulerFl_decay h hsf ((s.beginStepFl o.rnd).stepArgs none
        (fun i => o.rnd ((s.beginStepFl o.rnd).currentY i - x.1 i))) rfl rfl hp rfl hτ hτe hsq hα hβ hk hc hstab hi hi0 hdt h1 h2 h3 hT
      (isDouble_clock h (dt := s.dt) (m0 + 1)) hT0 hadv hbig (Φ := Φ m0) (fun t htt => hΦ m0 t le_rfl (by simp) htt)
      ((s.beginStepFl o.rnd).currentY, (s.beginStepFl o.rnd).currentYd)
    have hcur : ((s.beginStepFl o.rnd).currentY, (s.beginStepFl o.rnd).currentYd) =
        (if s.initialized then s.currentY else s.startY, if s.initialized then s.currentYd else s.startYd) := rfl
    rw [hcur] at hr hrN
    have hrec : sdNorm k c (r.1 i - s.goalY i, r.2 i) ≤ X (m0 + 1) := by
      refine hrN.trans (le_trans ?_ (hX m0 le_rfl (by simp)))
      exact add_le_add (mul_le_mul_of_nonneg_left hx (Real.exp_pos _).le) le_rfl
    obtain ⟨out, s', he, hl, ho⟩ := calls_decay h hsf Φ X args (m0 + 1)
      { s.beginStepFl o.rnd with currentY := r.1, currentYd := r.2 }
      (by show o.rnd (s.t + s.dt) = _; rw [ht]; rfl) hd hi hτe hdt hi0 hτ hsq hp hα hβ hk hc hstab h1 h2 h3 (by omega)
      (by rw [show m0 + 1 + args.length = m0 + (args.length + 1) by omega]; exact hn')
      (fun n t hn hl htt => hΦ n t (by omega) (by rw [List.length_cons]; omega) htt)
      (fun n hn hl => hX n (by omega) (by rw [List.length_cons]; omega))
      hrec
    refine ⟨r :: out, s', ?_, by simp [hl], ?_⟩
    · rw [calls, Py.exec_bind, DMP.exec_stepFl]
      have : sf.runFl o ((s.beginStepFl o.rnd).stepArgs none (fun i => o.rnd ((s.beginStepFl o.rnd).currentY i - x.1 i))) s.t
          (o.rnd (s.t + s.dt)) ((s.beginStepFl o.rnd).currentY, (s.beginStepFl o.rnd).currentYd) = .ok r := by
        rw [hcur, ht]; exact hr
      rw [this]
      simp only [DMP.finishStep]
      rw [Py.exec_bind, he]
      rfl
    · intro j hj
      cases j with
      | zero => exact hrec
      | succ j =>
        have := ho j (by simpa using hj)
        rw [show m0 + (j + 1) + 1 = m0 + 1 + j + 1 by omega]
        exact this

/-- C106: the calls of `DMP.step` with one of the Euler step functions, computed in double precision with any arguments, return, and
position and velocity of each dimension decay to the goal up to rounding errors and up to the size `force` of the forces that the
forcing term (as computed) still exerts: forcing term and smoothing term in `|f| + alpha * |smoothing|`. The object may have any state
and any number `m0` of calls may have been made before. -/
theorem C106_dmp_step {o : FloatOps d} (h : IsRounding o.rnd) {sf : StepFunction} (hsf : sf = .euler ∨ sf = .eulerCython) (s : DMP d m) (args : List (Vec d × Vec d)) (m0 : ℕ)
    (i : Fin d) {k c force : ℝ} (ht : s.t = clockFl o.rnd s.dt m0) (hd : IsDouble s.dt) (hi : IsDouble s.intDt)
    (hτe : IsDouble s.executionTime) (hdt : 0 < s.dt) (hi0 : 0 < s.intDt) (hτ : 0 < s.executionTime)
    (hsq : |o.sq s.executionTime - s.executionTime ^ 2| ≤ (2 : ℝ) ^ (-52 : ℤ) * s.executionTime ^ 2) (hp : s.pGain = 0)
    (hα : 0 < s.alphaY i) (hβ : 0 < s.betaY i) (hk : k = s.alphaY i * s.betaY i / s.executionTime ^ 2)
    (hc : c = s.alphaY i / s.executionTime) (hstab : 2 * s.intDt * (2 * k + c ^ 2) * (k + c ^ 2) ≤ k * c)
    (h1 : (2 : ℝ) ^ (-36 : ℤ) ≤ decayRate k c * s.intDt) (h2 : (2 : ℝ) ^ (-36 : ℤ) ≤ decayRate k c * s.dt)
    (h3 : s.dt ≤ (2 : ℝ) ^ 40 * s.intDt) (hn : m0 + args.length ≤ 2 ^ 43)
    (hn' : (m0 + args.length : ℕ) * s.dt ≤ (2 : ℝ) ^ 43 * s.intDt)
    (hforce : ∀ t, s.t < t → |o.force t i| + s.alphaY i * |o.smoothing (s.stepArgs none 0) t i| ≤ force) :
    ∃ out s', (calls (DMP.stepFl o none sf) args).exec s = (.ok out, s') ∧ out.length = args.length ∧
      ∀ j (hj : j < out.length),
        |out[j].1 i - s.goalY i| ≤ 3 / 2 * (Real.exp (-(decayRate k c * s.dt / 2 * (j + 1 : ℕ))) *
          stateDeviation k c ((if s.initialized then s.currentY else s.startY) i - s.goalY i)
            ((if s.initialized then s.currentYd else s.startYd) i) +
          dmpFloor (s.alphaY i) (s.betaY i) s.executionTime s.dt s.intDt (s.goalY i) force) / frequency k c ∧
        |out[j].2 i| ≤ 3 / 2 * (Real.exp (-(decayRate k c * s.dt / 2 * (j + 1 : ℕ))) *
          stateDeviation k c ((if s.initialized then s.currentY else s.startY) i - s.goalY i)
            ((if s.initialized then s.currentYd else s.startYd) i) +
          dmpFloor (s.alphaY i) (s.betaY i) s.executionTime s.dt s.intDt (s.goalY i) force) := by
  have hk0 : 0 < k := by rw [hk]; positivity
  have hc0 : 0 < c := by rw [hc]; positivity
  have hη : 0 < decayRate k c := sdRate_pos hk0 hc0
  have hf0 : 0 ≤ frequency (s.alphaY i * s.betaY i / s.executionTime ^ 2) (s.alphaY i / s.executionTime) := Real.sqrt_nonneg _
  have hΦ0 : 0 ≤ force := le_trans (by positivity) (hforce (s.t + 1) (by linarith))
  have hB : 0 ≤ dmpFloor (s.alphaY i) (s.betaY i) s.executionTime s.dt s.intDt (s.goalY i) force := by
    unfold dmpFloor
    rw [← hk, ← hc] at *
    positivity
  set N0 := stateDeviation k c ((if s.initialized then s.currentY else s.startY) i - s.goalY i)
    ((if s.initialized then s.currentYd else s.startYd) i) with hN0
  obtain ⟨out, s', he, hl, ho⟩ := calls_decay h hsf (i := i) (fun _ => force)
    (fun n => Real.exp (-(decayRate k c * s.dt / 2 * (n - m0 : ℕ))) * N0 +
      dmpFloor (s.alphaY i) (s.betaY i) s.executionTime s.dt s.intDt (s.goalY i) force)
    args m0 s ht hd hi hτe hdt hi0 hτ hsq hp hα hβ hk hc hstab h1 h2 h3 hn hn'
    (fun n t hmn _ htt => hforce t (by rw [ht]; exact lt_of_le_of_lt (clock_mono h hdt.le hmn) htt))
    (fun n hmn _ => by
      rw [show n + 1 - m0 = n - m0 + 1 by omega]
      refine decay_floor (by positivity) (β := 4 * (s.dt / s.intDt + 1) *
        dmpStepError (s.alphaY i) (s.betaY i) s.executionTime s.intDt (s.goalY i) force) ?_ ?_ le_rfl le_rfl
      · unfold dmpFloor dmpStepError
        have : 1 / (decayRate k c * s.dt / 2) = 2 / (decayRate k c * s.dt) := by field_simp
        rw [this, hk, hc]; ring
      · unfold dmpStepError
        positivity)
    (by
      have := sdNorm_le_stateDeviation hk0 hc0 ((if s.initialized then s.currentY else s.startY) i - s.goalY i)
        ((if s.initialized then s.currentYd else s.startYd) i)
      have e : Real.exp (-(decayRate k c * s.dt / 2 * (m0 - m0 : ℕ))) = 1 := by simp
      rw [e, one_mul]
      linarith)
  refine ⟨out, s', he, hl, fun j hj => ?_⟩
  have := ho j hj
  rw [show m0 + j + 1 - m0 = j + 1 by omega] at this
  exact bounds_of_sdNorm hk0 hc0 this

/-- Rounding errors do not accumulate. -/
theorem floor_recursion {s : DMP d m} {i : Fin d} {k c force : ℝ} (hdt : 0 < s.dt) (hi0 : 0 < s.intDt) (hτ : 0 < s.executionTime)
    (hα : 0 < s.alphaY i) (hβ : 0 < s.betaY i) (hk : k = s.alphaY i * s.betaY i / s.executionTime ^ 2)
    (hc : c = s.alphaY i / s.executionTime) (hf : 0 ≤ force) :
    Real.exp (-(decayRate k c * s.dt / 2)) * dmpFloor (s.alphaY i) (s.betaY i) s.executionTime s.dt s.intDt (s.goalY i) force +
      4 * (s.dt / s.intDt + 1) * dmpStepError (s.alphaY i) (s.betaY i) s.executionTime s.intDt (s.goalY i) force ≤
      dmpFloor (s.alphaY i) (s.betaY i) s.executionTime s.dt s.intDt (s.goalY i) force := by
  have hk0 : 0 < k := by rw [hk]; positivity
  have hc0 : 0 < c := by rw [hc]; positivity
  have hη : 0 < decayRate k c := sdRate_pos hk0 hc0
  have hf0 : 0 ≤ frequency (s.alphaY i * s.betaY i / s.executionTime ^ 2) (s.alphaY i / s.executionTime) := Real.sqrt_nonneg _
  have := decay_floor (a := decayRate k c * s.dt / 2) (N := 0) (j := 0) (by positivity) (β := 4 * (s.dt / s.intDt + 1) *
    dmpStepError (s.alphaY i) (s.betaY i) s.executionTime s.intDt (s.goalY i) force)
    (B := dmpFloor (s.alphaY i) (s.betaY i) s.executionTime s.dt s.intDt (s.goalY i) force) (by
      unfold dmpFloor dmpStepError
      have : 1 / (decayRate k c * s.dt / 2) = 2 / (decayRate k c * s.dt) := by field_simp
      rw [this, hk, hc]; ring) (by unfold dmpStepError; positivity) (by rw [mul_zero, zero_add]) le_rfl
  rw [mul_zero, zero_add] at this
  exact this

/-- Recursion of `C106_dmp_reaches`. -/
theorem decaying_force {a ρ C B b0 b1 : ℝ} (ha : 0 < a) (hρ : ρ ≤ Real.exp (-(2 * a))) (hρB : ρ * B + b0 ≤ B)
    (hC : Real.exp (2 * a) / a * b1 ≤ C) (hb1 : 0 ≤ b1) (n : ℕ) :
    ρ * (Real.exp (-(a * n)) * C + B) + (b0 + b1 * Real.exp (-(a * n))) ≤ Real.exp (-(a * (n + 1 : ℕ))) * C + B := by
  have hC0 : 0 ≤ C := le_trans (by positivity) hC
  have e1 : Real.exp (-(a * (n + 1 : ℕ))) = Real.exp (-(a * n)) * Real.exp (-a) := by
    rw [← Real.exp_add]; congr 1; push_cast; ring
  have hE := Real.exp_pos (-(a * n))
  have h1 : ρ * C + b1 ≤ Real.exp (-a) * C := by
    have h2 : b1 ≤ a * Real.exp (-(2 * a)) * C := by
      have := mul_le_mul_of_nonneg_left hC (show 0 ≤ a * Real.exp (-(2 * a)) by positivity)
      have e2 : a * Real.exp (-(2 * a)) * (Real.exp (2 * a) / a * b1) = b1 := by
        rw [Real.exp_neg]; field_simp
      rw [e2] at this
      exact this
    have h3 : Real.exp (-(2 * a)) * (1 + a) ≤ Real.exp (-a) := by
      have : Real.exp (-a) = Real.exp (-(2 * a)) * Real.exp a := by rw [← Real.exp_add]; congr 1; ring
      rw [this]
      exact mul_le_mul_of_nonneg_left (by linarith [Real.add_one_le_exp a]) (Real.exp_pos _).le
    have h4 := mul_le_mul_of_nonneg_right h3 hC0
    have h5 := mul_le_mul_of_nonneg_right hρ hC0
    linarith
  have h6 := mul_le_mul_of_nonneg_left h1 hE.le
  rw [e1]
  linarith

/-- C106: a new `DMP` reaches its goal in double precision: if the forces that the forcing term (as computed) exerts decay
exponentially, then so does the deviation of position and velocity, up to rounding errors. -/
theorem C106_dmp_reaches {o : FloatOps d} (h : IsRounding o.rnd) {sf : StepFunction} (hsf : sf = .euler ∨ sf = .eulerCython) (s : DMP d m) (args : List (Vec d × Vec d))
    (i : Fin d) {k c P rate : ℝ} (ht : s.t = 0) (hd : IsDouble s.dt) (hi : IsDouble s.intDt)
    (hτe : IsDouble s.executionTime) (hdt : 0 < s.dt) (hi0 : 0 < s.intDt) (hτ : 0 < s.executionTime)
    (hsq : |o.sq s.executionTime - s.executionTime ^ 2| ≤ (2 : ℝ) ^ (-52 : ℤ) * s.executionTime ^ 2) (hp : s.pGain = 0)
    (hα : 0 < s.alphaY i) (hβ : 0 < s.betaY i) (hk : k = s.alphaY i * s.betaY i / s.executionTime ^ 2)
    (hc : c = s.alphaY i / s.executionTime) (hstab : 2 * s.intDt * (2 * k + c ^ 2) * (k + c ^ 2) ≤ k * c)
    (h1 : (2 : ℝ) ^ (-36 : ℤ) ≤ decayRate k c * s.intDt) (h2 : (2 : ℝ) ^ (-36 : ℤ) ≤ decayRate k c * s.dt)
    (h3 : s.dt ≤ (2 : ℝ) ^ 40 * s.intDt) (hn : args.length ≤ 2 ^ 43) (hn' : args.length * s.dt ≤ (2 : ℝ) ^ 43 * s.intDt)
    (hrate0 : 0 < rate) (hrate : 4 * rate ≤ decayRate k c)
    (hforce : ∀ t, 0 < t → |o.force t i| + s.alphaY i * |o.smoothing (s.stepArgs none 0) t i| ≤ P * Real.exp (-(2 * rate * t))) :
    ∃ out s', (calls (DMP.stepFl o none sf) args).exec s = (.ok out, s') ∧ out.length = args.length ∧
      ∀ j (hj : j < out.length),
        |out[j].1 i - s.goalY i| ≤ 3 / 2 * (Real.exp (-(rate * s.dt * (j + 1 : ℕ))) *
          (stateDeviation k c ((if s.initialized then s.currentY else s.startY) i - s.goalY i)
            ((if s.initialized then s.currentYd else s.startYd) i) +
            Real.exp (2 * (rate * s.dt)) / (rate * s.dt) * (8 * (s.dt + s.intDt) * P / s.executionTime ^ 2)) +
          dmpFloor (s.alphaY i) (s.betaY i) s.executionTime s.dt s.intDt (s.goalY i) 0) / frequency k c ∧
        |out[j].2 i| ≤ 3 / 2 * (Real.exp (-(rate * s.dt * (j + 1 : ℕ))) *
          (stateDeviation k c ((if s.initialized then s.currentY else s.startY) i - s.goalY i)
            ((if s.initialized then s.currentYd else s.startYd) i) +
            Real.exp (2 * (rate * s.dt)) / (rate * s.dt) * (8 * (s.dt + s.intDt) * P / s.executionTime ^ 2)) +
          dmpFloor (s.alphaY i) (s.betaY i) s.executionTime s.dt s.intDt (s.goalY i) 0) := by
  have hk0 : 0 < k := by rw [hk]; positivity
  have hc0 : 0 < c := by rw [hc]; positivity
  have hη : 0 < decayRate k c := sdRate_pos hk0 hc0
  have hf0 : 0 ≤ frequency (s.alphaY i * s.betaY i / s.executionTime ^ 2) (s.alphaY i / s.executionTime) := Real.sqrt_nonneg _
  have hP0 : 0 ≤ P := by
    have := le_trans (by positivity) (hforce 1 (by norm_num))
    exact nonneg_of_mul_nonneg_left this (Real.exp_pos _)
  have hB : 0 ≤ dmpFloor (s.alphaY i) (s.betaY i) s.executionTime s.dt s.intDt (s.goalY i) 0 := by
    unfold dmpFloor
    rw [← hk, ← hc] at *
    positivity
  set N0 := stateDeviation k c ((if s.initialized then s.currentY else s.startY) i - s.goalY i)
    ((if s.initialized then s.currentYd else s.startYd) i) with hN0
  have hN00 : 0 ≤ N0 := by
    have : 0 ≤ frequency k c := Real.sqrt_nonneg _
    rw [hN0]; unfold stateDeviation; positivity
  set b1 := 8 * (s.dt + s.intDt) * P / s.executionTime ^ 2 with hb1
  have hb10 : 0 ≤ b1 := by positivity
  set C := N0 + Real.exp (2 * (rate * s.dt)) / (rate * s.dt) * b1 with hC
  set B := dmpFloor (s.alphaY i) (s.betaY i) s.executionTime s.dt s.intDt (s.goalY i) 0 with hBdef
  have hfl := floor_recursion (s := s) (i := i) hdt hi0 hτ hα hβ hk hc (force := 0) le_rfl
  obtain ⟨out, s', he, hl, ho⟩ := calls_decay h hsf (i := i) (fun n => P * Real.exp (-(rate * s.dt * n)))
    (fun n => Real.exp (-(rate * s.dt * n)) * C + B)
    args 0 s ht hd hi hτe hdt hi0 hτ hsq hp hα hβ hk hc hstab h1 h2 h3 (by omega) (by rw [zero_add]; exact hn')
    (fun n t _ hn1 htt => by
      have hcl := le_clock h hd hdt (n := n) (by omega)
      refine (hforce t (lt_of_le_of_lt (clock_nonneg h hdt.le n) htt)).trans (mul_le_mul_of_nonneg_left ?_ hP0)
      apply Real.exp_le_exp.2
      have : rate * (n * s.dt) ≤ rate * (2 * t) := mul_le_mul_of_nonneg_left (by linarith) hrate0.le
      linarith)
    (fun n _ _ => by
      have key := decaying_force (a := rate * s.dt) (ρ := Real.exp (-(decayRate k c * s.dt / 2))) (C := C) (B := B)
        (b0 := 4 * (s.dt / s.intDt + 1) * dmpStepError (s.alphaY i) (s.betaY i) s.executionTime s.intDt (s.goalY i) 0) (b1 := b1)
        (by positivity) (Real.exp_le_exp.2 (by
          have := mul_le_mul_of_nonneg_right hrate hdt.le
          linarith)) hfl (by rw [hC]; linarith) hb10 n
      refine le_trans (le_of_eq ?_) key
      have e : 4 * (s.dt / s.intDt + 1) * dmpStepError (s.alphaY i) (s.betaY i) s.executionTime s.intDt (s.goalY i)
          (P * Real.exp (-(rate * s.dt * n))) =
          4 * (s.dt / s.intDt + 1) * dmpStepError (s.alphaY i) (s.betaY i) s.executionTime s.intDt (s.goalY i) 0 +
            b1 * Real.exp (-(rate * s.dt * n)) := by
        rw [hb1, dmpStepError_force _ _ _ _ _ (P * _)]
        generalize dmpStepError (s.alphaY i) (s.betaY i) s.executionTime s.intDt (s.goalY i) 0 = e0
        field_simp
        ring
      rw [e])
    (by
      have := sdNorm_le_stateDeviation hk0 hc0 ((if s.initialized then s.currentY else s.startY) i - s.goalY i)
        ((if s.initialized then s.currentYd else s.startYd) i)
      have e : Real.exp (-(rate * s.dt * (0 : ℕ))) = 1 := by simp
      rw [e, one_mul, hC]
      have : 0 ≤ Real.exp (2 * (rate * s.dt)) / (rate * s.dt) * b1 := by positivity
      linarith)
  refine ⟨out, s', he, hl, fun j hj => ?_⟩
  have := ho j hj
  rw [show 0 + j + 1 = j + 1 by omega] at this
  exact bounds_of_sdNorm hk0 hc0 this

/-- Numbers of the default DMP. -/
theorem default_dmp_numbers {X dt intDt e v P g w : ℝ} (hd : |dt - 1 / 100| ≤ 1 / 10 ^ 9) (hi : |intDt - 1 / 1000| ≤ 1 / 10 ^ 9)
    (hX : 0 ≤ X) (hv : 0 ≤ v) (hP : 0 ≤ P) (hg : 0 ≤ g) (hw : 0 ≤ w) {q : ℝ} (hq : 108 / 5 ≤ q) :
    3 / 2 * (X * (q * e + v + Real.exp (2 * (1 / 8 * dt)) / (1 / 8 * dt) * (8 * (dt + intDt) * P / 1 ^ 2)) +
      4 * (dt / intDt + 1) * (1 + 2 / (5 / 8 * dt)) *
        (5 / 2 * (2 : ℝ) ^ (-53 : ℤ) * (q * g) + (2 * (intDt * (2 * (25 * (25 / 4 + 4) + 2) / 1 ^ 2 + 1)) + 4 * (1 + q)) * w)) / q ≤
      X * (3 / 2 * e + 1 / 10 * v + 5 * P) + 1 / 10 ^ 11 * g + 2 ^ 20 * w := by
  have hd' := abs_le.1 hd
  have hi' := abs_le.1 hi
  have hq0 : 0 < q := by linarith
  have hdt0 : 0 < dt := by linarith
  have hi0 : 0 < intDt := by linarith
  set A := 4 * (dt / intDt + 1) * (1 + 2 / (5 / 8 * dt)) with hA
  have hA1 : A ≤ 14600 := by
    have a1 : dt / intDt ≤ 101 / 10 := by rw [div_le_iff₀ hi0]; linarith
    have a2 : 2 / (5 / 8 * dt) ≤ 321 := by rw [div_le_iff₀ (by positivity)]; linarith
    have a3 : 0 ≤ dt / intDt := by positivity
    calc A ≤ 4 * (101 / 10 + 1) * (1 + 321) := by
          rw [hA]; gcongr
      _ ≤ _ := by norm_num
  have hA0 : 0 ≤ A := by rw [hA]; positivity
  set K := Real.exp (2 * (1 / 8 * dt)) / (1 / 8 * dt) * (8 * (dt + intDt)) with hK
  have hK1 : K ≤ 71 := by
    have b1 : Real.exp (2 * (1 / 8 * dt)) ≤ 1003 / 1000 := by
      have := Real.exp_bound_div_one_sub_of_interval (x := 2 * (1 / 8 * dt)) (by positivity) (by linarith)
      refine this.trans ?_
      rw [div_le_iff₀ (by linarith)]
      linarith
    have b2 : K = Real.exp (2 * (1 / 8 * dt)) * (64 * (1 + intDt / dt)) := by rw [hK]; field_simp; ring
    have b3 : intDt / dt ≤ 1001 / 10000 := by rw [div_le_iff₀ hdt0]; linarith
    rw [b2]
    calc Real.exp (2 * (1 / 8 * dt)) * (64 * (1 + intDt / dt)) ≤ 1003 / 1000 * (64 * (1 + 1001 / 10000)) := by gcongr
      _ ≤ _ := by norm_num
  set W := 2 * (intDt * (2 * (25 * (25 / 4 + 4) + 2) / 1 ^ 2 + 1)) + 4 * (1 + q) with hW
  have hC : W / q ≤ 5 := by
    rw [div_le_iff₀ hq0, hW]; linarith
  have hW0 : 0 ≤ W / q := by rw [hW]; positivity
  have e1 : 3 / 2 * (X * (q * e + v + Real.exp (2 * (1 / 8 * dt)) / (1 / 8 * dt) * (8 * (dt + intDt) * P / 1 ^ 2)) +
      A * (5 / 2 * (2 : ℝ) ^ (-53 : ℤ) * (q * g) + W * w)) / q =
      X * (3 / 2 * e + 3 / 2 / q * v + 3 / 2 / q * K * P) + A * (15 / 4 * (2 : ℝ) ^ (-53 : ℤ)) * g + 3 / 2 * A * (W / q) * w := by
    have : Real.exp (2 * (1 / 8 * dt)) / (1 / 8 * dt) * (8 * (dt + intDt) * P / 1 ^ 2) = K * P := by rw [hK]; ring
    rw [this]
    generalize (2 : ℝ) ^ (-53 : ℤ) = u
    clear_value A W K
    field_simp
    ring
  rw [e1]
  have e2 : A * (15 / 4 * (2 : ℝ) ^ (-53 : ℤ)) ≤ 1 / 10 ^ 11 := by
    calc A * (15 / 4 * (2 : ℝ) ^ (-53 : ℤ)) ≤ 14600 * (15 / 4 * (2 : ℝ) ^ (-53 : ℤ)) :=
          mul_le_mul_of_nonneg_right hA1 (by positivity)
      _ ≤ _ := by norm_num
  have e3 : 3 / 2 * A * (W / q) ≤ 2 ^ 20 := by
    calc 3 / 2 * A * (W / q) ≤ (3 : ℝ) / 2 * 14600 * 5 := by gcongr
      _ ≤ _ := by norm_num
  have e4 : 3 / 2 / q ≤ 1 / 14 := by rw [div_le_iff₀ hq0]; linarith
  have e5 : 3 / 2 / q * K ≤ 5 := by
    have : 3 / 2 / q ≤ 5 / 71 := by rw [div_le_iff₀ hq0]; linarith
    calc 3 / 2 / q * K ≤ 3 / 2 / q * 71 := mul_le_mul_of_nonneg_left hK1 (by positivity)
      _ ≤ 5 := by linarith
  have f1 := mul_le_mul_of_nonneg_right e2 hg
  have f2 := mul_le_mul_of_nonneg_right e3 hw
  have f3 : X * (3 / 2 * e + 3 / 2 / q * v + 3 / 2 / q * K * P) ≤ X * (3 / 2 * e + 1 / 10 * v + 5 * P) := by
    refine mul_le_mul_of_nonneg_left ?_ hX
    have g1 := mul_le_mul_of_nonneg_right e4 hv
    have g2 := mul_le_mul_of_nonneg_right e5 hP
    linarith
  clear_value A W K
  linarith

/-- C106: a new `DMP(n_dims)` with the default arguments except for its weights, with any start and goal: if the forces of its forcing
term, as computed, are at most `P * exp(-t / 4)` at time `t`, then after `j + 1` calls of `step` (up to a billion) with arbitrary
arguments the position deviates from the goal by at most `exp(-(j + 1) / 801)` times the initial distance and the forces, and `1e-11`
of the size of the goal. -/
theorem C106_dmp_default {o : FloatOps d} (h : IsRounding o.rnd) {sf : StepFunction} (hsf : sf = .euler ∨ sf = .eulerCython) (s : DMP d m) (args : List (Vec d × Vec d))
    (i : Fin d) {P : ℝ} (ht : s.t = 0) (h0 : s.initialized = false) (hdt : s.dt = o.rnd (1 / 100)) (hi : s.intDt = o.rnd (1 / 1000))
    (hτ : s.executionTime = 1) (hsq : o.sq 1 = 1) (hp : s.pGain = 0) (hα : s.alphaY = fun _ => 25) (hβ : s.betaY = fun _ => 25 / 4)
    (hn : args.length ≤ 10 ^ 9)
    (hforce : ∀ t, 0 < t → |o.force t i| + 25 * |o.smoothing (s.stepArgs none 0) t i| ≤ P * Real.exp (-(t / 4))) :
    ∃ out s', (calls (DMP.stepFl o none sf) args).exec s = (.ok out, s') ∧ out.length = args.length ∧
      ∀ j (hj : j < out.length), |out[j].1 i - s.goalY i| ≤
        Real.exp (-((j + 1) / 801)) * (3 / 2 * |s.startY i - s.goalY i| + 1 / 10 * |s.startYd i| + 5 * P) +
          1 / 10 ^ 11 * |s.goalY i| + (2 : ℝ) ^ (-1054 : ℤ) := by
  obtain ⟨hd1, hi1⟩ := default_steps h
  have hd' := abs_le.1 hd1
  have hi' := abs_le.1 hi1
  have h36 : (2 : ℝ) ^ (-36 : ℤ) ≤ 1 / 10 ^ 10 := by norm_num
  have hr : decayRate (625 / 4) 25 = 5 / 8 := by unfold decayRate; norm_num
  have hq : 108 / 5 ≤ frequency (625 / 4) 25 := by
    unfold frequency
    refine Real.le_sqrt_of_sq_le ?_
    norm_num
  have hnR : (args.length : ℝ) ≤ 10 ^ 9 := by exact_mod_cast hn
  have hP0 : 0 ≤ P := by
    have := le_trans (by positivity) (hforce 1 (by norm_num))
    exact nonneg_of_mul_nonneg_left this (Real.exp_pos _)
  obtain ⟨out, s', he, hl, ho⟩ := C106_dmp_reaches h hsf s args i (k := 625 / 4) (c := 25) (P := P) (rate := 1 / 8) ht
    (by rw [hdt]; exact h.isDouble _) (by rw [hi]; exact h.isDouble _) (by rw [hτ]; exact isDouble_one)
    (by rw [hdt]; linarith) (by rw [hi]; linarith) (by rw [hτ]; norm_num) (by rw [hτ, hsq]; norm_num) hp
    (by rw [hα]; norm_num) (by rw [hβ]; norm_num) (by rw [hα, hβ, hτ]; norm_num) (by rw [hα, hτ]; norm_num)
    (by rw [hi]; linarith) (by rw [hr, hi]; linarith) (by rw [hr, hdt]; linarith)
    (by rw [hdt, hi]; linarith) (hn.trans (by norm_num))
    (by
      rw [hdt, hi]
      have : (args.length : ℝ) * o.rnd (1 / 100) ≤ 10 ^ 9 * (1 / 50) := mul_le_mul hnR (by linarith) (by linarith) (by positivity)
      linarith)
    (by norm_num) (by rw [hr]; norm_num)
    (fun t h0 => by
      refine le_trans (le_of_eq ?_) ((hforce t h0).trans (le_of_eq ?_))
      · rw [hα]
      · congr 2; ring)
  refine ⟨out, s', he, hl, fun j hj => ?_⟩
  refine (ho j hj).1.trans ?_
  rw [h0, if_neg (by simp), if_neg (by simp), hα, hβ, hτ, hdt, hi]
  have e2 : (2 : ℝ) ^ 20 * (2 : ℝ) ^ (-1074 : ℤ) = (2 : ℝ) ^ (-1054 : ℤ) := by
    rw [← zpow_natCast, ← zpow_add₀ (by norm_num)]
    norm_num
  have ek : (25 : ℝ) * (25 / 4) / 1 ^ 2 = 625 / 4 := by norm_num
  have ec : (25 : ℝ) / 1 = 25 := by norm_num
  have key := default_dmp_numbers (X := Real.exp (-(1 / 8 * o.rnd (1 / 100) * (j + 1 : ℕ)))) hd1 hi1 (Real.exp_pos _).le
    (abs_nonneg (s.startYd i)) hP0 (abs_nonneg (s.goalY i)) (show (0 : ℝ) ≤ (2 : ℝ) ^ (-1074 : ℤ) by positivity) hq
    (e := |s.startY i - s.goalY i|)
  rw [e2] at key
  unfold dmpFloor stateDeviation
  rw [ek, ec, hr, zero_div, mul_zero, mul_zero, zero_add]
  refine key.trans ?_
  have e1 : Real.exp (-(1 / 8 * o.rnd (1 / 100) * (j + 1 : ℕ))) ≤ Real.exp (-((j + 1) / 801)) := by
    refine Real.exp_le_exp.2 (neg_le_neg ?_)
    push_cast
    have : 1 / 801 ≤ 1 / 8 * o.rnd (1 / 100) := by linarith
    have := mul_le_mul_of_nonneg_right this (show (0 : ℝ) ≤ (j : ℝ) + 1 by positivity)
    linarith
  have := mul_le_mul_of_nonneg_right e1
    (show 0 ≤ 3 / 2 * |s.startY i - s.goalY i| + 1 / 10 * |s.startYd i| + 5 * P by positivity)
  linarith

/-- The hypotheses of `C106_dmp_default` (and with them those of `C106_dmp_reaches`) are met by DMPs with a forcing term that is not
zero. -/
example (s : DMP 1 m) (rnd : ℝ → ℝ) (h : IsRounding rnd) (n : ℕ) (hn : n ≤ 10 ^ 9) :
    ∃ out s', (calls (DMP.stepFl (⟨rnd, fun x => x ^ 2, fun t => Real.exp (-t), fun t _ => rnd (7 * Real.exp (-t))⟩ : FloatOps 1) none
        .euler) (List.replicate n (0, 0))).exec
        { s with t := 0, initialized := false, dt := rnd (1 / 100), intDt := rnd (1 / 1000), executionTime := 1, pGain := 0
                 alphaY := fun _ => 25, betaY := fun _ => 25 / 4, smooth := false, startY := 0, startYd := 0
                 goalY := fun _ => 1 } = (.ok out, s') ∧
      ∀ j (hj : j < out.length), |out[j].1 0 - 1| ≤ Real.exp (-((j + 1) / 801)) * 72 + 1 / 10 ^ 10 := by
  obtain ⟨out, s', he, hl, ho⟩ := C106_dmp_default (o := ⟨rnd, fun x => x ^ 2, fun t => Real.exp (-t), fun t _ => rnd (7 * Real.exp (-t))⟩)
    h (.inl rfl) { s with t := 0, initialized := false, dt := rnd (1 / 100), intDt := rnd (1 / 1000), executionTime := 1, pGain := 0
                          alphaY := fun _ => 25, betaY := fun _ => 25 / 4, smooth := false, startY := 0, startYd := 0
                          goalY := fun _ => 1 }
    (List.replicate n (0, 0)) 0 (P := 14) rfl rfl rfl rfl rfl (by norm_num) rfl rfl rfl (by rw [List.length_replicate]; exact hn)
    (fun t ht => by
      have h1 : |rnd (7 * Real.exp (-t))| ≤ 14 * Real.exp (-t) := by
        have h2 := h.nearest (7 * Real.exp (-t)) 0 isDouble_zero
        rw [zero_sub, abs_neg, abs_of_pos (show 0 < 7 * Real.exp (-t) by positivity)] at h2
        have h3 := abs_le.1 h2
        rw [abs_le]
        constructor <;> linarith [Real.exp_pos (-t)]
      have h4 : Real.exp (-t) ≤ Real.exp (-(t / 4)) := Real.exp_le_exp.2 (by linarith)
      show |rnd (7 * Real.exp (-t))| + 25 * |(0 : ℝ)| ≤ _
      rw [abs_zero]
      linarith)
  refine ⟨out, s', he, fun j hj => (ho j hj).trans ?_⟩
  show Real.exp (-((j + 1) / 801)) * (3 / 2 * |(0 : ℝ) - 1| + 1 / 10 * |(0 : ℝ)| + 5 * 14) + 1 / 10 ^ 11 * |(1 : ℝ)| +
    (2 : ℝ) ^ (-1054 : ℤ) ≤ _
  have hw : (2 : ℝ) ^ (-1054 : ℤ) ≤ 1 / 10 ^ 11 := by
    have : (2 : ℝ) ^ (-1054 : ℤ) ≤ (2 : ℝ) ^ (-53 : ℤ) := zpow_le_zpow_right₀ (by norm_num) (by norm_num)
    refine this.trans ?_
    norm_num
  rw [show |(0 : ℝ) - 1| = 1 by norm_num, abs_zero, abs_one]
  have := Real.exp_pos (-(((j : ℝ) + 1) / 801))
  linarith

end Verif
