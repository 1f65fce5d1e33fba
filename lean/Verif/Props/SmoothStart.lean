import Verif.Props.Tracking
import Verif.Props.PhaseObjects

/-! # C16 in terms of `step`: what another goal changes -/

namespace Verif
open Filter Topology
variable {d m : ℕ}

/-- Result of one Euler sub-step. -/
theorem DMP.step_one_substep (s : DMP d m) (hτ : 0 < s.executionTime) (ht : 0 ≤ s.t) (hdt : 0 < s.dt)
    (hint : s.dt ≤ s.intDt) (sf : StepFunction) (hsf : sf ∈ [StepFunction.euler, StepFunction.eulerCython]) (y yd : Vec d) :
    ((DMP.step none sf y yd).exec s).1 = .ok (Spec.semiImplicitEuler (fun x v => fun k =>
      Spec.dmpAcceleration (s.alphaY k) (s.betaY k) (s.goalY k) (s.startY k) s.executionTime s.smooth
        (s.ft.phaseAt (s.t + s.dt)) (s.ft.call (s.t + s.dt) k + s.pGain * (s.beginStep.currentY k - y k) / s.dt) (x k) (v k))
      s.dt (s.beginStep.currentY, s.beginStep.currentYd)) := by
  have hL : subSteps s.intDt (s.t + s.dt) s.t = [(s.dt, s.t + s.dt)] := by
    have := subSteps_last (lt_of_lt_of_le hdt hint) (lt_add_of_pos_right s.t hdt) (by linarith)
    rw [add_sub_cancel_left] at this
    exact this
  have h := euler_subSteps (s.beginStep.stepArgs none (s.beginStep.currentY - y)) rfl rfl (lt_of_lt_of_le hdt hint) hτ
    (lastT := s.t) (t := s.t + s.dt) (add_pos_of_nonneg_of_pos ht hdt) (s.beginStep.currentY, s.beginStep.currentYd) sf hsf
  have hg : (s.beginStep.stepArgs none (s.beginStep.currentY - y)).goalT -
    (s.beginStep.stepArgs none (s.beginStep.currentY - y)).startT = s.executionTime := sub_zero _
  rw [show (s.beginStep.stepArgs none (s.beginStep.currentY - y)).intDt = s.intDt from rfl, hL, hg] at h
  rw [DMP.exec_step, h]
  rfl

/-- **C16 (step).** Another goal changes the velocity that the next call of `step` returns (one Euler sub-step) by
`dt * alpha * beta / execution_time ** 2` times the distance of the goals; with smooth scaling only by the part `1 - phase` of this.
The position changes by `dt` times the change of the velocity. -/
theorem C16_other_goal (s : DMP d m) (hτ : 0 < s.executionTime) (ht : 0 ≤ s.t) (hdt : 0 < s.dt) (hint : s.dt ≤ s.intDt)
    (sf : StepFunction) (hsf : sf ∈ [StepFunction.euler, StepFunction.eulerCython]) (y yd g : Vec d) :
    ∃ r r', ((DMP.step none sf y yd).exec s).1 = .ok r ∧
      ((DMP.step none sf y yd).exec { s with goalY := g }).1 = .ok r' ∧
      ∀ k, r'.2 k = r.2 k + s.dt * (s.alphaY k * s.betaY k / s.executionTime ^ 2 * (g k - s.goalY k)) *
          (if s.smooth then 1 - s.ft.phaseAt (s.t + s.dt) else 1) ∧
        r'.1 k = r.1 k + s.dt * (r'.2 k - r.2 k) := by
  refine ⟨_, _, DMP.step_one_substep s hτ ht hdt hint sf hsf y yd,
    DMP.step_one_substep { s with goalY := g } hτ ht hdt hint sf hsf y yd, fun k => ?_⟩
  have e : (DMP.beginStep { s with goalY := g }).currentY = s.beginStep.currentY ∧
      (DMP.beginStep { s with goalY := g }).currentYd = s.beginStep.currentYd := by
    unfold DMP.beginStep
    cases s.initialized <;> exact ⟨rfl, rfl⟩
  rw [e.1, e.2]
  simp only [Spec.semiImplicitEuler, Spec.dmpAcceleration, Pi.add_apply, Pi.smul_apply, smul_eq_mul]
  cases s.smooth
  · simp only [Bool.false_eq_true, if_false]
    constructor <;> ring
  · simp only [if_true]
    constructor <;> ring

/-- **C16 (first step).** At the beginning of the movement (time 0) the initial acceleration, i.e. the change of velocity in the
first step per `dt` for small `dt`, changes with the goal without smooth scaling, proportionally to the distance of the goals;
with smooth scaling it does not. -/
theorem C16_first_step {s : DMP d m} (hs : s.Reachable) (ht : s.t = 0) (hint : 0 < s.intDt) (sf : StepFunction)
    (hsf : sf ∈ [StepFunction.euler, StepFunction.eulerCython]) (y yd g : Vec d) :
    ∃ r r' : ℝ → Vec d × Vec d,
      (∀ h, 0 < h → h ≤ s.intDt → ((DMP.step none sf y yd).exec { s with dt := h }).1 = .ok (r h) ∧
        ((DMP.step none sf y yd).exec { s with dt := h, goalY := g }).1 = .ok (r' h)) ∧
      ∀ k, Tendsto (fun h => ((r' h).2 k - (r h).2 k) / h) (𝓝[>] 0)
        (𝓝 (if s.smooth then 0 else s.alphaY k * s.betaY k / s.executionTime ^ 2 * (g k - s.goalY k))) := by
  have hτ : 0 < s.executionTime := by
    obtain ⟨ft, h1, -⟩ := hs.valid
    rw [DMP.initForcingTerm_ok_iff] at h1
    obtain ⟨-, -, -, -, -, h, -⟩ := create_eq h1
    exact h
  have key : ∀ h : ℝ, ∃ r r' : Vec d × Vec d, 0 < h → h ≤ s.intDt →
      (((DMP.step none sf y yd).exec { s with dt := h }).1 = .ok r ∧
        ((DMP.step none sf y yd).exec { s with dt := h, goalY := g }).1 = .ok r') ∧
      ∀ k, (r'.2 k - r.2 k) / h = s.alphaY k * s.betaY k / s.executionTime ^ 2 * (g k - s.goalY k) *
        (if s.smooth then 1 - s.ft.phaseAt h else 1) := by
    intro h
    by_cases hh : 0 < h ∧ h ≤ s.intDt
    · obtain ⟨r, r', h1, h2, h3⟩ := C16_other_goal { s with dt := h } hτ ht.ge hh.1 hh.2 sf hsf y yd g
      refine ⟨r, r', fun _ _ => ⟨⟨h1, h2⟩, fun k => ?_⟩⟩
      have h4 := (h3 k).1
      simp only [ht, zero_add] at h4
      rw [h4, add_sub_cancel_left, mul_assoc, mul_div_cancel_left₀ _ hh.1.ne']
    · exact ⟨0, 0, fun a b => absurd ⟨a, b⟩ hh⟩
  choose r r' hr using key
  refine ⟨r, r', fun h h1 h2 => (hr h h1 h2).1, fun k => ?_⟩
  have hz : Continuous (fun t => s.ft.phaseAt t) := by
    unfold ForcingTerm.phaseAt phase; fun_prop
  have hlim : Tendsto (fun h => s.alphaY k * s.betaY k / s.executionTime ^ 2 * (g k - s.goalY k) *
      (if s.smooth then 1 - s.ft.phaseAt h else 1)) (𝓝[>] 0)
      (𝓝 (if s.smooth then 0 else s.alphaY k * s.betaY k / s.executionTime ^ 2 * (g k - s.goalY k))) := by
    cases s.smooth
    · simp only [Bool.false_eq_true, if_false, mul_one]
      exact tendsto_const_nhds
    · simp only [if_true]
      have h0 := (C01_dmp hs).start
      have h1 : Tendsto (fun h => s.alphaY k * s.betaY k / s.executionTime ^ 2 * (g k - s.goalY k) * (1 - s.ft.phaseAt h)) (𝓝 0)
          (𝓝 (s.alphaY k * s.betaY k / s.executionTime ^ 2 * (g k - s.goalY k) * (1 - s.ft.phaseAt 0))) :=
        (continuous_const.mul (continuous_const.sub hz)).tendsto 0
      rw [h0, sub_self, mul_zero] at h1
      exact h1.mono_left nhdsWithin_le_nhds
  refine hlim.congr' ?_
  filter_upwards [Ioc_mem_nhdsGT hint] with h hh
  exact ((hr h hh.1 hh.2).2 k).symm

/-- The hypotheses can be met: a new DMP. -/
example : ∃ s : DMP 1 2, s.Reachable ∧ s.t = 0 ∧ 0 < s.intDt ∧ 0 < s.executionTime := by
  obtain ⟨s, hs, h1, -, h2, -, -, -, h3, -⟩ := DMP.create_ok 1 2 le_rfl one_pos (1 / 100) (1 / 1000) 0 true 25 (25 / 4)
  exact ⟨s, .create hs, h3, by rw [h2]; norm_num, by rw [h1]; norm_num⟩

end Verif
