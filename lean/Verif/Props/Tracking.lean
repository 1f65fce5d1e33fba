import Verif.Spec.Tracking
import Verif.Props.DmpClass

/-! # C12 (Euler steps in terms of the differential equation) and C67: correction of tracking errors -/

namespace Verif
variable {d m : ℕ}

/-- Right-hand side of the DMP in one Euler sub-step of length `h` that ends at time `u`. -/
theorem eulerBody_spec (a : StepArgs d m) (hc : a.coupling = none) (hp : a.precomputed = none) (h u : ℝ)
    (s : Vec d × Vec d) :
    a.eulerBody h u s = Spec.semiImplicitEuler (fun y v => fun k =>
      Spec.dmpAcceleration (a.alphaY k) (a.betaY k) (a.goalY k) (a.startY k) (a.goalT - a.startT) a.smooth
        (a.ft.phaseAt u) (a.ft.call u k + a.pGain * a.trackingError k / h) (y k) (v k)) h s := by
  rw [StepArgs.eulerBody_none a hc]
  unfold Spec.semiImplicitEuler
  have : a.acc s.1 s.2 a.initialCdd (a.ft.phaseAt u) (a.goalT - a.startT) (a.ft.force (a.ft.phaseAt u))
        (fun k => a.pGain * a.trackingError k / h) = fun k =>
      Spec.dmpAcceleration (a.alphaY k) (a.betaY k) (a.goalY k) (a.startY k) (a.goalT - a.startT) a.smooth
        (a.ft.phaseAt u) (a.ft.call u k + a.pGain * a.trackingError k / h) (s.1 k) (s.2 k) := by
    funext k
    rw [StepArgs.acc_apply a hc]
    simp [StepArgs.initialCdd, hp, ForcingTerm.call]
  simp only [this]

/-- Both Euler functions, on the sub-steps of the loop. -/
theorem euler_subSteps (a : StepArgs d m) (hc : a.coupling = none) (hp : a.precomputed = none)
    (hd : 0 < a.intDt) (hT : a.startT < a.goalT) {lastT t : ℝ} (ht : a.startT < t)
    (s : Vec d × Vec d) : ∀ sf ∈ [StepFunction.euler, StepFunction.eulerCython],
      sf.run a lastT t s = .ok ((subSteps a.intDt t lastT).foldl (fun s p => Spec.semiImplicitEuler (fun y v => fun k =>
        Spec.dmpAcceleration (a.alphaY k) (a.betaY k) (a.goalY k) (a.startY k) (a.goalT - a.startT) a.smooth
          (a.ft.phaseAt p.2) (a.ft.call p.2 k + a.pGain * a.trackingError k / p.1) (y k) (v k)) p.1 s) s) := by
  have e1 : (fun (s : Vec d × Vec d) (p : ℝ × ℝ) => a.eulerBody p.1 p.2 s) = fun s p =>
      Spec.semiImplicitEuler (fun y v => fun k =>
        Spec.dmpAcceleration (a.alphaY k) (a.betaY k) (a.goalY k) (a.startY k) (a.goalT - a.startT) a.smooth
          (a.ft.phaseAt p.2) (a.ft.call p.2 k + a.pGain * a.trackingError k / p.1) (y k) (v k)) p.1 s := by
    funext s p
    exact eulerBody_spec a hc hp p.1 p.2 s
  have e2 : (fun (s : Vec d × Vec d) (p : ℝ × ℝ) => a.eulerBodyCy p.1 p.2 s) = fun s p => a.eulerBody p.1 p.2 s := by
    funext s p
    exact StepArgs.eulerBodyCy_eq a hc (by simp [hp]) p.1 p.2 s
  intro sf hsf
  simp only [List.mem_cons, List.not_mem_nil, or_false] at hsf
  rcases hsf with rfl | rfl
  · rw [← e1]
    show a.stepEuler lastT t s = _
    unfold StepArgs.stepEuler
    rw [if_neg (not_le.2 hT), if_neg (not_le.2 ht), intLoop_eq _ hd]
  · rw [← e1, ← e2]
    show a.stepEulerCy lastT t s = _
    unfold StepArgs.stepEulerCy
    rw [if_neg (not_le.2 hT), if_neg (not_le.2 ht), intLoop_eq _ hd]

/-- **C12.** Without coupling, a step of either Euler function composes, over a partition of `[last_t, t]` into
`ceil((t - last_t) / int_dt)` sub-steps, semi-implicit Euler steps of the DMP's differential equation with phase and
forcing term taken at the end of each sub-step; a tracking error acts as the force `p_gain * tracking_error / h`. -/
theorem C12_euler_is_semi_implicit (a : StepArgs d m) (hc : a.coupling = none) (hp : a.precomputed = none)
    (hd : 0 < a.intDt) (hT : a.startT < a.goalT) {lastT t : ℝ} (hlt : lastT ≤ t) (ht : a.startT < t)
    (s : Vec d × Vec d) :
    ∃ L, Spec.IsPartition lastT t a.intDt L ∧ ∀ sf ∈ [StepFunction.euler, StepFunction.eulerCython],
      sf.run a lastT t s = .ok (L.foldl (fun s p => Spec.semiImplicitEuler (fun y v => fun k =>
        Spec.dmpAcceleration (a.alphaY k) (a.betaY k) (a.goalY k) (a.startY k) (a.goalT - a.startT) a.smooth
          (a.ft.phaseAt p.2) (a.ft.call p.2 k + a.pGain * a.trackingError k / p.1) (y k) (v k)) p.1 s) s) := 
  ⟨_, subSteps_isPartition hd lastT hlt, euler_subSteps a hc hp hd hT ht s⟩

/-- One sub-step is affine in the state and the force: its response to a tracking error is that of a driven spring. -/
theorem semiImplicit_response (a : StepArgs d m) (F : Vec d) (z h : ℝ) (u : Vec d) (s r : Vec d × Vec d) :
    Spec.semiImplicitEuler (fun y v => fun k =>
        Spec.dmpAcceleration (a.alphaY k) (a.betaY k) (a.goalY k) (a.startY k) (a.goalT - a.startT) a.smooth
          z (F k + u k) (y k) (v k)) h (s + r) =
      Spec.semiImplicitEuler (fun y v => fun k =>
        Spec.dmpAcceleration (a.alphaY k) (a.betaY k) (a.goalY k) (a.startY k) (a.goalT - a.startT) a.smooth
          z (F k + 0) (y k) (v k)) h s +
      Spec.semiImplicitEuler (fun y v => fun k =>
        Spec.drivenSpring (a.alphaY k) (a.betaY k) (a.goalT - a.startT) (u k) (y k) (v k)) h r := by
  unfold Spec.semiImplicitEuler Spec.dmpAcceleration Spec.drivenSpring
  ext k
  · simp only [Prod.fst_add, Prod.snd_add, Pi.add_apply, Pi.smul_apply, smul_eq_mul]
    ring
  · simp only [Prod.fst_add, Prod.snd_add, Pi.add_apply, Pi.smul_apply, smul_eq_mul]
    ring

/-- Response of both Euler functions on the sub-steps of the loop. -/
theorem euler_response (a : StepArgs d m) (hc : a.coupling = none) (hp : a.precomputed = none)
    (hd : 0 < a.intDt) (hT : a.startT < a.goalT) {lastT t : ℝ} (ht : a.startT < t)
    (s : Vec d × Vec d) (sf : StepFunction) (hsf : sf ∈ [StepFunction.euler, StepFunction.eulerCython]) :
    ∃ r0, sf.run { a with trackingError := 0 } lastT t s = .ok r0 ∧
      sf.run a lastT t s = .ok (r0 + (subSteps a.intDt t lastT).foldl (fun x p =>
        Spec.semiImplicitEuler (fun y v => fun k =>
        Spec.drivenSpring (a.alphaY k) (a.betaY k) (a.goalT - a.startT) (a.pGain * a.trackingError k / p.1)
          (y k) (v k)) p.1 x) 0) := by
  have h1 := euler_subSteps a hc hp hd hT (lastT := lastT) ht s sf hsf
  have h0 := euler_subSteps { a with trackingError := 0 } hc hp hd hT (lastT := lastT) ht s sf hsf
  refine ⟨_, h0, ?_⟩
  rw [h1]
  congr 1
  have key : ∀ (L : List (ℝ × ℝ)) (x y : Vec d × Vec d),
      L.foldl (fun s p => Spec.semiImplicitEuler (fun y v => fun k =>
        Spec.dmpAcceleration (a.alphaY k) (a.betaY k) (a.goalY k) (a.startY k) (a.goalT - a.startT) a.smooth
          (a.ft.phaseAt p.2) (a.ft.call p.2 k + a.pGain * a.trackingError k / p.1) (y k) (v k)) p.1 s) (x + y) =
      L.foldl (fun s p => Spec.semiImplicitEuler (fun y v => fun k =>
        Spec.dmpAcceleration (a.alphaY k) (a.betaY k) (a.goalY k) (a.startY k) (a.goalT - a.startT) a.smooth
          (a.ft.phaseAt p.2) (a.ft.call p.2 k + a.pGain * (0 : Vec d) k / p.1) (y k) (v k)) p.1 s) x +
      L.foldl (fun x p => Spec.semiImplicitEuler (fun y v => fun k =>
        Spec.drivenSpring (a.alphaY k) (a.betaY k) (a.goalT - a.startT) (a.pGain * a.trackingError k / p.1)
          (y k) (v k)) p.1 x) y := by
    intro L
    induction L with
    | nil => intro x y; rfl
    | cons p L ih =>
      intro x y
      simp only [List.foldl_cons]
      have := semiImplicit_response a (a.ft.call p.2) (a.ft.phaseAt p.2) p.1
        (fun k => a.pGain * a.trackingError k / p.1) x y
      rw [this, ih]
      simp
  have := key (subSteps a.intDt t lastT) s 0
  rw [add_zero] at this
  exact this

/-- **C67.** Euler: the result of a step with a tracking error `e` is the result without tracking error plus the
response, from rest in the origin, of a spring-damper driven in each sub-step of length `h` by the force
`p_gain * e / h`. -/
theorem C67_euler_response (a : StepArgs d m) (hc : a.coupling = none) (hp : a.precomputed = none)
    (hd : 0 < a.intDt) (hT : a.startT < a.goalT) {lastT t : ℝ} (hlt : lastT ≤ t) (ht : a.startT < t)
    (s : Vec d × Vec d) (sf : StepFunction) (hsf : sf ∈ [StepFunction.euler, StepFunction.eulerCython]) :
    ∃ L, Spec.IsPartition lastT t a.intDt L ∧ ∃ r0, sf.run { a with trackingError := 0 } lastT t s = .ok r0 ∧
      sf.run a lastT t s = .ok (r0 + L.foldl (fun x p => Spec.semiImplicitEuler (fun y v => fun k =>
        Spec.drivenSpring (a.alphaY k) (a.betaY k) (a.goalT - a.startT) (a.pGain * a.trackingError k / p.1)
          (y k) (v k)) p.1 x) 0) := 
  ⟨_, subSteps_isPartition hd lastT hlt, euler_response a hc hp hd hT ht s sf hsf⟩

/-- **C67.** Runge-Kutta: likewise, with one classical Runge-Kutta step of the spring-damper driven by
`p_gain * e / (t - last_t)`. -/
theorem C67_rk4_response (a : StepArgs d m) (hc : a.coupling = none) (hp : a.precomputed = none) (lastT t : ℝ)
    (s : Vec d × Vec d) (sf : StepFunction) (hsf : sf ∈ [StepFunction.rk4, StepFunction.rk4Cython]) :
    ∃ r0, sf.run { a with trackingError := 0 } lastT t s = .ok r0 ∧
      sf.run a lastT t s = .ok (r0 + Spec.rk4 (fun _ (x : Vec d × Vec d) => (x.2, fun k =>
        Spec.drivenSpring (a.alphaY k) (a.betaY k) (a.goalT - a.startT)
          (a.pGain * a.trackingError k / (t - lastT)) (x.1 k) (x.2 k))) lastT (t - lastT) 0) := by
  have main : ∃ r0, a.stepRk4 lastT t s = .ok (r0 + Spec.rk4 (fun _ (x : Vec d × Vec d) => (x.2, fun k =>
        Spec.drivenSpring (a.alphaY k) (a.betaY k) (a.goalT - a.startT)
          (a.pGain * a.trackingError k / (t - lastT)) (x.1 k) (x.2 k))) lastT (t - lastT) 0) ∧
      StepArgs.stepRk4 { a with trackingError := 0 } lastT t s = .ok r0 := by
    refine ⟨_, ?_, C09_rk4_is_classical { a with trackingError := 0 } hc hp lastT t s⟩
    rw [C09_rk4_is_classical a hc hp lastT t s]
    congr 1
    unfold Spec.rk4 Spec.dmpAcceleration Spec.drivenSpring
    ext k
    · simp only [Prod.fst_add, Prod.snd_add, Prod.smul_fst, Prod.smul_snd, Pi.add_apply, Pi.smul_apply, smul_eq_mul,
        Pi.zero_apply, Prod.fst_zero, Prod.snd_zero]
      ring
    · simp only [Prod.fst_add, Prod.snd_add, Prod.smul_fst, Prod.smul_snd, Pi.add_apply, Pi.smul_apply, smul_eq_mul,
        Pi.zero_apply, Prod.fst_zero, Prod.snd_zero]
      ring
  obtain ⟨r0, h1, h0⟩ := main
  simp only [List.mem_cons, List.not_mem_nil, or_false] at hsf
  rcases hsf with rfl | rfl
  · exact ⟨r0, h0, h1⟩
  · refine ⟨r0, ?_, ?_⟩
    · show StepArgs.stepRk4Cy _ _ _ _ = _
      rw [C10_rk4_cython_eq_python]; exact h0
    · show StepArgs.stepRk4Cy _ _ _ _ = _
      rw [C10_rk4_cython_eq_python]; exact h1

/-- `DMP.step` with and without tracking error. -/
theorem step_tracking (s : DMP d m) (sf : StepFunction) (y yd yd0 : Vec d) {r0 r : Vec d × Vec d}
    (h0 : sf.run { s.beginStep.stepArgs none (s.beginStep.currentY - y) with trackingError := 0 } s.t (s.t + s.dt)
      (s.beginStep.currentY, s.beginStep.currentYd) = .ok r0)
    (h1 : sf.run (s.beginStep.stepArgs none (s.beginStep.currentY - y)) s.t (s.t + s.dt)
      (s.beginStep.currentY, s.beginStep.currentYd) = .ok r) :
    ((DMP.step none sf s.beginStep.currentY yd0).exec s).1 = .ok r0 ∧
      ((DMP.step none sf y yd).exec s).1 = .ok r := by
  constructor
  · rw [DMP.exec_step, sub_self]
    rw [show s.beginStep.stepArgs none (0 : Vec d) =
      { s.beginStep.stepArgs none (s.beginStep.currentY - y) with trackingError := 0 } from rfl, h0]
    rfl
  · rw [DMP.exec_step, h1]
    rfl

/-- The position a `DMP` object holds before a step: `current_y`, or `start_y` before the first step. -/
def heldPosition (s : DMP d m) : Vec d := if s.initialized then s.currentY else s.startY

/-- **C67.** One `step` call of a DMP with one Euler sub-step (`dt <= int_dt`): compared with passing the position the
object itself holds, passing `last_y` increases the returned velocity by `p_gain * (held - last_y) / execution_time^2`
and the returned position by `dt` times this. -/
theorem C67_step_one_substep (s : DMP d m) (hτ : 0 < s.executionTime) (ht : 0 ≤ s.t) (hdt : 0 < s.dt)
    (hint : s.dt ≤ s.intDt) (sf : StepFunction) (hsf : sf ∈ [StepFunction.euler, StepFunction.eulerCython])
    (y yd yd0 : Vec d) :
    ∃ r0 r, ((DMP.step none sf (heldPosition s) yd0).exec s).1 = .ok r0 ∧
      ((DMP.step none sf y yd).exec s).1 = .ok r ∧
      ∀ k, r.2 k = r0.2 k + s.pGain * (heldPosition s k - y k) / s.executionTime ^ 2 ∧
        r.1 k = r0.1 k + s.dt * (s.pGain * (heldPosition s k - y k) / s.executionTime ^ 2) := by
  obtain ⟨r0, h0, h1⟩ := euler_response (s.beginStep.stepArgs none (s.beginStep.currentY - y)) rfl rfl
    (lt_of_lt_of_le hdt hint) hτ (lastT := s.t) (t := s.t + s.dt) (add_pos_of_nonneg_of_pos ht hdt)
    (s.beginStep.currentY, s.beginStep.currentYd) sf hsf
  obtain ⟨e0, e1⟩ := step_tracking s sf y yd yd0 h0 h1
  refine ⟨r0, _, e0, e1, ?_⟩
  have hL : subSteps (s.beginStep.stepArgs none (s.beginStep.currentY - y)).intDt (s.t + s.dt) s.t =
      [(s.dt, s.t + s.dt)] := by
    have := subSteps_last (lt_of_lt_of_le hdt hint) (lt_add_of_pos_right s.t hdt) (by linarith)
    rw [add_sub_cancel_left] at this
    exact this
  intro k
  rw [hL]
  simp only [List.foldl_cons, List.foldl_nil, Spec.semiImplicitEuler, Spec.drivenSpring, Prod.fst_add, Prod.snd_add,
    Pi.add_apply, Pi.smul_apply, smul_eq_mul, Prod.fst_zero, Prod.snd_zero, Pi.zero_apply]
  have hc : (s.beginStep.stepArgs none (s.beginStep.currentY - y)).trackingError k = heldPosition s k - y k := rfl
  have hg : (s.beginStep.stepArgs none (s.beginStep.currentY - y)).goalT -
    (s.beginStep.stepArgs none (s.beginStep.currentY - y)).startT = s.executionTime := sub_zero _
  have hpg : (s.beginStep.stepArgs none (s.beginStep.currentY - y)).pGain = s.pGain := rfl
  rw [hc, hg, hpg]
  have h1 := hdt.ne'
  have h2 := hτ.ne'
  constructor
  · field_simp
    ring
  · field_simp
    ring

/-- **C67.** Two Euler sub-steps (`dt = 2 int_dt`): the correction is applied once per sub-step and not once per call, so
that the returned velocity changes by `p_gain * e / execution_time^2` times
`2 - int_dt * alpha / execution_time - int_dt^2 * alpha * beta / execution_time^2`. -/
theorem C67_step_two_substeps (s : DMP d m) (hτ : 0 < s.executionTime) (ht : 0 ≤ s.t) (hint : 0 < s.intDt)
    (hdt : s.dt = 2 * s.intDt) (sf : StepFunction) (hsf : sf ∈ [StepFunction.euler, StepFunction.eulerCython])
    (y yd yd0 : Vec d) :
    ∃ r0 r, ((DMP.step none sf (heldPosition s) yd0).exec s).1 = .ok r0 ∧
      ((DMP.step none sf y yd).exec s).1 = .ok r ∧
      ∀ k, r.2 k = r0.2 k + s.pGain * (heldPosition s k - y k) / s.executionTime ^ 2 *
        (2 - s.intDt * s.alphaY k / s.executionTime - s.intDt ^ 2 * (s.alphaY k * s.betaY k) / s.executionTime ^ 2) := by
  obtain ⟨r0, h0, h1⟩ := euler_response (s.beginStep.stepArgs none (s.beginStep.currentY - y)) rfl rfl
    hint hτ (lastT := s.t) (t := s.t + s.dt) (add_pos_of_nonneg_of_pos ht (by linarith))
    (s.beginStep.currentY, s.beginStep.currentYd) sf hsf
  obtain ⟨e0, e1⟩ := step_tracking s sf y yd yd0 h0 h1
  refine ⟨r0, _, e0, e1, ?_⟩
  have hL : subSteps (s.beginStep.stepArgs none (s.beginStep.currentY - y)).intDt (s.t + s.dt) s.t =
      [(s.intDt, s.t + s.intDt), (s.intDt, s.t + s.dt)] := by
    have h1 := subSteps_cons (t := s.t + s.dt) (lastT := s.t) hint (by linarith)
    have h2 := subSteps_last (t := s.t + s.dt) (lastT := s.t + s.intDt) hint (by linarith) (by linarith)
    rw [h2, show s.t + s.dt - (s.t + s.intDt) = s.intDt by linarith] at h1
    exact h1
  intro k
  rw [hL]
  simp only [List.foldl_cons, List.foldl_nil, Spec.semiImplicitEuler, Spec.drivenSpring, Prod.fst_add, Prod.snd_add,
    Pi.add_apply, Pi.smul_apply, smul_eq_mul, Prod.fst_zero, Prod.snd_zero, Pi.zero_apply]
  have hc : (s.beginStep.stepArgs none (s.beginStep.currentY - y)).trackingError k = heldPosition s k - y k := rfl
  have hg : (s.beginStep.stepArgs none (s.beginStep.currentY - y)).goalT -
    (s.beginStep.stepArgs none (s.beginStep.currentY - y)).startT = s.executionTime := sub_zero _
  have hpg : (s.beginStep.stepArgs none (s.beginStep.currentY - y)).pGain = s.pGain := rfl
  have ha : (s.beginStep.stepArgs none (s.beginStep.currentY - y)).alphaY k = s.alphaY k := rfl
  have hb : (s.beginStep.stepArgs none (s.beginStep.currentY - y)).betaY k = s.betaY k := rfl
  rw [hc, hg, hpg, ha, hb]
  have h1 := hint.ne'
  have h2 := hτ.ne'
  field_simp
  ring

/-- **C67.** One `step` call with a Runge-Kutta function: the velocity changes by `p_gain * e / execution_time^2` times
a factor that is `1` up to terms of order `dt`, however small `int_dt` is. -/
theorem C67_step_rk4 (s : DMP d m) (hτ : 0 < s.executionTime) (hdt : 0 < s.dt) (sf : StepFunction)
    (hsf : sf ∈ [StepFunction.rk4, StepFunction.rk4Cython]) (y yd yd0 : Vec d) :
    ∃ r0 r, ((DMP.step none sf (heldPosition s) yd0).exec s).1 = .ok r0 ∧
      ((DMP.step none sf y yd).exec s).1 = .ok r ∧
      ∀ k, let q := s.alphaY k * s.dt / s.executionTime
        let w := s.alphaY k * s.betaY k * s.dt ^ 2 / s.executionTime ^ 2
        r.2 k = r0.2 k + s.pGain * (heldPosition s k - y k) / s.executionTime ^ 2 *
          (1 - q / 2 - w / 6 + q ^ 2 / 6 + q * w / 12 - q ^ 3 / 24) := by
  obtain ⟨r0, h0, h1⟩ := C67_rk4_response (s.beginStep.stepArgs none (s.beginStep.currentY - y)) rfl rfl
    s.t (s.t + s.dt) (s.beginStep.currentY, s.beginStep.currentYd) sf hsf
  obtain ⟨e0, e1⟩ := step_tracking s sf y yd yd0 h0 h1
  refine ⟨r0, _, e0, e1, ?_⟩
  intro k q w
  simp only [Spec.rk4, Spec.drivenSpring, Prod.fst_add, Prod.snd_add, Prod.smul_fst, Prod.smul_snd,
    Pi.add_apply, Pi.smul_apply, smul_eq_mul, Prod.fst_zero, Prod.snd_zero, Pi.zero_apply]
  have hc : (s.beginStep.stepArgs none (s.beginStep.currentY - y)).trackingError k = heldPosition s k - y k := rfl
  have hg : (s.beginStep.stepArgs none (s.beginStep.currentY - y)).goalT -
    (s.beginStep.stepArgs none (s.beginStep.currentY - y)).startT = s.executionTime := sub_zero _
  have hpg : (s.beginStep.stepArgs none (s.beginStep.currentY - y)).pGain = s.pGain := rfl
  have ha : (s.beginStep.stepArgs none (s.beginStep.currentY - y)).alphaY k = s.alphaY k := rfl
  have hb : (s.beginStep.stepArgs none (s.beginStep.currentY - y)).betaY k = s.betaY k := rfl
  rw [hc, hg, hpg, ha, hb, add_sub_cancel_left]
  have h1 := hdt.ne'
  have h2 := hτ.ne'
  simp only [q, w]
  field_simp
  ring

/-- The hypotheses of C67 are met by a new DMP with `p_gain = 1/2` and `dt = int_dt`, and by one with
`dt = 2 int_dt`. -/
example : (∃ s : DMP 2 10, s.Reachable ∧ 0 < s.executionTime ∧ 0 ≤ s.t ∧ 0 < s.dt ∧ s.dt ≤ s.intDt ∧ s.pGain = 1 / 2) ∧
    (∃ s : DMP 2 10, s.Reachable ∧ 0 < s.executionTime ∧ 0 ≤ s.t ∧ 0 < s.intDt ∧ s.dt = 2 * s.intDt ∧
      s.pGain = 1 / 2) := by
  constructor
  · obtain ⟨s, hs, h1, h2, h3, h4, h5, h6, h7, h8, h9, h10, h11, h12, h13⟩ :=
      DMP.create_ok 2 10 (by norm_num) one_pos (1 / 1000) (1 / 1000) (1 / 2) false 25 (25 / 4)
    exact ⟨s, .create hs, by rw [h1]; norm_num, h7.ge, by rw [h2]; norm_num, by rw [h2, h3], h4⟩
  · obtain ⟨s, hs, h1, h2, h3, h4, h5, h6, h7, h8, h9, h10, h11, h12, h13⟩ :=
      DMP.create_ok 2 10 (by norm_num) one_pos (1 / 500) (1 / 1000) (1 / 2) false 25 (25 / 4)
    exact ⟨s, .create hs, by rw [h1]; norm_num, h7.ge, by rw [h3]; norm_num, by rw [h2, h3]; norm_num, h4⟩

end Verif
