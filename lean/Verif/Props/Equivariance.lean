import Verif.Lemmas.Sim
import Verif.Lemmas.DmpHistory
import Verif.Props.Canonical
import Mathlib.Algebra.Module.LinearMap.Basic

/-! # C13, C14, C62: translations, time scaling, independence of dimensions -/

namespace Verif
open scoped BigOperators
variable {d m : ℕ}

theorem simMap_one {d' : ℕ} (P : Vec d →ₗ[ℝ] Vec d') (b : Vec d') :
    simMap 1 P b = fun s => (P s.1 + b, P s.2) := by
  funext s; simp [simMap]

/-! ## C13 -/

/-- Arguments with start and goal moved by `b`, the coupling term moved along. -/
def StepArgs.shift (a : StepArgs d m) (b : Vec d) : StepArgs d m :=
  { a with
    startY := a.startY + b
    goalY := a.goalY + b
    coupling := a.coupling.map (fun c y v => c (y - b) v) }

theorem sim_translate (a : StepArgs d m) (b : Vec d) : a.Sim (a.shift b) 1 LinearMap.id b where
  pos := one_pos
  intDt := by simp [StepArgs.shift]
  goalT := by simp [StepArgs.shift]
  startT := by simp [StepArgs.shift]
  start := by simp [simMap, StepArgs.shift]
  acc := by
    intro Y V u h
    funext k
    cases hs : a.smooth <;> cases hc : a.coupling <;>
      simp [StepArgs.acc, StepArgs.initialCdd, hs, hc, StepArgs.shift]
  cd := by
    intro s
    cases hc : a.coupling <;> simp [StepArgs.addCd, simMap, hc, StepArgs.shift]
  cy := by
    intro dt t s
    have hcy : (a.shift b).cyCoupling (simMap 1 LinearMap.id b s) = a.cyCoupling s := by
      unfold StepArgs.cyCoupling StepArgs.shift
      cases hc : a.coupling <;> simp [simMap]
    unfold StepArgs.eulerBodyCy
    rw [hcy]
    ext k
    · simp [simMap, StepArgs.shift]; ring
    · simp [simMap, StepArgs.shift]

/-- **C13 (open_loop).** Shifting start and goal by `b` shifts every position by `b`; the time stamps, and
errors if any, are the same. A coupling term is moved along. -/
theorem C13_translation_open_loop (s : DMP d m) (b : Vec d) (runT : Option ℝ) (coupling : Option (Coupling d))
    (name : String) :
    ((DMP.openLoop runT (coupling.map (fun c y v => c (y - b) v)) name).exec
        { s with startY := s.startY + b, goalY := s.goalY + b }).1 =
      (((DMP.openLoop runT coupling name).exec s).1).map (fun r => (r.1, r.2.map (· + b))) := by
  unfold DMP.openLoop
  simp only [Py.exec_bind, Py.exec_lift, Py.exec_get]
  cases StepFunction.lookup name with
  | error e => rfl
  | ok sf =>
    simp only
    have h := (sim_translate (s.openLoopArgs coupling) b).openLoop sf s.dt runT
    simp only [one_mul, Option.map_id', List.map_id', LinearMap.id_apply] at h
    exact h

/-- **C13 (step).** The same for one call of `step`: the position result is shifted by `b`, the velocity is
unchanged, and the object is again the shifted object, so the claim extends to any number of steps. -/
theorem C13_translation_step (s : DMP d m) (b : Vec d) (coupling : Option (Coupling d)) (sf : StepFunction)
    (lastY lastYd : Vec d) :
    let shift : DMP d m → DMP d m := fun s =>
      { s with startY := s.startY + b, goalY := s.goalY + b, currentY := s.currentY + b }
    (DMP.step (coupling.map (fun c y v => c (y - b) v)) sf (lastY + b) lastYd).exec (shift s) =
      let r := (DMP.step coupling sf lastY lastYd).exec s
      (r.1.map (fun x => (x.1 + b, x.2)), shift r.2) := by
  intro shift
  rw [DMP.exec_step, DMP.exec_step]
  have hb : (shift s).beginStep = shift s.beginStep := by
    unfold DMP.beginStep
    cases s.initialized <;> simp [shift]
  rw [hb]
  have h := (sim_translate (s.beginStep.stepArgs coupling (s.beginStep.currentY - lastY)) b).run sf s.t
    (s.t + s.dt) (s.beginStep.currentY, s.beginStep.currentYd)
  simp only [one_mul, simMap_one, LinearMap.id_apply] at h
  have hargs : (shift s.beginStep).stepArgs (coupling.map (fun c y v => c (y - b) v))
      ((shift s.beginStep).currentY - (lastY + b)) =
      (s.beginStep.stepArgs coupling (s.beginStep.currentY - lastY)).shift b := by
    have : (shift s.beginStep).currentY - (lastY + b) = s.beginStep.currentY - lastY := by
      simp only [shift]; abel
    rw [this]; rfl
  rw [hargs]
  refine (congrArg (DMP.finishStep (shift s.beginStep)) h).trans ?_
  cases sf.run (s.beginStep.stepArgs coupling (s.beginStep.currentY - lastY)) s.t (s.t + s.dt)
    (s.beginStep.currentY, s.beginStep.currentYd) <;> rfl

/-! ## C14 -/

/-- A forcing term with all times multiplied by `c`. -/
def ForcingTerm.scaleTime (ft : ForcingTerm d m) (c : ℝ) : ForcingTerm d m :=
  { ft with goalT := c * ft.goalT, startT := c * ft.startT, executionTime := c * ft.executionTime }

theorem ForcingTerm.scaleTime_phaseAt (ft : ForcingTerm d m) {c : ℝ} (hc : 0 < c) (t : ℝ) :
    (ft.scaleTime c).phaseAt (c * t) = ft.phaseAt t :=
  C02_phase_scale t ft.alphaZ ft.goalT ft.startT c hc

theorem ForcingTerm.scaleTime_force (ft : ForcingTerm d m) (c z : ℝ) : (ft.scaleTime c).force z = ft.force z := rfl

theorem initCenter_scale {c : ℝ} (hc : 0 < c) (τ α : ℝ) (i : ℕ) :
    ForcingTerm.initCenter m (c * τ) 0 α i = ForcingTerm.initCenter m τ 0 α i := by
  unfold ForcingTerm.initCenter
  have h0 : ∀ t : ℝ, phase (c * t) α (c * τ) 0 = phase t α τ 0 := by
    intro t
    have := C02_phase_scale t α τ 0 c hc
    simpa using this
  split_ifs
  · simpa using h0 0
  · rw [← h0]; congr 1; ring

theorem initForcingTerm_scale {c τ : ℝ} (hc : 0 < c) {ft : ForcingTerm d m}
    (h : DMP.initForcingTerm d m τ = .ok ft) : DMP.initForcingTerm d m (c * τ) = .ok (ft.scaleTime c) := by
  rw [DMP.initForcingTerm_ok_iff] at h ⊢
  unfold ForcingTerm.create at h ⊢
  split_ifs at h with h1 h2 h3
  rw [if_neg h1, if_neg (by have := mul_pos hc (not_le.1 h2); linarith), if_neg h3]
  simp only [Except.ok.injEq] at h ⊢
  subst h
  unfold ForcingTerm.scaleTime
  simp only [mul_zero, ForcingTerm.mk.injEq, true_and, sub_zero]
  refine ⟨?_, ?_⟩
  · funext i; exact initCenter_scale hc _ _ _
  · funext i
    unfold ForcingTerm.initWidth
    simp only [initCenter_scale hc]

/-- Arguments with all times multiplied by `c`. The coupling term sees the velocity in the old time unit. -/
noncomputable def StepArgs.scaleTime (a : StepArgs d m) (c : ℝ) : StepArgs d m :=
  { a with
    startYd := c⁻¹ • a.startYd
    goalT := c * a.goalT
    startT := c * a.startT
    ft := a.ft.scaleTime c
    intDt := c * a.intDt
    pGain := c * a.pGain
    coupling := a.coupling.map (fun f y v => f y (c • v)) }

theorem sim_scaleTime (a : StepArgs d m) {c : ℝ} (hc : 0 < c) : a.Sim (a.scaleTime c) c LinearMap.id 0 where
  pos := hc
  intDt := rfl
  goalT := rfl
  startT := rfl
  start := by simp [simMap, StepArgs.scaleTime]
  acc := by
    intro Y V u h
    have hc' := hc.ne'
    have hz : (a.scaleTime c).ft.phaseAt (c * u) = a.ft.phaseAt u := a.ft.scaleTime_phaseAt hc u
    have hf : ∀ z, (a.scaleTime c).ft.force z = a.ft.force z := fun z => a.ft.scaleTime_force c z
    have hτ : (a.scaleTime c).goalT - (a.scaleTime c).startT = c * (a.goalT - a.startT) := by
      simp only [StepArgs.scaleTime]; ring
    rw [hz, hf, hτ]
    have ht : (fun k => (a.scaleTime c).pGain * (a.scaleTime c).trackingError k / (c * h)) =
        fun k => a.pGain * a.trackingError k / h := by
      funext k
      simp only [StepArgs.scaleTime]
      rw [mul_assoc, mul_div_mul_left _ _ hc']
    rw [ht]
    have hi : (a.scaleTime c).initialCdd = a.initialCdd := rfl
    rw [hi]
    generalize a.initialCdd = cdd0
    generalize a.ft.force (a.ft.phaseAt u) = f
    generalize a.ft.phaseAt u = z
    generalize a.goalT - a.startT = τ
    funext k
    unfold StepArgs.acc
    cases hcp : a.coupling <;> cases hsm : a.smooth <;>
      · simp only [StepArgs.scaleTime, hcp, hsm, LinearMap.id_apply, add_zero, Option.map_none, Option.map_some,
          Pi.smul_apply, smul_eq_mul, smul_smul, mul_inv_cancel₀ hc', one_smul]
        have e : c * τ * (c⁻¹ * V k) = τ * V k := by field_simp
        rw [e]
        by_cases hτ0 : τ = 0
        · simp [hτ0]
        · field_simp
  cd := by
    intro s
    have hc' := hc.ne'
    have hτ : (a.scaleTime c).goalT - (a.scaleTime c).startT = c * (a.goalT - a.startT) := by
      simp only [StepArgs.scaleTime]; ring
    rw [hτ]
    unfold StepArgs.addCd
    simp only [StepArgs.scaleTime]
    cases a.coupling with
    | none => rfl
    | some f =>
      simp only [simMap, LinearMap.id_apply, add_zero, Option.map_some, smul_smul, mul_inv_cancel₀ hc', one_smul]
      congr 1
      funext k
      simp only [Pi.smul_apply, smul_eq_mul]
      by_cases hτ0 : a.goalT - a.startT = 0
      · simp [hτ0]
      · field_simp
  cy := by
    intro dt t s
    have hc' := hc.ne'
    have hz : (a.scaleTime c).ft.phaseAt (c * t) = a.ft.phaseAt t := a.ft.scaleTime_phaseAt hc t
    have hf : ∀ z, (a.scaleTime c).ft.force z = a.ft.force z := fun z => a.ft.scaleTime_force c z
    have hτ : (a.scaleTime c).goalT - (a.scaleTime c).startT = c * (a.goalT - a.startT) := by
      simp only [StepArgs.scaleTime]; ring
    have hcy : (a.scaleTime c).cyCoupling (simMap c LinearMap.id 0 s) = a.cyCoupling s := by
      unfold StepArgs.cyCoupling StepArgs.scaleTime
      cases hc : a.coupling <;> simp [simMap, smul_smul, hc']
    unfold StepArgs.eulerBodyCy
    rw [hcy, hz, hτ]
    simp only [hf]
    generalize a.goalT - a.startT = τ
    have hyd : ∀ k, (simMap c LinearMap.id 0 s).2 k +
        (c * dt * (((a.scaleTime c).alphaY k * ((a.scaleTime c).betaY k *
          ((a.scaleTime c).goalY k - (simMap c LinearMap.id 0 s).1 k) -
            c * τ * (simMap c LinearMap.id 0 s).2 k -
          if (a.scaleTime c).smooth = true then (a.scaleTime c).betaY k *
            ((a.scaleTime c).goalY k - (a.scaleTime c).startY k) * a.ft.phaseAt t else 0) +
          a.ft.force (a.ft.phaseAt t) k + ((a.cyCoupling s).2 k +
            (a.scaleTime c).pGain * (a.scaleTime c).trackingError k / (c * dt))) / (c * τ) ^ 2) +
          (a.cyCoupling s).1 k / (c * τ)) =
        c⁻¹ * (s.2 k + (dt * ((a.alphaY k * (a.betaY k * (a.goalY k - s.1 k) - τ * s.2 k -
          if a.smooth = true then a.betaY k * (a.goalY k - a.startY k) * a.ft.phaseAt t else 0) +
          a.ft.force (a.ft.phaseAt t) k + ((a.cyCoupling s).2 k + a.pGain * a.trackingError k / dt)) / τ ^ 2) +
          (a.cyCoupling s).1 k / τ)) := by
      intro k
      simp only [StepArgs.scaleTime, simMap, Pi.smul_apply, smul_eq_mul, LinearMap.id_apply, add_zero]
      rw [mul_assoc c a.pGain, mul_div_mul_left _ _ hc']
      have e : c * τ * (c⁻¹ * s.2 k) = τ * s.2 k := by field_simp
      rw [e]
      split_ifs with hsm <;>
      · by_cases hτ0 : τ = 0
        · simp [hτ0]
        · field_simp
          simp only [hsm, if_true, if_false, Bool.false_eq_true]
    simp only [hyd]
    ext k
    · simp only [simMap, LinearMap.id_apply, add_zero]
      congr 1
      rw [mul_right_comm, ← mul_assoc c, mul_inv_cancel₀ hc', one_mul, mul_comm]
    · simp only [simMap, LinearMap.id_apply, Pi.smul_apply, smul_eq_mul]

/-- **C14 (open_loop).** For every reachable DMP: multiply `dt` and `int_dt` by `c > 0` and assign
`execution_time_ = c * execution_time_`. Then `open_loop` visits the same positions at times multiplied by `c`.
A coupling term is given velocities in the old time unit. -/
theorem C14_time_scaling_open_loop {s : DMP d m} (hs : s.Reachable) {c : ℝ} (hc : 0 < c) :
    ∃ s', (DMP.setExecutionTime (c * s.executionTime)).exec
        { s with dt := c * s.dt, intDt := c * s.intDt } = (.ok (), s') ∧
      ∀ (runT : Option ℝ) (coupling : Option (Coupling d)) (name : String),
        ((DMP.openLoop (runT.map (c * ·)) (coupling.map (fun f y v => f y (c • v))) name).exec s').1 =
          ((DMP.openLoop runT coupling name).exec s).1.map (fun r => (r.1.map (c * ·), r.2)) := by
  obtain ⟨ft, h1, h2⟩ := hs.valid
  have h3 := initForcingTerm_scale hc h1
  refine ⟨_, (DMP.exec_setExecutionTime _ _).trans (by rw [h3]), ?_⟩
  intro runT coupling name
  rw [DMP.exec_openLoop, DMP.exec_openLoop]
  cases StepFunction.lookup name with
  | error e => rfl
  | ok sf =>
    have h := (sim_scaleTime (s.openLoopArgs coupling) hc).openLoop sf s.dt runT
    simp only [LinearMap.id_apply, add_zero, List.map_id'] at h
    simp only [Except.bind]
    rw [← h]
    congr 1
    unfold DMP.openLoopArgs StepArgs.scaleTime
    simp only [mul_zero, smul_zero]
    rw [h2]
    rfl

/-- **C14 (step).** The same for `step`: positions are the same, velocities are divided by `c`, and the object is
again the rescaled object. (With feedback, `p_gain` has to be multiplied by `c` as well.) -/
theorem C14_time_scaling_step {s : DMP d m} (hs : s.Reachable) {c : ℝ} (hc : 0 < c)
    (coupling : Option (Coupling d)) (sf : StepFunction) (lastY lastYd : Vec d) :
    let scale : DMP d m → DMP d m := fun s =>
      { s with
        t := c * s.t, lastT := s.lastT.map (c * ·), startYd := c⁻¹ • s.startYd, currentYd := c⁻¹ • s.currentYd
        dt := c * s.dt, intDt := c * s.intDt, pGain := c * s.pGain }
    ∃ s', (DMP.setExecutionTime (c * s.executionTime)).exec (scale s) = (.ok (), s') ∧
      let r := (DMP.step coupling sf lastY lastYd).exec s
      let r' := (DMP.step (coupling.map (fun f y v => f y (c • v))) sf lastY lastYd).exec s'
      r'.1 = r.1.map (fun x => (x.1, c⁻¹ • x.2)) ∧
      (DMP.setExecutionTime (c * r.2.executionTime)).exec (scale r.2) = (.ok (), r'.2) := by
  intro scale
  obtain ⟨ft, h1, h2⟩ := hs.valid
  have h3 := initForcingTerm_scale hc h1
  have hset : ∀ x : DMP d m, x.executionTime = s.executionTime →
      (DMP.setExecutionTime (c * x.executionTime)).exec (scale x) =
        (.ok (), { scale x with
                   executionTime := c * x.executionTime
                   ft := { ft.scaleTime c with weights := x.ft.weights } }) := by
    intro x hx
    rw [DMP.exec_setExecutionTime, hx, h3]
  refine ⟨_, hset s rfl, ?_⟩
  simp only
  rw [DMP.exec_step, DMP.exec_step]
  set s' : DMP d m := { scale s with
    executionTime := c * s.executionTime
    ft := { ft.scaleTime c with weights := s.ft.weights } } with hs'
  have hb : s'.beginStep = { scale s.beginStep with
      executionTime := c * s.executionTime
      ft := { ft.scaleTime c with weights := s.ft.weights } } := by
    rw [hs']
    unfold DMP.beginStep
    cases s.initialized <;> simp [scale, mul_add]
  have hargs : s'.beginStep.stepArgs (coupling.map (fun f y v => f y (c • v))) (s'.beginStep.currentY - lastY) =
      (s.beginStep.stepArgs coupling (s.beginStep.currentY - lastY)).scaleTime c := by
    rw [hb]
    unfold DMP.stepArgs StepArgs.scaleTime
    have : s.beginStep.ft = { ft with weights := s.ft.weights } := h2
    simp only [mul_zero, this]
    rfl
  have h := (sim_scaleTime (s.beginStep.stepArgs coupling (s.beginStep.currentY - lastY)) hc).run sf s.t
    (s.t + s.dt) (s.beginStep.currentY, s.beginStep.currentYd)
  have e1 : s'.t = c * s.t := rfl
  have e2 : s'.t + s'.dt = c * (s.t + s.dt) := by rw [mul_add]
  have e3 : (s'.beginStep.currentY, s'.beginStep.currentYd) =
      simMap c LinearMap.id 0 (s.beginStep.currentY, s.beginStep.currentYd) := by
    rw [hb]; simp [simMap, scale]
  rw [hargs, e2, e1, e3, h]
  have hsim : ∀ x : Vec d × Vec d, simMap c LinearMap.id 0 x = (x.1, c⁻¹ • x.2) := by
    intro x; simp [simMap]
  cases sf.run (s.beginStep.stepArgs coupling (s.beginStep.currentY - lastY)) s.t (s.t + s.dt)
    (s.beginStep.currentY, s.beginStep.currentYd) with
  | error e =>
    refine ⟨rfl, ?_⟩
    simp only [DMP.finishStep, Except.map]
    rw [hset s.beginStep rfl, hb]
    rfl
  | ok r =>
    refine ⟨?_, ?_⟩
    · simp [DMP.finishStep, Except.map, hsim]
    · simp only [DMP.finishStep, Except.map, hsim]
      rw [hset { s.beginStep with currentY := r.1, currentYd := r.2 } rfl, hb]
      rfl

/-! ## C62 -/

/-- Projection to dimension `k`. -/
def projDim (k : Fin d) : Vec d →ₗ[ℝ] Vec 1 where
  toFun v := fun _ => v k
  map_add' _ _ := rfl
  map_smul' _ _ := rfl

theorem sim_dim (a : StepArgs d m) (k : Fin d) (hc : a.coupling = none) (hp : a.precomputed = none) :
    a.Sim { goalY := fun _ => a.goalY k, goalYd := fun _ => a.goalYd k, goalYdd := fun _ => a.goalYdd k
            startY := fun _ => a.startY k, startYd := fun _ => a.startYd k, startYdd := fun _ => a.startYdd k
            goalT := a.goalT, startT := a.startT, alphaY := fun _ => a.alphaY k, betaY := fun _ => a.betaY k
            ft := { a.ft with weights := fun _ => a.ft.weights k }
            coupling := none, precomputed := none, intDt := a.intDt, pGain := a.pGain
            trackingError := fun _ => a.trackingError k, smooth := a.smooth } 1 (projDim k) 0 where
  pos := one_pos
  intDt := by simp
  goalT := by simp
  startT := by simp
  start := by simp [simMap, projDim]
  acc := by
    intro Y V u h
    funext i
    cases hs : a.smooth <;>
      simp [StepArgs.acc, StepArgs.initialCdd, hc, hp, projDim, ForcingTerm.force, ForcingTerm.phaseAt,
        ForcingTerm.activations, ForcingTerm.rbf, hs]
  cd := by intro s; simp [StepArgs.addCd, hc]
  cy := by
    intro dt t s
    ext i <;> simp [StepArgs.eulerBodyCy, StepArgs.cyCoupling, hc, hp, simMap, projDim, ForcingTerm.force,
      ForcingTerm.phaseAt, ForcingTerm.activations, ForcingTerm.rbf]

/-- The one-dimensional DMP of dimension `k`. -/
def DMP.restrict (s : DMP d m) (k : Fin d) : DMP 1 m :=
  { t := s.t, lastT := s.lastT, startY := fun _ => s.startY k, startYd := fun _ => s.startYd k
    startYdd := fun _ => s.startYdd k, goalY := fun _ => s.goalY k, goalYd := fun _ => s.goalYd k
    goalYdd := fun _ => s.goalYdd k, currentY := fun _ => s.currentY k, currentYd := fun _ => s.currentYd k
    executionTime := s.executionTime, dt := s.dt, intDt := s.intDt, pGain := s.pGain, smooth := s.smooth
    ft := { s.ft with weights := fun _ => s.ft.weights k }
    alphaY := fun _ => s.alphaY k, betaY := fun _ => s.betaY k, initialized := s.initialized }

/-- **C62 (open_loop).** Component `k` of the trajectory is the trajectory of the one-dimensional DMP that only
has the parameters of dimension `k`. -/
theorem C62_dimension_open_loop (s : DMP d m) (k : Fin d) (runT : Option ℝ) (name : String) :
    ((DMP.openLoop runT none name).exec (s.restrict k)).1 =
      ((DMP.openLoop runT none name).exec s).1.map (fun r => (r.1, r.2.map (fun y _ => y k))) := by
  unfold DMP.openLoop
  simp only [Py.exec_bind, Py.exec_lift, Py.exec_get]
  cases StepFunction.lookup name with
  | error e => rfl
  | ok sf =>
    simp only
    have h := (sim_dim (s.openLoopArgs none) k rfl rfl).openLoop sf s.dt runT
    simp only [one_mul, Option.map_id', List.map_id', add_zero] at h
    exact h

/-- **C62 (step).** The same for `step`, where the feedback of dimension `k` counts. -/
theorem C62_dimension_step (s : DMP d m) (k : Fin d) (sf : StepFunction) (lastY lastYd : Vec d) :
    (DMP.step none sf (fun _ => lastY k) (fun _ => lastYd k)).exec (s.restrict k) =
      let r := (DMP.step none sf lastY lastYd).exec s
      (r.1.map (fun x => (fun _ => x.1 k, fun _ => x.2 k)), r.2.restrict k) := by
  rw [DMP.exec_step, DMP.exec_step]
  have hb : (s.restrict k).beginStep = s.beginStep.restrict k := by
    unfold DMP.beginStep
    cases h : s.initialized <;> simp [DMP.restrict, h]
  rw [hb]
  have h := (sim_dim (s.beginStep.stepArgs none (s.beginStep.currentY - lastY)) k rfl rfl).run sf s.t
    (s.t + s.dt) (s.beginStep.currentY, s.beginStep.currentYd)
  simp only [one_mul, simMap_one, add_zero] at h
  refine (congrArg (DMP.finishStep (s.beginStep.restrict k)) h).trans ?_
  cases sf.run (s.beginStep.stepArgs none (s.beginStep.currentY - lastY)) s.t (s.t + s.dt)
    (s.beginStep.currentY, s.beginStep.currentYd) <;> rfl

end Verif
