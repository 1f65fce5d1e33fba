import Verif.Lemmas.FramesFv
import Verif.Props.Frames

/-! # C13, C14, C62, C73: DMPs with final velocity -/

namespace Verif
open Spec
variable {d d' m n : ℕ}

namespace FvDMP
open DMP

theorem exec_openLoop (runT : Option ℝ) (coupling : Option (Coupling d)) (s : FvDMP d m) :
    ((FvDMP.openLoop runT coupling).exec s).1 =
      openLoopWith (openLoopArgs s coupling).goalT (openLoopArgs s coupling).startT s.dt
        ((openLoopArgs s coupling).startY, (openLoopArgs s coupling).startYd) runT (openLoopArgs s coupling).fvStep := by
  unfold FvDMP.openLoop
  simp only [Py.exec_bind, Py.exec_lift, Py.exec_get]

/-- The object after a call of the step function. -/
def finish (s : FvDMP d m) (r : Except PyErr (Vec d × Vec d)) : Except PyErr (Vec d × Vec d) × FvDMP d m :=
  match r with
  | .ok r => (.ok r, { s with currentY := r.1, currentYd := r.2 })
  | .error e => (.error e, s)

theorem exec_step_finish (coupling : Option (Coupling d)) (lastY lastYd : Vec d) (s : FvDMP d m) :
    (FvDMP.step coupling lastY lastYd).exec s =
      finish s.beginStep ((s.beginStep.stepArgs coupling (s.beginStep.currentY - lastY)).fvStep s.t (s.t + s.dt)
          (s.beginStep.currentY, s.beginStep.currentYd)) := by
  rw [FvDMP.exec_step]
  unfold finish
  rfl

end FvDMP

/-! ## C13 -/

/-- **C13 (final velocity, open_loop).** Shifting start and goal by `b` shifts every position by `b`. -/
theorem C13_fv_open_loop (s : FvDMP d m) (b : Vec d) (runT : Option ℝ) (coupling : Option (Coupling d)) :
    ((FvDMP.openLoop runT (coupling.map (fun c y v => c (y - b) v))).exec
        { s with startY := s.startY + b, goalY := s.goalY + b }).1 =
      (((FvDMP.openLoop runT coupling).exec s).1).map (fun r => (r.1, r.2.map (· + b))) := by
  rw [FvDMP.exec_openLoop, FvDMP.exec_openLoop]
  exact (StepArgs.fvSim_shift (FvDMP.openLoopArgs s coupling) b).openLoop_one s.dt runT

/-- **C13 (final velocity, step).** The same for one call of `step`; the object is again the shifted object. -/
theorem C13_fv_step (s : FvDMP d m) (b : Vec d) (coupling : Option (Coupling d)) (lastY lastYd : Vec d) :
    let shift : FvDMP d m → FvDMP d m := fun s =>
      { s with startY := s.startY + b, goalY := s.goalY + b, currentY := s.currentY + b }
    (FvDMP.step (coupling.map (fun c y v => c (y - b) v)) (lastY + b) lastYd).exec (shift s) =
      let r := (FvDMP.step coupling lastY lastYd).exec s
      (r.1.map (fun x => (x.1 + b, x.2)), shift r.2) := by
  intro shift
  rw [FvDMP.exec_step_finish, FvDMP.exec_step_finish]
  have hb : (shift s).beginStep = shift s.beginStep := by
    unfold DMP.beginStep
    cases s.initialized <;> simp [shift]
  rw [hb]
  have h := (StepArgs.fvSim_shift (s.beginStep.stepArgs coupling (s.beginStep.currentY - lastY)) b).fvStep s.t
    (s.t + s.dt) (.inl rfl) (s.beginStep.currentY, s.beginStep.currentYd)
  simp only [one_mul, simMap_one, LinearMap.id_apply] at h
  have hargs : (shift s.beginStep).stepArgs (coupling.map (fun c y v => c (y - b) v))
      ((shift s.beginStep).currentY - (lastY + b)) =
      (s.beginStep.stepArgs coupling (s.beginStep.currentY - lastY)).shift b := by
    have : (shift s.beginStep).currentY - (lastY + b) = s.beginStep.currentY - lastY := by
      simp only [shift]; abel
    rw [this]; rfl
  rw [hargs]
  refine (congrArg (FvDMP.finish (shift s.beginStep)) h).trans ?_
  cases (s.beginStep.stepArgs coupling (s.beginStep.currentY - lastY)).fvStep s.t (s.t + s.dt)
    (s.beginStep.currentY, s.beginStep.currentYd) <;> rfl

/-! ## C14 -/

/-- The object in another unit of time, before its execution time is set: velocities are divided by `c`, accelerations by
`c * c`, time steps are multiplied by `c`. -/
noncomputable def FvDMP.inTimeUnit (c : ℝ) (s : FvDMP d m) : FvDMP d m :=
  { s with
    t := c * s.t, lastT := s.lastT.map (c * ·)
    startYd := c⁻¹ • s.startYd, startYdd := c⁻¹ • c⁻¹ • s.startYdd
    goalYd := c⁻¹ • s.goalYd, goalYdd := c⁻¹ • c⁻¹ • s.goalYdd
    currentYd := c⁻¹ • s.currentYd, dt := c * s.dt, intDt := c * s.intDt, pGain := c * s.pGain }

/-- **C14 (final velocity, open_loop).** For every reachable object: multiply the time steps and the execution time by
`c > 0`, divide velocities of start and goal by `c` and accelerations by `c * c`. Then `open_loop` visits the same positions
at times multiplied by `c`, for all trajectories that end not later than the execution time. (From `2 ** -52` seconds after
the execution time on, whatever the unit of time is, the goal is used instead of the polynomial.) -/
theorem C14_fv_open_loop {s : FvDMP d m} (hs : FvDMP.Reachable s) {c : ℝ} (hc : 0 < c) (hdt : 0 < s.dt) :
    ∃ s', (DMP.setExecutionTime (c * s.executionTime)).exec (s.inTimeUnit c) = (.ok (), s') ∧
      ∀ (runT : Option ℝ) (coupling : Option (Coupling d)), 0 ≤ runT.getD s.executionTime →
        ⌈runT.getD s.executionTime / s.dt⌉₊ * s.dt ≤ s.executionTime →
        ((FvDMP.openLoop (runT.map (c * ·)) (coupling.map (fun f y v => f y (c • v)))).exec s').1 =
          ((FvDMP.openLoop runT coupling).exec s).1.map (fun r => (r.1.map (c * ·), r.2)) := by
  obtain ⟨ft, h1, h2⟩ := hs.valid
  have h3 := initForcingTerm_scale hc h1
  refine ⟨_, (DMP.exec_setExecutionTime _ _).trans (by rw [h3]), ?_⟩
  intro runT coupling hr hle
  rw [FvDMP.exec_openLoop, FvDMP.exec_openLoop]
  have h := (StepArgs.fvSim_scaleTime (FvDMP.openLoopArgs s coupling) hc).openLoop rfl hdt runT hr (.inr hle)
  simp only [LinearMap.id_apply, add_zero, List.map_id'] at h
  rw [← h]
  congr 1
  · simp [FvDMP.openLoopArgs, DMP.stepArgs, StepArgs.fvScaleTime, StepArgs.scaleTime]
  · congr 1
    unfold FvDMP.openLoopArgs StepArgs.fvScaleTime StepArgs.scaleTime DMP.stepArgs
    simp only [mul_zero]
    rw [h2]
    rfl

/-- **C14 (final velocity, step).** The same for every call of `step` that ends not later than the execution time: positions
are the same, velocities are divided by `c`, and the object is again the rescaled object. -/
theorem C14_fv_step {s : FvDMP d m} (hs : FvDMP.Reachable s) {c : ℝ} (hc : 0 < c) (ht : s.t + s.dt ≤ s.executionTime)
    (coupling : Option (Coupling d)) (lastY lastYd : Vec d) :
    ∃ s', (DMP.setExecutionTime (c * s.executionTime)).exec (s.inTimeUnit c) = (.ok (), s') ∧
      let r := (FvDMP.step coupling lastY lastYd).exec s
      let r' := (FvDMP.step (coupling.map (fun f y v => f y (c • v))) lastY lastYd).exec s'
      r'.1 = r.1.map (fun x => (x.1, c⁻¹ • x.2)) ∧
      (DMP.setExecutionTime (c * r.2.executionTime)).exec (FvDMP.inTimeUnit c r.2) = (.ok (), r'.2) := by
  obtain ⟨ft, h1, h2⟩ := hs.valid
  have h3 := initForcingTerm_scale hc h1
  have hset : ∀ x : FvDMP d m, x.executionTime = s.executionTime →
      (DMP.setExecutionTime (c * x.executionTime)).exec (x.inTimeUnit c) =
        (.ok (), { x.inTimeUnit c with
                   executionTime := c * x.executionTime
                   ft := { ft.scaleTime c with weights := x.ft.weights } }) := by
    intro x hx
    rw [DMP.exec_setExecutionTime, hx, h3]
    rfl
  refine ⟨_, hset s rfl, ?_⟩
  simp only
  rw [FvDMP.exec_step_finish, FvDMP.exec_step_finish]
  set s' : FvDMP d m := { s.inTimeUnit c with
    executionTime := c * s.executionTime
    ft := { ft.scaleTime c with weights := s.ft.weights } } with hs'
  have hb : s'.beginStep = { FvDMP.inTimeUnit c s.beginStep with
      executionTime := c * s.executionTime
      ft := { ft.scaleTime c with weights := s.ft.weights } } := by
    rw [hs']
    unfold DMP.beginStep
    cases hi : s.initialized <;> simp [FvDMP.inTimeUnit, mul_add, hi]
  have hargs : s'.beginStep.stepArgs (coupling.map (fun f y v => f y (c • v))) (s'.beginStep.currentY - lastY) =
      (s.beginStep.stepArgs coupling (s.beginStep.currentY - lastY)).fvScaleTime c := by
    rw [hb]
    unfold DMP.stepArgs StepArgs.fvScaleTime StepArgs.scaleTime
    have : s.beginStep.ft = { ft with weights := s.ft.weights } := h2
    simp only [mul_zero, this]
    rfl
  have h := (StepArgs.fvSim_scaleTime (s.beginStep.stepArgs coupling (s.beginStep.currentY - lastY)) hc).fvStep s.t
    (s.t + s.dt) (.inr ht) (s.beginStep.currentY, s.beginStep.currentYd)
  have e1 : s'.t = c * s.t := rfl
  have e2 : s'.t + s'.dt = c * (s.t + s.dt) := by rw [mul_add]; rfl
  have e3 : (s'.beginStep.currentY, s'.beginStep.currentYd) =
      simMap c LinearMap.id 0 (s.beginStep.currentY, s.beginStep.currentYd) := by
    rw [hb]; simp [simMap, FvDMP.inTimeUnit]
  rw [hargs, e2, e1, e3, h]
  have hsim : ∀ x : Vec d × Vec d, simMap c LinearMap.id 0 x = (x.1, c⁻¹ • x.2) := by
    intro x; simp [simMap]
  cases (s.beginStep.stepArgs coupling (s.beginStep.currentY - lastY)).fvStep s.t (s.t + s.dt)
    (s.beginStep.currentY, s.beginStep.currentYd) with
  | error e =>
    refine ⟨rfl, ?_⟩
    simp only [FvDMP.finish, Except.map]
    rw [hset s.beginStep rfl, hb]
    rfl
  | ok r =>
    refine ⟨?_, ?_⟩
    · simp [FvDMP.finish, Except.map, hsim]
    · simp only [FvDMP.finish, Except.map, hsim]
      rw [hset { s.beginStep with currentY := r.1, currentYd := r.2 } rfl, hb]
      rfl

/-- The hypotheses hold for a new object: 10 steps of 0.1 s until the execution time 1 s. -/
example : ∃ s : FvDMP 2 5, FvDMP.Reachable s ∧ 0 < s.dt ∧ s.t + s.dt ≤ s.executionTime ∧
    ⌈(none : Option ℝ).getD s.executionTime / s.dt⌉₊ * s.dt ≤ s.executionTime := by
  obtain ⟨s, h, h1⟩ := DMP.create_ok 2 5 (by norm_num) (τ := 1) one_pos (1 / 10) (1 / 1000) 0 false 25 (25 / 4)
  refine ⟨s, .create (τ := 1) h, ?_⟩
  obtain ⟨e1, e2, e3⟩ : s.t = 0 ∧ s.dt = 1 / 10 ∧ s.executionTime = 1 := by simp [h1]
  rw [e1, e2, e3]
  norm_num

/-! ## C73 -/

/-- **C73 (final velocity, open_loop).** With the same gains in all dimensions an affine map of start and goal (velocities,
accelerations and weights are mapped by its linear part) maps every point of the trajectory. -/
theorem C73_fv_open_loop (s : FvDMP d m) {α β : ℝ} (hα : ∀ k, s.alphaY k = α) (hβ : ∀ k, s.betaY k = β)
    (P : Vec d →ₗ[ℝ] Vec d') (b : Vec d') {coupling : Option (Coupling d)} {coupling' : Option (Coupling d')}
    (hc : CouplingMapped P b coupling coupling') (runT : Option ℝ) :
    ((FvDMP.openLoop runT coupling').exec (DMP.mapped P b α β s)).1 =
      ((FvDMP.openLoop runT coupling).exec s).1.map (fun r => (r.1, r.2.map (fun y => P y + b))) := by
  rw [FvDMP.exec_openLoop, FvDMP.exec_openLoop]
  have h := (StepArgs.fvSim_affine (FvDMP.openLoopArgs s coupling) P b hα hβ hc).openLoop_one s.dt runT
  rw [← h]
  have e : FvDMP.openLoopArgs (DMP.mapped P b α β s) coupling' =
      (FvDMP.openLoopArgs s coupling).affine P b α β coupling' := by
    unfold FvDMP.openLoopArgs StepArgs.affine DMP.stepArgs
    simp only [map_zero]
    rfl
  rw [e]
  rfl

/-- **C73 (final velocity, step).** The same for one call of `step`; the object is again the mapped object. -/
theorem C73_fv_step (s : FvDMP d m) {α β : ℝ} (hα : ∀ k, s.alphaY k = α) (hβ : ∀ k, s.betaY k = β)
    (P : Vec d →ₗ[ℝ] Vec d') (b : Vec d') {coupling : Option (Coupling d)} {coupling' : Option (Coupling d')}
    (hc : CouplingMapped P b coupling coupling') (lastY lastYd : Vec d) :
    (FvDMP.step coupling' (P lastY + b) (P lastYd)).exec (DMP.mapped P b α β s) =
      let r := (FvDMP.step coupling lastY lastYd).exec s
      (r.1.map (fun x => (P x.1 + b, P x.2)), DMP.mapped P b α β r.2) := by
  rw [FvDMP.exec_step_finish, FvDMP.exec_step_finish]
  have hb : (DMP.mapped P b α β s).beginStep = s.beginStep.mapped P b α β := by
    unfold DMP.beginStep
    cases h : s.initialized <;> simp [DMP.mapped, h]
  rw [hb]
  have h := (StepArgs.fvSim_affine (s.beginStep.stepArgs coupling (s.beginStep.currentY - lastY)) P b hα hβ hc).fvStep s.t
    (s.t + s.dt) (.inl rfl) (s.beginStep.currentY, s.beginStep.currentYd)
  simp only [one_mul, simMap_one] at h
  have hargs : (s.beginStep.mapped P b α β).stepArgs coupling'
      ((s.beginStep.mapped P b α β).currentY - (P lastY + b)) =
      (s.beginStep.stepArgs coupling (s.beginStep.currentY - lastY)).affine P b α β coupling' := by
    have : (s.beginStep.mapped P b α β).currentY - (P lastY + b) = P (s.beginStep.currentY - lastY) := by
      rw [map_sub]; simp only [DMP.mapped]; abel
    rw [this]; rfl
  rw [hargs]
  refine (congrArg (FvDMP.finish (s.beginStep.mapped P b α β)) h).trans ?_
  cases (s.beginStep.stepArgs coupling (s.beginStep.currentY - lastY)).fvStep s.t (s.t + s.dt)
    (s.beginStep.currentY, s.beginStep.currentYd) <;> rfl

theorem movement_configure_all {p v : ℕ} (y0 : Vec p) (v0 a0 : Vec v) (y1 : Vec p) (v1 a1 : Vec v) (s : Movement p v) :
    (Movement.configure { startY := some (List.ofFn y0), startYd := some (List.ofFn v0), startYdd := some (List.ofFn a0)
                          goalY := some (List.ofFn y1), goalYd := some (List.ofFn v1)
                          goalYdd := some (List.ofFn a1) }).exec s =
      (.ok (), { s with startY := y0, startYd := v0, startYdd := a0, goalY := y1, goalYd := v1, goalYdd := a1 }) := by
  rw [C25_configure_sets]
  · simp only [newValue_ofFn]
    rfl
  · refine ⟨?_, ?_, ?_, ?_, ?_, ?_⟩ <;> intro xs hx <;> cases hx <;> simp

theorem dmpImitateWith_map_except (P : Vec d →ₗ[ℝ] Vec d') (T : Fin (n + 2) → ℝ) (reg ov z : ℝ)
    (F : Except PyErr (Fin (n + 2) → Vec d)) :
    dmpImitateWith m T reg ov z (F.map (fun F t => P (F t))) =
      (dmpImitateWith m T reg ov z F).map (fun W k i => P (fun j => W j i) k) := by
  cases F with
  | ok F => exact dmpImitateWith_map P T reg ov z F
  | error e =>
    unfold dmpImitateWith
    by_cases hr : reg < 0
    · simp only [if_pos hr]; rfl
    · simp only [if_neg hr, create_dims P]
      cases ForcingTerm.create d m (T (Fin.last (n + 1))) (T 0) ov z <;> rfl

/-- **C73 (final velocity, imitate).** A demonstration in the new coordinates gives the mapped object. -/
theorem C73_fv_imitate (s : FvDMP d m) {α β : ℝ} (hα : ∀ k, s.alphaY k = α) (hβ : ∀ k, s.betaY k = β)
    (P : Vec d →ₗ[ℝ] Vec d') (b : Vec d') (T : Fin (n + 2) → ℝ) (Y : Fin (n + 2) → Vec d) (reg : ℝ) :
    (FvDMP.imitate T (fun t => P (Y t) + b) reg).exec (DMP.mapped P b α β s) =
      let r := (FvDMP.imitate T Y reg).exec s
      (r.1, DMP.mapped P b α β r.2) := by
  rw [FvDMP.exec_imitate, FvDMP.exec_imitate]
  have hF := fvDetermineForces_map P b T Y (a := s.alphaY) (bt := s.betaY) (a' := fun _ => α) (bt' := fun _ => β)
    (fun Y => by
      have : s.alphaY * Y = α • Y := funext fun k => by simp [hα]
      rw [this, map_smul]; rfl)
    (fun Y => by
      have : s.betaY * Y = β • Y := funext fun k => by simp [hβ]
      rw [this, map_smul]; rfl)
  have h : dmpImitateWith m T reg (DMP.mapped P b α β s).ft.overlap (DMP.mapped P b α β s).ft.alphaZ
      (fvDetermineForces T (fun t => P (Y t) + b) (DMP.mapped P b α β s).alphaY (DMP.mapped P b α β s).betaY) =
      (dmpImitateWith m T reg s.ft.overlap s.ft.alphaZ (fvDetermineForces T Y s.alphaY s.betaY)).map
        (fun W k i => P (fun j => W j i) k) := by
    rw [← dmpImitateWith_map_except, ← hF]; rfl
  rw [h]
  cases dmpImitateWith m T reg s.ft.overlap s.ft.alphaZ (fvDetermineForces T Y s.alphaY s.betaY) with
  | error e => rfl
  | ok w =>
    simp only [Except.map, DMP.exec_configure, movement_configure_all, fvYd_map, fvYdd_map]
    rfl

/-! ## C62 -/

/-- **C62 (final velocity, open_loop).** Component `k` of the trajectory is the trajectory of the one-dimensional object that
only has the parameters of dimension `k`. -/
theorem C62_fv_open_loop (s : FvDMP d m) (k : Fin d) (runT : Option ℝ) :
    ((FvDMP.openLoop runT none).exec (DMP.restrict s k)).1 =
      ((FvDMP.openLoop runT none).exec s).1.map (fun r => (r.1, r.2.map (fun y _ => y k))) := by
  rw [FvDMP.exec_openLoop, FvDMP.exec_openLoop]
  have h := (StepArgs.fvSim_dim (FvDMP.openLoopArgs s none) k rfl rfl).openLoop_one s.dt runT
  simp only [add_zero] at h
  exact h

/-- **C62 (final velocity, step).** The same for `step`, where the feedback of dimension `k` counts. -/
theorem C62_fv_step (s : FvDMP d m) (k : Fin d) (lastY lastYd : Vec d) :
    (FvDMP.step none (fun _ => lastY k) (fun _ => lastYd k)).exec (DMP.restrict s k) =
      let r := (FvDMP.step none lastY lastYd).exec s
      (r.1.map (fun x => (fun _ => x.1 k, fun _ => x.2 k)), DMP.restrict r.2 k) := by
  rw [FvDMP.exec_step_finish, FvDMP.exec_step_finish]
  have hb : (DMP.restrict s k).beginStep = s.beginStep.restrict k := by
    unfold DMP.beginStep
    cases h : s.initialized <;> simp [DMP.restrict, h]
  rw [hb]
  have h := (StepArgs.fvSim_dim (s.beginStep.stepArgs none (s.beginStep.currentY - lastY)) k rfl rfl).fvStep s.t
    (s.t + s.dt) (.inl rfl) (s.beginStep.currentY, s.beginStep.currentYd)
  simp only [one_mul, simMap_one, add_zero] at h
  refine (congrArg (FvDMP.finish (s.beginStep.restrict k)) h).trans ?_
  cases (s.beginStep.stepArgs none (s.beginStep.currentY - lastY)).fvStep s.t (s.t + s.dt)
    (s.beginStep.currentY, s.beginStep.currentYd) <;> rfl

/-- **C62 (final velocity, imitate).** The weights of dimension `k` (and start and goal) depend on dimension `k` of the
demonstration only. -/
theorem C62_fv_imitate (s : FvDMP d m) (k : Fin d) (T : Fin (n + 2) → ℝ) (Y : Fin (n + 2) → Vec d) (reg : ℝ) :
    (FvDMP.imitate T (fun t _ => Y t k) reg).exec (DMP.restrict s k) =
      let r := (FvDMP.imitate T Y reg).exec s
      (r.1, DMP.restrict r.2 k) := by
  rw [FvDMP.exec_imitate, FvDMP.exec_imitate]
  have hF := fvDetermineForces_map (projDim k) 0 T Y (a := s.alphaY) (bt := s.betaY) (a' := fun _ => s.alphaY k)
    (bt' := fun _ => s.betaY k) (fun Y => rfl) (fun Y => rfl)
  have hp : ∀ y : Vec d, (projDim k) y + 0 = fun _ => y k := fun y => add_zero _
  simp only [hp] at hF
  have h : dmpImitateWith m T reg (DMP.restrict s k).ft.overlap (DMP.restrict s k).ft.alphaZ
      (fvDetermineForces T (fun t _ => Y t k) (DMP.restrict s k).alphaY (DMP.restrict s k).betaY) =
      (dmpImitateWith m T reg s.ft.overlap s.ft.alphaZ (fvDetermineForces T Y s.alphaY s.betaY)).map
        (fun W k' i => (projDim k) (fun j => W j i) k') := by
    rw [← dmpImitateWith_map_except, ← hF]; rfl
  rw [h]
  have e1 : ∀ i, fvYd T (fun t (_ : Fin 1) => Y t k) i = fun _ => fvYd T Y i k := fun i => rfl
  have e2 : ∀ i, fvYdd T (fun t (_ : Fin 1) => Y t k) i = fun _ => fvYdd T Y i k := fun i => rfl
  cases dmpImitateWith m T reg s.ft.overlap s.ft.alphaZ (fvDetermineForces T Y s.alphaY s.betaY) with
  | error e => rfl
  | ok w =>
    simp only [Except.map, DMP.exec_configure, movement_configure_all]
    rfl

/-- **C62 (imitate).** The weights of dimension `k` of a DMP depend on dimension `k` of the demonstration only. -/
theorem C62_dimension_imitate (s : DMP d m) (k : Fin d) (T : Fin (n + 2) → ℝ) (Y : Fin (n + 2) → Vec d) (reg : ℝ)
    (afv : Bool) :
    (DMP.imitate T (fun t _ => Y t k) reg afv).exec (s.restrict k) =
      let r := (DMP.imitate T Y reg afv).exec s
      (r.1, r.2.restrict k) := by
  rw [DMP.exec_imitate, DMP.exec_imitate]
  have h : dmpImitate m T (fun t (_ : Fin 1) => Y t k) reg (s.restrict k).alphaY (s.restrict k).betaY
      (s.restrict k).ft.overlap (s.restrict k).ft.alphaZ afv (s.restrict k).smooth =
      (dmpImitate m T Y reg s.alphaY s.betaY s.ft.overlap s.ft.alphaZ afv s.smooth).map
        (fun r => (fun k' i => (projDim k) (fun j => r.1 j i) k', fun _ => r.2.1 k, fun _ => r.2.2 k)) := by
    unfold dmpImitate
    have h1 := dmpImitateWith_map (m := m) (projDim k) T reg s.ft.overlap s.ft.alphaZ
      (determineForces T Y s.alphaY s.betaY s.ft.alphaZ afv s.smooth)
    have hF : determineForces T (fun t (_ : Fin 1) => Y t k) (s.restrict k).alphaY (s.restrict k).betaY
        (s.restrict k).ft.alphaZ afv (s.restrict k).smooth =
        fun t => (projDim k) (determineForces T Y s.alphaY s.betaY s.ft.alphaZ afv s.smooth t) := rfl
    rw [hF]
    show (dmpImitateWith m T reg s.ft.overlap s.ft.alphaZ _).bind _ = _
    rw [h1]
    cases dmpImitateWith m T reg s.ft.overlap s.ft.alphaZ
      (.ok (determineForces T Y s.alphaY s.betaY s.ft.alphaZ afv s.smooth)) <;> rfl
  rw [h]
  cases dmpImitate m T Y reg s.alphaY s.betaY s.ft.overlap s.ft.alphaZ afv s.smooth with
  | error e => rfl
  | ok r =>
    simp only [Except.map, DMP.exec_configure, movement_configure_rows]
    rfl

end Verif
