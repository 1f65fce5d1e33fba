import Verif.Props.NewObjects
import Verif.Props.FramesFinalVelocity
import Verif.Props.Convergence
import Verif.Props.DualClass

/-! # C15, C34: equilibria of objects -/

namespace Verif
open Spec Filter Topology
variable {d m n : ℕ}

/-! ## DMP -/

theorem DMP.executionTime_pos {s : DMP d m} (hs : s.Valid) : 0 < s.executionTime := by
  obtain ⟨ft, h, -⟩ := hs
  exact ((DMP.initForcingTerm_isOk_iff s.executionTime).1 ⟨ft, h⟩).2

/-- **C15 (open_loop).** A DMP whose start is its goal and whose weights are zero stays there: every row of `open_loop`
is the goal, for every integrator, run time, gain and with and without smooth scaling. -/
theorem C15_open_loop {s : DMP d m} (hs : s.Reachable) (hint : 0 < s.intDt) (hdt : 0 < s.dt) (hsg : s.startY = s.goalY)
    (hw : s.ft.weights = fun _ _ => 0) {name : String} {sf : StepFunction} (hsf : (name, sf) ∈ integrators)
    (runT : Option ℝ) (hr : ∀ r ∈ runT, 0 ≤ r) :
    ∃ T, T ≠ [] ∧ ((DMP.openLoop runT none name).exec s).1 = .ok (T, List.replicate T.length s.goalY) := by
  have hτ := DMP.executionTime_pos hs.valid
  rw [DMP.exec_openLoop, ((C78_names name QuatOps.cython).1 sf).2 hsf]
  simp only [Except.bind]
  have := openLoopWith_fixed (goalT := (s.openLoopArgs none).goalT) (startT := 0) (dt := s.dt)
    (start := ((s.openLoopArgs none).startY, (s.openLoopArgs none).startYd)) (runT := runT) hdt (by
    cases runT with
    | none => exact hτ.le
    | some r => exact hr r rfl) (step := sf.run (s.openLoopArgs none)) (fun lastT t => by
      have := C15_goal_is_equilibrium (s.openLoopArgs none) rfl rfl hsg rfl
        (fun k i => congrFun (congrFun hw k) i) rfl hτ hint sf lastT t
      rw [show (s.openLoopArgs none).goalY = (s.openLoopArgs none).startY from hsg.symm] at this
      exact this)
  rw [← hsg]
  exact this

/-- **C15 (step).** Likewise for `step`: an object at rest at its goal returns exactly the goal and velocity 0 in every
one of `n` calls, for every `p_gain` if the results are fed back. -/
theorem C15_steps {s : DMP d m} (hs : s.Reachable) (hint : 0 < s.intDt) (hsg : s.startY = s.goalY) (hsd : s.startYd = 0)
    (hw : s.ft.weights = fun _ _ => 0) (hcur : s.initialized = true → s.currentY = s.goalY ∧ s.currentYd = 0)
    (sf : StepFunction) (n : ℕ) :
    ((fedBack (DMP.step none sf) n s.goalY 0).exec s).1 = .ok (List.replicate n (s.goalY, 0)) := by
  refine fedBack_fixed (fun x : DMP d m => x.startY = s.goalY ∧ x.goalY = s.goalY ∧ x.startYd = 0 ∧
    (x.ft.weights = fun _ _ => 0) ∧ 0 < x.executionTime ∧ 0 < x.intDt ∧
    (x.initialized = true → x.currentY = s.goalY ∧ x.currentYd = 0)) ?_ n
    ⟨hsg, rfl, hsd, hw, DMP.executionTime_pos hs.valid, hint, hcur⟩
  generalize s.goalY = g
  rintro s ⟨a1, a2, a3, a4, a5, a6, a7⟩
  rw [DMP.exec_step]
  have hc : s.beginStep.currentY = g := by
    show (if s.initialized then s.currentY else s.startY) = g
    split_ifs with hi
    · exact (a7 hi).1
    · exact a1
  have hcd : s.beginStep.currentYd = 0 := by
    show (if s.initialized then s.currentYd else s.startYd) = 0
    split_ifs with hi
    · exact (a7 hi).2
    · exact a3
  have := C15_goal_is_equilibrium (s.beginStep.stepArgs none (s.beginStep.currentY - g)) rfl rfl (a1.trans a2.symm) a3
    (fun k i => congrFun (congrFun a4 k) i) (by rw [hc]; simp [DMP.stepArgs]) a5 a6 sf s.t (s.t + s.dt)
  rw [show (s.beginStep.stepArgs none (s.beginStep.currentY - g)).goalY = g from a2] at this
  rw [hcd]
  rw [hc] at this ⊢
  rw [this]
  exact ⟨_, rfl, a1, a2, a3, a4, a5, a6, fun _ => ⟨rfl, rfl⟩⟩

/-- **C15, converse.** For every reachable object and every integrator that is stable, the goal is the only state at which
an execution can stay: if all results of infinitely many `step` calls are the same, then they are the goal with
velocity 0. This holds for all weights, start and goal, with and without smooth scaling. -/
theorem C15_only_goal {s : DMP d m} (hs : s.Reachable) {sf : StepFunction} (hdt : 0 < s.dt) (ht : 0 ≤ s.t)
    (hgain : ∀ k, 0 < s.alphaY k ∧ 0 < s.betaY k)
    (hst : ∀ k, Spec.Stable sf s.dt s.intDt s.executionTime (s.alphaY k) (s.betaY k))
    {obj : ℕ → DMP d m} {fb out : ℕ → Vec d × Vec d} (h0 : obj 0 = s) (hrun : Spec.Run (DMP.step none sf) obj fb out)
    (hfb : s.pGain = 0 ∨
      (fb 0).1 = (if s.initialized then s.currentY else s.startY) ∧ ∀ i, (fb (i + 1)).1 = (out i).1)
    {x : Vec d × Vec d} {i₀ : ℕ} (hx : ∀ i, i₀ ≤ i → out i = x) : x = (s.goalY, 0) := by
  have h1 := step_tendsto hs hdt ht hgain hst h0 hrun hfb
  exact tendsto_nhds_unique (tendsto_const_nhds.congr' (eventually_atTop.2 ⟨i₀, fun i hi => (hx i hi).symm⟩)) h1

/-- **C15, converse (one step).** For Euler integration without forces and smooth scaling, and with non-zero gains, one
call of `step` of at most one sub-step that returns the state of an object at rest shows that it is at the goal. -/
theorem C15_only_goal_step {s : DMP d m} (hs : s.Reachable) {sf : StepFunction}
    (hsf : sf = .euler ∨ sf = .eulerCython) (ht : 0 ≤ s.t) (hdt : 0 < s.dt) (hle : s.dt ≤ s.intDt)
    (hw : s.ft.weights = fun _ _ => 0) (hsm : s.smooth = false) (hα : ∀ k, s.alphaY k ≠ 0) (hβ : ∀ k, s.betaY k ≠ 0)
    {y : Vec d} (hy : (if s.initialized then s.currentY else s.startY) = y)
    (hyd : (if s.initialized then s.currentYd else s.startYd) = 0)
    (hfix : ((DMP.step none sf y 0).exec s).1 = .ok (y, 0)) : y = s.goalY := by
  have hτ := DMP.executionTime_pos hs.valid
  rw [DMP.exec_step] at hfix
  have hy' : s.beginStep.currentY = y := hy
  have hyd' : s.beginStep.currentYd = 0 := hyd
  rw [hyd'] at hfix
  rw [hy'] at hfix
  have hrun : sf.run (s.beginStep.stepArgs none (y - y)) s.t (s.t + s.dt) (y, 0) = .ok (y, 0) := by
    generalize sf.run (s.beginStep.stepArgs none (y - y)) s.t (s.t + s.dt) (y, 0) = r at hfix ⊢
    cases r with
    | error e => cases hfix
    | ok r => exact hfix
  have hbody : (s.beginStep.stepArgs none (y - y)).eulerBody s.dt (s.t + s.dt) (y, 0) = (y, 0) := by
    rw [show s.dt = (s.t + s.dt) - s.t by ring]
    rcases hsf with rfl | rfl
    · have h1 : (s.beginStep.stepArgs none (y - y)).stepEuler s.t (s.t + s.dt) (y, 0) = .ok (y, 0) := hrun
      unfold StepArgs.stepEuler at h1
      have hT : ¬ (s.beginStep.stepArgs none (y - y)).goalT ≤ (s.beginStep.stepArgs none (y - y)).startT := not_le.2 hτ
      have hT' : ¬ s.t + s.dt ≤ (s.beginStep.stepArgs none (y - y)).startT := by show ¬ s.t + s.dt ≤ 0; linarith
      rw [if_neg hT, if_neg hT'] at h1
      rw [intLoop_single _ (by linarith) (by show s.t + s.dt - s.t ≤ s.intDt; linarith)] at h1
      simpa using h1
    · have h1 : (s.beginStep.stepArgs none (y - y)).stepEulerCy s.t (s.t + s.dt) (y, 0) = .ok (y, 0) := hrun
      unfold StepArgs.stepEulerCy at h1
      have hT : ¬ (s.beginStep.stepArgs none (y - y)).goalT ≤ (s.beginStep.stepArgs none (y - y)).startT := not_le.2 hτ
      have hT' : ¬ s.t + s.dt ≤ (s.beginStep.stepArgs none (y - y)).startT := by show ¬ s.t + s.dt ≤ 0; linarith
      rw [if_neg hT, if_neg hT'] at h1
      rw [intLoop_single _ (by linarith) (by show s.t + s.dt - s.t ≤ s.intDt; linarith)] at h1
      rw [StepArgs.eulerBodyCy_eq _ rfl (by simp [DMP.stepArgs])] at h1
      simpa using h1
  exact C15_only_goal_is_equilibrium (s.beginStep.stepArgs none (y - y)) rfl rfl (fun k i => congrFun (congrFun hw k) i)
    (by simp [DMP.stepArgs]) hτ hsm hα hβ y s.dt _ hdt.ne' hbody

/-! ## DMPWithFinalVelocity -/

theorem fvStep_rest_at (a : StepArgs d m) (hc : a.coupling = none) (hp : a.precomputed = none) (h1 : a.startY = a.goalY)
    (h2 : a.startYd = 0) (h3 : a.startYdd = 0) (h5 : a.goalYd = 0) (h6 : a.goalYdd = 0)
    (hw : a.ft.weights = fun _ _ => 0) (he : a.trackingError = 0) (hT : a.startT < a.goalT) (hd : 0 < a.intDt)
    (lastT t : ℝ) : a.fvStep lastT t (a.goalY, 0) = .ok (a.goalY, 0) := by
  let a0 : StepArgs d m := { a with startY := 0, goalY := 0 }
  have h0 := fvStep_rest a0 hc hp rfl h2 h3 rfl h5 h6 hw he hT hd lastT t
  have hsim := (StepArgs.fvSim_shift a0 a.goalY).fvStep lastT t (.inl rfl) (0, 0)
  have ha : a0.shift a.goalY = a := by
    obtain ⟨⟩ := a
    simp only [StepArgs.shift, a0] at *
    subst hc h1
    simp
  rw [ha, h0] at hsim
  simpa [simMap, Except.map] using hsim

/-- **C15 (DMPWithFinalVelocity, open_loop).** -/
theorem C15_fv_open_loop {s : FvDMP d m} (hs : FvDMP.Reachable s) (hint : 0 < s.intDt) (hdt : 0 < s.dt)
    (hsg : s.startY = s.goalY) (hrest : s.startYd = 0 ∧ s.startYdd = 0 ∧ s.goalYd = 0 ∧ s.goalYdd = 0)
    (hw : s.ft.weights = fun _ _ => 0) (runT : Option ℝ) (hr : ∀ r ∈ runT, 0 ≤ r) :
    ∃ T, T ≠ [] ∧ ((FvDMP.openLoop runT none).exec s).1 = .ok (T, List.replicate T.length s.goalY) := by
  have hτ := DMP.executionTime_pos (FvDMP.Reachable.valid hs)
  obtain ⟨e1, e2, e3, e4⟩ := hrest
  have := openLoopWith_fixed (goalT := s.executionTime) (startT := 0) (dt := s.dt)
    (start := (s.goalY, (0 : Vec d))) (runT := runT) hdt (by
    cases runT with
    | none => exact hτ.le
    | some r => exact hr r rfl) (step := (FvDMP.openLoopArgs s none).fvStep) (fun lastT t =>
      fvStep_rest_at (FvDMP.openLoopArgs s none) rfl rfl hsg e1 e2 e3 e4 hw rfl hτ hint lastT t)
  rw [FvDMP.exec_openLoop, show ((FvDMP.openLoopArgs s none).startY, (FvDMP.openLoopArgs s none).startYd) = (s.goalY, 0)
    from Prod.ext hsg e1]
  exact this

/-- **C15 (DMPWithFinalVelocity, step).** -/
theorem C15_fv_steps {s : FvDMP d m} (hs : FvDMP.Reachable s) (hint : 0 < s.intDt)
    (hsg : s.startY = s.goalY) (hrest : s.startYd = 0 ∧ s.startYdd = 0 ∧ s.goalYd = 0 ∧ s.goalYdd = 0)
    (hw : s.ft.weights = fun _ _ => 0) (hcur : s.initialized = true → s.currentY = s.goalY ∧ s.currentYd = 0) (n : ℕ) :
    ((fedBack (FvDMP.step none) n s.goalY 0).exec s).1 = .ok (List.replicate n (s.goalY, 0)) := by
  refine fedBack_fixed (fun x : FvDMP d m => x.startY = s.goalY ∧ x.goalY = s.goalY ∧
    (x.startYd = 0 ∧ x.startYdd = 0 ∧ x.goalYd = 0 ∧ x.goalYdd = 0) ∧
    (x.ft.weights = fun _ _ => 0) ∧ 0 < x.executionTime ∧ 0 < x.intDt ∧
    (x.initialized = true → x.currentY = s.goalY ∧ x.currentYd = 0)) ?_ n
    ⟨hsg, rfl, hrest, hw, DMP.executionTime_pos (FvDMP.Reachable.valid hs), hint, hcur⟩
  generalize s.goalY = g
  rintro s ⟨a1, a2, ⟨e1, e2, e3, e4⟩, a4, a5, a6, a7⟩
  rw [FvDMP.exec_step_finish]
  have hc : s.beginStep.currentY = g := by
    show (if s.initialized then s.currentY else s.startY) = g
    split_ifs with hi
    · exact (a7 hi).1
    · exact a1
  have hcd : s.beginStep.currentYd = 0 := by
    show (if s.initialized then s.currentYd else s.startYd) = 0
    split_ifs with hi
    · exact (a7 hi).2
    · exact e1
  have := fvStep_rest_at (s.beginStep.stepArgs none (s.beginStep.currentY - g)) rfl rfl (a1.trans a2.symm) e1 e2 e3 e4
    a4 (by rw [hc]; simp [DMP.stepArgs]) a5 a6 s.t (s.t + s.dt)
  rw [show (s.beginStep.stepArgs none (s.beginStep.currentY - g)).goalY = g from a2] at this
  rw [hcd]
  rw [hc] at this ⊢
  rw [this]
  exact ⟨_, rfl, a1, a2, ⟨e1, e2, e3, e4⟩, a4, a5, a6, fun _ => ⟨rfl, rfl⟩⟩

/-! ## DualCartesianDMP -/

theorem DualStepArgs.update_rest (a : DualStepArgs m) {ops : QuatOps} {eps : ℝ} (h : LawfulQuatOps ops eps)
    (heps : 0 < eps) (hsg : a.startY = a.goalY) (hu : ∀ arm, UnitQuat (armRot arm a.goalY))
    (hw : a.ft.weights = fun _ _ => 0) (dt t : ℝ) : a.update ops 0 0 dt t (a.goalY, 0) = (a.goalY, 0) := by
  have hf : ∀ z, a.ft.force z = 0 := by
    intro z; funext k; simp [ForcingTerm.force, hw]
  have hrot : ∀ arm, (armRot arm (a.update ops 0 0 dt t (a.goalY, 0)).1, armAng arm (a.update ops 0 0 dt t (a.goalY, 0)).2) =
      (armRot arm a.goalY, 0) := by
    intro arm
    rw [DualStepArgs.update_rot]
    have hg : (armRotDmp a arm).goalY = armRot arm a.goalY := armOrientation_eq arm _
    have hs : (armRotDmp a arm).startY = armRot arm a.goalY := by rw [← hsg]; exact armOrientation_eq arm _
    have := QuatStepArgs.update_fixed (armRotDmp a arm) h heps (by rw [hg]; exact hu arm) (by rw [hs]; exact hu arm)
      (by funext k i
          show armAngular arm (fun j => a.ft.weights j i) k = 0
          rw [armAngular_eq, hw]; rfl) (fun _ => .inl (hg.trans hs.symm)) dt t (s := (armRot arm a.goalY, 0))
      (.inl hg.symm) rfl
    exact this
  have hlin : ∀ arm, armLin arm (a.update ops 0 0 dt t (a.goalY, 0)).2 = 0 := by
    intro arm
    funext k
    simp only [DualStepArgs.update, armLin_joinVel, hf, DualStepArgs.smoothingPos, hsg, sub_self, mul_zero, zero_mul,
      ite_self, show armLin arm (0 : Vec 12) = 0 from rfl, Pi.zero_apply, add_zero, zero_div]
  have hpos : ∀ arm, armPos arm (a.update ops 0 0 dt t (a.goalY, 0)).1 = armPos arm a.goalY := by
    intro arm
    have : armPos arm (a.update ops 0 0 dt t (a.goalY, 0)).1 =
        fun k => armPos arm a.goalY k + dt * armLin arm (a.update ops 0 0 dt t (a.goalY, 0)).2 k := by
      simp only [DualStepArgs.update, armPos_joinState, armLin_joinVel]
    rw [this, hlin]
    funext k
    simp
  refine Prod.ext (state_ext hpos fun arm => (Prod.ext_iff.1 (hrot arm)).1) (vel_ext (fun arm => ?_) fun arm => ?_)
  · rw [hlin]; rfl
  · exact (Prod.ext_iff.1 (hrot arm)).2

theorem DualStepFunction.run_rest {sf : DualStepFunction} (h : LawfulDualStep sf) (a : DualStepArgs m)
    (hc : a.coupling = none) (hcor : ∀ dt, a.correction sf.ops dt = 0) (hint : 0 < a.intDt) (hsg : a.startY = a.goalY)
    (hsd : a.startYd = 0) (hu : ∀ arm, UnitQuat (armRot arm a.goalY)) (hw : a.ft.weights = fun _ _ => 0) (lastT t : ℝ) :
    sf.run a lastT t (a.goalY, 0) = .ok (a.goalY, 0) := by
  obtain ⟨eps, heps, hl⟩ := LawfulDualStep.ops h
  have hb := fun dt t => a.update_rest hl heps hsg hu hw dt t
  cases sf with
  | python ops =>
    simp only [DualStepFunction.run, DualStepArgs.stepPy, hsg, hsd, ite_self]
    have h1 := intLoop_eq (upd := a.bodyPy ops) (t := t) hint lastT ((a.goalY, (0 : Vec 12)), ((0 : Vec 12), (0 : Vec 12)))
    rw [h1, intLoop_fixed (s := ((a.goalY, (0 : Vec 12)), ((0 : Vec 12), (0 : Vec 12)))) (fun dt t => by
      have := hcor dt
      simp only [DualStepArgs.bodyPy, hc]
      rw [show a.correction ops dt = 0 from this, add_zero, show a.update ops 0 0 dt t (a.goalY, 0) = _ from hb dt t]) h1]
    rfl
  | cython =>
    simp only [DualStepFunction.run, DualStepArgs.stepCy, hsg, hsd, ite_self]
    have h1 := intLoop_eq (upd := a.bodyCy) (t := t) hint lastT (a.goalY, (0 : Vec 12))
    rw [h1, intLoop_fixed (s := (a.goalY, (0 : Vec 12))) (fun dt t => by
      have := hcor dt
      simp only [DualStepArgs.bodyCy, hc]
      rw [show a.correction QuatOps.cython dt = 0 from this, add_zero]
      exact hb dt t) h1]

/-- **C34 (DualCartesianDMP, step).** Two arms that start at their goal poses, with zero weights, stay there exactly: every
result of `step` is the goal with velocity 0 if results are fed back, for all gains, every `p_gain` and with and without
smooth scaling. -/
theorem C34_dual_steps {s : DualCartesianDMP m} {ops : QuatOps} {eps : ℝ} (hops : LawfulQuatOps ops eps)
    {sf : DualStepFunction} (hsf : LawfulDualStep sf) (hint : 0 < s.intDt) (hsg : s.startY = s.goalY)
    (hsd : s.startYd = 0) (hu : ∀ arm, UnitQuat (armOrientation arm s.goalY)) (hw : s.ft.weights = fun _ _ => 0)
    (hcur : s.pGain = 0 ∨ (s.initialized = true → s.currentY = s.goalY)) (n : ℕ) :
    ((fedBack (DualCartesianDMP.step ops none sf) n s.goalY 0).exec s).1 = .ok (List.replicate n (s.goalY, 0)) := by
  simp only [armOrientation_eq] at hu
  refine fedBack_fixed (fun x : DualCartesianDMP m => x.startY = s.goalY ∧ x.goalY = s.goalY ∧ x.startYd = 0 ∧
    (x.ft.weights = fun _ _ => 0) ∧ 0 < x.intDt ∧ (x.pGain = 0 ∨ (x.initialized = true → x.currentY = s.goalY))) ?_ n
    ⟨hsg, rfl, hsd, hw, hint, hcur⟩
  generalize s.goalY = g at hu
  rintro s ⟨a1, a2, a3, a4, a5, a6⟩
  rw [DualCartesianDMP.exec_step]
  have := DualStepFunction.run_rest hsf (s.stepArgs none (DualCartesianDMP.trackingError ops s.reference g)) rfl (by
    rcases a6 with h | h
    · exact fun dt => DualStepArgs.correction_pGain _ _ _ (.inl h)
    · have hr : s.reference = g := by
        unfold DualCartesianDMP.reference
        split_ifs with hi
        · exact h hi
        · exact a1
      rw [hr]
      exact correction_self s hops hsf none hu) a5 (a1.trans a2.symm) a3 (by rw [← a2] at hu; exact hu) a4 s.t (s.t + s.dt)
  rw [show (s.stepArgs none (DualCartesianDMP.trackingError ops s.reference g)).goalY = g from a2] at this
  rw [this]
  exact ⟨_, rfl, a1, a2, a3, a4, a5, a6.imp id fun _ _ => rfl⟩

/-- **C34 (DualCartesianDMP, open_loop).** Likewise all rows of `open_loop` are the goal. -/
theorem C34_dual_open_loop {s : DualCartesianDMP m} {ops : QuatOps} {eps : ℝ} (heps : 0 < eps)
    (hops : LawfulQuatOps ops eps) (hint : 0 < s.intDt) (hsg : s.startY = s.goalY)
    (hsd : s.startYd = 0) (hu : ∀ arm, UnitQuat (armOrientation arm s.goalY)) (hw : s.ft.weights = fun _ _ => 0)
    (hcur : s.pGain = 0 ∨ (s.initialized = true → s.currentY = s.goalY)) (runT : Option ℝ) {name : String} {T : List ℝ}
    {Y : List (Vec 14)} (hr : ((DualCartesianDMP.openLoop ops runT none name).exec s).1 = .ok (T, Y)) :
    ∀ y ∈ Y, y = s.goalY := by
  simp only [armOrientation_eq] at hu
  rw [DualCartesianDMP.exec_openLoop] at hr
  cases hl : DualStepFunction.lookup ops name with
  | error e => rw [hl] at hr; cases hr
  | ok sf =>
    have hsf : LawfulDualStep sf := by
      unfold DualStepFunction.lookup at hl
      split_ifs at hl
      · cases hl; exact ⟨eps, heps, hops⟩
      · cases hl; trivial
    rw [hl] at hr
    simp only at hr
    rcases hw' : DualCartesianDMP.loop ops none sf (runT.getD s.executionTime) s with ⟨r, s'⟩
    rw [hw'] at hr
    cases r with
    | error e => cases hr
    | ok x =>
      simp only [Except.ok.injEq, Prod.mk.injEq] at hr
      rw [← hr.2]
      have hw2 : (Py.while (fun s' : DualCartesianDMP m => s'.t < runT.getD s.executionTime)
        (DualCartesianDMP.loopBody ops none sf) ⟨s.startY, s.startYd, [0], [s.startY]⟩).exec { s with t := 0 } =
        (.ok x, s') := hw'
      have hY : ∀ y ∈ [s.startY], y = s.goalY := by simpa using hsg
      have hinv := Py.while_inv (fun (x : DualCartesianDMP.LoopVars) (y : DualCartesianDMP m) =>
        (x.y = s.goalY ∧ x.yd = 0 ∧ ∀ y ∈ x.Y, y = s.goalY) ∧ y.startY = s.goalY ∧ y.goalY = s.goalY ∧ y.startYd = 0 ∧
        (y.ft.weights = fun _ _ => 0) ∧ 0 < y.intDt ∧ (y.pGain = 0 ∨ (y.initialized = true → y.currentY = s.goalY)))
        (by
          rintro x s1 x' s1' ⟨⟨b1, b2, b3⟩, a1, a2, a3, a4, a5, a6⟩ hx
          rw [DualCartesianDMP.exec_loopBody, b1, b2] at hx
          have := DualStepFunction.run_rest hsf
            (s1.stepArgs none (DualCartesianDMP.trackingError ops s1.reference s.goalY)) rfl (by
            rcases a6 with h | h
            · exact fun dt => DualStepArgs.correction_pGain _ _ _ (.inl h)
            · have hr : s1.reference = s.goalY := by
                unfold DualCartesianDMP.reference
                split_ifs with hi
                · exact h hi
                · exact a1
              rw [hr]
              exact correction_self s1 hops hsf none hu) a5 (a1.trans a2.symm) a3 (by rw [← a2] at hu; exact hu) a4 s1.t
            (s1.t + s1.dt)
          rw [show (s1.stepArgs none (DualCartesianDMP.trackingError ops s1.reference s.goalY)).goalY = s.goalY from a2]
            at this
          rw [this] at hx
          simp only [Prod.mk.injEq, Except.ok.injEq] at hx
          obtain ⟨rfl, rfl⟩ := hx
          refine ⟨⟨rfl, rfl, ?_⟩, a1, a2, a3, a4, a5, a6.imp id fun _ _ => rfl⟩
          intro y hy
          rcases List.mem_append.1 hy with hy | hy
          · exact b3 y hy
          · simpa using hy)
        (x := ⟨s.startY, s.startYd, [0], [s.startY]⟩) (s := { s with t := 0 }) (h := ⟨⟨hsg, hsd, hY⟩, hsg, rfl, hsd, hw, hint, hcur⟩) hw2
      exact hinv.1.2.2

/-! ## Orientations: converse -/

/-- **C34, converse (step function).** Without forces and smooth scaling, and with non-zero gains, a single call of a
quaternion step function over at most one sub-step that leaves a resting orientation unchanged shows that this is the goal
orientation, its antipode, or an orientation which the quaternion functions `ops` of this step function do not distinguish
from these (`eps` is their threshold). -/
theorem C34_only_equilibria_step {qf : QuatStepFunction} {ops : QuatOps} {eps : ℝ} (hops : LawfulQuatOps ops eps)
    (hqf : qf = .python ops ∨ qf = .cython ∧ ops = QuatOps.cython) (a : QuatStepArgs m)
    (hc : a.coupling = none) (hp : a.precomputed = none) (hsm : a.smooth = false) (hw : a.ft.weights = fun _ _ => 0)
    (hg : UnitQuat a.goalY) (hT : a.startT < a.goalT) (hα : ∀ k, a.alphaY k ≠ 0) (hβ : ∀ k, a.betaY k ≠ 0)
    {lastT t : ℝ} (h0 : a.startT < t) (hlt : lastT < t) (hle : t - lastT ≤ a.intDt) {y : Vec 4} (hy : UnitQuat y)
    (hfix : qf.run a lastT t (y, 0) = .ok (y, 0)) :
    y = a.goalY ∨ y = -a.goalY ∨
      √((ops.mul a.goalY (ops.conj y)) 1 ^ 2 + (ops.mul a.goalY (ops.conj y)) 2 ^ 2 +
        (ops.mul a.goalY (ops.conj y)) 3 ^ 2) < eps := by
  refine C34_only_equilibria hops a hsm hw hg hT hα hβ (dt := t - lastT) (t := t) (by linarith) hy ?_
  rcases hqf with rfl | ⟨rfl, rfl⟩
  · simp only [QuatStepFunction.run, QuatStepArgs.stepPy, not_le.2 hT, not_le.2 h0, if_false] at hfix
    rw [intLoop_single _ hlt hle] at hfix
    simp only [QuatStepArgs.bodyPy, hc, hp, Except.ok.injEq] at hfix
    rw [hfix]
  · simp only [QuatStepFunction.run, QuatStepArgs.stepCy, not_le.2 h0, if_false] at hfix
    rw [intLoop_single _ hlt hle] at hfix
    simp only [QuatStepArgs.bodyCy, hc, hp, Except.ok.injEq] at hfix
    rw [hfix]

/-- The hypotheses can be met: a new dual-arm DMP configured with a start and goal pose, and a new DMP configured with
its goal as start. -/
example : ∃ s : DualCartesianDMP 10, s.startY = s.goalY ∧ s.startYd = 0 ∧ (∀ arm, UnitQuat (armOrientation arm s.goalY)) ∧
    (s.ft.weights = fun _ _ => 0) ∧ 0 < s.intDt ∧ s.initialized = false ∧ s.pGain = 5 := by
  obtain ⟨s, -, h1, h2, h3, h4, h5, h6, -, -, h7, h8⟩ := DualCartesianDMP.create_ok 10 (by norm_num) (τ := 1) one_pos
    (1 / 100) (1 / 1000) 5 true 25 6
  refine ⟨{ s with startY := ![1, 2, 3, 1, 0, 0, 0, 4, 5, 6, 0, 1, 0, 0], goalY := ![1, 2, 3, 1, 0, 0, 0, 4, 5, 6, 0, 1, 0, 0] },
    rfl, by rw [h1]; rfl, ?_, h7, by show 0 < s.intDt; rw [h4]; norm_num, h8, h5⟩
  intro arm
  fin_cases arm <;> simp [armOrientation, UnitQuat, Matrix.cons_val]

example : ∃ s : DMP 1 10, s.Reachable ∧ s.startY = s.goalY ∧ s.goalY = 7 ∧ s.startYd = 0 ∧
    (s.ft.weights = fun _ _ => 0) ∧ 0 < s.intDt ∧ 0 < s.dt ∧ s.initialized = false := by
  obtain ⟨s, h, h1, h2, h3, h4, h5, h6, h7, h8, h9, h10, h11, h12, h13⟩ := DMP.create_ok 1 10 (by norm_num) (τ := 1) one_pos
    (1 / 100) (1 / 1000) 0 true 25 6
  refine ⟨{ s with startY := 7, goalY := 7 }, ?_, rfl, rfl, h9, h13, by show 0 < s.intDt; rw [h3]; norm_num,
    by show 0 < s.dt; rw [h2]; norm_num, h6⟩
  refine .op (.configure { startY := some [7], goalY := some [7] }) (.create h) (r := .ok ()) ?_ (by intro τ h; cases h)
  show (DMP.configure _).exec s = _
  rw [DMP.exec_configure, C25_configure_sets _ _ (by simp [AllOk, FieldOk])]
  have hx : ∀ o : Vec 1, newValue (some [7]) o = 7 := by
    intro o; funext i; fin_cases i; rfl
  simp only [hx]
  rfl

end Verif
