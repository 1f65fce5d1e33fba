import Verif.Model.PotentialField
import Verif.Lemmas.Dmp
import Verif.Props.DmpClass
import Mathlib.Tactic.FieldSimp
import Mathlib.Analysis.Real.Pi.Bounds

/-! # Potential fields (C53) -/

namespace Verif

variable {m : ℕ}

/-- The coupling term that the obstacle of the plot stands for. -/
noncomputable def obstacleCoupling (obstacle : Option (Vec 2)) : Option (Coupling 2) :=
  obstacle.map fun o => couplingObstacle2d false o 1000 (20 / Real.pi)

/-- Acceleration of obstacle avoidance. -/
noncomputable def obstacleAcc (obstacle : Option (Vec 2)) (Y V : Vec 2) : Vec 2 :=
  match obstacle with
  | none => 0
  | some o => obstacleAvoidance2d Y V o 1000 (20 / Real.pi)

theorem coupling_cdd (obstacle : Option (Vec 2)) (a : StepArgs 2 m) (h : a.coupling = obstacleCoupling obstacle)
    (hp : a.precomputed = none) (Y V : Vec 2) (z τ : ℝ) (f tdd : Vec 2) (k : Fin 2) :
    a.acc Y V a.initialCdd z τ f tdd k = (a.alphaY k * (a.betaY k * (a.goalY k - Y k) - τ * V k -
      (if a.smooth then a.betaY k * (a.goalY k - a.startY k) * z else 0)) + f k +
      obstacleAcc obstacle Y V k + tdd k) / τ ^ 2 := by
  unfold StepArgs.acc StepArgs.initialCdd
  rw [h, hp]
  cases obstacle <;> cases a.smooth <;> simp [obstacleCoupling, couplingObstacle2d, obstacleAcc]

theorem addCd_obstacle (obstacle : Option (Vec 2)) (a : StepArgs 2 m) (h : a.coupling = obstacleCoupling obstacle)
    (τ : ℝ) (s : Vec 2 × Vec 2) : a.addCd τ s = s := by
  unfold StepArgs.addCd
  rw [h]
  cases obstacle <;> simp [obstacleCoupling, couplingObstacle2d]

/-- **C53.** The potential field compared with what the DMP does: the DMP is at a grid point; a step that is not longer
than the time step of the integration changes its velocity with a certain acceleration. The total acceleration of the
field (of the object at the end of the step) differs from it by: the term of smooth scaling, which the field always has
and the DMP only with `smooth_scaling`; the goal velocity and acceleration, which only the field follows; and the obstacle
avoidance, which the DMP divides by the squared execution time. -/
theorem C53_difference (s : DMP 2 m) (hi : s.initialized = true) (hτ : 0 < s.executionTime) (ht : 0 ≤ s.t)
    (hdt : 0 < s.dt) (hint : s.dt ≤ s.intDt) (xr yr : ℝ × ℝ) (n : ℕ) (obstacle : Option (Vec 2)) (F : PotentialField n)
    (hF : potentialField2d { s with t := s.t + s.dt } xr yr n obstacle = F) (i j : Fin n)
    (hY : s.currentY = ![F.xx i j, F.yy i j]) (yd : Vec 2) :
    ∃ r, ((DMP.step (obstacleCoupling obstacle) .euler s.currentY yd).exec s).1 = .ok r ∧
      ∀ k, F.acc i j k = (r.2 k - s.currentYd k) / s.dt
        - (if s.smooth then 0 else s.alphaY k * s.betaY k * (s.goalY k - s.startY k) * s.ft.phaseAt (s.t + s.dt)
            / s.executionTime ^ 2)
        + (s.alphaY k * s.goalYd k / s.executionTime + s.goalYdd k)
        + (1 - 1 / s.executionTime ^ 2) * F.ct i j k := by
  set a := s.beginStep.stepArgs (obstacleCoupling obstacle) (s.beginStep.currentY - s.currentY) with ha
  have hb : s.beginStep.currentY = s.currentY := by simp [DMP.beginStep, hi]
  have hbd : s.beginStep.currentYd = s.currentYd := by simp [DMP.beginStep, hi]
  have hrun : StepFunction.euler.run a s.t (s.t + s.dt) (s.currentY, s.currentYd) =
      .ok (a.eulerBody s.dt (s.t + s.dt) (s.currentY, s.currentYd)) := by
    show a.stepEuler s.t (s.t + s.dt) (s.currentY, s.currentYd) = _
    unfold StepArgs.stepEuler
    have h1 : ¬ a.goalT ≤ a.startT := not_le.2 hτ
    have h2 : ¬ s.t + s.dt ≤ a.startT := not_le.2 (add_pos_of_nonneg_of_pos ht hdt)
    rw [if_neg h1, if_neg h2, show a.intDt = s.intDt from rfl, intLoop_eq _ (lt_of_lt_of_le hdt hint)]
    have := subSteps_last (lt_of_lt_of_le hdt hint) (lt_add_of_pos_right s.t hdt) (by linarith)
    rw [add_sub_cancel_left] at this
    rw [this]
    rfl
  refine ⟨_, by rw [DMP.exec_step, ← ha, hb, hbd, hrun]; rfl, ?_⟩
  intro k
  have hv : (a.eulerBody s.dt (s.t + s.dt) (s.currentY, s.currentYd)).2 k = s.currentYd k + s.dt *
      a.acc s.currentY s.currentYd a.initialCdd (a.ft.phaseAt (s.t + s.dt)) (a.goalT - a.startT)
        (a.ft.force (a.ft.phaseAt (s.t + s.dt))) (fun k => a.pGain * a.trackingError k / s.dt) k := by
    unfold StepArgs.eulerBody
    dsimp only
    rw [addCd_obstacle obstacle a rfl]
    rfl
  rw [hv, coupling_cdd obstacle a rfl rfl]
  have htr : a.trackingError k = 0 := by
    show s.beginStep.currentY k - s.currentY k = 0
    rw [hb, sub_self]
  have hg : a.goalT - a.startT = s.executionTime := sub_zero _
  have hct : F.ct i j k = obstacleAcc obstacle s.currentY s.currentYd k := by
    rw [hY, ← hF]
    cases obstacle <;> rfl
  have hacc : F.acc i j k = a.ft.force (a.ft.phaseAt (s.t + s.dt)) k / s.executionTime ^ 2 +
      dmpTransformationSystem s.currentY s.currentYd s.alphaY s.betaY s.goalY s.goalYd s.goalYdd s.startY
        (a.ft.phaseAt (s.t + s.dt)) s.executionTime k + F.ct i j k := by
    rw [hY, ← hF]
    rfl
  rw [hacc, htr, hg, ← hct]
  have h1 : a.alphaY = s.alphaY := rfl
  have h2 : a.betaY = s.betaY := rfl
  have h3 : a.goalY = s.goalY := rfl
  have h4 : a.startY = s.startY := rfl
  have h5 : a.smooth = s.smooth := rfl
  have h6 : a.ft = s.ft := rfl
  rw [h1, h2, h3, h4, h5, h6]
  unfold dmpTransformationSystem
  have := hτ.ne'
  have := hdt.ne'
  cases s.smooth
  · simp
    field_simp
    ring
  · simp
    field_simp
    ring

/-- **C53.** With smooth scaling, zero goal velocity and acceleration, and no obstacle or execution time 1, the field shows
exactly the acceleration of the DMP. -/
theorem C53_field_is_acceleration (s : DMP 2 m) (hi : s.initialized = true) (hτ : 0 < s.executionTime) (ht : 0 ≤ s.t)
    (hdt : 0 < s.dt) (hint : s.dt ≤ s.intDt) (xr yr : ℝ × ℝ) (n : ℕ) (obstacle : Option (Vec 2)) (F : PotentialField n)
    (hF : potentialField2d { s with t := s.t + s.dt } xr yr n obstacle = F) (i j : Fin n)
    (hY : s.currentY = ![F.xx i j, F.yy i j]) (yd : Vec 2) (hs : s.smooth = true) (hgd : s.goalYd = 0)
    (hgdd : s.goalYdd = 0) (ho : obstacle = none ∨ s.executionTime = 1) :
    ∃ r, ((DMP.step (obstacleCoupling obstacle) .euler s.currentY yd).exec s).1 = .ok r ∧
      ∀ k, r.2 k = s.currentYd k + s.dt * F.acc i j k := by
  obtain ⟨r, h1, h2⟩ := C53_difference s hi hτ ht hdt hint xr yr n obstacle F hF i j hY yd
  refine ⟨r, h1, fun k => ?_⟩
  have h3 : (1 - 1 / s.executionTime ^ 2) * F.ct i j k = 0 := by
    rcases ho with rfl | ho
    · have : F.ct i j k = 0 := by rw [← hF]; rfl
      rw [this, mul_zero]
    · rw [ho]; norm_num
  rw [h2 k, h3, hs, hgd, hgdd]
  have := hdt.ne'
  simp
  field_simp
  ring

/-- **C53 (finding).** Without smooth scaling (the default) the field is wrong in every dimension in which start and goal
differ. -/
theorem C53_wrong_without_smooth_scaling (s : DMP 2 m) (hi : s.initialized = true) (hτ : 0 < s.executionTime)
    (ht : 0 ≤ s.t) (hdt : 0 < s.dt) (hint : s.dt ≤ s.intDt) (xr yr : ℝ × ℝ) (n : ℕ) (F : PotentialField n)
    (hF : potentialField2d { s with t := s.t + s.dt } xr yr n none = F) (i j : Fin n)
    (hY : s.currentY = ![F.xx i j, F.yy i j]) (yd : Vec 2) (hs : s.smooth = false) (hgd : s.goalYd = 0)
    (hgdd : s.goalYdd = 0) (k : Fin 2) (hα : s.alphaY k ≠ 0) (hβ : s.betaY k ≠ 0) (hk : s.goalY k ≠ s.startY k) :
    ∃ r, ((DMP.step none .euler s.currentY yd).exec s).1 = .ok r ∧ r.2 k ≠ s.currentYd k + s.dt * F.acc i j k := by
  obtain ⟨r, h1, h2⟩ := C53_difference s hi hτ ht hdt hint xr yr n none F hF i j hY yd
  refine ⟨r, h1, fun h => ?_⟩
  have h3 := h2 k
  have hct : F.ct i j k = 0 := by rw [← hF]; rfl
  rw [h, hct, hs, hgd, hgdd] at h3
  have h4 : s.alphaY k * s.betaY k * (s.goalY k - s.startY k) * s.ft.phaseAt (s.t + s.dt) / s.executionTime ^ 2 = 0 := by
    have : (s.currentYd k + s.dt * F.acc i j k - s.currentYd k) / s.dt = F.acc i j k := by
      field_simp
      ring
    rw [this] at h3
    simp only [Bool.false_eq_true, if_false, Pi.zero_apply, mul_zero, zero_div, add_zero] at h3
    linarith
  have hne : s.alphaY k * s.betaY k * (s.goalY k - s.startY k) * s.ft.phaseAt (s.t + s.dt) / s.executionTime ^ 2 ≠ 0 :=
    div_ne_zero (mul_ne_zero (mul_ne_zero (mul_ne_zero hα hβ) (sub_ne_zero.2 hk)) (Real.exp_ne_zero _)) (pow_ne_zero _ hτ.ne')
  exact hne h4

/-- A DMP that meets the hypotheses. -/
example : ∃ s : DMP 2 10, s.Reachable ∧ s.initialized = true ∧ 0 < s.executionTime ∧ 0 ≤ s.t ∧ 0 < s.dt ∧
    s.dt ≤ s.intDt := by
  obtain ⟨s, hs, h1, h2, h3, -, -, -, h7, -⟩ := DMP.create_ok 2 10 (by norm_num) one_pos (1 / 1000) (1 / 1000) 0 false 25
    (25 / 4)
  refine ⟨(DMPOp.exec (.step none .rk4 0 0) s).2, .op (.step none .rk4 0 0) (.create hs) rfl (by rintro τ ⟨⟩), ?_⟩
  simp only [DMPOp.exec, DMP.exec_step]
  simp [StepFunction.run, StepArgs.stepRk4, DMP.finishStep, DMP.beginStep, h1, h2, h3, h7]

/-- **C53.** The grid: rows run through `y_range`, columns through `x_range`, from the first to the last value. -/
theorem C53_grid (s : DMP 2 m) (xr yr : ℝ × ℝ) (n : ℕ) (obstacle : Option (Vec 2)) (hn : 2 ≤ n) (i j : Fin n) :
    (potentialField2d s xr yr n obstacle).xx i j = xr.1 + (j : ℝ) / ((n : ℝ) - 1) * (xr.2 - xr.1) ∧
      (potentialField2d s xr yr n obstacle).yy i j = yr.1 + (i : ℝ) / ((n : ℝ) - 1) * (yr.2 - yr.1) := by
  have h : (n : ℝ) - 1 ≠ 0 := by
    have : (2 : ℝ) ≤ n := by exact_mod_cast hn
    linarith
  constructor
  · show gridTick _ _ _ _ = _
    unfold gridTick
    rw [if_neg (by omega)]
    field_simp
  · show gridTick _ _ _ _ = _
    unfold gridTick
    rw [if_neg (by omega)]
    field_simp

end Verif
