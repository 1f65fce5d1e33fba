import Verif.Props.Rk4Order

/-! # C81: accuracy of the Runge-Kutta integrator in executions with `step` -/

namespace Verif
variable {d m : ℕ}

/-- **C81 (step).** Let `x_δ` be the solution of the differential equation of a DMP with phase and forcing term evaluated `δ` ahead
of time that starts in the current state of the DMP. For every time `R` there is a constant `C` such that, for every positive `dt`,
positions and velocities returned by calls of `step` with a Runge-Kutta method up to time `R` differ from `x_dt` by at most
`C dt⁴`. As in C77 there is no feedback (`p_gain = 0`) or every call receives the previous result. -/
theorem C81_step {s : DMP d m} (hs : s.Reachable) (R : ℝ) :
    ∃ C, ∀ (sf : StepFunction) (dt intDt : ℝ) (y v : ℝ → Vec d), (sf = .rk4 ∨ sf = .rk4Cython) → 0 < dt → 0 < intDt →
      Spec.SolvesDmpAhead s dt s.t (if s.initialized then (s.currentY, s.currentYd) else (s.startY, s.startYd)) y v →
      ∀ (obj : ℕ → DMP d m) (fb out : ℕ → Vec d × Vec d), obj 0 = { s with dt := dt, intDt := intDt } →
        Spec.Run (DMP.step none sf) obj fb out →
        (s.pGain = 0 ∨
          (fb 0).1 = (if s.initialized then s.currentY else s.startY) ∧ ∀ i, (fb (i + 1)).1 = (out i).1) →
        ∀ i : ℕ, s.t + (i + 1) * dt ≤ R → ∀ k,
          |(out i).1 k - y (s.t + (i + 1) * dt) k| ≤ C * dt ^ 4 ∧ |(out i).2 k - v (s.t + (i + 1) * dt) k| ≤ C * dt ^ 4 := by
  classical
  have hval := hs.valid
  have hm : 0 < m := by have := hval.forcing.1; omega
  have hτ : 0 < s.executionTime := hval.pos.2
  let a := s.stepArgs none 0
  have haT : a.startT < a.goalT := hτ
  have haτ : a.goalT - a.startT = s.executionTime := sub_zero _
  set x0 : Vec d × Vec d := if s.initialized then (s.currentY, s.currentYd) else (s.startY, s.startYd) with hx0
  have hK := fun k => rk4_late_error (s.alphaY k * s.betaY k / s.executionTime ^ 2) (s.alphaY k / s.executionTime) s.t R
    ((s.openLoopArgs none).drive_derivs hm k) (x0.1 k - s.goalY k, x0.2 k)
  choose C hC0 hC using hK
  refine ⟨∑ k, C k, ?_⟩
  intro sf dt intDt y v hsf hdt hint hsol obj fb out h0 hrun hfb i hi k
  have hx := step_states h0 hrun hfb
  set xs : ℕ → Vec d × Vec d := fun i => ((obj i).beginStep.currentY, (obj i).beginStep.currentYd) with hxs
  have hxs0 : xs 0 = x0 := by
    rw [hxs, hx0]
    simp only
    rw [h0]
    cases h : s.initialized <;> simp [DMP.beginStep]
  have h1 := hC k dt (fun t => (y t k - s.goalY k, v t k)) hdt (by
      rw [← hsol.start]) (fun t => by
      have h1 := ((hsol.velocity t k).sub_const (s.goalY k)).prodMk (hsol.acceleration t k)
      rw [DMP.acceleration_eq hτ] at h1
      simp only [iteratedDeriv_zero]
      exact h1) (fun i => ((xs i).1 k - s.goalY k, (xs i).2 k)) (by
      show ((xs 0).1 k - s.goalY k, (xs 0).2 k) = _
      rw [hxs0]) (fun i _ => by
      simp only [iteratedDeriv_zero]
      have h2 := run_rk4_sd { a with intDt := intDt } rfl rfl rfl haT hsf (hx i) k
      rw [show ({ a with intDt := intDt } : StepArgs d m).goalT - ({ a with intDt := intDt } : StepArgs d m).startT =
        s.executionTime from haτ] at h2
      exact h2) (i + 1) (by push_cast; exact hi)
  have h3 : C k ≤ ∑ k, C k := Finset.single_le_sum (fun j _ => hC0 j) (Finset.mem_univ k)
  have h4 := mul_le_mul_of_nonneg_right h3 (by positivity : 0 ≤ dt ^ 4)
  have hout : xs (i + 1) = out i := (run_result hrun i).2
  push_cast at h1
  rw [hout] at h1
  constructor
  · have h2 := (norm_fst_le _).trans h1
    rw [Prod.fst_sub, Real.norm_eq_abs, sub_sub_sub_cancel_right] at h2
    exact h2.trans h4
  · have h2 := (norm_snd_le _).trans h1
    rw [Prod.snd_sub, Real.norm_eq_abs] at h2
    exact h2.trans h4

/-- **C81 (step, fourth order without a forcing term).** -/
theorem C81_step_unforced {s : DMP d m} (hs : s.Reachable) (hw : s.ft.weights = fun _ _ => 0)
    (hsm : s.smooth = false) {y v : ℝ → Vec d}
    (hsol : Spec.SolvesDmp s s.t (if s.initialized then (s.currentY, s.currentYd) else (s.startY, s.startYd)) y v) (R : ℝ) :
    ∃ C, ∀ (sf : StepFunction) (dt intDt : ℝ), (sf = .rk4 ∨ sf = .rk4Cython) → 0 < dt → 0 < intDt →
      ∀ (obj : ℕ → DMP d m) (fb out : ℕ → Vec d × Vec d), obj 0 = { s with dt := dt, intDt := intDt } →
        Spec.Run (DMP.step none sf) obj fb out →
        (s.pGain = 0 ∨
          (fb 0).1 = (if s.initialized then s.currentY else s.startY) ∧ ∀ i, (fb (i + 1)).1 = (out i).1) →
        ∀ i : ℕ, s.t + (i + 1) * dt ≤ R → ∀ k,
          |(out i).1 k - y (s.t + (i + 1) * dt) k| ≤ C * dt ^ 4 ∧ |(out i).2 k - v (s.t + (i + 1) * dt) k| ≤ C * dt ^ 4 := by
  obtain ⟨C, hC⟩ := C81_step hs R
  refine ⟨C, fun sf dt intDt hsf hdt hint => hC sf dt intDt y v hsf hdt hint ⟨hsol.start, hsol.velocity, ?_⟩⟩
  intro t k
  have h := hsol.acceleration t k
  have hcall : ∀ t, s.ft.call t k = 0 := by
    intro t
    simp [ForcingTerm.call, ForcingTerm.force, hw]
  rw [hcall, hsm] at h ⊢
  exact h

/-- The hypotheses can be met for every reachable DMP, in any state, and all step sizes. -/
example {s : DMP d m} (hs : s.Reachable) (ht : 0 ≤ s.t) {dt : ℝ} (hdt : 0 < dt) :
    ∃ y v, Spec.SolvesDmpAhead s dt s.t (if s.initialized then (s.currentY, s.currentYd) else (s.startY, s.startYd)) y v ∧
      ∃ (obj : ℕ → DMP d m) (fb out : ℕ → Vec d × Vec d), obj 0 = { s with dt := dt, intDt := 1 } ∧
        Spec.Run (DMP.step none .rk4) obj fb out ∧
        (fb 0).1 = (if s.initialized then s.currentY else s.startY) ∧ ∀ i, fb (i + 1) = out i := by
  obtain ⟨y, v, h⟩ := C81_solution_exists hs dt s.t (if s.initialized then (s.currentY, s.currentYd) else (s.startY, s.startYd))
  refine ⟨y, v, h, runs_exist_of_returns (s := { s with dt := dt, intDt := 1 }) (hs.valid.congr rfl rfl) ht ?_ hdt.le⟩
  intro x hx h2 h3 h4 _ _ _ y yd
  rw [DMP.exec_step]
  have hxd : x.dt = dt := h2
  obtain ⟨r, hr⟩ := run_ok (x.beginStep.stepArgs none (x.beginStep.currentY - y)) rfl rfl
    (show (0 : ℝ) < x.executionTime from hx.pos.2) (show 0 < x.intDt by rw [h4]; exact one_pos) .rk4
    (show x.t ≤ x.t + x.dt by linarith) (show (0 : ℝ) < x.t + x.dt by linarith)
    (x.beginStep.currentY, x.beginStep.currentYd)
  rw [hr]
  exact ⟨r, rfl⟩

end Verif
