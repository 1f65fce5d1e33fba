import Verif.Props.DmpClass
import Verif.Model.Simulation

/-! # C91: the mockup of a simulation -/

namespace Verif.Sim
open Spec

/-- The loop of the mockup passes every result to the next call. -/
theorem mockupLoop_eq {S : Type} {p v : ℕ} (steppable : Steppable S p v) (n : ℕ) (y : Vec p) (yd : Vec v) :
    mockupLoop steppable n y yd = fedBack steppable n y yd := by
  induction n generalizing y yd with
  | zero => rfl
  | succ n ih =>
    simp only [mockupLoop, fedBack, ih]

/-- A successful execution with feedback has as many rows as calls. -/
theorem fedBack_length {S : Type} {p v : ℕ} (step : Vec p → Vec v → Py S (Vec p × Vec v)) (n : ℕ) (y : Vec p) (yd : Vec v)
    (s s' : S) (rows : List (Vec p × Vec v)) (h : (fedBack step n y yd).exec s = (.ok rows, s')) : rows.length = n := by
  induction n generalizing y yd s rows with
  | zero =>
    simp only [fedBack, Py.exec_pure, Prod.mk.injEq, Except.ok.injEq] at h
    rw [← h.1]; rfl
  | succ n ih =>
    rw [fedBack, Py.exec_bind] at h
    rcases hs : (step y yd).exec s with ⟨_ | r, s1⟩
    · rw [hs] at h; simp at h
    · rw [hs] at h
      simp only at h
      rw [Py.exec_bind] at h
      rcases hf : (fedBack step n r.1 r.2).exec s1 with ⟨_ | rest, s2⟩
      · rw [hf] at h; simp at h
      · rw [hf] at h
        simp only [Py.exec_pure, Prod.mk.injEq, Except.ok.injEq] at h
        rw [← h.1, List.length_cons, ih _ _ _ _ (by rw [hf, h.2])]

/-- **C91.** `SimulationMockup.step_through_cartesian` calls `step` `int(execution_time / dt)` times, passes every result to the next
call and logs an ideal robot: measured positions and velocities are the desired ones. -/
theorem C91_mockup {S : Type} {p v : ℕ} (dt : ℝ) (hdt : dt ≠ 0) (steppable : Steppable S p v) (y : Vec p) (yd : Vec v) (T : ℝ)
    (s s' : S) (log : Log p v) (h : (mockupStepThrough dt steppable y yd T).exec s = (.ok log, s')) :
    log.positions = log.desiredPositions ∧ log.velocities = log.desiredVelocities ∧
    log.positions.length = ⌊T / dt⌋₊ + 1 ∧ log.velocities.length = ⌊T / dt⌋₊ + 1 ∧
    ∃ rows, (fedBack steppable ⌊T / dt⌋₊ y yd).exec s = (.ok rows, s') ∧
      log.desiredPositions = y :: rows.map Prod.fst ∧ log.desiredVelocities = yd :: rows.map Prod.snd := by
  unfold mockupStepThrough at h
  rw [Py.exec_bind, Py.exec_lift, nSteps, if_neg hdt] at h
  simp only at h
  rw [Py.exec_bind, mockupLoop_eq] at h
  rcases hf : (fedBack steppable ⌊T / dt⌋₊ y yd).exec s with ⟨_ | rows, s1⟩
  · rw [hf] at h; simp at h
  · rw [hf] at h
    simp only [Py.exec_pure, Prod.mk.injEq, Except.ok.injEq] at h
    obtain ⟨rfl, rfl⟩ := h
    have := fedBack_length _ _ _ _ _ _ _ hf
    exact ⟨rfl, rfl, by simp [this], by simp [this], rows, rfl, rfl, rfl⟩

/-- **C91.** With a new or reset DMP, the mockup with the same `dt` logs exactly the positions of `open_loop(run_t=n * dt)`; if one
raises, so does the other with the same error. -/
theorem C91_mockup_dmp {d m : ℕ} (s : DMP d m) (ht : s.t = 0) (hv : s.startYd = 0) (hdt : 0 < s.dt)
    (hcur : s.initialized = true → s.currentY = s.startY ∧ s.currentYd = s.startYd)
    (coupling : Option (Coupling d)) {name : String} {sf : StepFunction} (hname : StepFunction.lookup name = .ok sf) (n : ℕ) :
    ((mockupStepThrough s.dt (DMP.step coupling sf) s.startY s.startYd (n * s.dt)).exec s).1.map Log.positions =
      ((DMP.openLoop (some (n * s.dt)) coupling name).exec s).1.map Prod.snd := by
  rw [C18_step_eq_open_loop s ht hv hdt hcur coupling hname n]
  unfold mockupStepThrough
  rw [Py.exec_bind, Py.exec_lift, nSteps, if_neg hdt.ne', mul_div_assoc, div_self hdt.ne', mul_one, Nat.floor_natCast]
  simp only
  rw [Py.exec_bind, mockupLoop_eq]
  rcases hf : (fedBack (DMP.step coupling sf) n s.startY s.startYd).exec s with ⟨_ | rows, s1⟩ <;> rfl

example : ∃ s : DMP 2 10, s.Reachable ∧ ∀ n : ℕ,
    ((mockupStepThrough s.dt (DMP.step none .rk4) s.startY s.startYd (n * s.dt)).exec s).1.map Log.positions =
      ((DMP.openLoop (some (n * s.dt)) none "rk4").exec s).1.map Prod.snd := by
  obtain ⟨s, hs, h⟩ := DMP.create_ok 2 10 (by norm_num) one_pos (1 / 100) (1 / 1000) 0 false 25 (25 / 4)
  refine ⟨s, .create hs, C91_mockup_dmp s h.2.2.2.2.2.2.1 h.2.2.2.2.2.2.2.2.1 ?_ ?_ none rfl⟩
  · rw [h.2.1]; norm_num
  · intro hi
    rw [h.2.2.2.2.2.1] at hi
    cases hi

end Verif.Sim
