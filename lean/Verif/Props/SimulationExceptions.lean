import Verif.Props.SimulationSteps
import Verif.Props.SimulationRh5

/-! # C91: exceptions during the execution of a trajectory by a simulated robot -/

namespace Verif.Sim
open Spec

variable {R S : Type}

theorem UR5.exec_feedback (u : UR5) (b : Bullet R) (closedLoop : Bool) (lastP : Vec 7) (cs : Clients R) :
    ∃ p, (u.feedback b closedLoop lastP).exec cs = (.ok p, cs) := by
  unfold UR5.feedback
  split_ifs
  · exact ⟨_, by rw [Py.exec_bind, UR5.exec_getEeState]; rfl⟩
  · exact ⟨lastP, rfl⟩

/-- An exception of `step` ends the loop; the simulation is not changed any more. -/
theorem UR5.loop_error (u : UR5) (b : Bullet R) (steppable : Steppable S 7 6) (closedLoop : Bool) {cs1 : Clients R} {s1 s2 : S} {e : PyErr}
    (he : ∀ p v, (steppable p v).exec s1 = (.error e, s2)) :
    ∀ (n m : ℕ) (lastP : Vec 7) (lastV : Vec 6) (cs : Clients R) (s : S) rows, n < m →
      (u.loop b steppable closedLoop n lastP lastV).exec (cs, s) = (.ok rows, (cs1, s1)) →
      (u.loop b steppable closedLoop m lastP lastV).exec (cs, s) = (.error e, (cs1, s2)) := by
  intro n
  induction n with
  | zero =>
    intro m lastP lastV cs s rows hm h
    obtain ⟨m, rfl⟩ : ∃ k, m = k + 1 := ⟨m - 1, by omega⟩
    unfold UR5.loop at h
    rw [Py.exec_pure] at h
    simp only [Prod.mk.injEq] at h
    obtain ⟨-, rfl, rfl⟩ := h
    unfold UR5.loop UR5.iteration
    obtain ⟨p, hp⟩ := u.exec_feedback b closedLoop lastP cs
    rw [Py.exec_bind, Py.exec_bind, onSim, Py.exec_zoom, hp]
    simp only
    rw [Py.exec_bind, onObject, Py.exec_zoom, he]
  | succ n ih =>
    intro m lastP lastV cs s rows hm h
    obtain ⟨m, rfl⟩ : ∃ k, m = k + 1 := ⟨m - 1, by omega⟩
    unfold UR5.loop at h ⊢
    rw [Py.exec_bind] at h ⊢
    rcases hi : (u.iteration b steppable closedLoop lastP lastV).exec (cs, s) with ⟨r, cs', s'⟩
    rw [hi] at h
    cases r with
    | error e => simp at h
    | ok r =>
      simp only at h ⊢
      rw [Py.exec_bind] at h ⊢
      rcases hl : (u.loop b steppable closedLoop n r.1.1 r.1.2).exec (cs', s') with ⟨x, cs'', s''⟩
      rw [hl] at h
      cases x with
      | error e => simp at h
      | ok rest =>
        simp only [Py.exec_pure, Prod.mk.injEq] at h
        obtain ⟨-, rfl, rfl⟩ := h
        rw [ih m _ _ _ _ _ (by omega) hl]

/-- **C91 (finding).** `UR5Simulation.step_through_cartesian` does not stop the robot if `step` of the movement raises an exception (e.g.
in a coupling term): the exception is passed on and the simulation is in the state after the last successful iteration. No velocity 0 is
commanded (compare `C91_ur5_stops`), the velocities commanded in that iteration stay in effect. -/
theorem C91_finding_exception_does_not_stop (u : UR5) (b : Bullet R) (steppable : Steppable S 7 6) (lastP : Vec 7) (lastV : Vec 6) {T : ℝ}
    (closedLoop : Bool) (hdt : u.dt ≠ 0) {n : ℕ} (hn : n < ⌊T / u.dt⌋₊) {cs cs1 : Clients R} {s s1 s2 : S} {rows} {e : PyErr}
    (h : (u.loop b steppable closedLoop n lastP lastV).exec (cs, s) = (.ok rows, (cs1, s1)))
    (he : ∀ p v, (steppable p v).exec s1 = (.error e, s2)) :
    (u.stepThrough b steppable lastP lastV T closedLoop).exec (cs, s) = (.error e, (cs1, s2)) := by
  unfold UR5.stepThrough
  rw [Py.exec_bind, onSim, Py.exec_zoom, UR5.exec_getEeState]
  simp only
  rw [Py.exec_bind, Py.exec_lift, nSteps, if_neg hdt]
  simp only
  rw [Py.exec_bind, u.loop_error b steppable closedLoop he n _ _ _ _ _ _ hn h]

/-- A movement whose second step raises an exception. -/
def moveOnce : Steppable Bool 7 6 := fun p v => do
  let done ← get
  if done then throw .valueError else do
    set true
    return (![p 0 + 1, p 1, p 2, 1, 0, 0, 0], v)

/-- The gantry makes one step of this movement. -/
example (dt : ℝ) (hdt : 0 < dt) : ∃ rows cs1,
    ((gantryRobot dt).loop (gantry dt) moveOnce true 1 ![0, 0, 0, 1, 0, 0, 0] 0).exec (fun _ => ⟨0, 0, fun _ => none, ()⟩, false) =
      (.ok rows, (cs1, true)) ∧ (∀ p v, (moveOnce p v).exec true = (.error .valueError, true)) ∧ 1 < ⌊3 * dt / (gantryRobot dt).dt⌋₊ := by
  have e : 3 * dt / (gantryRobot dt).dt = 3 := by show 3 * dt / dt = 3; field_simp
  obtain ⟨cs1, h, -⟩ := (gantryRobot dt).move_ideal (gantry dt) rfl hdt.ne' (by simp [gantryRobot]) rfl (gantry_follows dt) _
    (gantry_solves dt ((gantryRobot dt).poseOf (gantry dt) ⟨0, 0, fun _ => none, ()⟩ 0 + 1)
      ((gantryRobot dt).poseOf (gantry dt) ⟨0, 0, fun _ => none, ()⟩ 1)
      ((gantryRobot dt).poseOf (gantry dt) ⟨0, 0, fun _ => none, ()⟩ 2)) fun _ => ⟨0, 0, fun _ => none, ()⟩
  refine ⟨?w, cs1, ?_, fun _ _ => rfl, by rw [e]; norm_num⟩
  swap
  rw [UR5.loop, Py.exec_bind, UR5.exec_iteration]
  have h1 : ∀ p v, (moveOnce p v).exec false = (.ok (![p 0 + 1, p 1, p 2, 1, 0, 0, 0], v), true) := fun _ _ => rfl
  simp only [if_true, h1]
  rw [h]
  rfl

theorem RH5.exec_feedback (u : RH5) (b : Bullet R) (closedLoop : Bool) (lastP : Vec 14) (w : RH5World R) :
    ∃ p, (u.feedback b closedLoop lastP).exec w = (.ok p, w) := by
  unfold RH5.feedback
  split_ifs
  · exact ⟨_, RH5.exec_getEeState u b w⟩
  · exact ⟨lastP, rfl⟩

/-- `RH5Simulation`: an exception of `step` ends the loop; the simulation is not changed any more. -/
theorem RH5.loop_error (u : RH5) (b : Bullet R) (steppable : Steppable S 14 12) (closedLoop : Bool) {cs1 : RH5World R} {s1 s2 : S} {e : PyErr}
    (he : ∀ p v, (steppable p v).exec s1 = (.error e, s2)) :
    ∀ (n m : ℕ) (lastP : Vec 14) (lastV : Vec 12) (cs : RH5World R) (s : S) rows, n < m →
      (u.loop b steppable closedLoop n lastP lastV).exec (cs, s) = (.ok rows, (cs1, s1)) →
      (u.loop b steppable closedLoop m lastP lastV).exec (cs, s) = (.error e, (cs1, s2)) := by
  intro n
  induction n with
  | zero =>
    intro m lastP lastV cs s rows hm h
    obtain ⟨m, rfl⟩ : ∃ k, m = k + 1 := ⟨m - 1, by omega⟩
    unfold RH5.loop at h
    rw [Py.exec_pure] at h
    simp only [Prod.mk.injEq] at h
    obtain ⟨-, rfl, rfl⟩ := h
    unfold RH5.loop RH5.iteration
    obtain ⟨p, hp⟩ := u.exec_feedback b closedLoop lastP cs
    rw [Py.exec_bind, Py.exec_bind, onSim, Py.exec_zoom, hp]
    simp only
    rw [Py.exec_bind, onObject, Py.exec_zoom, he]
  | succ n ih =>
    intro m lastP lastV cs s rows hm h
    obtain ⟨m, rfl⟩ : ∃ k, m = k + 1 := ⟨m - 1, by omega⟩
    unfold RH5.loop at h ⊢
    rw [Py.exec_bind] at h ⊢
    rcases hi : (u.iteration b steppable closedLoop lastP lastV).exec (cs, s) with ⟨r, cs', s'⟩
    rw [hi] at h
    cases r with
    | error e => simp at h
    | ok r =>
      simp only at h ⊢
      rw [Py.exec_bind] at h ⊢
      rcases hl : (u.loop b steppable closedLoop n r.1.1 r.1.2).exec (cs', s') with ⟨x, cs'', s''⟩
      rw [hl] at h
      cases x with
      | error e => simp at h
      | ok rest =>
        simp only [Py.exec_pure, Prod.mk.injEq] at h
        obtain ⟨-, rfl, rfl⟩ := h
        rw [ih m _ _ _ _ _ (by omega) hl]

/-- **C91 (finding).** The same holds for `RH5Simulation.step_through_cartesian`: `stop` is not called if `step` of the movement raises an
exception. -/
theorem C91_finding_rh5_exception_does_not_stop (u : RH5) (b : Bullet R) (steppable : Steppable S 14 12) (lastP : Vec 14) (lastV : Vec 12) {T : ℝ}
    (closedLoop : Bool) (hdt : u.dt ≠ 0) {n : ℕ} (hn : n < ⌊T / u.dt⌋₊) {cs cs1 : RH5World R} {s s1 s2 : S} {rows} {e : PyErr}
    (h : (u.loop b steppable closedLoop n lastP lastV).exec (cs, s) = (.ok rows, (cs1, s1)))
    (he : ∀ p v, (steppable p v).exec s1 = (.error e, s2)) :
    (u.stepThrough b steppable lastP lastV T closedLoop).exec (cs, s) = (.error e, (cs1, s2)) := by
  unfold RH5.stepThrough
  rw [Py.exec_bind, onSim, Py.exec_zoom, RH5.exec_getEeState]
  simp only
  rw [Py.exec_bind, Py.exec_lift, nSteps, if_neg hdt]
  simp only
  rw [Py.exec_bind, u.loop_error b steppable closedLoop he n _ _ _ _ _ _ hn h]

/-- Two arms that hold still for one step, then `step` raises an exception. -/
def stayOnce : Steppable Bool 14 12 := fun p v => do
  let done ← get
  if done then throw .valueError else do
    set true
    return (![p 0, p 1, p 2, 1, 0, 0, 0, p 7, p 8, p 9, 1, 0, 0, 0], v)

example (dt : ℝ) (hdt : 0 < dt) (w : RH5World Unit) (p : Vec 14) : ∃ rows w1,
    ((gantriesRobot dt).loop (gantries dt) stayOnce false 1 p 0).exec (w, false) = (.ok rows, (w1, true)) ∧
      (∀ p v, (stayOnce p v).exec true = (.error .valueError, true)) ∧ 1 < ⌊3 * dt / (gantriesRobot dt).dt⌋₊ := by
  have e : 3 * dt / (gantriesRobot dt).dt = 3 := by show 3 * dt / dt = 3; field_simp
  have hf : FollowsVelocities (gantries dt) dt := gantry_follows dt
  obtain ⟨w1, h, -⟩ := (gantriesRobot dt).move_ideal (gantries dt) hdt.ne' (by simp [gantriesRobot]) rfl rfl hf
    ![p 0, p 1, p 2, 1, 0, 0, 0, p 7, p 8, p 9, 1, 0, 0, 0]
    ⟨gantries_solve dt 0 _ rfl rfl rfl rfl, gantries_solve dt 1 _ rfl rfl rfl rfl⟩ w
  refine ⟨?w, w1, ?_, fun _ _ => rfl, by rw [e]; norm_num⟩
  swap
  rw [RH5.loop, Py.exec_bind, RH5.exec_iteration]
  have h1 : ∀ p v, (stayOnce p v).exec false = (.ok (![p 0, p 1, p 2, 1, 0, 0, 0, p 7, p 8, p 9, 1, 0, 0, 0], v), true) :=
    fun _ _ => rfl
  simp only [Bool.false_eq_true, if_false, h1]
  rw [h]
  rfl

end Verif.Sim
