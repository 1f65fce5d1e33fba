import Verif.Props.SimulationCommands
import Verif.Spec.Execution

/-! # C90, C91: execution of trajectories by simulated robots -/

namespace Verif.Sim
open Spec Quaternion

variable {R S : Type}

theorem exec_onClient {α : Type} (c : ℕ) (m : Py (World R) α) (cs : Clients R) :
    (onClient c m).exec cs = ((m.exec (cs c)).1, Function.update cs c (m.exec (cs c)).2) := rfl

theorem exec_step (b : Bullet R) (w : World R) :
    (step b).exec w = if b.isConnected w = false then (.error .assertionError, w) else (.ok (), b.stepSimulation w) := by
  unfold step
  rw [Py.exec_bind, Py.exec_get]
  simp only
  split_ifs <;> rfl

namespace UR5
variable (u : UR5) (b : Bullet R)

theorem exec_getEeState (cs : Clients R) :
    (u.getEeState b).exec cs = (.ok (u.poseOf b (cs 0), u.velocityOf b (cs 0)), cs) := by
  simp only [getEeState, exec_onClient, Py.exec_bind, Py.exec_get, Py.exec_pure, Function.update_eq_self]

/-- Moving to a pose in one time step. -/
noncomputable def move (x : Vec 7) : Py (Clients R) Unit := do
  u.setDesiredEeState b x
  onClient u.clientId (step b)

theorem exec_iteration (steppable : Steppable S 7 6) (cl : Bool) (p : Vec 7) (v : Vec 6) (cs : Clients R) (s : S) :
    (u.iteration b steppable cl p v).exec (cs, s) =
      match (steppable (if cl then u.poseOf b (cs 0) else p) v).exec s with
      | (.error e, s') => (.error e, (cs, s'))
      | (.ok r, s') => match (u.move b r.1).exec cs with
        | (.error e, cs') => (.error e, (cs', s'))
        | (.ok _, cs') => (.ok (r, (u.poseOf b (cs' 0), u.velocityOf b (cs' 0))), (cs', s')) := by
  have h : (u.feedback b cl p).exec cs = (.ok (if cl then u.poseOf b (cs 0) else p), cs) := by
    cases cl
    · rfl
    · simp only [feedback, if_true, Py.exec_bind, exec_getEeState, Py.exec_pure]
  unfold iteration
  rw [Py.exec_bind, onSim, Py.exec_zoom, h]
  simp only [Py.exec_bind, onObject, Py.exec_zoom]
  rcases (steppable (if cl then u.poseOf b (cs 0) else p) v).exec s with ⟨r, s'⟩
  cases r with
  | error e => rfl
  | ok r =>
    simp only [move, Py.exec_bind, onSim, Py.exec_zoom]
    rcases (u.setDesiredEeState b r.1).exec cs with ⟨y, cs1⟩
    cases y with
    | error e => rfl
    | ok y =>
      simp only
      rcases (onClient u.clientId (step b)).exec cs1 with ⟨z, cs2⟩
      cases z with
      | error e => rfl
      | ok z => simp only [exec_getEeState, Py.exec_pure]

theorem iteration_ok {steppable : Steppable S 7 6} {cl : Bool} {p : Vec 7} {v : Vec 6} {cs cs' : Clients R} {s s' : S}
    {x : (Vec 7 × Vec 6) × (Vec 7 × Vec 6)}
    (h : (u.iteration b steppable cl p v).exec (cs, s) = (.ok x, (cs', s'))) :
    (steppable (if cl then u.poseOf b (cs 0) else p) v).exec s = (.ok x.1, s') ∧
    (u.move b x.1.1).exec cs = (.ok (), cs') ∧ x.2 = (u.poseOf b (cs' 0), u.velocityOf b (cs' 0)) := by
  rw [exec_iteration] at h
  rcases h1 : (steppable (if cl then u.poseOf b (cs 0) else p) v).exec s with ⟨r, s1⟩
  rw [h1] at h
  cases r with
  | error e => simp at h
  | ok r =>
    simp only at h
    rcases h2 : (u.move b r.1).exec cs with ⟨y, cs1⟩
    rw [h2] at h
    cases y with
    | error e => simp at h
    | ok y =>
      simp only [Prod.mk.injEq, Except.ok.injEq] at h
      obtain ⟨rfl, rfl, rfl⟩ := h
      exact ⟨rfl, h2, rfl⟩

theorem loop_ok {steppable : Steppable S 7 6} {cl : Bool} (n : ℕ) {p : Vec 7} {v : Vec 6} {cs cs' : Clients R} {s s' : S}
    {rows : List ((Vec 7 × Vec 6) × (Vec 7 × Vec 6))}
    (h : (u.loop b steppable cl n p v).exec (cs, s) = (.ok rows, (cs', s'))) :
    rows.length = n ∧
    (feedSteps steppable ((List.zip
      ((if cl then u.poseOf b (cs 0) else p) :: rows.map (fun x => if cl then x.2.1 else x.1.1))
      (v :: rows.map (·.1.2))).take n)).exec s = (.ok (rows.map (·.1)), s') := by
  induction n generalizing p v cs s rows with
  | zero =>
    simp only [loop, Py.exec_pure, Prod.mk.injEq, Except.ok.injEq] at h
    obtain ⟨rfl, rfl, rfl⟩ := h
    exact ⟨rfl, rfl⟩
  | succ n ih =>
    simp only [loop] at h
    rw [Py.exec_bind] at h
    rcases h1 : (u.iteration b steppable cl p v).exec (cs, s) with ⟨x, cs1, s1⟩
    rw [h1] at h
    cases x with
    | error e => simp at h
    | ok x =>
      simp only at h
      rw [Py.exec_bind] at h
      rcases h2 : (u.loop b steppable cl n x.1.1 x.1.2).exec (cs1, s1) with ⟨y, cs2, s2⟩
      rw [h2] at h
      cases y with
      | error e => simp at h
      | ok rest =>
        simp only [Py.exec_pure, Prod.mk.injEq, Except.ok.injEq] at h
        obtain ⟨rfl, rfl, rfl⟩ := h
        obtain ⟨hl, hf⟩ := ih h2
        obtain ⟨g1, -, g3⟩ := u.iteration_ok b h1
        refine ⟨by simp [hl], ?_⟩
        rw [List.zip_cons_cons, List.take_succ_cons, feedSteps, Py.exec_bind, g1]
        simp only
        rw [Py.exec_bind]
        have e : (if cl then x.2.1 else x.1.1) = if cl then u.poseOf b (cs1 0) else x.1.1 := by rw [g3]
        simp only [List.map_cons, e]
        rw [hf]
        rfl

end UR5

/-- **C91.** When `UR5Simulation.step_through_cartesian` returns: all four arrays have `1 + int(execution_time / dt)` rows. The
first rows are the given state and the measured state. The rows of the desired poses and velocities are the results of the
calls of `step`; call `i` has as arguments the desired pose `i`, or with `closed_loop` the measured pose `i`, and the desired
(not the measured) velocity `i`. The object is in the state after these calls. -/
theorem C91_ur5_log (u : UR5) (b : Bullet R) (steppable : Steppable S 7 6) (lastP : Vec 7) (lastV : Vec 6) (T : ℝ)
    (closedLoop : Bool) (cs cs' : Clients R) (s s' : S) (log : Log 7 6)
    (h : (u.stepThrough b steppable lastP lastV T closedLoop).exec (cs, s) = (.ok log, (cs', s'))) :
    log.desiredPositions.length = ⌊T / u.dt⌋₊ + 1 ∧ log.positions.length = ⌊T / u.dt⌋₊ + 1 ∧
    log.desiredVelocities.length = ⌊T / u.dt⌋₊ + 1 ∧ log.velocities.length = ⌊T / u.dt⌋₊ + 1 ∧
    log.desiredPositions.head? = some lastP ∧ log.desiredVelocities.head? = some lastV ∧
    log.positions.head? = some (u.poseOf b (cs 0)) ∧ log.velocities.head? = some (u.velocityOf b (cs 0)) ∧
    (feedSteps steppable ((List.zip (if closedLoop then log.positions else log.desiredPositions)
      log.desiredVelocities).take ⌊T / u.dt⌋₊)).exec s =
      (.ok (List.zip log.desiredPositions.tail log.desiredVelocities.tail), s') := by
  simp only [UR5.stepThrough] at h
  rw [Py.exec_bind, onSim, Py.exec_zoom, UR5.exec_getEeState] at h
  simp only at h
  rw [Py.exec_bind, Py.exec_lift, nSteps] at h
  split_ifs at h with hdt
  · simp at h
  simp only at h
  rw [Py.exec_bind] at h
  rcases h1 : (u.loop b steppable closedLoop ⌊T / u.dt⌋₊ lastP lastV).exec (cs, s) with ⟨x, cs1, s1⟩
  rw [h1] at h
  cases x with
  | error e => simp at h
  | ok rows =>
    simp only at h
    rw [Py.exec_bind, onSim, Py.exec_zoom] at h
    rcases h2 : (u.stop b).exec cs1 with ⟨y, cs2⟩
    rw [h2] at h
    cases y with
    | error e => simp at h
    | ok y =>
      simp only [Py.exec_pure, Prod.mk.injEq, Except.ok.injEq] at h
      obtain ⟨rfl, rfl, rfl⟩ := h
      obtain ⟨hl, hf⟩ := u.loop_ok b _ h1
      refine ⟨by simp [hl], by simp [hl], by simp [hl], by simp [hl], rfl, rfl, rfl, rfl, ?_⟩
      cases closedLoop
      · simp only [Bool.false_eq_true, if_false, List.tail_cons, List.zip_map'] at hf ⊢
        exact hf
      · simp only [if_true, List.tail_cons, List.zip_map'] at hf ⊢
        exact hf

namespace UR5
variable (u : UR5) (b : Bullet R)

theorem exec_inverseKinematics (x : Vec 7) (cs : Clients R) :
    (u.inverseKinematics b x).exec cs = ((b.inverseKinematics (cs 0) u.eeLink (u.ikTarget x)).map (·.take 6), cs) := by
  simp only [inverseKinematics, exec_onClient, Py.exec_bind, Py.exec_get, Py.exec_lift]
  cases b.inverseKinematics (cs 0) u.eeLink (u.ikTarget x) <;> simp [Except.map]

/-- The velocity commands for a solution of inverse kinematics. -/
theorem setDesiredEeState_ok (hn : u.joints.Nodup) (hl : u.joints.length = 6) (x : Vec 7) (cs : Clients R) {q : List ℝ}
    (hq : b.inverseKinematics (cs 0) u.eeLink (u.ikTarget x) = .ok q) (hq6 : 6 ≤ q.length) :
    ∃ cs', (u.setDesiredEeState b x).exec cs = (.ok (), cs') ∧
      (∀ k (hk : k < u.joints.length), (cs' 0).motor u.joints[k] =
        some (.velocity ((q[k]'(by omega) - (cs 0).q u.joints[k]) / u.dt))) ∧
      (cs' 0).q = (cs 0).q ∧ ∀ c ≠ 0, cs' c = cs c := by
  have hjs := (C90_ur5_joint_commands u hn [] true cs).1
  have hlen : (List.zipWith (fun a c => (a - c) / u.dt) (q.take 6) (u.joints.map (cs 0).q)).length = u.joints.length := by
    rw [List.length_zipWith, List.length_take, List.length_map, hl]; omega
  obtain ⟨cs', h1, h2, -, h3, -, -, h4⟩ :=
    (C90_ur5_joint_commands u hn (List.zipWith (fun a c => (a - c) / u.dt) (q.take 6) (u.joints.map (cs 0).q)) false
      cs).2.2 hlen
  refine ⟨cs', ?_, ?_, h3, h4⟩
  · unfold setDesiredEeState
    rw [Py.exec_bind, exec_inverseKinematics, hq]
    simp only [Except.map]
    rw [Py.exec_bind, hjs]
    simp only
    rw [Py.exec_bind, Py.exec_lift, velocityCommand, if_neg (by rw [List.length_take, List.length_map, hl]; omega)]
    exact h1
  · intro k hk
    rw [h2 k hk]
    simp only [Bool.false_eq_true, if_false, List.getElem_zipWith, List.getElem_take, List.getElem_map]

theorem move_ideal (hc : u.clientId = 0) (hdt : u.dt ≠ 0) (hn : u.joints.Nodup) (hl : u.joints.length = 6)
    (hf : FollowsVelocities b u.dt) (x : Vec 7) (hik : SolvesIk b u.eeLink u.joints (u.ikTarget x)) (cs : Clients R) :
    ∃ cs', (u.move b x).exec cs = (.ok (), cs') ∧ b.linkPose (cs' 0) u.eeLink = u.ikTarget x := by
  obtain ⟨q, hq, hq6, hp⟩ := hik (cs 0)
  rw [hl] at hq6 hp
  obtain ⟨cs1, h1, h2, h3, -⟩ := u.setDesiredEeState_ok b hn hl x cs hq hq6
  refine ⟨Function.update cs1 0 (b.stepSimulation (cs1 0)), ?_, ?_⟩
  · unfold move
    rw [Py.exec_bind, h1]
    simp only
    rw [exec_onClient, hc, exec_step, hf.1]
    rfl
  · apply hp
    rw [Function.update_self]
    apply List.ext_getElem
    · rw [List.length_map, List.length_take, hl]; omega
    · intro k hk1 hk2
      rw [List.length_map] at hk1
      rw [List.getElem_map, List.getElem_take, hf.2 _ _ _ (h2 k hk1), h3]
      field_simp
      ring

theorem loop_ideal (hc : u.clientId = 0) (hdt : u.dt ≠ 0) (hb : IsPose u.basePose) (hn : u.joints.Nodup)
    (hl : u.joints.length = 6) (hf : FollowsVelocities b u.dt) {steppable : Steppable S 7 6}
    (hs : ∀ p v s, ∃ r s', (steppable p v).exec s = (.ok r, s') ∧ SolvesIk b u.eeLink u.joints (u.ikTarget r.1))
    (cl : Bool) (n : ℕ) (p : Vec 7) (v : Vec 6) (cs : Clients R) (s : S) :
    ∃ rows st, (u.loop b steppable cl n p v).exec (cs, s) = (.ok rows, st) ∧ ∀ x ∈ rows, x.2.1 = x.1.1 := by
  induction n generalizing p v cs s with
  | zero => exact ⟨[], (cs, s), rfl, by simp⟩
  | succ n ih =>
    obtain ⟨r, s', h1, h2⟩ := hs (if cl then u.poseOf b (cs 0) else p) v s
    obtain ⟨cs', h3, h4⟩ := u.move_ideal b hc hdt hn hl hf r.1 h2 cs
    obtain ⟨rows, st, h5, h6⟩ := ih r.1 r.2 cs' s'
    refine ⟨(r, (u.poseOf b (cs' 0), u.velocityOf b (cs' 0))) :: rows, st, ?_, ?_⟩
    · rw [loop, Py.exec_bind, exec_iteration, h1]
      simp only
      rw [h3]
      simp only
      rw [Py.exec_bind, h5]
      rfl
    · intro x hx
      rcases List.mem_cons.mp hx with rfl | hx
      · exact C89_commanded_pose_is_measured u b hb r.1 (cs' 0) h4
      · exact h6 x hx

/-- `stop` of a connected robot with six joints. -/
theorem exec_stop (hl : u.joints.length = 6) (hc : u.clientId = 0) (hf : ∀ w, b.isConnected w = true) (cs : Clients R) :
    (u.stop b).exec cs = (.ok (), Function.update cs 0 (b.stepSimulation
      { (cs 0) with motor := assignMotors u.joints (List.replicate 6 (.velocity 0)) (cs 0).motor })) := by
  unfold stop
  rw [Py.exec_bind, exec_onClient, exec_setMotors, if_neg (by simp [hl])]
  simp only
  rw [exec_onClient, hc, exec_step, hf]
  simp

end UR5

/-- **C90.** Velocity control reaches the desired poses: if the joints follow the commanded velocities exactly and inverse kinematics
is exact for the poses that `step` returns, then `UR5Simulation.step_through_cartesian` returns and every measured pose after
the first one is equal to the desired pose, for any (unit) base pose, trajectory and execution time. -/
theorem C90_ur5_ideal_tracking (u : UR5) (b : Bullet R) (hc : u.clientId = 0) (hdt : u.dt ≠ 0) (hb : IsPose u.basePose)
    (hn : u.joints.Nodup) (hl : u.joints.length = 6) (hf : FollowsVelocities b u.dt) (steppable : Steppable S 7 6)
    (hs : ∀ p v s, ∃ r s', (steppable p v).exec s = (.ok r, s') ∧ SolvesIk b u.eeLink u.joints (u.ikTarget r.1))
    (lastP : Vec 7) (lastV : Vec 6) (T : ℝ) (closedLoop : Bool) (cs : Clients R) (s : S) :
    ∃ log st, (u.stepThrough b steppable lastP lastV T closedLoop).exec (cs, s) = (.ok log, st) ∧
      log.positions.tail = log.desiredPositions.tail := by
  obtain ⟨rows, ⟨cs1, s1⟩, h1, h2⟩ := u.loop_ideal b hc hdt hb hn hl hf hs closedLoop ⌊T / u.dt⌋₊ lastP lastV cs s
  refine ⟨⟨lastP :: rows.map (·.1.1), u.poseOf b (cs 0) :: rows.map (·.2.1), lastV :: rows.map (·.1.2),
    u.velocityOf b (cs 0) :: rows.map (·.2.2)⟩, ?_, ?_, ?_⟩
  rotate_left
  · simp only [UR5.stepThrough]
    rw [Py.exec_bind, onSim, Py.exec_zoom, UR5.exec_getEeState]
    simp only
    rw [Py.exec_bind, Py.exec_lift, nSteps, if_neg hdt]
    simp only
    rw [Py.exec_bind, h1]
    simp only
    rw [Py.exec_bind, onSim, Py.exec_zoom, u.exec_stop b hl hc hf.1]
    rfl
  · simp only [List.tail_cons]
    exact List.map_congr_left h2

/-- **C91.** After `UR5Simulation.step_through_cartesian` the robot has made a simulation step with velocity 0 commanded for all
of its joints (first simulation of the process). -/
theorem C91_ur5_stops (u : UR5) (b : Bullet R) (hc : u.clientId = 0) (hn : u.joints.Nodup) (steppable : Steppable S 7 6)
    (lastP : Vec 7) (lastV : Vec 6) (T : ℝ) (closedLoop : Bool) (cs cs' : Clients R) (s s' : S) (log : Log 7 6)
    (h : (u.stepThrough b steppable lastP lastV T closedLoop).exec (cs, s) = (.ok log, (cs', s'))) :
    ∃ w, (∀ j ∈ u.joints, w.motor j = some (.velocity 0)) ∧ cs' 0 = b.stepSimulation w := by
  simp only [UR5.stepThrough] at h
  rw [Py.exec_bind, onSim, Py.exec_zoom, UR5.exec_getEeState] at h
  simp only at h
  rw [Py.exec_bind, Py.exec_lift, nSteps] at h
  split_ifs at h with hdt
  · simp at h
  simp only at h
  rw [Py.exec_bind] at h
  rcases h1 : (u.loop b steppable closedLoop ⌊T / u.dt⌋₊ lastP lastV).exec (cs, s) with ⟨x, cs1, s1⟩
  rw [h1] at h
  cases x with
  | error e => simp at h
  | ok rows =>
    simp only at h
    rw [Py.exec_bind, onSim, Py.exec_zoom] at h
    rcases h2 : (u.stop b).exec cs1 with ⟨y, cs2⟩
    rw [h2] at h
    cases y with
    | error e => simp at h
    | ok y =>
      simp only [Py.exec_pure, Prod.mk.injEq, Except.ok.injEq] at h
      obtain ⟨-, rfl, -⟩ := h
      unfold UR5.stop at h2
      rw [Py.exec_bind, exec_onClient, exec_setMotors] at h2
      split_ifs at h2 with hl
      · simp at h2
      rw [not_not] at hl
      simp only at h2
      rw [exec_onClient, hc, Function.update_self, exec_step] at h2
      split_ifs at h2 with hcon
      · simp at h2
      simp only [Prod.mk.injEq, true_and] at h2
      refine ⟨{ (cs1 0) with motor := assignMotors u.joints (List.replicate 6 (.velocity 0)) (cs1 0).motor }, ?_, ?_⟩
      · intro j hj
        obtain ⟨k, hk, rfl⟩ := List.getElem_of_mem hj
        simp only
        rw [assignMotors_mem _ _ _ hn hl k hk, List.getElem_replicate]
      · rw [← h2, Function.update_self]

/-- Two states of a client differ only in the commands for its motors. -/
def SameUpToMotors (w w' : World R) : Prop := ∃ m, w' = { w with motor := m }

theorem SameUpToMotors.refl (w : World R) : SameUpToMotors w w := ⟨w.motor, rfl⟩

theorem SameUpToMotors.trans {w1 w2 w3 : World R} (h : SameUpToMotors w1 w2) (h' : SameUpToMotors w2 w3) :
    SameUpToMotors w1 w3 := by
  obtain ⟨m, rfl⟩ := h
  obtain ⟨m', rfl⟩ := h'
  exact ⟨m', rfl⟩

theorem setMotors_same (idx : List ℕ) (c : List Motor) (w : World R) : SameUpToMotors w ((setMotors idx c).exec w).2 := by
  rw [exec_setMotors]
  split_ifs
  · exact .refl w
  · exact ⟨_, rfl⟩

namespace UR5
variable (u : UR5) (b : Bullet R)

theorem setDesiredEeState_same (x : Vec 7) (cs : Clients R) :
    SameUpToMotors (cs 0) (((u.setDesiredEeState b x).exec cs).2 0) := by
  unfold setDesiredEeState
  rw [Py.exec_bind, exec_inverseKinematics]
  cases b.inverseKinematics (cs 0) u.eeLink (u.ikTarget x) with
  | error e => exact .refl _
  | ok q =>
    simp only [Except.map]
    rw [Py.exec_bind]
    have : u.getJointState.exec cs = (.ok (u.joints.map (cs 0).q, u.joints.map (cs 0).qd), cs) := by
      simp only [getJointState, onClient, Py.exec_zoom, Py.exec_bind, Py.exec_get, Py.exec_pure, Function.update_eq_self]
    rw [this]
    simp only
    rw [Py.exec_bind, Py.exec_lift]
    cases velocityCommand u.dt (q.take 6) (u.joints.map (cs 0).q) with
    | error e => exact .refl _
    | ok v =>
      simp only [setDesiredJointState, exec_onClient, Function.update_self]
      exact setMotors_same _ _ _

theorem move_other (hc : u.clientId ≠ 0) (x : Vec 7) (cs : Clients R) :
    SameUpToMotors (cs 0) (((u.move b x).exec cs).2 0) := by
  unfold move
  have h := u.setDesiredEeState_same b x cs
  rw [Py.exec_bind]
  generalize (u.setDesiredEeState b x).exec cs = y at h ⊢
  rcases y with ⟨y, cs1⟩
  cases y with
  | error e => exact h
  | ok y =>
    simp only [exec_onClient]
    rw [Function.update_of_ne (Ne.symm hc)]
    exact h

theorem loop_other (hc : u.clientId ≠ 0) {steppable : Steppable S 7 6} {cl : Bool} (n : ℕ) {p : Vec 7} {v : Vec 6}
    {cs cs' : Clients R} {s s' : S} {rows : List ((Vec 7 × Vec 6) × (Vec 7 × Vec 6))}
    (h : (u.loop b steppable cl n p v).exec (cs, s) = (.ok rows, (cs', s'))) :
    SameUpToMotors (cs 0) (cs' 0) ∧ ∀ x ∈ rows, ∃ w, SameUpToMotors (cs 0) w ∧ x.2 = (u.poseOf b w, u.velocityOf b w) := by
  induction n generalizing p v cs s rows with
  | zero =>
    simp only [loop, Py.exec_pure, Prod.mk.injEq, Except.ok.injEq] at h
    obtain ⟨rfl, rfl, rfl⟩ := h
    exact ⟨.refl _, by simp⟩
  | succ n ih =>
    simp only [loop] at h
    rw [Py.exec_bind] at h
    rcases h1 : (u.iteration b steppable cl p v).exec (cs, s) with ⟨x, cs1, s1⟩
    rw [h1] at h
    cases x with
    | error e => simp at h
    | ok x =>
      simp only at h
      rw [Py.exec_bind] at h
      rcases h2 : (u.loop b steppable cl n x.1.1 x.1.2).exec (cs1, s1) with ⟨y, cs2, s2⟩
      rw [h2] at h
      cases y with
      | error e => simp at h
      | ok rest =>
        simp only [Py.exec_pure, Prod.mk.injEq, Except.ok.injEq] at h
        obtain ⟨rfl, rfl, rfl⟩ := h
        obtain ⟨-, g2, g3⟩ := u.iteration_ok b h1
        have g4 := u.move_other b hc x.1.1 cs
        rw [g2] at g4
        obtain ⟨i1, i2⟩ := ih h2
        refine ⟨g4.trans i1, ?_⟩
        intro y hy
        rcases List.mem_cons.mp hy with rfl | hy
        · exact ⟨_, g4, g3⟩
        · obtain ⟨w, hw, e⟩ := i2 y hy
          exact ⟨w, g4.trans hw, e⟩

end UR5

/-- **C91 (finding).** A `UR5Simulation` that is not the first simulation of the process sends its commands to the first one, but
simulates its own: the measured pose never changes. -/
theorem C91_finding_second_simulation (u : UR5) (b : Bullet R) (hc : u.clientId ≠ 0) (steppable : Steppable S 7 6)
    (lastP : Vec 7) (lastV : Vec 6) (T : ℝ) (closedLoop : Bool)
    (hpose : ∀ w m, b.linkPose { w with motor := m } u.eeLink = b.linkPose w u.eeLink)
    (cs cs' : Clients R) (s s' : S) (log : Log 7 6)
    (h : (u.stepThrough b steppable lastP lastV T closedLoop).exec (cs, s) = (.ok log, (cs', s'))) :
    (cs' 0).q = (cs 0).q ∧ ∀ p ∈ log.positions, p = u.poseOf b (cs 0) := by
  have hp : ∀ w, SameUpToMotors (cs 0) w → u.poseOf b w = u.poseOf b (cs 0) := by
    rintro w ⟨m, rfl⟩
    unfold UR5.poseOf
    rw [hpose]
  simp only [UR5.stepThrough] at h
  rw [Py.exec_bind, onSim, Py.exec_zoom, UR5.exec_getEeState] at h
  simp only at h
  rw [Py.exec_bind, Py.exec_lift, nSteps] at h
  split_ifs at h with hdt
  · simp at h
  simp only at h
  rw [Py.exec_bind] at h
  rcases h1 : (u.loop b steppable closedLoop ⌊T / u.dt⌋₊ lastP lastV).exec (cs, s) with ⟨x, cs1, s1⟩
  rw [h1] at h
  cases x with
  | error e => simp at h
  | ok rows =>
    simp only at h
    rw [Py.exec_bind, onSim, Py.exec_zoom] at h
    obtain ⟨g1, g2⟩ := u.loop_other b hc _ h1
    have h2 : SameUpToMotors (cs1 0) (((u.stop b).exec cs1).2 0) := by
      unfold UR5.stop
      rw [Py.exec_bind, exec_onClient]
      have := setMotors_same u.joints (List.replicate 6 (.velocity 0)) (cs1 0)
      generalize (setMotors u.joints (List.replicate 6 (.velocity 0))).exec (cs1 0) = y at this ⊢
      rcases y with ⟨y, w⟩
      cases y with
      | error e => simpa using this
      | ok y =>
        simp only [exec_onClient]
        rw [Function.update_of_ne (Ne.symm hc), Function.update_self]
        exact this
    rcases h3 : (u.stop b).exec cs1 with ⟨y, cs2⟩
    rw [h3] at h h2
    cases y with
    | error e => simp at h
    | ok y =>
      simp only [Py.exec_pure, Prod.mk.injEq, Except.ok.injEq] at h
      obtain ⟨rfl, rfl, -⟩ := h
      constructor
      · obtain ⟨m, hm⟩ := g1.trans h2
        simp only at hm
        rw [hm]
      · intro p hpm
        rcases List.mem_cons.mp hpm with rfl | hpm
        · rfl
        · obtain ⟨x, hx, rfl⟩ := List.mem_map.mp hpm
          obtain ⟨w, hw, e⟩ := g2 x hx
          rw [e]
          exact hp w hw

/-! ### A robot that meets the hypotheses -/

/-- A gantry: the first three joints are the coordinates of the end effector. -/
noncomputable def gantry (dt : ℝ) : Bullet Unit where
  isConnected _ := true
  stepSimulation w := { w with q := fun i => match w.motor i with
    | some (.velocity v) => w.q i + dt * v
    | _ => w.q i }
  linkPose w _ := ⟨![w.q 0, w.q 1, w.q 2], ![0, 0, 0, 1]⟩
  linkVelocity _ _ := 0
  inverseKinematics _ _ p := .ok [p.pos 0, p.pos 1, p.pos 2, 0, 0, 0]

/-- An object that moves in the direction of the x axis. -/
def moveX : Steppable Unit 7 6 := fun p v => pure (![p 0 + 1, p 1, p 2, 1, 0, 0, 0], v)

/-- The gantry at the origin. -/
noncomputable def gantryRobot (dt : ℝ) : UR5 := ⟨dt, 0, identityPose, 7, [0, 1, 2, 3, 4, 5]⟩

theorem gantry_follows (dt : ℝ) : FollowsVelocities (gantry dt) dt := by
  refine ⟨fun _ => rfl, ?_⟩
  intro w i v h
  simp only [gantry, h]

theorem gantry_solves (dt x y z : ℝ) : SolvesIk (gantry dt) 7 [0, 1, 2, 3, 4, 5]
    ((gantryRobot dt).ikTarget ![x, y, z, 1, 0, 0, 0]) := by
  have h : (gantryRobot dt).ikTarget ![x, y, z, 1, 0, 0, 0] = ⟨![x, y, z], ![0, 0, 0, 1]⟩ := by
    unfold UR5.ikTarget
    have hq : toQuat identityPose.rot = 1 := by ext <;> simp [toQuat, identityPose]
    have hp : toQuat (pybulletPose ![x, y, z, 1, 0, 0, 0]).rot = 1 := by ext <;> simp [toQuat, pybulletPose]
    simp only [multiplyTransforms, gantryRobot, hq, hp, rotate_one, mul_one, BPose.mk.injEq]
    constructor
    · funext i; fin_cases i <;> simp [pybulletPose, identityPose]
    · funext i; fin_cases i <;> simp [ofQuat]
  rw [h]
  intro w
  refine ⟨[x, y, z, 0, 0, 0], rfl, le_refl _, ?_⟩
  intro w' hw
  simp only [List.map_cons, List.map_nil, List.length_cons, List.length_nil, List.take, List.cons.injEq] at hw
  obtain ⟨h0, h1, h2, -⟩ := hw
  simp only [gantry, h0, h1, h2]

example (dt : ℝ) (hdt : 0 < dt) : ∃ log st, ((gantryRobot dt).stepThrough (gantry dt) moveX ![0, 0, 0, 1, 0, 0, 0] 0 (3 * dt)
    true).exec (fun _ => ⟨0, 0, fun _ => none, ()⟩, ()) = (.ok log, st) ∧ log.positions.tail = log.desiredPositions.tail :=
  C90_ur5_ideal_tracking (gantryRobot dt) (gantry dt) rfl hdt.ne' (by simp [IsPose, gantryRobot, identityPose])
    (by simp [gantryRobot]) rfl (gantry_follows dt) moveX
    (fun p v s => ⟨_, _, rfl, gantry_solves dt _ _ _⟩) _ _ _ _ _ _

end Verif.Sim
