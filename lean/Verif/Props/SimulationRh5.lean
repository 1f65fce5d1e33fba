import Verif.Props.SimulationSteps

/-! # C90, C91: execution of trajectories by the simulated humanoid -/

namespace Verif.Sim
open Spec

variable {R S : Type}

namespace RH5
variable (r : RH5) (b : Bullet R)

theorem exec_getEeState (w : RH5World R) : (r.getEeState b false).exec w = (.ok (r.poseOf b w.robot), w) := rfl

/-- Moving to two poses in one time step. -/
noncomputable def move (x : Vec 14) : Py (RH5World R) Unit := do
  r.setDesiredEeState b x false
  onRobot (step b)

theorem exec_iteration (steppable : Steppable S 14 12) (cl : Bool) (p : Vec 14) (v : Vec 12) (w : RH5World R) (s : S) :
    (r.iteration b steppable cl p v).exec (w, s) =
      match (steppable (if cl then r.poseOf b w.robot else p) v).exec s with
      | (.error e, s') => (.error e, (w, s'))
      | (.ok x, s') => match (r.move b x.1).exec w with
        | (.error e, w') => (.error e, (w', s'))
        | (.ok _, w') => (.ok (x, r.poseOf b w'.robot), (w', s')) := by
  have h : (r.feedback b cl p).exec w = (.ok (if cl then r.poseOf b w.robot else p), w) := by
    cases cl <;> rfl
  unfold iteration
  rw [Py.exec_bind, onSim, Py.exec_zoom, h]
  simp only [Py.exec_bind, onObject, Py.exec_zoom]
  rcases (steppable (if cl then r.poseOf b w.robot else p) v).exec s with ⟨x, s'⟩
  cases x with
  | error e => rfl
  | ok x =>
    simp only [move, Py.exec_bind, onSim, Py.exec_zoom]
    rcases (r.setDesiredEeState b x.1 false).exec w with ⟨y, w1⟩
    cases y with
    | error e => rfl
    | ok y =>
      simp only
      rcases (onRobot (step b)).exec w1 with ⟨z, w2⟩
      cases z with
      | error e => rfl
      | ok z => simp only [exec_getEeState, Py.exec_pure]

theorem iteration_ok {steppable : Steppable S 14 12} {cl : Bool} {p : Vec 14} {v : Vec 12} {w w' : RH5World R} {s s' : S}
    {x : (Vec 14 × Vec 12) × Vec 14}
    (h : (r.iteration b steppable cl p v).exec (w, s) = (.ok x, (w', s'))) :
    (steppable (if cl then r.poseOf b w.robot else p) v).exec s = (.ok x.1, s') ∧
    (r.move b x.1.1).exec w = (.ok (), w') ∧ x.2 = r.poseOf b w'.robot := by
  rw [exec_iteration] at h
  rcases h1 : (steppable (if cl then r.poseOf b w.robot else p) v).exec s with ⟨y, s1⟩
  rw [h1] at h
  cases y with
  | error e => simp at h
  | ok y =>
    simp only at h
    rcases h2 : (r.move b y.1).exec w with ⟨z, w1⟩
    rw [h2] at h
    cases z with
    | error e => simp at h
    | ok z =>
      simp only [Prod.mk.injEq, Except.ok.injEq] at h
      obtain ⟨rfl, rfl, rfl⟩ := h
      exact ⟨rfl, h2, rfl⟩

theorem loop_ok {steppable : Steppable S 14 12} {cl : Bool} (n : ℕ) {p : Vec 14} {v : Vec 12} {w w' : RH5World R} {s s' : S}
    {rows : List ((Vec 14 × Vec 12) × Vec 14)}
    (h : (r.loop b steppable cl n p v).exec (w, s) = (.ok rows, (w', s'))) :
    rows.length = n ∧
    (feedSteps steppable ((List.zip
      ((if cl then r.poseOf b w.robot else p) :: rows.map (fun x => if cl then x.2 else x.1.1))
      (v :: rows.map (·.1.2))).take n)).exec s = (.ok (rows.map (·.1)), s') := by
  induction n generalizing p v w s rows with
  | zero =>
    simp only [loop, Py.exec_pure, Prod.mk.injEq, Except.ok.injEq] at h
    obtain ⟨rfl, rfl, rfl⟩ := h
    exact ⟨rfl, rfl⟩
  | succ n ih =>
    simp only [loop] at h
    rw [Py.exec_bind] at h
    rcases h1 : (r.iteration b steppable cl p v).exec (w, s) with ⟨x, w1, s1⟩
    rw [h1] at h
    cases x with
    | error e => simp at h
    | ok x =>
      simp only at h
      rw [Py.exec_bind] at h
      rcases h2 : (r.loop b steppable cl n x.1.1 x.1.2).exec (w1, s1) with ⟨y, w2, s2⟩
      rw [h2] at h
      cases y with
      | error e => simp at h
      | ok rest =>
        simp only [Py.exec_pure, Prod.mk.injEq, Except.ok.injEq] at h
        obtain ⟨rfl, rfl, rfl⟩ := h
        obtain ⟨hl, hf⟩ := ih h2
        obtain ⟨g1, -, g3⟩ := r.iteration_ok b h1
        refine ⟨by simp [hl], ?_⟩
        rw [List.zip_cons_cons, List.take_succ_cons, feedSteps, Py.exec_bind, g1]
        simp only
        rw [Py.exec_bind]
        have e : (if cl then x.2 else x.1.1) = if cl then r.poseOf b w1.robot else x.1.1 := by rw [g3]
        simp only [List.map_cons, e]
        rw [hf]
        rfl

theorem stepThrough_ok {steppable : Steppable S 14 12} {lastP : Vec 14} {lastV : Vec 12} {T : ℝ}
    {closedLoop : Bool} {w w' : RH5World R} {s s' : S} {log : Log 14 12}
    (h : (r.stepThrough b steppable lastP lastV T closedLoop).exec (w, s) = (.ok log, (w', s'))) :
    ∃ rows w1, (r.loop b steppable closedLoop ⌊T / r.dt⌋₊ lastP lastV).exec (w, s) = (.ok rows, (w1, s')) ∧
      (r.stop b).exec w1 = (.ok (), w') ∧
      log = ⟨lastP :: rows.map (·.1.1), r.poseOf b w.robot :: rows.map (·.2), lastV :: rows.map (·.1.2),
        0 :: rows.map (·.1.2)⟩ := by
  simp only [stepThrough] at h
  rw [Py.exec_bind, onSim, Py.exec_zoom, exec_getEeState] at h
  simp only at h
  rw [Py.exec_bind, Py.exec_lift, nSteps] at h
  split_ifs at h with hdt
  · simp at h
  simp only at h
  rw [Py.exec_bind] at h
  rcases h1 : (r.loop b steppable closedLoop ⌊T / r.dt⌋₊ lastP lastV).exec (w, s) with ⟨x, w1, s1⟩
  rw [h1] at h
  cases x with
  | error e => simp at h
  | ok rows =>
    simp only at h
    rw [Py.exec_bind, onSim, Py.exec_zoom] at h
    rcases h2 : (r.stop b).exec w1 with ⟨y, w2⟩
    rw [h2] at h
    cases y with
    | error e => simp at h
    | ok y =>
      simp only [Py.exec_pure, Prod.mk.injEq, Except.ok.injEq] at h
      obtain ⟨rfl, rfl, rfl⟩ := h
      exact ⟨rows, w1, rfl, h2, rfl⟩

end RH5

/-- **C91.** When `RH5Simulation.step_through_cartesian` returns: all four arrays have `1 + int(execution_time / dt)` rows. The
first rows are the given state, the measured poses and velocity 0. The rows of the desired poses and velocities are the results
of the calls of `step`; call `i` has as arguments the desired poses `i`, or with `closed_loop` the measured poses `i`, and the
desired velocities `i`. -/
theorem C91_rh5_log (r : RH5) (b : Bullet R) (steppable : Steppable S 14 12) (lastP : Vec 14) (lastV : Vec 12) (T : ℝ)
    (closedLoop : Bool) (w w' : RH5World R) (s s' : S) (log : Log 14 12)
    (h : (r.stepThrough b steppable lastP lastV T closedLoop).exec (w, s) = (.ok log, (w', s'))) :
    log.desiredPositions.length = ⌊T / r.dt⌋₊ + 1 ∧ log.positions.length = ⌊T / r.dt⌋₊ + 1 ∧
    log.desiredVelocities.length = ⌊T / r.dt⌋₊ + 1 ∧ log.velocities.length = ⌊T / r.dt⌋₊ + 1 ∧
    log.desiredPositions.head? = some lastP ∧ log.desiredVelocities.head? = some lastV ∧
    log.positions.head? = some (r.poseOf b w.robot) ∧ log.velocities.head? = some 0 ∧
    (feedSteps steppable ((List.zip (if closedLoop then log.positions else log.desiredPositions)
      log.desiredVelocities).take ⌊T / r.dt⌋₊)).exec s =
      (.ok (List.zip log.desiredPositions.tail log.desiredVelocities.tail), s') := by
  obtain ⟨rows, w1, h1, -, rfl⟩ := r.stepThrough_ok b h
  obtain ⟨hl, hf⟩ := r.loop_ok b _ h1
  refine ⟨by simp [hl], by simp [hl], by simp [hl], by simp [hl], rfl, rfl, rfl, rfl, ?_⟩
  cases closedLoop
  · simp only [Bool.false_eq_true, if_false, List.tail_cons, List.zip_map'] at hf ⊢
    exact hf
  · simp only [if_true, List.tail_cons, List.zip_map'] at hf ⊢
    exact hf

/-- **C91 (finding).** The velocities that `RH5Simulation.step_through_cartesian` returns as measured velocities are the desired
velocities (after the first row, which is 0), whatever the robot does. -/
theorem C91_finding_rh5_velocities (r : RH5) (b : Bullet R) (steppable : Steppable S 14 12) (lastP : Vec 14)
    (lastV : Vec 12) (T : ℝ) (closedLoop : Bool) (w w' : RH5World R) (s s' : S) (log : Log 14 12)
    (h : (r.stepThrough b steppable lastP lastV T closedLoop).exec (w, s) = (.ok log, (w', s'))) :
    log.velocities.tail = log.desiredVelocities.tail := by
  obtain ⟨rows, w1, -, -, rfl⟩ := r.stepThrough_ok b h
  rfl

/-! ### Tracking by an ideal robot -/

theorem SolvesArmIk.exec_inverse {b : Bullet R} {c : IkChain} {link : ℕ} {joints : List ℕ} {x : Vec 7}
    (h : SolvesArmIk b c link joints (pybulletPose x)) {q0 : List ℝ} (hq0 : q0.length = c.jointIndices.length) (w : World R) :
    ∃ qs w', (c.inverse b x (some q0)).exec w = (.ok qs, w') ∧ qs.length = joints.length ∧
      ∀ w' : World R, joints.map w'.q = qs → b.linkPose w' link = pybulletPose x := by
  have hg : (c.gotoJointState b q0 50 (1 / 1000)).exec w = (.ok (), c.gotoLoop b (1 / 1000) q0 50
      { w with motor := assignMotors c.jointIndices (q0.map .position) w.motor }) := by
    unfold IkChain.gotoJointState
    rw [Py.exec_bind, exec_setMotors, if_neg (by simp [hq0])]
    rfl
  obtain ⟨q, qs, h1, h2, h3, h4⟩ := h (c.gotoLoop b (1 / 1000) q0 50
      { w with motor := assignMotors c.jointIndices (q0.map .position) w.motor })
  refine ⟨qs, c.gotoLoop b (1 / 1000) q0 50
      { w with motor := assignMotors c.jointIndices (q0.map .position) w.motor }, ?_, h3, h4⟩
  unfold IkChain.inverse
  rw [Py.exec_bind, hg]
  simp only
  rw [Py.exec_bind, Py.exec_get]
  simp only
  rw [Py.exec_bind, Py.exec_lift, h1]
  simp only
  rw [Py.exec_lift, h2]

namespace RH5
variable (r : RH5) (b : Bullet R)

/-- Inverse kinematics of both arms is exact for two poses. -/
def Solves (x : Vec 14) : Prop :=
  SolvesArmIk b r.leftIk r.leftEe r.leftJoints (pybulletPose fun i => x (Fin.castAdd 7 i)) ∧
  SolvesArmIk b r.rightIk r.rightEe r.rightJoints (pybulletPose fun i => x (Fin.natAdd 7 i))

theorem exec_inverseKinematics (hll : r.leftIk.jointIndices.length = r.leftJoints.length)
    (hlr : r.rightIk.jointIndices.length = r.rightJoints.length) (x : Vec 14) (hx : r.Solves b x) (w : RH5World R) :
    ∃ q w', (r.inverseKinematics b x).exec w = (.ok q, w') ∧ w'.robot = w.robot ∧
      q.length = (r.leftJoints ++ r.rightJoints).length ∧
      ∀ w2 : World R, (r.leftJoints ++ r.rightJoints).map w2.q = q → r.poseOf b w2 = x := by
  obtain ⟨ql, wl, h1, h2, h3⟩ := SolvesArmIk.exec_inverse hx.1 (q0 := r.leftJoints.map w.robot.q) (by simp [hll]) w.left
  obtain ⟨qr, wr, h4, h5, h6⟩ := SolvesArmIk.exec_inverse hx.2 (q0 := r.rightJoints.map w.robot.q) (by simp [hlr]) w.right
  refine ⟨ql ++ qr, ⟨w.robot, wl, wr⟩, ?_, rfl, by simp [h2, h5], ?_⟩
  · unfold inverseKinematics
    rw [Py.exec_bind]
    simp only [onRobot, Py.exec_zoom, Py.exec_get]
    rw [Py.exec_bind]
    simp only [onLeft, Py.exec_zoom]
    rw [show leftPose x = fun i => x (Fin.castAdd 7 i) from rfl, h1]
    simp only
    rw [Py.exec_bind]
    simp only [Py.exec_zoom, Py.exec_get]
    rw [Py.exec_bind]
    simp only [onRight, Py.exec_zoom]
    rw [show rightPose x = fun i => x (Fin.natAdd 7 i) from rfl, h4]
    rfl
  · intro w2 hq
    rw [List.map_append] at hq
    obtain ⟨hq1, hq2⟩ := List.append_inj hq (by simp [h2])
    funext i
    refine Fin.addCases (m := 7) (n := 7) (fun i => ?_) (fun i => ?_) i
    · rw [poseOf, Fin.append_left, armPose, multiply_identity, h3 _ hq1, (C89_conversions _ identityPose).2.2.1]
    · rw [poseOf, Fin.append_right, armPose, multiply_identity, h6 _ hq2, (C89_conversions _ identityPose).2.2.1]

theorem move_ideal (hdt : r.dt ≠ 0) (hn : (r.leftJoints ++ r.rightJoints).Nodup)
    (hll : r.leftIk.jointIndices.length = r.leftJoints.length)
    (hlr : r.rightIk.jointIndices.length = r.rightJoints.length) (hf : FollowsVelocities b r.dt) (x : Vec 14)
    (hx : r.Solves b x) (w : RH5World R) :
    ∃ w', (r.move b x).exec w = (.ok (), w') ∧ r.poseOf b w'.robot = x := by
  obtain ⟨q, w1, h1, h2, hqlen, h3⟩ := r.exec_inverseKinematics b hll hlr x hx w
  have hlen : (List.zipWith (fun a c => (a - c) / r.dt) q
      ((r.leftJoints ++ r.rightJoints).map w1.robot.q)).length = (r.leftJoints ++ r.rightJoints).length := by
    rw [List.length_zipWith, List.length_map, hqlen, min_self]
  obtain ⟨w2, g1, g2, -, g3, -⟩ := (C90_rh5_joint_commands r hn _ false w1).2 hlen
  have hset : (r.setDesiredEeState b x false).exec w = (.ok (), w2) := by
    unfold setDesiredEeState
    rw [Py.exec_bind, h1]
    simp only [Bool.false_eq_true, if_false]
    rw [Py.exec_bind, (C90_rh5_joint_commands r hn [] false _).1]
    simp only
    rw [Py.exec_bind, Py.exec_lift, velocityCommand, if_neg (by rw [List.length_map, hqlen]; simp)]
    exact g1
  refine ⟨{ w2 with robot := b.stepSimulation w2.robot }, ?_, ?_⟩
  · unfold move
    rw [Py.exec_bind, hset]
    simp only [onRobot, Py.exec_zoom, exec_step, hf.1]
    rfl
  · apply h3
    apply List.ext_getElem
    · rw [List.length_map, hqlen]
    · intro k hk1 hk2
      rw [List.length_map] at hk1
      have := g2 k hk1
      simp only [Bool.false_eq_true, if_false, List.getElem_zipWith, List.getElem_map] at this
      rw [List.getElem_map]
      simp only
      rw [hf.2 _ _ _ this, g3]
      field_simp
      ring

theorem simLoop_ok (n : ℕ) (w : World R) : ∃ w', (simLoop b n).exec w = (.ok (), w') := by
  induction n generalizing w with
  | zero => exact ⟨w, rfl⟩
  | succ n ih =>
    rw [simLoop, Py.exec_bind, Py.exec_get]
    simp only
    split_ifs
    · exact ⟨w, rfl⟩
    · rw [Py.exec_bind, Py.exec_modify]
      exact ih _

theorem stop_ideal (hdt : r.dt ≠ 0) (hn : (r.leftJoints ++ r.rightJoints).Nodup)
    (hll : r.leftIk.jointIndices.length = r.leftJoints.length)
    (hlr : r.rightIk.jointIndices.length = r.rightJoints.length) (hf : FollowsVelocities b r.dt) (w : RH5World R)
    (hx : r.Solves b (r.poseOf b w.robot)) : ∃ w', (r.stop b).exec w = (.ok (), w') := by
  obtain ⟨q, w1, h1, h2, hqlen, h3⟩ := r.exec_inverseKinematics b hll hlr _ hx w
  obtain ⟨w2, g1, -⟩ := (C90_rh5_joint_commands r hn q true w1).2 hqlen
  obtain ⟨w3, g3⟩ := simLoop_ok b ⌊1 / r.dt⌋₊ w2.robot
  have hg : (r.gotoEeState b (r.poseOf b w.robot) 1).exec w = (.ok (), { w2 with robot := w3 }) := by
    unfold gotoEeState
    rw [Py.exec_bind, h1]
    simp only
    rw [Py.exec_bind, g1]
    simp only
    rw [Py.exec_bind, Py.exec_lift, nSteps, if_neg hdt]
    simp only [onRobot, Py.exec_zoom, g3]
  refine ⟨{ w2 with robot := b.stepSimulation w3 }, ?_⟩
  unfold stop
  rw [Py.exec_bind, exec_getEeState]
  simp only
  rw [Py.exec_bind, hg]
  simp only [onRobot, Py.exec_zoom, exec_step, hf.1]
  rfl

theorem loop_ideal (hdt : r.dt ≠ 0) (hn : (r.leftJoints ++ r.rightJoints).Nodup)
    (hll : r.leftIk.jointIndices.length = r.leftJoints.length)
    (hlr : r.rightIk.jointIndices.length = r.rightJoints.length) (hf : FollowsVelocities b r.dt)
    {steppable : Steppable S 14 12} (hs : ∀ p v s, ∃ x s', (steppable p v).exec s = (.ok x, s') ∧ r.Solves b x.1)
    (cl : Bool) (n : ℕ) (p : Vec 14) (v : Vec 12) (w : RH5World R) (s : S) (hw : r.Solves b (r.poseOf b w.robot)) :
    ∃ rows w' s', (r.loop b steppable cl n p v).exec (w, s) = (.ok rows, (w', s')) ∧ (∀ x ∈ rows, x.2 = x.1.1) ∧
      r.Solves b (r.poseOf b w'.robot) := by
  induction n generalizing p v w s with
  | zero => exact ⟨[], w, s, rfl, by simp, hw⟩
  | succ n ih =>
    obtain ⟨x, s1, h1, h2⟩ := hs (if cl then r.poseOf b w.robot else p) v s
    obtain ⟨w1, h3, h4⟩ := r.move_ideal b hdt hn hll hlr hf x.1 h2 w
    obtain ⟨rows, w2, s2, h5, h6, h7⟩ := ih x.1 x.2 w1 s1 (by rw [h4]; exact h2)
    refine ⟨(x, r.poseOf b w1.robot) :: rows, w2, s2, ?_, ?_, h7⟩
    · rw [loop, Py.exec_bind, exec_iteration, h1]
      simp only
      rw [h3]
      simp only
      rw [Py.exec_bind, h5]
      rfl
    · intro y hy
      rcases List.mem_cons.mp hy with rfl | hy
      · exact h4
      · exact h6 y hy

end RH5

/-- **C90.** The same for `RH5Simulation`, if inverse kinematics of both arms is exact for the measured poses at the beginning and
for the poses that `step` returns: every row of measured poses after the first one is equal to the desired poses. -/
theorem C90_rh5_ideal_tracking (r : RH5) (b : Bullet R) (hdt : r.dt ≠ 0) (hn : (r.leftJoints ++ r.rightJoints).Nodup)
    (hll : r.leftIk.jointIndices.length = r.leftJoints.length)
    (hlr : r.rightIk.jointIndices.length = r.rightJoints.length) (hf : FollowsVelocities b r.dt)
    (w : RH5World R)
    (h0 : SolvesArmIk b r.leftIk r.leftEe r.leftJoints (pybulletPose fun i => r.poseOf b w.robot (Fin.castAdd 7 i)) ∧
      SolvesArmIk b r.rightIk r.rightEe r.rightJoints (pybulletPose fun i => r.poseOf b w.robot (Fin.natAdd 7 i)))
    (steppable : Steppable S 14 12)
    (hs : ∀ p v s, ∃ x s', (steppable p v).exec s = (.ok x, s') ∧
      SolvesArmIk b r.leftIk r.leftEe r.leftJoints (pybulletPose fun i => x.1 (Fin.castAdd 7 i)) ∧
      SolvesArmIk b r.rightIk r.rightEe r.rightJoints (pybulletPose fun i => x.1 (Fin.natAdd 7 i)))
    (lastP : Vec 14) (lastV : Vec 12) (T : ℝ) (closedLoop : Bool) (s : S) :
    ∃ log st, (r.stepThrough b steppable lastP lastV T closedLoop).exec (w, s) = (.ok log, st) ∧
      log.positions.tail = log.desiredPositions.tail := by
  obtain ⟨rows, w1, s1, h1, h2, h3⟩ :=
    r.loop_ideal b hdt hn hll hlr hf hs closedLoop ⌊T / r.dt⌋₊ lastP lastV w s h0
  obtain ⟨w2, h4⟩ := r.stop_ideal b hdt hn hll hlr hf w1 h3
  refine ⟨⟨lastP :: rows.map (·.1.1), r.poseOf b w.robot :: rows.map (·.2), lastV :: rows.map (·.1.2),
    0 :: rows.map (·.1.2)⟩, (w2, s1), ?_, ?_⟩
  · simp only [RH5.stepThrough]
    rw [Py.exec_bind, onSim, Py.exec_zoom, RH5.exec_getEeState]
    simp only
    rw [Py.exec_bind, Py.exec_lift, nSteps, if_neg hdt]
    simp only
    rw [Py.exec_bind, h1]
    simp only
    rw [Py.exec_bind, onSim, Py.exec_zoom, h4]
    rfl
  · simp only [List.tail_cons]
    exact List.map_congr_left h2

/-! ### A robot that meets the hypotheses -/

/-- Two gantries: end effector `l` has the coordinates `3 l`, `3 l + 1` and `3 l + 2`. -/
noncomputable def gantries (dt : ℝ) : Bullet Unit :=
  { gantry dt with
    linkPose := fun w l => ⟨![w.q (3 * l), w.q (3 * l + 1), w.q (3 * l + 2)], ![0, 0, 0, 1]⟩
    inverseKinematics := fun _ _ p => .ok [p.pos 0, p.pos 1, p.pos 2] }

/-- Two gantries. -/
noncomputable def gantriesRobot (dt : ℝ) : RH5 :=
  ⟨dt, [0, 1, 2], [3, 4, 5], 0, 1, ⟨[0, 1, 2], 0, [0, 1, 2]⟩, ⟨[0, 1, 2], 0, [0, 1, 2]⟩⟩

/-- An object that stays where it is. -/
def stay : Steppable Unit 14 12 := fun p v => pure (![p 0, p 1, p 2, 1, 0, 0, 0, p 7, p 8, p 9, 1, 0, 0, 0], v)

theorem gantries_solve (dt : ℝ) (l : ℕ) (x : Vec 7) (h : x 3 = 1) (h4 : x 4 = 0) (h5 : x 5 = 0) (h6 : x 6 = 0) :
    SolvesArmIk (gantries dt) ⟨[0, 1, 2], 0, [0, 1, 2]⟩ l [3 * l, 3 * l + 1, 3 * l + 2] (pybulletPose x) := by
  intro w
  refine ⟨[x 0, x 1, x 2], [x 0, x 1, x 2], rfl, rfl, rfl, ?_⟩
  intro w' hw
  simp only [List.map_cons, List.map_nil, List.cons.injEq] at hw
  obtain ⟨h0, h1, h2, -⟩ := hw
  simp only [gantries, h0, h1, h2, pybulletPose, h, h4, h5, h6]

example (dt : ℝ) (hdt : 0 < dt) : ∃ log st, ((gantriesRobot dt).stepThrough (gantries dt) stay 0 0 (3 * dt) false).exec
    (⟨⟨0, 0, fun _ => none, ()⟩, ⟨0, 0, fun _ => none, ()⟩, ⟨0, 0, fun _ => none, ()⟩⟩, ()) = (.ok log, st) ∧
      log.positions.tail = log.desiredPositions.tail := by
  have hf : FollowsVelocities (gantries dt) dt := gantry_follows dt
  refine C90_rh5_ideal_tracking (gantriesRobot dt) (gantries dt) hdt.ne' (by simp [gantriesRobot]) rfl rfl hf _ ?_ stay ?_
    0 0 _ _ _
  · refine ⟨gantries_solve dt 0 _ ?_ ?_ ?_ ?_, gantries_solve dt 1 _ ?_ ?_ ?_ ?_⟩
    all_goals
      simp only [RH5.poseOf, Fin.append_left, Fin.append_right, RH5.armPose, multiply_identity]
      simp [gantries, pytransformPose]
  · intro p v s
    refine ⟨_, _, rfl, gantries_solve dt 0 _ ?_ ?_ ?_ ?_, gantries_solve dt 1 _ ?_ ?_ ?_ ?_⟩ <;> rfl

end Verif.Sim
