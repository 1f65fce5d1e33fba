import Verif.Props.SimulationPoses

/-! # C90: joint commands of simulated robots, and tracking by an ideal robot -/

namespace Verif.Sim
open Spec

variable {R : Type}

theorem exec_setMotors (idx : List ℕ) (cs : List Motor) (w : World R) :
    (setMotors idx cs).exec w = if idx.length ≠ cs.length then (.error .valueError, w) else
      (.ok (), { w with motor := assignMotors idx cs w.motor }) := by
  unfold setMotors
  split_ifs <;> rfl

theorem assignMotors_not_mem (idx : List ℕ) (cs : List Motor) (m : ℕ → Option Motor) {j : ℕ} (hj : j ∉ idx) :
    assignMotors idx cs m j = m j := by
  induction idx generalizing cs m with
  | nil => rfl
  | cons i idx ih =>
    cases cs with
    | nil => rfl
    | cons c cs =>
      rw [List.mem_cons, not_or] at hj
      rw [assignMotors, ih cs _ hj.2, Function.update_of_ne hj.1]

theorem assignMotors_mem (idx : List ℕ) (cs : List Motor) (m : ℕ → Option Motor) (hn : idx.Nodup)
    (hl : idx.length = cs.length) (k : ℕ) (hk : k < idx.length) :
    assignMotors idx cs m idx[k] = some (cs[k]'(hl ▸ hk)) := by
  induction idx generalizing cs m k with
  | nil => simp at hk
  | cons i idx ih =>
    cases cs with
    | nil => simp at hl
    | cons c cs =>
      rw [List.nodup_cons] at hn
      rw [assignMotors]
      cases k with
      | zero =>
        simp only [List.getElem_cons_zero]
        rw [assignMotors_not_mem _ _ _ hn.1, Function.update_self]
      | succ k =>
        simp only [List.getElem_cons_succ]
        exact ih cs _ hn.2 (by simpa using hl) k (by simpa using hk)

/-- The command of a controller. -/
def command (positionControl : Bool) (x : ℝ) : Motor := if positionControl then .position x else .velocity x

theorem command_eq (positionControl : Bool) : (if positionControl then Motor.position else Motor.velocity) =
    command positionControl := by
  funext x; cases positionControl <;> rfl

/-- **C90.** `UR5Simulation.set_desired_joint_state(x)` sends command `k` to joint `k`, with the numbering of joints of
`get_joint_state`; nothing else changes. For arrays of the wrong length it raises and sends nothing. -/
theorem C90_ur5_joint_commands (u : UR5) (hn : u.joints.Nodup) (x : List ℝ) (positionControl : Bool) (cs : Clients R) :
    (u.getJointState.exec cs = (.ok (u.joints.map (cs 0).q, u.joints.map (cs 0).qd), cs)) ∧
    (x.length ≠ u.joints.length → (u.setDesiredJointState x positionControl).exec cs = (.error .valueError, cs)) ∧
    (∀ h : x.length = u.joints.length, ∃ cs', (u.setDesiredJointState x positionControl).exec cs = (.ok (), cs') ∧
      (∀ k (hk : k < u.joints.length), (cs' 0).motor u.joints[k] =
        some (if positionControl then .position (x[k]'(h ▸ hk)) else .velocity (x[k]'(h ▸ hk)))) ∧
      (∀ j ∉ u.joints, (cs' 0).motor j = (cs 0).motor j) ∧
      (cs' 0).q = (cs 0).q ∧ (cs' 0).qd = (cs 0).qd ∧ (cs' 0).rest = (cs 0).rest ∧ ∀ c ≠ 0, cs' c = cs c) := by
  refine ⟨?_, fun h => ?_, fun h => ?_⟩
  · simp only [UR5.getJointState, onClient, Py.exec_zoom, Py.exec_bind, Py.exec_get, Py.exec_pure, Function.update_eq_self]
  · simp only [UR5.setDesiredJointState, onClient, Py.exec_zoom, exec_setMotors]
    rw [if_pos (by simpa using Ne.symm h)]
    simp
  · refine ⟨Function.update cs 0
      { (cs 0) with motor := assignMotors u.joints (x.map (command positionControl)) (cs 0).motor }, ?_, ?_, ?_, ?_, ?_, ?_, ?_⟩
    · simp only [UR5.setDesiredJointState, onClient, Py.exec_zoom, exec_setMotors, command_eq]
      rw [if_neg (by simp [h])]
    · intro k hk
      rw [Function.update_self]
      simp only
      rw [assignMotors_mem _ _ _ hn (by simp [h]) k hk, List.getElem_map, command]
    · intro j hj
      rw [Function.update_self]
      exact assignMotors_not_mem _ _ _ hj
    · rw [Function.update_self]
    · rw [Function.update_self]
    · rw [Function.update_self]
    · intro c hc
      exact Function.update_of_ne hc _ _

/-- **C90.** The same for `RH5Simulation`, where the joints are those of the left arm and then those of the right arm. -/
theorem C90_rh5_joint_commands (r : RH5) (hn : (r.leftJoints ++ r.rightJoints).Nodup) (x : List ℝ) (positionControl : Bool)
    (w : RH5World R) :
    (r.getJointState.exec w =
      (.ok ((r.leftJoints ++ r.rightJoints).map w.robot.q, (r.leftJoints ++ r.rightJoints).map w.robot.qd), w)) ∧
    (∀ h : x.length = (r.leftJoints ++ r.rightJoints).length,
      ∃ w', (r.setDesiredJointState x positionControl).exec w = (.ok (), w') ∧
      (∀ k (hk : k < (r.leftJoints ++ r.rightJoints).length), w'.robot.motor (r.leftJoints ++ r.rightJoints)[k] =
        some (if positionControl then .position (x[k]'(h ▸ hk)) else .velocity (x[k]'(h ▸ hk)))) ∧
      (∀ j ∉ r.leftJoints ++ r.rightJoints, w'.robot.motor j = w.robot.motor j) ∧
      w'.robot.q = w.robot.q ∧ w'.robot.qd = w.robot.qd ∧ w'.robot.rest = w.robot.rest ∧
      w'.left = w.left ∧ w'.right = w.right) := by
  refine ⟨rfl, fun h => ?_⟩
  rw [List.length_append] at h
  have hl : r.leftJoints.length = ((x.take r.leftJoints.length).map (command positionControl)).length := by
    rw [List.length_map, List.length_take]; omega
  have hr : r.rightJoints.length = ((x.drop r.leftJoints.length).map (command positionControl)).length := by
    rw [List.length_map, List.length_drop]; omega
  rw [List.nodup_append] at hn
  refine ⟨⟨⟨w.robot.q, w.robot.qd,
    assignMotors r.rightJoints ((x.drop r.leftJoints.length).map (command positionControl))
      (assignMotors r.leftJoints ((x.take r.leftJoints.length).map (command positionControl)) w.robot.motor),
    w.robot.rest⟩, w.left, w.right⟩, ?_, ?_, ?_, rfl, rfl, rfl, rfl, rfl⟩
  · simp only [RH5.setDesiredJointState, RH5.onRobot, Py.exec_bind, Py.exec_zoom, exec_setMotors, command_eq]
    rw [if_neg (by simpa using hl)]
    simp only
    rw [if_neg (by simpa using hr)]
  · intro k hk
    simp only
    by_cases hk' : k < r.leftJoints.length
    · rw [List.getElem_append_left hk', assignMotors_not_mem _ _ _
        (fun hm => hn.2.2 _ (List.getElem_mem hk') _ hm rfl), assignMotors_mem _ _ _ hn.1 hl k hk', List.getElem_map,
        List.getElem_take, command]
    · rw [List.getElem_append_right (by omega), assignMotors_mem _ _ _ hn.2.1 hr (k - r.leftJoints.length)
        (by rw [List.length_append] at hk; omega), List.getElem_map, List.getElem_drop, command]
      simp only [show r.leftJoints.length + (k - r.leftJoints.length) = k by omega]
  · intro j hj
    rw [List.mem_append, not_or] at hj
    simp only
    rw [assignMotors_not_mem _ _ _ hj.2, assignMotors_not_mem _ _ _ hj.1]

/-- Two arms with two joints each. -/
example : ([3, 4] ++ [7, 9] : List ℕ).Nodup ∧ ([1, 2, 3, 4] : List ℝ).length = ([3, 4] ++ [7, 9] : List ℕ).length := by
  constructor
  · decide
  · rfl

end Verif.Sim
