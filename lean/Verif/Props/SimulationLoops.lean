import Verif.Props.SimulationSteps
import Mathlib.Algebra.Order.Floor.Ring

/-! # C93: simulation loops and drawings -/

namespace Verif.Sim
open Spec

variable {R : Type}

/-- **C93.** `sim_loop(n_steps)` makes `n_steps` steps of the simulation, or fewer if the connection is closed: then it stops at
once, without an error. -/
theorem C93_sim_loop (b : Bullet R) (n : ℕ) (w : World R) :
    ∃ k ≤ n, (simLoop b n).exec w = (.ok (), b.stepSimulation^[k] w) ∧
      (∀ i < k, b.isConnected (b.stepSimulation^[i] w) = true) ∧
      (k < n → b.isConnected (b.stepSimulation^[k] w) = false) := by
  induction n generalizing w with
  | zero => exact ⟨0, le_refl _, rfl, by simp, by simp⟩
  | succ n ih =>
    cases hc : b.isConnected w with
    | false =>
      refine ⟨0, Nat.zero_le _, ?_, by simp, fun _ => hc⟩
      rw [simLoop, Py.exec_bind, Py.exec_get]
      simp only [hc, if_true]
      rfl
    | true =>
      obtain ⟨k, hk, h1, h2, h3⟩ := ih (b.stepSimulation w)
      refine ⟨k + 1, by omega, ?_, ?_, ?_⟩
      · rw [simLoop, Py.exec_bind, Py.exec_get]
        simp only [hc, Bool.true_eq_false, if_false]
        rw [Py.exec_bind, Py.exec_modify]
        exact h1
      · intro i hi
        cases i with
        | zero => exact hc
        | succ i => exact h2 i (by omega)
      · intro h
        exact h3 (by omega)

/-- **C93.** `sim_loop()` runs until the connection is closed, and forever if it is never closed. -/
theorem C93_sim_loop_forever (b : Bullet R) (w : World R) :
    (∀ k, (∀ i < k, b.isConnected (b.stepSimulation^[i] w) = true) → b.isConnected (b.stepSimulation^[k] w) = false →
      (simLoopForever b).exec w = (.ok (), b.stepSimulation^[k] w)) ∧
    ((∀ k, b.isConnected (b.stepSimulation^[k] w) = true) → (simLoopForever b).exec w = (.error .nonterminating, w)) := by
  constructor
  · intro k h1 h2
    have hw : whileLoop (fun w => b.isConnected w = true) b.stepSimulation w = .ok (b.stepSimulation^[k] w) := by
      induction k generalizing w with
      | zero => exact whileLoop_done _ _ (by simpa using h2)
      | succ k ih =>
        have h0 : b.isConnected w = true := h1 0 (Nat.succ_pos k)
        rw [whileLoop_step (fun w => b.isConnected w = true) b.stepSimulation (s := w) h0]
        exact ih (b.stepSimulation w) (fun i hi => h1 (i + 1) (by omega)) h2
    unfold simLoopForever
    rw [Py.exec_bind, Py.exec_get]
    simp only
    rw [Py.exec_bind, Py.exec_lift, hw]
    rfl
  · intro h
    have hw : whileLoop (fun w => b.isConnected w = true) b.stepSimulation w = .error .nonterminating := by
      unfold whileLoop
      rw [dif_neg]
      push Not
      exact h
    unfold simLoopForever
    rw [Py.exec_bind, Py.exec_get]
    simp only
    rw [Py.exec_bind, Py.exec_lift, hw]

/-- A simulation that the user closes after three steps. -/
example : (simLoopForever (⟨fun w => decide (w.rest < 3), fun w => { w with rest := w.rest + 1 }, fun _ _ => identityPose,
      fun _ _ => 0, fun _ _ _ => .ok []⟩ : Bullet ℕ)).exec ⟨0, 0, fun _ => none, 0⟩ =
    (.ok (), ⟨0, 0, fun _ => none, 3⟩) :=
  (C93_sim_loop_forever _ _).1 3 (by
    intro i hi
    have : i = 0 ∨ i = 1 ∨ i = 2 := by omega
    rcases this with rfl | rfl | rfl <;> rfl) rfl

/-- **C93.** `UR5Simulation.goto_ee_state(pose, wait_time)` commands the solution of inverse kinematics as joint positions and then
simulates `int(wait_time / dt)` steps (first simulation of the process, connection not closed). -/
theorem C93_goto_ee_state (u : UR5) (b : Bullet R) (hc : u.clientId = 0) (hdt : u.dt ≠ 0) (hn : u.joints.Nodup)
    (hl : u.joints.length = 6) (hconn : ∀ w, b.isConnected w = true) (x : Vec 7) (waitTime : ℝ) (cs : Clients R)
    {q : List ℝ} (hq : b.inverseKinematics (cs 0) u.eeLink (u.ikTarget x) = .ok q) (hq6 : 6 ≤ q.length) :
    ∃ w cs', (u.gotoEeState b x waitTime).exec cs = (.ok (), cs') ∧ cs' 0 = b.stepSimulation^[⌊waitTime / u.dt⌋₊] w ∧
      (∀ k (hk : k < u.joints.length), w.motor u.joints[k] = some (.position (q[k]'(by omega)))) ∧
      w.q = (cs 0).q ∧ w.qd = (cs 0).qd ∧ w.rest = (cs 0).rest := by
  have hlen : (q.take 6).length = u.joints.length := by rw [List.length_take, hl]; omega
  obtain ⟨cs1, h1, h2, -, h3, h4, h5, -⟩ := (C90_ur5_joint_commands u hn (q.take 6) true cs).2.2 hlen
  obtain ⟨k, hk, g1, g2, g3⟩ := C93_sim_loop b ⌊waitTime / u.dt⌋₊ (cs1 0)
  have hk' : k = ⌊waitTime / u.dt⌋₊ := by
    by_contra hne
    have := g3 (by omega)
    rw [hconn] at this
    cases this
  subst hk'
  refine ⟨cs1 0, Function.update cs1 0 (b.stepSimulation^[⌊waitTime / u.dt⌋₊] (cs1 0)), ?_, by rw [Function.update_self], ?_, h3,
    h4, h5⟩
  · unfold UR5.gotoEeState
    rw [Py.exec_bind, UR5.exec_inverseKinematics, hq]
    simp only [Except.map]
    rw [Py.exec_bind, h1]
    simp only
    rw [Py.exec_bind, Py.exec_lift, nSteps, if_neg hdt]
    simp only
    rw [exec_onClient, hc, g1]
  · intro k hk
    rw [h2 k hk]
    simp only [if_true, List.getElem_take]

example (dt : ℝ) (hdt : 0 < dt) (w0 : World Unit) : ∃ w cs', ((gantryRobot dt).gotoEeState (gantry dt) ![1, 2, 3, 1, 0, 0, 0]
    (5 * dt)).exec (fun _ => w0) = (.ok (), cs') ∧ cs' 0 = (gantry dt).stepSimulation^[⌊5 * dt / dt⌋₊] w :=
  let ⟨w, cs', h1, h2, _⟩ := C93_goto_ee_state (gantryRobot dt) (gantry dt) rfl hdt.ne' (by simp [gantryRobot]) rfl
    (fun _ => rfl) ![1, 2, 3, 1, 0, 0, 0] (5 * dt) (fun _ => w0) rfl (le_refl _)
  ⟨w, cs', h1, h2⟩

/-- **C93.** `KinematicsChain.goto_joint_state(q)` commands the positions `q` and simulates until the joints are closer to `q` than
`joint_state_eps`, but at least one step and at most `max_steps_to_joint_state` steps. -/
theorem C93_goto_joint_state (c : IkChain) (b : Bullet R) (hn : c.jointIndices.Nodup) (q : List ℝ)
    (hq : q.length = c.jointIndices.length) (m : ℕ) (eps : ℝ) (w : World R) :
    ∃ w1 k, (c.gotoJointState b q (m + 1) eps).exec w = (.ok (), b.stepSimulation^[k] w1) ∧
      (∀ i (hi : i < c.jointIndices.length), w1.motor c.jointIndices[i] = some (.position (q[i]'(hq ▸ hi)))) ∧
      w1.q = w.q ∧ 1 ≤ k ∧ k ≤ m + 1 ∧
      (k < m + 1 → √((List.zipWith (fun a x => (a - x) ^ 2) q (c.jointIndices.map (b.stepSimulation^[k] w1).q)).sum) < eps) ∧
      ∀ i, 1 ≤ i → i < k →
        eps ≤ √((List.zipWith (fun a x => (a - x) ^ 2) q (c.jointIndices.map (b.stepSimulation^[i] w1).q)).sum) := by
  have key : ∀ (m : ℕ) (w1 : World R), ∃ k, c.gotoLoop b eps q (m + 1) w1 = b.stepSimulation^[k] w1 ∧ 1 ≤ k ∧ k ≤ m + 1 ∧
      (k < m + 1 → c.reached eps q (b.stepSimulation^[k] w1)) ∧
      ∀ i, 1 ≤ i → i < k → ¬ c.reached eps q (b.stepSimulation^[i] w1) := by
    intro m
    induction m with
    | zero =>
      intro w1
      refine ⟨1, ?_, le_refl _, le_refl _, by simp, by intro i h1 h2; omega⟩
      simp only [IkChain.gotoLoop, ite_self]
      rfl
    | succ m ih =>
      intro w1
      by_cases hr : c.reached eps q (b.stepSimulation w1)
      · refine ⟨1, ?_, le_refl _, by omega, fun _ => hr, by intro i h1 h2; omega⟩
        rw [IkChain.gotoLoop]
        simp only [hr, if_true]
        rfl
      · obtain ⟨k, h1, h2, h3, h4, h5⟩ := ih (b.stepSimulation w1)
        refine ⟨k + 1, ?_, by omega, by omega, ?_, ?_⟩
        · rw [IkChain.gotoLoop]
          simp only [hr, if_false]
          exact h1
        · intro h
          exact h4 (by omega)
        · intro i hi1 hi2
          cases i with
          | zero => omega
          | succ i =>
            cases i with
            | zero => exact hr
            | succ i => exact h5 (i + 1) (by omega) (by omega)
  obtain ⟨k, h1, h2, h3, h4, h5⟩ := key m { w with motor := assignMotors c.jointIndices (q.map .position) w.motor }
  refine ⟨{ w with motor := assignMotors c.jointIndices (q.map .position) w.motor }, k, ?_, ?_, rfl, h2, h3, h4, ?_⟩
  · unfold IkChain.gotoJointState
    rw [Py.exec_bind, exec_setMotors, if_neg (by simp [hq])]
    simp only
    rw [Py.exec_modify, h1]
  · intro i hi
    simp only
    rw [assignMotors_mem _ _ _ hn (by simp [hq]) i hi, List.getElem_map]
  · intro i hi1 hi2
    exact not_lt.mp (h5 i hi1 hi2)

/-- **C93.** `draw_trajectory` draws coordinate frames at valid indices: `n_key_frames` indices in ascending order from 0 up to the last
pose, and it connects all consecutive poses. -/
theorem C93_key_frames (n m : ℕ) (hn : 1 ≤ n) :
    (keyFrames n m).length = m ∧ (∀ k ∈ keyFrames n m, 0 ≤ k ∧ k < n) ∧ (keyFrames n m).Pairwise (· ≤ ·) ∧
    (1 ≤ m → (keyFrames n m).head? = some 0) ∧ (2 ≤ m → (keyFrames n m).getLast? = some ((n : ℤ) - 1)) ∧
    ∀ i j : ℕ, (i, j) ∈ segments n ↔ j = i + 1 ∧ j < n := by
  have hn' : (0 : ℝ) ≤ (n : ℝ) - 1 := by
    have : (1 : ℝ) ≤ n := by exact_mod_cast hn
    linarith
  have hq : 2 ≤ m → 0 ≤ ((n : ℝ) - 1) / ((m : ℝ) - 1) := by
    intro hm
    have : (2 : ℝ) ≤ m := by exact_mod_cast hm
    apply div_nonneg hn'
    linarith
  refine ⟨by simp [keyFrames], ?_, ?_, ?_, ?_, ?_⟩
  · intro k hk
    unfold keyFrames at hk
    obtain ⟨i, hi, rfl⟩ := List.mem_map.mp hk
    rw [List.mem_range] at hi
    split_ifs with hm
    · omega
    · have h2 := hq (by omega)
      constructor
      · exact Int.floor_nonneg.mpr (mul_nonneg (Nat.cast_nonneg _) h2)
      · rw [Int.floor_lt]
        have hm' : (0 : ℝ) < (m : ℝ) - 1 := by
          have : (2 : ℝ) ≤ m := by exact_mod_cast (by omega : 2 ≤ m)
          linarith
        have hi' : (i : ℝ) ≤ (m : ℝ) - 1 := by
          have : ((i + 1 : ℕ) : ℝ) ≤ m := by exact_mod_cast hi
          push_cast at this
          linarith
        have : (i : ℝ) * (((n : ℝ) - 1) / ((m : ℝ) - 1)) ≤ (n : ℝ) - 1 := by
          rw [mul_div_assoc', div_le_iff₀ hm', mul_comm]
          exact mul_le_mul_of_nonneg_left hi' hn'
        push_cast
        linarith
  · unfold keyFrames
    rw [List.pairwise_map]
    refine List.pairwise_lt_range.imp ?_
    intro a c hac
    split_ifs with hm
    · exact le_refl _
    · apply Int.floor_le_floor
      apply mul_le_mul_of_nonneg_right _ (hq (by omega))
      exact_mod_cast hac.le
  · intro hm
    obtain ⟨m, rfl⟩ := Nat.exists_eq_add_of_le' hm
    unfold keyFrames
    rw [List.range_succ_eq_map]
    simp
  · intro hm
    obtain ⟨m, rfl⟩ := Nat.exists_eq_add_of_le' hm
    unfold keyFrames
    rw [show m + 2 = (m + 1) + 1 from rfl, List.range_succ, List.map_append, List.map_singleton, List.getLast?_concat,
      if_neg (by omega)]
    congr 1
    rw [show (((m + 1 : ℕ) : ℝ)) * (((n : ℝ) - 1) / (((m + 1 + 1 : ℕ) : ℝ) - 1)) = ((n : ℤ) - 1 : ℤ) by
      push_cast
      have : (m : ℝ) + 1 ≠ 0 := by positivity
      rw [show (m : ℝ) + 1 + 1 - 1 = m + 1 by ring]
      field_simp]
    exact Int.floor_intCast _
  · intro i j
    unfold segments
    simp only [List.mem_map, List.mem_range, Prod.mk.injEq]
    constructor
    · rintro ⟨a, h1, rfl, rfl⟩
      omega
    · rintro ⟨rfl, h⟩
      exact ⟨i, by omega, rfl, rfl⟩

end Verif.Sim
