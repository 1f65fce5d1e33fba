import Verif.Model.KinematicsState
import Verif.Props.IKTrajectory

/-!
# C95: forward and inverse kinematics of trajectories and of several chains
-/

namespace Verif
open Matrix

variable {n : ℕ}

/-- The transform manager `tm'` results from `tm` by moving joints of the chain, any number of times. -/
def Moved (c : Chain n) (tm tm' : TransformManager) : Prop :=
  ∃ moves : List (String × ℝ), (∀ x ∈ moves, ∃ i, c.jointNames i = x.1) ∧ (setJoints moves).exec tm = (.ok (), tm')

theorem Moved.refl (c : Chain n) (tm : TransformManager) : Moved c tm tm := ⟨[], by simp, rfl⟩

theorem Moved.forward {tm : TransformManager} {names : Fin n → String} {base ee : String} {c : Chain n}
    (hc : Chain.create tm names base ee = .ok c) {tm' : TransformManager} (h : Moved c tm tm') (q : Vec n) :
    (c.forward q).exec tm' = (c.forward q).exec tm ∧ Moved c tm ((c.forward q).exec tm).2 := by
  obtain ⟨hn, hk⟩ := create_known hc
  obtain ⟨moves, hm, he⟩ := h
  obtain ⟨tm'', h1, h2⟩ := C48_forward_memoryless hc q moves (by rw [← hn]; exact hm)
  rw [he] at h1
  cases h1
  refine ⟨h2, List.ofFn fun i => (c.jointNames i, q i), ?_, ?_⟩
  · intro x hx
    obtain ⟨i, rfl⟩ := (List.mem_ofFn' _ _).1 hx
    exact ⟨i, rfl⟩
  · have hkn : Known tm.joints (List.ofFn fun i => (c.jointNames i, q i)) := by rw [hn]; exact known_ofFn hk q
    rw [exec_setJoints _ _ hkn, exec_forward c q tm hkn]

theorem Moved.eePoseError {tm : TransformManager} {names : Fin n → String} {base ee : String} {c : Chain n}
    (hc : Chain.create tm names base ee = .ok c) {tm' : TransformManager} (h : Moved c tm tm') (q : Vec n) (H : Mat4)
    (wo wp : ℝ) : (c.eePoseError q H wo wp).exec tm' = (c.eePoseError q H wo wp).exec tm ∧
      Moved c tm ((c.eePoseError q H wo wp).exec tm).2 := by
  obtain ⟨h1, h2⟩ := h.forward hc q
  have e : ((c.eePoseError q H wo wp).exec tm).2 = ((c.forward q).exec tm).2 := by
    unfold Chain.eePoseError
    rw [Py.exec_bind]
    rcases (c.forward q).exec tm with ⟨r | r, s⟩ <;> rfl
  rw [e]
  refine ⟨?_, h2⟩
  unfold Chain.eePoseError
  rw [Py.exec_bind, Py.exec_bind, h1]

/-- C95: `forward_trajectory` returns for every row of joint angles the pose that `forward` returns for it, in the same
order, whatever has been computed with the chain before. -/
theorem C95_forward_trajectory {tm : TransformManager} {names : Fin n → String} {base ee : String} {c : Chain n}
    (hc : Chain.create tm names base ee = .ok c) {tm' : TransformManager} (hm : Moved c tm tm') (Q : List (Vec n))
    (Hs : List Mat4) :
    ((c.forwardTrajectory Q).exec tm').1 = .ok Hs ↔ List.Forall₂ (fun q H => ((c.forward q).exec tm).1 = .ok H) Q Hs := by
  induction Q generalizing tm' Hs with
  | nil =>
    unfold Chain.forwardTrajectory
    rw [Py.exec_pure]
    constructor
    · intro h; cases h; exact .nil
    · intro h; cases h; rfl
  | cons q Q ih =>
    obtain ⟨h1, h2⟩ := hm.forward hc q
    unfold Chain.forwardTrajectory
    rw [Py.exec_bind, h1]
    rcases hq : (c.forward q).exec tm with ⟨e | H, tm1⟩
    · constructor
      · intro h; cases h
      · intro h
        cases h with
        | cons h _ => rw [hq] at h; cases h
    · rw [hq] at h2
      simp only
      rw [Py.exec_bind]
      rcases hr : (c.forwardTrajectory Q).exec tm1 with ⟨e | Hs', tm2⟩
      · constructor
        · intro h; cases h
        · intro h
          cases h with
          | cons _ h =>
            have := (ih h2 _).2 h
            rw [hr] at this; cases this
      · simp only [Py.exec_pure]
        constructor
        · intro h
          cases h
          exact .cons (by rw [hq]) ((ih h2 _).1 (by rw [hr]))
        · intro h
          cases h with
          | cons h h' =>
            rw [hq] at h
            cases h
            have := (ih h2 _).2 h'
            rw [hr] at this
            cases this
            rfl

/-- C95: `inverse`, whose optimiser calls `ee_pose_error` and in this way moves the joints of the chain again and again,
computes what the optimiser would compute for the pose error as a mathematical function of the joint angles, whatever
has been computed with the chain before; and afterwards only joints of the chain have been moved. -/
theorem C95_inverse_evaluating {tm : TransformManager} {names : Fin n → String} {base ee : String} {c : Chain n}
    (hc : Chain.create tm names base ee = .ok c) {tm' : TransformManager} (hm : Moved c tm tm') (s : Strategy n) (k : ℕ)
    (desired : Mat4) (initial : Vec n) (bounds : Option (Fin n → ℝ × ℝ)) (args : IKArgs) (w : IKWorld n) :
    ((c.inverseEvaluating s k desired initial bounds args).exec tm').1 =
      ((c.inverse tm (s.minimizer k) desired initial bounds args).exec w).1 ∧
    Moved c tm ((c.inverseEvaluating s k desired initial bounds args).exec tm').2 := by
  rw [exec_inverse]
  unfold Strategy.minimizer Chain.inverseEvaluating
  simp only
  generalize s args.solver initial (bounds.getD c.jointLimits) = next
  generalize ([] : List (Vec n × ℝ)) = evs
  induction k generalizing tm' evs with
  | zero => exact ⟨rfl, hm⟩
  | succ k ih =>
    unfold runStrategy
    cases next evs with
    | inr r => exact ⟨rfl, hm⟩
    | inl q =>
      obtain ⟨h1, h2⟩ := hm.eePoseError hc q desired args.orientationWeight args.positionWeight
      simp only
      rw [Py.exec_bind, Py.exec_bind, h1]
      simp only [Py.exec_lift, Chain.objective]
      rcases he : (c.eePoseError q desired args.orientationWeight args.positionWeight).exec tm with ⟨e | e, tm1⟩
      · rw [he] at h2; exact ⟨rfl, h2⟩
      · rw [he] at h2; exact ih h2 _

/-! ## Calls of the optimiser and accuracy of `inverse_trajectory` -/

section Trajectory
variable (c : Chain n) (tm : TransformManager) (minimize : Minimizer n) (interval : ℝ) (args : IKArgs)

/-- The search interval around joint angles. -/
def intervalAround (interval : ℝ) (q : Vec n) : Fin n → ℝ × ℝ := fun i => (q i - interval, q i + interval)

theorem inverseTrajectoryLoop_calls (H : List Mat4) :
    ∀ (prev : Vec n) (w w' : IKWorld n) (Q : List (Vec n)),
      (c.inverseTrajectoryLoop tm minimize interval false args H prev).exec w = (.ok Q, w') →
      w' = { w with calls := w.calls ++ (prev :: Q).dropLast.map fun q => (args.solver, q, intervalAround interval q) } := by
  induction H with
  | nil =>
    intro prev w w' Q h
    unfold Chain.inverseTrajectoryLoop at h
    rw [Py.exec_pure] at h
    cases h
    simp
  | cons H0 rest ih =>
    intro prev w w' Q h
    unfold Chain.inverseTrajectoryLoop at h
    obtain ⟨q, w1, h1, h2⟩ := exec_bind_ok h
    obtain ⟨Q', w2, h3, h4⟩ := exec_bind_ok h2
    rw [Py.exec_pure] at h4
    cases h4
    have := ih _ _ _ _ h3
    unfold Chain.inverseTrajectoryStep at h1
    simp only [Bool.false_eq_true, if_false] at h1
    obtain ⟨r, w3, h5, h6⟩ := exec_bind_ok h1
    rw [Py.exec_pure] at h6
    cases h6
    rw [exec_inverse] at h5
    obtain ⟨-, rfl⟩ := Prod.mk.inj h5
    rw [this]
    rw [List.dropLast_cons_cons, List.map_cons]
    simp only [List.append_assoc]
    rfl

/-- C95: without random restarts and with initial joint angles, the given solver is called once per pose: for the first
pose with the initial joint angles and the joint limits, then with the previous row and the interval around it. No
random numbers are used. -/
theorem C95_calls (H : List Mat4) (q0 : Vec n) (w w' : IKWorld n) (Q : List (Vec n))
    (h : (c.inverseTrajectory tm minimize H (some q0) interval false args).exec w = (.ok Q, w')) :
    w' = { w with calls := w.calls ++ (args.solver, q0, c.jointLimits) ::
      Q.dropLast.map fun q => (args.solver, q, intervalAround interval q) } := by
  cases H with
  | nil => unfold Chain.inverseTrajectory at h; cases h
  | cons H0 rest =>
    unfold Chain.inverseTrajectory at h
    simp only at h
    obtain ⟨q, w1, h1, h2⟩ := exec_bind_ok h
    obtain ⟨Q', w2, h3, h4⟩ := exec_bind_ok h2
    rw [Py.exec_pure] at h4
    cases h4
    have := inverseTrajectoryLoop_calls c tm minimize interval args _ _ _ _ _ h3
    unfold Chain.inverseTrajectoryFirst at h1
    simp only at h1
    obtain ⟨r, w3, h5, h6⟩ := exec_bind_ok h1
    rw [Py.exec_pure] at h6
    cases h6
    rw [exec_inverse] at h5
    obtain ⟨-, rfl⟩ := Prod.mk.inj h5
    rw [this]
    simp [List.append_assoc]

theorem restartLoop_calls (desired : Mat4) (tolerance : ℝ) (k : ℕ) :
    ∀ (Q : List (Vec n)) (errors : List ℝ) (w w' : IKWorld n) (r : List (Vec n) × List ℝ),
      (c.restartLoop tm minimize desired tolerance args k Q errors).exec w = (.ok r, w') →
      ∃ new, w'.calls = w.calls ++ new ∧ ∀ x ∈ new, x.1 = args.solver ∧ x.2.2 = c.jointLimits := by
  induction k with
  | zero =>
    intro Q errors w w' r h
    unfold Chain.restartLoop at h
    rw [Py.exec_pure] at h
    cases h
    exact ⟨[], by simp, by simp⟩
  | succ k ih =>
    intro Q errors w w' r h
    unfold Chain.restartLoop at h
    obtain ⟨q0, w1, h1, h2⟩ := exec_bind_ok h
    rw [exec_sample] at h1
    cases h1
    obtain ⟨⟨q, e⟩, w2, h3, h4⟩ := exec_bind_ok h2
    rw [exec_inverse] at h3
    obtain ⟨-, rfl⟩ := Prod.mk.inj h3
    simp only at h4
    split_ifs at h4 with he
    · rw [Py.exec_pure] at h4
      cases h4
      exact ⟨_, rfl, by simp⟩
    · obtain ⟨new, h5, h6⟩ := ih _ _ _ _ _ h4
      refine ⟨_ :: new, by rw [h5]; exact List.append_assoc _ [_] _, ?_⟩
      intro x hx
      rcases List.mem_cons.1 hx with rfl | hx
      · exact ⟨rfl, rfl⟩
      · exact h6 x hx

theorem localRestartLoop_calls (desired : Mat4) (bounds : Fin n → ℝ × ℝ) (tolerance : ℝ) (k : ℕ) :
    ∀ (q0 : Vec n) (Q : List (Vec n)) (errors : List ℝ) (w w' : IKWorld n) (r : List (Vec n) × List ℝ),
      (c.localRestartLoop tm minimize desired bounds tolerance args k q0 Q errors).exec w = (.ok r, w') →
      ∃ new, w'.calls = w.calls ++ new ∧ ∀ x ∈ new, x.1 = args.solver ∧ x.2.2 = c.jointLimits := by
  induction k with
  | zero =>
    intro q0 Q errors w w' r h
    unfold Chain.localRestartLoop at h
    rw [Py.exec_pure] at h
    cases h
    exact ⟨[], by simp, by simp⟩
  | succ k ih =>
    intro q0 Q errors w w' r h
    unfold Chain.localRestartLoop at h
    obtain ⟨⟨q, e⟩, w2, h3, h4⟩ := exec_bind_ok h
    rw [exec_inverse] at h3
    obtain ⟨-, rfl⟩ := Prod.mk.inj h3
    simp only at h4
    split_ifs at h4 with he
    · rw [Py.exec_pure] at h4
      cases h4
      exact ⟨_, rfl, by simp⟩
    · obtain ⟨q1, w1, h1, h2⟩ := exec_bind_ok h4
      rw [exec_sample] at h1
      cases h1
      obtain ⟨new, h5, h6⟩ := ih _ _ _ _ _ _ h2
      refine ⟨_ :: new, by rw [h5]; exact List.append_assoc _ [_] _, ?_⟩
      intro x hx
      rcases List.mem_cons.1 hx with rfl | hx
      · exact ⟨rfl, rfl⟩
      · exact h6 x hx

theorem inverseTrajectoryLoop_calls_restarts (H : List Mat4) :
    ∀ (prev : Vec n) (w w' : IKWorld n) (Q : List (Vec n)),
      (c.inverseTrajectoryLoop tm minimize interval true args H prev).exec w = (.ok Q, w') →
      ∃ new, w'.calls = w.calls ++ new ∧ ∀ x ∈ new, x.1 = "SLSQP" ∧ x.2.2 = c.jointLimits := by
  induction H with
  | nil =>
    intro prev w w' Q h
    unfold Chain.inverseTrajectoryLoop at h
    rw [Py.exec_pure] at h
    cases h
    exact ⟨[], by simp, by simp⟩
  | cons H0 rest ih =>
    intro prev w w' Q h
    unfold Chain.inverseTrajectoryLoop at h
    obtain ⟨q, w1, h1, h2⟩ := exec_bind_ok h
    obtain ⟨Q', w2, h3, h4⟩ := exec_bind_ok h2
    rw [Py.exec_pure] at h4
    cases h4
    obtain ⟨new, hn1, hn2⟩ := ih _ _ _ _ h3
    unfold Chain.inverseTrajectoryStep Chain.localInverseWithRandomRestarts at h1
    simp only [if_true] at h1
    rw [if_neg (by norm_num)] at h1
    obtain ⟨r, w4, h5, h6⟩ := exec_bind_ok h1
    obtain ⟨new', hn3, hn4⟩ := localRestartLoop_calls c tm minimize { args with solver := "SLSQP" } _ _ _ _ _ _ _ _ _ _ h5
    have : w1 = w4 := by
      have := congrArg Prod.snd h6
      simpa using this.symm
    subst this
    refine ⟨new' ++ new, by rw [hn1, hn3, List.append_assoc], ?_⟩
    intro x hx
    rcases List.mem_append.1 hx with hx | hx
    · exact hn4 x hx
    · exact hn2 x hx

/-- C95 (finding): with random restarts the argument `interval` never reaches the optimiser, and the argument `solver`
only for the first pose and only if initial joint angles are given: all other minimisations are made by "SLSQP" within
the joint limits. -/
theorem C95_calls_restarts (H : List Mat4) (initial : Option (Vec n)) (w w' : IKWorld n) (Q : List (Vec n))
    (h : (c.inverseTrajectory tm minimize H initial interval true args).exec w = (.ok Q, w')) :
    ∃ new, w'.calls = w.calls ++ initial.toList.map (fun q0 => (args.solver, q0, c.jointLimits)) ++ new ∧
      ∀ x ∈ new, x.1 = "SLSQP" ∧ x.2.2 = c.jointLimits := by
  cases H with
  | nil => unfold Chain.inverseTrajectory at h; cases h
  | cons H0 rest =>
    unfold Chain.inverseTrajectory at h
    simp only at h
    obtain ⟨q, w1, h1, h2⟩ := exec_bind_ok h
    obtain ⟨Q', w2, h3, h4⟩ := exec_bind_ok h2
    rw [Py.exec_pure] at h4
    cases h4
    obtain ⟨new, hn1, hn2⟩ := inverseTrajectoryLoop_calls_restarts c tm minimize interval args _ _ _ _ _ h3
    unfold Chain.inverseTrajectoryFirst at h1
    cases initial with
    | some q0 =>
      simp only at h1
      obtain ⟨r, w3, h5, h6⟩ := exec_bind_ok h1
      rw [Py.exec_pure] at h6
      cases h6
      rw [exec_inverse] at h5
      obtain ⟨-, rfl⟩ := Prod.mk.inj h5
      exact ⟨new, hn1, hn2⟩
    | none =>
      simp only [Chain.inverseWithRandomRestarts] at h1
      rw [if_neg (by norm_num)] at h1
      obtain ⟨r, w4, h5, h6⟩ := exec_bind_ok h1
      obtain ⟨new', hn3, hn4⟩ := restartLoop_calls c tm minimize { args with solver := "SLSQP" } _ _ _ _ _ _ _ _ h5
      have : w1 = w4 := by
        have := congrArg Prod.snd h6
        simpa using this.symm
      subst this
      refine ⟨new' ++ new, by rw [hn1, hn3]; simp, ?_⟩
      intro x hx
      rcases List.mem_append.1 hx with hx | hx
      · exact hn4 x hx
      · exact hn2 x hx

/-- The pose error of joint angles is at most `ε`. -/
def Accurate (ε : ℝ) (q : Vec n) (H : Mat4) : Prop :=
  ∃ e ≤ ε, ((c.eePoseError q H args.orientationWeight args.positionWeight).exec tm).1 = .ok e

/-- C95: if the optimiser finds, from every initial guess within the joint limits, joint angles with a pose error of at
most `ε` for every pose of the trajectory, then `inverse_trajectory` with random restarts returns, and the error of every
row is at most `ε`. -/
theorem C95_accuracy_restarts (hs : Spec.SoundMinimizer minimize) (ho : c.Ordered) {ε : ℝ} (H : List Mat4) (hH : H ≠ [])
    (initial : Option (Vec n)) (hsolve : ∀ M ∈ H, ∀ solver x0, ∃ x e, e ≤ ε ∧
      minimize solver (fun q => ((c.eePoseError q M args.orientationWeight args.positionWeight).exec tm).1) x0 c.jointLimits
        = .ok (x, e)) (w : IKWorld n) :
    ∃ Q w', (c.inverseTrajectory tm minimize H initial interval true args).exec w = (.ok Q, w') ∧
      List.Forall₂ (Accurate c tm args ε) Q H := by
  have hloop : ∀ (H : List Mat4) (prev : Vec n) (w : IKWorld n), (∀ M ∈ H, ∀ solver x0, ∃ x e, e ≤ ε ∧
      minimize solver (fun q => ((c.eePoseError q M args.orientationWeight args.positionWeight).exec tm).1) x0 c.jointLimits
        = .ok (x, e)) → ∃ Q w', (c.inverseTrajectoryLoop tm minimize interval true args H prev).exec w = (.ok Q, w') ∧
      List.Forall₂ (Accurate c tm args ε) Q H := by
    intro H
    induction H with
    | nil => intro prev w _; exact ⟨[], w, rfl, .nil⟩
    | cons M H ih =>
      intro prev w hsolve
      choose x e he hx using hsolve M (by simp) "SLSQP"
      obtain ⟨K, i, D, hb, hexec⟩ := (C49_local_random_restarts c tm minimize M { args with solver := "SLSQP" } prev interval 10
        (1 / 1000) w (fun k => x (localGuess prev interval w.rand w.drawn k))
        (fun k => e (localGuess prev interval w.rand w.drawn k)) (fun k => hx _)).2 (by norm_num)
      obtain ⟨Q, w', h1, h2⟩ := ih (x (localGuess prev interval w.rand w.drawn i)) _
        (fun M hM => hsolve M (List.mem_cons_of_mem _ hM))
      refine ⟨_ :: Q, w', ?_, .cons ⟨_, he _, (hs _ _ _ _ _ _ ho (hx (localGuess prev interval w.rand w.drawn i))).2⟩ h2⟩
      unfold Chain.inverseTrajectoryLoop Chain.inverseTrajectoryStep
      simp only [if_true]
      rw [exec_bind_of_ok hexec, exec_bind_of_ok h1]
      rfl
  cases H with
  | nil => exact absurd rfl hH
  | cons M H =>
    have hfirst : ∃ q w', (c.inverseTrajectoryFirst tm minimize initial args M).exec w = (.ok q, w') ∧
        Accurate c tm args ε q M := by
      unfold Chain.inverseTrajectoryFirst
      cases initial with
      | none =>
        choose x e he hx using hsolve M (by simp) "SLSQP"
        obtain ⟨K, i, hb, hexec⟩ := (C49_random_restarts c tm minimize M { args with solver := "SLSQP" } 10
          (1 / 1000) w (fun k => x (sampleIn c.jointLimits (w.rand (w.drawn + k))))
          (fun k => e (sampleIn c.jointLimits (w.rand (w.drawn + k)))) (fun k => hx _)).2 (by norm_num)
        exact ⟨_, _, hexec, ⟨_, he _, (hs _ _ _ _ _ _ ho (hx (sampleIn c.jointLimits (w.rand (w.drawn + i))))).2⟩⟩
      | some q0 =>
        obtain ⟨x, e, he, hx⟩ := hsolve M (by simp) args.solver q0
        refine ⟨x, { w with calls := w.calls ++ [(args.solver, q0, c.jointLimits)] }, ?_, ⟨e, he, (hs _ _ _ _ _ _ ho hx).2⟩⟩
        simp only
        rw [Py.exec_bind, exec_inverse]
        have hx' : minimize args.solver (c.objective tm M args) q0 c.jointLimits = .ok (x, e) := hx
        simp only [Option.getD_none, hx', Py.exec_pure]
    obtain ⟨q, w1, h1, h2⟩ := hfirst
    obtain ⟨Q, w', h3, h4⟩ := hloop H q w1 (fun M hM => hsolve M (List.mem_cons_of_mem _ hM))
    refine ⟨q :: Q, w', ?_, .cons h2 h4⟩
    unfold Chain.inverseTrajectory
    simp only
    rw [exec_bind_of_ok h1, exec_bind_of_ok h3]
    rfl

/-- C95: the same without random restarts, if the optimiser finds such joint angles for the first pose from the initial
guess, and for each further pose within the interval around any joint angles with error at most `ε` for the previous
pose. -/
theorem C95_accuracy (hs : Spec.SoundMinimizer minimize) (ho : c.Ordered) (hi : 0 ≤ interval) {ε : ℝ} (M : Mat4)
    (H : List Mat4) (q0 : Vec n)
    (hfirst : ∃ x e, e ≤ ε ∧ minimize args.solver
      (fun q => ((c.eePoseError q M args.orientationWeight args.positionWeight).exec tm).1) q0 c.jointLimits = .ok (x, e))
    (hnext : (M :: H).IsChain fun M M' => ∀ q, Accurate c tm args ε q M → ∃ x e, e ≤ ε ∧ minimize args.solver
      (fun q => ((c.eePoseError q M' args.orientationWeight args.positionWeight).exec tm).1) q (intervalAround interval q)
        = .ok (x, e)) (w : IKWorld n) :
    ∃ Q w', (c.inverseTrajectory tm minimize (M :: H) (some q0) interval false args).exec w = (.ok Q, w') ∧
      List.Forall₂ (Accurate c tm args ε) Q (M :: H) := by
  have hloop : ∀ (H : List Mat4) (M : Mat4) (prev : Vec n) (w : IKWorld n), Accurate c tm args ε prev M →
      ((M :: H).IsChain fun M M' => ∀ q, Accurate c tm args ε q M → ∃ x e, e ≤ ε ∧ minimize args.solver
      (fun q => ((c.eePoseError q M' args.orientationWeight args.positionWeight).exec tm).1) q (intervalAround interval q)
        = .ok (x, e)) → ∃ Q w', (c.inverseTrajectoryLoop tm minimize interval false args H prev).exec w = (.ok Q, w') ∧
      List.Forall₂ (Accurate c tm args ε) Q H := by
    intro H
    induction H with
    | nil => intro M prev w _ _; exact ⟨[], w, rfl, .nil⟩
    | cons M' H ih =>
      intro M prev w hp hch
      rw [List.isChain_cons_cons] at hch
      obtain ⟨x, e, he, hx⟩ := hch.1 prev hp
      have hb : ∀ i, (intervalAround interval prev i).1 ≤ (intervalAround interval prev i).2 := by
        intro i; simp only [intervalAround]; linarith
      have ha : Accurate c tm args ε x M' := ⟨e, he, (hs _ _ _ _ _ _ hb hx).2⟩
      have h1 : (c.inverseTrajectoryStep tm minimize interval false args M' prev).exec w =
          (.ok x, { w with calls := w.calls ++ [(args.solver, prev, intervalAround interval prev)] }) := by
        unfold Chain.inverseTrajectoryStep
        simp only [Bool.false_eq_true, if_false]
        rw [Py.exec_bind, exec_inverse]
        have hx' : minimize args.solver (c.objective tm M' args) prev (fun i => (prev i - interval, prev i + interval)) =
          .ok (x, e) := hx
        simp only [Option.getD_some, hx', Py.exec_pure]
        rfl
      obtain ⟨Q, w', h2, h3⟩ := ih M' x _ ha hch.2
      refine ⟨x :: Q, w', ?_, .cons ha h3⟩
      unfold Chain.inverseTrajectoryLoop
      rw [exec_bind_of_ok h1, exec_bind_of_ok h2]
      rfl
  obtain ⟨x, e, he, hx⟩ := hfirst
  have ha : Accurate c tm args ε x M := ⟨e, he, (hs _ _ _ _ _ _ ho hx).2⟩
  obtain ⟨Q, w', h2, h3⟩ := hloop H M x
    { w with calls := w.calls ++ [(args.solver, q0, c.jointLimits)] } ha hnext
  refine ⟨x :: Q, w', ?_, .cons ha h3⟩
  have h1 : (c.inverseTrajectoryFirst tm minimize (some q0) args M).exec w =
      (.ok x, { w with calls := w.calls ++ [(args.solver, q0, c.jointLimits)] }) := by
    unfold Chain.inverseTrajectoryFirst
    simp only
    rw [Py.exec_bind, exec_inverse]
    have hx' : minimize args.solver (c.objective tm M args) q0 c.jointLimits = .ok (x, e) := hx
    simp only [Option.getD_none, hx', Py.exec_pure]
  unfold Chain.inverseTrajectory
  simp only
  rw [exec_bind_of_ok h1, exec_bind_of_ok h2]
  rfl

end Trajectory

/-- C95: joint angles with error 0 for every pose reproduce the trajectory: `forward_trajectory` is the inverse of an
exact `inverse_trajectory`. -/
theorem C95_round_trip {tm : TransformManager} {names : Fin n → String} {base ee : String} {c : Chain n}
    (hc : Chain.create tm names base ee = .ok c) (hw : tm.WellFormed) {tm' : TransformManager} (hm : Moved c tm tm')
    (args : IKArgs) (hwo : 0 < args.orientationWeight) (hwp : 0 < args.positionWeight) (Q : List (Vec n)) (H : List Mat4)
    (hH : ∀ M ∈ H, Spec.IsRigid M) (h : List.Forall₂ (Accurate c tm args 0) Q H) :
    ((c.forwardTrajectory Q).exec tm').1 = .ok H := by
  rw [C95_forward_trajectory hc hm]
  induction h with
  | nil => exact .nil
  | @cons q M Q H hq _ ih =>
    refine .cons ?_ (ih fun M hM => hH M (List.mem_cons_of_mem _ hM))
    have hM := hH M (by simp)
    obtain ⟨e, he, h1⟩ := hq
    rcases hf : (c.forward q).exec tm with ⟨err | M', tm1⟩
    · unfold Chain.eePoseError at h1
      rw [Py.exec_bind, hf] at h1
      cases h1
    · have hr := (C48_forward_rigid hc hw q hf).1
      obtain ⟨dist, hd, hpos, -⟩ := C51_pseudometric hwo.le hwp.le
      have h2 := hd ⟨M, hM⟩ ⟨M', hr⟩
      have h3 := h1
      unfold Chain.eePoseError at h1
      rw [Py.exec_bind, hf] at h1
      simp only [Py.exec_lift] at h1
      have h4 : e = dist ⟨M, hM⟩ ⟨M', hr⟩ := by
        simp only at h2
        rw [h2] at h1
        exact (Except.ok.inj h1).symm
      have h5 : e = 0 := le_antisymm he (h4 ▸ hpos _ _)
      rw [h5] at h3
      rw [(C51_error_zero_iff hc hw q hf hM hwo hwp).1 h3]

/-! ## Several chains of one robot -/

theorem pathTransform_congr {tm tm' : TransformManager} (path : List String) :
    ∀ A, (∀ a b, [a, b] <:+: path → tm.transforms (a, b) = tm'.transforms (a, b) ∧
      tm.transforms (b, a) = tm'.transforms (b, a)) → tm.pathTransform A path = tm'.pathTransform A path := by
  induction path with
  | nil => intro A _; rfl
  | cons a path ih =>
    intro A h
    cases path with
    | nil => rfl
    | cons b rest =>
      have h1 := h a b ⟨[], rest, rfl⟩
      unfold TransformManager.pathTransform TransformManager.getTransform
      rw [h1.1, h1.2]
      have hrest : ∀ A, tm.pathTransform A (b :: rest) = tm'.pathTransform A (b :: rest) :=
        fun A => ih A (fun x y hxy => h x y (hxy.trans (List.suffix_cons a _).isInfix))
      simp only [hrest]

/-- C95: chains of the same robot do not influence each other if the joints that are moved by the first one belong to
the second one as well, or do not connect frames that follow one another on the way from the end effector to the base of
the second one. -/
theorem C95_other_chain {k : ℕ} {tm : TransformManager} {names : Fin n → String} {base ee : String} {c : Chain n}
    (hc : Chain.create tm names base ee = .ok c) {names' : Fin k → String} {base' ee' : String} {c' : Chain k}
    (hc' : Chain.create tm names' base' ee' = .ok c')
    (h : ∀ i j, tm.joints (names' i) = some j → (∃ i', names i' = names' i) ∨
      (¬ [j.fromFrame, j.toFrame] <:+: tm.shortestPath ee base ∧ ¬ [j.toFrame, j.fromFrame] <:+: tm.shortestPath ee base))
    {tm' : TransformManager} (hm : Moved c' tm tm') (q : Vec n) :
    ((c.forward q).exec tm').1 = ((c.forward q).exec tm).1 := by
  obtain ⟨hn, hk⟩ := create_known hc
  obtain ⟨hbase, hee, -⟩ := create_fields hc
  obtain ⟨hn', hk'⟩ := create_known hc'
  obtain ⟨moves, hmv, he⟩ := hm
  have hkm : Known tm.joints moves := by
    intro x hx
    obtain ⟨i, hi⟩ := hmv x hx
    rw [← hi, hn']; exact hk' i
  rw [exec_setJoints _ _ hkm] at he
  cases he
  have hq : Known tm.joints (List.ofFn fun i => (c.jointNames i, q i)) := by rw [hn]; exact known_ofFn hk q
  rw [exec_forward c q tm hq, exec_forward c q { tm with transforms := writeJoints tm.joints tm.transforms moves } hq]
  simp only
  unfold TransformManager.getEe2base
  simp only [hee, hbase]
  apply pathTransform_congr
  have key : ∀ key : String × String, ([key.1, key.2] <:+: tm.shortestPath ee base ∨ [key.2, key.1] <:+: tm.shortestPath ee base) →
      writeJoints tm.joints (writeJoints tm.joints tm.transforms moves) (List.ofFn fun i => (c.jointNames i, q i)) key =
        writeJoints tm.joints tm.transforms (List.ofFn fun i => (c.jointNames i, q i)) key := by
    intro key hkey
    by_cases hex : ∃ x ∈ (List.ofFn fun i => (c.jointNames i, q i)), ∃ j, tm.joints x.1 = some j ∧ j.key = key
    · exact writeJoints_of_mem hq hex _ _
    · have hno : ∀ x ∈ (List.ofFn fun i => (c.jointNames i, q i)), ∀ j, tm.joints x.1 = some j → j.key ≠ key :=
        fun x hx j hj e => hex ⟨x, hx, j, hj, e⟩
      rw [writeJoints_of_not_mem hq hno, writeJoints_of_not_mem hq hno, writeJoints_of_not_mem hkm]
      intro x hx j hj e
      obtain ⟨i, hi⟩ := hmv x hx
      rw [hn'] at hi
      rw [← hi] at hj
      rcases h i j hj with ⟨i', hi'⟩ | ⟨h1, h2⟩
      · refine hex ⟨(c.jointNames i', q i'), (List.mem_ofFn' _ _).2 ⟨i', rfl⟩, j, ?_, e⟩
        simp only [hn, hi', hj]
      · subst e
        rcases hkey with hkey | hkey
        · exact h1 hkey
        · exact h2 hkey
  intro a b hab
  exact ⟨key (a, b) (.inl hab), key (b, a) (.inr hab)⟩

/-- C95 (finding): otherwise they do: a chain that does not contain all joints on the way returns a different pose for the
same joint angles after another chain of the same robot has been used. -/
theorem C95_other_chain_finding : ∃ (c' : Chain 2) (c : Chain 1),
    Chain.create exampleTM ![ "j1", "j2" ] "base" "tool" = .ok c' ∧
    Chain.create exampleTM ![ "j2" ] "base" "tool" = .ok c ∧
    ((c.forward 0).exec exampleTM).1 = .ok 1 ∧
    ∃ M, ((c.forward 0).exec ((c'.forward ![1, 0]).exec exampleTM).2).1 = .ok M ∧ M ≠ 1 := by
  obtain ⟨c', hc', -⟩ := example_chain
  have hc : ∃ c : Chain 1, Chain.create exampleTM ![ "j2" ] "base" "tool" = .ok c := by
    unfold Chain.create
    rw [if_neg (by
      rintro ⟨i, hi⟩
      fin_cases i; simp [exampleTM] at hi)]
    simp only [exampleTM, List.mem_cons]
    simp
    exact ⟨_, rfl⟩
  obtain ⟨c, hc⟩ := hc
  have e2 : exampleJoint2.transform 0 = 1 := by
    have : exampleJoint2.clip 0 = 0 := by norm_num [exampleJoint2, Joint.clip]
    unfold Joint.transform
    rw [this]
    simp only [exampleJoint2, Bool.false_eq_true, if_false]
    rw [prismatic_eq_pose, zero_smul, pose_one, mul_one]
  have hpath : ∀ (T : String × String → Option Mat4) (A B : Mat4), T ("tool", "arm") = some A → T ("arm", "base") = some B →
      ({ exampleTM with transforms := T } : TransformManager).getEe2base "tool" "base" = .ok (B * A) := by
    intro T A B hA hB
    simp only [TransformManager.getEe2base, exampleTM, TransformManager.pathTransform, TransformManager.getTransform, hA, hB]
    show Except.ok (B * (A * 1)) = _
    rw [mul_one]
  have hne : ("tool", "arm") ≠ ("arm", "base") := by decide
  obtain ⟨hn, hk⟩ := create_known hc
  obtain ⟨hbase, hee, -⟩ := create_fields hc
  obtain ⟨hn', hk'⟩ := create_known hc'
  have hq : ∀ tm : TransformManager, tm.joints = exampleTM.joints → Known tm.joints (List.ofFn fun i => (c.jointNames i, (0 : Vec 1) i)) := by
    intro tm h; rw [hn, h]; exact known_ofFn hk _
  have hj2 : exampleTM.joints "j2" = some exampleJoint2 := by simp [exampleTM]
  have hj1 : exampleTM.joints "j1" = some exampleJoint := by simp [exampleTM]
  have hw : ∀ T : String × String → Option Mat4, writeJoints exampleTM.joints T (List.ofFn fun i => (c.jointNames i, (0 : Vec 1) i)) =
      Function.update T ("arm", "base") (some 1) := by
    intro T
    rw [hn]
    simp only [List.ofFn_succ, List.ofFn_zero, writeJoints, cons_val_zero, hj2, Pi.zero_apply, e2]
    rfl
  refine ⟨c', c, hc', hc, ?_, exampleJoint.transform 1, ?_, ?_⟩
  · rw [exec_forward c 0 _ (hq _ rfl), hw, hee, hbase]
    simp only
    rw [hpath _ 1 1 (by rw [Function.update_of_ne hne]; rfl) (Function.update_self ..), mul_one]
  · have hw' : writeJoints exampleTM.joints exampleTM.transforms (List.ofFn fun i => (c'.jointNames i, (![1, 0] : Vec 2) i)) =
        Function.update (Function.update exampleTM.transforms ("tool", "arm") (some (exampleJoint.transform 1))) ("arm", "base")
          (some (exampleJoint2.transform 0)) := by
      rw [hn']
      simp only [List.ofFn_succ, List.ofFn_zero, writeJoints, cons_val_zero, Fin.succ_zero_eq_one, cons_val_one, hj1, hj2]
      rfl
    rw [exec_forward c' _ exampleTM (by rw [hn']; exact known_ofFn hk' _), hw']
    simp only
    generalize hT : Function.update (Function.update exampleTM.transforms _ _) _ _ = T
    rw [exec_forward c 0 { exampleTM with transforms := T } (hq _ rfl)]
    simp only
    rw [hw, hee, hbase, ← hT]
    rw [hpath _ (exampleJoint.transform 1) 1 (by rw [Function.update_of_ne hne, Function.update_of_ne hne, Function.update_self])
      (Function.update_self ..), one_mul]
  · intro h
    have h1 := congrFun (congrFun h 0) 0
    have hcl : exampleJoint.clip 1 = 1 := by norm_num [exampleJoint, Joint.clip]
    unfold Joint.transform at h1
    rw [hcl] at h1
    simp [exampleJoint, fastMatrixFromAxisAngle] at h1
    have h2 := Real.cos_lt_cos_of_nonneg_of_le_pi (x := 0) (y := 1) le_rfl (by linarith [Real.two_le_pi]) one_pos
    rw [Real.cos_zero] at h2
    linarith

/-! ## Examples -/

/-- The conditions of `C95_accuracy_restarts` and of `C95_round_trip` are met by the arm with one joint and an optimiser
that finds the angle 1, for a trajectory that stays at this angle: forward kinematics of the result of inverse
kinematics is the trajectory. -/
example : ∃ (c : Chain 1) (H : List Mat4), Chain.create oneTM (fun _ => "j") "base" "tool" = .ok c ∧ H.length = 2 ∧
    ∀ w : IKWorld 1, ∃ Q w', (c.inverseTrajectory oneTM findsOne H none (1 / 10) true ⟨"SLSQP", 1, 1⟩).exec w = (.ok Q, w') ∧
      ((c.forwardTrajectory Q).exec oneTM).1 = .ok H := by
  obtain ⟨c, hc, ho, hl, hf⟩ := one_chain
  refine ⟨c, [fastMatrixFromAxisAngle oneJoint.axis 1, fastMatrixFromAxisAngle oneJoint.axis 1], hc, rfl, fun w => ?_⟩
  have hobj := one_objective (fun q => hf q oneTM (Or.inr rfl)) ⟨"SLSQP", 1, 1⟩ (θ := 1) ⟨by norm_num, le_rfl⟩
  have hcl : oneJoint.clip 1 = 1 := by norm_num [oneJoint, Joint.clip]
  have hlim : c.jointLimits = fun _ => (-1, 2) := funext hl
  obtain ⟨Q, w', h1, h2⟩ := C95_accuracy_restarts c oneTM findsOne (1 / 10) ⟨"SLSQP", 1, 1⟩ findsOne_sound ho (ε := 0)
    [fastMatrixFromAxisAngle oneJoint.axis 1, fastMatrixFromAxisAngle oneJoint.axis 1] (by simp) none (by
      intro M hM solver x0
      have hM' : M = fastMatrixFromAxisAngle oneJoint.axis 1 := by simpa using hM
      subst hM'
      refine ⟨fun _ => 1, 0, le_rfl, ?_⟩
      have hx : (fun i : Fin 1 => max (c.jointLimits i).1 (min 1 (c.jointLimits i).2)) = fun _ => 1 := by
        funext i; rw [hlim]; norm_num
      unfold findsOne
      simp only [hx]
      have e := hobj (fun _ => 1)
      simp only [hcl, sub_self, abs_zero, mul_zero] at e
      have e' : ((c.eePoseError (fun _ => 1) (fastMatrixFromAxisAngle oneJoint.axis 1) 1 1).exec oneTM).1 = .ok 0 := e
      rw [e']) w
  refine ⟨Q, w', h1, C95_round_trip hc ?_ (Moved.refl _ _) _ one_pos one_pos Q _ ?_ h2⟩
  · refine ⟨?_, ?_, ?_⟩
    · intro key M h
      cases h
      exact isRigid_one
    · intro name j h
      simp only [oneTM] at h
      split_ifs at h
      cases h
      exact isRigid_one
    · intro name j h _
      simp only [oneTM] at h
      split_ifs at h
      cases h
      exact oneAxis
  · intro M hM
    have hM' : M = fastMatrixFromAxisAngle oneJoint.axis 1 := by simpa using hM
    rw [hM', fastMatrix_eq_pose]
    exact ⟨_, _, jointRotation_isRotation _ oneAxis _, rfl⟩

/-- A chain that consists of the first joint of the example does not influence the chain of both joints. -/
example {c : Chain 2} (hc : Chain.create exampleTM ![ "j1", "j2" ] "base" "tool" = .ok c) {c' : Chain 1}
    (hc' : Chain.create exampleTM ![ "j1" ] "arm" "tool" = .ok c') (q : Vec 2) (q' : Vec 1) :
    ((c.forward q).exec ((c'.forward q').exec exampleTM).2).1 = ((c.forward q).exec exampleTM).1 :=
  C95_other_chain hc hc' (fun i _ _ => .inl ⟨0, by fin_cases i; rfl⟩) ((Moved.refl c' exampleTM).forward hc' q').2 q

end Verif
