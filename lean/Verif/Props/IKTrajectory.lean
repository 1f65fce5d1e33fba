import Verif.Props.IKBounds

/-!
# C66: inverse kinematics of a trajectory
-/

namespace Verif
open Matrix

variable {n : ℕ} (c : Chain n) (tm : TransformManager) (minimize : Minimizer n) (interval : ℝ) (args : IKArgs)

theorem exec_bind_ok {σ α β : Type} {m : Py σ α} {f : α → Py σ β} {s s' : σ} {b : β}
    (h : (m >>= f).exec s = (.ok b, s')) : ∃ a s1, m.exec s = (.ok a, s1) ∧ (f a).exec s1 = (.ok b, s') := by
  rw [Py.exec_bind] at h
  rcases hm : m.exec s with ⟨e | a, s1⟩
  · rw [hm] at h; cases h
  · rw [hm] at h; exact ⟨a, s1, rfl, h⟩

theorem inverseTrajectoryLoop_steps (hs : Spec.SoundMinimizer minimize) (hi : 0 ≤ interval) (H : List Mat4) :
    ∀ (prev : Vec n) (w w' : IKWorld n) (Q : List (Vec n)),
      (c.inverseTrajectoryLoop tm minimize interval false args H prev).exec w = (.ok Q, w') →
      Q.length = H.length ∧ (prev :: Q).IsChain (fun q q' => ∀ i, |q' i - q i| ≤ interval) := by
  induction H with
  | nil =>
    intro prev w w' Q h
    unfold Chain.inverseTrajectoryLoop at h
    rw [Py.exec_pure] at h
    cases h
    exact ⟨rfl, List.isChain_singleton _⟩
  | cons H0 rest ih =>
    intro prev w w' Q h
    unfold Chain.inverseTrajectoryLoop at h
    obtain ⟨q, w1, h1, h2⟩ := exec_bind_ok h
    obtain ⟨Q', w2, h3, h4⟩ := exec_bind_ok h2
    rw [Py.exec_pure] at h4
    cases h4
    unfold Chain.inverseTrajectoryStep at h1
    simp only [Bool.false_eq_true, if_false] at h1
    obtain ⟨r, w3, h5, h6⟩ := exec_bind_ok h1
    rw [Py.exec_pure] at h6
    cases h6
    rw [exec_inverse] at h5
    obtain ⟨h5, -⟩ := Prod.mk.inj h5
    have hw := (hs _ _ _ _ r.1 r.2 (by intro i; simp; linarith) h5).1
    obtain ⟨hlen, hch⟩ := ih _ _ _ _ h3
    refine ⟨by simp [hlen], ?_⟩
    refine List.isChain_cons_cons.mpr ⟨fun i => ?_, hch⟩
    obtain ⟨a, b⟩ := hw i
    simp only [Option.getD_some] at a b
    rw [abs_le]
    constructor <;> linarith

/-- C66: without random restarts and with a sound minimiser, `inverse_trajectory` returns one row of joint angles
per pose, and consecutive rows differ by at most `interval` in each joint. -/
theorem C66_steps_within_interval (hs : Spec.SoundMinimizer minimize) (hi : 0 ≤ interval) (H : List Mat4)
    (initial : Option (Vec n)) (w w' : IKWorld n) (Q : List (Vec n))
    (h : (c.inverseTrajectory tm minimize H initial interval false args).exec w = (.ok Q, w')) :
    Q.length = H.length ∧ ∀ t (ht : t + 1 < Q.length) i, |Q[t + 1] i - Q[t] i| ≤ interval := by
  cases H with
  | nil => unfold Chain.inverseTrajectory at h; cases h
  | cons H0 rest =>
    unfold Chain.inverseTrajectory at h
    simp only at h
    obtain ⟨q0, w1, h1, h2⟩ := exec_bind_ok h
    obtain ⟨Q', w2, h3, h4⟩ := exec_bind_ok h2
    rw [Py.exec_pure] at h4
    cases h4
    obtain ⟨hlen, hch⟩ := inverseTrajectoryLoop_steps c tm minimize interval args hs hi rest _ _ _ _ h3
    refine ⟨by simp [hlen], fun t ht i => ?_⟩
    exact (List.isChain_iff_getElem.mp hch) t ht i

theorem inverseTrajectoryLoop_limits (hs : Spec.SoundMinimizer minimize) (ho : c.Ordered) (H : List Mat4) :
    ∀ (prev : Vec n) (w w' : IKWorld n) (Q : List (Vec n)),
      (c.inverseTrajectoryLoop tm minimize interval true args H prev).exec w = (.ok Q, w') →
      Q.length = H.length ∧ ∀ q ∈ Q, Spec.Within c.jointLimits q := by
  induction H with
  | nil =>
    intro prev w w' Q h
    unfold Chain.inverseTrajectoryLoop at h
    rw [Py.exec_pure] at h
    cases h
    exact ⟨rfl, by simp⟩
  | cons H0 rest ih =>
    intro prev w w' Q h
    unfold Chain.inverseTrajectoryLoop at h
    obtain ⟨q, w1, h1, h2⟩ := exec_bind_ok h
    obtain ⟨Q', w2, h3, h4⟩ := exec_bind_ok h2
    rw [Py.exec_pure] at h4
    cases h4
    obtain ⟨hlen, hch⟩ := ih _ _ _ _ h3
    refine ⟨by simp [hlen], ?_⟩
    intro q' hq'
    rcases List.mem_cons.mp hq' with rfl | hq'
    · unfold Chain.inverseTrajectoryStep at h1
      simp only [if_true] at h1
      exact (C50_joint_limits tm hs ho H0 10 _ _ w w1 q').2 prev interval h1
    · exact hch q' hq'

/-- C66: with random restarts and a sound minimiser, all joint angles lie within the joint limits. -/
theorem C66_within_joint_limits (hs : Spec.SoundMinimizer minimize) (ho : c.Ordered) (H : List Mat4)
    (initial : Option (Vec n)) (w w' : IKWorld n) (Q : List (Vec n))
    (h : (c.inverseTrajectory tm minimize H initial interval true args).exec w = (.ok Q, w')) :
    Q.length = H.length ∧ ∀ q ∈ Q, Spec.Within c.jointLimits q := by
  cases H with
  | nil => unfold Chain.inverseTrajectory at h; cases h
  | cons H0 rest =>
    unfold Chain.inverseTrajectory at h
    simp only at h
    obtain ⟨q0, w1, h1, h2⟩ := exec_bind_ok h
    obtain ⟨Q', w2, h3, h4⟩ := exec_bind_ok h2
    rw [Py.exec_pure] at h4
    cases h4
    obtain ⟨hlen, hch⟩ := inverseTrajectoryLoop_limits c tm minimize interval args hs ho rest _ _ _ _ h3
    refine ⟨by simp [hlen], ?_⟩
    intro q hq
    rcases List.mem_cons.mp hq with rfl | hq
    · cases initial with
      | none => exact (C50_joint_limits tm hs ho H0 10 _ _ w w1 q).1 h1
      | some qi =>
        unfold Chain.inverseTrajectoryFirst at h1
        simp only at h1
        obtain ⟨r, w3, h5, h6⟩ := exec_bind_ok h1
        rw [Py.exec_pure] at h6
        cases h6
        rw [exec_inverse] at h5
        obtain ⟨h5, -⟩ := Prod.mk.inj h5
        exact (hs _ _ _ _ r.1 r.2 ho h5).1
    · exact hch q hq

/-- C66, a finding: with random restarts and without initial joint angles, the argument `solver` has no effect. -/
theorem C66_solver_ignored_finding (H : List Mat4) (solver : String) :
    c.inverseTrajectory tm minimize H none interval true { args with solver := solver } =
      c.inverseTrajectory tm minimize H none interval true args := by
  have hloop : ∀ (H : List Mat4) (prev : Vec n),
      c.inverseTrajectoryLoop tm minimize interval true { args with solver := solver } H prev =
        c.inverseTrajectoryLoop tm minimize interval true args H prev := by
    intro H
    induction H with
    | nil => intro prev; rfl
    | cons H0 rest ih =>
      intro prev
      unfold Chain.inverseTrajectoryLoop
      simp only [Chain.inverseTrajectoryStep, if_true, ih]
  cases H with
  | nil => rfl
  | cons H0 rest =>
    unfold Chain.inverseTrajectory
    simp only [Chain.inverseTrajectoryFirst, hloop]

/-- An empty trajectory raises IndexError. -/
theorem C66_empty (initial : Option (Vec n)) (randomRestarts : Bool) (w : IKWorld n) :
    (c.inverseTrajectory tm minimize [] initial interval randomRestarts args).exec w = (.error .indexError, w) := rfl

/-- A minimiser that returns the upper bounds. -/
noncomputable def findsUpper : Minimizer 1 := fun _ f _ bounds =>
  match f (fun i => (bounds i).2) with
  | .ok e => .ok (fun i => (bounds i).2, e)
  | .error e => .error e

theorem findsUpper_sound : Spec.SoundMinimizer findsUpper := by
  intro solver f x0 bounds x e hb h
  unfold findsUpper at h
  rcases hf : f (fun i => (bounds i).2) with err | e'
  · rw [hf] at h; cases h
  · rw [hf] at h
    cases h
    exact ⟨fun i => ⟨hb i, le_rfl⟩, hf⟩

theorem exec_bind_of_ok {σ α β : Type} {m : Py σ α} {f : α → Py σ β} {s s1 : σ} {a : α}
    (h : m.exec s = (.ok a, s1)) : (m >>= f).exec s = (f a).exec s1 := by
  rw [Py.exec_bind, h]

/-- C66, a finding: without random restarts the joint limits are not respected, because the interval replaces
them. There are a chain with limits -1 and 2, a sound minimiser and two poses for which the second row is 2.1. -/
theorem C66_joint_limits_finding :
    ∃ (c : Chain 1) (minimize : Minimizer 1) (args : IKArgs) (H : List Mat4),
      Chain.create oneTM (fun _ => "j") "base" "tool" = .ok c ∧ c.Ordered ∧ Spec.SoundMinimizer minimize ∧
      (∀ M ∈ H, Spec.IsRigid M) ∧
      ∀ w : IKWorld 1, ∃ Q w', (c.inverseTrajectory oneTM minimize H (some fun _ => 0) (1 / 10) false args).exec w
          = (.ok Q, w') ∧ ∃ q ∈ Q, ¬ Spec.Within c.jointLimits q := by
  obtain ⟨c, hc, ho, hl, hf⟩ := one_chain
  have hobj := one_objective (fun q => hf q oneTM (Or.inr rfl)) ⟨"SLSQP", 1, 1⟩ (θ := 1) ⟨by norm_num, le_rfl⟩
  refine ⟨c, findsUpper, ⟨"SLSQP", 1, 1⟩,
    [fastMatrixFromAxisAngle oneJoint.axis 1, fastMatrixFromAxisAngle oneJoint.axis 1], hc, ho, findsUpper_sound,
    ?_, ?_⟩
  · intro M hM
    have : M = fastMatrixFromAxisAngle oneJoint.axis 1 := by simpa using hM
    rw [this, fastMatrix_eq_pose]
    exact ⟨_, _, jointRotation_isRotation _ oneAxis _, rfl⟩
  · intro w
    have hres : ∀ x0 bounds, ∃ e, findsUpper "SLSQP"
        (c.objective oneTM (fastMatrixFromAxisAngle oneJoint.axis 1) ⟨"SLSQP", 1, 1⟩) x0 bounds
        = .ok (fun i => (bounds i).2, e) := by
      intro x0 bounds
      unfold findsUpper
      rw [hobj]
      exact ⟨_, rfl⟩
    obtain ⟨e1, h1⟩ := hres (fun _ => 0) c.jointLimits
    have hq1 : (fun i => (c.jointLimits i).2 : Vec 1) = fun _ => 2 := by funext i; rw [hl i]
    rw [hq1] at h1
    obtain ⟨e2, h2⟩ := hres (fun _ => 2) (fun _ => (2 - 1 / 10, 2 + 1 / 10))
    simp only at h2
    have hexec : ∃ w', (c.inverseTrajectory oneTM findsUpper
        [fastMatrixFromAxisAngle oneJoint.axis 1, fastMatrixFromAxisAngle oneJoint.axis 1] (some fun _ => 0)
        (1 / 10) false ⟨"SLSQP", 1, 1⟩).exec w = (.ok [fun _ => 2, fun _ => 2 + 1 / 10], w') := by
      unfold Chain.inverseTrajectory
      simp only
      have s1 := exec_inverse c oneTM findsUpper (fastMatrixFromAxisAngle oneJoint.axis 1) ⟨"SLSQP", 1, 1⟩ (fun _ => 0)
        none w
      simp only [Option.getD_none, h1] at s1
      have s1' : (c.inverseTrajectoryFirst oneTM findsUpper (some fun _ => 0) ⟨"SLSQP", 1, 1⟩
          (fastMatrixFromAxisAngle oneJoint.axis 1)).exec w
          = (.ok (fun _ => 2), { w with calls := w.calls ++ [("SLSQP", fun _ => 0, c.jointLimits)] }) := by
        unfold Chain.inverseTrajectoryFirst
        simp only
        rw [exec_bind_of_ok s1]; rfl
      rw [exec_bind_of_ok s1']
      have s2 := exec_inverse c oneTM findsUpper (fastMatrixFromAxisAngle oneJoint.axis 1) ⟨"SLSQP", 1, 1⟩ (fun _ => 2)
        (some fun _ => (2 - 1 / 10, 2 + 1 / 10)) { w with calls := w.calls ++ [("SLSQP", fun _ => 0, c.jointLimits)] }
      simp only [Option.getD_some, h2] at s2
      obtain ⟨w2, s2⟩ : ∃ w2, (c.inverse oneTM findsUpper (fastMatrixFromAxisAngle oneJoint.axis 1) (fun _ => 2)
        (some fun _ => (2 - 1 / 10, 2 + 1 / 10)) ⟨"SLSQP", 1, 1⟩).exec
          { w with calls := w.calls ++ [("SLSQP", fun _ => 0, c.jointLimits)] }
          = (.ok (fun _ => 2 + 1 / 10, e2), w2) := ⟨_, s2⟩
      have s2' : (c.inverseTrajectoryStep oneTM findsUpper (1 / 10) false ⟨"SLSQP", 1, 1⟩
          (fastMatrixFromAxisAngle oneJoint.axis 1) (fun _ => 2)).exec
          { w with calls := w.calls ++ [("SLSQP", fun _ => 0, c.jointLimits)] } = (.ok (fun _ => 2 + 1 / 10), w2) := by
        unfold Chain.inverseTrajectoryStep
        simp only [Bool.false_eq_true, if_false]
        rw [exec_bind_of_ok s2, Py.exec_pure]
      have s3 : (c.inverseTrajectoryLoop oneTM findsUpper (1 / 10) false ⟨"SLSQP", 1, 1⟩
          [fastMatrixFromAxisAngle oneJoint.axis 1] (fun _ => 2)).exec
          { w with calls := w.calls ++ [("SLSQP", fun _ => 0, c.jointLimits)] } = (.ok [fun _ => 2 + 1 / 10], w2) := by
        unfold Chain.inverseTrajectoryLoop
        rw [exec_bind_of_ok s2']
        rfl
      rw [exec_bind_of_ok s3]
      exact ⟨_, rfl⟩
    obtain ⟨w', hexec⟩ := hexec
    refine ⟨_, w', hexec, fun _ => 2 + 1 / 10, by simp, ?_⟩
    intro h
    have := (h 0).2
    rw [hl 0] at this
    norm_num at this

end Verif
