import Verif.Props.InverseKinematics

/-!
# C50, C66: search intervals and joint limits of inverse kinematics
-/

namespace Verif
open Matrix

variable {n : ℕ}

/-- Joint limits are ordered. -/
def Chain.Ordered (c : Chain n) : Prop := ∀ i, (c.jointLimits i).1 ≤ (c.jointLimits i).2

/-- C50: the initial guesses of the local search lie in the search interval around the given joint angles. -/
theorem C50_initial_guesses (q0 : Vec n) {interval : ℝ} (h : 0 ≤ interval) (rand : ℕ → Vec n)
    (hr : ∀ k i, 0 ≤ rand k i ∧ rand k i ≤ 1) (d0 k : ℕ) :
    Spec.Within (fun i => (q0 i - interval, q0 i + interval)) (localGuess q0 interval rand d0 k) := by
  intro i
  cases k with
  | zero => simp only [localGuess]; constructor <;> linarith
  | succ k =>
    simp only [localGuess, sampleIn]
    obtain ⟨h0, h1⟩ := hr (d0 + k) i
    constructor <;> nlinarith

example : ∃ rand : ℕ → Vec 2, (∀ k i, 0 ≤ rand k i ∧ rand k i ≤ 1) ∧ rand 0 0 ≠ rand 1 0 :=
  ⟨fun k _ => if k = 0 then 1 / 2 else 1 / 4, fun k i => by simp only; split_ifs <;> norm_num, by norm_num⟩

/-- A world in which a predicate holds for all solutions that are returned. -/
theorem solutions_within {c : Chain n} {tm : TransformManager} {minimize : Minimizer n}
    (hs : Spec.SoundMinimizer minimize) (ho : c.Ordered) (desired : Mat4) (args : IKArgs) (tolerance : ℝ) (k : ℕ) :
    ∀ (Q : List (Vec n)) (errors : List ℝ) (w w' : IKWorld n) (Q' : List (Vec n)) (errors' : List ℝ),
      (∀ q ∈ Q, Spec.Within c.jointLimits q) →
      (c.restartLoop tm minimize desired tolerance args k Q errors).exec w = (.ok (Q', errors'), w') →
      ∀ q ∈ Q', Spec.Within c.jointLimits q := by
  induction k with
  | zero =>
    intro Q errors w w' Q' errors' hQ h
    unfold Chain.restartLoop at h
    rw [Py.exec_pure] at h
    cases h
    exact hQ
  | succ k ih =>
    intro Q errors w w' Q' errors' hQ h
    rw [Chain.restartLoop, Py.exec_bind, exec_sample] at h
    simp only at h
    rw [Py.exec_bind, exec_inverse] at h
    simp only [Option.getD_none] at h
    rcases hm : minimize args.solver (c.objective tm desired args)
      (fun i => w.rand w.drawn i * ((c.jointLimits i).2 - (c.jointLimits i).1) + (c.jointLimits i).1) c.jointLimits
      with err | ⟨x, e⟩
    · rw [hm] at h; cases h
    · rw [hm] at h
      simp only at h
      have hx := (hs _ _ _ _ _ _ ho hm).1
      have hQ' : ∀ q ∈ Q ++ [x], Spec.Within c.jointLimits q := by
        intro q hq
        rcases List.mem_append.mp hq with hq | hq
        · exact hQ q hq
        · rw [List.mem_singleton.mp hq]; exact hx
      by_cases he : e ≤ tolerance
      · rw [if_pos he, Py.exec_pure] at h
        cases h
        exact hQ'
      · rw [if_neg he] at h
        exact ih _ _ _ _ _ _ hQ' h

theorem local_solutions_within {c : Chain n} {tm : TransformManager} {minimize : Minimizer n}
    (hs : Spec.SoundMinimizer minimize) (ho : c.Ordered) (desired : Mat4) (args : IKArgs) (bounds : Fin n → ℝ × ℝ)
    (tolerance : ℝ) (k : ℕ) :
    ∀ (q0 : Vec n) (Q : List (Vec n)) (errors : List ℝ) (w w' : IKWorld n) (Q' : List (Vec n)) (errors' : List ℝ),
      (∀ q ∈ Q, Spec.Within c.jointLimits q) →
      (c.localRestartLoop tm minimize desired bounds tolerance args k q0 Q errors).exec w = (.ok (Q', errors'), w') →
      ∀ q ∈ Q', Spec.Within c.jointLimits q := by
  induction k with
  | zero =>
    intro q0 Q errors w w' Q' errors' hQ h
    unfold Chain.localRestartLoop at h
    rw [Py.exec_pure] at h
    cases h
    exact hQ
  | succ k ih =>
    intro q0 Q errors w w' Q' errors' hQ h
    rw [Chain.localRestartLoop, Py.exec_bind, exec_inverse] at h
    simp only [Option.getD_none] at h
    rcases hm : minimize args.solver (c.objective tm desired args) q0 c.jointLimits with err | ⟨x, e⟩
    · rw [hm] at h; cases h
    · rw [hm] at h
      simp only at h
      have hx := (hs _ _ _ _ _ _ ho hm).1
      have hQ' : ∀ q ∈ Q ++ [x], Spec.Within c.jointLimits q := by
        intro q hq
        rcases List.mem_append.mp hq with hq | hq
        · exact hQ q hq
        · rw [List.mem_singleton.mp hq]; exact hx
      by_cases he : e ≤ tolerance
      · rw [if_pos he, Py.exec_pure] at h
        cases h
        exact hQ'
      · rw [if_neg he, Py.exec_bind, exec_sample] at h
        exact ih _ _ _ _ _ _ _ hQ' h

theorem pick_mem {Q : List (Vec n)} {errors : List ℝ} {q : Vec n} (h : pick Q errors = .ok q) : q ∈ Q := by
  unfold pick at h
  rcases hq : Q[argmin errors]? with _ | q'
  · rw [hq] at h; cases h
  · rw [hq] at h
    cases h
    exact List.mem_of_getElem? hq

/-- C50: with a sound minimiser, the solutions of `inverse_with_random_restarts` and of
`local_inverse_with_random_restarts` lie within the joint limits. -/
theorem C50_joint_limits {c : Chain n} (tm : TransformManager) {minimize : Minimizer n}
    (hs : Spec.SoundMinimizer minimize) (ho : c.Ordered) (desired : Mat4) (nRestarts : ℕ) (tolerance : ℝ)
    (args : IKArgs) (w w' : IKWorld n) (q : Vec n) :
    ((c.inverseWithRandomRestarts tm minimize desired nRestarts tolerance args).exec w = (.ok q, w') →
      Spec.Within c.jointLimits q) ∧
    (∀ q0 interval,
      (c.localInverseWithRandomRestarts tm minimize desired q0 interval nRestarts tolerance args).exec w = (.ok q, w') →
      Spec.Within c.jointLimits q) := by
  constructor
  · intro h
    unfold Chain.inverseWithRandomRestarts at h
    by_cases h1 : 1 ≤ nRestarts
    · simp only [if_neg (not_not.mpr h1)] at h
      change (c.restartLoop tm minimize desired tolerance args nRestarts [] [] >>= _ : Py (IKWorld n) _).exec w = _ at h
      rw [Py.exec_bind] at h
      rcases hl : (c.restartLoop tm minimize desired tolerance args nRestarts [] []).exec w with ⟨err | ⟨Q', e'⟩, w''⟩
      · rw [hl] at h; cases h
      · rw [hl] at h
        simp only [Py.exec_lift, Prod.mk.injEq] at h
        exact solutions_within hs ho desired args tolerance nRestarts [] [] w w'' Q' e' (by simp) hl q (pick_mem h.1)
    · simp only [if_pos h1] at h
      cases h
  · intro q0 interval h
    unfold Chain.localInverseWithRandomRestarts at h
    by_cases h1 : 1 ≤ nRestarts
    · simp only [if_neg (not_not.mpr h1)] at h
      change (c.localRestartLoop tm minimize desired (fun i => (q0 i - interval, q0 i + interval)) tolerance args
        nRestarts q0 [] [] >>= _ : Py (IKWorld n) _).exec w = _ at h
      rw [Py.exec_bind] at h
      rcases hl : (c.localRestartLoop tm minimize desired (fun i => (q0 i - interval, q0 i + interval)) tolerance args
        nRestarts q0 [] []).exec w with ⟨err | ⟨Q', e'⟩, w''⟩
      · rw [hl] at h; cases h
      · rw [hl] at h
        simp only [Py.exec_lift, Prod.mk.injEq] at h
        exact local_solutions_within hs ho desired args _ tolerance nRestarts q0 [] [] w w'' Q' e' (by simp) hl q
          (pick_mem h.1)
    · simp only [if_pos h1] at h
      cases h

/-! ## A chain with one revolute joint about the z-axis with limits -1 and 2 -/

/-- The joint of the example. -/
def oneJoint : Joint :=
  { fromFrame := "tool", toFrame := "base", child2parent := 1, axis := ![0, 0, 1], lower := some (-1)
    upper := some 2, revolute := true }

/-- The transform manager of the example. -/
def oneTM : TransformManager :=
  { joints := fun s => if s = "j" then some oneJoint else none
    transforms := fun _ => some 1
    nodes := ["tool", "base"]
    shortestPath := fun _ _ => ["tool", "base"] }

theorem oneAxis : Spec.IsUnitAxis oneJoint.axis := by simp [Spec.IsUnitAxis, oneJoint]

theorem one_chain : ∃ c : Chain 1, Chain.create oneTM (fun _ => "j") "base" "tool" = .ok c ∧ c.Ordered ∧
    (∀ i, c.jointLimits i = (-1, 2)) ∧
    ∀ q tm', (∃ v, (TransformManager.setJoint "j" v).exec oneTM = (.ok (), tm')) ∨ tm' = oneTM →
      ((c.forward q).exec tm').1 = .ok (fastMatrixFromAxisAngle oneJoint.axis (oneJoint.clip (q 0))) := by
  have hc : ∃ c : Chain 1, Chain.create oneTM (fun _ => "j") "base" "tool" = .ok c := by
    unfold Chain.create
    rw [if_neg (by rintro ⟨i, hi⟩; simp [oneTM] at hi)]
    simp only [oneTM, List.mem_cons]
    simp
    exact ⟨_, rfl⟩
  obtain ⟨c, hc⟩ := hc
  have hl : ∀ i, c.jointLimits i = (-1, 2) := by
    intro i
    have := (create_fields hc).2.2 i oneJoint (by simp [oneTM])
    simpa [oneJoint] using this
  have hprod : ∀ q, ((c.forward q).exec oneTM).1 =
      .ok (fastMatrixFromAxisAngle oneJoint.axis (oneJoint.clip (q 0))) := by
    intro q
    have := C48_forward_product hc (fun i => if i = 0 then "tool" else "base") (by
      intro a b ha hb h
      have ha : a ≤ 1 := ha
      have hb : b ≤ 1 := hb
      interval_cases a <;> interval_cases b <;> simp_all)
      rfl (fun _ => oneJoint) (by intro i; simp [oneTM]) (by intro i; fin_cases i; simp [oneJoint])
      (by intro i; fin_cases i; simp [oneJoint]) q
    rw [this]
    simp [List.ofFn_succ, Joint.transform, oneJoint]
  refine ⟨c, hc, ?_, hl, ?_⟩
  · intro i; rw [hl i]; norm_num
  · rintro q tm' (⟨v, hv⟩ | rfl)
    · obtain ⟨tm'', h1, h2⟩ := C48_forward_memoryless hc q [("j", v)] (by simp)
      have : (setJoints [("j", v)]).exec oneTM = (TransformManager.setJoint "j" v).exec oneTM := by
        unfold setJoints
        rw [Py.exec_bind, hv]
        rfl
      rw [this, hv] at h1
      cases h1
      rw [h2, hprod]
    · exact hprod q

/-- The pose error of the example chain is the distance of the clipped joint angle from the desired angle. -/
theorem one_objective {c : Chain 1} (hc : ∀ q, ((c.forward q).exec oneTM).1 =
    .ok (fastMatrixFromAxisAngle oneJoint.axis (oneJoint.clip (q 0)))) (args : IKArgs) {θ : ℝ} (hθ : 0 ≤ θ ∧ θ ≤ 1)
    (q : Vec 1) :
    c.objective oneTM (fastMatrixFromAxisAngle oneJoint.axis θ) args q =
      .ok (args.orientationWeight * |θ - oneJoint.clip (q 0)|) := by
  unfold Chain.objective Chain.eePoseError
  rw [Py.exec_bind]
  have h := hc q
  rcases hf : (c.forward q).exec oneTM with ⟨r, tm'⟩
  rw [hf] at h
  simp only at h
  subst h
  simp only [Py.exec_lift]
  rw [C51_same_axis oneAxis]
  have h1 : oneJoint.clip (q 0) ≤ 2 := by simp [Joint.clip, oneJoint]
  have h2 : -1 ≤ oneJoint.clip (q 0) := by norm_num [Joint.clip, oneJoint]
  have := Real.two_le_pi
  rw [abs_le]
  constructor <;> linarith

/-- A minimiser that finds the angle 1 exactly whenever it lies in the bounds. -/
noncomputable def findsOne : Minimizer 1 := fun _ f _ bounds =>
  let x : Vec 1 := fun i => max (bounds i).1 (min 1 (bounds i).2)
  match f x with
  | .ok e => .ok (x, e)
  | .error e => .error e

theorem findsOne_sound : Spec.SoundMinimizer findsOne := by
  intro solver f x0 bounds x e hb h
  unfold findsOne at h
  simp only at h
  rcases hf : f (fun i => max (bounds i).1 (min 1 (bounds i).2)) with err | e'
  · rw [hf] at h; cases h
  · rw [hf] at h
    cases h
    refine ⟨fun i => ⟨le_max_left _ _, max_le (hb i) (min_le_right _ _)⟩, hf⟩

/-- C50, the finding: the promised search interval is not enforced. There is a chain, a sound minimiser that even
finds the exact solution, and a call with interval 1/10 around the joint angle 0 that returns the joint angle 1. -/
theorem C50_interval_finding :
    ∃ (c : Chain 1) (minimize : Minimizer 1) (args : IKArgs) (desired : Mat4),
      Chain.create oneTM (fun _ => "j") "base" "tool" = .ok c ∧ c.Ordered ∧ Spec.SoundMinimizer minimize ∧
      Spec.IsRigid desired ∧
      ∀ w : IKWorld 1, ∃ q w', (c.localInverseWithRandomRestarts oneTM minimize desired (fun _ => 0) (1 / 10) 10
          (1 / 1000) args).exec w = (.ok q, w') ∧
        ¬ Spec.Within (fun _ => ((0 : ℝ) - 1 / 10, (0 : ℝ) + 1 / 10)) q := by
  obtain ⟨c, hc, ho, hl, hf⟩ := one_chain
  have hobj := one_objective (fun q => hf q oneTM (Or.inr rfl)) ⟨"SLSQP", 1, 1⟩ (θ := 1) ⟨by norm_num, le_rfl⟩
  refine ⟨c, findsOne, ⟨"SLSQP", 1, 1⟩, fastMatrixFromAxisAngle oneJoint.axis 1, hc, ho, findsOne_sound, ?_, ?_⟩
  · rw [fastMatrix_eq_pose]; exact ⟨_, _, jointRotation_isRotation _ oneAxis _, rfl⟩
  · intro w
    have hres : ∀ x0, findsOne "SLSQP" (c.objective oneTM (fastMatrixFromAxisAngle oneJoint.axis 1) ⟨"SLSQP", 1, 1⟩) x0
        c.jointLimits = .ok (fun _ => 1, 0) := by
      intro x0
      have hx : (fun i => max (c.jointLimits i).1 (min 1 (c.jointLimits i).2) : Vec 1) = fun _ => 1 := by
        funext i; rw [hl i]; norm_num
      unfold findsOne
      simp only [hx, hobj]
      congr 2
      have : oneJoint.clip 1 = 1 := by norm_num [Joint.clip, oneJoint]
      rw [this]; simp
    obtain ⟨K, i, D, -, hexec⟩ := (C49_local_random_restarts c oneTM findsOne
      (fastMatrixFromAxisAngle oneJoint.axis 1) ⟨"SLSQP", 1, 1⟩ (fun _ => 0) (1 / 10) 10 (1 / 1000) w
      (fun _ _ => 1) (fun _ => 0) (fun k => hres _)).2 (by norm_num)
    refine ⟨_, _, hexec, ?_⟩
    intro h
    have := (h 0).2
    norm_num at this

end Verif
