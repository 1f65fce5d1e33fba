import Verif.Props.CartesianIntegration

/-! # C108: executions of Cartesian and dual-arm DMPs with `step` -/

namespace Verif
open Spec Quaternion Set

variable {m : ℕ}

/-- **C108 (positions of a `CartesianDMP`, `step`).** Every twice continuously differentiable movement of a position, with any initial
velocity: a Cartesian DMP with enough weights has weights with which positions and velocities returned by calls of `step`, each
with the result of the previous one, follow the movement until time `τ`, whatever the orientations are. -/
theorem C108_cartesian_position_step {τ : ℝ} (hτ : 0 < τ) {y v a : ℝ → Vec 3} (h : TwiceDifferentiable τ y v a)
    (α β goal : Vec 3) (smooth : Bool) {ε : ℝ} (hε : 0 < ε) :
    ∃ N, ∀ m : ℕ, N ≤ m → ∃ W : Fin 3 → Fin m → ℝ, ∀ s : CartesianDMP m, TimedCartesian s → s.executionTime = τ →
      linear s.alphaY = α → linear s.betaY = β → position s.goalY = goal → position s.startY = y 0 → s.smooth = smooth →
      s.ftPos.weights = W → s.t = 0 →
      ∃ h > 0, ∀ (sf : StepFunction) (qf : QuatStepFunction) (dt intDt : ℝ), 0 < dt → 0 < intDt → largestStep dt intDt sf ≤ h →
        ∀ (obj : ℕ → CartesianDMP m) (fb out : ℕ → Vec (3 + 4) × Vec (3 + 3)), obj 0 = { s with dt := dt, intDt := intDt } →
          Run (CartesianDMP.step none sf qf) obj fb out → position (fb 0).1 = y 0 → linear (fb 0).2 = v 0 →
          (∀ i, fb (i + 1) = out i) → ∀ i : ℕ, (i + 1) * dt ≤ τ → ∀ k,
            |position (out i).1 k - y ((i + 1) * dt) k| < ε ∧ |linear (out i).2 k - v ((i + 1) * dt) k| < ε := by
  obtain ⟨N, hN⟩ := C108_solution hτ h α β goal smooth (half_pos hε)
  refine ⟨N, fun m hm => ?_⟩
  obtain ⟨W, hW⟩ := hN m hm
  refine ⟨W, fun s hs hsτ hsα hsβ hsg hs0 hsm hsW ht => ?_⟩
  obtain ⟨p, hp, e1, e2, e3, e4, e5, e6, e7, e8, e9⟩ := hs.regular
  obtain ⟨y', v', hsol, -⟩ := C77_cartesian_position_exists hs 0 (y 0, v 0)
  have hclose := hW p hp (e3.trans hsτ) (e7.trans hsα) (e8.trans hsβ) (e2.trans hsg) (e1.trans hs0) (e6.trans hsm)
    (by rw [e9]; exact hsW) y' v' ((SolvesPosition.regular e1 e2 e3 e6 e7 e8 e9).1 hsol)
  obtain ⟨C, hC⟩ := C77_cartesian_position_step hs ht.ge (x0 := (y 0, v 0)) (y := y') (v := v') (by rw [ht]; exact hsol) τ
  refine ⟨ε / (2 * (|C| + 1)), by positivity, ?_⟩
  intro sf qf dt intDt hdt hint hstep obj fb out ho hrun hy hv hfb i hi k
  have h1 := hC sf qf dt intDt hdt hint obj fb out ho hrun (by rw [hy, hv]) hfb i (by rw [ht, zero_add]; exact hi) k
  rw [ht, zero_add] at h1
  have h2 := small_steps hε (largestStep_nonneg hdt hint sf) hstep
  have h3 := hclose ((i + 1) * dt) ⟨by positivity, hi⟩ k
  constructor
  · calc |position (out i).1 k - y ((i + 1) * dt) k|
        = |(position (out i).1 k - y' ((i + 1) * dt) k) + (y' ((i + 1) * dt) k - y ((i + 1) * dt) k)| := by ring_nf
      _ ≤ _ := abs_add_le _ _
      _ < ε := by linarith [h1.1, h3.1]
  · calc |linear (out i).2 k - v ((i + 1) * dt) k|
        = |(linear (out i).2 k - v' ((i + 1) * dt) k) + (v' ((i + 1) * dt) k - v ((i + 1) * dt) k)| := by ring_nf
      _ ≤ _ := abs_add_le _ _
      _ < ε := by linarith [h1.2, h3.2]

/-- **C108 (`DualCartesianDMP`, `step`).** Let `y arm` and `q arm` be twice continuously differentiable movements of both arms, with
any initial velocities and orientations less than half a turn away from the goal orientation. Every dual-arm DMP with enough
weights has weights with which the poses and velocities returned by `step`, from the first pose and velocity of the movement, each
call with the result of the previous one, follow the movements until time `τ`, for every `p_gain` if the object has not been
executed before (otherwise for `p_gain = 0`). -/
theorem C108_dual_step {τ : ℝ} (hτ : 0 < τ) {y v a : Fin 2 → ℝ → Vec 3}
    (h : ∀ arm, TwiceDifferentiable τ (y arm) (v arm) (a arm)) {q : Fin 2 → ℝ → Vec 4} {w acc : Fin 2 → ℝ → Vec 3}
    (hq : ∀ arm, OrientationMovement 0 τ (q arm) (w arm) (acc arm)) (α β : Vec 12)
    {smooth : Bool} (hβ : smooth = true → UniformRightGains β) (goal : Vec 14) (hg : ∀ arm, UnitQuat (armOrientation arm goal))
    (hang : ∀ arm, ∀ t ∈ Icc 0 τ, rotationAngle (armOrientation arm goal) (q arm t) < Real.pi) :
    ∃ C, ∀ ε > 0, ∃ N, ∀ m : ℕ, N ≤ m → ∃ W : Fin 12 → Fin m → ℝ, ∀ s : DualCartesianDMP m, TimedDual s →
      s.executionTime = τ → s.alphaY = α → s.betaY = β → s.smooth = smooth → s.goalY = goal → s.t = 0 →
      (∀ arm, armPosition arm s.startY = y arm 0 ∧ armOrientation arm s.startY = q arm 0) → s.ft.weights = W →
      ∃ h > 0, ∀ (ops : QuatOps) (sf : DualStepFunction) (dt intDt eps : ℝ), DualThreshold sf eps →
        (s.pGain = 0 ∨ s.initialized = false ∧ ∃ eps > 0, LawfulQuatOps ops eps) → 0 < dt → 0 < intDt → min intDt dt ≤ h →
        ∀ (obj : ℕ → DualCartesianDMP m) (fb out : ℕ → Vec 14 × Vec 12), obj 0 = { s with dt := dt, intDt := intDt } →
        Run (DualCartesianDMP.step ops none sf) obj fb out → (fb 0).1 = s.startY →
        (∀ arm, armLinear arm (fb 0).2 = v arm 0 ∧ armAngular arm (fb 0).2 = w arm 0) → (∀ i, fb (i + 1) = out i) →
        ∀ i : ℕ, (i + 1) * dt ≤ τ → ∀ arm,
          (∀ k, |armPosition arm (out i).1 k - y arm ((i + 1) * dt) k| < ε ∧
            |armLinear arm (out i).2 k - v arm ((i + 1) * dt) k| < ε) ∧
          rotationAngle (armOrientation arm (out i).1) (q arm ((i + 1) * dt)) < ε + C * eps ∧
          ∀ k, |armAngular arm (out i).2 k - w arm ((i + 1) * dt) k| < ε + C * eps := by
  have hunit : ∀ arm, UnitQuat (q arm 0) := fun arm => (hq arm).unit 0 ⟨le_rfl, hτ.le⟩
  choose C hC using fun arm => C108_orientation_step hτ (hq arm) (armAngular arm α) (armAngular arm β) smooth
    (hg arm) (hunit arm) (hang arm) (hang arm 0 ⟨le_rfl, hτ.le⟩)
  refine ⟨|C 0| + |C 1|, fun ε hε => ?_⟩
  have hCle : ∀ arm, C arm ≤ |C 0| + |C 1| := by
    intro arm
    fin_cases arm
    · exact (le_abs_self _).trans (le_add_of_nonneg_right (abs_nonneg _))
    · exact (le_abs_self _).trans (le_add_of_nonneg_left (abs_nonneg _))
  choose N hN using fun arm => hC arm ε hε
  choose N' hN' using fun arm => C108_cartesian_position_step hτ (h arm) (armLinear arm α) (armLinear arm β)
    (armPosition arm goal) smooth hε
  refine ⟨max (max (N 0) (N 1)) (max (N' 0) (N' 1)), fun m hm => ?_⟩
  have hmN : ∀ arm, N arm ≤ m := by
    intro arm
    fin_cases arm
    · exact (le_max_left _ _).trans ((le_max_left _ _).trans hm)
    · exact (le_max_right _ _).trans ((le_max_left _ _).trans hm)
  have hmN' : ∀ arm, N' arm ≤ m := by
    intro arm
    fin_cases arm
    · exact (le_max_left _ _).trans ((le_max_right _ _).trans hm)
    · exact (le_max_right _ _).trans ((le_max_right _ _).trans hm)
  choose Wr Hr hHr0 hr using fun arm => hN arm m (hmN arm)
  choose Wp hp using fun arm => hN' arm m (hmN' arm)
  refine ⟨fun j i => joinVel (fun arm k => Wp arm k i) (fun arm k => Wr arm k i) j, ?_⟩
  intro s hs hsτ hsα hsβ hsm hsg hst hs0 hsW
  choose p hpT harm hpt using fun arm => hs.exists_arm arm
  have hap : ∀ arm x, position (armPose arm x) = armPosition arm x := by
    intro arm x; rw [armPose_eq, position_eq, sliceTo_hstack, armPosition_eq]
  have har : ∀ arm x, orientation (armPose arm x) = armOrientation arm x := by
    intro arm x; rw [armPose_eq, orientation_eq, sliceFrom_hstack, armOrientation_eq]
  have hal : ∀ arm x, linear (armVelocity arm x) = armLinear arm x := by
    intro arm x; rw [armVelocity_eq, linear_eq, sliceTo_hstack, armLinear_eq]
  have haa : ∀ arm x, angular (armVelocity arm x) = armAngular arm x := by
    intro arm x; rw [armVelocity_eq, angular_eq, sliceFrom_hstack, armAngular_eq]
  have hrot := fun arm => hr arm (p arm) (hpT arm) ((harm arm).executionTime.trans hsτ) (by rw [(harm arm).alphaY, haa, hsα])
    (by rw [(harm arm).betaY, haa, hsβ]) (by rw [(harm arm).goalY, har, hsg]) (by rw [(harm arm).startY, har, (hs0 arm).2])
    ((harm arm).smooth.trans hsm) (by
      funext k i
      rw [(harm arm).orientationWeights, hsW, armAngular_eq, armAng_joinVel]) (hpt arm)
  choose Hp hHp0 hpos using fun arm => hp arm (p arm) (hpT arm) ((harm arm).executionTime.trans hsτ)
    (by rw [(harm arm).alphaY, hal, hsα])
    (by rw [(harm arm).betaY, hal, hsβ]) (by rw [(harm arm).goalY, hap, hsg]) (by rw [(harm arm).startY, hap, (hs0 arm).1])
    ((harm arm).smooth.trans hsm) (by
      funext k i
      rw [(harm arm).positionWeights, hsW, armLinear_eq, armLin_joinVel]) (hpt arm)
  refine ⟨min (min (Hr 0) (Hr 1)) (min (Hp 0) (Hp 1)), lt_min (lt_min (hHr0 0) (hHr0 1)) (lt_min (hHp0 0) (hHp0 1)), ?_⟩
  intro ops sf dt intDt eps hsf hfree hdt hint hle obj fb out h0 hrun hf0 hv0 hfb i hi arm
  have hle1 : min intDt dt ≤ Hr arm := by
    fin_cases arm
    · exact hle.trans ((min_le_left _ _).trans (min_le_left _ _))
    · exact hle.trans ((min_le_left _ _).trans (min_le_right _ _))
  have hle2 : min intDt dt ≤ Hp arm := by
    fin_cases arm
    · exact hle.trans ((min_le_right _ _).trans (min_le_left _ _))
    · exact hle.trans ((min_le_right _ _).trans (min_le_right _ _))
  obtain ⟨qf, hsame, hqf⟩ : ∃ qf, SameQuaternions sf qf ∧ StepThreshold qf eps := by
    cases sf with
    | python ops' => exact ⟨.python ops', rfl, hsf⟩
    | cython => exact ⟨.cython, trivial, hsf⟩
  have hlaw : LawfulDualStep sf := by
    cases sf with
    | python ops' => exact ⟨eps, hsf.1, hsf.2⟩
    | cython => trivial
  have hsu : ∀ arm, UnitQuat (armOrientation arm s.startY) := fun arm => by rw [(hs0 arm).2]; exact hunit arm
  obtain ⟨objs, ho, hcart⟩ := Spec.ArmOf.steps (s := { s with dt := dt, intDt := intDt })
    (p := { p arm with dt := dt, intDt := intDt }) (arm := arm)
    ⟨(harm arm).executionTime, rfl, rfl, (harm arm).smooth, (harm arm).alphaY, (harm arm).betaY, (harm arm).startY, (harm arm).goalY,
      (harm arm).positionWeights, (harm arm).orientationWeights⟩
    (by show s.ft.Made (p arm).executionTime; rw [(harm arm).executionTime]; exact hs.made) (hpT arm).made (hpT arm).positive
    (fun hsm' _ => by show UniformRightGains s.betaY; rw [hsβ]; exact hβ (hsm.symm.trans hsm')) hint hdt hst.ge
    ((hpt arm).trans hst.symm) (pf := .euler) (.inl rfl) hsame h0 hrun
    (hfree.imp_right fun hf => ⟨hf.1, hlaw, hf.2, hsu, hf0, fun i => by rw [hfb]⟩)
  have hfb' : ∀ i, armState arm (fb (i + 1)) = armState arm (out i) := fun i => by rw [hfb]
  have k1 := hrot arm .euler qf eps dt intDt hqf hdt hint hle1 objs _ _ ho hcart
    (by simp only [armState, har, hf0, (hs0 arm).2]) (by simp only [armState, haa, (hv0 arm).2]) hfb' i hi
  have k2 := hpos arm .euler qf dt intDt hdt hint hle2 objs _ _ ho hcart
    (by simp only [armState, hap, hf0, (hs0 arm).1]) (by simp only [armState, hal, (hv0 arm).1]) hfb' i hi
  simp only [armState, har, hap, hal, haa] at k1 k2
  have heps : 0 < eps := (stepThreshold_lawful hqf).1
  have hmono : ε + C arm * eps ≤ ε + (|C 0| + |C 1|) * eps := by
    have := mul_le_mul_of_nonneg_right (hCle arm) heps.le
    linarith
  exact ⟨k2, k1.1.trans_le hmono, fun k => (k1.2 k).trans_le hmono⟩

/-- Dual-arm DMPs with any parameters, poses and weights exist. -/
theorem DualCartesianDMP.exists_timed (hm : 2 ≤ m) {τ : ℝ} (hτ : 0 < τ) (dt intDt pGain : ℝ) (smooth : Bool) (α β : Vec 12)
    (start goal : Vec 14) (W : Fin 12 → Fin m → ℝ) :
    ∃ s : DualCartesianDMP m, TimedDual s ∧ s.executionTime = τ ∧ s.dt = dt ∧ s.intDt = intDt ∧ s.pGain = pGain ∧ s.smooth = smooth ∧
      s.alphaY = α ∧ s.betaY = β ∧ s.startY = start ∧ s.goalY = goal ∧ s.ft.weights = W ∧ s.t = 0 ∧ s.initialized = false := by
  obtain ⟨ft, hft⟩ := (DMP.initForcingTerm_isOk_iff (d := 12) (m := m) τ).2 ⟨hm, hτ⟩
  obtain ⟨s0, h0, e0⟩ : ∃ s0, DualCartesianDMP.create m τ dt intDt pGain smooth (.array1 (List.ofFn α)) (.array1 (List.ofFn β)) =
      .ok s0 ∧ s0.executionTime = τ ∧ s0.dt = dt ∧ s0.intDt = intDt ∧ s0.pGain = pGain ∧ s0.smooth = smooth ∧ s0.alphaY = α ∧
        s0.betaY = β ∧ s0.t = 0 ∧ s0.initialized = false := by
    unfold DualCartesianDMP.create
    rw [show DualCartesianDMP.initForcingTerm m τ = DMP.initForcingTerm 12 m τ from rfl, hft, ensure1dArray_ofFn, ensure1dArray_ofFn]
    exact ⟨_, rfl, rfl, rfl, rfl, rfl, rfl, rfl, rfl, rfl, rfl⟩
  have h1 := (TimedDual.create h0).op (.configure { startY := some (List.ofFn start), goalY := some (List.ofFn goal) })
    (by intro τ h; cases h)
  have e1 : (DualOp.configure (m := m) { startY := some (List.ofFn start), goalY := some (List.ofFn goal) }).after s0 =
      { s0 with startY := start, goalY := goal } := by
    show ((DualCartesianDMP.configure _).exec s0).2 = _
    rw [DualCartesianDMP.exec_configure, C25_configure_sets _ _ (by simp [AllOk, FieldOk])]
    simp only [newValue_ofFn]
    rfl
  rw [e1] at h1
  have h2 := h1.op (.setWeights (List.ofFn fun i : Fin (12 * m) => W i.divNat i.modNat)) (by intro τ h; cases h)
  have hW : DMP.reshapeWeights 12 m (List.ofFn fun i : Fin (12 * m) => W i.divNat i.modNat) = .ok W := by
    unfold DMP.reshapeWeights
    rw [dif_pos (by simp)]
    congr 1
    funext k i
    simp only [List.getElem_ofFn]
    have e := finProdFinEquiv.symm_apply_apply (k, i)
    have e1 := congrArg Prod.fst e
    have e2 := congrArg Prod.snd e
    simp only [finProdFinEquiv, Equiv.coe_fn_symm_mk, Equiv.coe_fn_mk] at e1 e2
    exact congrArg₂ W e1 e2
  refine ⟨_, h2, ?_⟩
  rw [DualOp.after, DualCartesianDMP.exec_setWeights, hW]
  exact ⟨e0.1, e0.2.1, e0.2.2.1, e0.2.2.2.1, e0.2.2.2.2.1, e0.2.2.2.2.2.1, e0.2.2.2.2.2.2.1, rfl, rfl, rfl, e0.2.2.2.2.2.2.2.1,
    e0.2.2.2.2.2.2.2.2⟩

/-- Hypotheses of C108 for dual-arm DMPs are met: both arms turn by one radian and move one unit along the first axis, and for all
weights there is a dual-arm DMP with `p_gain = 1` that has not been executed and starts in the first pose of the movement. -/
example (hm : 2 ≤ m) (W : Fin 12 → Fin m → ℝ) : ∃ (y v a : Fin 2 → ℝ → Vec 3) (q : Fin 2 → ℝ → Vec 4) (w acc : Fin 2 → ℝ → Vec 3)
    (s : DualCartesianDMP m), (∀ arm, TwiceDifferentiable 1 (y arm) (v arm) (a arm)) ∧ (∀ arm, y arm 1 ≠ y arm 0) ∧
    (∀ arm, OrientationMovement 0 1 (q arm) (w arm) (acc arm)) ∧ TimedDual s ∧ s.executionTime = 1 ∧ s.smooth = true ∧
    UniformRightGains s.betaY ∧ (∀ arm, UnitQuat (armOrientation arm s.goalY)) ∧
    (∀ arm, ∀ t ∈ Icc 0 1, rotationAngle (armOrientation arm s.goalY) (q arm t) < Real.pi) ∧ s.t = 0 ∧
    (∀ arm, armPosition arm s.startY = y arm 0 ∧ armOrientation arm s.startY = q arm 0) ∧ s.ft.weights = W ∧ s.pGain = 1 ∧
    s.initialized = false := by
  obtain ⟨q, w, acc, h, -, -, ha, -⟩ := exists_orientation_movement
  obtain ⟨s, hs, e1, -, -, e2, e3, -, e4, e5, e6, e7, e8, e9⟩ := DualCartesianDMP.exists_timed hm one_pos (1 / 100) (1 / 1000) 1 true
    (fun _ => 25) (fun _ => 25 / 4) (joinState (fun _ => 0) fun _ => q 0) (joinState (fun _ => ![1, 0, 0]) fun _ => q 1) W
  refine ⟨fun _ t => ![t, 0, 0], fun _ _ => ![1, 0, 0], fun _ _ => 0, fun _ => q, fun _ => w, fun _ => acc, s, fun _ => ?_, fun _ he => ?_,
    fun _ => h, hs, e1, e3, by rw [e4]; exact ⟨rfl, rfl, rfl⟩, fun arm => ?_, fun arm t ht => ?_, e8, fun arm => ?_, e7, e2, e9⟩
  · refine ⟨fun t _ k => ?_, fun t _ k => ?_, fun k => continuousOn_const⟩
    · fin_cases k
      · exact (hasDerivAt_id t).hasDerivWithinAt
      · exact hasDerivWithinAt_const _ _ _
      · exact hasDerivWithinAt_const _ _ _
    · exact hasDerivWithinAt_const _ _ _
  · exact one_ne_zero (congrFun he 0)
  · rw [e6, armOrientation_eq, armRot_joinState]; exact h.unit 1 ⟨zero_le_one, le_rfl⟩
  · rw [e6, armOrientation_eq, armRot_joinState]; exact ha t ht
  · rw [e5, armOrientation_eq, armPosition_eq, armRot_joinState, armPos_joinState]
    refine ⟨?_, rfl⟩
    funext k; fin_cases k <;> rfl

end Verif
