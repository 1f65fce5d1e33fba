import Verif.Spec.PositionSolution
import Verif.Props.DualArms

/-! # C77: Cartesian and dual-arm DMPs approximate the solutions of their differential equations -/

namespace Verif
open Spec Quaternion Set

variable {m : ℕ}

/-- A regular DMP with the parameters of the position has the same solutions. -/
theorem Spec.SolvesPosition.regular {s : CartesianDMP m} {p : DMP 3 m} (h1 : p.startY = position s.startY)
    (h2 : p.goalY = position s.goalY) (h3 : p.executionTime = s.executionTime) (h4 : p.smooth = s.smooth)
    (h5 : p.alphaY = linear s.alphaY) (h6 : p.betaY = linear s.betaY) (h7 : p.ft = s.ftPos) {t0 : ℝ} {x0 : Vec 3 × Vec 3}
    {y v : ℝ → Vec 3} : SolvesPosition s t0 x0 y v ↔ SolvesDmp p t0 x0 y v := by
  constructor
  · intro h
    refine ⟨h.start, h.velocity, fun t k => ?_⟩
    rw [h1, h2, h3, h4, h5, h6, h7]
    exact h.acceleration t k
  · intro h
    refine ⟨h.start, h.velocity, fun t k => ?_⟩
    rw [← h1, ← h2, ← h3, ← h4, ← h5, ← h6, ← h7]
    exact h.acceleration t k

/-- **C77 (positions of a `CartesianDMP`: the differential equation has exactly one solution).** -/
theorem C77_cartesian_position_exists {s : CartesianDMP m} (hs : TimedCartesian s) (t0 : ℝ) (x0 : Vec 3 × Vec 3) :
    ∃ y v, SolvesPosition s t0 x0 y v ∧ ∀ y' v', SolvesPosition s t0 x0 y' v' → y' = y ∧ v' = v := by
  obtain ⟨p, hp, e1, e2, e3, e4, e5, e6, e7, e8, e9⟩ := hs.regular
  obtain ⟨y, v, h, hu⟩ := C77_solution_exists hp t0 x0
  exact ⟨y, v, (SolvesPosition.regular e1 e2 e3 e6 e7 e8 e9).2 h,
    fun y' v' h' => hu y' v' ((SolvesPosition.regular e1 e2 e3 e6 e7 e8 e9).1 h')⟩

/-- **C77 (positions of a `CartesianDMP`, `open_loop`).** Let `y` be the solution of the differential equation of the position
that starts at rest in the start position. For every duration `R` there is a constant `C` such that, for all positive `dt` and
`int_dt`, all step functions and whatever the orientations are, `open_loop` returns, and its positions up to time `R` differ from
the solution by at most `C` times the largest step. -/
theorem C77_cartesian_position_open_loop {s : CartesianDMP m} (hs : TimedCartesian s) {y v : ℝ → Vec 3}
    (hsol : SolvesPosition s 0 (position s.startY, 0) y v) (R : ℝ) :
    ∃ C, ∀ (name : String) (sf : StepFunction) (dt intDt : ℝ), StepFunction.lookup name = .ok sf → 0 < dt → 0 < intDt →
      ∀ ops qname qf, QuatStepFunction.lookup ops qname = .ok qf →
      (∀ r : ℝ, 0 ≤ r → ∃ T Y,
        ((CartesianDMP.openLoop ops (some r) none name qname).exec { s with dt := dt, intDt := intDt }).1 = .ok (T, Y)) ∧
      ∀ runT T Y,
      ((CartesianDMP.openLoop ops runT none name qname).exec { s with dt := dt, intDt := intDt }).1 = .ok (T, Y) →
        ∀ i (hT : i < T.length) (hY : i < Y.length), T[i] ≤ R → ∀ k,
          |position Y[i] k - y T[i] k| ≤ C * largestStep dt intDt sf := by
  obtain ⟨p, hp, e1, e2, e3, e4, e5, e6, e7, e8, e9⟩ := hs.regular
  obtain ⟨C, hC⟩ := C77_open_loop hp (y := y) (v := v) (by
    rw [e1]; exact (SolvesPosition.regular e1 e2 e3 e6 e7 e8 e9).1 hsol) R
  refine ⟨C, fun name sf dt intDt hname hdt hint ops qname qf hqname =>
    ⟨fun r hr => CartesianDMP.openLoop_returns (s := { s with dt := dt, intDt := intDt }) hname hqname hdt hs.positive hint hr, fun runT T Y hr i hT hY hi k => ?_⟩⟩
  have h1 := C33_position_is_regular_dmp { s with dt := dt, intDt := intDt } { p with dt := dt, intDt := intDt } e1 e2 e3 rfl
    rfl e6 e7 e8 e9 hr
  have h2 := (hC name sf dt intDt hname hdt hint).2 runT T _ h1 i hT (by simpa using hY) hi k
  simpa using h2

/-- **C77 (positions of a `CartesianDMP`, `step`).** Let `y`, `v` be the solution that starts in the position and velocity passed
to the first call of `step`. For every time `R` there is a constant `C` such that, for all positive `dt` and `int_dt` and all step
functions, positions and velocities returned by calls of `step` up to time `R`, each with the result of the previous one, differ
from the solution by at most `C` times the largest step. -/
theorem C77_cartesian_position_step {s : CartesianDMP m} (hs : TimedCartesian s) (ht : 0 ≤ s.t) {x0 : Vec 3 × Vec 3}
    {y v : ℝ → Vec 3} (hsol : SolvesPosition s s.t x0 y v) (R : ℝ) :
    ∃ C, ∀ (sf : StepFunction) (qf : QuatStepFunction) (dt intDt : ℝ), 0 < dt → 0 < intDt →
      ∀ (obj : ℕ → CartesianDMP m) (fb out : ℕ → Vec (3 + 4) × Vec (3 + 3)), obj 0 = { s with dt := dt, intDt := intDt } →
        Run (CartesianDMP.step none sf qf) obj fb out → (position (fb 0).1, linear (fb 0).2) = x0 → (∀ i, fb (i + 1) = out i) →
        ∀ i : ℕ, s.t + (i + 1) * dt ≤ R → ∀ k,
          |position (out i).1 k - y (s.t + (i + 1) * dt) k| ≤ C * largestStep dt intDt sf ∧
          |linear (out i).2 k - v (s.t + (i + 1) * dt) k| ≤ C * largestStep dt intDt sf := by
  obtain ⟨ft, h1, -⟩ := hs.forcingTerm
  have h2 := (DMP.initForcingTerm_isOk_iff (d := 3) (m := m) s.executionTime).1 ⟨ft, h1⟩
  obtain ⟨C, -, hC⟩ := run_error (s.posArgs none) rfl rfl rfl (show 0 < s.executionTime from hs.positive) (by omega)
    (show (0 : ℝ) ≤ s.t from ht) R hsol.velocity (fun t k => by
      have e : (s.posArgs none).goalT - (s.posArgs none).startT = s.executionTime := sub_zero _
      rw [e]
      have := hsol.acceleration t k
      simp only [position_eq, linear_eq] at this
      exact this)
  refine ⟨C, fun sf qf dt intDt hdt hint obj fb out h0 hrun hfb0 hfb i hi k => ?_⟩
  have hrun' := CartesianDMP.run_objects hrun
  have h3 := hC sf dt intDt hdt hint (fun i => (position (fb i).1, linear (fb i).2)) (by rw [hfb0, hsol.start]) (fun i => by
      have := (hrun' i).2.1
      rw [h0] at this
      simp only [hfb]
      exact this) (i + 1) (by push_cast; exact hi) k
  simp only [hfb] at h3
  push_cast at h3
  exact h3

/-- **C77 (`DualCartesianDMP`, `open_loop`).** Let `p` be a Cartesian DMP with the parameters of one arm of a dual-arm DMP, and let
positions `y` and orientations `q` solve the differential equations of `p`, from the start pose at rest. The poses of this arm
returned by `open_loop` converge to `y` and `q` with the step size, uniformly until time `R`, up to an error of the orientation
that is proportional to the threshold `eps` below which the quaternion logarithm is 0. -/
theorem C77_dual_open_loop {s : DualCartesianDMP m} {arm : Fin 2} {p : CartesianDMP m} (hs : TimedDual s) (hp : TimedCartesian p)
    (h : ArmOf s arm p) (hβ : s.smooth = true → arm = 1 → UniformRightGains s.betaY) (hgain : s.pGain = 0)
    (hrest : armVelocity arm s.startYd = 0) {R : ℝ} (hR : 0 ≤ R) {y v : ℝ → Vec 3} {q : ℝ → Vec 4} {w : ℝ → Vec 3}
    (hpos : SolvesPosition p 0 (armPosition arm s.startY, 0) y v) (hrot : SolvesOrientation p R q w)
    (hq0 : q 0 = armOrientation arm s.startY) (hw0 : w 0 = 0) (hg : UnitQuat (armOrientation arm s.goalY)) :
    ∃ C, ∀ ε > 0, ∃ h > 0, ∀ (ops : QuatOps) (name : String) (sf : DualStepFunction) (dt intDt eps : ℝ),
      DualStepFunction.lookup ops name = .ok sf → DualThreshold sf eps → 0 < dt → 0 < intDt → min intDt dt ≤ h →
      ∀ runT, (∀ r, runT = some r → 0 ≤ r) → ∃ T P,
      ((DualCartesianDMP.openLoop ops runT none name).exec { s with dt := dt, intDt := intDt }).1 = .ok (T, P) ∧
        ∀ i (hT : i < T.length) (hP : i < P.length), T[i] ≤ R →
          (∀ k, |armPosition arm P[i] k - y T[i] k| ≤ C * min intDt dt) ∧
          rotationAngle (armOrientation arm P[i]) (q T[i]) < ε + C * eps ∧
          ∀ k, |armOrientation arm P[i] k - q T[i] k| < ε + C * eps := by
  have hap : ∀ x, position (armPose arm x) = armPosition arm x := by
    intro x; rw [armPose_eq, position_eq, sliceTo_hstack, armPosition_eq]
  have har : ∀ x, orientation (armPose arm x) = armOrientation arm x := by
    intro x; rw [armPose_eq, orientation_eq, sliceFrom_hstack, armOrientation_eq]
  obtain ⟨C, hC⟩ := C77_cartesian_position_open_loop hp (y := y) (v := v) (by rw [h.startY, hap]; exact hpos) R
  obtain ⟨C', hC'⟩ := C77_orientation_open_loop hp hrot (by rw [h.startY, har]; exact hq0) hw0 hR (by rw [h.goalY, har]; exact hg)
  refine ⟨|C| + |C'|, fun ε hε => ?_⟩
  obtain ⟨H, hH0, hH⟩ := hC' ε hε
  refine ⟨H, hH0, ?_⟩
  intro ops name sf dt intDt eps hname hsf hdt hint hle runT hrunT
  have hnames : name = "python" ∨ name = "cython" := by
    unfold DualStepFunction.lookup at hname
    split_ifs at hname with h1 h2
    · exact .inl h1
    · exact .inr h2
  obtain ⟨qf, hqname, hqf⟩ : ∃ qf, QuatStepFunction.lookup ops name = .ok qf ∧ StepThreshold qf eps := by
    rcases hnames with rfl | rfl
    · cases hname; exact ⟨_, rfl, hsf⟩
    · cases hname; exact ⟨_, rfl, hsf⟩
  obtain ⟨T, P, hTP, hcart⟩ := Spec.ArmOf.openLoop (s := { s with dt := dt, intDt := intDt })
    (p := { p with dt := dt, intDt := intDt }) (arm := arm)
    ⟨h.executionTime, rfl, rfl, h.smooth, h.alphaY, h.betaY, h.startY, h.goalY, h.positionWeights, h.orientationWeights⟩
    (by show s.ft.Made p.executionTime; rw [h.executionTime]; exact hs.made) hp.made hp.positive hβ hint hdt hgain hrest ops hrunT
    (name := "euler") (.inl rfl) hnames
  refine ⟨T, P, hTP, ?_⟩
  intro i hT hP hi
  have k1 := (hH "euler" .euler dt intDt rfl hdt hint hle ops name qf eps hqname hqf).2 runT T _ hcart i hT (by simpa using hP) hi
  have k2 := (hC "euler" .euler dt intDt rfl hdt hint ops name qf hqname).2 runT T _ hcart i hT (by simpa using hP) hi
  simp only [List.getElem_map, har, hap] at k1 k2
  have heps : 0 < eps := (stepThreshold_lawful hqf).1
  have hmono : ε + C' * eps ≤ ε + (|C| + |C'|) * eps := by
    have : C' ≤ |C| + |C'| := (le_abs_self _).trans (le_add_of_nonneg_left (abs_nonneg _))
    have := mul_le_mul_of_nonneg_right this heps.le
    linarith
  refine ⟨fun k => (k2 k).trans ?_, k1.1.trans_le hmono, fun k => (k1.2 k).trans_le hmono⟩
  exact mul_le_mul_of_nonneg_right ((le_abs_self _).trans (le_add_of_nonneg_right (abs_nonneg _))) (le_min hint.le hdt.le)

/-- The right arm of a dual-arm DMP that has to turn by one radian meets the hypotheses of `C77_dual_open_loop` for all times `R`. -/
example (R : ℝ) : ∃ (s : DualCartesianDMP 10) (p : CartesianDMP 10) (y v : ℝ → Vec 3) (q : ℝ → Vec 4) (w : ℝ → Vec 3), TimedDual s ∧
    TimedCartesian p ∧ ArmOf s 1 p ∧ UniformRightGains s.betaY ∧ s.pGain = 0 ∧ armVelocity 1 s.startYd = 0 ∧
    SolvesPosition p 0 (armPosition 1 s.startY, 0) y v ∧ SolvesOrientation p R q w ∧ q 0 = armOrientation 1 s.startY ∧ w 0 = 0 ∧
    UnitQuat (armOrientation 1 s.goalY) ∧ rotationAngle (armOrientation 1 s.goalY) (armOrientation 1 s.startY) = 1 := by
  have hl : length ![1, 0, 0] = 1 := by simp [length]
  have hu : UnitQuat ![1, 0, 0, 0] := by simp [UnitQuat]
  let g : Vec 4 := turn ![1, 0, 0] ![1, 0, 0, 0] 1
  have hug : UnitQuat g := unit_turn _ hu 1
  obtain ⟨s0, h0, h1, h2, -, -, h3, h4, h5, h6, h7, -⟩ := DualCartesianDMP.create_ok 10 (by norm_num) (τ := 1) one_pos (1 / 100)
    (1 / 1000) 0 false 25 (25 / 4)
  let start : Vec 14 := ![0, 0, 0, 1, 0, 0, 0, 0, 0, 0, 1, 0, 0, 0]
  let goal : Vec 14 := ![0, 0, 0, 1, 0, 0, 0, 1, 2, 3, g 0, g 1, g 2, g 3]
  have hs := (TimedDual.create h0).op (.configure { startY := some (List.ofFn start), goalY := some (List.ofFn goal) })
    (by intro τ h; cases h)
  have e1 : (DualOp.configure { startY := some (List.ofFn start), goalY := some (List.ofFn goal) }).after s0 =
      { s0 with startY := start, goalY := goal } := by
    show ((DualCartesianDMP.configure _).exec s0).2 = _
    rw [DualCartesianDMP.exec_configure, C25_configure_sets _ _ (by simp [AllOk, FieldOk])]
    simp only [newValue_ofFn]
    rfl
  rw [e1] at hs
  set s : DualCartesianDMP 10 := { s0 with startY := start, goalY := goal } with hsdef
  obtain ⟨p, hp, harm, -⟩ := hs.exists_arm 1
  have es : armOrientation 1 s.startY = ![1, 0, 0, 0] := by funext k; fin_cases k <;> rfl
  have eg : armOrientation 1 s.goalY = g := by funext k; fin_cases k <;> rfl
  have har : ∀ x, orientation (armPose 1 x) = armOrientation 1 x := by
    intro x; rw [armPose_eq, orientation_eq, sliceFrom_hstack, armOrientation_eq]
  have eps : orientation p.startY = ![1, 0, 0, 0] := by rw [harm.startY, har, es]
  have epg : orientation p.goalY = g := by rw [harm.goalY, har, eg]
  have hr : IsRotationTo g ![1, 0, 0, 0] ![1, 0, 0] := by
    refine ⟨by rw [hl]; linarith [Real.two_le_pi], .inl ?_⟩
    have : quat ![1, 0, 0, 0] = 1 := by ext <;> simp [quat]
    rw [quat_turn, one_smul, this]; simp
  obtain ⟨y, v, hy, -⟩ := C77_cartesian_position_exists hp 0 (armPosition 1 s.startY, 0)
  obtain ⟨q, w, hq, hq0, hw0, -⟩ := C77_orientation_critically_damped hp (by
      funext k i
      rw [harm.orientationWeights]
      show armAngular 1 (fun j => s0.ft.weights j i) k = 0
      rw [h7]; fin_cases k <;> rfl) (harm.smooth.trans h4) (α := 25) (by norm_num)
    (fun k => by rw [harm.alphaY]; show angular (armVelocity 1 s0.alphaY) k = _; rw [h5]; fin_cases k <;> rfl)
    (fun k => by rw [harm.betaY]; show angular (armVelocity 1 s0.betaY) k = _; rw [h6]; fin_cases k <;> rfl)
    (by rw [epg]; exact hug) (by rw [eps]; exact hu) (a₀ := ![1, 0, 0]) (by rw [epg, eps]; exact hr)
    (by rw [hl]; linarith [Real.two_le_pi]) R
  refine ⟨s, p, y, v, q, w, hs, hp, harm, ?_, h3, ?_, hy, hq, by rw [hq0, eps, es], hw0, by rw [eg]; exact hug, ?_⟩
  · show UniformRightGains s0.betaY
    rw [h6]; exact ⟨rfl, rfl, rfl⟩
  · show armVelocity 1 s0.startYd = 0
    rw [h1]; funext k; fin_cases k <;> rfl
  · rw [es, eg, hr.angle, hl]

end Verif
