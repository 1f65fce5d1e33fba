import Verif.Props.CartesianSteps

/-! # C77: executions of dual-arm DMPs with `step` -/

namespace Verif
open Spec Quaternion Set

variable {m : ℕ}

/-- **C77 (`DualCartesianDMP`, `step`).** Let `p` be a Cartesian DMP with the parameters of one arm of a dual-arm DMP at time 0, and
let positions `y` and orientations `q` solve the differential equations of `p`, with any initial velocities `v 0` and `w 0`. Poses and
velocities of this arm returned by calls of `step`, each with the result of the previous one, converge to the solution with the
step size, uniformly until time `R`, up to an error of the orientation that is proportional to the threshold `eps` below which the
quaternion logarithm is 0, for every `p_gain` if the object has not been executed before (otherwise for `p_gain = 0`). -/
theorem C77_dual_step {s : DualCartesianDMP m} {arm : Fin 2} {p : CartesianDMP m} (hs : TimedDual s) (hp : TimedCartesian p)
    (h : ArmOf s arm p) (ht : s.t = 0) (ht' : p.t = 0) (hβ : s.smooth = true → arm = 1 → UniformRightGains s.betaY) {R : ℝ}
    {y v : ℝ → Vec 3} {q : ℝ → Vec 4} {w : ℝ → Vec 3}
    (hpos : SolvesPosition p 0 (y 0, v 0) y v) (hrot : SolvesOrientation p R q w)
    (hg : UnitQuat (armOrientation arm s.goalY)) (hsu : ∀ arm, UnitQuat (armOrientation arm s.startY))
    (hangle : rotationAngle (armOrientation arm s.goalY) (armOrientation arm s.startY) < Real.pi) :
    ∃ C, ∀ ε > 0, ∃ h > 0, ∀ (ops : QuatOps) (sf : DualStepFunction) (dt intDt eps : ℝ), DualThreshold sf eps →
      0 < dt → 0 < intDt → min intDt dt ≤ h →
      ∀ (obj : ℕ → DualCartesianDMP m) (fb out : ℕ → Vec 14 × Vec 12), obj 0 = { s with dt := dt, intDt := intDt } →
        Run (DualCartesianDMP.step ops none sf) obj fb out → armPosition arm (fb 0).1 = y 0 → armLinear arm (fb 0).2 = v 0 →
        armOrientation arm (fb 0).1 = q 0 → armAngular arm (fb 0).2 = w 0 → (∀ i, fb (i + 1) = out i) →
        (s.pGain = 0 ∨ s.initialized = false ∧ (fb 0).1 = s.startY ∧ ∃ eps > 0, LawfulQuatOps ops eps) →
        ∀ i : ℕ, (i + 1) * dt ≤ R →
          (∀ k, |armPosition arm (out i).1 k - y ((i + 1) * dt) k| ≤ C * min intDt dt ∧
            |armLinear arm (out i).2 k - v ((i + 1) * dt) k| ≤ C * min intDt dt) ∧
          rotationAngle (armOrientation arm (out i).1) (q ((i + 1) * dt)) < ε + C * eps ∧
          ∀ k, |armAngular arm (out i).2 k - w ((i + 1) * dt) k| < ε + C * eps := by
  have hap : ∀ x, position (armPose arm x) = armPosition arm x := by
    intro x; rw [armPose_eq, position_eq, sliceTo_hstack, armPosition_eq]
  have har : ∀ x, orientation (armPose arm x) = armOrientation arm x := by
    intro x; rw [armPose_eq, orientation_eq, sliceFrom_hstack, armOrientation_eq]
  have hal : ∀ x, linear (armVelocity arm x) = armLinear arm x := by
    intro x; rw [armVelocity_eq, linear_eq, sliceTo_hstack, armLinear_eq]
  have haa : ∀ x, angular (armVelocity arm x) = armAngular arm x := by
    intro x; rw [armVelocity_eq, angular_eq, sliceFrom_hstack, armAngular_eq]
  obtain ⟨C, hC⟩ := C77_cartesian_position_step hp ht'.ge (x0 := (y 0, v 0)) (y := y) (v := v) (by rw [ht']; exact hpos) R
  obtain ⟨C', hC'⟩ := C77_orientation_step hp ht' hrot (by rw [h.goalY, har]; exact hg) (by rw [h.startY, har]; exact hsu arm)
    (by rw [h.startY, h.goalY, har, har]; exact hangle)
  refine ⟨|C| + |C'|, fun ε hε => ?_⟩
  obtain ⟨H, hH0, hH⟩ := hC' ε hε
  refine ⟨H, hH0, ?_⟩
  intro ops sf dt intDt eps hsf hdt hint hle obj fb out h0 hrun hy0 hv0 hq0 hw0 hfb hfree i hi
  obtain ⟨qf, hsame, hqf⟩ : ∃ qf, SameQuaternions sf qf ∧ StepThreshold qf eps := by
    cases sf with
    | python ops' => exact ⟨.python ops', rfl, hsf⟩
    | cython => exact ⟨.cython, trivial, hsf⟩
  have hlaw : LawfulDualStep sf := by
    cases sf with
    | python ops' => exact ⟨eps, hsf.1, hsf.2⟩
    | cython => trivial
  obtain ⟨objs, ho, hcart⟩ := Spec.ArmOf.steps (s := { s with dt := dt, intDt := intDt })
    (p := { p with dt := dt, intDt := intDt }) (arm := arm)
    ⟨h.executionTime, rfl, rfl, h.smooth, h.alphaY, h.betaY, h.startY, h.goalY, h.positionWeights, h.orientationWeights⟩
    (by show s.ft.Made p.executionTime; rw [h.executionTime]; exact hs.made) hp.made hp.positive hβ hint hdt ht.ge
    (ht'.trans ht.symm) (pf := .euler) (.inl rfl) hsame h0 hrun
    (hfree.imp_right fun hf => ⟨hf.1, hlaw, hf.2.2, hsu, hf.2.1, fun i => by rw [hfb]⟩)
  have hfb' : ∀ i, armState arm (fb (i + 1)) = armState arm (out i) := fun i => by rw [hfb]
  have k1 := hH .euler qf eps dt intDt hqf hdt hint hle objs _ _ ho hcart
    (by simp only [armState, har, hq0]) (by simp only [armState, haa, hw0]) hfb' i hi
  have k2 := hC .euler qf dt intDt hdt hint objs _ _ ho hcart
    (by simp only [armState, hap, hal, hy0, hv0]) hfb' i (by rw [ht', zero_add]; exact hi)
  rw [ht', zero_add] at k2
  simp only [armState, har, hap, hal, haa] at k1 k2
  have heps : 0 < eps := (stepThreshold_lawful hqf).1
  have hmono : ε + C' * eps ≤ ε + (|C| + |C'|) * eps := by
    have : C' ≤ |C| + |C'| := (le_abs_self _).trans (le_add_of_nonneg_left (abs_nonneg _))
    have := mul_le_mul_of_nonneg_right this heps.le
    linarith
  have hmono' : C * min intDt dt ≤ (|C| + |C'|) * min intDt dt :=
    mul_le_mul_of_nonneg_right ((le_abs_self _).trans (le_add_of_nonneg_right (abs_nonneg _))) (le_min hint.le hdt.le)
  exact ⟨fun k => ⟨(k2 k).1.trans hmono', (k2 k).2.trans hmono'⟩, k1.1.trans_le hmono, fun k => (k1.2 k).trans_le hmono⟩

/-- The right arm of a new dual-arm DMP with `p_gain = 1` that has to turn by one radian meets the hypotheses for all times `R`. -/
example (R : ℝ) : ∃ (s : DualCartesianDMP 10) (p : CartesianDMP 10) (y v : ℝ → Vec 3) (q : ℝ → Vec 4) (w : ℝ → Vec 3), TimedDual s ∧
    TimedCartesian p ∧ ArmOf s 1 p ∧ s.t = 0 ∧ p.t = 0 ∧ UniformRightGains s.betaY ∧ s.pGain = 1 ∧ s.initialized = false ∧
    SolvesPosition p 0 (y 0, v 0) y v ∧ SolvesOrientation p R q w ∧ y 0 = armPosition 1 s.startY ∧ q 0 = armOrientation 1 s.startY ∧
    UnitQuat (armOrientation 1 s.goalY) ∧ (∀ arm, UnitQuat (armOrientation arm s.startY)) ∧
    rotationAngle (armOrientation 1 s.goalY) (armOrientation 1 s.startY) = 1 := by
  have hl : length ![1, 0, 0] = 1 := by simp [length]
  have hu : UnitQuat ![1, 0, 0, 0] := by simp [UnitQuat]
  let g : Vec 4 := turn ![1, 0, 0] ![1, 0, 0, 0] 1
  have hug : UnitQuat g := unit_turn _ hu 1
  let start : Vec 14 := ![0, 0, 0, 1, 0, 0, 0, 0, 0, 0, 1, 0, 0, 0]
  let goal : Vec 14 := ![0, 0, 0, 1, 0, 0, 0, 1, 2, 3, g 0, g 1, g 2, g 3]
  obtain ⟨s, hs, -, -, -, h1, h2, h3, h4, h5, h6, h7, h8, h9⟩ := DualCartesianDMP.exists_timed (m := 10) (by norm_num) one_pos
    (1 / 100) (1 / 1000) 1 false (fun _ => 25) (fun _ => 25 / 4) start goal (fun _ _ => 0)
  obtain ⟨p, hp, harm, hpt⟩ := hs.exists_arm 1
  have es : ∀ arm, armOrientation arm s.startY = ![1, 0, 0, 0] := by
    intro arm; rw [h5]; fin_cases arm <;> funext k <;> fin_cases k <;> rfl
  have eg : armOrientation 1 s.goalY = g := by rw [h6]; funext k; fin_cases k <;> rfl
  have har : ∀ x, orientation (armPose 1 x) = armOrientation 1 x := by
    intro x; rw [armPose_eq, orientation_eq, sliceFrom_hstack, armOrientation_eq]
  have eps : orientation p.startY = ![1, 0, 0, 0] := by rw [harm.startY, har, es]
  have epg : orientation p.goalY = g := by rw [harm.goalY, har, eg]
  have hr : IsRotationTo g ![1, 0, 0, 0] ![1, 0, 0] := by
    refine ⟨by rw [hl]; linarith [Real.two_le_pi], .inl ?_⟩
    have : quat ![1, 0, 0, 0] = 1 := by ext <;> simp [quat]
    rw [quat_turn, one_smul, this]; simp
  obtain ⟨y, v, hy, -⟩ := C77_cartesian_position_exists hp 0 (armPosition 1 s.startY, 0)
  have hy0 : (y 0, v 0) = (armPosition 1 s.startY, 0) := hy.start
  obtain ⟨q, w, hq, hq0, hw0, -⟩ := C77_orientation_critically_damped hp (by
      funext k i
      rw [harm.orientationWeights, h7]
      fin_cases k <;> rfl) (harm.smooth.trans h2) (α := 25) (by norm_num)
    (fun k => by rw [harm.alphaY, h3]; fin_cases k <;> rfl)
    (fun k => by rw [harm.betaY, h4]; fin_cases k <;> rfl)
    (by rw [epg]; exact hug) (by rw [eps]; exact hu) (a₀ := ![1, 0, 0]) (by rw [epg, eps]; exact hr)
    (by rw [hl]; linarith [Real.two_le_pi]) R
  refine ⟨s, p, y, v, q, w, hs, hp, harm, h8, hpt, by rw [h4]; exact ⟨rfl, rfl, rfl⟩, h1, h9, ?_, hq, (Prod.mk.inj hy0).1,
    by rw [hq0, eps, es], by rw [eg]; exact hug, fun arm => by rw [es]; exact hu, ?_⟩
  · rw [hy0]; exact hy
  · rw [es, eg, hr.angle, hl]

end Verif
