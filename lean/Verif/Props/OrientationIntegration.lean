import Verif.Lemmas.OrientationFollow
import Verif.Lemmas.Turn
import Verif.Spec.OrientationSolution

/-! # Orientations of Cartesian DMPs: C77 and C108 -/

namespace Verif
open Spec Quaternion Set

variable {m : ℕ}

/-- The forcing term of the orientation belongs to the execution time. -/
theorem Spec.TimedCartesian.rotForcingTerm {s : CartesianDMP m} (hs : TimedCartesian s) :
    ∃ ft, DMP.initForcingTerm 3 m s.executionTime = .ok ft ∧ s.ftRot = { ft with weights := s.ftRot.weights } := by
  induction hs with
  | create h =>
    rename_i τ dt intDt smooth α β s
    unfold CartesianDMP.create at h
    rw [CartesianDMP.initForcingTerms_eq] at h
    cases h1 : DMP.initForcingTerm 3 m τ with
    | error e => rw [h1] at h; cases h
    | ok ft =>
      rw [h1] at h
      cases h2 : ensure1dArray α (3 + 3) with
      | error e => rw [h2] at h; cases h
      | ok a =>
        rw [h2] at h
        cases h3 : ensure1dArray β (3 + 3) with
        | error e => rw [h3] at h; cases h
        | ok b =>
          rw [h3] at h
          simp only [bind, Except.bind, Except.map, Pure.pure, Except.pure, Except.ok.injEq] at h
          subst h
          exact ⟨ft, h1, rfl⟩
  | @op s o hs hok ih =>
    obtain ⟨ft, h1, h2⟩ := ih
    cases o with
    | step c sf qf y yd =>
      simp only [CartesianOp.after, CartesianDMP.exec_step]
      split
      · exact ⟨ft, h1, h2⟩
      · split <;> exact ⟨ft, h1, h2⟩
    | openLoop ops t c nm qn => simp only [CartesianOp.after, CartesianDMP.exec_openLoop]; exact ⟨ft, h1, h2⟩
    | configure a => exact ⟨ft, h1, h2⟩
    | reset => exact ⟨ft, h1, h2⟩
    | setWeights w =>
      simp only [CartesianOp.after, CartesianDMP.exec_setWeights]
      split
      · exact ⟨ft, h1, h2⟩
      · split
        · exact ⟨ft, h1, by rw [h2]⟩
        · exact ⟨ft, h1, by rw [h2]⟩
    | setExecutionTime τ =>
      have h3 := hok τ rfl
      simp only [CartesianOp.after]
      rw [CartesianDMP.exec_setExecutionTime] at h3 ⊢
      cases h4 : DMP.initForcingTerm 3 m τ with
      | error e => rw [h4] at h3; cases h3
      | ok ft' => exact ⟨ft', h4, rfl⟩
    | imitate ops qgrad T Y reg afv =>
      simp only [CartesianOp.after, CartesianDMP.exec_imitate]
      split
      · exact ⟨ft, h1, h2⟩
      · split
        · exact ⟨ft, h1, by rw [h2]⟩
        · exact ⟨ft, h1, by rw [h2]; rfl⟩

/-- There is a DMP with the forcing term of the orientation of a Cartesian DMP. -/
theorem Spec.TimedCartesian.rotRegular {s : CartesianDMP m} (hs : TimedCartesian s) :
    ∃ p : DMP 3 m, p.Reachable ∧ p.executionTime = s.executionTime ∧ p.smooth = s.smooth ∧
      p.alphaY = angular s.alphaY ∧ p.betaY = angular s.betaY ∧ p.ft = s.ftRot := by
  obtain ⟨ft, h1, h2⟩ := hs.rotForcingTerm
  have h3 := (DMP.initForcingTerm_isOk_iff (d := 3) (m := m) s.executionTime).1 ⟨ft, h1⟩
  obtain ⟨p, hp, e1, e2, e3, -, e5, e6, e7, e8, -, e10, e11, -⟩ := DMP.exists_configured (d := 3) h3.1 h3.2 s.dt s.intDt 0
    s.smooth (angular s.alphaY) (angular s.betaY) 0 0 0 s.ftRot.weights
  refine ⟨p, hp, e1, e10, e5, e6, ?_⟩
  obtain ⟨ft', h4, h5⟩ := hp.valid
  rw [e1, h1] at h4
  obtain rfl := Except.ok.inj h4
  rw [h5, e11, h2]

theorem Spec.TimedCartesian.positive {s : CartesianDMP m} (hs : TimedCartesian s) : 0 < s.executionTime := by
  obtain ⟨p, hp, e1, -⟩ := hs.rotRegular
  rw [← e1]; exact hp.valid.pos.2

theorem Spec.TimedCartesian.rotPhase {s : CartesianDMP m} (hs : TimedCartesian s) (t : ℝ) :
    s.ftRot.phaseAt t = Real.exp (-(-Real.log (1 / 100 : ℝ)) * (t / s.executionTime)) := by
  obtain ⟨p, hp, e1, -, -, -, e2⟩ := hs.rotRegular
  rw [← e1, ← e2]
  obtain ⟨ft0, h0, e1, e2, e3, -, -⟩ := hp.made
  rw [DMP.initForcingTerm_ok_iff] at h0
  obtain ⟨-, -, -, rfl⟩ := create_ok h0
  simp only at e1 e2 e3
  simp only [ForcingTerm.phaseAt, phase, e1, e2, e3, sub_zero, mul_div_assoc]

/-- Phase of a forcing term. -/
noncomputable def phaseOf (τ t : ℝ) : ℝ := Real.exp (-(-Real.log (1 / 100 : ℝ)) * (t / τ))

theorem phaseOf_le {τ t : ℝ} (hτ : 0 < τ) (ht : 0 ≤ t) : |phaseOf τ t| ≤ 1 := by
  unfold phaseOf
  rw [abs_of_pos (Real.exp_pos _), Real.exp_le_one_iff]
  have := log_hundred_pos
  have : 0 ≤ t / τ := by positivity
  nlinarith

theorem Spec.TimedCartesian.followArgs {s : CartesianDMP m} (hs : TimedCartesian s) (R : ℝ) :
    FollowArgs (s.rotArgs none) (orientation s.goalY) (orientation s.startY) (angular s.alphaY) (angular s.betaY)
      s.executionTime R s.smooth (phaseOf s.executionTime) where
  coupling := rfl
  precomputed := rfl
  goal := by rw [orientation_eq]; rfl
  start := by rw [orientation_eq]; rfl
  alpha := by rw [angular_eq]; rfl
  beta := by rw [angular_eq]; rfl
  startT := rfl
  goalT := rfl
  smooth := rfl
  phase := fun t _ => hs.rotPhase t

theorem FollowArgs.congr_args {args : QuatStepArgs m} {g start : Vec 4} {α β : Vec 3} {τ R : ℝ} {sm : Bool} {z : ℝ → ℝ}
    (h : FollowArgs args g start α β τ R sm z) (yd : Vec 3) (i : ℝ) :
    FollowArgs { args with startYd := yd, intDt := i } g start α β τ R sm z :=
  ⟨h.coupling, h.precomputed, h.goal, h.start, h.alpha, h.beta, h.startT, h.goalT, h.smooth, h.phase⟩

/-- Orientations of the rows of an open-loop execution. -/
theorem CartesianDMP.openLoop_orientations {s : CartesianDMP m} {ops : QuatOps} {sf : StepFunction} {qf : QuatStepFunction}
    {name qname : String} (hname : StepFunction.lookup name = .ok sf) (hqname : QuatStepFunction.lookup ops qname = .ok qf)
    (hdt : 0 < s.dt) (hτ : 0 < s.executionTime) (hint : 0 < s.intDt) :
    ∃ xs : ℕ → Vec 4 × Vec 3, xs 0 = (orientation s.startY, 0) ∧
      (∀ i : ℕ, qf.run (s.rotOpenLoopArgs none) (0 + i * s.dt) (0 + (i + 1) * s.dt) (xs i) = .ok (xs (i + 1))) ∧
      ∀ (runT : Option ℝ) T Y, ((CartesianDMP.openLoop ops runT none name qname).exec s).1 = .ok (T, Y) →
        ∀ i (hT : i < T.length) (hY : i < Y.length), T[i] = i * s.dt ∧ orientation Y[i] = (xs i).1 := by
  have hst : Spec.Stable sf s.dt s.intDt s.executionTime 0 0 := by
    have : 0 < s.executionTime ^ 2 := by positivity
    cases sf
    case euler => exact .euler (.inl rfl) hint (by simp)
    case eulerCython => exact .euler (.inr rfl) hint (by simp)
    case rk4 => exact .rk4 (.inl rfl) (by simpa using hτ) (by simp; positivity)
    case rk4Cython => exact .rk4 (.inr rfl) (by simpa using hτ) (by simp; positivity)
  obtain ⟨ps, xs, hp0, hx0, hp, hx, hol⟩ := CartesianDMP.openLoop_rows hname hqname hdt hτ hint hst
  refine ⟨xs, by rw [hx0, orientation_eq], hx, ?_⟩
  intro runT T Y h
  rw [hol] at h
  split_ifs at h with hz
  simp only [Except.ok.injEq, Prod.mk.injEq] at h
  obtain ⟨rfl, rfl⟩ := h
  intro i hT hY
  simp only [List.getElem_map, List.getElem_range]
  rw [orientation_eq, sliceFrom_hstack]
  refine ⟨?_, rfl⟩
  unfold arangeAt; ring

/-! ## Solutions of the differential equation -/

/-- Solutions are movements. -/
theorem Spec.SolvesOrientation.movement {s : CartesianDMP m} (hs : TimedCartesian s) {R : ℝ} {q : ℝ → Vec 4} {w : ℝ → Vec 3}
    (h : SolvesOrientation s R q w) (hg : UnitQuat (orientation s.goalY)) {a : ℝ → Vec 3} {a₀ : Vec 3} {c : ℝ} (hc : 0 < c)
    (ha : ∀ t ∈ Icc 0 R, IsRotationTo (orientation s.goalY) (q t) (a t))
    (hca : ∀ t ∈ Icc 0 R, c ≤ Real.cos (length (a t) / 2))
    (ha₀ : IsRotationTo (orientation s.goalY) (orientation s.startY) a₀) :
    OrientationMovement 0 R q w (fun t k => orientationAcceleration (angular s.alphaY k) (angular s.betaY k) (a t k) (a₀ k)
      s.executionTime s.smooth (s.ftRot.phaseAt t) (s.ftRot.call t k) (w t k)) := by
  have hq : ContinuousOn (fun t => quat (q t)) (Icc 0 R) := fun t ht => (h.velocity t ht).continuousWithinAt
  have hac := continuous_rotationTo hq hg hc ha hca
  have hw : ∀ k, ContinuousOn (fun t => w t k) (Icc 0 R) := fun k t ht =>
    (h.acceleration t ht (a t) a₀ (ha t ht) ha₀ k).continuousWithinAt
  refine ⟨h.unit, h.velocity, fun t ht k => h.acceleration t ht (a t) a₀ (ha t ht) ha₀ k, fun k => ?_⟩
  obtain ⟨p, hp, e1, -, -, -, e2⟩ := hs.rotRegular
  have hm : 0 < m := by have := hs.reachable.valid.two; omega
  have hcall : Continuous (fun t => s.ftRot.call t k) := by
    have e : (fun t => s.ftRot.call t k) = fun t => ∑ i, s.ftRot.weights k i * s.ftRot.basis i t := by
      funext t; exact s.ftRot.call_basis s.ftRot.weights t k
    rw [e]
    exact continuous_finsetSum _ fun i _ => continuous_const.mul (s.ftRot.basis_contDiff hm i).continuous
  have hz : Continuous (fun t => s.ftRot.phaseAt t) := by
    unfold ForcingTerm.phaseAt phase; fun_prop
  have h1 := hac k
  have h2 := hw k
  unfold orientationAcceleration
  cases s.smooth
  · simp only [Bool.false_eq_true, if_false]; fun_prop
  · simp only [if_true]; fun_prop

/-- Steps from states of a solution. -/
theorem orientation_solution_error {s : CartesianDMP m} (hs : TimedCartesian s) {R : ℝ} {q : ℝ → Vec 4} {w : ℝ → Vec 3}
    (h : SolvesOrientation s R q w) (hg : UnitQuat (orientation s.goalY)) (hstart : UnitQuat (orientation s.startY))
    (hangle : rotationAngle (orientation s.goalY) (orientation s.startY) < Real.pi) :
    ∃ C, 0 < C ∧ ∀ ε > 0, ∃ h > 0, ∀ (qf : QuatStepFunction) (eps dt intDt : ℝ) (yd : Vec 3), StepThreshold qf eps → 0 < dt →
      0 < intDt → min intDt dt ≤ h → ∀ xs : ℕ → Vec 4 × Vec 3, xs 0 = (q 0, w 0) →
      (∀ i : ℕ, qf.run { s.rotArgs none with startYd := yd, intDt := intDt } (0 + i * dt) (0 + (i + 1) * dt) (xs i) =
        .ok (xs (i + 1))) → ∀ i : ℕ, i * dt ≤ R →
      rotationAngle (xs i).1 (q (i * dt)) < ε + C * eps ∧ (∀ k, |(xs i).1 k - q (i * dt) k| < ε + C * eps) ∧
      ∀ k, |(xs i).2 k - w (i * dt) k| < ε + C * eps := by
  have hπ := Real.pi_pos
  rcases lt_or_ge R 0 with hR | hR
  · refine ⟨1, one_pos, fun ε _ => ⟨1, one_pos, ?_⟩⟩
    intro qf eps dt intDt yd hqf hdt hint hle xs hx0 hx i hi
    have : 0 ≤ i * dt := by positivity
    linarith
  have hq : ContinuousOn (fun t => quat (q t)) (Icc 0 R) := fun t ht => (h.velocity t ht).continuousWithinAt
  obtain ⟨a, c, hc, ha, hca⟩ := exists_rotationTo h.unit hq hg h.angle
  obtain ⟨a₁, c₁, hc₁, ha₁, hca₁⟩ := exists_rotationTo (A := 0) (B := 0) (q := fun _ => orientation s.startY)
    (fun _ _ => hstart) continuousOn_const hg (fun _ _ => hangle)
  have h00 : (0 : ℝ) ∈ Icc (0 : ℝ) 0 := ⟨le_rfl, le_rfl⟩
  have hmov := h.movement hs hg hc ha hca (ha₁ 0 h00)
  have hτ := hs.positive
  obtain ⟨M, hM0, hM⟩ := hmov.follow hg hstart (c := min c c₁) (lt_min hc hc₁) ha
    (fun t ht => (min_le_left _ _).trans (hca t ht)) (ha₁ 0 h00) ((min_le_right _ _).trans (hca₁ 0 h00)) (angular s.alphaY)
    (angular s.betaY) hτ s.smooth (z := phaseOf s.executionTime) (fun t ht => phaseOf_le hτ ht.1)
  have hCle : M ≤ (Real.pi + 1) * M := by nlinarith
  refine ⟨(Real.pi + 1) * M, by positivity, fun ε hε => ?_⟩
  obtain ⟨H, hH0, hH⟩ := hM (ε / (2 * ((Real.pi + 1) * M))) (by positivity)
  refine ⟨H, hH0, ?_⟩
  intro qf eps dt intDt yd hqf hdt hint hle xs hx0 hx i hi
  have hu0 : UnitQuat (xs 0).1 := by rw [hx0]; exact h.unit 0 ⟨le_rfl, hR⟩
  have heps := (stepThreshold_lawful hqf).1
  have key := hH m _ ((hs.followArgs R).congr_args yd intDt) qf eps hqf (fun _ => 0) H le_rfl (fun _ _ _ _ _ => le_rfl)
    (fun r t hr hrt ht _ => by
      have e : s.ftRot.call t - demandedTorque (angular s.alphaY) (angular s.betaY) s.executionTime s.smooth
          (phaseOf s.executionTime) (a₁ 0) a w (fun t k => orientationAcceleration (angular s.alphaY k) (angular s.betaY k)
            (a t k) (a₁ 0 k) s.executionTime s.smooth (s.ftRot.phaseAt t) (s.ftRot.call t k) (w t k)) t = 0 := by
        funext k
        have hz : s.ftRot.phaseAt t = phaseOf s.executionTime t := hs.rotPhase t
        simp only [Pi.sub_apply, demandedTorque, orientationAcceleration, hz]
        cases s.smooth
        · simp; field_simp; ring
        · simp; field_simp; ring
      show (t - r) * length (s.ftRot.call t - _) ≤ 0 - 0
      rw [e, length_eq_zero.2 rfl]; simp) dt hdt hint hle xs hu0 hx i hi
  have e0 : stateError (xs 0) (q 0) (w 0) = 0 := by
    rw [hx0]; unfold stateError; simp [length_eq_zero.2]
  rw [e0] at key
  have hi' : (i : ℝ) * dt ∈ Icc 0 R := ⟨by positivity, hi⟩
  obtain ⟨k1, k2, k3⟩ := orientation_close key.1 (h.unit _ hi') key.2
  set δ := M * (0 + ε / (2 * ((Real.pi + 1) * M)) + eps + (0 - 0)) with hδ
  have hδ0 : 0 ≤ δ := by positivity
  have hδ1 : (Real.pi + 1) * δ = ε / 2 + (Real.pi + 1) * M * eps := by
    rw [hδ]; field_simp; ring
  have hlt : Real.pi * δ < ε + (Real.pi + 1) * M * eps := by nlinarith
  have hlt' : δ < ε + (Real.pi + 1) * M * eps := by nlinarith
  exact ⟨k1.trans_lt hlt, fun k => (k2 k).trans_lt hlt', fun k => (k3 k).trans_lt hlt'⟩

/-- **C77 (orientations, `open_loop`).** Let orientations `q` and angular velocities `w` solve the differential equation of the
orientation of a Cartesian DMP, from its start orientation at rest. The orientations returned by `open_loop` converge to `q` with
the step size, uniformly until time `R`, up to an error that is proportional to the threshold `eps` below which the quaternion
logarithm is 0 (`10⁻¹⁶` in the Cython version). -/
theorem C77_orientation_open_loop {s : CartesianDMP m} (hs : TimedCartesian s) {R : ℝ} {q : ℝ → Vec 4} {w : ℝ → Vec 3}
    (hsol : SolvesOrientation s R q w) (hq0 : q 0 = orientation s.startY) (hw0 : w 0 = 0) (hR : 0 ≤ R)
    (hg : UnitQuat (orientation s.goalY)) :
    ∃ C, ∀ ε > 0, ∃ h > 0, ∀ (name : String) (sf : StepFunction) (dt intDt : ℝ), StepFunction.lookup name = .ok sf → 0 < dt →
      0 < intDt → min intDt dt ≤ h → ∀ ops qname qf eps, QuatStepFunction.lookup ops qname = .ok qf → StepThreshold qf eps →
      (∀ r : ℝ, 0 ≤ r → ∃ T Y,
        ((CartesianDMP.openLoop ops (some r) none name qname).exec { s with dt := dt, intDt := intDt }).1 = .ok (T, Y)) ∧
      ∀ runT T Y,
      ((CartesianDMP.openLoop ops runT none name qname).exec { s with dt := dt, intDt := intDt }).1 = .ok (T, Y) →
        ∀ i (hT : i < T.length) (hY : i < Y.length), T[i] ≤ R →
          rotationAngle (orientation Y[i]) (q T[i]) < ε + C * eps ∧
          ∀ k, |orientation Y[i] k - q T[i] k| < ε + C * eps := by
  have h0 : (0 : ℝ) ∈ Icc (0 : ℝ) R := ⟨le_rfl, hR⟩
  have hu := hsol.unit 0 h0
  have ha := hsol.angle 0 h0
  rw [hq0] at hu ha
  have hτ := hs.positive
  obtain ⟨C, -, hC⟩ := orientation_solution_error hs hsol hg hu ha
  refine ⟨C, fun ε hε => ?_⟩
  obtain ⟨h, hh0, hh⟩ := hC ε hε
  refine ⟨h, hh0, ?_⟩
  intro name sf dt intDt hname hdt hint hle ops qname qf eps hqname hqf
  refine ⟨fun r hr => CartesianDMP.openLoop_returns (s := { s with dt := dt, intDt := intDt }) hname hqname hdt hτ hint hr, ?_⟩
  intro runT T Y hex i hT hY hi
  obtain ⟨xs, hx0, hx, hrows⟩ := CartesianDMP.openLoop_orientations (s := { s with dt := dt, intDt := intDt }) hname hqname hdt hτ
    hint
  obtain ⟨e1, e2⟩ := hrows runT T Y hex i hT hY
  rw [e1] at hi ⊢
  rw [e2]
  have key := hh qf eps dt intDt 0 hqf hdt hint hle xs (by rw [hx0, hq0, hw0]) hx i hi
  exact ⟨key.1, key.2.1⟩

/-- **C77 (orientations, `step`).** Let orientations `q` and angular velocities `w` solve the differential equation of the
orientation of a Cartesian DMP that has not been executed yet (time 0). If the first `step` gets the orientation and angular
velocity of the solution at time 0, and each further one the result of the previous one, orientations and angular velocities
converge to those of the solution with the step size, up to an error that is proportional to the threshold `eps`. -/
theorem C77_orientation_step {s : CartesianDMP m} (hs : TimedCartesian s) (ht : s.t = 0) {R : ℝ} {q : ℝ → Vec 4} {w : ℝ → Vec 3}
    (hsol : SolvesOrientation s R q w) (hg : UnitQuat (orientation s.goalY)) (hstart : UnitQuat (orientation s.startY))
    (hangle : rotationAngle (orientation s.goalY) (orientation s.startY) < Real.pi) :
    ∃ C, ∀ ε > 0, ∃ h > 0, ∀ (sf : StepFunction) (qf : QuatStepFunction) (eps dt intDt : ℝ), StepThreshold qf eps → 0 < dt →
      0 < intDt → min intDt dt ≤ h →
      ∀ (obj : ℕ → CartesianDMP m) (fb out : ℕ → Vec (3 + 4) × Vec (3 + 3)), obj 0 = { s with dt := dt, intDt := intDt } →
        Spec.Run (CartesianDMP.step none sf qf) obj fb out → orientation (fb 0).1 = q 0 → angular (fb 0).2 = w 0 →
        (∀ i, fb (i + 1) = out i) → ∀ i : ℕ, (i + 1) * dt ≤ R →
        rotationAngle (orientation (out i).1) (q ((i + 1) * dt)) < ε + C * eps ∧
        ∀ k, |angular (out i).2 k - w ((i + 1) * dt) k| < ε + C * eps := by
  obtain ⟨C, -, hC⟩ := orientation_solution_error hs hsol hg hstart hangle
  refine ⟨C, fun ε hε => ?_⟩
  obtain ⟨h, hh0, hh⟩ := hC ε hε
  refine ⟨h, hh0, ?_⟩
  intro sf qf eps dt intDt hqf hdt hint hle obj fb out h0 hrun hq0 hw0 hfb i hi
  have hrun' := CartesianDMP.run_objects hrun
  have key := hh qf eps dt intDt (sliceFrom s.startYd) hqf hdt hint hle (fun i => (orientation (fb i).1, angular (fb i).2))
    (by simp only [hq0, hw0]) (fun i => by
      have := (hrun' i).2.2
      rw [h0] at this
      simp only [ht] at this
      rw [hfb]
      exact this) (i + 1) (by push_cast; exact hi)
  simp only [hfb] at key
  push_cast at key
  exact ⟨key.1, key.2.2⟩

/-! ## Movements -/

/-- Steps of Cartesian DMPs whose forces are close to the demanded ones. -/
theorem orientation_forces {τ : ℝ} (hτ : 0 < τ) {q : ℝ → Vec 4} {w acc : ℝ → Vec 3} (h : OrientationMovement 0 τ q w acc)
    (α β : Vec 3) (smooth : Bool) {goal start : Vec 4} (hg : UnitQuat goal) (hstart : UnitQuat start)
    (hang : ∀ t ∈ Icc 0 τ, rotationAngle goal (q t) < Real.pi) (hangle : rotationAngle goal start < Real.pi) :
    ∃ C, 0 < C ∧ ∀ ε > 0, ∃ N, ∀ m : ℕ, N ≤ m → ∃ W : Fin 3 → Fin m → ℝ, ∃ h > 0, ∀ s : CartesianDMP m, TimedCartesian s →
      s.executionTime = τ → angular s.alphaY = α → angular s.betaY = β → orientation s.goalY = goal →
      orientation s.startY = start → s.smooth = smooth → s.ftRot.weights = W →
      ∀ (qf : QuatStepFunction) (eps dt intDt : ℝ) (yd : Vec 3), StepThreshold qf eps → 0 < dt → 0 < intDt →
      min intDt dt ≤ h → ∀ xs : ℕ → Vec 4 × Vec 3, xs 0 = (q 0, w 0) →
      (∀ i : ℕ, qf.run { s.rotArgs none with startYd := yd, intDt := intDt } (0 + i * dt) (0 + (i + 1) * dt) (xs i) =
        .ok (xs (i + 1))) → ∀ i : ℕ, i * dt ≤ τ →
      rotationAngle (xs i).1 (q (i * dt)) < ε + C * eps ∧ (∀ k, |(xs i).1 k - q (i * dt) k| < ε + C * eps) ∧
      ∀ k, |(xs i).2 k - w (i * dt) k| < ε + C * eps := by
  have hπ := Real.pi_pos
  have hq := h.continuous_quat
  obtain ⟨a, c, hc, ha, hca⟩ := exists_rotationTo h.unit hq hg hang
  obtain ⟨a₁, c₁, hc₁, ha₁, hca₁⟩ := exists_rotationTo (A := 0) (B := 0) (q := fun _ => start)
    (fun _ _ => hstart) continuousOn_const hg (fun _ _ => hangle)
  have h00 : (0 : ℝ) ∈ Icc (0 : ℝ) 0 := ⟨le_rfl, le_rfl⟩
  have hac := continuous_rotationTo hq hg hc ha hca
  obtain ⟨M, hM0, hM⟩ := h.follow hg hstart (c := min c c₁) (lt_min hc hc₁) ha
    (fun t ht => (min_le_left _ _).trans (hca t ht)) (ha₁ 0 h00) ((min_le_right _ _).trans (hca₁ 0 h00)) α β hτ smooth
    (z := phaseOf τ) (fun t ht => phaseOf_le hτ ht.1)
  have hCle : M ≤ (Real.pi + 1) * M := by nlinarith
  have hcont : ∀ k, ContinuousOn (fun t => demandedTorque α β τ smooth (phaseOf τ) (a₁ 0) a w acc t k) (Icc 0 τ) := by
    intro k
    have h1 := hac k
    have h2 : ContinuousOn (fun t => w t k) (Icc 0 τ) := fun t ht => (h.acceleration t ht k).continuousWithinAt
    have h3 := h.continuous k
    unfold demandedTorque phaseOf
    cases smooth
    · simp only [Bool.false_eq_true, if_false]; fun_prop
    · simp only [if_true]; fun_prop
  refine ⟨(Real.pi + 1) * M, by positivity, fun ε hε => ?_⟩
  obtain ⟨H, hH0, hH⟩ := hM (ε / (4 * ((Real.pi + 1) * M))) (by positivity)
  obtain ⟨N, hN⟩ := C108_forces hτ hcont (ε := ε / (4 * ((Real.pi + 1) * M)) / τ / 3) (by positivity)
  refine ⟨N, fun m hm => ?_⟩
  obtain ⟨W, hW⟩ := hN m hm
  refine ⟨W, H, hH0, ?_⟩
  intro s hs hsτ hsα hsβ hsg hs0 hsm hsW qf eps dt intDt yd hqf hdt hint hle xs hx0 hx i hi
  have hu0 : UnitQuat (xs 0).1 := by rw [hx0]; exact h.unit 0 ⟨le_rfl, hτ.le⟩
  have heps := (stepThreshold_lawful hqf).1
  obtain ⟨p, hp, e1, -, -, -, e2⟩ := hs.rotRegular
  have hforce := hW p hp (e1.trans hsτ) (by rw [e2]; exact hsW)
  rw [e2] at hforce
  have hargs := (hs.followArgs τ).congr_args yd intDt
  rw [hsτ, hsα, hsβ, hsg, hs0, hsm] at hargs
  have key := hH m _ hargs qf eps hqf (fun t => ε / (4 * ((Real.pi + 1) * M)) / τ * t) H le_rfl
    (fun r t _ hrt _ => mul_le_mul_of_nonneg_left hrt (by positivity))
    (fun r t hr hrt ht _ => by
      have h1 := length_le_of_coord (a := s.ftRot.call t - demandedTorque α β τ smooth (phaseOf τ) (a₁ 0) a w acc t)
        (fun k => (hforce t ⟨by linarith, ht⟩ k).le)
      have h2 := mul_le_mul_of_nonneg_left h1 (show 0 ≤ t - r by linarith)
      refine h2.trans (le_of_eq ?_)
      ring) dt hdt hint hle xs hu0 hx i hi
  have e0 : stateError (xs 0) (q 0) (w 0) = 0 := by
    rw [hx0]; unfold stateError; simp [length_eq_zero.2]
  rw [e0] at key
  have hi' : (i : ℝ) * dt ∈ Icc 0 τ := ⟨by positivity, hi⟩
  obtain ⟨k1, k2, k3⟩ := orientation_close key.1 (h.unit _ hi') key.2
  set δ := M * (0 + ε / (4 * ((Real.pi + 1) * M)) + eps + (ε / (4 * ((Real.pi + 1) * M)) / τ * τ -
    ε / (4 * ((Real.pi + 1) * M)) / τ * 0)) with hδ
  have hδ1 : (Real.pi + 1) * δ = ε / 2 + (Real.pi + 1) * M * eps := by
    rw [hδ]; field_simp; ring
  have hpp : 0 < (Real.pi + 1) * M * eps := by positivity
  have hδ0 : 0 ≤ δ := by
    by_contra hn
    have : (Real.pi + 1) * δ < 0 := mul_neg_of_pos_of_neg (by linarith) (not_le.1 hn)
    linarith
  have hlt : Real.pi * δ < ε + (Real.pi + 1) * M * eps := by nlinarith
  have hlt' : δ < ε + (Real.pi + 1) * M * eps := by nlinarith
  exact ⟨k1.trans_lt hlt, fun k => (k2 k).trans_lt hlt', fun k => (k3 k).trans_lt hlt'⟩

/-- **C108 (orientations, `open_loop`).** Let `q` be a twice continuously differentiable movement of an orientation that starts at
rest and always is less than half a turn away from the goal orientation. For all gains and every `ε > 0`: every Cartesian DMP with
enough weights has rotational weights with which the orientations returned by `open_loop`, for all integrators with sufficiently
small steps, follow the movement until time `τ`, up to `ε` plus an error that is proportional to the threshold `eps` below which
the quaternion logarithm is 0 (`10⁻¹⁶` in the Cython version). -/
theorem C108_orientation_open_loop {τ : ℝ} (hτ : 0 < τ) {q : ℝ → Vec 4} {w acc : ℝ → Vec 3}
    (h : OrientationMovement 0 τ q w acc) (hrest : w 0 = 0) (α β : Vec 3) (smooth : Bool) {goal : Vec 4} (hg : UnitQuat goal)
    (hang : ∀ t ∈ Icc 0 τ, rotationAngle goal (q t) < Real.pi) :
    ∃ C, ∀ ε > 0, ∃ N, ∀ m : ℕ, N ≤ m → ∃ W : Fin 3 → Fin m → ℝ, ∃ h > 0, ∀ s : CartesianDMP m, TimedCartesian s →
      s.executionTime = τ → angular s.alphaY = α → angular s.betaY = β → orientation s.goalY = goal →
      orientation s.startY = q 0 → s.smooth = smooth → s.ftRot.weights = W →
      ∀ (name : String) (sf : StepFunction) (dt intDt : ℝ), StepFunction.lookup name = .ok sf → 0 < dt →
        0 < intDt → min intDt dt ≤ h → ∀ ops qname qf eps, QuatStepFunction.lookup ops qname = .ok qf → StepThreshold qf eps →
        (∀ r : ℝ, 0 ≤ r → ∃ T Y,
          ((CartesianDMP.openLoop ops (some r) none name qname).exec { s with dt := dt, intDt := intDt }).1 = .ok (T, Y)) ∧
        ∀ runT T Y,
        ((CartesianDMP.openLoop ops runT none name qname).exec { s with dt := dt, intDt := intDt }).1 = .ok (T, Y) →
          ∀ i (hT : i < T.length) (hY : i < Y.length), T[i] ≤ τ →
            rotationAngle (orientation Y[i]) (q T[i]) < ε + C * eps ∧
            ∀ k, |orientation Y[i] k - q T[i] k| < ε + C * eps := by
  have h0 : (0 : ℝ) ∈ Icc (0 : ℝ) τ := ⟨le_rfl, hτ.le⟩
  obtain ⟨C, -, hC⟩ := orientation_forces hτ h α β smooth hg (h.unit 0 h0) hang (hang 0 h0)
  refine ⟨C, fun ε hε => ?_⟩
  obtain ⟨N, hN⟩ := hC ε hε
  refine ⟨N, fun m hm => ?_⟩
  obtain ⟨W, H, hH0, hW⟩ := hN m hm
  refine ⟨W, H, hH0, ?_⟩
  intro s hs hsτ hsα hsβ hsg hs0 hsm hsW name sf dt intDt hname hdt hint hle ops qname qf eps hqname hqf
  have hτs := hs.positive
  refine ⟨fun r hr => CartesianDMP.openLoop_returns (s := { s with dt := dt, intDt := intDt }) hname hqname hdt hτs hint hr, ?_⟩
  intro runT T Y hex i hT hY hi
  obtain ⟨xs, hx0, hx, hrows⟩ := CartesianDMP.openLoop_orientations (s := { s with dt := dt, intDt := intDt }) hname hqname hdt
    hτs hint
  obtain ⟨e1, e2⟩ := hrows runT T Y hex i hT hY
  rw [e1] at hi ⊢
  rw [e2]
  have key := hW s hs hsτ hsα hsβ hsg hs0 hsm hsW qf eps dt intDt 0 hqf hdt hint hle xs (by rw [hx0, hs0, hrest]) hx i hi
  exact ⟨key.1, key.2.1⟩

/-- **C108 (orientations, `step`).** As C108 for `open_loop`, for executions with `step` that start at time 0 with the orientation
and angular velocity of the movement, which need not start at rest, nor in the start orientation of the Cartesian DMP: orientations
and angular velocities follow the movement. -/
theorem C108_orientation_step {τ : ℝ} (hτ : 0 < τ) {q : ℝ → Vec 4} {w acc : ℝ → Vec 3}
    (h : OrientationMovement 0 τ q w acc) (α β : Vec 3) (smooth : Bool) {goal start : Vec 4} (hg : UnitQuat goal)
    (hstart : UnitQuat start) (hang : ∀ t ∈ Icc 0 τ, rotationAngle goal (q t) < Real.pi)
    (hangle : rotationAngle goal start < Real.pi) :
    ∃ C, ∀ ε > 0, ∃ N, ∀ m : ℕ, N ≤ m → ∃ W : Fin 3 → Fin m → ℝ, ∃ h > 0, ∀ s : CartesianDMP m, TimedCartesian s →
      s.executionTime = τ → angular s.alphaY = α → angular s.betaY = β → orientation s.goalY = goal →
      orientation s.startY = start → s.smooth = smooth → s.ftRot.weights = W → s.t = 0 →
      ∀ (sf : StepFunction) (qf : QuatStepFunction) (eps dt intDt : ℝ), StepThreshold qf eps → 0 < dt →
      0 < intDt → min intDt dt ≤ h →
      ∀ (obj : ℕ → CartesianDMP m) (fb out : ℕ → Vec (3 + 4) × Vec (3 + 3)), obj 0 = { s with dt := dt, intDt := intDt } →
        Spec.Run (CartesianDMP.step none sf qf) obj fb out → orientation (fb 0).1 = q 0 → angular (fb 0).2 = w 0 →
        (∀ i, fb (i + 1) = out i) → ∀ i : ℕ, (i + 1) * dt ≤ τ →
        rotationAngle (orientation (out i).1) (q ((i + 1) * dt)) < ε + C * eps ∧
        ∀ k, |angular (out i).2 k - w ((i + 1) * dt) k| < ε + C * eps := by
  obtain ⟨C, -, hC⟩ := orientation_forces hτ h α β smooth hg hstart hang hangle
  refine ⟨C, fun ε hε => ?_⟩
  obtain ⟨N, hN⟩ := hC ε hε
  refine ⟨N, fun m hm => ?_⟩
  obtain ⟨W, H, hH0, hW⟩ := hN m hm
  refine ⟨W, H, hH0, ?_⟩
  intro s hs hsτ hsα hsβ hsg hs0 hsm hsW ht sf qf eps dt intDt hqf hdt hint hle obj fb out h0 hrun hq0 hw0 hfb i hi
  have hrun' := CartesianDMP.run_objects hrun
  have key := hW s hs hsτ hsα hsβ hsg hs0 hsm hsW qf eps dt intDt (sliceFrom s.startYd) hqf hdt hint hle
    (fun i => (orientation (fb i).1, angular (fb i).2)) (by simp only [hq0, hw0]) (fun i => by
      have := (hrun' i).2.2
      rw [h0] at this
      simp only [ht] at this
      rw [hfb]
      exact this) (i + 1) (by push_cast; exact hi)
  simp only [hfb] at key
  push_cast at key
  exact ⟨key.1, key.2.2⟩

/-! ## The theorems are not vacuous -/

/-- Cartesian DMPs with any parameters, poses and weights exist. -/
theorem CartesianDMP.exists_timed (hm : 2 ≤ m) {τ : ℝ} (hτ : 0 < τ) (dt intDt : ℝ) (smooth : Bool) (α β : Vec (3 + 3))
    (start goal : Vec (3 + 4)) (Wp Wr : Fin 3 → Fin m → ℝ) :
    ∃ s : CartesianDMP m, TimedCartesian s ∧ s.executionTime = τ ∧ s.dt = dt ∧ s.intDt = intDt ∧ s.smooth = smooth ∧
      s.alphaY = α ∧ s.betaY = β ∧ s.startY = start ∧ s.goalY = goal ∧ s.ftPos.weights = Wp ∧ s.ftRot.weights = Wr ∧ s.t = 0 := by
  obtain ⟨ft, hft⟩ := (DMP.initForcingTerm_isOk_iff (d := 3) (m := m) τ).2 ⟨hm, hτ⟩
  obtain ⟨s0, h0, e0⟩ : ∃ s0, CartesianDMP.create m τ dt intDt smooth (.array1 (List.ofFn α)) (.array1 (List.ofFn β)) =
      .ok s0 ∧ s0.executionTime = τ ∧ s0.dt = dt ∧ s0.intDt = intDt ∧ s0.smooth = smooth ∧ s0.alphaY = α ∧ s0.betaY = β ∧
        s0.t = 0 := by
    unfold CartesianDMP.create
    rw [CartesianDMP.initForcingTerms_eq, hft, ensure1dArray_ofFn, ensure1dArray_ofFn]
    exact ⟨_, rfl, rfl, rfl, rfl, rfl, rfl, rfl, rfl⟩
  have h1 := (TimedCartesian.create h0).op (.configure { startY := some (List.ofFn start), goalY := some (List.ofFn goal) })
    (by intro τ h; cases h)
  have e1 : (CartesianOp.configure { startY := some (List.ofFn start), goalY := some (List.ofFn goal) }).after s0 =
      { s0 with startY := start, goalY := goal } := by
    show ((CartesianDMP.configure _).exec s0).2 = _
    rw [CartesianDMP.exec_configure, C25_configure_sets _ _ (by simp [AllOk, FieldOk])]
    simp only [newValue_ofFn]
    rfl
  rw [e1] at h1
  have h2 := h1.op (.setWeights ((List.ofFn fun i : Fin (3 * m) => Wp i.divNat i.modNat) ++
    (List.ofFn fun i : Fin (3 * m) => Wr i.divNat i.modNat))) (by intro τ h; cases h)
  refine ⟨_, h2, ?_⟩
  show ((CartesianDMP.setWeights _).exec _).2.executionTime = _ ∧ _
  rw [CartesianOp.after, CartesianDMP.exec_setWeights, List.take_left' (by simp), List.drop_left' (by simp), assignRows_flat,
    assignRows_flat]
  exact ⟨e0.1, e0.2.1, e0.2.2.1, e0.2.2.2.1, e0.2.2.2.2.1, e0.2.2.2.2.2.1, rfl, rfl, rfl, rfl, e0.2.2.2.2.2.2⟩

/-- **C77 (critically damped orientations).** With zero rotational weights, without smooth scaling, and with critically damped
gains, the solution turns from the start orientation to the goal orientation about one fixed axis, the shorter way, without
overshoot. It meets the hypotheses of `C77_orientation_open_loop` and `C77_orientation_step` for all times. -/
theorem C77_orientation_critically_damped {s : CartesianDMP m} (hs : TimedCartesian s) (hw : s.ftRot.weights = fun _ _ => 0)
    (hsm : s.smooth = false) {α : ℝ} (hα0 : 0 < α) (hα : ∀ k, angular s.alphaY k = α) (hβ : ∀ k, angular s.betaY k = α / 4)
    (hg : UnitQuat (orientation s.goalY)) (hstart : UnitQuat (orientation s.startY)) {a₀ : Vec 3}
    (ha₀ : IsRotationTo (orientation s.goalY) (orientation s.startY) a₀) (hlt : length a₀ < Real.pi) (R : ℝ) :
    ∃ q w, SolvesOrientation s R q w ∧ q 0 = orientation s.startY ∧ w 0 = 0 ∧ ∀ t,
      quat (q t) = rot ((1 - (1 + α / (2 * s.executionTime) * t) * Real.exp (-(α / (2 * s.executionTime) * t))) • a₀) *
        quat (orientation s.startY) ∧
      w t = ((α / (2 * s.executionTime)) ^ 2 * t * Real.exp (-(α / (2 * s.executionTime) * t))) • a₀ := by
  have hτ := hs.positive
  set τ := s.executionTime with hτd
  set c := α / (2 * τ) with hc
  have hc0 : 0 < c := by positivity
  have hcall : ∀ t k, s.ftRot.call t k = 0 := by
    intro t k
    simp [ForcingTerm.call, ForcingTerm.force, hw]
  have hexp : ∀ t : ℝ, HasDerivAt (fun t => Real.exp (-(c * t))) (Real.exp (-(c * t)) * -c) t := by
    intro t
    have : HasDerivAt (fun t : ℝ => -(c * t)) (-c) t := by
      have h := ((hasDerivAt_id t).const_mul c).neg
      rw [mul_one] at h
      exact h
    exact this.exp
  let φ : ℝ → ℝ := fun t => 1 - (1 + c * t) * Real.exp (-(c * t))
  let φ' : ℝ → ℝ := fun t => c ^ 2 * t * Real.exp (-(c * t))
  have hφ : ∀ t, HasDerivAt φ (φ' t) t := by
    intro t
    have h1 : HasDerivAt (fun t : ℝ => 1 + c * t) c t := by
      simpa using ((hasDerivAt_id t).const_mul c).const_add 1
    have h2 := ((h1.mul (hexp t)).const_sub 1)
    refine h2.congr_deriv ?_
    simp only [φ']; ring
  have hφ' : ∀ t, HasDerivAt φ' (c ^ 2 * Real.exp (-(c * t)) * (1 - c * t)) t := by
    intro t
    have h1 : HasDerivAt (fun t : ℝ => c ^ 2 * t) (c ^ 2) t := by
      simpa using (hasDerivAt_id t).const_mul (c ^ 2)
    have h2 := h1.mul (hexp t)
    refine h2.congr_deriv ?_
    ring
  -- the remaining rotation
  have hrem : ∀ t, 0 ≤ t → length ((1 - φ t) • a₀) ≤ length a₀ := by
    intro t ht
    have e : 1 - φ t = (1 + c * t) * Real.exp (-(c * t)) := by simp only [φ]; ring
    have h1 : 0 ≤ (1 + c * t) * Real.exp (-(c * t)) := by positivity
    have h2 : (1 + c * t) * Real.exp (-(c * t)) ≤ 1 := by
      have h3 := Real.add_one_le_exp (c * t)
      rw [Real.exp_neg, ← div_eq_mul_inv, div_le_one (Real.exp_pos _)]
      linarith
    rw [e, length_smul, abs_of_nonneg h1]
    have := length_nonneg a₀
    nlinarith
  have hrot : ∀ t, 0 ≤ t → IsRotationTo (orientation s.goalY) (turn a₀ (orientation s.startY) (φ t)) ((1 - φ t) • a₀) :=
    fun t ht => ⟨((hrem t ht).trans hlt.le), turn_remaining ha₀.rotation (φ t)⟩
  refine ⟨fun t => turn a₀ (orientation s.startY) (φ t), fun t => φ' t • a₀, ?_, ?_, ?_, fun t => ⟨quat_turn _ _ _, rfl⟩⟩
  · refine ⟨fun t _ => unit_turn _ hstart _, fun t ht => ?_, fun t _ => turn_velocity _ _ (hφ t).hasDerivWithinAt, ?_⟩
    · rw [(hrot t ht.1).angle]
      exact (hrem t ht.1).trans_lt hlt
    · intro t ht a a₁ ha ha₁ k
      have e1 := (hrot t ht.1).unique hg ha ((hrem t ht.1).trans_lt hlt)
      have h1 := ((hφ' t).mul_const (a₀ k)).hasDerivWithinAt (s := Icc 0 R)
      refine h1.congr_deriv ?_
      rw [e1, hα, hβ, hcall, hsm, ← hτd]
      simp only [orientationAcceleration, Pi.smul_apply, smul_eq_mul, Bool.false_eq_true, if_false, φ, φ', hc]
      field_simp
      ring
  · show turn a₀ _ (φ 0) = _
    have : φ 0 = 0 := by simp [φ]
    rw [this, turn_zero]
  · show φ' 0 • a₀ = 0
    have : φ' 0 = 0 := by simp [φ']
    rw [this, zero_smul]

/-- Such a Cartesian DMP exists: it turns by 1 rad about the first axis. -/
example : ∃ (s : CartesianDMP 10) (a₀ : Vec 3), TimedCartesian s ∧ (s.ftRot.weights = fun _ _ => 0) ∧ s.smooth = false ∧
    (∀ k, angular s.alphaY k = 25) ∧ (∀ k, angular s.betaY k = 25 / 4) ∧ UnitQuat (orientation s.goalY) ∧
    UnitQuat (orientation s.startY) ∧ IsRotationTo (orientation s.goalY) (orientation s.startY) a₀ ∧
    length a₀ < Real.pi ∧ orientation s.goalY ≠ orientation s.startY ∧ s.t = 0 := by
  have hl : length ![1, 0, 0] = 1 := by simp [length]
  have hp : UnitQuat ![1, 0, 0, 0] := by simp [UnitQuat]
  let g : Vec 4 := turn ![1, 0, 0] ![1, 0, 0, 0] 1
  obtain ⟨s, hs, h1, h2, h3, h4, h5, h6, h7, h8, h9, h10, h11⟩ := CartesianDMP.exists_timed (m := 10) (by norm_num) one_pos
    (1 / 100) (1 / 1000) false (fun _ => 25) (fun _ => 25 / 4) ![0, 0, 0, 1, 0, 0, 0] (hstack ![1, 2, 3] g) (fun _ _ => 0)
    (fun _ _ => 0)
  have e1 : orientation s.startY = ![1, 0, 0, 0] := by rw [h7]; funext k; fin_cases k <;> rfl
  have e2 : orientation s.goalY = g := by rw [h8, orientation_eq, sliceFrom_hstack]
  have ha : ∀ (x : ℝ) k, angular (fun _ => x) k = x := by intro x k; fin_cases k <;> rfl
  have hr : IsRotationTo g ![1, 0, 0, 0] ![1, 0, 0] := by
    refine ⟨by rw [hl]; linarith [Real.two_le_pi], .inl ?_⟩
    have : quat ![1, 0, 0, 0] = 1 := by ext <;> simp [quat]
    rw [quat_turn, one_smul, this]; simp
  refine ⟨s, ![1, 0, 0], hs, h10, h4, by simp only [h5, ha, implies_true], by simp only [h6, ha, implies_true],
    by rw [e2]; exact unit_turn _ hp 1, by rw [e1]; exact hp, by rw [e1, e2]; exact hr,
    by rw [hl]; linarith [Real.two_le_pi], ?_, h11⟩
  rw [e1, e2]
  intro h
  have h12 := hr.angle
  have h13 : rotationAngle g ![1, 0, 0, 0] = 0 := by
    rw [h]; unfold rotationAngle; simp [Fin.sum_univ_four]
  rw [h13, hl] at h12
  norm_num at h12

/-- A movement that meets the hypotheses of C108: it turns by 1 rad about the first axis in 1 s, and starts at rest. -/
example : ∃ (q : ℝ → Vec 4) (w acc : ℝ → Vec 3) (goal : Vec 4), OrientationMovement 0 1 q w acc ∧ w 0 = 0 ∧ UnitQuat goal ∧
    (∀ t ∈ Icc 0 1, rotationAngle goal (q t) < Real.pi) ∧ rotationAngle goal (q 0) = 1 := by
  have hl : length ![1, 0, 0] = 1 := by simp [length]
  have hp : UnitQuat ![1, 0, 0, 0] := by simp [UnitQuat]
  have hr : quat (turn ![1, 0, 0] ![1, 0, 0, 0] 1) * star (quat ![1, 0, 0, 0]) = rot ![1, 0, 0] := by
    have : quat ![1, 0, 0, 0] = 1 := by ext <;> simp [quat]
    rw [quat_turn, one_smul, this]; simp
  have hi : ∀ x : ℝ, 0 ≤ x → x ≤ 1 → rotationAngle (turn ![1, 0, 0] ![1, 0, 0, 0] 1) (turn ![1, 0, 0] ![1, 0, 0, 0] x) =
      1 - x := by
    intro x h0 h1
    have h2 : length ((1 - x) • ![1, 0, 0]) = 1 - x := by rw [length_smul, hl, abs_of_nonneg (by linarith), mul_one]
    rw [Spec.IsRotationTo.angle (a := (1 - x) • ![1, 0, 0]) ⟨by rw [h2]; linarith [Real.two_le_pi], turn_remaining (.inl hr) x⟩,
      h2]
  refine ⟨_, _, _, turn ![1, 0, 0] ![1, 0, 0, 0] 1, turn_movement ![1, 0, 0] hp (φ := fun t => t ^ 2) (φ' := fun t => 2 * t)
    (φ'' := fun _ => 2) (fun t _ => ?_) (fun t _ => ?_) continuousOn_const, ?_, unit_turn _ hp 1, fun t ht => ?_, ?_⟩
  · simpa using (hasDerivAt_pow 2 t).hasDerivWithinAt
  · simpa using ((hasDerivAt_id t).const_mul 2).hasDerivWithinAt
  · simp
  · rw [hi _ (by positivity) (by nlinarith [ht.1, ht.2])]
    nlinarith [Real.two_le_pi, ht.1]
  · rw [hi _ (by positivity) (by norm_num)]
    norm_num

end Verif
