import Verif.Props.OrientationCartesian
import Verif.Props.DualImitate

/-! # C75 and C76 for dual-arm DMPs -/

namespace Verif
open Filter Topology Spec
variable {m : ℕ} {eps : ℝ}

/-- Limit of the damped oscillator of a DMP with a vanishing drive. -/
theorem euler_tendsto {α β τ dt intDt t0 : ℝ} (hα : 0 < α) (hβ : 0 < β) (hτ : 0 < τ) (hdt : 0 < dt)
    (hst : Spec.Stable .euler dt intDt τ α β) {u : ℝ → ℝ} (hu : Tendsto u atTop (𝓝 0)) {x : ℕ → ℝ × ℝ}
    (hx : ∀ i : ℕ, x (i + 1) = (subSteps intDt (t0 + (i + 1) * dt) (t0 + i * dt)).foldl
      (fun s p => sdStep (α * β / τ ^ 2) (α / τ) p.1 (u p.2) s) (x i)) : Tendsto x atTop (𝓝 0) := by
  have hk : 0 < α * β / τ ^ 2 := by positivity
  have hcc : 0 < α / τ := by positivity
  rcases hst with ⟨_, hint, h⟩ | ⟨_, hint, n, hn, hn', h⟩ | ⟨hsf, _, _⟩
  · refine sd_tendsto_robust (t0 := t0) hk hcc hint ?_ hdt hu hx
    have e1 : 2 * intDt * (2 * (α * β / τ ^ 2) + (α / τ) ^ 2) * (α * β / τ ^ 2 + (α / τ) ^ 2) =
        (2 * intDt * (α + 2 * β) * (α + β)) * (α ^ 2 / τ ^ 4) := by
      field_simp; ring
    have e2 : α * β / τ ^ 2 * (α / τ) = β * τ * (α ^ 2 / τ ^ 4) := by field_simp
    rw [e1, e2]
    exact mul_le_mul_of_nonneg_right h (by positivity)
  · refine sd_tendsto_sharp (t0 := t0) hk hcc hint ?_ hn hn' hu hx
    have e1 : intDt ^ 2 * (α * β / τ ^ 2) + 2 * (intDt * (α / τ)) =
        (intDt ^ 2 * (α * β) + 2 * (intDt * α * τ)) / τ ^ 2 := by field_simp
    rw [e1, div_lt_iff₀ (by positivity)]
    exact h
  · rcases hsf with h | h <;> cases h

theorem dualThreshold_lawful {sf : DualStepFunction} (h : DualThreshold sf eps) :
    StepThreshold (.python sf.ops) eps := by
  cases sf with
  | python ops => exact h
  | cython =>
    have h' : eps = 1 / 10 ^ 16 := h
    rw [h']
    exact ⟨by norm_num, lawful_cython⟩

section Step
variable {a : DualStepArgs m} {sf : DualStepFunction}

theorem DualStepFunction.run_eq (hc : a.coupling = none) (hp : a.pGain = 0 ∨ a.trackingError = none)
    (hint : 0 < a.intDt) {lastT t : ℝ} (ht : a.startT < t) (s : Vec 14 × Vec 12) :
    sf.run a lastT t s = .ok ((subSteps a.intDt t lastT).foldl (fun s p => a.update sf.ops 0 0 p.1 p.2 s) s) := by
  cases sf with
  | python ops =>
    simp only [DualStepFunction.run, DualStepArgs.stepPy]
    rw [if_neg (not_le.2 ht), intLoop_eq _ hint]
    simp only [Except.map, DualStepFunction.ops, Except.ok.injEq]
    have : ∀ (L : List (ℝ × ℝ)) (s : Vec 14 × Vec 12), L.foldl (fun s p => a.bodyPy ops p.1 p.2 s) (s, (0, 0)) =
        (L.foldl (fun s p => a.update ops 0 0 p.1 p.2 s) s, (0, 0)) := by
      intro L
      induction L with
      | nil => intro s; rfl
      | cons p L ih =>
        intro s
        rw [List.foldl_cons, List.foldl_cons, ← ih]
        congr 1
        unfold DualStepArgs.bodyPy
        simp only [hc, a.correction_pGain _ _ hp, add_zero]
    rw [this]
  | cython =>
    simp only [DualStepFunction.run, DualStepArgs.stepCy]
    rw [if_neg (not_le.2 ht), intLoop_eq _ hint]
    simp only [DualStepFunction.ops, DualStepArgs.bodyCy, hc, a.correction_pGain _ _ hp, add_zero]

/-- What accelerates the position of an arm independently of its state. -/
noncomputable def DualStepArgs.drive (a : DualStepArgs m) (arm : Fin 2) (k : Fin 3) (t : ℝ) : ℝ :=
  (armLin arm (a.ft.call t) k - armLin arm a.alphaY k * a.smoothingPos (a.ft.phaseAt t) arm k) /
    (a.goalT - a.startT) ^ 2

theorem DualStepArgs.drive_tendsto (a : DualStepArgs m) (hm : 1 < m) (hα : 0 < a.ft.alphaZ)
    (hT : a.ft.startT < a.ft.goalT) (arm : Fin 2) (k : Fin 3) : Tendsto (a.drive arm k) atTop (𝓝 0) := by
  have h1 : Tendsto (fun t => armLin arm (a.ft.call t) k) atTop (𝓝 0) :=
    (tendsto_pi_nhds.1 (C04_force_vanishes a.ft hm hα hT)) _
  have h2 : Tendsto (fun t => armLin arm a.alphaY k * a.smoothingPos (a.ft.phaseAt t) arm k) atTop (𝓝 0) := by
    unfold DualStepArgs.smoothingPos
    cases a.smooth with
    | false => simp
    | true =>
      have := ((phaseAt_tendsto_zero a.ft hα hT).const_mul
        (a.betaY ⟨7 * arm + k, by omega⟩ * (armPos arm a.goalY k - armPos arm a.startY k))).const_mul (armLin arm a.alphaY k)
      simpa using this
  have := (h1.sub h2).div_const ((a.goalT - a.startT) ^ 2)
  simp only [sub_zero, zero_div] at this
  exact this

theorem DualStepArgs.update_sd (a : DualStepArgs m) (hT : a.startT < a.goalT) (ops : QuatOps) (h t : ℝ)
    (s : Vec 14 × Vec 12) (arm : Fin 2) (k : Fin 3) :
    (armPos arm (a.update ops 0 0 h t s).1 k - armPos arm a.goalY k, armLin arm (a.update ops 0 0 h t s).2 k) =
      sdStep (armLin arm a.alphaY k * armLin arm a.betaY k / (a.goalT - a.startT) ^ 2)
        (armLin arm a.alphaY k / (a.goalT - a.startT)) h (a.drive arm k t)
        (armPos arm s.1 k - armPos arm a.goalY k, armLin arm s.2 k) := by
  have hτ : a.goalT - a.startT ≠ 0 := by linarith
  simp only [DualStepArgs.update, armPos_joinState, armLin_joinVel, sdStep, DualStepArgs.drive, ForcingTerm.call,
    show armLin arm (0 : Vec 12) = 0 from rfl, Pi.zero_apply, add_zero, zero_div]
  ext
  · simp only; field_simp; ring
  · simp only; field_simp; ring

/-- The orientation of an arm moves like a rotational DMP. -/
theorem run_arm_rot (hc : a.coupling = none) (hp : a.pGain = 0 ∨ a.trackingError = none) (hT : a.startT < a.goalT)
    (hint : 0 < a.intDt) {lastT t : ℝ} (ht : a.startT < t) (arm : Fin 2) {x x' : Vec 14 × Vec 12}
    (h : sf.run a lastT t x = .ok x') :
    (QuatStepFunction.python sf.ops).run (armRotDmp a arm) lastT t (armRot arm x.1, armAng arm x.2) =
      .ok (armRot arm x'.1, armAng arm x'.2) := by
  rw [DualStepFunction.run_eq hc hp hint ht] at h
  injection h with h
  rw [QuatStepFunction.run_eq (a := armRotDmp a arm) rfl rfl hT hint ht, ← h]
  congr 1
  show List.foldl _ _ (subSteps a.intDt t lastT) = _
  generalize subSteps a.intDt t lastT = L
  clear h
  induction L generalizing x with
  | nil => rfl
  | cons p L ih =>
    rw [List.foldl_cons, List.foldl_cons, ← ih, a.update_rot]
    rfl

/-- Limits of both parts of both arms. -/
theorem dual_run_reaches (hqf : DualThreshold sf eps) (hc : a.coupling = none)
    (hp : a.pGain = 0 ∨ a.trackingError = none) (hT : a.startT < a.goalT) (hint : 0 < a.intDt) (hm : 1 < m)
    (hz : 0 < a.ft.alphaZ) (hft : a.ft.startT < a.ft.goalT) (arm : Fin 2) {dt t0 : ℝ} (hdt : 0 < dt) (ht0 : a.startT ≤ t0)
    {xs : ℕ → Vec 14 × Vec 12}
    (hx : ∀ i : ℕ, sf.run a (t0 + i * dt) (t0 + (i + 1) * dt) (xs i) = .ok (xs (i + 1))) :
    ((∀ k, 0 < armLin arm a.alphaY k ∧ 0 < armLin arm a.betaY k) →
      (∀ k, Spec.Stable .euler dt a.intDt (a.goalT - a.startT) (armLin arm a.alphaY k) (armLin arm a.betaY k)) →
      Tendsto (fun i => (armPos arm (xs i).1, armLin arm (xs i).2)) atTop (𝓝 (armPos arm a.goalY, 0))) ∧
    ∀ {α β : ℝ}, (∀ k, armAng arm a.alphaY k = α) → (∀ k, armAng arm a.betaY k = β) → 0 < α → 0 < β →
      a.intDt * (α + β) ≤ a.goalT - a.startT → UnitQuat (armRot arm a.goalY) → UnitQuat (armRot arm (xs 0).1) →
      ReachesOrientation (armRot arm a.goalY) (α * β / (a.goalT - a.startT) ^ 2) (Real.pi * (5 + 8 * (β / α)) * eps)
        (fun i => (armRot arm (xs i).1, armAng arm (xs i).2)) := by
  have hend : ∀ i : ℕ, a.startT < t0 + ((i : ℝ) + 1) * dt := by
    intro i
    have : 0 < ((i : ℝ) + 1) * dt := by positivity
    linarith
  have hfold : ∀ i : ℕ, xs (i + 1) = (subSteps a.intDt (t0 + (i + 1) * dt) (t0 + i * dt)).foldl
      (fun s p => a.update sf.ops 0 0 p.1 p.2 s) (xs i) := by
    intro i
    have h1 := hx i
    rw [DualStepFunction.run_eq hc hp hint (hend i)] at h1
    injection h1 with h1
    exact h1.symm
  constructor
  · intro hgain hst
    apply tendsto_of_coordinates
    intro k
    refine euler_tendsto (t0 := t0) (hgain k).1 (hgain k).2 (sub_pos.2 hT) hdt (hst k) (a.drive_tendsto hm hz hft arm k)
      (x := fun i => (armPos arm (xs i).1 k - armPos arm a.goalY k, armLin arm (xs i).2 k)) (fun i => ?_)
    rw [hfold]
    generalize subSteps a.intDt (t0 + (i + 1) * dt) (t0 + i * dt) = L
    generalize xs i = s
    induction L generalizing s with
    | nil => rfl
    | cons p L ih => rw [List.foldl_cons, List.foldl_cons, ih, a.update_sd hT]
  · intro α β hα hβ hα0 hβ0 hst hg hu
    have h1 := quat_run_reaches (qf := .python sf.ops) (a := armRotDmp a arm) (dualThreshold_lawful hqf) rfl rfl hT hint hm
      hz hft (by simp only [armRotDmp, armOrientation_eq]; exact hg)
      (fun k => by simp only [armRotDmp, armAngular_eq]; exact hα k)
      (fun k => by simp only [armRotDmp, armAngular_eq]; exact hβ k) hα0 hβ0 hst hdt (show a.startT ≤ t0 from ht0)
      (xs := fun i => (armRot arm (xs i).1, armAng arm (xs i).2)) hu (fun i => run_arm_rot hc hp hT hint (hend i) arm (hx i))
    have e : (armRotDmp a arm).goalY = armRot arm a.goalY := armOrientation_eq _ _
    rw [e] at h1
    exact h1

/-- Direct approach of an arm. -/
theorem dual_run_direct (hqf : DualThreshold sf eps) (heps1 : eps ≤ 1) (hc : a.coupling = none)
    (hp : a.pGain = 0 ∨ a.trackingError = none) (hT : a.startT < a.goalT) (hint : 0 < a.intDt) (arm : Fin 2)
    (hw : ∀ k i, armAng arm (fun j => a.ft.weights j i) k = 0) (hsm : a.smooth = false)
    {α β : ℝ} (hα : ∀ k, armAng arm a.alphaY k = α) (hβ : ∀ k, armAng arm a.betaY k = β) (hβ0 : 0 < β) (hαβ : 4 * β ≤ α)
    (hst : a.intDt * α ≤ a.goalT - a.startT) (hg : UnitQuat (armRot arm a.goalY)) {dt t0 : ℝ} (hdt : 0 < dt)
    (ht0 : a.startT ≤ t0) {xs : ℕ → Vec 14 × Vec 12} {q₀ : Vec 4} (hq : UnitQuat q₀) (hq0 : armRot arm (xs 0).1 = q₀)
    (hv0 : armAng arm (xs 0).2 = 0)
    (hx : ∀ i : ℕ, sf.run a (t0 + i * dt) (t0 + (i + 1) * dt) (xs i) = .ok (xs (i + 1))) :
    DirectApproach (armRot arm a.goalY) q₀ eps (fun i => (armRot arm (xs i).1, armAng arm (xs i).2)) := by
  have hend : ∀ i : ℕ, a.startT < t0 + ((i : ℝ) + 1) * dt := by
    intro i
    have : 0 < ((i : ℝ) + 1) * dt := by positivity
    linarith
  have h1 := quat_run_direct (qf := .python sf.ops) (a := armRotDmp a arm) (dualThreshold_lawful hqf) heps1 rfl rfl hT hint
    (fun k i => by simp only [armRotDmp, armAngular_eq]; exact hw k i) hsm
    (by simp only [armRotDmp, armOrientation_eq]; exact hg)
    (fun k => by simp only [armRotDmp, armAngular_eq]; exact hα k)
    (fun k => by simp only [armRotDmp, armAngular_eq]; exact hβ k) hβ0 hαβ hst hdt (show a.startT ≤ t0 from ht0) hq
    (xs := fun i => (armRot arm (xs i).1, armAng arm (xs i).2)) (by simp only [hq0, hv0])
    (fun i => run_arm_rot hc hp hT hint (hend i) arm (hx i))
  have e : (armRotDmp a arm).goalY = armRot arm a.goalY := armOrientation_eq _ _
  rw [e] at h1
  exact h1

end Step

namespace DualCartesianDMP

theorem decays_init {τ : ℝ} {ft : ForcingTerm 12 m} (h : DMP.initForcingTerm 12 m τ = .ok ft) :
    CartesianDMP.Decays ft := by
  rw [DMP.initForcingTerm_ok_iff] at h
  obtain ⟨e1, e2, _, e4, _, hlt, _⟩ := create_eq h
  refine ⟨?_, by rw [e1, e2]; exact hlt⟩
  rw [e4]
  have := Real.log_neg (by norm_num : (0 : ℝ) < 1 / 100) (by norm_num)
  linarith

theorem imitate_decays (ops : QuatOps) {n : ℕ} (qgrad : (Fin (n + 2) → Vec 4) → Fin (n + 2) → Vec 3)
    (T : Fin (n + 2) → ℝ) (Y : Fin (n + 2) → Vec 14) (reg : ℝ) (afv : Bool) (s : DualCartesianDMP m)
    (h : CartesianDMP.Decays s.ft) : CartesianDMP.Decays ((imitate ops qgrad T Y reg afv).exec s).2.ft := by
  unfold imitate
  simp only [Py.exec_bind, Py.exec_modify, Py.exec_get, Py.exec_lift]
  cases dmpImitate m T (fun t => armPos 0 (Y t)) reg (armLin 0 s.alphaY) (armLin 0 s.betaY) s.ft.overlap
    s.ft.alphaZ afv s.smooth with
  | error e => exact h
  | ok w0 =>
    simp only
    cases dmpImitateWith m T reg s.ft.overlap s.ft.alphaZ
      (.ok (determineForcesQuaternion ops qgrad T (fun t => armRot 0 (Y t)) (armAng 0 s.alphaY) (armAng 0 s.betaY)
      s.ft.alphaZ afv s.smooth)) with
    | error e => exact h
    | ok w1 =>
      simp only
      cases dmpImitate m T (fun t => armPos 1 (Y t)) reg (armLin 1 s.alphaY) (armLin 1 s.betaY) s.ft.overlap
        s.ft.alphaZ afv s.smooth with
      | error e => exact h
      | ok w2 =>
        simp only
        cases dmpImitateWith m T reg s.ft.overlap s.ft.alphaZ
          (.ok (determineForcesQuaternion ops qgrad T (fun t => armRot 1 (Y t)) (armAng 1 s.alphaY) (armAng 1 s.betaY)
          s.ft.alphaZ afv s.smooth)) with
        | error e => exact h
        | ok w3 => exact h

theorem Reachable.decays {s : DualCartesianDMP m} (h : s.Reachable) : CartesianDMP.Decays s.ft := by
  induction h with
  | @create τ dt intDt pGain smooth α β s h =>
    unfold DualCartesianDMP.create at h
    rw [show initForcingTerm m τ = DMP.initForcingTerm 12 m τ from rfl] at h
    cases h1 : DMP.initForcingTerm 12 m τ with
    | error e => rw [h1] at h; cases h
    | ok ft =>
      rw [h1] at h
      cases h2 : ensure1dArray α 12 with
      | error e => rw [h2] at h; cases h
      | ok a =>
        rw [h2] at h
        cases h3 : ensure1dArray β 12 with
        | error e => rw [h3] at h; cases h
        | ok b =>
          rw [h3] at h
          simp only [Bind.bind, Except.bind, Pure.pure, Except.pure, Except.ok.injEq] at h
          subst h
          exact decays_init h1
  | @op s o hs ih =>
    cases o with
    | step ops c sf y yd =>
      simp only [DualOp.after, exec_step]
      split <;> exact ih
    | openLoop ops t c nm =>
      have h : SameConfiguration s (DualOp.after (.openLoop ops t c nm) s) := DualCall.after_same ops s (.openLoop t c nm)
      rw [h]
      exact ih
    | configure a => exact ih
    | reset => exact ih
    | setWeights w =>
      simp only [DualOp.after, exec_setWeights]
      split <;> exact ih
    | setExecutionTime τ =>
      simp only [DualOp.after, exec_setExecutionTime]
      cases h : DMP.initForcingTerm 12 m τ with
      | error e => exact ih
      | ok ft =>
        have := decays_init h
        exact ⟨this.1, this.2⟩
    | imitate ops qgrad T Y reg afv => exact imitate_decays ops qgrad T Y reg afv s ih

/-- Objects during an execution differ only in time and current state. -/
theorem run_result {ops : QuatOps} {sf : DualStepFunction} {obj : ℕ → DualCartesianDMP m}
    {fb out : ℕ → Vec 14 × Vec 12} (h : Spec.Run (DualCartesianDMP.step ops none sf) obj fb out)
    (hp : (obj 0).pGain = 0) (i : ℕ) :
    sf.run ((obj 0).stepArgs none 0) ((obj 0).t + i * (obj 0).dt) ((obj 0).t + (i + 1) * (obj 0).dt) (fb i) =
      .ok (out i) := by
  have hobj : ∀ i, SameConfiguration (obj 0) (obj i) ∧ (obj i).t = (obj 0).t + i * (obj 0).dt := by
    intro i
    induction i with
    | zero => exact ⟨Spec.SameConfiguration.refl _, by simp⟩
    | succ i ih =>
      obtain ⟨h1, h2⟩ := ih
      have hi := h i
      rw [exec_step] at hi
      have hdt : (obj i).dt = (obj 0).dt := by rw [h1]
      cases hr : sf.run ((obj i).stepArgs none (trackingError ops (obj i).reference (fb i).1)) (obj i).t
          ((obj i).t + (obj i).dt) ((fb i).1, (fb i).2) with
      | error e => rw [hr] at hi; cases hi
      | ok r =>
        rw [hr] at hi
        have e := congrArg Prod.snd hi
        simp only at e
        rw [← e]
        refine ⟨h1.trans (same_stepped _ _ _), ?_⟩
        show (obj i).t + (obj i).dt = _
        rw [h2, hdt]; push_cast; ring
  obtain ⟨h1, h2⟩ := hobj i
  have hi := h i
  rw [exec_step] at hi
  have hdt : (obj i).dt = (obj 0).dt := by rw [h1]
  have hp' : (obj i).pGain = 0 := by rw [h1]; exact hp
  cases hr : sf.run ((obj i).stepArgs none (trackingError ops (obj i).reference (fb i).1)) (obj i).t
      ((obj i).t + (obj i).dt) ((fb i).1, (fb i).2) with
  | error e => rw [hr] at hi; cases hi
  | ok r =>
    rw [hr] at hi
    have e : (Except.ok r : Except PyErr (Vec 14 × Vec 12)) = .ok (out i) := congrArg Prod.fst hi
    rw [e, sf.run_pGain_zero (obj i) hp' none _ 0, h1.stepArgs, hdt, h2] at hr
    rw [← hr]
    congr 1
    ring

/-- Rows of open-loop executions belong to one sequence of states. -/
theorem openLoop_rows {s : DualCartesianDMP m} {ops : QuatOps} {sf : DualStepFunction} {name : String}
    (hname : DualStepFunction.lookup ops name = .ok sf) (hp : s.pGain = 0) (hdt : 0 < s.dt) (hint : 0 < s.intDt) :
    ∃ xs : ℕ → Vec 14 × Vec 12, xs 0 = (s.startY, s.startYd) ∧
      (∀ i : ℕ, sf.run (s.stepArgs none 0) (0 + i * s.dt) (0 + (i + 1) * s.dt) (xs i) = .ok (xs (i + 1))) ∧
      ∀ runT : Option ℝ, ((DualCartesianDMP.openLoop ops runT none name).exec s).1 =
        .ok ((List.range (⌈runT.getD s.executionTime / s.dt⌉₊ + 1)).map (fun i : ℕ => i * s.dt),
          (List.range (⌈runT.getD s.executionTime / s.dt⌉₊ + 1)).map (fun i => (xs i).1)) := by
  let next : ℕ → Vec 14 × Vec 12 → Vec 14 × Vec 12 := fun i x =>
    (subSteps s.intDt (0 + (i + 1) * s.dt) (0 + i * s.dt)).foldl (fun x p => (s.stepArgs none 0).update sf.ops 0 0 p.1 p.2 x) x
  let xs : ℕ → Vec 14 × Vec 12 := fun i => Nat.rec (s.startY, s.startYd) next i
  have hx : ∀ i : ℕ, sf.run (s.stepArgs none 0) (0 + i * s.dt) (0 + (i + 1) * s.dt) (xs i) = .ok (xs (i + 1)) := by
    intro i
    rw [DualStepFunction.run_eq (a := s.stepArgs none 0) rfl (Or.inl hp) hint (by
      show (0 : ℝ) < 0 + (i + 1) * s.dt
      rw [zero_add]; positivity)]
    rfl
  refine ⟨xs, rfl, hx, fun runT => ?_⟩
  rw [exec_openLoop, hname]
  simp only
  set R := runT.getD s.executionTime
  set N := ⌈R / s.dt⌉₊ with hN
  have hNR : ∀ i : ℕ, (i : ℝ) * s.dt < R ↔ i < N := by
    intro i
    rw [hN, Nat.lt_ceil, lt_div_iff₀ hdt]
  have key : ∀ (n i : ℕ), i + n = N → ∀ o : DualCartesianDMP m, SameConfiguration s o → o.t = i * s.dt →
      ∃ o', (Py.while (fun s : DualCartesianDMP m => s.t < R) (loopBody ops none sf)
        ⟨(xs i).1, (xs i).2, (List.range (i + 1)).map (fun i : ℕ => i * s.dt), (List.range (i + 1)).map (fun i => (xs i).1)⟩).exec o =
        (.ok ⟨(xs N).1, (xs N).2, (List.range (N + 1)).map (fun i : ℕ => i * s.dt),
          (List.range (N + 1)).map (fun i => (xs i).1)⟩, o') := by
    intro n
    induction n with
    | zero =>
      intro i hi o ho ht
      rw [add_zero] at hi
      rw [Py.exec_while_done (by rw [ht, hNR]; omega), hi]
      exact ⟨_, rfl⟩
    | succ n ih =>
      intro i hi o ho ht
      have hod : o.dt = s.dt := by rw [ho]
      have hop : o.pGain = 0 := by rw [ho]; exact hp
      have hr := hx i
      have e1 : (0 : ℝ) + i * s.dt = o.t := by rw [ht, zero_add]
      have e2 : (0 : ℝ) + (i + 1) * s.dt = o.t + o.dt := by rw [ht, hod]; ring
      have e3 : (i : ℝ) * s.dt + s.dt = ((i + 1 : ℕ) : ℝ) * s.dt := by push_cast; ring
      rw [e1, e2, ← ho.stepArgs,
        sf.run_pGain_zero o hop none 0 (trackingError ops o.reference (xs i).1)] at hr
      obtain ⟨o', ho'⟩ := ih (i + 1) (by omega) (o.stepped (xs (i + 1)).1 (xs (i + 1)).2) (ho.trans (same_stepped _ _ _))
        (by show o.t + o.dt = _; rw [hod, ht, e3])
      refine ⟨o', Py.exec_while_step (by rw [ht, hNR]; omega) ?_ ho'⟩
      rw [exec_loopBody]
      simp only
      rw [hr]
      simp only
      rw [hod, ht, e3]
      simp only [List.range_succ (n := i + 1), List.map_append, List.map_cons, List.map_nil]
  obtain ⟨o', ho'⟩ := key N 0 (by omega) { s with t := 0 } rfl (by simp)
  have hl : loop ops none sf R s = (.ok ⟨(xs N).1, (xs N).2, (List.range (N + 1)).map (fun i : ℕ => i * s.dt),
          (List.range (N + 1)).map (fun i => (xs i).1)⟩, o') := by
    rw [← ho']
    unfold loop
    simp [xs]
  rw [hl]

end DualCartesianDMP

/-- **C75 (`DualCartesianDMP.step`).** Whatever the weights, start, goal, first passed state and history of the object and
with or without smooth scaling: without `p_gain` and with stable positive gains, an infinite sequence of `step` calls, each
one called with the result of the previous one, brings the position of each arm to its goal position, with velocity 0,
and its orientation close to its goal orientation, up to an angle that is proportional to the threshold `eps` below which
the quaternion logarithm is 0 (`10⁻¹⁶` in the Cython version), and stops there. -/
theorem C75_dual_step {s : DualCartesianDMP m} (hs : s.Reachable) {ops : QuatOps} {sf : DualStepFunction}
    (hsf : DualThreshold sf eps) (hp : s.pGain = 0) (hdt : 0 < s.dt) (ht : 0 ≤ s.t) (hτ : 0 < s.executionTime)
    (hint : 0 < s.intDt) {obj : ℕ → DualCartesianDMP m} {fb out : ℕ → Vec 14 × Vec 12} (h0 : obj 0 = s)
    (hrun : Spec.Run (DualCartesianDMP.step ops none sf) obj fb out) (hfb : ∀ i, fb (i + 1) = out i) (arm : Fin 2) :
    ((∀ k, 0 < armLinear arm s.alphaY k ∧ 0 < armLinear arm s.betaY k) →
      (∀ k, Spec.Stable .euler s.dt s.intDt s.executionTime (armLinear arm s.alphaY k) (armLinear arm s.betaY k)) →
      Tendsto (fun i => (armPosition arm (out i).1, armLinear arm (out i).2)) atTop (𝓝 (armPosition arm s.goalY, 0))) ∧
    ∀ α β : ℝ, (∀ k, armAngular arm s.alphaY k = α) → (∀ k, armAngular arm s.betaY k = β) → 0 < α → 0 < β →
      s.intDt * (α + β) ≤ s.executionTime → UnitQuat (armOrientation arm s.goalY) →
      UnitQuat (armOrientation arm (fb 0).1) →
      ReachesOrientation (armOrientation arm s.goalY) (α * β / s.executionTime ^ 2) (Real.pi * (5 + 8 * (β / α)) * eps)
        (fun i => (armOrientation arm (out i).1, armAngular arm (out i).2)) := by
  subst h0
  simp only [armPosition_eq, armOrientation_eq, armLinear_eq, armAngular_eq]
  obtain ⟨d1, d2⟩ := hs.decays
  have h := dual_run_reaches (a := (obj 0).stepArgs none 0) hsf rfl (Or.inl hp) (show (0 : ℝ) < (obj 0).executionTime from hτ)
    hint hs.valid.two d1 d2 arm hdt (show (0 : ℝ) ≤ (obj 0).t from ht) (xs := fb) (fun i => by
      rw [hfb]; exact DualCartesianDMP.run_result hrun hp i)
  rw [show ((obj 0).stepArgs none 0).goalT - ((obj 0).stepArgs none 0).startT = (obj 0).executionTime from sub_zero _] at h
  refine ⟨fun hg hst => ?_, fun α β hα hβ hα0 hβ0 hrot hg hu => ?_⟩
  · have h2 := (tendsto_add_atTop_iff_nat 1).2 (h.1 hg hst)
    simp only [hfb] at h2
    exact h2
  · exact ReachesOrientation.tail (h.2 hα hβ hα0 hβ0 hrot hg hu) (fun i => by simp only [hfb])

/-- Such executions exist from every object with positive step sizes and every first state. -/
theorem C75_dual_runs_exist {s : DualCartesianDMP m} (ops : QuatOps) (sf : DualStepFunction) (hp : s.pGain = 0)
    (hdt : 0 < s.dt) (ht : 0 ≤ s.t) (hint : 0 < s.intDt) (x : Vec 14 × Vec 12) :
    ∃ obj fb out, obj 0 = s ∧ fb 0 = x ∧ Spec.Run (DualCartesianDMP.step (m := m) ops none sf) obj fb out ∧
      ∀ i, fb (i + 1) = out i := by
  classical
  let next : DualCartesianDMP m × (Vec 14 × Vec 12) → DualCartesianDMP m × (Vec 14 × Vec 12) := fun p =>
    let r := (DualCartesianDMP.step ops none sf p.2.1 p.2.2).exec p.1
    (r.2, match r.1 with | .ok x => x | .error _ => p.2)
  let tr : ℕ → DualCartesianDMP m × (Vec 14 × Vec 12) := fun i => next^[i] (s, x)
  have hsucc : ∀ i, tr (i + 1) = next (tr i) := fun i => Function.iterate_succ_apply' _ _ _
  have hstep : ∀ (o : DualCartesianDMP m) y yd, SameConfiguration s o → 0 ≤ o.t →
      ∃ r, (DualCartesianDMP.step ops none sf y yd).exec o = (.ok r, o.stepped r.1 r.2) := by
    intro o y yd h1 h2
    have e1 : o.dt = s.dt := by rw [h1]
    have e2 : o.intDt = s.intDt := by rw [h1]
    have e3 : o.pGain = 0 := by rw [h1]; exact hp
    rw [DualCartesianDMP.exec_step]
    rw [DualStepFunction.run_eq (a := o.stepArgs none (DualCartesianDMP.trackingError ops o.reference y)) rfl (Or.inl e3)
      (show 0 < o.intDt by rw [e2]; exact hint) (show (0 : ℝ) < o.t + o.dt by linarith)]
    exact ⟨_, rfl⟩
  have hinv : ∀ i, SameConfiguration s (tr i).1 ∧ 0 ≤ (tr i).1.t := by
    intro i
    induction i with
    | zero => exact ⟨Spec.SameConfiguration.refl _, ht⟩
    | succ i ih =>
      obtain ⟨h1, h2⟩ := ih
      obtain ⟨r, hr⟩ := hstep (tr i).1 (tr i).2.1 (tr i).2.2 h1 h2
      rw [hsucc]; simp only [next, hr]
      refine ⟨h1.trans (DualCartesianDMP.same_stepped _ _ _), ?_⟩
      show 0 ≤ (tr i).1.t + (tr i).1.dt
      have : (tr i).1.dt = s.dt := by rw [h1]
      rw [this]; linarith
  refine ⟨fun i => (tr i).1, fun i => (tr i).2, fun i => (tr (i + 1)).2, rfl, rfl, ?_, fun i => rfl⟩
  intro i
  obtain ⟨h1, h2⟩ := hinv i
  obtain ⟨r, hr⟩ := hstep (tr i).1 (tr i).2.1 (tr i).2.2 h1 h2
  simp only [hsucc]
  simp only [next, hr]

/-- Weights of a DMP whose parameters are all 0. -/
theorem DualCartesianDMP.weights_zero {s : DualCartesianDMP m} (hw : ∀ w ∈ s.getWeights, w = 0) (k : Fin 12) (i : Fin m) :
    s.ft.weights k i = 0 := by
  apply hw
  unfold DualCartesianDMP.getWeights
  rw [List.mem_ofFn]
  refine ⟨finProdFinEquiv (k, i), ?_⟩
  have h := finProdFinEquiv.symm_apply_apply (k, i)
  have h1 : (finProdFinEquiv (k, i)).divNat = k := congrArg Prod.fst h
  have h2 : (finProdFinEquiv (k, i)).modNat = i := congrArg Prod.snd h
  rw [h1, h2]

/-- **C76 (`DualCartesianDMP.step`).** With zero rotational weights of an arm, without smooth scaling and `p_gain`, and with
rotational gains of the arm that are at least critically damped (`α ≥ 4 β`, by default `α = 4 β`), the orientations of this arm passed to an
infinite sequence of `step` calls (each one called with the result of the previous one) that starts without angular
velocity approach its goal orientation directly: about one fixed axis, on the shorter way, without overshoot. -/
theorem C76_dual_step {s : DualCartesianDMP m} {ops : QuatOps} {sf : DualStepFunction} (hsf : DualThreshold sf eps)
    (heps1 : eps ≤ 1) (hp : s.pGain = 0) (hdt : 0 < s.dt) (ht : 0 ≤ s.t) (hτ : 0 < s.executionTime)
    (arm : Fin 2) (hw : ∀ k i, armAngular arm (fun j => s.ft.weights j i) k = 0) (hsm : s.smooth = false)
    {α β : ℝ} (hα : ∀ k, armAngular arm s.alphaY k = α) (hβ : ∀ k, armAngular arm s.betaY k = β) (hβ0 : 0 < β)
    (hαβ : 4 * β ≤ α) (hint : 0 < s.intDt) (hrot : s.intDt * α ≤ s.executionTime)
    (hg : UnitQuat (armOrientation arm s.goalY)) {obj : ℕ → DualCartesianDMP m} {fb out : ℕ → Vec 14 × Vec 12}
    (h0 : obj 0 = s) {q₀ : Vec 4} (hu : UnitQuat q₀) (hq0 : armOrientation arm (fb 0).1 = q₀)
    (hv0 : armAngular arm (fb 0).2 = 0) (hrun : Spec.Run (DualCartesianDMP.step ops none sf) obj fb out)
    (hfb : ∀ i, fb (i + 1) = out i) :
    DirectApproach (armOrientation arm s.goalY) q₀ eps
      (fun i => (armOrientation arm (fb i).1, armAngular arm (fb i).2)) := by
  subst h0
  simp only [armOrientation_eq, armAngular_eq] at *
  exact dual_run_direct (a := (obj 0).stepArgs none 0) hsf heps1 rfl (Or.inl hp)
    (show (0 : ℝ) < (obj 0).executionTime from hτ) hint arm
    hw hsm hα hβ hβ0 hαβ
    (by show (obj 0).intDt * α ≤ (obj 0).executionTime - 0; rw [sub_zero]; exact hrot) hg hdt
    (show (0 : ℝ) ≤ (obj 0).t from ht) hu (xs := fb) hq0 hv0 (fun i => by
      rw [hfb]; exact DualCartesianDMP.run_result hrun hp i)

/-- **C75 (`DualCartesianDMP.open_loop`).** The call returns for every `run_t`, and rows of sufficiently long open-loop
executions are, for each arm, as close to the goal position as required, and close to the goal orientation up to an angle
that is proportional to the threshold `eps` below which the quaternion logarithm is 0. -/
theorem C75_dual_open_loop {s : DualCartesianDMP m} (hs : s.Reachable) {ops : QuatOps} {sf : DualStepFunction}
    {name : String} (hname : DualStepFunction.lookup ops name = .ok sf) (hsf : DualThreshold sf eps) (hp : s.pGain = 0)
    (hdt : 0 < s.dt) (hτ : 0 < s.executionTime) (hint : 0 < s.intDt) :
    (∀ runT, ∃ T Y, ((DualCartesianDMP.openLoop ops runT none name).exec s).1 = .ok (T, Y)) ∧
    ∀ arm : Fin 2, ((∀ k, 0 < armLinear arm s.alphaY k ∧ 0 < armLinear arm s.betaY k) →
      (∀ k, Spec.Stable .euler s.dt s.intDt s.executionTime (armLinear arm s.alphaY k) (armLinear arm s.betaY k)) →
      ∀ ε > 0, ∃ R : ℝ, ∀ (runT : Option ℝ) T Y,
        ((DualCartesianDMP.openLoop ops runT none name).exec s).1 = .ok (T, Y) → T.length = Y.length ∧
        ∀ i (hT : i < T.length) (hY : i < Y.length), R ≤ T[i] →
          ∀ k, |armPosition arm Y[i] k - armPosition arm s.goalY k| < ε) ∧
    ∀ α β : ℝ, (∀ k, armAngular arm s.alphaY k = α) → (∀ k, armAngular arm s.betaY k = β) → 0 < α → 0 < β →
      s.intDt * (α + β) ≤ s.executionTime → UnitQuat (armOrientation arm s.goalY) →
      UnitQuat (armOrientation arm s.startY) →
      ∃ R : ℝ, ∀ (runT : Option ℝ) T Y,
        ((DualCartesianDMP.openLoop ops runT none name).exec s).1 = .ok (T, Y) → T.length = Y.length ∧
        ∀ i (hT : i < T.length) (hY : i < Y.length), R ≤ T[i] →
          rotationAngle (armOrientation arm s.goalY) (armOrientation arm Y[i]) ≤ Real.pi * (5 + 8 * (β / α)) * eps := by
  obtain ⟨xs, hx0, hx, hol⟩ := DualCartesianDMP.openLoop_rows hname hp hdt hint
  obtain ⟨d1, d2⟩ := hs.decays
  refine ⟨fun runT => ⟨_, _, hol runT⟩, fun arm => ?_⟩
  simp only [armPosition_eq, armOrientation_eq, armLinear_eq, armAngular_eq]
  have h := dual_run_reaches (a := s.stepArgs none 0) hsf rfl (Or.inl hp) (show (0 : ℝ) < s.executionTime from hτ)
    hint hs.valid.two d1 d2 arm hdt (le_refl (0 : ℝ)) hx
  rw [show (s.stepArgs none 0).goalT - (s.stepArgs none 0).startT = s.executionTime from sub_zero _] at h
  have hidx : ∀ N i : ℕ, (N : ℝ) * s.dt ≤ (i : ℝ) * s.dt → N ≤ i := by
    intro N i h
    exact_mod_cast le_of_mul_le_mul_right h hdt
  refine ⟨fun hg hst ε hε => ?_, fun α β hα hβ hα0 hβ0 hrot hg hu => ?_⟩
  · have h1 : Tendsto (fun i => armPos arm (xs i).1) atTop (𝓝 (armPos arm s.goalY)) :=
      (continuous_fst.tendsto _).comp (h.1 hg hst)
    have h2 : ∀ k, ∀ᶠ i in atTop, |armPos arm (xs i).1 k - armPos arm s.goalY k| < ε := by
      intro k
      obtain ⟨N, hN⟩ := (Metric.tendsto_atTop.1 ((tendsto_pi_nhds.1 h1) k)) ε hε
      exact eventually_atTop.2 ⟨N, fun i hi => by simpa [Real.dist_eq] using hN i hi⟩
    obtain ⟨N, hN⟩ := eventually_atTop.1 (eventually_all.2 h2)
    refine ⟨N * s.dt, fun runT T Y h => ?_⟩
    rw [hol] at h
    simp only [Except.ok.injEq, Prod.mk.injEq] at h
    obtain ⟨rfl, rfl⟩ := h
    refine ⟨by simp, fun i hT hY hR => ?_⟩
    simp only [List.getElem_map, List.getElem_range] at hR ⊢
    exact hN i (hidx _ _ hR)
  · obtain ⟨N, hN⟩ := eventually_atTop.1 (h.2 hα hβ hα0 hβ0 hrot hg (by rw [hx0]; exact hu))
    refine ⟨N * s.dt, fun runT T Y h => ?_⟩
    rw [hol] at h
    simp only [Except.ok.injEq, Prod.mk.injEq] at h
    obtain ⟨rfl, rfl⟩ := h
    refine ⟨by simp, fun i hT hY hR => ?_⟩
    simp only [List.getElem_map, List.getElem_range] at hR ⊢
    exact (hN i (hidx _ _ hR)).1

/-- **C76 (`DualCartesianDMP.open_loop`).** Under the conditions of `C76_dual_step`, if the arm starts without angular
velocity, its orientations in open-loop executions of every length show the beginning of one and the same direct approach
from the start to the goal orientation. -/
theorem C76_dual_open_loop {s : DualCartesianDMP m} {ops : QuatOps} {sf : DualStepFunction} {name : String}
    (hname : DualStepFunction.lookup ops name = .ok sf) (hsf : DualThreshold sf eps)
    (heps1 : eps ≤ 1) (hp : s.pGain = 0) (hdt : 0 < s.dt) (hτ : 0 < s.executionTime)
    (arm : Fin 2) (hw : ∀ k i, armAngular arm (fun j => s.ft.weights j i) k = 0) (hsm : s.smooth = false)
    {α β : ℝ} (hα : ∀ k, armAngular arm s.alphaY k = α) (hβ : ∀ k, armAngular arm s.betaY k = β) (hβ0 : 0 < β)
    (hαβ : 4 * β ≤ α) (hint : 0 < s.intDt) (hrot : s.intDt * α ≤ s.executionTime)
    (hg : UnitQuat (armOrientation arm s.goalY)) (hq : UnitQuat (armOrientation arm s.startY))
    (hv : armAngular arm s.startYd = 0) :
    ∃ xs : ℕ → Vec 4 × Vec 3, xs 0 = (armOrientation arm s.startY, 0) ∧
      DirectApproach (armOrientation arm s.goalY) (armOrientation arm s.startY) eps xs ∧
      ∀ (runT : Option ℝ) T Y, ((DualCartesianDMP.openLoop ops runT none name).exec s).1 = .ok (T, Y) →
        ∀ i (hY : i < Y.length), armOrientation arm Y[i] = (xs i).1 := by
  obtain ⟨xs, hx0, hx, hol⟩ := DualCartesianDMP.openLoop_rows hname hp hdt hint
  simp only [armOrientation_eq, armAngular_eq] at *
  refine ⟨fun i => (armRot arm (xs i).1, armAng arm (xs i).2), by simp only [hx0, hv], ?_, ?_⟩
  · exact dual_run_direct (a := s.stepArgs none 0) hsf heps1 rfl (Or.inl hp)
      (show (0 : ℝ) < s.executionTime from hτ) hint arm
      hw hsm hα hβ hβ0 hαβ
      (by show s.intDt * α ≤ s.executionTime - 0; rw [sub_zero]; exact hrot) hg hdt
      (le_refl (0 : ℝ)) hq (by rw [hx0]) (by rw [hx0]; exact hv) hx
  · intro runT T Y h i hY
    rw [hol] at h
    simp only [Except.ok.injEq, Prod.mk.injEq] at h
    obtain ⟨rfl, rfl⟩ := h
    simp only [List.getElem_map, List.getElem_range]

/-- A dual-arm DMP with the default parameters of the constructor, execution time 1 s and configured with unit quaternions
meets all the conditions of C75 and C76. -/
example : ∃ s : DualCartesianDMP 10, s.Reachable ∧ DualThreshold .cython (1 / 10 ^ 16) ∧ s.pGain = 0 ∧ 0 < s.dt ∧
    0 ≤ s.t ∧ 0 < s.executionTime ∧ 0 < s.intDt ∧ (∀ arm k i, armAngular arm (fun j => s.ft.weights j i) k = 0) ∧ s.smooth = false ∧
    ∀ arm : Fin 2, (∀ k, 0 < armLinear arm s.alphaY k ∧ 0 < armLinear arm s.betaY k) ∧
    (∀ k, Spec.Stable .euler s.dt s.intDt s.executionTime (armLinear arm s.alphaY k) (armLinear arm s.betaY k)) ∧
    (∀ k, armAngular arm s.alphaY k = 25) ∧ (∀ k, armAngular arm s.betaY k = 25 / 4) ∧ (4 : ℝ) * (25 / 4) ≤ 25 ∧
    s.intDt * (25 + 25 / 4) ≤ s.executionTime ∧ s.intDt * 25 ≤ s.executionTime ∧
    UnitQuat (armOrientation arm s.goalY) ∧ UnitQuat (armOrientation arm s.startY) ∧
    armAngular arm s.startYd = 0 ∧ armOrientation arm s.goalY ≠ armOrientation arm s.startY := by
  obtain ⟨s, hs, h1, h2, h3, h4, h5, h6, h7, h8, h9, h10⟩ := DualCartesianDMP.create_ok 10 (by norm_num) one_pos (1 / 100)
    (1 / 1000) 0 false 25 (25 / 4)
  let a : ConfigArgs := { startY := some [0, 0, 0, 1, 0, 0, 0, 0, 0, 0, 1, 0, 0, 0]
                          goalY := some [1, 2, 3, 0, 1, 0, 0, 4, 5, 6, 0, 0, 1, 0] }
  let s' := (DualOp.configure (m := 10) a).after s
  have hc : s' = { s with startY := ![0, 0, 0, 1, 0, 0, 0, 0, 0, 0, 1, 0, 0, 0]
                          goalY := ![1, 2, 3, 0, 1, 0, 0, 4, 5, 6, 0, 0, 1, 0] } := by
    show ((DualCartesianDMP.configure a).exec s).2 = _
    rw [DualCartesianDMP.exec_configure, C25_configure_sets _ _ (by simp [AllOk, FieldOk, a])]
    have e1 : newValue (some [0, 0, 0, 1, 0, 0, 0, 0, 0, 0, 1, 0, 0, 0]) s.startY =
        ![0, 0, 0, 1, 0, 0, 0, 0, 0, 0, 1, 0, 0, 0] := by
      funext i; fin_cases i <;> rfl
    have e2 : newValue (some [1, 2, 3, 0, 1, 0, 0, 4, 5, 6, 0, 0, 1, 0]) s.goalY =
        ![1, 2, 3, 0, 1, 0, 0, 4, 5, 6, 0, 0, 1, 0] := by
      funext i; fin_cases i <;> rfl
    simp only [a, e1, e2]
    rfl
  refine ⟨s', .op _ (.create hs), rfl, ?_⟩
  rw [hc]
  have hl : ∀ (arm : Fin 2) (x : ℝ) k, armLinear arm (fun _ => x) k = x := by
    intro arm x k; fin_cases arm <;> fin_cases k <;> rfl
  have ha : ∀ (arm : Fin 2) (x : ℝ) k, armAngular arm (fun _ => x) k = x := by
    intro arm x k; fin_cases arm <;> fin_cases k <;> rfl
  have ht : s.t = 0 := by rw [h1]; rfl
  have hyd : s.startYd = 0 := by rw [h1]; rfl
  simp only [h2, h3, h4, h5, h6, h7, h8, hl, ha, ht, hyd]
  refine ⟨trivial, by norm_num, le_rfl, by norm_num, by norm_num, ?_, trivial, fun arm => ⟨fun k => ⟨by norm_num, by norm_num⟩,
    fun k => .euler (Or.inl rfl) (by norm_num) (by norm_num), fun _ => trivial, fun _ => trivial, by norm_num, by norm_num,
    by norm_num, ?_, ?_, ?_, ?_⟩⟩
  · intro arm k i
    simp only [h9]
    exact ha arm 0 k
  · fin_cases arm <;> simp [UnitQuat, armOrientation]
  · fin_cases arm <;> simp [UnitQuat, armOrientation]
  · funext k; exact ha arm 0 k
  · intro h
    have : (0 : ℝ) = 1 := by fin_cases arm <;> exact congrFun h 0
    norm_num at this

end Verif
