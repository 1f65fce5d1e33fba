import Verif.Lemmas.Dual
import Verif.Spec.Dual

/-! # Properties of the dual-arm step functions (C31, C35, C37) -/

namespace Verif
open Spec
variable {m : ℕ}

theorem armPosition_eq (arm : Fin 2) (y : Vec 14) : armPosition arm y = armPos arm y := by
  funext k; fin_cases arm <;> fin_cases k <;> rfl
theorem armOrientation_eq (arm : Fin 2) (y : Vec 14) : armOrientation arm y = armRot arm y := by
  funext k; fin_cases arm <;> fin_cases k <;> rfl
theorem armLinear_eq (arm : Fin 2) (v : Vec 12) : armLinear arm v = armLin arm v := by
  funext k; fin_cases arm <;> fin_cases k <;> rfl
theorem armAngular_eq (arm : Fin 2) (v : Vec 12) : armAngular arm v = armAng arm v := by
  funext k; fin_cases arm <;> fin_cases k <;> rfl

/-- The quaternion functions that a step function uses. -/
noncomputable def DualStepFunction.ops : DualStepFunction → QuatOps
  | .python ops => ops
  | .cython => QuatOps.cython

theorem LawfulDualStep.ops {sf : DualStepFunction} (h : LawfulDualStep sf) :
    ∃ eps > 0, LawfulQuatOps sf.ops eps := by
  cases sf with
  | python ops => exact h
  | cython => exact ⟨_, by norm_num, lawful_cython⟩

namespace DualStepArgs

theorem correction_pGain (a : DualStepArgs m) (ops : QuatOps) (dt : ℝ) (h : a.pGain = 0 ∨ a.trackingError = none) :
    a.correction ops dt = 0 := by
  unfold correction
  cases he : a.trackingError with
  | none => rfl
  | some e =>
    rcases h with h | h
    · simp only [h, zero_mul, zero_div]
      exact vel_ext (fun arm => by rw [armLin_joinVel]; rfl) (fun arm => by rw [armAng_joinVel]; rfl)
    · rw [he] at h; cases h

theorem update_rot (a : DualStepArgs m) (ops : QuatOps) (cd cdd : Vec 12) (dt t : ℝ) (s : Vec 14 × Vec 12)
    (arm : Fin 2) :
    (armRot arm (a.update ops cd cdd dt t s).1, armAng arm (a.update ops cd cdd dt t s).2) =
      (armRotDmp a arm).update ops (armAng arm cd) (armAng arm cdd) dt t (armRot arm s.1, armAng arm s.2) := by
  simp only [update, armRot_joinState, armAng_joinVel, QuatStepArgs.update, armRotDmp, armOrientation_eq,
    armAngular_eq]
  cases a.smooth <;> rfl

theorem update_pos (a : DualStepArgs m) (ops : QuatOps) (dt t : ℝ) (s : Vec 14 × Vec 12)
    (arm : Fin 2) (hsm : a.smooth = true → arm = 1 → UniformRightGains a.betaY) :
    (armPos arm (a.update ops 0 0 dt t s).1, armLin arm (a.update ops 0 0 dt t s).2) =
      (armPosDmp a arm).eulerBodyCy dt t (armPos arm s.1, armLin arm s.2) := by
  have hs : ∀ k z, a.smoothingPos z arm k =
      if a.smooth then armLin arm a.betaY k * (armPos arm a.goalY k - armPos arm a.startY k) * z else 0 := by
    intro k z
    unfold smoothingPos
    cases h : a.smooth with
    | false => rfl
    | true =>
      have : a.betaY ⟨7 * arm + k, by omega⟩ = armLin arm a.betaY k := by
        fin_cases arm
        · fin_cases k <;> rfl
        · obtain ⟨h1, h2, h3⟩ := hsm h rfl
          fin_cases k
          · exact h1.symm
          · exact h2.symm
          · exact h3.symm
      simp only [this]
  have hv : armLin arm (a.update ops 0 0 dt t s).2 =
      ((armPosDmp a arm).eulerBodyCy dt t (armPos arm s.1, armLin arm s.2)).2 := by
    funext k
    simp only [update, armLin_joinVel, hs, StepArgs.eulerBodyCy, StepArgs.cyCoupling, armPosDmp, armPosition_eq,
      armLinear_eq]
    have hf : ∀ z, armLin arm (a.ft.force z) k =
      ({ a.ft with weights := fun k i => armLin arm (fun j => a.ft.weights j i) k } : ForcingTerm 3 m).force z k :=
      fun z => rfl
    simp only [hf, show armLin arm (0 : Vec 12) = 0 from rfl, Pi.zero_apply, zero_mul, zero_div, add_zero]
    rfl
  refine Prod.ext ?_ hv
  have hp : armPos arm (a.update ops 0 0 dt t s).1 =
      fun k => armPos arm s.1 k + dt * armLin arm (a.update ops 0 0 dt t s).2 k := by
    simp only [update, armPos_joinState, armLin_joinVel]
  rw [hp, hv]
  rfl

theorem update_unit (a : DualStepArgs m) {ops : QuatOps} {eps : ℝ} (h : LawfulQuatOps ops eps) (cd cdd : Vec 12)
    (dt t : ℝ) {s : Vec 14 × Vec 12} (hs : ∀ arm, UnitQuat (armRot arm s.1)) (arm : Fin 2) :
    UnitQuat (armRot arm (a.update ops cd cdd dt t s).1) := by
  have := (Prod.ext_iff.1 (a.update_rot ops cd cdd dt t s arm)).1
  simp only at this
  rw [this]
  exact QuatStepArgs.update_unit _ h _ _ dt t (hs arm)

end DualStepArgs

theorem DualStepFunction.run_unit {sf : DualStepFunction} (h : LawfulDualStep sf) (a : DualStepArgs m)
    (hst : ∀ arm, UnitQuat (armRot arm a.startY)) {lastT t : ℝ} {s s' : Vec 14 × Vec 12}
    (hs : ∀ arm, UnitQuat (armRot arm s.1)) (hr : sf.run a lastT t s = .ok s') :
    ∀ arm, UnitQuat (armRot arm s'.1) := by
  have hs' : ∀ arm, UnitQuat (armRot arm (if t ≤ a.startT then (a.startY, a.startYd) else s).1) := by
    split_ifs
    · exact hst
    · exact hs
  cases sf with
  | python ops =>
    obtain ⟨eps, heps, hl⟩ := h
    simp only [DualStepFunction.run, DualStepArgs.stepPy] at hr
    cases hi : intLoop a.intDt t (a.bodyPy ops) lastT ((if t ≤ a.startT then (a.startY, a.startYd) else s), (0, 0)) with
    | error e => rw [hi] at hr; cases hr
    | ok x =>
      rw [hi] at hr
      simp only [Except.map, Except.ok.injEq] at hr
      subst hr
      refine intLoop_inv (P := fun x : (Vec 14 × Vec 12) × (Vec 12 × Vec 12) =>
        ∀ arm, UnitQuat (armRot arm x.1.1)) ?_ hs' hi
      intro dt t x hx
      exact a.update_unit hl _ _ dt t hx
  | cython =>
    simp only [DualStepFunction.run, DualStepArgs.stepCy] at hr
    refine intLoop_inv (P := fun x : Vec 14 × Vec 12 => ∀ arm, UnitQuat (armRot arm x.1)) ?_ hs' hr
    intro dt t x hx
    exact a.update_unit lawful_cython _ _ dt t hx

/-- **C31.** The dual-arm step functions preserve the unit length of both orientations, for all gains, forces, coupling
terms and tracking errors. -/
theorem C31_dual_step_function {sf : DualStepFunction} (h : LawfulDualStep sf) (a : DualStepArgs m)
    (hst : ∀ arm, UnitQuat (armOrientation arm a.startY)) {lastT t : ℝ} {y y' : Vec 14} {yd yd' : Vec 12}
    (hy : ∀ arm, UnitQuat (armOrientation arm y)) (hr : sf.run a lastT t (y, yd) = .ok (y', yd')) :
    ∀ arm, UnitQuat (armOrientation arm y') := by
  simp only [armOrientation_eq] at *
  exact DualStepFunction.run_unit h a hst (s := (y, yd)) (s' := (y', yd')) hy hr

/-! ## C35 -/

namespace DualStepArgs

theorem update_congr (a : DualStepArgs m) {ops ops' : QuatOps} {eps : ℝ} (h : AgreeOnUnit ops ops')
    (hl : LawfulQuatOps ops' eps) (hg : ∀ arm, UnitQuat (armRot arm a.goalY))
    (hst : ∀ arm, UnitQuat (armRot arm a.startY)) (cd cdd : Vec 12) (dt t : ℝ) {s : Vec 14 × Vec 12}
    (hs : ∀ arm, UnitQuat (armRot arm s.1)) : a.update ops cd cdd dt t s = a.update ops' cd cdd dt t s := by
  have hd : ∀ p q, UnitQuat p → UnitQuat q → QuatStepArgs.diff ops p q = QuatStepArgs.diff ops' p q := by
    intro p q hp hq
    unfold QuatStepArgs.diff
    have hc := LawfulQuatOps.unit_conj hl hq
    rw [h.conj q hq, h.mul _ _ hp hc, h.log _ (LawfulQuatOps.unit_mul hl hp hc)]
  have hm : ∀ v q, UnitQuat q → ops.mul (ops.exp v) q = ops'.mul (ops'.exp v) q := by
    intro v q hq
    rw [h.exp, h.mul _ _ (LawfulQuatOps.unit_exp hl v) hq]
  unfold update
  simp only [hd _ _ (hg _) (hst _), hd _ _ (hg _) (hs _), hm _ _ (hs _)]

theorem correction_congr (a : DualStepArgs m) {ops ops' : QuatOps} (h : AgreeOnUnit ops ops')
    (he : ∀ e, a.trackingError = some e → ∀ arm, UnitQuat (armRot arm e)) (dt : ℝ) :
    a.correction ops dt = a.correction ops' dt := by
  unfold correction
  cases h1 : a.trackingError with
  | none => rfl
  | some e => simp only [h.log _ (he e h1 _)]

end DualStepArgs

/-- **C35.** Both dual-arm step functions give the same result if the correction of the tracking error vanishes, if a
coupling term is used, or if at most one sub-step is taken. Quaternion functions that agree on unit quaternions are
assumed, and that all given orientations are unit quaternions. -/
theorem C35_python_eq_cython (a : DualStepArgs m) {ops : QuatOps} (hops : AgreeOnUnit ops QuatOps.cython)
    (hg : ∀ arm, UnitQuat (armOrientation arm a.goalY)) (hst : ∀ arm, UnitQuat (armOrientation arm a.startY))
    (he : ∀ e, a.trackingError = some e → ∀ arm, UnitQuat (armOrientation arm e))
    {lastT t : ℝ} {y : Vec 14} (yd : Vec 12) (hy : ∀ arm, UnitQuat (armOrientation arm y))
    (hcase : a.pGain = 0 ∨ a.trackingError = none ∨ a.coupling ≠ none ∨ t - lastT ≤ a.intDt) :
    (DualStepFunction.python ops).run a lastT t (y, yd) = DualStepFunction.cython.run a lastT t (y, yd) := by
  simp only [armOrientation_eq] at *
  simp only [DualStepFunction.run, DualStepArgs.stepPy, DualStepArgs.stepCy]
  have hs' : ∀ arm, UnitQuat (armRot arm (if t ≤ a.startT then (a.startY, a.startYd) else (y, yd)).1) := by
    split_ifs
    · exact hst
    · exact hy
  set s0 := if t ≤ a.startT then (a.startY, a.startYd) else (y, yd) with hs0
  have hbody : ∀ (dt ct : ℝ) (x : (Vec 14 × Vec 12) × (Vec 12 × Vec 12)), (∀ arm, UnitQuat (armRot arm x.1.1)) →
      (a.coupling = none → x.2 = 0) → (a.bodyPy ops dt ct x).1 = a.bodyCy dt ct x.1 := by
    intro dt ct x hx hc
    unfold DualStepArgs.bodyPy DualStepArgs.bodyCy
    rw [a.correction_congr hops he dt]
    simp only
    rw [a.update_congr hops lawful_cython hg hst _ _ dt ct hx]
    cases h1 : a.coupling with
    | none => simp only [hc h1]; rfl
    | some c => rfl
  by_cases hone : t - lastT ≤ a.intDt
  · by_cases hlt : lastT < t
    · rw [intLoop_step _ hlt, intLoop_step _ hlt]
      have hdt : (if t - lastT < a.intDt then t - lastT else a.intDt) = t - lastT := by
        split_ifs with h1
        · rfl
        · linarith
      simp only [hdt, add_sub_cancel]
      rw [intLoop_done _ le_rfl, intLoop_done _ le_rfl]
      simp only [Except.map]
      rw [hbody _ _ _ hs' (fun _ => rfl)]
    · rw [intLoop_done _ (not_lt.1 hlt), intLoop_done _ (not_lt.1 hlt)]
      rfl
  · have hcase' : (a.pGain = 0 ∨ a.trackingError = none) ∨ a.coupling ≠ none := by tauto
    rcases intLoop_rel (upd := a.bodyPy ops) (upd' := a.bodyCy) (intDt := a.intDt) (t := t)
      (fun x x' => x.1 = x' ∧ (∀ arm, UnitQuat (armRot arm x'.1)) ∧ (a.coupling = none → x.2 = 0))
      (by
        rintro dt ct x x' ⟨rfl, h2, h3⟩
        refine ⟨hbody dt ct x h2 h3, a.update_unit lawful_cython _ _ dt ct h2, ?_⟩
        intro hc
        rcases hcase' with h4 | h4
        · unfold DualStepArgs.bodyPy
          simp only [hc, a.correction_pGain ops dt h4, h3 hc]
          simp
        · exact absurd hc h4) lastT (s := (s0, (0, 0))) (s' := s0) ⟨rfl, hs', fun _ => rfl⟩ with
      ⟨h1, h2⟩ | ⟨x, x', h1, h2, h3, -⟩
    · rw [h1, h2]; rfl
    · rw [h1, h2, ← h3]; rfl

/-- The quaternion functions of the Cython version agree with themselves, and with the unnormalised product. -/
example : AgreeOnUnit { QuatOps.cython with mul := hamilton } QuatOps.cython where
  mul _ _ hp hq := (concat_of_unit hp hq).symm
  conj _ _ := rfl
  exp _ := rfl
  log _ _ := rfl

/-- **C35.** The disagreement: with two equal sub-steps and no coupling term, the linear velocities of both arms computed
by the Python version are those of the Cython version plus `p_gain * e / tau^2` (where `e` is the tracking error of the
position), because the Python version adds the correction of the first sub-step once more. This holds for all parameters,
states and quaternion functions. -/
theorem C35_two_sub_steps_differ (a : DualStepArgs m) {ops : QuatOps} (hc : a.coupling = none) {e : Vec 14}
    (he : a.trackingError = some e) (hint : 0 < a.intDt) {lastT t : ℝ} (ht : t = lastT + 2 * a.intDt)
    (hstart : a.startT < t) (y : Vec 14) (yd : Vec 12) :
    ∃ y1 yd1 y2 yd2, (DualStepFunction.python ops).run a lastT t (y, yd) = .ok (y1, yd1) ∧
      DualStepFunction.cython.run a lastT t (y, yd) = .ok (y2, yd2) ∧
      ∀ arm k, armLinear arm yd1 k = armLinear arm yd2 k + a.pGain * armPosition arm e k / (a.goalT - a.startT) ^ 2 ∧
        armPosition arm y1 k =
          armPosition arm y2 k + a.intDt * (a.pGain * armPosition arm e k / (a.goalT - a.startT) ^ 2) := by
  simp only [armLinear_eq, armPosition_eq]
  simp only [DualStepFunction.run, DualStepArgs.stepPy, DualStepArgs.stepCy, not_le.2 hstart, if_false]
  have h1 : lastT < t := by rw [ht]; linarith
  have hd1 : (if t - lastT < a.intDt then t - lastT else a.intDt) = a.intDt := by
    rw [if_neg]; rw [ht]; linarith
  have h2 : lastT + a.intDt < t := by rw [ht]; linarith
  have hd2 : (if t - (lastT + a.intDt) < a.intDt then t - (lastT + a.intDt) else a.intDt) = a.intDt := by
    rw [if_neg]; rw [ht]; linarith
  have h3 : t ≤ lastT + a.intDt + a.intDt := by rw [ht]; linarith
  have key : ∀ {σ : Type} (upd : ℝ → ℝ → σ → σ) (x : σ), intLoop a.intDt t upd lastT x =
      .ok (upd a.intDt (lastT + a.intDt + a.intDt) (upd a.intDt (lastT + a.intDt) x)) := by
    intro σ upd x
    rw [intLoop_step _ h1]
    simp only [hd1]
    rw [intLoop_step _ h2]
    simp only [hd2]
    rw [intLoop_done _ h3]
  rw [key, key]
  refine ⟨_, _, _, _, rfl, rfl, ?_⟩
  -- positions and linear velocities after the first sub-step agree
  have hcor : ∀ (o : QuatOps) arm k, armLin arm (a.correction o a.intDt) k = a.pGain * armPos arm e k / a.intDt := by
    intro o arm k
    unfold DualStepArgs.correction
    rw [he]
    simp only [armLin_joinVel]
  have hadd : ∀ (u v : Vec 12) arm k, armLin arm (u + v) k = armLin arm u k + armLin arm v k := fun _ _ _ _ => rfl
  have hfst : ∀ arm k, armLin arm (a.bodyPy ops a.intDt (lastT + a.intDt) ((y, yd), (0, 0))).1.2 k =
      armLin arm (a.bodyCy a.intDt (lastT + a.intDt) (y, yd)).2 k ∧
      armPos arm (a.bodyPy ops a.intDt (lastT + a.intDt) ((y, yd), (0, 0))).1.1 k =
      armPos arm (a.bodyCy a.intDt (lastT + a.intDt) (y, yd)).1 k := by
    intro arm k
    unfold DualStepArgs.bodyPy DualStepArgs.bodyCy
    simp only [hc, DualStepArgs.update, armLin_joinVel, armPos_joinState, hadd, hcor]
    exact ⟨trivial, trivial⟩
  have hc2 : (a.bodyPy ops a.intDt (lastT + a.intDt) ((y, yd), (0, 0))).2 = (0, a.correction ops a.intDt) := by
    unfold DualStepArgs.bodyPy
    simp [hc]
  intro arm k
  set x := a.bodyPy ops a.intDt (lastT + a.intDt) ((y, yd), (0, 0)) with hx
  set x' := a.bodyCy a.intDt (lastT + a.intDt) (y, yd) with hx'
  obtain ⟨hf1, hf2⟩ := hfst arm k
  have hv : armLin arm (a.bodyPy ops a.intDt (lastT + a.intDt + a.intDt) x).1.2 k =
      armLin arm (a.bodyCy a.intDt (lastT + a.intDt + a.intDt) x').2 k +
        a.pGain * armPos arm e k / (a.goalT - a.startT) ^ 2 := by
    unfold DualStepArgs.bodyPy DualStepArgs.bodyCy
    simp only [hc, hc2, DualStepArgs.update, armLin_joinVel, hadd, hcor, hf1, hf2,
      show armLin arm (0 : Vec 12) k = 0 from rfl]
    by_cases hτ : a.goalT - a.startT = 0
    · simp [hτ]
    · field_simp
      ring
  refine ⟨hv, ?_⟩
  have hp1 : armPos arm (a.bodyPy ops a.intDt (lastT + a.intDt + a.intDt) x).1.1 k =
      armPos arm x.1.1 k + a.intDt * armLin arm (a.bodyPy ops a.intDt (lastT + a.intDt + a.intDt) x).1.2 k := by
    unfold DualStepArgs.bodyPy
    simp only [DualStepArgs.update, armPos_joinState, armLin_joinVel]
  have hp2 : armPos arm (a.bodyCy a.intDt (lastT + a.intDt + a.intDt) x').1 k =
      armPos arm x'.1 k + a.intDt * armLin arm (a.bodyCy a.intDt (lastT + a.intDt + a.intDt) x').2 k := by
    unfold DualStepArgs.bodyCy
    simp only [DualStepArgs.update, armPos_joinState, armLin_joinVel]
  have hfin : armPos arm (a.bodyPy ops a.intDt (lastT + a.intDt + a.intDt) x).1.1 k =
      armPos arm (a.bodyCy a.intDt (lastT + a.intDt + a.intDt) x').1 k +
        a.intDt * (a.pGain * armPos arm e k / (a.goalT - a.startT) ^ 2) := by
    rw [hp1, hp2, hv, hf2]
    ring
  exact hfin

/-- The hypotheses of `C35_two_sub_steps_differ` are met and the results differ: unit gains, tracking error 1 in the
first coordinate, `p_gain = 1`. -/
example (ft : ForcingTerm 12 m) (ops : QuatOps) : ∃ (a : DualStepArgs m) (lastT t : ℝ) (y : Vec 14) (yd : Vec 12),
    (DualStepFunction.python ops).run a lastT t (y, yd) ≠ DualStepFunction.cython.run a lastT t (y, yd) := by
  let a : DualStepArgs m :=
    { goalY := 0, startY := 0, startYd := 0, goalT := 1, startT := 0, alphaY := 1, betaY := 1, ft := ft
      intDt := 1, pGain := 1, trackingError := some (fun _ => 1) }
  refine ⟨a, 0, 2, 0, 0, ?_⟩
  obtain ⟨y1, yd1, y2, yd2, h1, h2, h3⟩ := C35_two_sub_steps_differ a (ops := ops) rfl rfl
    (by norm_num [a]) (lastT := 0) (t := 2) (by norm_num [a]) (by norm_num [a]) 0 0
  rw [h1, h2]
  intro h
  simp only [Except.ok.injEq, Prod.mk.injEq] at h
  have := (h3 0 0).1
  rw [h.2] at this
  norm_num [a, armPosition] at this

/-! ## C37 -/

/-- **C37.** If smooth scaling is off, or (for the right arm) the entries of `beta_y` read by the smooth scaling of its
position are equal, each arm of a dual-arm DMP moves exactly as a regular DMP (position) and an orientation DMP with the gains,
weights, start and goal of this arm, for any number of sub-steps. -/
theorem C37_two_arms (a : DualStepArgs m) (hc : a.coupling = none) (hp : a.pGain = 0 ∨ a.trackingError = none)
    (arm : Fin 2) (hsm : a.smooth = true → arm = 1 → UniformRightGains a.betaY) (hT : a.startT < a.goalT) {lastT t : ℝ}
    {y y' : Vec 14} {yd yd' : Vec 12} (hr : DualStepFunction.cython.run a lastT t (y, yd) = .ok (y', yd')) :
    StepFunction.eulerCython.run (armPosDmp a arm) lastT t (armPosition arm y, armLinear arm yd) =
        .ok (armPosition arm y', armLinear arm yd') ∧
      QuatStepFunction.cython.run (armRotDmp a arm) lastT t (armOrientation arm y, armAngular arm yd) =
        .ok (armOrientation arm y', armAngular arm yd') := by
  simp only [armPosition_eq, armLinear_eq, armOrientation_eq, armAngular_eq]
  simp only [DualStepFunction.run, DualStepArgs.stepCy] at hr
  have hbody : ∀ dt ct s, a.bodyCy dt ct s = a.update QuatOps.cython 0 0 dt ct s := by
    intro dt ct s
    unfold DualStepArgs.bodyCy
    simp [hc, a.correction_pGain _ dt hp]
  constructor
  · show StepArgs.stepEulerCy _ _ _ _ = _
    unfold StepArgs.stepEulerCy
    rw [if_neg (not_le.2 (show (armPosDmp a arm).startT < (armPosDmp a arm).goalT from hT))]
    have h0 : (if t ≤ (armPosDmp a arm).startT then ((armPosDmp a arm).startY, (armPosDmp a arm).startYd)
        else (armPos arm y, armLin arm yd)) =
        (fun s : Vec 14 × Vec 12 => (armPos arm s.1, armLin arm s.2))
          (if t ≤ a.startT then (a.startY, a.startYd) else (y, yd)) := by
      show (if t ≤ a.startT then _ else _) = _
      split_ifs
      · simp only [armPosDmp, armPosition_eq, armLinear_eq]
      · rfl
    simp only
    rw [h0]
    have := intLoop_map a.bodyCy (armPosDmp a arm).eulerBodyCy
      (fun s : Vec 14 × Vec 12 => (armPos arm s.1, armLin arm s.2)) a.intDt t
      (fun dt ct s => by rw [hbody]; exact (a.update_pos _ dt ct s arm hsm).symm) lastT
      (if t ≤ a.startT then (a.startY, a.startYd) else (y, yd))
    refine this.trans ?_
    rw [hr]; rfl
  · show QuatStepArgs.stepCy _ _ _ _ = _
    unfold QuatStepArgs.stepCy
    have h0 : (if t ≤ (armRotDmp a arm).startT then ((armRotDmp a arm).startY, (armRotDmp a arm).startYd)
        else (armRot arm y, armAng arm yd)) =
        (fun s : Vec 14 × Vec 12 => (armRot arm s.1, armAng arm s.2))
          (if t ≤ a.startT then (a.startY, a.startYd) else (y, yd)) := by
      show (if t ≤ a.startT then _ else _) = _
      split_ifs
      · simp only [armRotDmp, armOrientation_eq, armAngular_eq]
      · rfl
    simp only
    rw [h0]
    have := intLoop_map a.bodyCy (armRotDmp a arm).bodyCy
      (fun s : Vec 14 × Vec 12 => (armRot arm s.1, armAng arm s.2)) a.intDt t
      (fun dt ct s => by rw [hbody]; exact (a.update_rot _ 0 0 dt ct s arm).symm) lastT
      (if t ≤ a.startT then (a.startY, a.startYd) else (y, yd))
    refine this.trans ?_
    rw [hr]; rfl

/-- Result of a single sub-step without coupling and correction. -/
theorem DualStepFunction.run_single (sf : DualStepFunction) (a : DualStepArgs m) (hc : a.coupling = none)
    {lastT t : ℝ} (hlt : lastT < t) (hone : t - lastT ≤ a.intDt) (hst : a.startT < t) (s : Vec 14 × Vec 12) :
    sf.run a lastT t s = .ok (a.update sf.ops 0 (a.correction sf.ops (t - lastT)) (t - lastT) t s) := by
  have hdt : (if t - lastT < a.intDt then t - lastT else a.intDt) = t - lastT := by
    split_ifs with h1
    · rfl
    · linarith
  cases sf with
  | python ops =>
    simp only [DualStepFunction.run, DualStepArgs.stepPy, not_le.2 hst, if_false]
    rw [intLoop_step _ hlt]
    simp only [hdt, add_sub_cancel]
    rw [intLoop_done _ le_rfl]
    simp only [Except.map, DualStepArgs.bodyPy, hc, zero_add]
    rfl
  | cython =>
    simp only [DualStepFunction.run, DualStepArgs.stepCy, not_le.2 hst, if_false]
    rw [intLoop_step _ hlt]
    simp only [hdt, add_sub_cancel]
    rw [intLoop_done _ le_rfl]
    simp only [DualStepArgs.bodyCy, hc, zero_add]
    rfl

/-- **C37.** What smooth scaling does to the right arm: one sub-step of length `h` without weights from the start at rest
accelerates coordinate `k` of the right arm by `alpha * (beta[6+k] - beta[7+k] * z) * (goal - start) / tau^2`, with the
phase `z` at the end of the sub-step, i.e. `beta` of the next dimension damps the pull towards the goal. -/
theorem C37_right_arm_acceleration {sf : DualStepFunction} (a : DualStepArgs m) (hc : a.coupling = none)
    (hp : a.pGain = 0 ∨ a.trackingError = none) (hsm : a.smooth = true) (hw : a.ft.weights = fun _ _ => 0)
    {t h : ℝ} (hh : 0 < h) (hone : h ≤ a.intDt) (hst : a.startT < t) (k : Fin 3) :
    ∃ y' yd', sf.run a (t - h) t (a.startY, 0) = .ok (y', yd') ∧
      armLinear 1 yd' k = h * (armLinear 1 a.alphaY k *
        (![a.betaY 6, a.betaY 7, a.betaY 8] k - ![a.betaY 7, a.betaY 8, a.betaY 9] k * a.ft.phaseAt t) *
        (armPosition 1 a.goalY k - armPosition 1 a.startY k) / (a.goalT - a.startT) ^ 2) := by
  rw [sf.run_single a hc (by linarith) (by linarith) hst]
  refine ⟨_, _, rfl, ?_⟩
  simp only [armLinear_eq, armPosition_eq]
  have hf : ∀ z, a.ft.force z = 0 := by
    intro z; funext k; simp [ForcingTerm.force, hw]
  have e1 : a.betaY ⟨7 * (1 : Fin 2) + k, by omega⟩ = ![a.betaY 7, a.betaY 8, a.betaY 9] k := by
    fin_cases k <;> rfl
  have e2 : armLin 1 a.betaY k = ![a.betaY 6, a.betaY 7, a.betaY 8] k := by
    fin_cases k <;> rfl
  simp only [sub_sub_cancel, a.correction_pGain _ _ hp, armLin_joinVel, hf,
    DualStepArgs.smoothingPos, hsm, if_true, e1, e2, show ∀ arm, armLin arm (0 : Vec 12) = 0 from fun _ => rfl,
    Pi.zero_apply, mul_zero, zero_div, add_zero, zero_add, sub_zero]
  ring

/-- **C37.** The right arm's position moves as a DMP with the gains of this arm if and only if the wrong entry of
`beta_y` happens to be the right one: for a single sub-step of any length, any state, forces, goal different from the
start. -/
theorem C37_right_arm_iff {sf : DualStepFunction} (a : DualStepArgs m) (hc : a.coupling = none)
    (hp : a.pGain = 0 ∨ a.trackingError = none) (hsm : a.smooth = true) (hT : a.startT < a.goalT)
    (hα : ∀ k, armLinear 1 a.alphaY k ≠ 0) (hgoal : ∀ k, armPosition 1 a.goalY k ≠ armPosition 1 a.startY k)
    {t h : ℝ} (hh : 0 < h) (hone : h ≤ a.intDt) (hst : a.startT < t) (y : Vec 14) (yd : Vec 12) :
    ∃ y' yd' p v, sf.run a (t - h) t (y, yd) = .ok (y', yd') ∧
      StepFunction.eulerCython.run (armPosDmp a 1) (t - h) t (armPosition 1 y, armLinear 1 yd) = .ok (p, v) ∧
      ∀ k, armLinear 1 yd' k = v k ↔ ![a.betaY 7, a.betaY 8, a.betaY 9] k = ![a.betaY 6, a.betaY 7, a.betaY 8] k := by
  rw [sf.run_single a hc (by linarith) (by linarith) hst]
  have hrun : StepFunction.eulerCython.run (armPosDmp a 1) (t - h) t (armPosition 1 y, armLinear 1 yd) =
      .ok ((armPosDmp a 1).eulerBodyCy h t (armPosition 1 y, armLinear 1 yd)) := by
    show StepArgs.stepEulerCy _ _ _ _ = _
    unfold StepArgs.stepEulerCy
    rw [if_neg (not_le.2 (show (armPosDmp a 1).startT < (armPosDmp a 1).goalT from hT))]
    simp only
    rw [if_neg (not_le.2 (show (armPosDmp a 1).startT < t from hst)), intLoop_step _ (by linarith)]
    have hdt : (if t - (t - h) < (armPosDmp a 1).intDt then t - (t - h) else (armPosDmp a 1).intDt) = h := by
      show (if t - (t - h) < a.intDt then t - (t - h) else a.intDt) = h
      split_ifs with h1 <;> linarith
    simp only [hdt, sub_add_cancel]
    rw [intLoop_done _ le_rfl]
  refine ⟨_, _, _, _, rfl, hrun, ?_⟩
  intro k
  have e1 : a.betaY ⟨7 * (1 : Fin 2) + k, by omega⟩ = ![a.betaY 7, a.betaY 8, a.betaY 9] k := by
    fin_cases k <;> rfl
  have e2 : armLin 1 a.betaY k = ![a.betaY 6, a.betaY 7, a.betaY 8] k := by
    fin_cases k <;> rfl
  have hg := hgoal k
  have ha := hα k
  simp only [armLinear_eq, armPosition_eq] at ha hg ⊢
  have hz : (armPosDmp a 1).ft.phaseAt t = a.ft.phaseAt t := rfl
  have hzpos : 0 < a.ft.phaseAt t := by
    unfold ForcingTerm.phaseAt phase
    positivity
  have hτ : (a.goalT - a.startT) ^ 2 ≠ 0 := by
    have : 0 < a.goalT - a.startT := by linarith
    positivity
  have hF : armLin 1 (a.ft.force (a.ft.phaseAt t)) k = (armPosDmp a 1).ft.force (a.ft.phaseAt t) k := by
    simp only [armPosDmp, armLinear_eq]
    rfl
  have hv : ((armPosDmp a 1).eulerBodyCy h t (armPos 1 y, armLin 1 yd)).2 k = armLin 1 yd k + (h * ((armLin 1 a.alphaY k *
      (![a.betaY 6, a.betaY 7, a.betaY 8] k * (armPos 1 a.goalY k - armPos 1 y k) -
        (a.goalT - a.startT) * armLin 1 yd k -
        ![a.betaY 6, a.betaY 7, a.betaY 8] k * (armPos 1 a.goalY k - armPos 1 a.startY k) * a.ft.phaseAt t) +
      (armPosDmp a 1).ft.force (a.ft.phaseAt t) k) / (a.goalT - a.startT) ^ 2)) := by
    simp only [StepArgs.eulerBodyCy, StepArgs.cyCoupling, hz]
    simp only [armPosDmp, armLinear_eq, armPosition_eq, e2, hsm, if_true, Pi.zero_apply, zero_div, mul_zero, add_zero]
  have hv' : armLin 1 (a.update sf.ops 0 (a.correction sf.ops (t - (t - h))) (t - (t - h)) t (y, yd)).2 k =
      armLin 1 yd k + (h * ((armLin 1 a.alphaY k *
      (![a.betaY 6, a.betaY 7, a.betaY 8] k * (armPos 1 a.goalY k - armPos 1 y k) -
        (a.goalT - a.startT) * armLin 1 yd k -
        ![a.betaY 7, a.betaY 8, a.betaY 9] k * (armPos 1 a.goalY k - armPos 1 a.startY k) * a.ft.phaseAt t) +
      (armPosDmp a 1).ft.force (a.ft.phaseAt t) k) / (a.goalT - a.startT) ^ 2)) := by
    simp only [sub_sub_cancel, a.correction_pGain _ _ hp, DualStepArgs.update, armLin_joinVel,
      DualStepArgs.smoothingPos, hsm, if_true, e1, e2, hF, show armLin 1 (0 : Vec 12) k = 0 from rfl, zero_div,
      add_zero]
  have main : armLin 1 (a.update sf.ops 0 (a.correction sf.ops (t - (t - h))) (t - (t - h)) t (y, yd)).2 k =
      ((armPosDmp a 1).eulerBodyCy h t (armPos 1 y, armLin 1 yd)).2 k ↔
      ![a.betaY 7, a.betaY 8, a.betaY 9] k = ![a.betaY 6, a.betaY 7, a.betaY 8] k := by
    rw [hv, hv']
    set b7 := ![a.betaY 7, a.betaY 8, a.betaY 9] k
    set b6 := ![a.betaY 6, a.betaY 7, a.betaY 8] k
    constructor
    · intro heq
      have h1 := add_left_cancel heq
      have h2 := mul_left_cancel₀ hh.ne' h1
      rw [div_left_inj' hτ] at h2
      have h3 : (armLin 1 a.alphaY k * (armPos 1 a.goalY k - armPos 1 a.startY k) * a.ft.phaseAt t) * (b7 - b6) = 0 := by
        linear_combination -h2
      have h4 : armLin 1 a.alphaY k * (armPos 1 a.goalY k - armPos 1 a.startY k) * a.ft.phaseAt t ≠ 0 :=
        mul_ne_zero (mul_ne_zero ha (sub_ne_zero.2 hg)) hzpos.ne'
      have := (mul_eq_zero.1 h3).resolve_left h4
      linarith
    · intro heq
      rw [heq]
  exact main

/-- Gains for which the hypotheses of `C37_two_arms` hold, and gains for which the right arm deviates. -/
example : UniformRightGains (fun _ => 25 / 4) ∧
    ¬ UniformRightGains (fun i => if i.val < 9 then 25 / 4 else 1) := by
  refine ⟨⟨rfl, rfl, rfl⟩, ?_⟩
  rintro ⟨-, -, h⟩
  norm_num at h

end Verif
