import Verif.Spec.DualTracking
import Verif.Props.OrientationDual

/-! # Tracking errors of `DualCartesianDMP` (C67, C75) -/

namespace Verif
open Spec Quaternion Filter Topology
variable {m : ℕ}

/-- One sub-step. -/
theorem DualStepFunction.run_one (sf : DualStepFunction) (a : DualStepArgs m) {lastT t : ℝ} (hlt : lastT < t)
    (hint : t - lastT ≤ a.intDt) (ht : a.startT < t) (x : Vec 14 × Vec 12) :
    sf.run a lastT t x = .ok (a.update sf.ops (match a.coupling with | some c => c x.1 x.2 | none => 0).1
      ((match a.coupling with | some c => c x.1 x.2 | none => 0).2 + a.correction sf.ops (t - lastT)) (t - lastT) t x) := by
  have hd : 0 < a.intDt := lt_of_lt_of_le (sub_pos.2 hlt) hint
  cases sf with
  | python ops =>
    simp only [DualStepFunction.run, DualStepArgs.stepPy]
    rw [if_neg (not_le.2 ht), intLoop_eq _ hd, subSteps_last hd hlt hint]
    simp only [List.foldl_cons, List.foldl_nil, Except.map, DualStepArgs.bodyPy, DualStepFunction.ops]
    cases a.coupling <;> rfl
  | cython =>
    simp only [DualStepFunction.run, DualStepArgs.stepCy]
    rw [if_neg (not_le.2 ht), intLoop_eq _ hd, subSteps_last hd hlt hint]
    simp only [List.foldl_cons, List.foldl_nil, DualStepArgs.bodyCy, DualStepFunction.ops]
    cases a.coupling <;> rfl

/-- The logarithm of the quotient of two orientations is the rotation vector between them. -/
theorem rotationTo_log {ops ops' : QuatOps} {eps eps' : ℝ} (hops : LawfulQuatOps ops eps') (hl : LawfulQuatOps ops' eps)
    {p q : Vec 4} (hp : UnitQuat p) (hq : UnitQuat q) : RotationTo eps p q (ops'.log (ops.mul q (ops.conj p))) := by
  have hc := LawfulQuatOps.unit_conj hops hp
  have hu := LawfulQuatOps.unit_mul hops hq hc
  have hm := hops.mul q _ hq hc
  rw [hops.conj p hp] at hm
  have h1 : star (quat p) * quat p = 1 := by
    rw [Quaternion.star_mul_self, Quaternion.normSq_def']
    have : (quat p).re ^ 2 + (quat p).imI ^ 2 + (quat p).imJ ^ 2 + (quat p).imK ^ 2 = 1 := hp
    rw [this]; rfl
  by_cases hs : √(ops.mul q (ops.conj p) 1 ^ 2 + ops.mul q (ops.conj p) 2 ^ 2 + ops.mul q (ops.conj p) 3 ^ 2) < eps
  · right
    refine ⟨hl.log_small _ hu hs, ?_⟩
    rw [← hm]
    refine lt_of_eq_of_lt ?_ hs
    symm
    rw [Real.sqrt_eq_iff_mul_self_eq (by positivity) (norm_nonneg _), ← Quaternion.normSq_eq_norm_mul_self,
      Quaternion.normSq_def']
    show _ = (0 : ℝ) ^ 2 + ops.mul q (ops.conj p) 1 ^ 2 + ops.mul q (ops.conj p) 2 ^ 2 + ops.mul q (ops.conj p) 3 ^ 2
    ring
  · left
    obtain ⟨h2, h3⟩ := hl.log _ hu (not_lt.1 hs)
    refine ⟨h2, ?_⟩
    rcases h3 with h3 | h3
    · left; rw [h3, hm, mul_assoc, h1, mul_one]
    · right; rw [h3, hm, neg_mul, mul_assoc, h1, mul_one]

/-- The state that a dual-arm DMP holds: the result of the last step, before the first one the start. -/
def dualHeld (s : DualCartesianDMP m) : Vec 14 := if s.initialized then s.currentY else s.startY

/-- **C67 (`DualCartesianDMP.step`).** If `dt` is not larger than `int_dt`: passing another pose than the one that the object holds adds,
for each arm, `p_gain * e / execution_time²` to the linear and `p_gain * w / execution_time²` to the angular velocity, where `e` leads from
the passed to the held position and `w` is the rotation vector from the passed to the held orientation. The positions change by `dt`
times this velocity, the orientation is the passed one turned by `dt` times the angular velocity. -/
theorem C67_dual_one_substep (s : DualCartesianDMP m) (hτ : 0 < s.executionTime) (ht : 0 ≤ s.t) (hdt : 0 < s.dt)
    (hint : s.dt ≤ s.intDt) (coupling : Option DualCoupling) {ops : QuatOps} {eps' : ℝ} (hops : LawfulQuatOps ops eps')
    {sf : DualStepFunction} {eps : ℝ} (hsf : DualThreshold sf eps) (y : Vec 14) (yd : Vec 12)
    (hy : ∀ arm, UnitQuat (armOrientation arm y)) (hh : ∀ arm, UnitQuat (armOrientation arm (dualHeld s))) :
    ∃ r0 r, ((DualCartesianDMP.step ops coupling sf y yd).exec { s with pGain := 0 }).1 = .ok r0 ∧
      ((DualCartesianDMP.step ops coupling sf y yd).exec s).1 = .ok r ∧ ∀ arm,
        (∀ k, let e := armPosition arm (dualHeld s) k - armPosition arm y k
          armLinear arm r.2 k = armLinear arm r0.2 k + s.pGain * e / s.executionTime ^ 2 ∧
          armPosition arm r.1 k = armPosition arm r0.1 k + s.dt * (s.pGain * e / s.executionTime ^ 2)) ∧
        (∃ w, RotationTo eps (armOrientation arm y) (armOrientation arm (dualHeld s)) w ∧
          ∀ k, armAngular arm r.2 k = armAngular arm r0.2 k + s.pGain * w k / s.executionTime ^ 2) ∧
        quat (armOrientation arm r.1) =
          NormedSpace.exp ((1 / 2 : ℝ) • pure (fun k => s.dt * armAngular arm r.2 k)) * quat (armOrientation arm y) := by
  have hlaw : ∃ e > 0, LawfulQuatOps sf.ops e ∧ e = eps := by
    cases sf with
    | python o => exact ⟨eps, hsf.1, hsf.2, rfl⟩
    | cython => exact ⟨1 / 10 ^ 16, by norm_num, lawful_cython, hsf.symm⟩
  obtain ⟨e', he0, hl, rfl⟩ := hlaw
  have e1 : s.t + s.dt - s.t = s.dt := by ring
  have hr0 := sf.run_one (DualCartesianDMP.stepArgs { s with pGain := 0 } coupling
    (DualCartesianDMP.trackingError ops (dualHeld s) y)) (lastT := s.t) (t := s.t + s.dt) (by linarith)
    (by rw [e1]; exact hint) (by show (0 : ℝ) < _; linarith) (y, yd)
  have hr := sf.run_one (s.stepArgs coupling
    (DualCartesianDMP.trackingError ops (dualHeld s) y)) (lastT := s.t) (t := s.t + s.dt) (by linarith)
    (by rw [e1]; exact hint) (by show (0 : ℝ) < _; linarith) (y, yd)
  refine ⟨_, _, by
    rw [DualCartesianDMP.exec_step]
    erw [hr0], by
    rw [DualCartesianDMP.exec_step]
    erw [hr], ?_⟩
  clear hr hr0
  intro arm
  have hlin : ∀ a b : Vec 12, ∀ k, armLin arm (a + b) k = armLin arm a k + armLin arm b k := fun _ _ _ => rfl
  have hang : ∀ a b : Vec 12, ∀ k, armAng arm (a + b) k = armAng arm a k + armAng arm b k := fun _ _ _ => rfl
  have hu : ∀ a : DualStepArgs m, ∀ cd cdd dt t x, armRot arm (a.update sf.ops cd cdd dt t x).1 =
      sf.ops.mul (sf.ops.exp (fun k => dt * armAng arm (a.update sf.ops cd cdd dt t x).2 k)) (armRot arm x.1) := by
    intro a cd cdd dt t x
    simp only [DualStepArgs.update, armRot_joinState, armAng_joinVel]
  have hτ' : s.executionTime ≠ 0 := hτ.ne'
  have hdt' : s.dt ≠ 0 := hdt.ne'
  simp only [armPosition_eq, armOrientation_eq, armLinear_eq, armAngular_eq] at *
  refine ⟨?_, ⟨_, rotationTo_log hops hl (hy arm) (hh arm), ?_⟩, ?_⟩
  · intro k
    simp only [DualStepArgs.update, DualStepArgs.correction, DualCartesianDMP.stepArgs, DualCartesianDMP.trackingError,
      armLin_joinVel, armPos_joinState, e1, sub_zero, hlin, DualStepArgs.smoothingPos, zero_mul, zero_div]
    constructor
    · field_simp
      ring_nf
    · field_simp
      ring_nf
  · intro k
    simp only [DualStepArgs.update, DualStepArgs.correction, DualCartesianDMP.stepArgs, DualCartesianDMP.trackingError,
      armAng_joinVel, armRot_joinState, e1, sub_zero, hang, zero_mul, zero_div]
    field_simp
    ring_nf
  · rw [hu]
    simp only [e1]
    rw [hl.mul _ _ (LawfulQuatOps.unit_exp hl _) (hy arm), hl.exp]

/-- With the held state passed, the gain has no influence. -/
theorem DualCartesianDMP.step_held {ops : QuatOps} {eps : ℝ} (hops : LawfulQuatOps ops eps) {sf : DualStepFunction}
    (hsf : LawfulDualStep sf) (c : Option DualCoupling) (s : DualCartesianDMP m) {y : Vec 14} (yd : Vec 12) (hy : s.reference = y)
    (hu : ∀ arm, UnitQuat (armRot arm y)) :
    (DualCartesianDMP.step ops c sf y yd).exec { s with pGain := 0 } =
      (((DualCartesianDMP.step ops c sf y yd).exec s).1, { ((DualCartesianDMP.step ops c sf y yd).exec s).2 with pGain := 0 }) := by
  subst hy
  rw [exec_step, exec_step]
  have e2 : sf.run (s.stepArgs c (trackingError ops s.reference s.reference)) =
      sf.run (stepArgs { s with pGain := 0 } c (trackingError ops s.reference s.reference)) :=
    sf.run_correction (s.stepArgs c (trackingError ops s.reference s.reference)) 0
      (some (trackingError ops s.reference s.reference)) (correction_self s hops hsf c hu)
      (fun _ => DualStepArgs.correction_pGain _ _ _ (.inl rfl))
  have e3 : reference { s with pGain := 0 } = s.reference := rfl
  rw [e3, ← e2]
  cases sf.run (s.stepArgs c (trackingError ops s.reference s.reference)) s.t (s.t + s.dt) (s.reference, yd) <;> rfl

/-- **C67 (`DualCartesianDMP.step`).** In an execution in which every result is passed to the next call of `step`, the gain has no influence
if the first call gets the pose that the object holds: the calls return what they return with `p_gain = 0`. -/
theorem C67_dual_fed_back {ops : QuatOps} {eps : ℝ} (hops : LawfulQuatOps ops eps) {sf : DualStepFunction}
    (hsf : LawfulDualStep sf) {c : Option DualCoupling} {obj : ℕ → DualCartesianDMP m} {fb out : ℕ → Vec 14 × Vec 12}
    (hst : ∀ arm, UnitQuat (armOrientation arm (obj 0).startY)) (h0 : (fb 0).1 = dualHeld (obj 0))
    (hu : ∀ arm, UnitQuat (armOrientation arm (fb 0).1)) (hrun : Run (DualCartesianDMP.step ops c sf) obj fb out)
    (hfb : ∀ i, fb (i + 1) = out i) :
    Run (DualCartesianDMP.step ops c sf) (fun i => { obj i with pGain := 0 }) fb out := by
  have inv : ∀ i, (obj i).startY = (obj 0).startY ∧ (obj i).reference = (fb i).1 ∧ ∀ arm, UnitQuat (armOrientation arm (fb i).1) := by
    intro i
    induction i with
    | zero => exact ⟨rfl, h0.symm, hu⟩
    | succ i ih =>
      obtain ⟨h1, h2, h3⟩ := ih
      have hi := hrun i
      have hui := C31_dual_step hsf (by rw [h1]; exact hst) h3 hi
      rw [DualCartesianDMP.exec_step] at hi
      cases hr : sf.run ((obj i).stepArgs c (DualCartesianDMP.trackingError ops (obj i).reference (fb i).1)) (obj i).t
          ((obj i).t + (obj i).dt) ((fb i).1, (fb i).2) with
      | error e => rw [hr] at hi; cases hi
      | ok r =>
        rw [hr] at hi
        simp only [Prod.mk.injEq, Except.ok.injEq] at hi
        rw [hfb, ← hi.2, ← hi.1]
        rw [← hi.1] at hui
        exact ⟨h1, rfl, hui⟩
  intro i
  obtain ⟨-, h2, h3⟩ := inv i
  simp only [armOrientation_eq] at h3
  have h := DualCartesianDMP.step_held hops hsf c (obj i) (fb i).2 h2 h3
  rw [h, hrun i]

/-- **C67 (`DualCartesianDMP.step`).** Whatever is passed to the first call: from the second call on the gain has no influence. -/
theorem C67_dual_fed_back_later {ops : QuatOps} {eps : ℝ} (hops : LawfulQuatOps ops eps) {sf : DualStepFunction}
    (hsf : LawfulDualStep sf) {c : Option DualCoupling} {obj : ℕ → DualCartesianDMP m} {fb out : ℕ → Vec 14 × Vec 12}
    (hst : ∀ arm, UnitQuat (armOrientation arm (obj 0).startY))
    (hu : ∀ arm, UnitQuat (armOrientation arm (fb 0).1)) (hrun : Run (DualCartesianDMP.step ops c sf) obj fb out)
    (hfb : ∀ i, fb (i + 1) = out i) :
    Run (DualCartesianDMP.step ops c sf) (fun i => { obj (i + 1) with pGain := 0 }) (fun i => fb (i + 1)) (fun i => out (i + 1)) := by
  have hi := hrun 0
  have hui := C31_dual_step hsf hst hu hi
  rw [DualCartesianDMP.exec_step] at hi
  cases hr : sf.run ((obj 0).stepArgs c (DualCartesianDMP.trackingError ops (obj 0).reference (fb 0).1)) (obj 0).t
      ((obj 0).t + (obj 0).dt) ((fb 0).1, (fb 0).2) with
  | error e => rw [hr] at hi; cases hi
  | ok r =>
    rw [hr] at hi
    simp only [Prod.mk.injEq, Except.ok.injEq] at hi
    have e1 : (obj 1).startY = (obj 0).startY := by rw [← hi.2]; rfl
    have e2 : (fb 1).1 = dualHeld (obj 1) := by rw [hfb 0, ← hi.2, ← hi.1]; rfl
    exact C67_dual_fed_back (obj := fun i => obj (i + 1)) (fb := fun i => fb (i + 1)) (out := fun i => out (i + 1)) hops hsf
      (by rw [e1]; exact hst) e2 (by rw [hfb 0]; exact hui) (fun i => hrun (i + 1)) (fun i => hfb (i + 1))

theorem dualThreshold_step {sf : DualStepFunction} {eps : ℝ} (h : DualThreshold sf eps) : LawfulDualStep sf := by
  cases sf with
  | python ops => exact ⟨eps, h.1, h.2⟩
  | cython => trivial

/-- **C75 (`DualCartesianDMP.step`, any `p_gain`).** As `C75_dual_step`: the gain does not prevent that both arms reach their goals, whatever
pose is passed to the first call. -/
theorem C75_dual_step_any_gain {eps : ℝ} {s : DualCartesianDMP m} (hs : s.Reachable) {ops : QuatOps} {eps' : ℝ}
    (hops : LawfulQuatOps ops eps') {sf : DualStepFunction}
    (hsf : DualThreshold sf eps) (hdt : 0 < s.dt) (ht : 0 ≤ s.t) (hτ : 0 < s.executionTime)
    (hint : 0 < s.intDt) {obj : ℕ → DualCartesianDMP m} {fb out : ℕ → Vec 14 × Vec 12} (h0 : obj 0 = s)
    (hst : ∀ arm, UnitQuat (armOrientation arm s.startY)) (hu : ∀ arm, UnitQuat (armOrientation arm (fb 0).1))
    (hrun : Spec.Run (DualCartesianDMP.step ops none sf) obj fb out) (hfb : ∀ i, fb (i + 1) = out i) (arm : Fin 2) :
    ((∀ k, 0 < armLinear arm s.alphaY k ∧ 0 < armLinear arm s.betaY k) →
      (∀ k, Spec.Stable .euler s.dt s.intDt s.executionTime (armLinear arm s.alphaY k) (armLinear arm s.betaY k)) →
      Tendsto (fun i => (armPosition arm (out i).1, armLinear arm (out i).2)) atTop (𝓝 (armPosition arm s.goalY, 0))) ∧
    ∀ α β : ℝ, (∀ k, armAngular arm s.alphaY k = α) → (∀ k, armAngular arm s.betaY k = β) → 0 < α → 0 < β →
      s.intDt * (α + β) ≤ s.executionTime → UnitQuat (armOrientation arm s.goalY) →
      ReachesOrientation (armOrientation arm s.goalY) (α * β / s.executionTime ^ 2) (Real.pi * (5 + 8 * (β / α)) * eps)
        (fun i => (armOrientation arm (out i).1, armAngular arm (out i).2)) := by
  subst h0
  have hrun' := C67_dual_fed_back_later hops (dualThreshold_step hsf) hst hu hrun hfb
  have h1 := hrun 0
  have hui := C31_dual_step (dualThreshold_step hsf) hst hu h1
  have e : SameConfiguration (obj 0) (obj 1) ∧ (obj 1).t = (obj 0).t + (obj 0).dt := by
    rw [DualCartesianDMP.exec_step] at h1
    cases hr : sf.run ((obj 0).stepArgs none (DualCartesianDMP.trackingError ops (obj 0).reference (fb 0).1)) (obj 0).t
        ((obj 0).t + (obj 0).dt) ((fb 0).1, (fb 0).2) with
    | error e => rw [hr] at h1; cases h1
    | ok r =>
      rw [hr] at h1
      simp only [Prod.mk.injEq, Except.ok.injEq] at h1
      rw [← h1.2]
      exact ⟨DualCartesianDMP.same_stepped _ _ _, rfl⟩
  obtain ⟨e1, e2⟩ := e
  simp only [armPosition_eq, armOrientation_eq, armLinear_eq, armAngular_eq] at hui ⊢
  obtain ⟨d1, d2⟩ := hs.decays
  have ha : DualCartesianDMP.stepArgs { obj 1 with pGain := 0 } none 0 = DualCartesianDMP.stepArgs { obj 0 with pGain := 0 } none 0 := by
    rw [e1]; rfl
  have hd : (obj 1).dt = (obj 0).dt := by rw [e1]
  have h := dual_run_reaches (a := DualCartesianDMP.stepArgs { obj 0 with pGain := 0 } none 0) hsf rfl (Or.inl rfl)
    (show (0 : ℝ) < (obj 0).executionTime from hτ)
    hint hs.valid.two d1 d2 arm hdt (show (0 : ℝ) ≤ (obj 0).t + (obj 0).dt by linarith) (xs := fun i => fb (i + 1)) (fun i => by
      have := DualCartesianDMP.run_result hrun' rfl i
      simp only [zero_add] at this
      rw [ha, hd, e2] at this
      simp only [hfb] at this ⊢
      exact this)
  rw [show (DualCartesianDMP.stepArgs { obj 0 with pGain := 0 } none 0).goalT -
    (DualCartesianDMP.stepArgs { obj 0 with pGain := 0 } none 0).startT = (obj 0).executionTime from sub_zero _] at h
  simp only [hfb] at h
  exact ⟨fun hg hst => h.1 hg hst, fun α β hα hβ hα0 hβ0 hrot hg => h.2 hα hβ hα0 hβ0 hrot hg (hui arm)⟩

/-- **C76 (`DualCartesianDMP.step`, any `p_gain`).** As `C76_dual_step`: if the first call gets the pose that the object holds, the gain does
not influence the direct approach. -/
theorem C76_dual_step_any_gain {eps : ℝ} {s : DualCartesianDMP m} {ops : QuatOps} {eps' : ℝ} (hops : LawfulQuatOps ops eps')
    {sf : DualStepFunction} (hsf : DualThreshold sf eps)
    (heps1 : eps ≤ 1) (hdt : 0 < s.dt) (ht : 0 ≤ s.t) (hτ : 0 < s.executionTime)
    (arm : Fin 2) (hw : ∀ k i, armAngular arm (fun j => s.ft.weights j i) k = 0) (hsm : s.smooth = false)
    {α β : ℝ} (hα : ∀ k, armAngular arm s.alphaY k = α) (hβ : ∀ k, armAngular arm s.betaY k = β) (hβ0 : 0 < β)
    (hαβ : 4 * β ≤ α) (hint : 0 < s.intDt) (hrot : s.intDt * α ≤ s.executionTime)
    (hg : UnitQuat (armOrientation arm s.goalY)) (hst : ∀ arm, UnitQuat (armOrientation arm s.startY))
    {obj : ℕ → DualCartesianDMP m} {fb out : ℕ → Vec 14 × Vec 12}
    (h0 : obj 0 = s) (hy0 : (fb 0).1 = dualHeld s) (hu : ∀ arm, UnitQuat (armOrientation arm (fb 0).1))
    (hv0 : armAngular arm (fb 0).2 = 0) (hrun : Spec.Run (DualCartesianDMP.step ops none sf) obj fb out)
    (hfb : ∀ i, fb (i + 1) = out i) :
    DirectApproach (armOrientation arm s.goalY) (armOrientation arm (fb 0).1) eps
      (fun i => (armOrientation arm (fb i).1, armAngular arm (fb i).2)) := by
  subst h0
  exact C76_dual_step (s := { obj 0 with pGain := 0 }) hsf heps1 rfl hdt ht hτ arm hw hsm hα hβ hβ0 hαβ hint hrot hg rfl
    (hu arm) rfl hv0 (C67_dual_fed_back hops (dualThreshold_step hsf) hst hy0 hu hrun hfb) hfb

/-- Calls of `step` return if `int_dt` is positive. -/
theorem DualCartesianDMP.step_returns (ops : QuatOps) (c : Option DualCoupling) (sf : DualStepFunction) {s : DualCartesianDMP m}
    (hint : 0 < s.intDt) (y : Vec 14) (yd : Vec 12) :
    ∃ r, (DualCartesianDMP.step ops c sf y yd).exec s = (.ok r, s.stepped r.1 r.2) := by
  rw [exec_step]
  have : ∃ r, sf.run (s.stepArgs c (trackingError ops s.reference y)) s.t (s.t + s.dt) (y, yd) = .ok r := by
    cases sf with
    | python o =>
      simp only [DualStepFunction.run, DualStepArgs.stepPy]
      rw [intLoop_eq _ (show 0 < (s.stepArgs c (trackingError ops s.reference y)).intDt from hint)]
      exact ⟨_, rfl⟩
    | cython =>
      simp only [DualStepFunction.run, DualStepArgs.stepCy]
      rw [intLoop_eq _ (show 0 < (s.stepArgs c (trackingError ops s.reference y)).intDt from hint)]
      exact ⟨_, rfl⟩
  obtain ⟨r, hr⟩ := this
  rw [hr]
  exact ⟨r, rfl⟩

/-- Executions in which all results are passed on exist from every object with positive `int_dt`, with every first state, gain and
coupling term. -/
theorem C75_dual_runs_exist_any_gain {s : DualCartesianDMP m} (ops : QuatOps) (c : Option DualCoupling) (sf : DualStepFunction)
    (hint : 0 < s.intDt) (x : Vec 14 × Vec 12) :
    ∃ obj fb out, obj 0 = s ∧ fb 0 = x ∧ Spec.Run (DualCartesianDMP.step (m := m) ops c sf) obj fb out ∧
      ∀ i, fb (i + 1) = out i := by
  classical
  let next : DualCartesianDMP m × (Vec 14 × Vec 12) → DualCartesianDMP m × (Vec 14 × Vec 12) := fun p =>
    let r := (DualCartesianDMP.step ops c sf p.2.1 p.2.2).exec p.1
    (r.2, match r.1 with | .ok x => x | .error _ => p.2)
  let tr : ℕ → DualCartesianDMP m × (Vec 14 × Vec 12) := fun i => next^[i] (s, x)
  have hsucc : ∀ i, tr (i + 1) = next (tr i) := fun i => Function.iterate_succ_apply' _ _ _
  have hinv : ∀ i, 0 < (tr i).1.intDt := by
    intro i
    induction i with
    | zero => exact hint
    | succ i ih =>
      obtain ⟨r, hr⟩ := DualCartesianDMP.step_returns ops c sf ih (tr i).2.1 (tr i).2.2
      rw [hsucc]; simp only [next, hr]
      exact ih
  refine ⟨fun i => (tr i).1, fun i => (tr i).2, fun i => (tr (i + 1)).2, rfl, rfl, ?_, fun i => rfl⟩
  intro i
  obtain ⟨r, hr⟩ := DualCartesianDMP.step_returns ops c sf (hinv i) (tr i).2.1 (tr i).2.2
  simp only [hsucc]
  simp only [next, hr]

/-- An object with a gain and a pose that it does not hold, to which `C67_dual_one_substep` applies with an error of both kinds. -/
example : ∃ s : DualCartesianDMP 10, s.Reachable ∧ 0 < s.executionTime ∧ 0 ≤ s.t ∧ 0 < s.dt ∧ s.dt ≤ s.intDt ∧ s.pGain = 2 ∧
    (∀ arm, UnitQuat (armOrientation arm (dualHeld s))) ∧
    ∃ y : Vec 14, (∀ arm, UnitQuat (armOrientation arm y)) ∧ ∀ arm, armPosition arm y ≠ armPosition arm (dualHeld s) ∧
      armOrientation arm y ≠ armOrientation arm (dualHeld s) := by
  obtain ⟨s, hs, h1, h2, h3, h4, h5, -, -, -, -, h6⟩ :=
    DualCartesianDMP.create_ok 10 (by norm_num) one_pos (1 / 100) (1 / 100) 2 false 25 (25 / 4)
  let a : ConfigArgs := { startY := some [0, 0, 0, 1, 0, 0, 0, 0, 0, 0, 1, 0, 0, 0] }
  let s' := (DualOp.configure (m := 10) a).after s
  have hc : s' = { s with startY := ![0, 0, 0, 1, 0, 0, 0, 0, 0, 0, 1, 0, 0, 0] } := by
    show ((DualCartesianDMP.configure a).exec s).2 = _
    rw [DualCartesianDMP.exec_configure, C25_configure_sets _ _ (by simp [AllOk, FieldOk, a])]
    have e1 : newValue (some [0, 0, 0, 1, 0, 0, 0, 0, 0, 0, 1, 0, 0, 0]) s.startY =
        ![0, 0, 0, 1, 0, 0, 0, 0, 0, 0, 1, 0, 0, 0] := by
      funext i; fin_cases i <;> rfl
    simp only [a, e1]
    rfl
  have ht : s.t = 0 := by rw [h1]; rfl
  have hh : dualHeld s' = ![0, 0, 0, 1, 0, 0, 0, 0, 0, 0, 1, 0, 0, 0] := by
    rw [hc]; simp [dualHeld, h6]
  refine ⟨s', .op _ (.create hs), ?_⟩
  rw [hh, hc]
  simp only [h2, h3, h4, h5, ht]
  refine ⟨by norm_num, le_rfl, by norm_num, le_rfl, trivial, fun arm => ?_,
    ![1, 2, 3, 0, 1, 0, 0, 4, 5, 6, 0, 0, 1, 0], fun arm => ?_, fun arm => ⟨?_, ?_⟩⟩
  · fin_cases arm <;> simp [UnitQuat, armOrientation]
  · fin_cases arm <;> simp [UnitQuat, armOrientation]
  · intro h
    have h' := congrFun h 0
    fin_cases arm <;> simp [armPosition] at h'
  · intro h
    have h' := congrFun h 0
    fin_cases arm <;> simp [armOrientation] at h'

end Verif
