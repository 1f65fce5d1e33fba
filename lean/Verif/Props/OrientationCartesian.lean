import Verif.Props.OrientationSpring
import Verif.Props.CartesianImitate

/-! # C75 (poses reach the goal) and C76 (orientations do so directly) for Cartesian DMPs -/

namespace Verif
open Filter Topology Spec
variable {m : ℕ} {eps : ℝ}

namespace CartesianDMP

/-- Phases of a forcing term decay. -/
def Decays {d : ℕ} (ft : ForcingTerm d m) : Prop := 0 < ft.alphaZ ∧ ft.startT < ft.goalT

theorem decays_init {τ : ℝ} {ft : ForcingTerm 3 m} (h : DMP.initForcingTerm 3 m τ = .ok ft) : Decays ft := by
  rw [DMP.initForcingTerm_ok_iff] at h
  obtain ⟨e1, e2, _, e4, _, hlt, _⟩ := create_eq h
  refine ⟨?_, by rw [e1, e2]; exact hlt⟩
  rw [e4]
  have := Real.log_neg (by norm_num : (0 : ℝ) < 1 / 100) (by norm_num)
  linarith

theorem Reachable.decays {s : CartesianDMP m} (h : s.Reachable) : Decays s.ftPos ∧ Decays s.ftRot := by
  induction h with
  | @create τ dt intDt smooth α β s h =>
    unfold CartesianDMP.create at h
    rw [initForcingTerms_eq] at h
    cases h1 : DMP.initForcingTerm 3 m τ with
    | error e => rw [h1] at h; cases h
    | ok ft =>
      rw [h1] at h
      cases h2 : ensure1dArray α (3 + 3) with
      | error e => rw [h2] at h; cases h
      | ok a =>
        rw [h2] at h
        cases h3 : ensure1dArray β (3 + 3) with
        | error e => rw [h3] at h; cases h
        | ok b =>
          rw [h3] at h
          simp only [Bind.bind, Except.bind, Except.map, Pure.pure, Except.pure, Except.ok.injEq] at h
          subst h
          exact ⟨decays_init h1, decays_init h1⟩
  | @op s o hs ih =>
    cases o with
    | step c sf qf y yd =>
      simp only [CartesianOp.after, exec_step]
      split
      · exact ih
      · split <;> exact ih
    | openLoop ops t c nm qn => simp only [CartesianOp.after, exec_openLoop]; exact ih
    | configure a => exact ih
    | reset => exact ih
    | setWeights w =>
      simp only [CartesianOp.after, exec_setWeights]
      split
      · exact ih
      · split <;> exact ih
    | setExecutionTime τ =>
      simp only [CartesianOp.after, exec_setExecutionTime]
      cases h : DMP.initForcingTerm 3 m τ with
      | error e => exact ih
      | ok ft =>
        have := decays_init h
        exact ⟨⟨this.1, this.2⟩, this.1, this.2⟩
    | imitate ops qgrad T Y reg afv =>
      simp only [CartesianOp.after, exec_imitate]
      split
      · exact ih
      · split <;> exact ih

theorem rot_weights_zero {s : CartesianDMP m} (hw : ∀ w ∈ s.getWeights.drop (3 * m), w = 0) (k : Fin 3) (i : Fin m) :
    s.ftRot.weights k i = 0 := by
  apply hw
  unfold CartesianDMP.getWeights
  rw [List.drop_left' (by simp), List.mem_ofFn]
  refine ⟨finProdFinEquiv (k, i), ?_⟩
  have h := finProdFinEquiv.symm_apply_apply (k, i)
  have h1 : (finProdFinEquiv (k, i)).divNat = k := congrArg Prod.fst h
  have h2 : (finProdFinEquiv (k, i)).modNat = i := congrArg Prod.snd h
  rw [h1, h2]

/-- Objects during an execution differ only in time and current state. -/
theorem run_objects {sf : StepFunction} {qf : QuatStepFunction} {obj : ℕ → CartesianDMP m}
    {fb out : ℕ → Vec (3 + 4) × Vec (3 + 3)} (h : Spec.Run (CartesianDMP.step none sf qf) obj fb out) (i : ℕ) :
    (∃ lt y yd, obj i =
      { obj 0 with lastT := lt, t := (obj 0).t + i * (obj 0).dt, currentY := y, currentYd := yd }) ∧
    sf.run ((obj 0).posArgs none) ((obj 0).t + i * (obj 0).dt) ((obj 0).t + (i + 1) * (obj 0).dt)
      (position (fb i).1, linear (fb i).2) = .ok (position (out i).1, linear (out i).2) ∧
    qf.run ((obj 0).rotArgs none) ((obj 0).t + i * (obj 0).dt) ((obj 0).t + (i + 1) * (obj 0).dt)
      (orientation (fb i).1, angular (fb i).2) = .ok (orientation (out i).1, angular (out i).2) := by
  simp only [position_eq, linear_eq, orientation_eq, angular_eq]
  have hstep : ∀ i, sf.run ((obj i).posArgs none) (obj i).t ((obj i).t + (obj i).dt)
        (sliceTo (fb i).1, sliceTo (fb i).2) = .ok (sliceTo (out i).1, sliceTo (out i).2) ∧
      qf.run ((obj i).rotArgs none) (obj i).t ((obj i).t + (obj i).dt) (sliceFrom (fb i).1, sliceFrom (fb i).2) =
        .ok (sliceFrom (out i).1, sliceFrom (out i).2) ∧
      obj (i + 1) = { (obj i).beginStep (fb i).1 (fb i).2 with currentY := (out i).1, currentYd := (out i).2 } := by
    intro i
    have h1 := h i
    rw [exec_step] at h1
    cases hr : sf.run ((obj i).posArgs none) (obj i).t ((obj i).t + (obj i).dt)
        (sliceTo (fb i).1, sliceTo (fb i).2) with
    | error e => rw [hr] at h1; cases h1
    | ok rp =>
      rw [hr] at h1
      simp only at h1
      cases hq : qf.run ((obj i).rotArgs none) (obj i).t ((obj i).t + (obj i).dt)
          (sliceFrom (fb i).1, sliceFrom (fb i).2) with
      | error e => rw [hq] at h1; cases h1
      | ok rr =>
        rw [hq] at h1
        simp only [Prod.mk.injEq, Except.ok.injEq] at h1
        obtain ⟨h2, h3⟩ := h1
        rw [← h3, ← h2]
        simp
  have hobj : ∃ lt y yd, obj i =
      { obj 0 with lastT := lt, t := (obj 0).t + i * (obj 0).dt, currentY := y, currentYd := yd } := by
    induction i with
    | zero => exact ⟨(obj 0).lastT, (obj 0).currentY, (obj 0).currentYd, by simp⟩
    | succ i ih =>
      obtain ⟨lt, y, yd, hi⟩ := ih
      refine ⟨some (obj i).t, (out i).1, (out i).2, ?_⟩
      rw [(hstep i).2.2]
      unfold beginStep
      have h3 : (obj i).t + (obj i).dt = (obj 0).t + ((i + 1 : ℕ) : ℝ) * (obj 0).dt := by
        rw [hi]; push_cast; ring
      rw [← h3, hi]
  refine ⟨hobj, ?_⟩
  obtain ⟨lt, y, yd, hi⟩ := hobj
  obtain ⟨h1, h2, -⟩ := hstep i
  have e1 : (obj i).posArgs none = (obj 0).posArgs none := by rw [hi]; rfl
  have e2 : (obj i).rotArgs none = (obj 0).rotArgs none := by rw [hi]; rfl
  have e3 : (obj i).t = (obj 0).t + i * (obj 0).dt := by rw [hi]
  have e4 : (obj i).t + (obj i).dt = (obj 0).t + (i + 1) * (obj 0).dt := by rw [hi]; simp only; ring
  rw [e1, e4, e3] at h1
  rw [e2, e4, e3] at h2
  exact ⟨h1, h2⟩

end CartesianDMP

/-- **C75 (`CartesianDMP.step`).** Whatever the weights, start, goal, first passed state and history of the object: if the
gains are positive, the rotational gains `α`, `β` do not depend on the axis and the integrators are stable, an infinite
sequence of `step` calls, each one called with the result of the previous one, brings the position to the goal position,
with velocity 0, and the orientation close to the goal orientation, up to an angle that is proportional to the
threshold `eps` below which the quaternion logarithm is 0 (`10⁻¹⁶` in the Cython version), and stops there. -/
theorem C75_cartesian_step {s : CartesianDMP m} (hs : s.Reachable) {sf : StepFunction} {qf : QuatStepFunction}
    (hqf : StepThreshold qf eps) (hdt : 0 < s.dt) (ht : 0 ≤ s.t) (hτ : 0 < s.executionTime)
    (hgain : ∀ k, 0 < linear s.alphaY k ∧ 0 < linear s.betaY k)
    (hst : ∀ k, Spec.Stable sf s.dt s.intDt s.executionTime (linear s.alphaY k) (linear s.betaY k))
    {α β : ℝ} (hα : ∀ k, angular s.alphaY k = α) (hβ : ∀ k, angular s.betaY k = β) (hα0 : 0 < α) (hβ0 : 0 < β)
    (hint : 0 < s.intDt) (hrot : s.intDt * (α + β) ≤ s.executionTime) (hg : UnitQuat (orientation s.goalY))
    {obj : ℕ → CartesianDMP m} {fb out : ℕ → Vec (3 + 4) × Vec (3 + 3)} (h0 : obj 0 = s)
    (hu : UnitQuat (orientation (fb 0).1)) (hrun : Spec.Run (CartesianDMP.step none sf qf) obj fb out)
    (hfb : ∀ i, fb (i + 1) = out i) :
    Tendsto (fun i => (position (out i).1, linear (out i).2)) atTop (𝓝 (position s.goalY, 0)) ∧
    ReachesOrientation (orientation s.goalY) (α * β / s.executionTime ^ 2) (Real.pi * (5 + 8 * (β / α)) * eps)
      (fun i => (orientation (out i).1, angular (out i).2)) := by
  subst h0
  obtain ⟨⟨d1, d2⟩, d3, d4⟩ := hs.decays
  have hm : 1 < m := hs.valid.two
  have hrun' := CartesianDMP.run_objects hrun
  constructor
  · have hlim := run_tendsto ((obj 0).posArgs none) rfl rfl rfl (show (0 : ℝ) < (obj 0).executionTime from hτ) hm d1 d2
      (sf := sf) hdt (show (0 : ℝ) ≤ (obj 0).t from ht) (fun k => by rw [linear_eq, linear_eq] at hgain; exact hgain k)
      (fun k => by
        have := hst k
        rw [linear_eq, linear_eq] at this
        show Spec.Stable sf (obj 0).dt (obj 0).intDt ((obj 0).executionTime - 0) _ _
        rw [sub_zero]; exact this)
      (xs := fun i => (position (fb i).1, linear (fb i).2)) (fun i => by
        simp only [hfb]
        exact (hrun' i).2.1)
    have h2 := (tendsto_add_atTop_iff_nat 1).2 hlim
    simp only [hfb] at h2
    rw [position_eq (obj 0).goalY]
    exact h2
  · refine ReachesOrientation.tail (fb := fun i => (orientation (fb i).1, angular (fb i).2)) ?_
      (fun i => by simp only [hfb])
    have h1 := quat_run_reaches (a := (obj 0).rotArgs none) hqf rfl rfl
      (show (0 : ℝ) < (obj 0).executionTime from hτ) hint hm d3 d4 (by rw [orientation_eq] at hg; exact hg)
      (fun k => by rw [angular_eq] at hα; exact hα k) (fun k => by rw [angular_eq] at hβ; exact hβ k) hα0 hβ0
      (by show (obj 0).intDt * (α + β) ≤ (obj 0).executionTime - 0; rw [sub_zero]; exact hrot) hdt
      (show (0 : ℝ) ≤ (obj 0).t from ht) (xs := fun i => (orientation (fb i).1, angular (fb i).2)) hu
      (fun i => by simp only [hfb]; exact (hrun' i).2.2)
    have e : ((obj 0).rotArgs none).goalT - ((obj 0).rotArgs none).startT = (obj 0).executionTime := sub_zero _
    rw [e] at h1
    rw [orientation_eq (obj 0).goalY]
    exact h1

/-- **C76 (`CartesianDMP.step`).** With zero rotational weights, without smooth scaling, and with rotational gains that are
at least critically damped (`α ≥ 4 β`, by default `α = 4 β`), the orientations passed to an infinite sequence of `step`
calls (each one called with the result of the previous one) that starts without angular velocity approach the goal
orientation directly: about one fixed axis, on the shorter way, without overshoot. -/
theorem C76_cartesian_step {s : CartesianDMP m} {sf : StepFunction} {qf : QuatStepFunction}
    (hqf : StepThreshold qf eps) (heps1 : eps ≤ 1) (hdt : 0 < s.dt) (ht : 0 ≤ s.t) (hτ : 0 < s.executionTime)
    (hw : ∀ w ∈ s.getWeights.drop (3 * m), w = 0) (hsm : s.smooth = false)
    {α β : ℝ} (hα : ∀ k, angular s.alphaY k = α) (hβ : ∀ k, angular s.betaY k = β) (hβ0 : 0 < β) (hαβ : 4 * β ≤ α)
    (hint : 0 < s.intDt) (hrot : s.intDt * α ≤ s.executionTime) (hg : UnitQuat (orientation s.goalY))
    {obj : ℕ → CartesianDMP m} {fb out : ℕ → Vec (3 + 4) × Vec (3 + 3)} (h0 : obj 0 = s) {q₀ : Vec 4}
    (hu : UnitQuat q₀) (hq0 : orientation (fb 0).1 = q₀) (hv0 : angular (fb 0).2 = 0)
    (hrun : Spec.Run (CartesianDMP.step none sf qf) obj fb out) (hfb : ∀ i, fb (i + 1) = out i) :
    DirectApproach (orientation s.goalY) q₀ eps (fun i => (orientation (fb i).1, angular (fb i).2)) := by
  subst h0
  have hrun' := CartesianDMP.run_objects hrun
  have hw' := CartesianDMP.rot_weights_zero hw
  have h1 := quat_run_direct (a := (obj 0).rotArgs none) hqf heps1 rfl rfl
    (show (0 : ℝ) < (obj 0).executionTime from hτ) hint hw' hsm (by rw [orientation_eq] at hg; exact hg)
    (fun k => by rw [angular_eq] at hα; exact hα k) (fun k => by rw [angular_eq] at hβ; exact hβ k) hβ0 hαβ
    (by show (obj 0).intDt * α ≤ (obj 0).executionTime - 0; rw [sub_zero]; exact hrot) hdt
    (show (0 : ℝ) ≤ (obj 0).t from ht) hu (xs := fun i => (orientation (fb i).1, angular (fb i).2))
    (by simp only [hq0, hv0]) (fun i => by simp only [hfb]; exact (hrun' i).2.2)
  rw [orientation_eq (obj 0).goalY]
  exact h1

/-- Such executions exist from every object with a stable integrator and every first state. -/
theorem C75_cartesian_runs_exist {s : CartesianDMP m} {sf : StepFunction} {qf : QuatStepFunction}
    (hdt : 0 < s.dt) (ht : 0 ≤ s.t) (hτ : 0 < s.executionTime) (hint : 0 < s.intDt) {α β : ℝ}
    (hst : Spec.Stable sf s.dt s.intDt s.executionTime α β) (x : Vec (3 + 4) × Vec (3 + 3)) :
    ∃ obj fb out, obj 0 = s ∧ fb 0 = x ∧ Spec.Run (CartesianDMP.step (m := m) none sf qf) obj fb out ∧
      ∀ i, fb (i + 1) = out i := by
  classical
  let next : CartesianDMP m × (Vec (3 + 4) × Vec (3 + 3)) → CartesianDMP m × (Vec (3 + 4) × Vec (3 + 3)) := fun p =>
    let r := (CartesianDMP.step none sf qf p.2.1 p.2.2).exec p.1
    (r.2, match r.1 with | .ok x => x | .error _ => p.2)
  let tr : ℕ → CartesianDMP m × (Vec (3 + 4) × Vec (3 + 3)) := fun i => next^[i] (s, x)
  have hsucc : ∀ i, tr (i + 1) = next (tr i) := fun i => Function.iterate_succ_apply' _ _ _
  have hstep : ∀ (o : CartesianDMP m) y yd, o.dt = s.dt → 0 ≤ o.t → o.executionTime = s.executionTime →
      o.intDt = s.intDt → ∃ r, (CartesianDMP.step none sf qf y yd).exec o =
        (.ok r, { o.beginStep y yd with currentY := r.1, currentYd := r.2 }) := by
    intro o y yd h1 h2 h3 h4
    rw [CartesianDMP.exec_step]
    obtain ⟨rp, hrp⟩ := run_returns (o.posArgs none) rfl rfl (show (0 : ℝ) < o.executionTime by rw [h3]; exact hτ)
      (sf := sf) (dt := s.dt) (by show Spec.Stable sf s.dt o.intDt _ _ _; rw [h4]; exact hst)
      (show o.t ≤ o.t + o.dt by linarith) (show (0 : ℝ) < o.t + o.dt by linarith) (sliceTo y, sliceTo yd)
    rw [hrp]
    simp only
    rw [QuatStepFunction.run_eq (a := o.rotArgs none) rfl rfl (show (0 : ℝ) < o.executionTime by rw [h3]; exact hτ)
      (show 0 < o.intDt by rw [h4]; exact hint) (show (0 : ℝ) < o.t + o.dt by linarith)]
    exact ⟨_, rfl⟩
  have hinv : ∀ i, (tr i).1.dt = s.dt ∧ 0 ≤ (tr i).1.t ∧ (tr i).1.executionTime = s.executionTime ∧
      (tr i).1.intDt = s.intDt := by
    intro i
    induction i with
    | zero => exact ⟨rfl, ht, rfl, rfl⟩
    | succ i ih =>
      obtain ⟨h1, h2, h3, h4⟩ := ih
      obtain ⟨r, hr⟩ := hstep (tr i).1 (tr i).2.1 (tr i).2.2 h1 h2 h3 h4
      rw [hsucc]; simp only [next, hr]
      refine ⟨h1, ?_, h3, h4⟩
      show 0 ≤ (tr i).1.t + (tr i).1.dt
      rw [h1]; linarith
  refine ⟨fun i => (tr i).1, fun i => (tr i).2, fun i => (tr (i + 1)).2, rfl, rfl, ?_, fun i => rfl⟩
  intro i
  obtain ⟨h1, h2, h3, h4⟩ := hinv i
  obtain ⟨r, hr⟩ := hstep (tr i).1 (tr i).2.1 (tr i).2.2 h1 h2 h3 h4
  simp only [hsucc]
  simp only [next, hr]

section OpenLoop
variable {s : CartesianDMP m} {ops : QuatOps} {sf : StepFunction} {qf : QuatStepFunction} {name qname : String}

/-- Rows of open-loop executions belong to one sequence of states. -/
theorem CartesianDMP.openLoop_rows (hname : StepFunction.lookup name = .ok sf)
    (hqname : QuatStepFunction.lookup ops qname = .ok qf) (hdt : 0 < s.dt) (hτ : 0 < s.executionTime)
    (hint : 0 < s.intDt) {α β : ℝ} (hst : Spec.Stable sf s.dt s.intDt s.executionTime α β) :
    ∃ (ps : ℕ → Vec 3 × Vec 3) (xs : ℕ → Vec 4 × Vec 3), ps 0 = (sliceTo s.startY, 0) ∧ xs 0 = (sliceFrom s.startY, 0) ∧
      (∀ i : ℕ, sf.run (s.posOpenLoopArgs none) (0 + i * s.dt) (0 + (i + 1) * s.dt) (ps i) = .ok (ps (i + 1))) ∧
      (∀ i : ℕ, qf.run (s.rotOpenLoopArgs none) (0 + i * s.dt) (0 + (i + 1) * s.dt) (xs i) = .ok (xs (i + 1))) ∧
      ∀ runT : Option ℝ, ((CartesianDMP.openLoop ops runT none name qname).exec s).1 =
        if arangeLen 0 (runT.getD s.executionTime + s.dt) s.dt = 0 then .error .indexError
        else .ok ((List.range (arangeLen 0 (runT.getD s.executionTime + s.dt) s.dt)).map (arangeAt 0 s.dt),
          (List.range (arangeLen 0 (runT.getD s.executionTime + s.dt) s.dt)).map
            (fun i => hstack (ps i).1 (xs i).1)) := by
  classical
  have hnn : ∀ i : ℕ, (0 : ℝ) < arangeAt 0 s.dt (i + 1) := by
    intro i
    unfold arangeAt
    have : 0 < ((i + 1 : ℕ) : ℝ) * s.dt := by positivity
    linarith
  have hok : ∀ (i : ℕ) x, ∃ x', sf.run (s.posOpenLoopArgs none) (arangeAt 0 s.dt i) (arangeAt 0 s.dt (i + 1)) x = .ok x' := by
    intro i x
    refine run_returns (s.posOpenLoopArgs none) rfl rfl (show (0 : ℝ) < s.executionTime from hτ) hst ?_ (hnn i) x
    simp only [arangeAt]; push_cast; linarith
  choose nxtP hnxtP using hok
  let nxt : ℕ → Vec 4 × Vec 3 → Vec 4 × Vec 3 := fun i x =>
    (subSteps s.intDt (arangeAt 0 s.dt (i + 1)) (arangeAt 0 s.dt i)).foldl
      (fun x p => (s.rotOpenLoopArgs none).update qf.quatOps 0 0 p.1 p.2 x) x
  have hnxt : ∀ i x, qf.run (s.rotOpenLoopArgs none) (arangeAt 0 s.dt i) (arangeAt 0 s.dt (i + 1)) x = .ok (nxt i x) :=
    fun i x => QuatStepFunction.run_eq (a := s.rotOpenLoopArgs none) rfl rfl (show (0 : ℝ) < s.executionTime from hτ) hint
      (hnn i) x
  let ps : ℕ → Vec 3 × Vec 3 := fun i => Nat.rec (sliceTo s.startY, 0) (fun i x => nxtP i x) i
  let xs : ℕ → Vec 4 × Vec 3 := fun i => Nat.rec (sliceFrom s.startY, 0) (fun i x => nxt i x) i
  have hps : ∀ i, ps (i + 1) = nxtP i (ps i) := fun i => rfl
  have hxs : ∀ i, xs (i + 1) = nxt i (xs i) := fun i => rfl
  have e : ∀ i : ℕ, arangeAt 0 s.dt (i + 1) = 0 + ((i : ℝ) + 1) * s.dt := by
    intro i; unfold arangeAt; push_cast; ring
  refine ⟨ps, xs, rfl, rfl, fun i => ?_, fun i => ?_, fun runT => ?_⟩
  · rw [hps, ← hnxtP, e]; rfl
  · rw [hxs, ← hnxt, e]; rfl
  · rw [CartesianDMP.exec_openLoop, hname, hqname]
    have h1 : dmpOpenLoop (s.posOpenLoopArgs none) s.dt runT sf = _ :=
      openLoopWith_total (goalT := s.executionTime) (startT := 0) (start := (sliceTo s.startY, 0)) (runT := runT) hdt.ne'
        hnxtP rfl hps
    have h2 := openLoopWith_total (goalT := s.executionTime) (startT := 0) (start := (sliceFrom s.startY, 0))
      (runT := runT) hdt.ne' hnxt rfl hxs
    simp only [Except.bind]
    rw [h1]
    by_cases hz : arangeLen 0 (runT.getD s.executionTime + s.dt) s.dt = 0
    · rw [if_pos hz, if_pos hz]
    · rw [if_neg hz, if_neg hz]
      simp only
      rw [h2, if_neg hz]
      simp only [List.length_map, ne_eq, not_true_eq_false, if_false, Except.ok.injEq, Prod.mk.injEq, true_and]
      rw [List.zipWith_map, List.zipWith_self]

/-- **C75 (`CartesianDMP.open_loop`).** Rows of sufficiently long open-loop executions are as close to the goal position
as required, and close to the goal orientation up to an angle that is proportional to the threshold `eps` below which the
quaternion logarithm is 0. -/
theorem C75_cartesian_open_loop (hs : s.Reachable) (hname : StepFunction.lookup name = .ok sf)
    (hqname : QuatStepFunction.lookup ops qname = .ok qf) (hqf : StepThreshold qf eps) (hdt : 0 < s.dt)
    (hτ : 0 < s.executionTime) (hgain : ∀ k, 0 < linear s.alphaY k ∧ 0 < linear s.betaY k)
    (hst : ∀ k, Spec.Stable sf s.dt s.intDt s.executionTime (linear s.alphaY k) (linear s.betaY k))
    {α β : ℝ} (hα : ∀ k, angular s.alphaY k = α) (hβ : ∀ k, angular s.betaY k = β) (hα0 : 0 < α) (hβ0 : 0 < β)
    (hint : 0 < s.intDt) (hrot : s.intDt * (α + β) ≤ s.executionTime) (hg : UnitQuat (orientation s.goalY))
    (hq : UnitQuat (orientation s.startY)) :
    (∀ r : ℝ, 0 ≤ r → ∃ T Y, ((CartesianDMP.openLoop ops (some r) none name qname).exec s).1 = .ok (T, Y)) ∧
    ∀ ε > 0, ∃ R : ℝ, ∀ (runT : Option ℝ) T Y,
      ((CartesianDMP.openLoop ops runT none name qname).exec s).1 = .ok (T, Y) → T.length = Y.length ∧
      ∀ i (hT : i < T.length) (hY : i < Y.length), R ≤ T[i] →
        (∀ k, |position Y[i] k - position s.goalY k| < ε) ∧
        rotationAngle (orientation s.goalY) (orientation Y[i]) ≤ Real.pi * (5 + 8 * (β / α)) * eps := by
  obtain ⟨ps, xs, hp0, hx0, hp, hx, hol⟩ := CartesianDMP.openLoop_rows hname hqname hdt hτ hint (hst 0)
  obtain ⟨⟨d1, d2⟩, d3, d4⟩ := hs.decays
  have hm : 1 < m := hs.valid.two
  constructor
  · intro r hr
    rw [hol]
    have hn : arangeLen 0 (r + s.dt) s.dt ≠ 0 := by
      unfold arangeLen
      rw [sub_zero, Ne, Nat.ceil_eq_zero, not_le]
      positivity
    rw [Option.getD_some, if_neg hn]
    exact ⟨_, _, rfl⟩
  · intro ε hε
    have hlim := run_tendsto (s.posOpenLoopArgs none) rfl rfl rfl (show (0 : ℝ) < s.executionTime from hτ) hm d1 d2
      (sf := sf) hdt (le_refl (0 : ℝ)) (fun k => by rw [linear_eq, linear_eq] at hgain; exact hgain k)
      (fun k => by
        have := hst k
        rw [linear_eq, linear_eq] at this
        show Spec.Stable sf s.dt s.intDt (s.executionTime - 0) _ _
        rw [sub_zero]; exact this) hp
    have hreach := quat_run_reaches (a := s.rotOpenLoopArgs none) hqf rfl rfl
      (show (0 : ℝ) < s.executionTime from hτ) hint hm d3 d4 (by rw [orientation_eq] at hg; exact hg)
      (fun k => by rw [angular_eq] at hα; exact hα k) (fun k => by rw [angular_eq] at hβ; exact hβ k) hα0 hβ0
      (by show s.intDt * (α + β) ≤ s.executionTime - 0; rw [sub_zero]; exact hrot) hdt (le_refl (0 : ℝ))
      (by rw [hx0]; rw [orientation_eq] at hq; exact hq) hx
    have h1 : Tendsto (fun i => (ps i).1) atTop (𝓝 (sliceTo s.goalY)) := (continuous_fst.tendsto _).comp hlim
    have h2 : ∀ k, ∀ᶠ i in atTop, |(ps i).1 k - position s.goalY k| < ε := by
      intro k
      rw [position_eq]
      have h3 := (tendsto_pi_nhds.1 h1) k
      obtain ⟨N, hN⟩ := (Metric.tendsto_atTop.1 h3) ε hε
      exact eventually_atTop.2 ⟨N, fun i hi => by simpa [Real.dist_eq] using hN i hi⟩
    obtain ⟨N, hN⟩ := eventually_atTop.1 ((eventually_all.2 h2).and hreach)
    refine ⟨N * s.dt, ?_⟩
    intro runT T Y h
    rw [hol] at h
    split_ifs at h with hz
    simp only [Except.ok.injEq, Prod.mk.injEq] at h
    obtain ⟨rfl, rfl⟩ := h
    refine ⟨by simp, ?_⟩
    intro i hT hY hR
    simp only [List.getElem_map, List.getElem_range] at hR ⊢
    have hi : N ≤ i := by
      unfold arangeAt at hR
      rw [zero_add] at hR
      have := le_of_mul_le_mul_right hR hdt
      exact_mod_cast this
    obtain ⟨h5, h6, -⟩ := hN i hi
    rw [position_eq (hstack _ _), orientation_eq (hstack _ _), sliceTo_hstack, sliceFrom_hstack, orientation_eq s.goalY]
    exact ⟨h5, h6⟩

/-- **C76 (`CartesianDMP.open_loop`).** With zero rotational weights, without smooth scaling, and with rotational gains
that are at least critically damped, orientations of open-loop executions of every length show the beginning of one and
the same direct approach from the start to the goal orientation. -/
theorem C76_cartesian_open_loop (hname : StepFunction.lookup name = .ok sf)
    (hqname : QuatStepFunction.lookup ops qname = .ok qf) (hqf : StepThreshold qf eps) (heps1 : eps ≤ 1) (hdt : 0 < s.dt)
    (hτ : 0 < s.executionTime) (hw : ∀ w ∈ s.getWeights.drop (3 * m), w = 0) (hsm : s.smooth = false)
    {α' β' : ℝ} (hst : Spec.Stable sf s.dt s.intDt s.executionTime α' β')
    {α β : ℝ} (hα : ∀ k, angular s.alphaY k = α) (hβ : ∀ k, angular s.betaY k = β) (hβ0 : 0 < β) (hαβ : 4 * β ≤ α)
    (hint : 0 < s.intDt) (hrot : s.intDt * α ≤ s.executionTime) (hg : UnitQuat (orientation s.goalY))
    (hq : UnitQuat (orientation s.startY)) :
    ∃ xs : ℕ → Vec 4 × Vec 3, xs 0 = (orientation s.startY, 0) ∧
      DirectApproach (orientation s.goalY) (orientation s.startY) eps xs ∧
      ∀ (runT : Option ℝ) T Y, ((CartesianDMP.openLoop ops runT none name qname).exec s).1 = .ok (T, Y) →
        ∀ i (hY : i < Y.length), orientation Y[i] = (xs i).1 := by
  obtain ⟨ps, xs, hp0, hx0, hp, hx, hol⟩ := CartesianDMP.openLoop_rows hname hqname hdt hτ hint hst
  have hw' := CartesianDMP.rot_weights_zero hw
  refine ⟨xs, by rw [hx0, orientation_eq], ?_, ?_⟩
  · have h1 := quat_run_direct (a := s.rotOpenLoopArgs none) hqf heps1 rfl rfl
      (show (0 : ℝ) < s.executionTime from hτ) hint hw' hsm (by rw [orientation_eq] at hg; exact hg)
      (fun k => by rw [angular_eq] at hα; exact hα k) (fun k => by rw [angular_eq] at hβ; exact hβ k) hβ0 hαβ
      (by show s.intDt * α ≤ s.executionTime - 0; rw [sub_zero]; exact hrot) hdt
      (le_refl (0 : ℝ)) hq (by rw [hx0, orientation_eq]) hx
    rw [orientation_eq s.goalY]
    exact h1
  · intro runT T Y h
    rw [hol] at h
    split_ifs at h with hz
    simp only [Except.ok.injEq, Prod.mk.injEq] at h
    obtain ⟨rfl, rfl⟩ := h
    intro i hY
    simp only [List.getElem_map, List.getElem_range]
    rw [orientation_eq, sliceFrom_hstack]

end OpenLoop

/-- A Cartesian DMP with the default parameters of the constructor, execution time 1 s and configured with unit quaternions
meets all the conditions of C75 and C76. -/
example : ∃ s : CartesianDMP 10, s.Reachable ∧ StepThreshold .cython (1 / 10 ^ 16) ∧ 0 < s.dt ∧ 0 ≤ s.t ∧
    0 < s.executionTime ∧ (∀ k, 0 < linear s.alphaY k ∧ 0 < linear s.betaY k) ∧
    (∀ k, Spec.Stable .rk4Cython s.dt s.intDt s.executionTime (linear s.alphaY k) (linear s.betaY k)) ∧
    (∀ k, angular s.alphaY k = 25) ∧ (∀ k, angular s.betaY k = 25 / 4) ∧ (4 : ℝ) * (25 / 4) ≤ 25 ∧ 0 < s.intDt ∧
    s.intDt * (25 + 25 / 4) ≤ s.executionTime ∧ s.intDt * 25 ≤ s.executionTime ∧ s.smooth = false ∧
    (∀ w ∈ s.getWeights.drop (3 * 10), w = 0) ∧
    UnitQuat (orientation s.goalY) ∧ UnitQuat (orientation s.startY) ∧
    orientation s.goalY ≠ orientation s.startY := by
  obtain ⟨s, hs, h1, h2, h3, h4, h5, h6, h7, h8, h9, h10, h11⟩ := CartesianDMP.create_ok 10 (by norm_num) one_pos (1 / 100)
    (1 / 1000) false 25 (25 / 4)
  let a : ConfigArgs := { startY := some [0, 0, 0, 1, 0, 0, 0], goalY := some [1, 2, 3, 0, 1, 0, 0] }
  let s' := (CartesianOp.configure (m := 10) a).after s
  have hc : s' = { s with startY := ![0, 0, 0, 1, 0, 0, 0], goalY := ![1, 2, 3, 0, 1, 0, 0] } := by
    show ((CartesianDMP.configure a).exec s).2 = _
    rw [CartesianDMP.exec_configure, C25_configure_sets _ _ (by simp [AllOk, FieldOk, a])]
    have e1 : newValue (some [0, 0, 0, 1, 0, 0, 0]) s.startY = ![0, 0, 0, 1, 0, 0, 0] := by
      funext i; fin_cases i <;> rfl
    have e2 : newValue (some [1, 2, 3, 0, 1, 0, 0]) s.goalY = ![1, 2, 3, 0, 1, 0, 0] := by
      funext i; fin_cases i <;> rfl
    simp only [a, e1, e2]
    rfl
  refine ⟨s', .op _ (.create hs), rfl, ?_⟩
  rw [hc]
  have hl : ∀ (x : ℝ) k, linear (fun _ => x) k = x := by intro x k; fin_cases k <;> rfl
  have ha : ∀ (x : ℝ) k, angular (fun _ => x) k = x := by intro x k; fin_cases k <;> rfl
  simp only [h2, h3, h4, h5, h6, h7, hl, ha]
  have ht : s.t = 0 := by rw [h1]; rfl
  refine ⟨by norm_num, by rw [ht], by norm_num, fun k => ⟨by norm_num, by norm_num⟩,
    fun k => .rk4 (Or.inr rfl) (by norm_num) (by norm_num), fun _ => trivial, fun _ => trivial, by norm_num, by norm_num,
    by norm_num, by norm_num, trivial, ?_, ?_, ?_, ?_⟩
  · intro w hw
    unfold CartesianDMP.getWeights at hw
    rw [List.drop_left' (by simp), List.mem_ofFn] at hw
    obtain ⟨i, rfl⟩ := hw
    simp only [h9]
  · simp [UnitQuat, orientation]
  · simp [UnitQuat, orientation]
  · intro h
    have : (0 : ℝ) = 1 := congrFun h 0
    norm_num at this

end Verif
