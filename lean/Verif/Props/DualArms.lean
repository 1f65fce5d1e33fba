import Verif.Props.OrientationDualReproduction
import Verif.Spec.DualArms

/-! # C112: a dual-arm DMP without coupling term is two Cartesian DMPs -/

namespace Verif
open Spec Quaternion Set

variable {m : ℕ}

theorem armPose_eq (arm : Fin 2) (y : Vec 14) : armPose arm y = hstack (armPos arm y) (armRot arm y) := by
  funext i
  fin_cases arm <;> fin_cases i <;> rfl

theorem armVelocity_eq (arm : Fin 2) (v : Vec 12) : armVelocity arm v = hstack (armLin arm v) (armAng arm v) := by
  funext i
  fin_cases arm <;> fin_cases i <;> rfl

/-- Forcing terms made for the same execution time have the same phase and the same basis functions. -/
theorem ForcingTerm.Made.same {d d' : ℕ} {ft : ForcingTerm d m} {ft' : ForcingTerm d' m} {τ : ℝ} (h : ft.Made τ) (h' : ft'.Made τ) :
    (∀ t, ft'.phaseAt t = ft.phaseAt t) ∧ ∀ z i, ft'.activations z i = ft.activations z i := by
  obtain ⟨ft0, h1, e1, e2, e3, e4, e5⟩ := h
  obtain ⟨ft1, h2, f1, f2, f3, f4, f5⟩ := h'
  rw [DMP.initForcingTerm_ok_iff] at h1 h2
  obtain ⟨-, -, -, rfl⟩ := create_ok h1
  obtain ⟨-, -, -, rfl⟩ := create_ok h2
  simp only at e1 e2 e3 e4 e5 f1 f2 f3 f4 f5
  have hrbf : ∀ z i, ft'.rbf z i = ft.rbf z i := by
    intro z i
    simp only [ForcingTerm.rbf, e4, e5, f4, f5]
  constructor
  · intro t
    simp only [ForcingTerm.phaseAt, e1, e2, e3, f1, f2, f3]
  · intro z i
    show ft'.rbf z i / ∑ j, ft'.rbf z j = ft.rbf z i / ∑ j, ft.rbf z j
    simp only [hrbf]

/-- Steps for orientations depend on the forcing term only through its phase and forces. -/
theorem QuatStepFunction.run_congr {a b : QuatStepArgs m} {qf qf' : QuatStepFunction} (hqf : qf'.quatOps = qf.quatOps)
    (hc : a.coupling = none) (hp : a.precomputed = none) (hc' : b.coupling = none) (hp' : b.precomputed = none)
    (hg : b.goalY = a.goalY) (hs : b.startY = a.startY) (hT : b.goalT = a.goalT) (h0 : b.startT = a.startT)
    (hα : b.alphaY = a.alphaY) (hβ : b.betaY = a.betaY) (hi : b.intDt = a.intDt) (hsm : b.smooth = a.smooth)
    (hph : ∀ t, b.ft.phaseAt t = a.ft.phaseAt t) (hf : ∀ z, b.ft.force z = a.ft.force z)
    (hpos : a.startT < a.goalT) (hint : 0 < a.intDt) {lastT t : ℝ} (ht : a.startT < t) (s : Vec 4 × Vec 3) :
    qf'.run b lastT t s = qf.run a lastT t s := by
  rw [QuatStepFunction.run_eq (a := b) hc' hp' (by rw [h0, hT]; exact hpos) (by rw [hi]; exact hint) (by rw [h0]; exact ht),
    QuatStepFunction.run_eq (a := a) hc hp hpos hint ht, hi, hqf]
  have : ∀ dt t s, b.update qf.quatOps 0 0 dt t s = a.update qf.quatOps 0 0 dt t s := by
    intro dt t s
    simp only [QuatStepArgs.update, hg, hs, hT, h0, hα, hβ, hsm, hph, hf]
  simp only [this]

/-- One call of the step functions. -/
theorem Spec.ArmOf.run {s : DualCartesianDMP m} {arm : Fin 2} {p : CartesianDMP m} (h : ArmOf s arm p)
    (hmade : s.ft.Made p.executionTime) (hp : p.ftPos.Made p.executionTime ∧ p.ftRot.Made p.executionTime)
    (hτp : 0 < p.executionTime) (hβ : s.smooth = true → arm = 1 → UniformRightGains s.betaY) (hint : 0 < s.intDt)
    {pf : StepFunction} (hpf : pf = .euler ∨ pf = .eulerCython) {sf : DualStepFunction} {qf : QuatStepFunction}
    (hqf : SameQuaternions sf qf) {e : Vec 14}
    (he : s.pGain = 0 ∨ (armPos arm e = 0 ∧ sf.ops.log (armRot arm e) = 0)) {lastT t : ℝ} (hlt : lastT ≤ t) (ht : 0 < t)
    {x r : Vec 14 × Vec 12} (hr : sf.run (s.stepArgs none e) lastT t x = .ok r) (P : StepArgs 3 m) (Q : QuatStepArgs m)
    (hP : { P with startYd := 0, startYdd := 0, goalYd := 0, goalYdd := 0 } = p.posOpenLoopArgs none)
    (hQ : { Q with startYd := 0 } = p.rotOpenLoopArgs none) :
    pf.run P lastT t (armPos arm x.1, armLin arm x.2) = .ok (armPos arm r.1, armLin arm r.2) ∧
      qf.run Q lastT t (armRot arm x.1, armAng arm x.2) = .ok (armRot arm r.1, armAng arm r.2) := by
  have hτ : 0 < s.executionTime := by rw [← h.executionTime]; exact hτp
  obtain ⟨hph, hact⟩ := hmade.same hp.1
  obtain ⟨hph', hact'⟩ := hmade.same hp.2
  have hforce : ∀ z, p.ftPos.force z = armLin arm (s.ft.force z) := by
    intro z
    funext k
    simp only [ForcingTerm.force, hact, h.positionWeights, armLinear_eq, armLin]
  have hforce' : ∀ z, p.ftRot.force z = armAng arm (s.ft.force z) := by
    intro z
    funext k
    simp only [ForcingTerm.force, hact', h.orientationWeights, armAngular_eq, armAng]
  have hPf : ∀ {γ : Type} (f : StepArgs 3 m → γ), (f { P with startYd := 0, startYdd := 0, goalYd := 0, goalYdd := 0 }) =
      f (p.posOpenLoopArgs none) := fun f => congrArg f hP
  have hQf : ∀ {γ : Type} (f : QuatStepArgs m → γ), f { Q with startYd := 0 } = f (p.rotOpenLoopArgs none) :=
    fun f => congrArg f hQ
  constructor
  · have hargs : ArmArgs (s.stepArgs none e) arm P := by
      refine ⟨(hPf (·.goalY)).trans ?_, (hPf (·.startY)).trans ?_, (hPf (·.goalT)).trans h.executionTime,
        hPf (·.startT), (hPf (·.alphaY)).trans ?_, (hPf (·.betaY)).trans ?_, (hPf (·.intDt)).trans h.intDt,
        (hPf (·.smooth)).trans h.smooth, fun t => (hPf (·.ft.phaseAt t)).trans (hph t), fun z => (hPf (·.ft.force z)).trans (hforce z),
        hPf (·.coupling), hPf (·.precomputed), hPf (·.trackingError)⟩
      · show sliceTo p.goalY = _
        rw [h.goalY, armPose_eq, sliceTo_hstack]; rfl
      · show sliceTo p.startY = _
        rw [h.startY, armPose_eq, sliceTo_hstack]; rfl
      · show sliceTo p.alphaY = _
        rw [h.alphaY, armVelocity_eq, sliceTo_hstack]; rfl
      · show sliceTo p.betaY = _
        rw [h.betaY, armVelocity_eq, sliceTo_hstack]; rfl
    have h1 := hargs.run (fun hsm k => by
      have hb := hβ hsm
      clear hr he hargs
      fin_cases arm
      · fin_cases k <;> rfl
      · obtain ⟨b1, b2, b3⟩ := hb rfl
        fin_cases k
        · exact b1.symm
        · exact b2.symm
        · exact b3.symm) rfl (fun ops dt => by
      funext k
      simp only [DualStepArgs.correction, DualCartesianDMP.stepArgs, armLin_joinVel, Pi.zero_apply]
      rcases he with h | h
      · rw [h]; simp
      · rw [h.1]; simp) hτ hint hlt ht hr
    have hT : P.startT < P.goalT := by rw [hargs.startT, hargs.goalT]; exact hτ
    have hi : 0 < P.intDt := by rw [hargs.intDt]; exact hint
    have ht' : P.startT < t := by rw [hargs.startT]; exact ht
    simp only [armPoseLinear, armPosition_eq, armLinear_eq] at h1
    rw [run_euler_eq P hargs.coupling hargs.precomputed (.inl rfl) hi hT hlt ht'] at h1
    rw [run_euler_eq P hargs.coupling hargs.precomputed hpf hi hT hlt ht']
    exact h1
  · have h1 := run_arm_rotation (a := s.stepArgs none e) (sf := sf) rfl arm (fun dt => by
      funext k
      simp only [DualStepArgs.correction, DualCartesianDMP.stepArgs, armAng_joinVel, Pi.zero_apply]
      rcases he with h | h
      · rw [h]; simp
      · rw [h.2]; simp) hτ hint ht hr
    rw [← h1]
    have hq : qf.quatOps = (QuatStepFunction.python sf.ops).quatOps := by
      cases sf <;> cases qf
      · exact hqf.symm
      · exact hqf.elim
      · exact hqf.elim
      · rfl
    refine QuatStepFunction.run_congr (a := armRotDmp (s.stepArgs none e) arm) (b := Q) hq rfl rfl (hQf (·.coupling)) (hQf (·.precomputed)) ((hQf (·.goalY)).trans ?_)
      ((hQf (·.startY)).trans ?_) ((hQf (·.goalT)).trans h.executionTime) (hQf (·.startT)) ((hQf (·.alphaY)).trans ?_)
      ((hQf (·.betaY)).trans ?_) ((hQf (·.intDt)).trans h.intDt) ((hQf (·.smooth)).trans h.smooth)
      (fun t => (hQf (·.ft.phaseAt t)).trans (hph' t)) (fun z => (hQf (·.ft.force z)).trans ?_) hτ hint ht _
    · show sliceFrom p.goalY = armOrientation arm s.goalY
      rw [h.goalY, armPose_eq, sliceFrom_hstack, armOrientation_eq]
    · show sliceFrom p.startY = armOrientation arm s.startY
      rw [h.startY, armPose_eq, sliceFrom_hstack, armOrientation_eq]
    · show sliceFrom p.alphaY = armAngular arm s.alphaY
      rw [h.alphaY, armVelocity_eq, sliceFrom_hstack, armAngular_eq]
    · show sliceFrom p.betaY = armAngular arm s.betaY
      rw [h.betaY, armVelocity_eq, sliceFrom_hstack, armAngular_eq]
    · show p.ftRot.force z = _
      rw [hforce']
      funext k
      simp only [ForcingTerm.force, armRotDmp, DualCartesianDMP.stepArgs, armAngular_eq, armAng]
      rfl

/-- C112 for `step`, for objects whose parameters `dt` and `int_dt` may have been changed. -/
theorem Spec.ArmOf.steps {s : DualCartesianDMP m} {arm : Fin 2} {p : CartesianDMP m} 
    (h : ArmOf s arm p) (hsm : s.ft.Made p.executionTime) (hpm : p.ftPos.Made p.executionTime ∧ p.ftRot.Made p.executionTime)
    (hpos : 0 < p.executionTime) (hβ : s.smooth = true → arm = 1 → UniformRightGains s.betaY) (hint : 0 < s.intDt) (hdt : 0 < s.dt)
    (ht : 0 ≤ s.t) (ht' : p.t = s.t) {pf : StepFunction} (hpf : pf = .euler ∨ pf = .eulerCython) {sf : DualStepFunction}
    {qf : QuatStepFunction} (hqf : SameQuaternions sf qf) {ops : QuatOps} {obj : ℕ → DualCartesianDMP m}
    {fb out : ℕ → Vec 14 × Vec 12} (h0 : obj 0 = s) (hrun : Run (DualCartesianDMP.step ops none sf) obj fb out)
    (hfree : s.pGain = 0 ∨ (s.initialized = false ∧ LawfulDualStep sf ∧ (∃ eps > 0, LawfulQuatOps ops eps) ∧
      (∀ arm, UnitQuat (armOrientation arm s.startY)) ∧ (fb 0).1 = s.startY ∧ ∀ i, (fb (i + 1)).1 = (out i).1)) :
    ∃ objs, objs 0 = p ∧
      Run (CartesianDMP.step none pf qf) objs (fun i => armState arm (fb i)) (fun i => armState arm (out i)) := by
  have hargs := fun j => DualCartesianDMP.run_args h0 hrun j
  have he : ∀ i, s.pGain = 0 ∨ (armPos arm (DualCartesianDMP.trackingError ops (obj i).reference (fb i).1) = 0 ∧
      sf.ops.log (armRot arm (DualCartesianDMP.trackingError ops (obj i).reference (fb i).1)) = 0) := by
    intro i
    refine hfree.imp_right ?_
    rintro ⟨hini, hlaw, ⟨eps, -, hops⟩, hu, hf0, hf⟩
    simp only [armOrientation_eq] at hu
    have hunit : ∀ j arm, UnitQuat (armRot arm (fb j).1) := by
      intro j
      induction j with
      | zero => intro arm; rw [hf0]; exact hu arm
      | succ j ih =>
        intro arm
        rw [hf j]
        exact DualStepFunction.run_unit hlaw _ hu ih (hargs j).1 arm
    have href : (obj i).reference = (fb i).1 := by
      cases i with
      | zero => rw [h0, hf0]; simp only [DualCartesianDMP.reference, hini]; rfl
      | succ j => rw [(hargs j).2, hf j]
    have hlaw' : ∃ eps' > 0, LawfulQuatOps sf.ops eps' := by
      cases sf with
      | python ops => exact hlaw
      | cython => exact ⟨1 / 10 ^ 16, by positivity, (stepThreshold_lawful (qf := .cython) rfl).2⟩
    obtain ⟨eps', heps', hl⟩ := hlaw'
    rw [href]
    simp only [DualCartesianDMP.trackingError, armPos_joinState, armRot_joinState]
    exact ⟨by funext k; simp, log_self hops hl heps' (hunit i arm)⟩
  let objs : ℕ → CartesianDMP m := fun i => Nat.rec p (fun i o =>
    ((CartesianDMP.step none pf qf (armState arm (fb i)).1 (armState arm (fb i)).2).exec o).2) i
  have hinv : ∀ i : ℕ, ((objs i).posArgs none = p.posArgs none ∧ (objs i).rotArgs none = p.rotArgs none ∧
      (objs i).t = s.t + i * s.dt ∧ (objs i).dt = s.dt) ∧
      (CartesianDMP.step none pf qf (armState arm (fb i)).1 (armState arm (fb i)).2).exec (objs i) =
        (.ok (armState arm (out i)), objs (i + 1)) := by
    have hone : ∀ i : ℕ, ∀ o : CartesianDMP m, o.posArgs none = p.posArgs none → o.rotArgs none = p.rotArgs none →
        o.t = s.t + i * s.dt → o.dt = s.dt →
        (CartesianDMP.step none pf qf (armState arm (fb i)).1 (armState arm (fb i)).2).exec o =
          (.ok (armState arm (out i)), { o.beginStep (armState arm (fb i)).1 (armState arm (fb i)).2 with
            currentY := (armState arm (out i)).1, currentYd := (armState arm (out i)).2 }) := by
      intro i o o1 o2 o3 o4
      have hi0 : (0 : ℝ) ≤ i * s.dt := by positivity
      obtain ⟨k1, k2⟩ := h.run hsm hpm hpos hβ hint hpf hqf (he i) (by linarith) (by linarith) (hargs i).1 (p.posArgs none) (p.rotArgs none)
        rfl rfl
      rw [CartesianDMP.exec_step, o1, o2, o3, o4]
      simp only [armState, armPose_eq, armVelocity_eq, sliceTo_hstack, sliceFrom_hstack]
      rw [k1]
      simp only
      rw [k2]
    intro i
    induction i with
    | zero =>
      have := hone 0 p rfl rfl (by rw [ht']; simp) h.dt
      refine ⟨⟨rfl, rfl, by show p.t = _; rw [ht']; simp, h.dt⟩, ?_⟩
      show (CartesianDMP.step none pf qf (armState arm (fb 0)).1 (armState arm (fb 0)).2).exec p =
        (.ok (armState arm (out 0)), ((CartesianDMP.step none pf qf (armState arm (fb 0)).1 (armState arm (fb 0)).2).exec p).2)
      rw [this]
    | succ i ih =>
      obtain ⟨⟨i1, i2, i3, i4⟩, -⟩ := ih
      have h1 := hone i (objs i) i1 i2 i3 i4
      have e : objs (i + 1) = { (objs i).beginStep (armState arm (fb i)).1 (armState arm (fb i)).2 with
            currentY := (armState arm (out i)).1, currentYd := (armState arm (out i)).2 } := by
        show ((CartesianDMP.step none pf qf (armState arm (fb i)).1 (armState arm (fb i)).2).exec (objs i)).2 = _
        rw [h1]
      have j1 : (objs (i + 1)).posArgs none = p.posArgs none := by rw [e]; exact i1
      have j2 : (objs (i + 1)).rotArgs none = p.rotArgs none := by rw [e]; exact i2
      have j3 : (objs (i + 1)).t = s.t + ((i + 1 : ℕ) : ℝ) * s.dt := by
        rw [e]
        show (objs i).t + (objs i).dt = _
        rw [i3, i4]; push_cast; ring
      have j4 : (objs (i + 1)).dt = s.dt := by rw [e]; exact i4
      refine ⟨⟨j1, j2, j3, j4⟩, ?_⟩
      have h2 := hone (i + 1) (objs (i + 1)) j1 j2 j3 j4
      show _ = ((Except.ok (armState arm (out (i + 1))) : Except PyErr (Vec (3 + 4) × Vec (3 + 3))),
        ((CartesianDMP.step none pf qf (armState arm (fb (i + 1))).1 (armState arm (fb (i + 1))).2).exec (objs (i + 1))).2)
      rw [h2]
  exact ⟨objs, rfl, fun i => (hinv i).2⟩

/-- **C112 (`step`).** Let `p` be a Cartesian DMP with the parameters of one arm of a dual-arm DMP `s`, both at the same time. Calls of
`step` of `s` without coupling term return for this arm exactly what calls of `step` of `p` with the same states return, for Euler
integration and the same quaternion functions, if either `p_gain = 0`, or `s` has not been executed yet and every call gets the poses
that the previous call returned, the first call the start poses. With smooth scaling this needs equal entries of `beta_y` for
the right arm (C37). -/
theorem C112_step {s : DualCartesianDMP m} {arm : Fin 2} {p : CartesianDMP m} (hs : TimedDual s) (hp : TimedCartesian p)
    (h : ArmOf s arm p) (hβ : s.smooth = true → arm = 1 → UniformRightGains s.betaY) (hint : 0 < s.intDt) (hdt : 0 < s.dt)
    (ht : 0 ≤ s.t) (ht' : p.t = s.t) {pf : StepFunction} (hpf : pf = .euler ∨ pf = .eulerCython) {sf : DualStepFunction}
    {qf : QuatStepFunction} (hqf : SameQuaternions sf qf) {ops : QuatOps} {obj : ℕ → DualCartesianDMP m}
    {fb out : ℕ → Vec 14 × Vec 12} (h0 : obj 0 = s) (hrun : Run (DualCartesianDMP.step ops none sf) obj fb out)
    (hfree : s.pGain = 0 ∨ (s.initialized = false ∧ LawfulDualStep sf ∧ (∃ eps > 0, LawfulQuatOps ops eps) ∧
      (∀ arm, UnitQuat (armOrientation arm s.startY)) ∧ (fb 0).1 = s.startY ∧ ∀ i, (fb (i + 1)).1 = (out i).1)) :
    ∃ objs, objs 0 = p ∧
      Run (CartesianDMP.step none pf qf) objs (fun i => armState arm (fb i)) (fun i => armState arm (out i)) := by
  exact h.steps (by rw [h.executionTime]; exact hs.made) hp.made hp.positive hβ hint hdt ht ht' hpf hqf h0 hrun hfree

/-- All rows of `open_loop`. -/
theorem Spec.ArmOf.openLoop {s : DualCartesianDMP m} {arm : Fin 2} {p : CartesianDMP m} (h : ArmOf s arm p)
    (hs : s.ft.Made p.executionTime) (hp : p.ftPos.Made p.executionTime ∧ p.ftRot.Made p.executionTime)
    (hτ : 0 < p.executionTime) (hβ : s.smooth = true → arm = 1 → UniformRightGains s.betaY) (hint : 0 < s.intDt) (hdt : 0 < s.dt)
    (hgain : s.pGain = 0) (hrest : armVelocity arm s.startYd = 0) (ops : QuatOps) {runT : Option ℝ} (hR : ∀ r, runT = some r → 0 ≤ r)
    {name : String} (hname : name = "euler" ∨ name = "euler-cython") {qname : String} (hq : qname = "python" ∨ qname = "cython") :
    ∃ T P, ((DualCartesianDMP.openLoop ops runT none qname).exec s).1 = .ok (T, P) ∧
      ((CartesianDMP.openLoop ops runT none name qname).exec p).1 = .ok (T, P.map (armPose arm)) := by
  obtain ⟨pf, hl, hpf⟩ : ∃ pf, StepFunction.lookup name = .ok pf ∧ (pf = .euler ∨ pf = .eulerCython) := by
    rcases hname with rfl | rfl
    · exact ⟨.euler, rfl, .inl rfl⟩
    · exact ⟨.eulerCython, rfl, .inr rfl⟩
  obtain ⟨sf, qf, hls, hlq, hqf⟩ : ∃ sf qf, DualStepFunction.lookup ops qname = .ok sf ∧
      QuatStepFunction.lookup ops qname = .ok qf ∧ SameQuaternions sf qf := by
    rcases hq with rfl | rfl
    · exact ⟨.python ops, .python ops, rfl, rfl, rfl⟩
    · exact ⟨.cython, .cython, rfl, rfl, trivial⟩
  have hstab : Spec.Stable pf p.dt p.intDt p.executionTime 0 0 := by
    have hi : 0 < p.intDt := by rw [h.intDt]; exact hint
    rcases hpf with rfl | rfl
    · exact .euler (.inl rfl) hi (by have : 0 < p.executionTime ^ 2 := by positivity
                                     simp)
    · exact .euler (.inr rfl) hi (by have : 0 < p.executionTime ^ 2 := by positivity
                                     simp)
  obtain ⟨ps, xs, hp0, hx0, hps, hxs, hcart⟩ := CartesianDMP.openLoop_rows hl hlq (by rw [h.dt]; exact hdt) hτ
    (by rw [h.intDt]; exact hint) hstab
  refine ⟨_, _, DualCartesianDMP.openLoop_free s hgain hint hdt ops runT none hls, ?_⟩
  have hR' : 0 ≤ runT.getD p.executionTime := by
    cases runT with
    | none => exact hτ.le
    | some r => exact hR r rfl
  set F := intResult s.intDt ((s.stepArgs none 0).bodyFree sf.ops) with hF
  set ys : ℕ → Vec 14 × Vec 12 := iterates F 0 s.dt (s.startY, s.startYd) with hys
  have hruns : ∀ i : ℕ, sf.run (s.stepArgs none 0) (0 + i * s.dt) (0 + (i + 1) * s.dt) (ys i) = .ok (ys (i + 1)) := by
    intro i
    have hi0 : (0 : ℝ) ≤ i * s.dt := by positivity
    rw [DualCartesianDMP.run_eq s none sf 0 (fun dt => DualStepArgs.correction_pGain _ _ _ (.inl hgain)) (by linarith)]
    have := (s.composes hint none sf).ok (0 + i * s.dt) (0 + (i + 1) * s.dt) (ys i) (by linarith) (by linarith)
    rw [this]
    show _ = Except.ok (F (0 + i * s.dt) (0 + (i + 1 : ℕ) * s.dt) (ys i))
    push_cast
    rfl
  have hrows : ∀ i : ℕ, ps i = (armPos arm (ys i).1, armLin arm (ys i).2) ∧ xs i = (armRot arm (ys i).1, armAng arm (ys i).2) := by
    have hr1 : armLin arm s.startYd = 0 := by
      have := congrArg (sliceTo (p := 3) (q := 3)) hrest
      rw [armVelocity_eq, sliceTo_hstack] at this
      rw [this]; rfl
    have hr2 : armAng arm s.startYd = 0 := by
      have := congrArg (sliceFrom (p := 3) (q := 3)) hrest
      rw [armVelocity_eq, sliceFrom_hstack] at this
      rw [this]; rfl
    intro i
    induction i with
    | zero =>
      rw [hp0, hx0, h.startY, armPose_eq, sliceTo_hstack, sliceFrom_hstack]
      show _ = (armPos arm s.startY, armLin arm s.startYd) ∧ _ = (armRot arm s.startY, armAng arm s.startYd)
      rw [hr1, hr2]
      exact ⟨rfl, rfl⟩
    | succ i ih =>
      have hpos : (0 : ℝ) < 0 + (i + 1) * s.dt := by positivity
      obtain ⟨k1, k2⟩ := h.run hs hp hτ hβ hint hpf hqf (.inl hgain) (by nlinarith) hpos (hruns i) (p.posOpenLoopArgs none)
        (p.rotOpenLoopArgs none) rfl rfl
      have h1 := hps i
      have h2 := hxs i
      rw [h.dt, ih.1, k1] at h1
      rw [h.dt, ih.2, k2] at h2
      exact ⟨(Except.ok.inj h1).symm, (Except.ok.inj h2).symm⟩
  have hlen : arangeLen 0 (runT.getD p.executionTime + p.dt) p.dt = loopCount 0 (runT.getD s.executionTime) s.dt + 1 := by
    rw [h.dt, h.executionTime] at *
    unfold arangeLen loopCount
    rw [sub_zero, sub_zero, add_div, div_self hdt.ne', Nat.ceil_add_one (by positivity)]
  rw [hcart, hlen, if_neg (by omega)]
  simp only [List.map_map]
  congr 2
  · rw [h.dt]; rfl
  · refine List.map_congr_left fun i _ => ?_
    simp only [Function.comp]
    rw [(hrows i).1, (hrows i).2, armPose_eq]

/-- **C112 (`open_loop`).** A dual-arm DMP without coupling term, with `p_gain = 0` and an arm that starts at rest: `open_loop` returns
the times and for this arm the poses that `open_loop` of a Cartesian DMP with the parameters of the arm returns, for Euler
integration and the corresponding quaternion step function. -/
theorem C112_open_loop {s : DualCartesianDMP m} {arm : Fin 2} {p : CartesianDMP m} (hs : TimedDual s) (hp : TimedCartesian p)
    (h : ArmOf s arm p) (hβ : s.smooth = true → arm = 1 → UniformRightGains s.betaY) (hint : 0 < s.intDt) (hdt : 0 < s.dt)
    (hgain : s.pGain = 0) (hrest : armVelocity arm s.startYd = 0) (ops : QuatOps) {runT : Option ℝ} (hR : ∀ r, runT = some r → 0 ≤ r)
    {name : String} (hname : name = "euler" ∨ name = "euler-cython") {qname : String} (hq : qname = "python" ∨ qname = "cython") :
    ∃ T P, ((DualCartesianDMP.openLoop ops runT none qname).exec s).1 = .ok (T, P) ∧
      ((CartesianDMP.openLoop ops runT none name qname).exec p).1 = .ok (T, P.map (armPose arm)) := by
  exact h.openLoop (by rw [h.executionTime]; exact hs.made) hp.made hp.positive hβ hint hdt hgain hrest ops hR hname hq

/-- There is a Cartesian DMP with the parameters of each arm of every dual-arm DMP. -/
theorem Spec.TimedDual.exists_arm {s : DualCartesianDMP m} (hs : TimedDual s) (arm : Fin 2) :
    ∃ p : CartesianDMP m, TimedCartesian p ∧ ArmOf s arm p ∧ p.t = 0 := by
  obtain ⟨ft, h1, -⟩ := hs.made
  have h2 := (DMP.initForcingTerm_isOk_iff (d := 12) (m := m) s.executionTime).1 ⟨ft, h1⟩
  obtain ⟨p, hp, e1, e2, e3, e4, e5, e6, e7, e8, e9, e10, e11⟩ := CartesianDMP.exists_timed h2.1 h2.2 s.dt s.intDt s.smooth
    (armVelocity arm s.alphaY) (armVelocity arm s.betaY) (armPose arm s.startY) (armPose arm s.goalY)
    (fun k i => armLinear arm (fun j => s.ft.weights j i) k) (fun k i => armAngular arm (fun j => s.ft.weights j i) k)
  exact ⟨p, hp, ⟨e1, e2, e3, e4, e5, e6, e7, e8, fun k i => by rw [e9], fun k i => by rw [e10]⟩, e11⟩

/-- Hypotheses of C112 are met by the right arm of a new dual-arm DMP. -/
example {m : ℕ} (hm : 2 ≤ m) : ∃ (s : DualCartesianDMP m) (p : CartesianDMP m), TimedDual s ∧ TimedCartesian p ∧ ArmOf s 1 p ∧
    UniformRightGains s.betaY ∧ s.smooth = true ∧ 0 < s.intDt ∧ 0 < s.dt ∧ s.t = 0 ∧ p.t = 0 ∧ s.pGain = 0 ∧
    armVelocity 1 s.startYd = 0 := by
  obtain ⟨s, h0, h1, h2, e1, e2, h3, h4, -, h5, -, h6⟩ := DualCartesianDMP.create_ok m hm (τ := 1) one_pos (1 / 100) (1 / 1000) 0 true
    25 (25 / 4)
  obtain ⟨p, hp, harm, hpt⟩ := (TimedDual.create h0).exists_arm 1
  refine ⟨s, p, .create h0, hp, harm, ?_, h4, by rw [e2]; norm_num, by rw [e1]; norm_num, by rw [h1]; rfl, hpt, h3, ?_⟩
  · rw [h5]; exact ⟨rfl, rfl, rfl⟩
  · rw [h1]; funext k; fin_cases k <;> rfl

/-- **C108 (`DualCartesianDMP`, `open_loop`).** Let `y arm` and `q arm` be twice continuously differentiable movements of the
positions and orientations of both arms that start at rest, with orientations less than half a turn away from the goal orientation.
For all gains and every `ε > 0`: every dual-arm DMP with enough weights has weights with which the poses returned by `open_loop`
with `p_gain = 0`, for both step functions with sufficiently small steps, follow the movements until time `τ`, up to `ε` (positions)
and `ε` plus an error that is proportional to the threshold below which the quaternion logarithm is 0 (orientations). -/
theorem C108_dual_open_loop {τ : ℝ} (hτ : 0 < τ) {y v a : Fin 2 → ℝ → Vec 3}
    (h : ∀ arm, TwiceDifferentiable τ (y arm) (v arm) (a arm)) {q : Fin 2 → ℝ → Vec 4} {w acc : Fin 2 → ℝ → Vec 3}
    (hq : ∀ arm, OrientationMovement 0 τ (q arm) (w arm) (acc arm)) (hrest : ∀ arm, v arm 0 = 0 ∧ w arm 0 = 0) (α β : Vec 12)
    {smooth : Bool} (hβ : smooth = true → UniformRightGains β) (goal : Vec 14) (hg : ∀ arm, UnitQuat (armOrientation arm goal))
    (hang : ∀ arm, ∀ t ∈ Icc 0 τ, rotationAngle (armOrientation arm goal) (q arm t) < Real.pi) :
    ∃ C, ∀ ε > 0, ∃ N, ∀ m : ℕ, N ≤ m → ∃ W : Fin 12 → Fin m → ℝ, ∀ s : DualCartesianDMP m, TimedDual s →
      s.executionTime = τ → s.alphaY = α → s.betaY = β → s.smooth = smooth → s.goalY = goal → s.pGain = 0 → s.startYd = 0 →
      (∀ arm, armPosition arm s.startY = y arm 0 ∧ armOrientation arm s.startY = q arm 0) → s.ft.weights = W →
      ∃ h > 0, ∀ (ops : QuatOps) (name : String) (sf : DualStepFunction) (dt intDt eps : ℝ),
        DualStepFunction.lookup ops name = .ok sf → DualThreshold sf eps → 0 < dt → 0 < intDt → min intDt dt ≤ h →
        ∀ runT, (∀ r, runT = some r → 0 ≤ r) → ∃ T P,
        ((DualCartesianDMP.openLoop ops runT none name).exec { s with dt := dt, intDt := intDt }).1 = .ok (T, P) ∧
          T.length = P.length ∧
          ∀ i (hT : i < T.length) (hP : i < P.length), T[i] ≤ τ → ∀ arm,
            (∀ k, |armPosition arm P[i] k - y arm T[i] k| < ε) ∧
            rotationAngle (armOrientation arm P[i]) (q arm T[i]) < ε + C * eps ∧
            ∀ k, |armOrientation arm P[i] k - q arm T[i] k| < ε + C * eps := by
  choose C hC using fun arm => C108_orientation_open_loop hτ (hq arm) (hrest arm).2 (armAngular arm α) (armAngular arm β) smooth
    (hg arm) (hang arm)
  refine ⟨|C 0| + |C 1|, fun ε hε => ?_⟩
  have hCle : ∀ arm, C arm ≤ |C 0| + |C 1| := by
    intro arm
    fin_cases arm
    · exact (le_abs_self _).trans (le_add_of_nonneg_right (abs_nonneg _))
    · exact (le_abs_self _).trans (le_add_of_nonneg_left (abs_nonneg _))
  choose N hN using fun arm => hC arm ε hε
  choose N' hN' using fun arm => C108_cartesian_positions hτ (h arm) (hrest arm).1 (armLinear arm α) (armLinear arm β)
    (armPosition arm goal) smooth hε
  refine ⟨max (max (N 0) (N 1)) (max (N' 0) (N' 1)), fun m hm => ?_⟩
  have hmN : ∀ arm, N arm ≤ m := by
    intro arm
    fin_cases arm
    · exact (le_max_left _ _).trans ((le_max_left _ _).trans hm)
    · exact (le_max_right _ _).trans ((le_max_left _ _).trans hm)
  have hmN' : ∀ arm, N' arm ≤ m := by
    intro arm
    fin_cases arm
    · exact (le_max_left _ _).trans ((le_max_right _ _).trans hm)
    · exact (le_max_right _ _).trans ((le_max_right _ _).trans hm)
  choose Wr Hr hHr0 hr using fun arm => hN arm m (hmN arm)
  choose Wp hp using fun arm => hN' arm m (hmN' arm)
  refine ⟨fun j i => joinVel (fun arm k => Wp arm k i) (fun arm k => Wr arm k i) j, ?_⟩
  intro s hs hsτ hsα hsβ hsm hsg hsp hsv hs0 hsW
  choose p hpT harm _ using fun arm => hs.exists_arm arm
  have hap : ∀ arm x, position (armPose arm x) = armPosition arm x := by
    intro arm x; rw [armPose_eq, position_eq, sliceTo_hstack, armPosition_eq]
  have har : ∀ arm x, orientation (armPose arm x) = armOrientation arm x := by
    intro arm x; rw [armPose_eq, orientation_eq, sliceFrom_hstack, armOrientation_eq]
  have hal : ∀ arm x, linear (armVelocity arm x) = armLinear arm x := by
    intro arm x; rw [armVelocity_eq, linear_eq, sliceTo_hstack, armLinear_eq]
  have haa : ∀ arm x, angular (armVelocity arm x) = armAngular arm x := by
    intro arm x; rw [armVelocity_eq, angular_eq, sliceFrom_hstack, armAngular_eq]
  have hrot := fun arm => hr arm (p arm) (hpT arm) ((harm arm).executionTime.trans hsτ) (by rw [(harm arm).alphaY, haa, hsα])
    (by rw [(harm arm).betaY, haa, hsβ]) (by rw [(harm arm).goalY, har, hsg]) (by rw [(harm arm).startY, har, (hs0 arm).2])
    ((harm arm).smooth.trans hsm) (by
      funext k i
      rw [(harm arm).orientationWeights, hsW, armAngular_eq, armAng_joinVel])
  choose Hp hHp0 hpos using fun arm => hp arm (p arm) (hpT arm) ((harm arm).executionTime.trans hsτ)
    (by rw [(harm arm).alphaY, hal, hsα])
    (by rw [(harm arm).betaY, hal, hsβ]) (by rw [(harm arm).goalY, hap, hsg]) (by rw [(harm arm).startY, hap, (hs0 arm).1])
    ((harm arm).smooth.trans hsm) (by
      funext k i
      rw [(harm arm).positionWeights, hsW, armLinear_eq, armLin_joinVel])
  refine ⟨min (min (Hr 0) (Hr 1)) (min (Hp 0) (Hp 1)), lt_min (lt_min (hHr0 0) (hHr0 1)) (lt_min (hHp0 0) (hHp0 1)), ?_⟩
  intro ops name sf dt intDt eps hname hsf hdt hint hle runT hR
  have hle1 : ∀ arm, min intDt dt ≤ Hr arm := by
    intro arm
    fin_cases arm
    · exact hle.trans ((min_le_left _ _).trans (min_le_left _ _))
    · exact hle.trans ((min_le_left _ _).trans (min_le_right _ _))
  have hle2 : ∀ arm, min intDt dt ≤ Hp arm := by
    intro arm
    fin_cases arm
    · exact hle.trans ((min_le_right _ _).trans (min_le_left _ _))
    · exact hle.trans ((min_le_right _ _).trans (min_le_right _ _))
  have hnames : name = "python" ∨ name = "cython" := by
    unfold DualStepFunction.lookup at hname
    split_ifs at hname with h1 h2
    · exact .inl h1
    · exact .inr h2
  obtain ⟨qf, hqname, hqf⟩ : ∃ qf, QuatStepFunction.lookup ops name = .ok qf ∧ StepThreshold qf eps := by
    rcases hnames with rfl | rfl
    · cases hname; exact ⟨_, rfl, hsf⟩
    · cases hname; exact ⟨_, rfl, hsf⟩
  have hol := fun arm => Spec.ArmOf.openLoop (s := { s with dt := dt, intDt := intDt })
    (p := { p arm with dt := dt, intDt := intDt }) (arm := arm)
    ⟨(harm arm).executionTime, rfl, rfl, (harm arm).smooth, (harm arm).alphaY, (harm arm).betaY, (harm arm).startY, (harm arm).goalY,
      (harm arm).positionWeights, (harm arm).orientationWeights⟩
    (by show s.ft.Made (p arm).executionTime; rw [(harm arm).executionTime]; exact hs.made) (hpT arm).made (hpT arm).positive
    (fun hsm' _ => by show UniformRightGains s.betaY; rw [hsβ]; exact hβ (hsm.symm.trans hsm')) hint hdt hsp
    (by show armVelocity arm s.startYd = 0
        rw [hsv]; funext k; fin_cases arm <;> fin_cases k <;> rfl) ops hR (name := "euler") (.inl rfl) hnames
  obtain ⟨T, P, hTP, -⟩ := hol 0
  have hcart : ∀ arm, ((CartesianDMP.openLoop ops runT none "euler" name).exec { p arm with dt := dt, intDt := intDt }).1 =
      .ok (T, P.map (armPose arm)) := by
    intro arm
    obtain ⟨T', P', h1, h2⟩ := hol arm
    rw [h1] at hTP
    obtain ⟨rfl, rfl⟩ := Prod.mk.inj (Except.ok.inj hTP)
    exact h2
  have hlen : T.length = P.length := by
    have h1 := DualCartesianDMP.openLoop_free { s with dt := dt, intDt := intDt } hsp hint hdt ops runT none hname
    rw [hTP] at h1
    have h2 := Except.ok.inj h1
    rw [show T = _ from congrArg Prod.fst h2, show P = _ from congrArg Prod.snd h2]
    simp [sampled]
  refine ⟨T, P, hTP, hlen, ?_⟩
  intro i hT hP hi arm
  have k1 := (hrot arm "euler" .euler dt intDt rfl hdt hint (hle1 arm) ops name qf eps hqname hqf).2 runT T _ (hcart arm) i hT
    (by simpa using hP) hi
  have k2 := (hpos arm "euler" .euler dt intDt rfl hdt hint (hle2 arm) ops name qf hqname).2 runT T _ (hcart arm) i hT
    (by simpa using hP) hi
  simp only [List.getElem_map, har, hap] at k1 k2
  have heps : 0 < eps := (stepThreshold_lawful hqf).1
  have hmono : ε + C arm * eps ≤ ε + (|C 0| + |C 1|) * eps := by
    have := mul_le_mul_of_nonneg_right (hCle arm) heps.le
    linarith
  exact ⟨k2, k1.1.trans_le hmono, fun k => (k1.2 k).trans_le hmono⟩

end Verif
