import Verif.Props.OrientationReproduction
import Verif.Props.OrientationDual
import Verif.Props.DualReproduction

/-! # Orientations of dual-arm DMPs: C109 for `DualCartesianDMP` -/

namespace Verif
open Spec Quaternion Set

variable {m n : ℕ}

/-- The orientation of an arm moves like a rotational DMP if it is not corrected. -/
theorem run_arm_rotation {a : DualStepArgs m} {sf : DualStepFunction} (hc : a.coupling = none) (arm : Fin 2)
    (hcor : ∀ dt, armAng arm (a.correction sf.ops dt) = 0) (hT : a.startT < a.goalT)
    (hint : 0 < a.intDt) {lastT t : ℝ} (ht : a.startT < t) {x x' : Vec 14 × Vec 12}
    (h : sf.run a lastT t x = .ok x') :
    (QuatStepFunction.python sf.ops).run (armRotDmp a arm) lastT t (armRot arm x.1, armAng arm x.2) =
      .ok (armRot arm x'.1, armAng arm x'.2) := by
  rw [QuatStepFunction.run_eq (a := armRotDmp a arm) rfl rfl hT hint ht]
  congr 1
  cases sf with
  | python ops =>
    simp only [DualStepFunction.run, DualStepArgs.stepPy] at h
    rw [if_neg (not_le.2 ht), intLoop_eq _ hint] at h
    simp only [Except.map, Except.ok.injEq] at h
    have key : ∀ (L : List (ℝ × ℝ)) (s : Vec 14 × Vec 12) (c : Vec 12), armAng arm c = 0 →
        (armRot arm (L.foldl (fun s p => a.bodyPy ops p.1 p.2 s) (s, (0, c))).1.1,
          armAng arm (L.foldl (fun s p => a.bodyPy ops p.1 p.2 s) (s, (0, c))).1.2) =
          L.foldl (fun s q => (armRotDmp a arm).update ops 0 0 q.1 q.2 s) (armRot arm s.1, armAng arm s.2) := by
      intro L
      induction L with
      | nil => intro s c _; rfl
      | cons q L ih =>
        intro s c hc0
        have hb : a.bodyPy ops q.1 q.2 (s, (0, c)) =
            (a.update ops 0 (c + a.correction ops q.1) q.1 q.2 s, (0, c + a.correction ops q.1)) := by
          unfold DualStepArgs.bodyPy
          simp only [hc]
        have hc1 : armAng arm (c + a.correction ops q.1) = 0 := by
          show armAng arm c + armAng arm (a.correction ops q.1) = 0
          have := hcor q.1
          rw [show DualStepFunction.ops (.python ops) = ops from rfl] at this
          rw [hc0, this, add_zero]
        rw [List.foldl_cons, List.foldl_cons, hb, ih _ _ hc1, a.update_rot, hc1]
        rfl
    rw [← h]
    exact (key _ x 0 rfl).symm
  | cython =>
    simp only [DualStepFunction.run, DualStepArgs.stepCy] at h
    rw [if_neg (not_le.2 ht), intLoop_eq _ hint] at h
    simp only [Except.ok.injEq] at h
    have key : ∀ (L : List (ℝ × ℝ)) (s : Vec 14 × Vec 12),
        (armRot arm (L.foldl (fun s p => a.bodyCy p.1 p.2 s) s).1, armAng arm (L.foldl (fun s p => a.bodyCy p.1 p.2 s) s).2) =
          L.foldl (fun s q => (armRotDmp a arm).update QuatOps.cython 0 0 q.1 q.2 s) (armRot arm s.1, armAng arm s.2) := by
      intro L
      induction L with
      | nil => intro s; rfl
      | cons q L ih =>
        intro s
        have hb : a.bodyCy q.1 q.2 s = a.update QuatOps.cython 0 (a.correction QuatOps.cython q.1) q.1 q.2 s := by
          unfold DualStepArgs.bodyCy
          simp only [hc, zero_add]
        have := hcor q.1
        rw [show DualStepFunction.ops .cython = QuatOps.cython from rfl] at this
        rw [List.foldl_cons, List.foldl_cons, hb, ih, a.update_rot, this]
        rfl
    rw [← h]
    exact (key _ x).symm

/-- Forcing terms that were made for the same execution time evaluate alike. -/
theorem ForcingTerm.Made.call_eq {ft : ForcingTerm 12 m} {τ : ℝ} (h : ft.Made τ) {ft3 : ForcingTerm 3 m}
    (h3 : DMP.initForcingTerm 3 m τ = .ok ft3) :
    (∀ (W : Fin 3 → Fin m → ℝ) t k, ({ ft with weights := W } : ForcingTerm 3 m).call t k =
      ({ ft3 with weights := W } : ForcingTerm 3 m).call t k) ∧
    (∀ t, ft.phaseAt t = phaseOf τ t) ∧ ft.alphaZ = -Real.log (1 / 100) := by
  obtain ⟨ft0, h0, f1, f2, f3, f4, f5⟩ := h
  rw [DMP.initForcingTerm_ok_iff] at h0 h3
  obtain ⟨-, -, -, rfl⟩ := create_ok h0
  obtain ⟨-, -, -, rfl⟩ := create_ok h3
  refine ⟨fun W t k => ?_, fun t => ?_, f3⟩
  · simp only [ForcingTerm.call, ForcingTerm.force, ForcingTerm.activations, ForcingTerm.rbf, ForcingTerm.phaseAt, f1, f2, f3, f4,
      f5]
  · simp only [ForcingTerm.phaseAt, f1, f2, f3, phase, phaseOf, sub_zero, mul_div_assoc]

/-- A rotation by the inverse of an orientation is no rotation. -/
theorem log_self {ops ops' : QuatOps} {eps eps' : ℝ} (h : LawfulQuatOps ops eps) (h' : LawfulQuatOps ops' eps') (heps' : 0 < eps')
    {u : Vec 4} (hu : UnitQuat u) : ops'.log (ops.mul u (ops.conj u)) = 0 := by
  have hc := LawfulQuatOps.unit_conj h hu
  have h1 : quat (ops.mul u (ops.conj u)) = 1 := by
    rw [h.mul _ _ hu hc, h.conj _ hu]
    rw [Quaternion.self_mul_star, (isUnit_iff_normSq u).1 hu]
    rfl
  apply h'.log_small _ (LawfulQuatOps.unit_mul h hu hc)
  have e1 := congrArg QuaternionAlgebra.imI h1
  have e2 := congrArg QuaternionAlgebra.imJ h1
  have e3 := congrArg QuaternionAlgebra.imK h1
  simp [quat] at e1 e2 e3
  rw [e1, e2, e3]
  simpa using heps'

/-- Steps after `imitate`. -/
theorem dual_learned_orientation {τ : ℝ} (hτ : 0 < τ) {q : Fin 2 → ℝ → Vec 4} {w acc : Fin 2 → ℝ → Vec 3}
    (h : ∀ arm, OrientationMovement 0 τ (q arm) (w arm) (acc arm)) {afv : Bool} (hend : afv = true ∨ ∀ arm, w arm τ = 0)
    (α β : Vec 12) (smooth : Bool) (hang : ∀ arm, ∀ t ∈ Icc 0 τ, rotationAngle (q arm τ) (q arm t) < Real.pi) {reg : ℝ}
    (hreg : 0 ≤ reg) :
    ∃ C > 0, ∀ ε > 0, ∃ N, ∀ m : ℕ, N ≤ m → ∃ n0, ∀ n : ℕ, n0 ≤ n → ∀ s : DualCartesianDMP m, TimedDual s →
      s.executionTime = τ → s.alphaY = α → s.betaY = β → s.smooth = smooth →
      ∀ (ops : QuatOps) (eps : ℝ), LawfulQuatOps ops eps → 0 < eps → ∀ Y : Fin (n + 2) → Vec 14,
      (∀ arm i, armOrientation arm (Y i) = q arm (linspaceTimes τ n i)) →
      ∃ W, (DualCartesianDMP.imitate ops (quaternionGradient ops) (linspaceTimes τ n) Y reg afv).exec s =
        (.ok (), { s with startY := Y 0, goalY := Y (Fin.last _), ft := { s.ft with weights := W } }) ∧
      ∃ H > 0, ∀ dt intDt : ℝ, 0 < dt → 0 < intDt → min intDt dt ≤ H →
        ∀ (sf : DualStepFunction) (eps' : ℝ), DualThreshold sf eps' → ∀ (xs : ℕ → Vec 14 × Vec 12) (e : ℕ → Vec 14) (arm : Fin 2),
        (armRot arm (xs 0).1, armAng arm (xs 0).2) = (q arm 0, w arm 0) →
        (∀ i : ℕ, ∃ r, sf.run (({ s with startY := Y 0, goalY := Y (Fin.last _), ft := { s.ft with weights := W }
                                         dt := dt, intDt := intDt } : DualCartesianDMP m).stepArgs none (e i))
          (0 + i * dt) (0 + (i + 1) * dt) (xs i) = .ok r ∧
          (armRot arm (xs (i + 1)).1, armAng arm (xs (i + 1)).2) = (armRot arm r.1, armAng arm r.2)) →
        (∀ i, s.pGain = 0 ∨ sf.ops.log (armRot arm (e i)) = 0) →
        ∀ i : ℕ, i * dt ≤ τ →
          rotationAngle (armRot arm (xs i).1) (q arm (i * dt)) < ε + C * ((n + 1) ^ 2 * eps + eps') ∧
          (∀ k, |armRot arm (xs i).1 k - q arm (i * dt) k| < ε + C * ((n + 1) ^ 2 * eps + eps')) ∧
          ∀ k, |armAng arm (xs i).2 k - w arm (i * dt) k| < ε + C * ((n + 1) ^ 2 * eps + eps') := by
  choose C hC0 hC using fun arm => learned_orientation hτ (h arm) (hend.imp_right fun h => h arm) (armAngular arm α)
    (armAngular arm β) smooth (hang arm) hreg
  have hCle : ∀ arm, C arm ≤ C 0 + C 1 := by
    intro arm
    fin_cases arm
    · simpa using (hC0 1).le
    · simpa using (hC0 0).le
  refine ⟨C 0 + C 1, add_pos (hC0 0) (hC0 1), fun ε hε => ?_⟩
  choose N hN using fun arm => hC arm ε hε
  refine ⟨max 2 (max (N 0) (N 1)), fun m hm => ?_⟩
  have hm2 : 2 ≤ m := (le_max_left _ _).trans hm
  have hmN : ∀ arm, N arm ≤ m := by
    have h0 := (le_max_right 2 (max (N 0) (N 1))).trans hm
    intro arm
    fin_cases arm
    · exact (le_max_left _ _).trans h0
    · exact (le_max_right _ _).trans h0
  obtain ⟨ft, hft⟩ := (DMP.initForcingTerm_isOk_iff (d := 3) (m := m) τ).2 ⟨hm2, hτ⟩
  choose n0 hn0 using fun arm => hN arm m (hmN arm) ft hft
  refine ⟨max (n0 0) (n0 1), fun n hn s hs hsτ hsα hsβ hsm ops eps hops heps Y hY => ?_⟩
  have hnN : ∀ arm, n0 arm ≤ n := by
    intro arm
    fin_cases arm
    · exact (le_max_left _ _).trans hn
    · exact (le_max_right _ _).trans hn
  have hTlast : linspaceTimes τ n (Fin.last (n + 1)) = τ := by
    simp only [linspaceTimes, Fin.val_last]; push_cast; field_simp
  have hT0 : linspaceTimes τ n 0 = 0 := by simp [linspaceTimes]
  obtain ⟨W, hs', hW⟩ := C28_dual_imitate hs.reachable ops (quaternionGradient ops) (linspaceTimes τ n) Y hreg
    (by rw [hT0, hTlast]; exact hτ) afv
  obtain ⟨hcall, hphase, hαz⟩ := hs.made.call_eq (ft3 := ft) (by rw [hsτ]; exact hft)
  have key : ∀ arm, ∃ H > 0, ∀ args : QuatStepArgs m,
      FollowArgs args (q arm τ) (q arm 0) (armAngular arm α) (armAngular arm β) τ τ smooth (phaseOf τ) →
      (∀ t k, args.ft.call t k = ({ ft with weights := orientationWeights arm W } : ForcingTerm 3 m).call t k) →
      ∀ (qf : QuatStepFunction) (eps' dt : ℝ), StepThreshold qf eps' → 0 < dt → 0 < args.intDt →
      min args.intDt dt ≤ H → ∀ xs : ℕ → Vec 4 × Vec 3, xs 0 = (q arm 0, w arm 0) →
      (∀ i : ℕ, qf.run args (0 + i * dt) (0 + (i + 1) * dt) (xs i) = .ok (xs (i + 1))) → ∀ i : ℕ, i * dt ≤ τ →
      rotationAngle (xs i).1 (q arm (i * dt)) < ε + C arm * ((n + 1) ^ 2 * eps + eps') ∧
      (∀ k, |(xs i).1 k - q arm (i * dt) k| < ε + C arm * ((n + 1) ^ 2 * eps + eps')) ∧
      ∀ k, |(xs i).2 k - w arm (i * dt) k| < ε + C arm * ((n + 1) ^ 2 * eps + eps') := by
    intro arm
    refine hn0 arm n (hnN arm) ops eps hops heps _ (fun V => ?_)
    obtain ⟨-, ftr, hftr, hopt⟩ := hW arm
    have hftr' : ftr = ft := by
      rw [hT0, hTlast, hαz] at hftr
      have h3 := hft
      rw [DMP.initForcingTerm_ok_iff, hftr] at h3
      exact Except.ok.inj h3
    subst hftr'
    have h3 := (hopt V).1
    rw [show (fun t => armOrientation arm (Y t)) = fun i => q arm (linspaceTimes τ n i) from funext (hY arm), hsα, hsβ, hsm,
      hαz] at h3
    exact h3
  choose H hH0 hH using key
  refine ⟨W, hs', min (H 0) (H 1), lt_min (hH0 0) (hH0 1), ?_⟩
  intro dt intDt hdt hint hle sf eps' hsf xs e arm hx0 hrun he i hi
  have hleH : min intDt dt ≤ H arm := by
    fin_cases arm
    · exact hle.trans (min_le_left _ _)
    · exact hle.trans (min_le_right _ _)
  set s' : DualCartesianDMP m := { s with startY := Y 0, goalY := Y (Fin.last _), ft := { s.ft with weights := W }
                                          dt := dt, intDt := intDt } with hs'd
  have hthr := dualThreshold_lawful hsf
  have heps' := (stepThreshold_lawful hthr).1
  have hfollow : FollowArgs (armRotDmp (s'.stepArgs none 0) arm) (q arm τ) (q arm 0) (armAngular arm α) (armAngular arm β) τ τ
      smooth (phaseOf τ) := by
    refine ⟨rfl, rfl, ?_, ?_, ?_, ?_, rfl, hsτ, hsm, fun t _ => ?_⟩
    · show armOrientation arm (Y (Fin.last _)) = _
      rw [hY, hTlast]
    · show armOrientation arm (Y 0) = _
      rw [hY, hT0]
    · show armAngular arm s.alphaY = _
      rw [hsα]
    · show armAngular arm s.betaY = _
      rw [hsβ]
    · rw [← hsτ, ← hs.made.call_eq (by rw [hsτ]; exact hft) |>.2.1 t]
      rfl
  have hres := hH arm (armRotDmp (s'.stepArgs none 0) arm) hfollow (fun t k => hcall (orientationWeights arm W) t k)
    (.python sf.ops) eps' dt hthr hdt hint hleH (fun i => (armRot arm (xs i).1, armAng arm (xs i).2)) hx0 (fun i => by
      obtain ⟨r, hr, hxr⟩ := hrun i
      rw [hxr]
      have hpos : (0 : ℝ) < 0 + (i + 1) * dt := by positivity
      refine run_arm_rotation (a := s'.stepArgs none (e i)) rfl arm (fun dt' => ?_)
        (show (0 : ℝ) < s.executionTime by rw [hsτ]; exact hτ) hint hpos hr
      funext k
      simp only [DualStepArgs.correction, DualCartesianDMP.stepArgs, armAng_joinVel, Pi.zero_apply]
      rcases he i with h | h
      · rw [show s'.pGain = s.pGain from rfl, h]; simp
      · rw [h]; simp) i hi
  have hmono : ε + C arm * (((n : ℝ) + 1) ^ 2 * eps + eps') ≤ ε + (C 0 + C 1) * ((n + 1) ^ 2 * eps + eps') := by
    have : (0 : ℝ) ≤ ((n : ℝ) + 1) ^ 2 * eps + eps' := by positivity
    have := mul_le_mul_of_nonneg_right (hCle arm) this
    linarith
  exact ⟨hres.1.trans_le hmono, fun k => (hres.2.1 k).trans_le hmono, fun k => (hres.2.2 k).trans_le hmono⟩

/-- **C109 (orientations of a `DualCartesianDMP`, `open_loop`).** Let `q 0` and `q 1` be twice continuously differentiable movements
of the orientations of both arms that, unless `allow_final_velocity`, end at rest and always are less than half a turn away from
their final orientations. A dual-arm DMP with `p_gain = 0`, enough weights and the initial angular velocities of the movements that
imitates sufficiently many equidistant samples of them, with any positions, reproduces them: for both step functions and
sufficiently small steps, `open_loop` returns at each time stamp up to `τ` the orientations of the movements up to `ε` plus an error
that is proportional to the thresholds below which the quaternion functions treat a rotation as zero. -/
theorem C109_dual_orientation_open_loop {τ : ℝ} (hτ : 0 < τ) {q : Fin 2 → ℝ → Vec 4} {w acc : Fin 2 → ℝ → Vec 3}
    (h : ∀ arm, OrientationMovement 0 τ (q arm) (w arm) (acc arm)) {afv : Bool} (hend : afv = true ∨ ∀ arm, w arm τ = 0)
    (α β : Vec 12) (smooth : Bool) (hang : ∀ arm, ∀ t ∈ Icc 0 τ, rotationAngle (q arm τ) (q arm t) < Real.pi) {reg : ℝ}
    (hreg : 0 ≤ reg) :
    ∃ C, ∀ ε > 0, ∃ N, ∀ m : ℕ, N ≤ m → ∃ n0, ∀ n : ℕ, n0 ≤ n → ∀ s : DualCartesianDMP m, TimedDual s →
      s.executionTime = τ → s.alphaY = α → s.betaY = β → s.smooth = smooth → s.pGain = 0 →
      (∀ arm, armAngular arm s.startYd = w arm 0) →
      ∀ (ops : QuatOps) (eps : ℝ), LawfulQuatOps ops eps → 0 < eps → ∀ Y : Fin (n + 2) → Vec 14,
      (∀ arm i, armOrientation arm (Y i) = q arm (linspaceTimes τ n i)) →
      ∃ s', (DualCartesianDMP.imitate ops (quaternionGradient ops) (linspaceTimes τ n) Y reg afv).exec s = (.ok (), s') ∧
      ∃ h > 0, ∀ (name : String) (sf : DualStepFunction) (dt intDt eps' : ℝ), DualStepFunction.lookup ops name = .ok sf →
        DualThreshold sf eps' → 0 < dt → 0 < intDt → min intDt dt ≤ h → ∀ runT, ∃ T P,
        ((DualCartesianDMP.openLoop ops runT none name).exec { s' with dt := dt, intDt := intDt }).1 = .ok (T, P) ∧
          T.length = P.length ∧
          ∀ i (hT : i < T.length) (hP : i < P.length), T[i] ≤ τ → ∀ arm,
            rotationAngle (armOrientation arm P[i]) (q arm T[i]) < ε + C * ((n + 1) ^ 2 * eps + eps') ∧
            ∀ k, |armOrientation arm P[i] k - q arm T[i] k| < ε + C * ((n + 1) ^ 2 * eps + eps') := by
  obtain ⟨C, -, hC⟩ := dual_learned_orientation hτ h hend α β smooth hang hreg
  refine ⟨C, fun ε hε => ?_⟩
  obtain ⟨N, hN⟩ := hC ε hε
  refine ⟨N, fun m hm => ?_⟩
  obtain ⟨n0, hn0⟩ := hN m hm
  refine ⟨n0, fun n hn s hs hsτ hsα hsβ hsm hp hv ops eps hops heps Y hY => ?_⟩
  obtain ⟨W, hs', H, hH0, hH⟩ := hn0 n hn s hs hsτ hsα hsβ hsm ops eps hops heps Y hY
  refine ⟨_, hs', H, hH0, fun name sf dt intDt eps' hname hsf hdt hint hstep runT => ?_⟩
  set s' : DualCartesianDMP m := { s with startY := Y 0, goalY := Y (Fin.last _), ft := { s.ft with weights := W }
                                          dt := dt, intDt := intDt } with hs'd
  have hol := DualCartesianDMP.openLoop_free s' hp hint hdt ops runT none hname
  refine ⟨_, _, hol, by simp, ?_⟩
  set F := intResult s'.intDt ((s'.stepArgs none 0).bodyFree sf.ops) with hF
  let xs : ℕ → Vec 14 × Vec 12 := iterates F 0 s'.dt (s'.startY, s'.startYd)
  have hruns : ∀ i : ℕ, sf.run (s'.stepArgs none 0) (0 + i * dt) (0 + (i + 1) * dt) (xs i) = .ok (xs (i + 1)) := by
    intro i
    have hi0 : (0 : ℝ) ≤ i * dt := by positivity
    rw [DualCartesianDMP.run_eq s' none sf 0 (fun dt => DualStepArgs.correction_pGain _ _ _ (.inl hp)) (by linarith)]
    have := (s'.composes hint none sf).ok (0 + i * dt) (0 + (i + 1) * dt) (xs i) (by linarith) (by linarith)
    rw [this]
    show _ = Except.ok (F (0 + i * s'.dt) (0 + (i + 1 : ℕ) * s'.dt) (xs i))
    push_cast
    rfl
  intro i hT hP hi arm
  simp only [List.getElem_map, List.getElem_range, zero_add] at hi ⊢
  have hx0 : (armRot arm (xs 0).1, armAng arm (xs 0).2) = (q arm 0, w arm 0) := by
    rw [← armOrientation_eq, ← armAngular_eq]
    show (armOrientation arm (Y 0), armAngular arm s.startYd) = _
    rw [hY, hv]
    simp [linspaceTimes]
  have h1 := hH dt intDt hdt hint hstep sf eps' hsf xs (fun _ => 0) arm hx0 (fun i => ⟨_, hruns i, rfl⟩)
    (fun _ => .inl hp) i hi
  simp only [armOrientation_eq]
  exact ⟨h1.1, h1.2.1⟩

/-- **C109 (orientations of a `DualCartesianDMP`, `step`).** The same for orientations and angular velocities returned by calls of
`step` with any `p_gain` on an object that has not been executed yet, if each call gets the orientations and angular velocities that
the previous call returned. -/
theorem C109_dual_orientation_step {τ : ℝ} (hτ : 0 < τ) {q : Fin 2 → ℝ → Vec 4} {w acc : Fin 2 → ℝ → Vec 3}
    (h : ∀ arm, OrientationMovement 0 τ (q arm) (w arm) (acc arm)) {afv : Bool} (hend : afv = true ∨ ∀ arm, w arm τ = 0)
    (α β : Vec 12) (smooth : Bool) (hang : ∀ arm, ∀ t ∈ Icc 0 τ, rotationAngle (q arm τ) (q arm t) < Real.pi) {reg : ℝ}
    (hreg : 0 ≤ reg) :
    ∃ C, ∀ ε > 0, ∃ N, ∀ m : ℕ, N ≤ m → ∃ n0, ∀ n : ℕ, n0 ≤ n → ∀ s : DualCartesianDMP m, TimedDual s →
      s.executionTime = τ → s.alphaY = α → s.betaY = β → s.smooth = smooth → s.t = 0 → s.initialized = false →
      ∀ (ops : QuatOps) (eps : ℝ), LawfulQuatOps ops eps → 0 < eps → ∀ Y : Fin (n + 2) → Vec 14,
      (∀ arm i, armOrientation arm (Y i) = q arm (linspaceTimes τ n i)) →
      ∃ s', (DualCartesianDMP.imitate ops (quaternionGradient ops) (linspaceTimes τ n) Y reg afv).exec s = (.ok (), s') ∧
      ∃ h > 0, ∀ (sf : DualStepFunction) (dt intDt eps' : ℝ), DualThreshold sf eps' → 0 < dt → 0 < intDt → min intDt dt ≤ h →
        ∀ (obj : ℕ → DualCartesianDMP m) (fb out : ℕ → Vec 14 × Vec 12), obj 0 = { s' with dt := dt, intDt := intDt } →
          Spec.Run (DualCartesianDMP.step ops none sf) obj fb out →
          (∀ arm, armOrientation arm (fb 0).1 = q arm 0 ∧ armAngular arm (fb 0).2 = w arm 0) →
          (∀ i arm, armOrientation arm (fb (i + 1)).1 = armOrientation arm (out i).1 ∧
            armAngular arm (fb (i + 1)).2 = armAngular arm (out i).2) →
          ∀ i : ℕ, (i + 1) * dt ≤ τ → ∀ arm,
            rotationAngle (armOrientation arm (out i).1) (q arm ((i + 1) * dt)) < ε + C * ((n + 1) ^ 2 * eps + eps') ∧
            ∀ k, |armAngular arm (out i).2 k - w arm ((i + 1) * dt) k| < ε + C * ((n + 1) ^ 2 * eps + eps') := by
  obtain ⟨C, -, hC⟩ := dual_learned_orientation hτ h hend α β smooth hang hreg
  refine ⟨C, fun ε hε => ?_⟩
  obtain ⟨N, hN⟩ := hC ε hε
  refine ⟨N, fun m hm => ?_⟩
  obtain ⟨n0, hn0⟩ := hN m hm
  refine ⟨n0, fun n hn s hs hsτ hsα hsβ hsm ht hini ops eps hops heps Y hY => ?_⟩
  obtain ⟨W, hs', H, hH0, hH⟩ := hn0 n hn s hs hsτ hsα hsβ hsm ops eps hops heps Y hY
  refine ⟨_, hs', H, hH0, fun sf dt intDt eps' hsf hdt hint hstep obj fb out ho hrun hf0 hf i hi arm => ?_⟩
  simp only [armOrientation_eq, armAngular_eq] at hf0 hf hY ⊢
  obtain ⟨heps', hlaw⟩ := stepThreshold_lawful (dualThreshold_lawful hsf)
  have hlaw : LawfulQuatOps sf.ops eps' := hlaw
  have hsf' : LawfulDualStep sf := by
    cases sf with
    | python ops => exact ⟨eps', heps', hlaw⟩
    | cython => trivial
  have hargs := fun j => DualCartesianDMP.run_args ho hrun j
  have hY0 : ∀ arm, armRot arm (Y 0) = q arm 0 := by
    intro arm
    rw [hY]; simp [linspaceTimes]
  have hu0 : ∀ arm, UnitQuat (q arm 0) := fun arm => (h arm).unit 0 ⟨le_rfl, hτ.le⟩
  have hunit : ∀ j arm, UnitQuat (armRot arm (fb j).1) := by
    intro j
    induction j with
    | zero => intro arm; rw [(hf0 arm).1]; exact hu0 arm
    | succ j ih =>
      intro arm
      rw [(hf j arm).1]
      exact DualStepFunction.run_unit hsf' _ (fun arm => by
        show UnitQuat (armRot arm (Y 0))
        rw [hY0]; exact hu0 arm) ih (hargs j).1 arm
  have href : ∀ j arm, armRot arm (obj j).reference = armRot arm (fb j).1 := by
    intro j arm
    cases j with
    | zero =>
      rw [ho, (hf0 arm).1, ← hY0 arm]
      simp only [DualCartesianDMP.reference, hini]
      rfl
    | succ j => rw [(hargs j).2, (hf j arm).1]
  have h1 := hH dt intDt hdt hint hstep sf eps' hsf fb
    (fun j => DualCartesianDMP.trackingError ops (obj j).reference (fb j).1) arm (by rw [(hf0 arm).1, (hf0 arm).2]) (fun j => by
      refine ⟨out j, ?_, ?_⟩
      · have := (hargs j).1
        simp only [ht] at this
        rw [show (0 : ℝ) + (j + 1) * dt = 0 + j * dt + dt by ring]
        exact this
      · rw [(hf j arm).1, (hf j arm).2]) (fun j => by
      right
      simp only [DualCartesianDMP.trackingError, armRot_joinState]
      rw [href]
      exact log_self hops hlaw heps' (hunit j arm)) (i + 1) (by push_cast; exact hi)
  rw [(hf i arm).1, (hf i arm).2] at h1
  push_cast at h1
  exact ⟨h1.1, h1.2.2⟩

/-- Hypotheses of these theorems are met by arms that turn by 1 rad, and by a dual-arm DMP. -/
example {m : ℕ} (hm : 2 ≤ m) : (∃ (q : Fin 2 → ℝ → Vec 4) (w acc : Fin 2 → ℝ → Vec 3),
      (∀ arm, OrientationMovement 0 1 (q arm) (w arm) (acc arm)) ∧ (∀ arm, w arm 0 = 0) ∧ (∀ arm, w arm 1 = 0) ∧
      (∀ arm, ∀ t ∈ Icc 0 1, rotationAngle (q arm 1) (q arm t) < Real.pi) ∧ rotationAngle (q 0 1) (q 0 0) = 1) ∧
    ∃ s : DualCartesianDMP m, TimedDual s ∧ s.executionTime = 1 ∧ s.smooth = true ∧ s.pGain = 0 ∧ s.t = 0 ∧
      s.initialized = false ∧ ∀ arm, armAngular arm s.startYd = 0 := by
  obtain ⟨q, w, acc, h, h0, h1, ha, hr⟩ := exists_orientation_movement
  refine ⟨⟨fun _ => q, fun _ => w, fun _ => acc, fun _ => h, fun _ => h0, fun _ => h1, fun _ => ha, hr⟩, ?_⟩
  obtain ⟨s, h0, h1, h2, -, -, h3, h4, -, h5, -, h6⟩ := DualCartesianDMP.create_ok m hm (τ := 1) one_pos (1 / 100) (1 / 1000) 0 true
    25 (25 / 4)
  refine ⟨s, .create h0, h2, h4, h3, by rw [h1]; rfl, h6, fun arm => ?_⟩
  rw [h1, armAngular_eq]
  rfl

end Verif
