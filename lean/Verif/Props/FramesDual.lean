import Verif.Lemmas.DualSim
import Verif.Props.DualClass
import Verif.Props.PhaseObjects

/-!
# C13, C14, C72, C73 for dual-arm DMPs
-/

namespace Verif
open Spec Quaternion
variable {m : ℕ}

/-! ## Changes of frames -/

theorem mul_conj_turned {ops : QuatOps} {eps : ℝ} (h : LawfulQuatOps ops eps) {r a b : Vec 4} (hr : UnitQuat r)
    (ha : UnitQuat a) (hb : UnitQuat b) :
    ops.mul (turned r a) (ops.conj (turned r b)) = ops.mul a (ops.conj b) := by
  apply quat_injective
  have hb' := unit_turned hr hb
  rw [h.mul _ _ (unit_turned hr ha) (LawfulQuatOps.unit_conj h hb'), h.conj _ hb', h.mul _ _ ha (LawfulQuatOps.unit_conj h hb),
    h.conj _ hb, quat_turned, quat_turned, StarMul.star_mul, mul_assoc, ← mul_assoc (quat r), unit_mul_star hr, one_mul]

theorem mul_conj_world {ops : QuatOps} {eps : ℝ} (h : LawfulQuatOps ops eps) {p a b : Vec 4} (hp : UnitQuat p)
    (ha : UnitQuat a) (hb : UnitQuat b) :
    ops.mul (turnedWorld p a) (ops.conj (turnedWorld p b)) =
      coords (quat p * quat (ops.mul a (ops.conj b)) * star (quat p)) := by
  apply quat_injective
  have hb' := unit_turnedWorld hp hb
  rw [h.mul _ _ (unit_turnedWorld hp ha) (LawfulQuatOps.unit_conj h hb'), h.conj _ hb', quat_coords,
    h.mul _ _ ha (LawfulQuatOps.unit_conj h hb), h.conj _ hb, quat_turnedWorld, quat_turnedWorld, StarMul.star_mul]
  simp only [mul_assoc]

namespace DualFrame

theorem isLinearMap_id : IsLinearMap ℝ (id : Vec 3 → Vec 3) := ⟨fun _ _ => rfl, fun _ _ => rfl⟩

theorem isLinearMap_rotated (p : Vec 4) : IsLinearMap ℝ (rotated p) := (rotL p).isLinear

theorem linear_translation (b : Fin 2 → Vec 3) : (translation b).Linear := ⟨fun _ => isLinearMap_id, fun _ => isLinearMap_id⟩

theorem linear_body (r : Fin 2 → Vec 4) : (body r).Linear := ⟨fun _ => isLinearMap_id, fun _ => isLinearMap_id⟩

theorem linear_world (p : Fin 2 → Vec 4) (b : Fin 2 → Vec 3) : (world p b).Linear :=
  ⟨fun _ => isLinearMap_rotated _, fun _ => isLinearMap_rotated _⟩

theorem respects_translation (b : Fin 2 → Vec 3) (opsT ops : QuatOps) : (translation b).Respects opsT ops fun _ => True :=
  ⟨fun _ _ _ => trivial, fun _ _ _ _ _ => rfl, fun _ _ _ _ => rfl, fun _ _ _ _ _ => rfl⟩

theorem respects_body {r : Fin 2 → Vec 4} (hr : ∀ arm, UnitQuat (r arm)) {opsT ops : QuatOps} {epsT eps : ℝ}
    (hT : LawfulQuatOps opsT epsT) (h : LawfulQuatOps ops eps) : (body r).Respects opsT ops UnitQuat where
  unit w _ hq := LawfulQuatOps.unit_mul h (LawfulQuatOps.unit_exp h w) hq
  diff arm _ _ hq hq' := diff_turned h (hr arm) hq hq'
  mul arm w _ hq := mul_turned h (hr arm) (LawfulQuatOps.unit_exp h w) hq
  err arm _ _ hq hq' := congrArg ops.log (mul_conj_turned hT (hr arm) hq hq')

theorem respects_world {p : Fin 2 → Vec 4} (hp : ∀ arm, UnitQuat (p arm)) (b : Fin 2 → Vec 3) {opsT ops : QuatOps}
    {epsT eps : ℝ} (hT : LawfulQuatOps opsT epsT) (h : LawfulQuatOps ops eps) (hlog : LogRotates ops) :
    (world p b).Respects opsT ops UnitQuat where
  unit w _ hq := LawfulQuatOps.unit_mul h (LawfulQuatOps.unit_exp h w) hq
  diff arm _ _ hq hq' := diff_world h hlog (hp arm) hq hq'
  mul arm w _ hq := mul_world h (hp arm) w hq
  err arm _ _ hq hq' :=
    (congrArg ops.log (mul_conj_world hT (hp arm) hq hq')).trans
      (hlog _ _ (hp arm) (LawfulQuatOps.unit_mul hT hq (LawfulQuatOps.unit_conj hT hq')))

/-- Gains that are the same in both frames. -/
structure Gains (F : DualFrame) (α β : Vec 12) (smooth : Bool) : Prop where
  linAlpha : ∀ arm v, armLin arm α * F.P arm v = F.P arm (armLin arm α * v)
  linBeta : ∀ arm v, armLin arm β * F.P arm v = F.P arm (armLin arm β * v)
  angAlpha : ∀ arm v, armAng arm α * F.Q arm v = F.Q arm (armAng arm α * v)
  angBeta : ∀ arm v, armAng arm β * F.Q arm v = F.Q arm (armAng arm β * v)
  smoothBeta : smooth = true → ∀ (arm : Fin 2) v, (fun k : Fin 3 => β ⟨7 * arm + k, by omega⟩) * F.P arm v =
    F.P arm ((fun k : Fin 3 => β ⟨7 * arm + k, by omega⟩) * v)

theorem gains_translation (b : Fin 2 → Vec 3) (α β : Vec 12) (smooth : Bool) : (translation b).Gains α β smooth :=
  ⟨fun _ _ => rfl, fun _ _ => rfl, fun _ _ => rfl, fun _ _ => rfl, fun _ _ _ => rfl⟩

theorem gains_body (r : Fin 2 → Vec 4) (α β : Vec 12) (smooth : Bool) : (body r).Gains α β smooth :=
  ⟨fun _ _ => rfl, fun _ _ => rfl, fun _ _ => rfl, fun _ _ => rfl, fun _ _ _ => rfl⟩

theorem const_mul_rotated (p : Vec 4) {γ : ℝ} {g : Vec 3} (hg : ∀ k, g k = γ) (v : Vec 3) :
    g * rotated p v = rotated p (g * v) := by
  have e : ∀ v : Vec 3, g * v = γ • v := fun v => funext fun k => by simp [hg]
  rw [e, e, (isLinearMap_rotated p).map_smul]

theorem gains_world (p : Fin 2 → Vec 4) (b : Fin 2 → Vec 3) {α β : Vec 12} {smooth : Bool} {αl βl αr βr : Fin 2 → ℝ}
    (h1 : ∀ arm k, armLin arm α k = αl arm) (h2 : ∀ arm k, armLin arm β k = βl arm)
    (h3 : ∀ arm k, armAng arm α k = αr arm) (h4 : ∀ arm k, armAng arm β k = βr arm)
    (h5 : smooth = true → βl 1 = βr 1) :
    (world p b).Gains α β smooth where
  linAlpha arm v := const_mul_rotated _ (h1 arm) v
  linBeta arm v := const_mul_rotated _ (h2 arm) v
  angAlpha arm v := const_mul_rotated _ (h3 arm) v
  angBeta arm v := const_mul_rotated _ (h4 arm) v
  smoothBeta hs arm v := by
    refine const_mul_rotated _ (γ := βl arm) (fun k => ?_) v
    fin_cases arm
    · exact (congrArg β (Fin.ext (by simp))).trans (h2 0 k)
    · fin_cases k
      · exact h2 1 1
      · exact h2 1 2
      · exact (h4 1 0).trans (h5 hs).symm

end DualFrame

namespace DualCartesianDMP

/-- Coupling terms of both frames: `DualCouplingMapped` with an arbitrary condition on the orientations. -/
def CouplingIn (U : Vec 4 → Prop) (F : DualFrame) : Option DualCoupling → Option DualCoupling → Prop
  | none, none => True
  | some f, some f' => ∀ y v, (∀ arm, U (armRot arm y)) → f' (F.state y) (F.vel v) = (F.vel (f y v).1, F.vel (f y v).2)
  | _, _ => False

theorem objSim_frame {s : DualCartesianDMP m} {opsT : QuatOps} {sf : DualStepFunction} {U : Vec 4 → Prop} {F : DualFrame}
    (hF : F.Respects opsT sf.ops U) (hlin : F.Linear) (hg : F.Gains s.alphaY s.betaY s.smooth)
    {coupling coupling' : Option DualCoupling}
    (hc : CouplingIn U F coupling coupling')
    (hst : ∀ arm, U (armRot arm s.startY)) (hgo : ∀ arm, U (armRot arm s.goalY)) :
    ObjSim opsT sf U F 1 coupling coupling'
      (fun x => SameConfiguration s x ∧ (x.initialized = true → ∀ arm, U (armRot arm x.currentY))) (inFrame F) where
  pos := one_pos
  respects := hF
  t x := (one_mul _).symm
  dt x := (one_mul _).symm
  reset x := rfl
  goodReset x hx := ⟨hx.1.trans rfl, hx.2⟩
  good x y v hx hy := ⟨hx.1.trans rfl, fun _ => hy⟩
  stepped x y v := by simp [stepped, inFrame]
  sim x y hx hy := by
    obtain ⟨hx1, hx2⟩ := hx
    have hsm : x.smooth = s.smooth := by rw [hx1]
    have hal : x.alphaY = s.alphaY := by rw [hx1]
    have hbe : x.betaY = s.betaY := by rw [hx1]
    have hgy : x.goalY = s.goalY := by rw [hx1]
    have hsy : x.startY = s.startY := by rw [hx1]
    have href : (inFrame F x).reference = F.state x.reference := by
      unfold reference
      cases hi : x.initialized <;> simp [inFrame, hi]
    have hrefU : ∀ arm, U (armRot arm x.reference) := by
      unfold reference
      split_ifs with hi
      · exact hx2 hi
      · rw [hsy]; exact hst
    rw [href]
    refine
      { pos := one_pos
        lin := hlin
        intDt := (one_mul _).symm
        goalT := (one_mul _).symm
        startT := (one_mul _).symm
        goalY := rfl
        startY := rfl
        startYd := by rw [inv_one, one_smul]; rfl
        smooth := rfl
        linAlpha := ?_
        linBeta := ?_
        angAlpha := ?_
        angBeta := ?_
        smoothBeta := ?_
        phase := fun t => by rw [one_mul]; rfl
        force := fun z => x.ft.mapWeights_force (DualFrame.velL hlin) z
        coupling := ?_
        correction := ?_
        goalU := by show ∀ arm, U (armRot arm x.goalY); rw [hgy]; exact hgo
        startU := by show ∀ arm, U (armRot arm x.startY); rw [hsy]; exact hst }
    · show ∀ arm v, armLin arm x.alphaY * F.P arm v = F.P arm (armLin arm x.alphaY * v)
      rw [hal]; exact hg.linAlpha
    · show ∀ arm v, armLin arm x.betaY * F.P arm v = F.P arm (armLin arm x.betaY * v)
      rw [hbe]; exact hg.linBeta
    · show ∀ arm v, armAng arm x.alphaY * F.Q arm v = F.Q arm (armAng arm x.alphaY * v)
      rw [hal]; exact hg.angAlpha
    · show ∀ arm v, armAng arm x.betaY * F.Q arm v = F.Q arm (armAng arm x.betaY * v)
      rw [hbe]; exact hg.angBeta
    · intro hs
      have := hg.smoothBeta (hsm ▸ hs)
      rw [← hbe] at this
      exact this
    · intro z hz
      rw [inv_one, one_smul]
      cases coupling with
      | none =>
        cases coupling' with
        | none => rfl
        | some f' => exact hc.elim
      | some f =>
        cases coupling' with
        | none => exact hc.elim
        | some f' => exact hc _ _ hz
    · intro dt
      rw [one_mul]
      have hpos : ∀ arm, armPos arm (trackingError opsT (F.state x.reference) (F.state y)) =
          F.P arm (armPos arm (trackingError opsT x.reference y)) := by
        intro arm
        simp only [trackingError, armPos_joinState, DualFrame.armPos_state]
        rw [show (fun k => armPos arm x.reference k - armPos arm y k) = armPos arm x.reference - armPos arm y from rfl,
          (hlin.P arm).map_sub]
        funext k
        simp only [Pi.add_apply, Pi.sub_apply]
        ring
      have hrot : ∀ arm, sf.ops.log (armRot arm (trackingError opsT (F.state x.reference) (F.state y))) =
          F.Q arm (sf.ops.log (armRot arm (trackingError opsT x.reference y))) := by
        intro arm
        simp only [trackingError, armRot_joinState, DualFrame.armRot_state]
        exact hF.err arm _ _ (hrefU arm) (hy arm)
      simp only [DualStepArgs.correction, stepArgs, hpos, hrot]
      have hscale : ∀ (v : Vec 3), (fun k => x.pGain * v k / dt) = (x.pGain / dt) • v := by
        intro v; funext k; simp only [Pi.smul_apply, smul_eq_mul]; ring
      refine vel_ext (fun arm => ?_) (fun arm => ?_)
      · rw [armLin_joinVel, F.armLin_vel, armLin_joinVel]
        exact (hscale _).trans (((hlin.P arm).map_smul _ _).symm.trans (congrArg (F.P arm) (hscale _).symm))
      · rw [armAng_joinVel, F.armAng_vel, armAng_joinVel]
        exact (hscale _).trans (((hlin.Q arm).map_smul _ _).symm.trans (congrArg (F.Q arm) (hscale _).symm))

theorem frame_step {s : DualCartesianDMP m} {opsT : QuatOps} {sf : DualStepFunction} {U : Vec 4 → Prop} {F : DualFrame}
    (hF : F.Respects opsT sf.ops U) (hlin : F.Linear) (hg : F.Gains s.alphaY s.betaY s.smooth)
    {coupling coupling' : Option DualCoupling}
    (hc : CouplingIn U F coupling coupling')
    (hst : ∀ arm, U (armRot arm s.startY)) (hgo : ∀ arm, U (armRot arm s.goalY))
    (hcu : s.initialized = true → ∀ arm, U (armRot arm s.currentY)) {y : Vec 14} (hy : ∀ arm, U (armRot arm y))
    (v : Vec 12) :
    (step opsT coupling' sf (F.state y) (F.vel v)).exec (s.inFrame F) =
      let r := (step opsT coupling sf y v).exec s
      (r.1.map (fun x => (F.state x.1, F.vel x.2)), r.2.inFrame F) := by
  have := (objSim_frame hF hlin hg hc hst hgo).step ⟨.refl s, hcu⟩ hy v
  simpa only [inv_one, one_smul] using this

theorem frame_openLoop {s : DualCartesianDMP m} {opsT : QuatOps} {U : Vec 4 → Prop} {F : DualFrame}
    (hF : ∀ sf, sf = DualStepFunction.python opsT ∨ sf = DualStepFunction.cython → F.Respects opsT sf.ops U) (hlin : F.Linear)
    (hg : F.Gains s.alphaY s.betaY s.smooth) {coupling coupling' : Option DualCoupling}
    (hc : CouplingIn U F coupling coupling')
    (hst : ∀ arm, U (armRot arm s.startY)) (hgo : ∀ arm, U (armRot arm s.goalY))
    (hcu : s.initialized = true → ∀ arm, U (armRot arm s.currentY)) (runT : Option ℝ) (name : String) :
    (openLoop opsT runT coupling' name).exec (s.inFrame F) =
      let r := (openLoop opsT runT coupling name).exec s
      (r.1.map (fun x => (x.1, x.2.map F.state)), r.2.inFrame F) := by
  have := openLoop_sim (fun sf hsf => objSim_frame (hF sf hsf) hlin hg hc hst hgo) ⟨.refl s, hcu⟩ hst
    ⟨rfl, by rw [inv_one, one_smul]; rfl⟩ (one_mul _).symm runT name
  simpa only [one_mul, Option.map_id', List.map_id'] using this

theorem couplingMapped {F : DualFrame} {coupling coupling' : Option DualCoupling}
    (hc : DualCouplingMapped F coupling coupling') :
    CouplingIn UnitQuat F coupling coupling' := by
  unfold DualCouplingMapped at hc
  simp only [armOrientation_eq] at hc
  cases coupling <;> cases coupling' <;> exact hc

end DualCartesianDMP

open DualCartesianDMP

/-! ## C13: translations -/

/-- **C13 (two arms).** Translate start, goal and current positions of the arms by `b` (the arms may be translated
differently): the trajectory of `open_loop` and every state of an execution step by step is translated. For all gains, with
tracking error and coupling term. The object is again the translated object. -/
theorem C13_dual (s : DualCartesianDMP m) (b : Fin 2 → Vec 3) (ops : QuatOps) (coupling : Option DualCoupling) :
    let F := DualFrame.translation b
    let back := DualFrame.translation (-b)
    let coupling' := coupling.map (fun f y v => f (back.state y) v)
    (∀ runT name, (openLoop ops runT coupling' name).exec (s.inFrame F) =
      let r := (openLoop ops runT coupling name).exec s
      (r.1.map (fun x => (x.1, x.2.map F.state)), r.2.inFrame F)) ∧
    ∀ sf y v, (step ops coupling' sf (F.state y) v).exec (s.inFrame F) =
      let r := (step ops coupling sf y v).exec s
      (r.1.map (fun x => (F.state x.1, x.2)), r.2.inFrame F) := by
  intro F back coupling'
  have hv : ∀ v, F.vel v = v := fun v => vel_ext (fun arm => F.armLin_vel arm v) (fun arm => F.armAng_vel arm v)
  have hb : ∀ y, back.state (F.state y) = y := by
    intro y
    refine state_ext (fun arm => ?_) (fun arm => ?_)
    · rw [back.armPos_state, F.armPos_state]
      show armPos arm y + b arm + (-b) arm = armPos arm y
      simp
    · rw [back.armRot_state, F.armRot_state]; rfl
  have hc : CouplingIn (fun _ => True) F coupling coupling' := by
    cases coupling with
    | none => trivial
    | some f =>
      intro y v _
      simp only [hv, hb]
  constructor
  · intro runT name
    exact frame_openLoop (fun sf _ => DualFrame.respects_translation b ops sf.ops) (DualFrame.linear_translation b)
      (DualFrame.gains_translation b _ _ _) hc (fun _ => trivial) (fun _ => trivial) (fun _ _ => trivial) runT name
  · intro sf y v
    have := frame_step (s := s) (DualFrame.respects_translation b ops sf.ops) (DualFrame.linear_translation b)
      (DualFrame.gains_translation b _ _ _) hc (fun _ => trivial) (fun _ => trivial) (fun _ _ => trivial)
      (y := y) (fun _ => trivial) v
    have hv' : ∀ v, (DualFrame.translation b).vel v = v := hv
    simp only [hv'] at this
    exact this

/-! ## C72: frames that are fixed to the bodies -/

theorem lawfulDual_ops {ops : QuatOps} {eps : ℝ} (h : LawfulQuatOps ops eps) {sf : DualStepFunction}
    (hsf : sf = .python ops ∨ sf = .cython) : ∃ eps, LawfulQuatOps sf.ops eps := by
  rcases hsf with rfl | rfl
  · exact ⟨eps, h⟩
  · exact ⟨_, lawful_cython⟩

/-- **C72 (two arms, open_loop).** Choose the frames that are fixed to the bodies differently (`q` becomes `q r` for start,
goal and current state, with another `r` for each arm): `open_loop` gives the same motion, described with the new frames. -/
theorem C72_dual_open_loop (s : DualCartesianDMP m) {ops : QuatOps} {eps : ℝ} (h : LawfulQuatOps ops eps)
    {r : Fin 2 → Vec 4} (hr : ∀ arm, UnitQuat (r arm)) (hst : ∀ arm, UnitQuat (armOrientation arm s.startY))
    (hgo : ∀ arm, UnitQuat (armOrientation arm s.goalY))
    (hcu : s.initialized = true → ∀ arm, UnitQuat (armOrientation arm s.currentY)) {coupling coupling' : Option DualCoupling}
    (hc : DualCouplingMapped (.body r) coupling coupling') (runT : Option ℝ) (name : String) :
    (openLoop ops runT coupling' name).exec (s.inFrame (.body r)) =
      let q := (openLoop ops runT coupling name).exec s
      (q.1.map (fun x => (x.1, x.2.map (DualFrame.body r).state)), q.2.inFrame (.body r)) := by
  simp only [armOrientation_eq] at hst hgo hcu
  refine frame_openLoop (fun sf hsf => ?_) (DualFrame.linear_body r) (DualFrame.gains_body r _ _ _) (couplingMapped hc) hst hgo
    hcu runT name
  obtain ⟨eps', h'⟩ := lawfulDual_ops h hsf
  exact DualFrame.respects_body hr h h'

/-- **C72 (two arms, step).** The same for `step`: orientations that are passed and returned refer to the new frames,
velocities are the same. -/
theorem C72_dual_step (s : DualCartesianDMP m) {ops : QuatOps} {eps : ℝ} (h : LawfulQuatOps ops eps)
    {sf : DualStepFunction} (hsf : LawfulDualStep sf) {r : Fin 2 → Vec 4} (hr : ∀ arm, UnitQuat (r arm))
    (hst : ∀ arm, UnitQuat (armOrientation arm s.startY)) (hgo : ∀ arm, UnitQuat (armOrientation arm s.goalY))
    (hcu : s.initialized = true → ∀ arm, UnitQuat (armOrientation arm s.currentY)) {coupling coupling' : Option DualCoupling}
    (hc : DualCouplingMapped (.body r) coupling coupling') {y : Vec 14} (hy : ∀ arm, UnitQuat (armOrientation arm y))
    (v : Vec 12) :
    (step ops coupling' sf ((DualFrame.body r).state y) v).exec (s.inFrame (.body r)) =
      let q := (step ops coupling sf y v).exec s
      (q.1.map (fun x => ((DualFrame.body r).state x.1, x.2)), q.2.inFrame (.body r)) := by
  simp only [armOrientation_eq] at hst hgo hcu hy
  obtain ⟨eps', -, h'⟩ := LawfulDualStep.ops hsf
  have := frame_step (s := s) (DualFrame.respects_body hr h h') (DualFrame.linear_body r) (DualFrame.gains_body r _ _ _)
    (couplingMapped hc) hst hgo hcu hy v
  have hv : ∀ v, (DualFrame.body r).vel v = v := fun v =>
    vel_ext (fun arm => (DualFrame.body r).armLin_vel arm v) (fun arm => (DualFrame.body r).armAng_vel arm v)
  simp only [hv] at this
  exact this

/-! ## C73: world frames -/

/-- **C73 (two arms, open_loop).** With the same gains for all components of a position and for all components of an
orientation, a dual-arm DMP does not depend on the world frame. With smooth scaling the gains of position and orientation of
the right arm must be equal, because of the wrong index described in C37. -/
theorem C73_dual_open_loop (s : DualCartesianDMP m) {ops : QuatOps} {eps : ℝ} (h : LawfulQuatOps ops eps)
    (hlog : LogRotates ops) {αl βl αr βr : Fin 2 → ℝ} (h1 : ∀ arm k, armLinear arm s.alphaY k = αl arm)
    (h2 : ∀ arm k, armLinear arm s.betaY k = βl arm) (h3 : ∀ arm k, armAngular arm s.alphaY k = αr arm)
    (h4 : ∀ arm k, armAngular arm s.betaY k = βr arm) (h5 : s.smooth = true → βl 1 = βr 1)
    {p : Fin 2 → Vec 4} (hp : ∀ arm, UnitQuat (p arm)) (b : Fin 2 → Vec 3)
    (hst : ∀ arm, UnitQuat (armOrientation arm s.startY)) (hgo : ∀ arm, UnitQuat (armOrientation arm s.goalY))
    (hcu : s.initialized = true → ∀ arm, UnitQuat (armOrientation arm s.currentY)) {coupling coupling' : Option DualCoupling}
    (hc : DualCouplingMapped (.world p b) coupling coupling') (runT : Option ℝ) (name : String) :
    (openLoop ops runT coupling' name).exec (s.inFrame (.world p b)) =
      let q := (openLoop ops runT coupling name).exec s
      (q.1.map (fun x => (x.1, x.2.map (DualFrame.world p b).state)), q.2.inFrame (.world p b)) := by
  simp only [armOrientation_eq] at hst hgo hcu
  simp only [armLinear_eq] at h1 h2
  simp only [armAngular_eq] at h3 h4
  refine frame_openLoop (fun sf hsf => ?_) (DualFrame.linear_world p b) (DualFrame.gains_world p b h1 h2 h3 h4 h5)
    (couplingMapped hc) hst hgo hcu runT name
  rcases hsf with rfl | rfl
  · exact DualFrame.respects_world hp b h h hlog
  · exact DualFrame.respects_world hp b h lawful_cython logRotates_cython

/-- **C73 (two arms, step).** The same for `step`. -/
theorem C73_dual_step (s : DualCartesianDMP m) {ops : QuatOps} {eps : ℝ} (h : LawfulQuatOps ops eps)
    {sf : DualStepFunction} (hsf : LawfulDualStep sf) (hfree : DualFrameFree sf) {αl βl αr βr : Fin 2 → ℝ}
    (h1 : ∀ arm k, armLinear arm s.alphaY k = αl arm) (h2 : ∀ arm k, armLinear arm s.betaY k = βl arm)
    (h3 : ∀ arm k, armAngular arm s.alphaY k = αr arm) (h4 : ∀ arm k, armAngular arm s.betaY k = βr arm)
    (h5 : s.smooth = true → βl 1 = βr 1) {p : Fin 2 → Vec 4} (hp : ∀ arm, UnitQuat (p arm)) (b : Fin 2 → Vec 3)
    (hst : ∀ arm, UnitQuat (armOrientation arm s.startY)) (hgo : ∀ arm, UnitQuat (armOrientation arm s.goalY))
    (hcu : s.initialized = true → ∀ arm, UnitQuat (armOrientation arm s.currentY)) {coupling coupling' : Option DualCoupling}
    (hc : DualCouplingMapped (.world p b) coupling coupling') {y : Vec 14} (hy : ∀ arm, UnitQuat (armOrientation arm y))
    (v : Vec 12) :
    (step ops coupling' sf ((DualFrame.world p b).state y) ((DualFrame.world p b).vel v)).exec (s.inFrame (.world p b)) =
      let q := (step ops coupling sf y v).exec s
      (q.1.map (fun x => ((DualFrame.world p b).state x.1, (DualFrame.world p b).vel x.2)), q.2.inFrame (.world p b)) := by
  simp only [armOrientation_eq] at hst hgo hcu hy
  simp only [armLinear_eq] at h1 h2
  simp only [armAngular_eq] at h3 h4
  have hF : (DualFrame.world p b).Respects ops sf.ops UnitQuat := by
    cases sf with
    | python ops' => obtain ⟨eps', -, h'⟩ := hsf; exact DualFrame.respects_world hp b h h' hfree
    | cython => exact DualFrame.respects_world hp b h lawful_cython logRotates_cython
  exact frame_step hF (DualFrame.linear_world p b) (DualFrame.gains_world p b h1 h2 h3 h4 h5) (couplingMapped hc) hst hgo hcu
    hy v

/-! ## C14: unit of time -/

namespace DualCartesianDMP

theorem InTime.ft {s : DualCartesianDMP m} (h : s.InTime) : ∃ ft, DMP.initForcingTerm 12 m s.executionTime = .ok ft ∧
    s.ft = { ft with weights := s.ft.weights } := by
  unfold InTime at h
  rw [exec_setExecutionTime] at h
  cases h1 : DMP.initForcingTerm 12 m s.executionTime with
  | error e => rw [h1] at h; cases congrArg Prod.fst h
  | ok ft =>
    rw [h1] at h
    have h2 := congrArg Prod.snd h
    simp only at h2
    exact ⟨ft, rfl, (congrArg DualCartesianDMP.ft h2).symm⟩

theorem InTime.mk' {s : DualCartesianDMP m} {ft : ForcingTerm 12 m}
    (h : DMP.initForcingTerm 12 m s.executionTime = .ok ft) (hp : s.ft = { ft with weights := s.ft.weights }) : s.InTime := by
  unfold InTime
  rw [exec_setExecutionTime, h]
  simp only
  rw [← hp]

theorem objSim_time {s : DualCartesianDMP m} {ft : ForcingTerm 12 m} (hft : s.ft = { ft with weights := s.ft.weights })
    {c : ℝ} (hc : 0 < c) (opsT : QuatOps) (sf : DualStepFunction) (coupling : Option DualCoupling) :
    ObjSim opsT sf (fun _ => True) (DualFrame.translation 0) c coupling (coupling.map (fun f y v => f y (c • v)))
      (fun x => SameConfiguration s x)
      (fun x => { inTimeUnit c x with
                  executionTime := c * x.executionTime
                  ft := { ft.scaleTime c with weights := x.ft.weights } }) := by
  have hF : ∀ y, (DualFrame.translation 0).state y = y := fun y => state_ext
    (fun arm => by rw [DualFrame.armPos_state]; exact add_zero _) (fun arm => by rw [DualFrame.armRot_state]; rfl)
  have hV : ∀ v, (DualFrame.translation 0).vel v = v := fun v => vel_ext
    (fun arm => by rw [DualFrame.armLin_vel]; rfl) (fun arm => by rw [DualFrame.armAng_vel]; rfl)
  refine
    { pos := hc
      respects := DualFrame.respects_translation 0 _ _
      t := fun x => rfl
      dt := fun x => rfl
      reset := fun x => by simp [inTimeUnit]
      goodReset := fun x hx => hx.trans rfl
      good := fun x y v hx _ => hx.trans rfl
      stepped := fun x y v => by simp [stepped, inTimeUnit, hF, hV, mul_add]
      sim := fun x y hx _ => ?_ }
  have hxft : x.ft = { ft with weights := x.ft.weights } := by
    have : x.ft = s.ft := by rw [hx]
    rw [this]; exact hft
  refine
    { pos := hc
      lin := DualFrame.linear_translation 0
      intDt := rfl
      goalT := rfl
      startT := (mul_zero c).symm
      goalY := (hF _).symm
      startY := (hF _).symm
      startYd := by rw [hV]; rfl
      smooth := rfl
      linAlpha := fun _ _ => rfl
      linBeta := fun _ _ => rfl
      angAlpha := fun _ _ => rfl
      angBeta := fun _ _ => rfl
      smoothBeta := fun _ _ _ => rfl
      phase := fun t => ?_
      force := fun z => ?_
      coupling := fun z _ => ?_
      correction := fun dt => ?_
      goalU := fun _ => trivial
      startU := fun _ => trivial }
  · show (ft.scaleTime c).phaseAt (c * t) = x.ft.phaseAt t
    rw [ft.scaleTime_phaseAt hc, hxft]; rfl
  · rw [hV]
    show ({ ft.scaleTime c with weights := x.ft.weights } : ForcingTerm 12 m).force z = x.ft.force z
    rw [hxft]; rfl
  · simp only [hF, hV]
    cases coupling with
    | none => rfl
    | some f => simp [DualStepArgs.cds, stepArgs, smul_smul, hc.ne']
  · rw [hV]
    have href : reference ({ inTimeUnit c x with
                  executionTime := c * x.executionTime
                  ft := { ft.scaleTime c with weights := x.ft.weights } } : DualCartesianDMP m) = x.reference := by
      unfold reference; cases hi : x.initialized <;> simp [inTimeUnit, hi]
    rw [href, hF]
    simp only [DualStepArgs.correction, stepArgs, inTimeUnit, mul_assoc]
    simp only [mul_div_mul_left _ _ hc.ne']

/-- **C14 (two arms).** The forcing term of a new dual-arm DMP belongs to its execution time. -/
theorem C14_dual_in_time_create {τ dt intDt pGain : ℝ} {smooth : Bool} {α β : ArrayLike} {s : DualCartesianDMP m}
    (h : create m τ dt intDt pGain smooth α β = .ok s) : s.InTime := by
  unfold create at h
  rw [show initForcingTerm m τ = DMP.initForcingTerm 12 m τ from rfl] at h
  cases h1 : DMP.initForcingTerm 12 m τ with
  | error e => rw [h1] at h; cases h
  | ok ft =>
    rw [h1] at h
    cases h2 : ensure1dArray α 12 with
    | error e => rw [h2] at h; cases h
    | ok a =>
      rw [h2] at h
      cases h3 : ensure1dArray β 12 with
      | error e => rw [h3] at h; cases h
      | ok b =>
        rw [h3] at h
        simp only [Bind.bind, Except.bind, Pure.pure, Except.pure, Except.ok.injEq] at h
        subst h
        exact InTime.mk' h1 rfl

theorem imitate_ft {n : ℕ} (ops : QuatOps) (qgrad : (Fin (n + 2) → Vec 4) → Fin (n + 2) → Vec 3)
    (T : Fin (n + 2) → ℝ) (Y : Fin (n + 2) → Vec 14) (reg : ℝ) (afv : Bool) (s : DualCartesianDMP m) :
    ((imitate ops qgrad T Y reg afv).exec s).2.executionTime = s.executionTime ∧
      ∃ w, ((imitate ops qgrad T Y reg afv).exec s).2.ft = { s.ft with weights := w } := by
  unfold imitate
  simp only [Py.exec_bind, Py.exec_modify, Py.exec_get, Py.exec_lift]
  cases dmpImitate m T (fun t => armPos 0 (Y t)) reg (armLin 0 s.alphaY) (armLin 0 s.betaY) s.ft.overlap
    s.ft.alphaZ afv s.smooth with
  | error e => exact ⟨rfl, s.ft.weights, rfl⟩
  | ok w0 =>
    simp only
    cases dmpImitateWith m T reg s.ft.overlap s.ft.alphaZ
      (.ok (determineForcesQuaternion ops qgrad T (fun t => armRot 0 (Y t)) (armAng 0 s.alphaY) (armAng 0 s.betaY)
      s.ft.alphaZ afv s.smooth)) with
    | error e => exact ⟨rfl, _, rfl⟩
    | ok w1 =>
      simp only
      cases dmpImitate m T (fun t => armPos 1 (Y t)) reg (armLin 1 s.alphaY) (armLin 1 s.betaY) s.ft.overlap
        s.ft.alphaZ afv s.smooth with
      | error e => exact ⟨rfl, _, rfl⟩
      | ok w2 =>
        simp only
        cases dmpImitateWith m T reg s.ft.overlap s.ft.alphaZ
          (.ok (determineForcesQuaternion ops qgrad T (fun t => armRot 1 (Y t)) (armAng 1 s.alphaY) (armAng 1 s.betaY)
          s.ft.alphaZ afv s.smooth)) with
        | error e => exact ⟨rfl, _, rfl⟩
        | ok w3 => exact ⟨rfl, _, rfl⟩

/-- **C14 (two arms).** This remains so with every method call, raising or not, and with every assignment of
`execution_time_` that does not raise. -/
theorem C14_dual_in_time {s : DualCartesianDMP m} (hs : TimedDual s) : s.InTime := by
  induction hs with
  | create h => exact C14_dual_in_time_create h
  | @op s o hs ho ih =>
    obtain ⟨ft, h1, h2⟩ := ih.ft
    cases o with
    | step ops c sf y yd =>
      simp only [DualOp.after, DualCartesianDMP.exec_step]
      split <;> exact InTime.mk' h1 h2
    | openLoop ops t c nm =>
      have h : SameConfiguration s (DualOp.after (.openLoop ops t c nm) s) := DualCall.after_same ops s (.openLoop t c nm)
      rw [h]
      exact InTime.mk' h1 h2
    | configure a => exact InTime.mk' h1 h2
    | reset => exact InTime.mk' h1 h2
    | setWeights w =>
      simp only [DualOp.after, DualCartesianDMP.exec_setWeights]
      split
      · exact InTime.mk' h1 (by rw [h2])
      · exact InTime.mk' h1 h2
    | setExecutionTime τ =>
      have := ho τ rfl
      simp only [DualOp.after]
      rw [DualCartesianDMP.exec_setExecutionTime] at this ⊢
      cases h4 : DMP.initForcingTerm 12 m τ with
      | error e => rw [h4] at this; cases this
      | ok ft => exact InTime.mk' h4 rfl
    | imitate ops qgrad T Y reg afv =>
      obtain ⟨e1, w, e2⟩ := imitate_ft ops qgrad T Y reg afv s
      simp only [DualOp.after]
      refine InTime.mk' (ft := ft) (by rw [e1]; exact h1) ?_
      rw [e2, h2]

end DualCartesianDMP

/-- **C14 (two arms, open_loop).** Multiply the time steps by `c > 0` and assign `execution_time_ = c * execution_time_`
(velocities of start and current state are divided by `c`, the gain of the tracking error is multiplied by `c`). Then
`open_loop` visits the same poses at times multiplied by `c`. -/
theorem C14_dual_open_loop {s : DualCartesianDMP m} (hs : s.InTime) {c : ℝ} (hc : 0 < c) (ops : QuatOps) :
    ∃ s', (setExecutionTime (c * s.executionTime)).exec (s.inTimeUnit c) = (.ok (), s') ∧
      ∀ (runT : Option ℝ) (coupling : Option DualCoupling) (name : String),
        ((openLoop ops (runT.map (c * ·)) (coupling.map (fun f y v => f y (c • v))) name).exec s').1 =
          ((openLoop ops runT coupling name).exec s).1.map (fun r => (r.1.map (c * ·), r.2)) := by
  obtain ⟨ft, h1, h2⟩ := hs.ft
  have h3 := initForcingTerm_scale hc h1
  refine ⟨_, (exec_setExecutionTime _ _).trans (by rw [h3]), ?_⟩
  intro runT coupling name
  have hF : (DualFrame.translation 0).state = fun y => y := funext fun y => state_ext
    (fun arm => by rw [DualFrame.armPos_state]; exact add_zero _) (fun arm => by rw [DualFrame.armRot_state]; rfl)
  have hV : ∀ v, (DualFrame.translation 0).vel v = v := fun v => vel_ext
    (fun arm => by rw [DualFrame.armLin_vel]; rfl) (fun arm => by rw [DualFrame.armAng_vel]; rfl)
  have := openLoop_sim (s := s) (fun sf _ => objSim_time h2 hc ops sf coupling) (.refl s) (fun _ => trivial)
    ⟨by rw [hF]; rfl, by rw [hV]; rfl⟩ rfl runT name
  have h4 := congrArg Prod.fst this
  simp only [hF, List.map_id'] at h4
  exact h4

/-- **C14 (two arms, step).** The same for every call of `step`: poses are the same, velocities are divided by `c`, and the
object is again the rescaled object. -/
theorem C14_dual_step {s : DualCartesianDMP m} (hs : s.InTime) {c : ℝ} (hc : 0 < c) (ops : QuatOps)
    (sf : DualStepFunction) (coupling : Option DualCoupling) (y : Vec 14) (v : Vec 12) :
    ∃ s', (setExecutionTime (c * s.executionTime)).exec (s.inTimeUnit c) = (.ok (), s') ∧
      let r := (step ops coupling sf y v).exec s
      let r' := (step ops (coupling.map (fun f y v => f y (c • v))) sf y (c⁻¹ • v)).exec s'
      r'.1 = r.1.map (fun x => (x.1, c⁻¹ • x.2)) ∧
      (setExecutionTime (c * r.2.executionTime)).exec (inTimeUnit c r.2) = (.ok (), r'.2) := by
  obtain ⟨ft, h1, h2⟩ := hs.ft
  have h3 := initForcingTerm_scale hc h1
  refine ⟨_, (exec_setExecutionTime _ _).trans (by rw [h3]), ?_⟩
  intro r r'
  have hF : (DualFrame.translation 0).state = fun y => y := funext fun y => state_ext
    (fun arm => by rw [DualFrame.armPos_state]; exact add_zero _) (fun arm => by rw [DualFrame.armRot_state]; rfl)
  have hV : ∀ v, (DualFrame.translation 0).vel v = v := fun v => vel_ext
    (fun arm => by rw [DualFrame.armLin_vel]; rfl) (fun arm => by rw [DualFrame.armAng_vel]; rfl)
  have h4 := (objSim_time h2 hc ops sf coupling).step (.refl s) (fun _ => trivial) (y := y) v
  simp only [hF, hV] at h4
  have e1 : r'.1 = r.1.map (fun x => (x.1, c⁻¹ • x.2)) := congrArg Prod.fst h4
  have e2 : r'.2 = _ := congrArg Prod.snd h4
  refine ⟨e1, ?_⟩
  have hτ : r.2.executionTime = s.executionTime := by
    have hr : r = (step ops coupling sf y v).exec s := rfl
    rw [hr, exec_step]
    cases sf.run (s.stepArgs coupling (trackingError ops s.reference y)) s.t (s.t + s.dt) (y, v) <;> rfl
  rw [exec_setExecutionTime, hτ, h3, e2]
  simp only
  rw [show ((step ops coupling sf y v).exec s).2 = r.2 from rfl, hτ]
  rfl

/-- Hypotheses are met: a new object with default gains, start and goal are configured. -/
example : ∃ s : DualCartesianDMP 10, s.InTime ∧ s.initialized = false ∧ (∀ arm, UnitQuat (armOrientation arm s.startY)) ∧
    (∀ arm, UnitQuat (armOrientation arm s.goalY)) ∧ (∀ arm k, armLinear arm s.alphaY k = 25) ∧ s.smooth = true := by
  obtain ⟨s0, h0, h1⟩ := DualCartesianDMP.create_ok 10 (by norm_num) (τ := 2) (by norm_num) (1 / 100) (1 / 1000) 0 true 25
    (25 / 4)
  have ht := C14_dual_in_time_create h0
  obtain ⟨ft, h2, h3⟩ := ht.ft
  let y : Vec 14 := joinState (fun _ => 0) (fun _ => ![1, 0, 0, 0])
  have hy : ∀ arm, UnitQuat (armOrientation arm y) := by
    intro arm
    rw [armOrientation_eq, armRot_joinState]
    simp [UnitQuat]
  obtain ⟨-, -, -, -, -, hsm, hα, -, -, hi⟩ := h1
  exact ⟨{ s0 with startY := y, goalY := y }, InTime.mk' h2 h3, hi, hy, hy,
    fun arm k => by rw [armLinear_eq]; simp only [hα]; rfl, hsm⟩

end Verif
