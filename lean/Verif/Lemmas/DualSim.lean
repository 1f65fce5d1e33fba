import Verif.Props.Equivariance
import Verif.Props.DualImitate
import Verif.Lemmas.Frames
import Verif.Spec.FramesDual

/-! # Simulations between dual-arm DMPs -/

namespace Verif
open Spec
variable {m : ℕ}

namespace DualFrame

/-- Positions, velocities and rotation vectors are mapped linearly. -/
structure Linear (F : DualFrame) : Prop where
  P : ∀ arm, IsLinearMap ℝ (F.P arm)
  Q : ∀ arm, IsLinearMap ℝ (F.Q arm)

/-- What quaternion functions have to satisfy for orientations with the property `U`; `opsT` is used for tracking errors. -/
structure Respects (F : DualFrame) (opsT ops : QuatOps) (U : Vec 4 → Prop) : Prop where
  unit : ∀ w q, U q → U (ops.mul (ops.exp w) q)
  diff : ∀ arm q q', U q → U q' → QuatStepArgs.diff ops (F.R arm q) (F.R arm q') = F.Q arm (QuatStepArgs.diff ops q q')
  mul : ∀ arm w q, U q → ops.mul (ops.exp (F.Q arm w)) (F.R arm q) = F.R arm (ops.mul (ops.exp w) q)
  err : ∀ arm q q', U q → U q' → ops.log (opsT.mul (F.R arm q) (opsT.conj (F.R arm q'))) =
    F.Q arm (ops.log (opsT.mul q (opsT.conj q')))

variable (F : DualFrame)

@[simp] theorem armPos_state (arm : Fin 2) (y : Vec 14) : armPos arm (F.state y) = F.P arm (armPos arm y) + F.b arm := by
  simp only [state, armPos_joinState, armPosition_eq]

@[simp] theorem armRot_state (arm : Fin 2) (y : Vec 14) : armRot arm (F.state y) = F.R arm (armRot arm y) := by
  simp only [state, armRot_joinState, armOrientation_eq]

@[simp] theorem armLin_vel (arm : Fin 2) (v : Vec 12) : armLin arm (F.vel v) = F.P arm (armLin arm v) := by
  simp only [vel, armLin_joinVel, armLinear_eq]

@[simp] theorem armAng_vel (arm : Fin 2) (v : Vec 12) : armAng arm (F.vel v) = F.Q arm (armAng arm v) := by
  simp only [vel, armAng_joinVel, armAngular_eq]

/-- `vel` as a linear map. -/
def velL {F : DualFrame} (h : F.Linear) : Vec 12 →ₗ[ℝ] Vec 12 where
  toFun := F.vel
  map_add' x y := vel_ext
    (fun arm => by
      show armLin arm (F.vel (x + y)) = armLin arm (F.vel x) + armLin arm (F.vel y)
      simp only [armLin_vel]; exact (h.P arm).map_add _ _)
    (fun arm => by
      show armAng arm (F.vel (x + y)) = armAng arm (F.vel x) + armAng arm (F.vel y)
      simp only [armAng_vel]; exact (h.Q arm).map_add _ _)
  map_smul' c x := vel_ext
    (fun arm => by
      show armLin arm (F.vel (c • x)) = c • armLin arm (F.vel x)
      simp only [armLin_vel]; exact (h.P arm).map_smul _ _)
    (fun arm => by
      show armAng arm (F.vel (c • x)) = c • armAng arm (F.vel x)
      simp only [armAng_vel]; exact (h.Q arm).map_smul _ _)

theorem velL_apply {F : DualFrame} (h : F.Linear) (v : Vec 12) : velL h v = F.vel v := rfl

end DualFrame

namespace DualStepArgs

theorem update_lin (a : DualStepArgs m) (ops : QuatOps) (cd cdd : Vec 12) (dt t : ℝ) (s : Vec 14 × Vec 12) (arm : Fin 2) :
    let τ := a.goalT - a.startT
    armLin arm (a.update ops cd cdd dt t s).2 = armLin arm s.2 + (dt • (τ ^ 2)⁻¹ •
      (armLin arm a.alphaY * (armLin arm a.betaY * (armPos arm a.goalY - armPos arm s.1) - τ • armLin arm s.2 -
        a.smoothingPos (a.ft.phaseAt t) arm) + armLin arm (a.ft.force (a.ft.phaseAt t)) + armLin arm cdd) +
          τ⁻¹ • armLin arm cd) := by
  intro τ
  simp only [update, armLin_joinVel]
  funext k
  simp only [Pi.add_apply, Pi.smul_apply, Pi.mul_apply, Pi.sub_apply, smul_eq_mul]
  ring

/-- The smoothing term of an orientation. -/
noncomputable def smoothingRot (a : DualStepArgs m) (ops : QuatOps) (z : ℝ) (arm : Fin 2) : Vec 3 :=
  if a.smooth then z • (armAng arm a.betaY * QuatStepArgs.diff ops (armRot arm a.goalY) (armRot arm a.startY)) else 0

theorem update_ang (a : DualStepArgs m) (ops : QuatOps) (cd cdd : Vec 12) (dt t : ℝ) (s : Vec 14 × Vec 12) (arm : Fin 2) :
    let τ := a.goalT - a.startT
    armAng arm (a.update ops cd cdd dt t s).2 = armAng arm s.2 + (dt • (τ ^ 2)⁻¹ •
      (armAng arm a.alphaY * (armAng arm a.betaY * QuatStepArgs.diff ops (armRot arm a.goalY) (armRot arm s.1) -
        τ • armAng arm s.2 - a.smoothingRot ops (a.ft.phaseAt t) arm) + armAng arm (a.ft.force (a.ft.phaseAt t)) +
          armAng arm cdd) + τ⁻¹ • armAng arm cd) := by
  intro τ
  simp only [update, armAng_joinVel, smoothingRot]
  funext k
  cases a.smooth <;>
  · simp only [Pi.add_apply, Pi.smul_apply, Pi.mul_apply, Pi.sub_apply, smul_eq_mul, if_true, if_false, Bool.false_eq_true,
      Pi.zero_apply]
    ring

theorem update_armPos (a : DualStepArgs m) (ops : QuatOps) (cd cdd : Vec 12) (dt t : ℝ) (s : Vec 14 × Vec 12)
    (arm : Fin 2) : armPos arm (a.update ops cd cdd dt t s).1 =
      armPos arm s.1 + dt • armLin arm (a.update ops cd cdd dt t s).2 := by
  simp only [update, armPos_joinState, armLin_joinVel]
  rfl

theorem update_armRot (a : DualStepArgs m) (ops : QuatOps) (cd cdd : Vec 12) (dt t : ℝ) (s : Vec 14 × Vec 12)
    (arm : Fin 2) : armRot arm (a.update ops cd cdd dt t s).1 =
      ops.mul (ops.exp (dt • armAng arm (a.update ops cd cdd dt t s).2)) (armRot arm s.1) := by
  simp only [update, armRot_joinState, armAng_joinVel]
  rfl

/-- `cd`, `cdd` that a coupling term returns; without coupling term they keep their values. -/
def cds (o : Option DualCoupling) (s : (Vec 14 × Vec 12) × (Vec 12 × Vec 12)) : Vec 12 × Vec 12 :=
  match o with
  | some f => f s.1.1 s.1.2
  | none => s.2

theorem bodyPy_eq (a : DualStepArgs m) (ops : QuatOps) (dt t : ℝ) (s : (Vec 14 × Vec 12) × (Vec 12 × Vec 12)) :
    a.bodyPy ops dt t s = (a.update ops (cds a.coupling s).1 ((cds a.coupling s).2 + a.correction ops dt) dt t s.1,
      ((cds a.coupling s).1, (cds a.coupling s).2 + a.correction ops dt)) := rfl

theorem bodyCy_eq (a : DualStepArgs m) (dt t : ℝ) (s : Vec 14 × Vec 12) :
    a.bodyCy dt t s = a.update QuatOps.cython (cds a.coupling (s, (0, 0))).1
      ((cds a.coupling (s, (0, 0))).2 + a.correction QuatOps.cython dt) dt t s := rfl

/-- `a'` simulates `a` in other frames and with times multiplied by `c`. -/
structure Sim (ops : QuatOps) (U : Vec 4 → Prop) (F : DualFrame) (c : ℝ) (a a' : DualStepArgs m) : Prop where
  pos : 0 < c
  lin : F.Linear
  intDt : a'.intDt = c * a.intDt
  goalT : a'.goalT = c * a.goalT
  startT : a'.startT = c * a.startT
  goalY : a'.goalY = F.state a.goalY
  startY : a'.startY = F.state a.startY
  startYd : a'.startYd = c⁻¹ • F.vel a.startYd
  smooth : a'.smooth = a.smooth
  linAlpha : ∀ arm v, armLin arm a'.alphaY * F.P arm v = F.P arm (armLin arm a.alphaY * v)
  linBeta : ∀ arm v, armLin arm a'.betaY * F.P arm v = F.P arm (armLin arm a.betaY * v)
  angAlpha : ∀ arm v, armAng arm a'.alphaY * F.Q arm v = F.Q arm (armAng arm a.alphaY * v)
  angBeta : ∀ arm v, armAng arm a'.betaY * F.Q arm v = F.Q arm (armAng arm a.betaY * v)
  smoothBeta : a.smooth = true → ∀ (arm : Fin 2) v,
    (fun k : Fin 3 => a'.betaY ⟨7 * arm + k, by omega⟩) * F.P arm v =
      F.P arm ((fun k : Fin 3 => a.betaY ⟨7 * arm + k, by omega⟩) * v)
  phase : ∀ t, a'.ft.phaseAt (c * t) = a.ft.phaseAt t
  force : ∀ z, a'.ft.force z = F.vel (a.ft.force z)
  coupling : ∀ s : (Vec 14 × Vec 12) × (Vec 12 × Vec 12), (∀ arm, U (armRot arm s.1.1)) →
    cds a'.coupling ((F.state s.1.1, c⁻¹ • F.vel s.1.2), (F.vel s.2.1, F.vel s.2.2)) =
      (F.vel (cds a.coupling s).1, F.vel (cds a.coupling s).2)
  correction : ∀ dt, a'.correction ops (c * dt) = F.vel (a.correction ops dt)
  goalU : ∀ arm, U (armRot arm a.goalY)
  startU : ∀ arm, U (armRot arm a.startY)

theorem acc_img {c : ℝ} (hc : c ≠ 0) (L : Vec 3 →ₗ[ℝ] Vec 3) {α α' β β' : Vec 3} (hα : ∀ v, α' * L v = L (α * v))
    (hβ : ∀ v, β' * L v = L (β * v)) (τ dt : ℝ) (V D S f q p : Vec 3) :
    c⁻¹ • L V + ((c * dt) • ((c * τ) ^ 2)⁻¹ • (α' * (β' * L D - (c * τ) • c⁻¹ • L V - L S) + L f + L q) +
      (c * τ)⁻¹ • L p) = c⁻¹ • L (V + (dt • (τ ^ 2)⁻¹ • (α * (β * D - τ • V - S) + f + q) + τ⁻¹ • p)) := by
  have e1 : (c * τ) • c⁻¹ • L V = L (τ • V) := by
    rw [map_smul, smul_smul]; congr 1; field_simp
  rw [hβ, e1, ← map_sub, ← map_sub, hα, ← map_add, ← map_add]
  generalize α * (β * D - τ • V - S) + f + q = A
  simp only [map_add, map_smul, smul_add, smul_smul, mul_inv, mul_pow]
  congr 3
  field_simp

namespace Sim
variable {ops opsT : QuatOps} {U : Vec 4 → Prop} {F : DualFrame} {c : ℝ} {a a' : DualStepArgs m}

theorem smoothingPos (h : Sim ops U F c a a') (z : ℝ) (arm : Fin 2) :
    a'.smoothingPos z arm = F.P arm (a.smoothingPos z arm) := by
  have hl := h.lin.P arm
  cases hs : a.smooth with
  | false =>
    have e : ∀ b : DualStepArgs m, b.smooth = false → b.smoothingPos z arm = 0 := by
      intro b hb; funext k; simp [DualStepArgs.smoothingPos, hb]
    rw [e a hs, e a' (h.smooth.trans hs), hl.map_zero]
  | true =>
    have e : ∀ b : DualStepArgs m, b.smooth = true → b.smoothingPos z arm =
        z • ((fun k : Fin 3 => b.betaY ⟨7 * arm + k, by omega⟩) * (armPos arm b.goalY - armPos arm b.startY)) := by
      intro b hb; funext k; simp [DualStepArgs.smoothingPos, hb]; ring
    rw [e a hs, e a' (h.smooth.trans hs), hl.map_smul, ← h.smoothBeta hs arm, hl.map_sub, h.goalY, h.startY,
      F.armPos_state, F.armPos_state]
    congr 2
    abel

theorem smoothingRot (h : Sim ops U F c a a') (hF : F.Respects opsT ops U) (z : ℝ) (arm : Fin 2) :
    a'.smoothingRot ops z arm = F.Q arm (a.smoothingRot ops z arm) := by
  have hl := h.lin.Q arm
  unfold DualStepArgs.smoothingRot
  rw [h.smooth]
  split_ifs
  · rw [hl.map_smul, ← h.angBeta, h.goalY, h.startY, F.armRot_state, F.armRot_state,
      hF.diff arm _ _ (h.goalU arm) (h.startU arm)]
  · rw [hl.map_zero]

theorem update (h : Sim ops U F c a a') (hF : F.Respects opsT ops U) (cd cdd : Vec 12) (dt t : ℝ) (s : Vec 14 × Vec 12)
    (hs : ∀ arm, U (armRot arm s.1)) :
    a'.update ops (F.vel cd) (F.vel cdd) (c * dt) (c * t) (F.state s.1, c⁻¹ • F.vel s.2) =
      (F.state (a.update ops cd cdd dt t s).1, c⁻¹ • F.vel (a.update ops cd cdd dt t s).2) := by
  have hc := h.pos.ne'
  have hτ : a'.goalT - a'.startT = c * (a.goalT - a.startT) := by rw [h.goalT, h.startT]; ring
  have hlin : ∀ arm (v : Vec 12), armLin arm (c⁻¹ • v) = c⁻¹ • armLin arm v := fun _ _ => rfl
  have hang : ∀ arm (v : Vec 12), armAng arm (c⁻¹ • v) = c⁻¹ • armAng arm v := fun _ _ => rfl
  set r' := a'.update ops (F.vel cd) (F.vel cdd) (c * dt) (c * t) (F.state s.1, c⁻¹ • F.vel s.2) with hr'
  set r := a.update ops cd cdd dt t s with hr
  have h1 : ∀ arm, armLin arm r'.2 = c⁻¹ • F.P arm (armLin arm r.2) := by
    intro arm
    rw [hr', hr, update_lin, update_lin]
    simp only [hτ, h.phase, h.force, h.smoothingPos, hlin, h.goalY, F.armLin_vel, F.armPos_state]
    have hd : F.P arm (armPos arm a.goalY) + F.b arm - (F.P arm (armPos arm s.1) + F.b arm) =
        F.P arm (armPos arm a.goalY - armPos arm s.1) := by
      rw [(h.lin.P arm).map_sub]; abel
    rw [hd]
    exact acc_img hc ((h.lin.P arm).mk' _) (h.linAlpha arm) (h.linBeta arm) _ _ _ _ _ _ _ _
  have h2 : ∀ arm, armAng arm r'.2 = c⁻¹ • F.Q arm (armAng arm r.2) := by
    intro arm
    rw [hr', hr, update_ang, update_ang]
    simp only [hτ, h.phase, h.force, h.smoothingRot hF, hang, h.goalY, F.armAng_vel, F.armRot_state]
    rw [hF.diff arm _ _ (h.goalU arm) (hs arm)]
    exact acc_img hc ((h.lin.Q arm).mk' _) (h.angAlpha arm) (h.angBeta arm) _ _ _ _ _ _ _ _
  refine Prod.ext (state_ext (fun arm => ?_) (fun arm => ?_)) (vel_ext (fun arm => ?_) (fun arm => ?_))
  · show armPos arm r'.1 = armPos arm (F.state r.1)
    rw [F.armPos_state, hr', update_armPos, ← hr', h1, hr, update_armPos, ← hr, F.armPos_state]
    exact StepArgs.Sim.img_y hc (P := (h.lin.P arm).mk' _) _ _ _
  · show armRot arm r'.1 = armRot arm (F.state r.1)
    rw [F.armRot_state, hr', update_armRot, ← hr', h2, hr, update_armRot, ← hr, F.armRot_state, ← hF.mul arm _ _ (hs arm),
      (h.lin.Q arm).map_smul, smul_smul]
    congr 3
    field_simp
  · show armLin arm r'.2 = c⁻¹ • armLin arm (F.vel r.2)
    rw [h1, F.armLin_vel]
  · show armAng arm r'.2 = c⁻¹ • armAng arm (F.vel r.2)
    rw [h2, F.armAng_vel]

theorem update_U (hF : F.Respects opsT ops U) (a : DualStepArgs m) (cd cdd : Vec 12) (dt t : ℝ) (s : Vec 14 × Vec 12)
    (hs : ∀ arm, U (armRot arm s.1)) (arm : Fin 2) : U (armRot arm (a.update ops cd cdd dt t s).1) := by
  rw [update_armRot]; exact hF.unit _ _ (hs arm)

theorem start (h : Sim ops U F c a a') (t : ℝ) (s : Vec 14 × Vec 12) :
    (if c * t ≤ a'.startT then (a'.startY, a'.startYd) else (F.state s.1, c⁻¹ • F.vel s.2)) =
      (fun x : Vec 14 × Vec 12 => (F.state x.1, c⁻¹ • F.vel x.2)) (if t ≤ a.startT then (a.startY, a.startYd) else s) := by
  have : c * t ≤ a'.startT ↔ t ≤ a.startT := by rw [h.startT, mul_le_mul_iff_right₀ h.pos]
  simp only [this]
  split_ifs
  · rw [h.startY, h.startYd]
  · rfl

theorem start_U (h : Sim ops U F c a a') (t : ℝ) (s : Vec 14 × Vec 12) (hs : ∀ arm, U (armRot arm s.1)) (arm : Fin 2) :
    U (armRot arm (if t ≤ a.startT then (a.startY, a.startYd) else s).1) := by
  split_ifs
  · exact h.startU arm
  · exact hs arm

end Sim
end DualStepArgs

/-- A call of a step function in other frames. -/
theorem DualStepFunction.run_sim {sf : DualStepFunction} {opsT : QuatOps} {U : Vec 4 → Prop} {F : DualFrame} {c : ℝ}
    {a a' : DualStepArgs m} (h : DualStepArgs.Sim sf.ops U F c a a') (hF : F.Respects opsT sf.ops U) (lastT t : ℝ)
    (s : Vec 14 × Vec 12) (hs : ∀ arm, U (armRot arm s.1)) :
    sf.run a' (c * lastT) (c * t) (F.state s.1, c⁻¹ • F.vel s.2) =
      (sf.run a lastT t s).map (fun x => (F.state x.1, c⁻¹ • F.vel x.2)) := by
  have hadd : ∀ x y, F.vel (x + y) = F.vel x + F.vel y := (DualFrame.velL h.lin).map_add
  have hzero : F.vel 0 = 0 := (DualFrame.velL h.lin).map_zero
  cases sf with
  | python ops =>
    unfold DualStepFunction.run DualStepArgs.stepPy
    simp only
    rw [h.start, h.intDt]
    have := intLoop_map_inv (a.bodyPy ops) (a'.bodyPy ops)
      (fun x => ((F.state x.1.1, c⁻¹ • F.vel x.1.2), (F.vel x.2.1, F.vel x.2.2))) (fun x => ∀ arm, U (armRot arm x.1.1))
      h.pos a.intDt t (fun dt ct x hx arm => DualStepArgs.Sim.update_U hF a _ _ dt ct x.1 hx arm)
      (fun dt ct x hx => by
        rw [DualStepArgs.bodyPy_eq, DualStepArgs.bodyPy_eq, h.coupling x hx,
          show ops = (DualStepFunction.python ops).ops from rfl, h.correction]
        simp only
        rw [← hadd, h.update hF _ _ dt ct x.1 hx])
      lastT (if t ≤ a.startT then (a.startY, a.startYd) else s, (0, 0)) (h.start_U t s hs)
    simp only [hzero] at this
    rw [this]
    cases intLoop a.intDt t (a.bodyPy ops) lastT (if t ≤ a.startT then (a.startY, a.startYd) else s, (0, 0)) <;> rfl
  | cython =>
    unfold DualStepFunction.run DualStepArgs.stepCy
    simp only
    rw [h.start, h.intDt]
    exact intLoop_map_inv a.bodyCy a'.bodyCy (fun x => (F.state x.1, c⁻¹ • F.vel x.2)) (fun x => ∀ arm, U (armRot arm x.1))
      h.pos a.intDt t (fun dt ct x hx arm => DualStepArgs.Sim.update_U hF a _ _ dt ct x hx arm)
      (fun dt ct x hx => by
        rw [DualStepArgs.bodyCy_eq, DualStepArgs.bodyCy_eq]
        have hq := h.coupling (x, (0, 0)) hx
        simp only [hzero] at hq
        rw [hq, show QuatOps.cython = DualStepFunction.cython.ops from rfl, h.correction, ← hadd, h.update hF _ _ dt ct x hx])
      lastT _ (h.start_U t s hs)

namespace DualCartesianDMP

/-- `g` maps objects to objects in other frames and in another unit of time, for objects with the property `Good`. -/
structure ObjSim (opsT : QuatOps) (sf : DualStepFunction) (U : Vec 4 → Prop) (F : DualFrame) (c : ℝ)
    (coupling coupling' : Option DualCoupling) (Good : DualCartesianDMP m → Prop)
    (g : DualCartesianDMP m → DualCartesianDMP m) : Prop where
  pos : 0 < c
  respects : F.Respects opsT sf.ops U
  t : ∀ x, (g x).t = c * x.t
  dt : ∀ x, (g x).dt = c * x.dt
  reset : ∀ x, { g x with t := 0 } = g { x with t := 0 }
  goodReset : ∀ x, Good x → Good { x with t := 0 }
  good : ∀ x y v, Good x → (∀ arm, U (armRot arm y)) → Good (x.stepped y v)
  stepped : ∀ x y v, (g x).stepped (F.state y) (c⁻¹ • F.vel v) = g (x.stepped y v)
  sim : ∀ x y, Good x → (∀ arm, U (armRot arm y)) →
    DualStepArgs.Sim sf.ops U F c (x.stepArgs coupling (trackingError opsT x.reference y))
      ((g x).stepArgs coupling' (trackingError opsT (g x).reference (F.state y)))

namespace ObjSim
variable {opsT : QuatOps} {sf : DualStepFunction} {U : Vec 4 → Prop} {F : DualFrame} {c : ℝ}
  {coupling coupling' : Option DualCoupling} {Good : DualCartesianDMP m → Prop} {g : DualCartesianDMP m → DualCartesianDMP m}

theorem run (h : ObjSim opsT sf U F c coupling coupling' Good g) {s : DualCartesianDMP m} (hs : Good s) {y : Vec 14}
    (hy : ∀ arm, U (armRot arm y)) (v : Vec 12) :
    sf.run ((g s).stepArgs coupling' (trackingError opsT (g s).reference (F.state y))) (g s).t ((g s).t + (g s).dt)
        (F.state y, c⁻¹ • F.vel v) =
      (sf.run (s.stepArgs coupling (trackingError opsT s.reference y)) s.t (s.t + s.dt) (y, v)).map
        (fun x => (F.state x.1, c⁻¹ • F.vel x.2)) := by
  rw [h.t, h.dt, ← mul_add]
  exact DualStepFunction.run_sim (h.sim s y hs hy) h.respects _ _ (y, v) hy

theorem run_U (h : ObjSim opsT sf U F c coupling coupling' Good g) {s : DualCartesianDMP m} (hs : Good s) {y : Vec 14}
    (hy : ∀ arm, U (armRot arm y)) {v : Vec 12} {lastT t : ℝ} {r : Vec 14 × Vec 12}
    (hr : sf.run (s.stepArgs coupling (trackingError opsT s.reference y)) lastT t (y, v) = .ok r) :
    ∀ arm, U (armRot arm r.1) := by
  have hsim := h.sim s y hs hy
  set a := s.stepArgs coupling (trackingError opsT s.reference y)
  have hst := hsim.start_U t (y, v) hy
  have hF := h.respects
  cases sf with
  | python ops =>
    simp only [DualStepFunction.run, DualStepArgs.stepPy] at hr
    cases hi : intLoop a.intDt t (a.bodyPy ops) lastT
      ((if t ≤ a.startT then (a.startY, a.startYd) else (y, v)), (0, 0)) with
    | error e => rw [hi] at hr; cases hr
    | ok x =>
      rw [hi] at hr
      simp only [Except.map, Except.ok.injEq] at hr
      subst hr
      exact intLoop_inv (P := fun x : (Vec 14 × Vec 12) × (Vec 12 × Vec 12) => ∀ arm, U (armRot arm x.1.1))
        (fun dt ct x hx arm => DualStepArgs.Sim.update_U hF a _ _ dt ct x.1 hx arm) hst hi
  | cython =>
    simp only [DualStepFunction.run, DualStepArgs.stepCy] at hr
    exact intLoop_inv (P := fun x : Vec 14 × Vec 12 => ∀ arm, U (armRot arm x.1))
        (fun dt ct x hx arm => DualStepArgs.Sim.update_U hF a _ _ dt ct x hx arm) hst hr

theorem step (h : ObjSim opsT sf U F c coupling coupling' Good g) {s : DualCartesianDMP m} (hs : Good s) {y : Vec 14}
    (hy : ∀ arm, U (armRot arm y)) (v : Vec 12) :
    (DualCartesianDMP.step opsT coupling' sf (F.state y) (c⁻¹ • F.vel v)).exec (g s) =
      let r := (DualCartesianDMP.step opsT coupling sf y v).exec s
      (r.1.map (fun x => (F.state x.1, c⁻¹ • F.vel x.2)), g r.2) := by
  rw [exec_step, exec_step, h.run hs hy]
  cases sf.run (s.stepArgs coupling (trackingError opsT s.reference y)) s.t (s.t + s.dt) (y, v) with
  | error e => simp only [Except.map]; rw [h.stepped]
  | ok r => simp only [Except.map]; rw [h.stepped]

theorem loop (h : ObjSim opsT sf U F c coupling coupling' Good g) {s : DualCartesianDMP m} (hs : Good s)
    (hst : ∀ arm, U (armRot arm s.startY)) (hst' : (g s).startY = F.state s.startY ∧ (g s).startYd = c⁻¹ • F.vel s.startYd)
    (runT : ℝ) :
    let r := DualCartesianDMP.loop opsT coupling sf runT s
    let r' := DualCartesianDMP.loop opsT coupling' sf (c * runT) (g s)
    r'.1.map (fun x => (x.T, x.Y)) = r.1.map (fun x => (x.T.map (c * ·), x.Y.map F.state)) ∧ r'.2 = g r.2 := by
  intro r r'
  have hw := Py.while_rel
    (cond := fun x : DualCartesianDMP m => x.t < runT) (body := loopBody opsT coupling sf)
    (cond' := fun x : DualCartesianDMP m => x.t < c * runT) (body' := loopBody opsT coupling' sf)
    (R := fun l x l' x' => x' = g x ∧ Good x ∧ (∀ arm, U (armRot arm l.y)) ∧
      l' = { y := F.state l.y, yd := c⁻¹ • F.vel l.yd, T := l.T.map (c * ·), Y := l.Y.map F.state })
    (RE := fun x x' => x' = g x)
    (by
      rintro l x _ _ ⟨rfl, -, -, -⟩
      rw [h.t, mul_lt_mul_iff_right₀ h.pos])
    (by
      rintro l x _ _ ⟨rfl, hx, hl, rfl⟩
      rw [exec_loopBody, exec_loopBody]
      simp only
      rw [h.run hx hl]
      cases hr : sf.run (x.stepArgs coupling (trackingError opsT x.reference l.y)) x.t (x.t + x.dt) (l.y, l.yd) with
      | error e => exact .inr ⟨e, _, _, rfl, rfl, by rw [h.stepped]⟩
      | ok r =>
        have hu := h.run_U hx hl hr
        refine .inl ⟨_, _, _, _, rfl, rfl, by rw [h.stepped], h.good _ _ _ hx hu, hu, ?_⟩
        simp only [List.map_append, List.map_cons, List.map_nil, h.t, h.dt, mul_add])
    (fun _ _ _ _ h => h.1)
    (x := ⟨s.startY, s.startYd, [0], [s.startY]⟩) (s := { s with t := 0 })
    (x' := ⟨(g s).startY, (g s).startYd, [0], [(g s).startY]⟩) (s' := { g s with t := 0 })
    ⟨h.reset s, h.goodReset s hs, hst, by simp [hst'.1, hst'.2]⟩
  rcases hw with ⟨l, x, l', x', h1, h2, h3, -, -, h4⟩ | ⟨e, x, x', h1, h2, h3⟩
  · have e1 : r = (.ok l, x) := h1
    have e2 : r' = (.ok l', x') := h2
    rw [e1, e2, h3, h4]
    exact ⟨rfl, rfl⟩
  · have e1 : r = (.error e, x) := h1
    have e2 : r' = (.error e, x') := h2
    rw [e1, e2, h3]
    exact ⟨rfl, rfl⟩

end ObjSim

theorem openLoop_sim {opsT : QuatOps} {U : Vec 4 → Prop} {F : DualFrame} {c : ℝ}
    {coupling coupling' : Option DualCoupling} {Good : DualCartesianDMP m → Prop} {g : DualCartesianDMP m → DualCartesianDMP m}
    (h : ∀ sf, sf = .python opsT ∨ sf = .cython → ObjSim opsT sf U F c coupling coupling' Good g) {s : DualCartesianDMP m}
    (hs : Good s) (hst : ∀ arm, U (armRot arm s.startY))
    (hst' : (g s).startY = F.state s.startY ∧ (g s).startYd = c⁻¹ • F.vel s.startYd)
    (hτ : (g s).executionTime = c * s.executionTime) (runT : Option ℝ) (name : String) :
    (DualCartesianDMP.openLoop opsT (runT.map (c * ·)) coupling' name).exec (g s) =
      let r := (DualCartesianDMP.openLoop opsT runT coupling name).exec s
      (r.1.map (fun x => (x.1.map (c * ·), x.2.map F.state)), g r.2) := by
  rw [exec_openLoop, exec_openLoop]
  have hrun : (runT.map (c * ·)).getD (g s).executionTime = c * runT.getD s.executionTime := by
    cases runT
    · exact hτ
    · rfl
  rw [hrun]
  cases hl : DualStepFunction.lookup opsT name with
  | error e => rfl
  | ok sf =>
    have hsf : sf = .python opsT ∨ sf = .cython := by
      unfold DualStepFunction.lookup at hl
      split_ifs at hl
      · left; cases hl; rfl
      · right; cases hl; rfl
    obtain ⟨h1, h2⟩ := (h sf hsf).loop hs hst hst' (runT.getD s.executionTime)
    simp only
    rcases hr : loop opsT coupling sf (runT.getD s.executionTime) s with ⟨r, x⟩
    rcases hr' : loop opsT coupling' sf (c * runT.getD s.executionTime) (g s) with ⟨r', x'⟩
    rw [hr, hr'] at h1 h2
    simp only at h1 h2
    subst h2
    cases r with
    | error e =>
      cases r' with
      | error e' => simp only [Except.map, Except.error.injEq] at h1; rw [h1]; rfl
      | ok l' => simp [Except.map] at h1
    | ok l =>
      cases r' with
      | error e' => simp [Except.map] at h1
      | ok l' =>
        simp only [Except.map, Except.ok.injEq, Prod.mk.injEq] at h1
        simp only [Except.map, h1.1, h1.2, (h sf hsf).reset]

end DualCartesianDMP
end Verif
