import Verif.Props.Frames
import Verif.Props.SpringDamper

/-!
# C72, C73: other coordinate frames for spring-damper systems
-/

namespace Verif
open Spec Quaternion
variable {d d' : ℕ}

/-! ## Positions -/

theorem springDamperBody_mapped (P : Vec d →ₗ[ℝ] Vec d') (b : Vec d') {coupling : Option (Coupling d)}
    {coupling' : Option (Coupling d')} (hc : CouplingMapped P b coupling coupling') (goalY : Vec d) (k c dt t : ℝ)
    (s : Vec d × Vec d) :
    springDamperBody (P goalY + b) k c coupling' none dt t (P s.1 + b, P s.2) =
      (P (springDamperBody goalY k c coupling none dt t s).1 + b, P (springDamperBody goalY k c coupling none dt t s).2) := by
  have hq : sdCoupling coupling' none (P s.1 + b, P s.2) =
      (P (sdCoupling coupling none s).1, P (sdCoupling coupling none s).2) := by
    cases coupling <;> cases coupling'
    · simp [sdCoupling]
    · exact hc.elim
    · exact hc.elim
    · exact hc s.1 s.2
  unfold springDamperBody
  simp only [hq]
  generalize sdCoupling coupling none s = q
  have e1 : (fun i => s.2 i + (dt * (k * (goalY i - s.1 i) - c * s.2 i + q.2 i) + q.1 i)) =
      s.2 + (dt • (k • (goalY - s.1) - c • s.2 + q.2) + q.1) := rfl
  have e2 : (fun i => (P s.2) i + (dt * (k * ((P goalY + b) i - (P s.1 + b) i) - c * (P s.2) i + (P q.2) i) + (P q.1) i)) =
      P (s.2 + (dt • (k • (goalY - s.1) - c • s.2 + q.2) + q.1)) := by
    simp only [map_add, map_smul, map_sub]
    funext i
    simp only [Pi.add_apply, Pi.smul_apply, Pi.sub_apply, smul_eq_mul]
    ring
  refine Prod.ext ?_ ?_
  · show (fun i => (P s.1 + b) i + dt * (fun i => (P s.2) i + (dt * (k * ((P goalY + b) i - (P s.1 + b) i) -
      c * (P s.2) i + (P q.2) i) + (P q.1) i)) i) = P (fun i => s.1 i + dt *
        (fun i => s.2 i + (dt * (k * (goalY i - s.1 i) - c * s.2 i + q.2 i) + q.1 i)) i) + b
    rw [e1, e2]
    generalize s.2 + (dt • (k • (goalY - s.1) - c • s.2 + q.2) + q.1) = v
    rw [show (fun i => s.1 i + dt * v i) = s.1 + dt • v from rfl, map_add, map_smul]
    funext i
    simp only [Pi.add_apply, Pi.smul_apply, smul_eq_mul]
    ring
  · show (fun i => (P s.2) i + (dt * (k * ((P goalY + b) i - (P s.1 + b) i) - c * (P s.2) i + (P q.2) i) + (P q.1) i)) =
      P (fun i => s.2 i + (dt * (k * (goalY i - s.1 i) - c * s.2 i + q.2 i) + q.1 i))
    rw [e1, e2]

theorem springDamperStep_mapped (P : Vec d →ₗ[ℝ] Vec d') (b : Vec d') {coupling : Option (Coupling d)}
    {coupling' : Option (Coupling d')} (hc : CouplingMapped P b coupling coupling') (goalY : Vec d) (k : ℝ) (c : Option ℝ)
    (intDt lastT t : ℝ) (s : Vec d × Vec d) :
    springDamperStep (P goalY + b) k c coupling' none intDt lastT t (P s.1 + b, P s.2) =
      (springDamperStep goalY k c coupling none intDt lastT t s).map (fun x => (P x.1 + b, P x.2)) := by
  unfold springDamperStep
  exact intLoop_map _ _ (fun x : Vec d × Vec d => (P x.1 + b, P x.2)) intDt t
    (fun dt ct s => springDamperBody_mapped P b hc goalY k _ dt ct s) lastT s

/-- **C73 (spring-damper, step).** Spring-damper systems do not depend on the choice of coordinates: an affine map of
start, goal and state maps the result. -/
theorem C73_spring_damper_step (s : SpringDamper d) (P : Vec d →ₗ[ℝ] Vec d') (b : Vec d')
    {coupling : Option (Coupling d)} {coupling' : Option (Coupling d')} (hc : CouplingMapped P b coupling coupling')
    (lastY lastYd : Vec d) :
    (SpringDamper.step coupling' (P lastY + b) (P lastYd)).exec (s.mapped P b) =
      let r := (SpringDamper.step coupling lastY lastYd).exec s
      (r.1.map (fun x => (P x.1 + b, P x.2)), r.2.mapped P b) := by
  rw [SpringDamper.exec_step, SpringDamper.exec_step]
  have h := springDamperStep_mapped P b hc s.goalY s.k s.c s.intDt s.t (s.t + s.dt) (lastY, lastYd)
  have e : springDamperStep (s.mapped P b).goalY (s.mapped P b).k (s.mapped P b).c coupling' none (s.mapped P b).intDt
      (s.mapped P b).t ((s.mapped P b).t + (s.mapped P b).dt) (P lastY + b, P lastYd) =
      springDamperStep (P s.goalY + b) s.k s.c coupling' none s.intDt s.t (s.t + s.dt) (P lastY + b, P lastYd) := rfl
  rw [e, h]
  cases springDamperStep s.goalY s.k s.c coupling none s.intDt s.t (s.t + s.dt) (lastY, lastYd) <;> rfl

/-- **C73 (spring-damper, open_loop).** -/
theorem C73_spring_damper_open_loop (s : SpringDamper d) (P : Vec d →ₗ[ℝ] Vec d') (b : Vec d')
    {coupling : Option (Coupling d)} {coupling' : Option (Coupling d')} (hc : CouplingMapped P b coupling coupling')
    (runT : ℝ) :
    ((SpringDamper.openLoop runT coupling').exec (s.mapped P b)).1 =
      ((SpringDamper.openLoop runT coupling).exec s).1.map (fun r => (r.1, r.2.map (fun y => P y + b))) := by
  have h := openLoopWith_map_inv (goalT := runT) (startT := 0) (dt := s.dt) one_pos (s.startY, (0 : Vec d)) (some runT)
    (springDamperStep s.goalY s.k s.c coupling none s.intDt)
    (springDamperStep (P s.goalY + b) s.k s.c coupling' none s.intDt) (fun y => P y + b) (fun v => P v)
    (fun _ => True) trivial (fun _ _ _ _ _ _ => trivial)
    (fun a b' x _ => by rw [one_mul, one_mul]; exact springDamperStep_mapped P b hc s.goalY s.k s.c s.intDt a b' x)
  simp only [one_mul, Option.map_id', List.map_id', map_zero] at h
  exact h

/-! ## Orientations -/

theorem springDamperQuatStep_mapped {ops : QuatOps} {eps : ℝ} (h : LawfulQuatOps ops eps) {fy : Vec 4 → Vec 4}
    (fv : Vec 3 →ₗ[ℝ] Vec 3)
    (hd : ∀ a b, UnitQuat a → UnitQuat b → QuatStepArgs.diff ops (fy a) (fy b) = fv (QuatStepArgs.diff ops a b))
    (hm : ∀ v q, UnitQuat q → ops.mul (ops.exp (fv v)) (fy q) = fy (ops.mul (ops.exp v) q))
    {coupling coupling' : Option RotCoupling} (hc : RotCouplingMapped fy fv coupling coupling') {goalY : Vec 4}
    (hg : UnitQuat goalY) (k : ℝ) (c : Option ℝ) (intDt lastT t : ℝ) (s : Vec 4 × Vec 3) (hs : UnitQuat s.1) :
    springDamperQuatStep ops (fy goalY) k c coupling' none intDt lastT t (fy s.1, fv s.2) =
      (springDamperQuatStep ops goalY k c coupling none intDt lastT t s).map (fun x => (fy x.1, fv x.2)) := by
  unfold springDamperQuatStep
  generalize defaultDamping c k = c
  have := intLoop_map_inv (springDamperQuatBody ops goalY k c coupling none)
    (springDamperQuatBody ops (fy goalY) k c coupling' none) (fun x : Vec 4 × Vec 3 => (fy x.1, fv x.2))
    (fun x => UnitQuat x.1) one_pos intDt t
    (fun dt ct s hs => springDamperQuatBody_unit h goalY k c coupling none dt ct hs) (by
      intro dt ct s hs
      rw [one_mul, one_mul]
      have hq : sdCoupling coupling' none (fy s.1, fv s.2) =
          (fv (sdCoupling coupling none s).1, fv (sdCoupling coupling none s).2) := by
        cases coupling <;> cases coupling'
        · simp [sdCoupling]
        · exact hc.elim
        · exact hc.elim
        · exact hc s.1 s.2 hs
      unfold springDamperQuatBody
      simp only [hq, hd _ _ hg hs]
      generalize sdCoupling coupling none s = q
      generalize QuatStepArgs.diff ops goalY s.1 = e
      have e1 : (fun i => s.2 i + (dt * (k * e i - c * s.2 i + q.2 i) + q.1 i)) =
          s.2 + (dt • (k • e - c • s.2 + q.2) + q.1) := rfl
      have e2 : (fun i => (fv s.2) i + (dt * (k * (fv e) i - c * (fv s.2) i + (fv q.2) i) + (fv q.1) i)) =
          fv (s.2 + (dt • (k • e - c • s.2 + q.2) + q.1)) := by
        simp only [map_add, map_smul, map_sub]
        rfl
      refine Prod.ext ?_ ?_
      · show ops.mul (ops.exp (fun i => dt * (fun i => (fv s.2) i + (dt * (k * (fv e) i - c * (fv s.2) i + (fv q.2) i) +
          (fv q.1) i)) i)) (fy s.1) = fy (ops.mul (ops.exp (fun i => dt *
            (fun i => s.2 i + (dt * (k * e i - c * s.2 i + q.2 i) + q.1 i)) i)) s.1)
        rw [e1, e2]
        generalize s.2 + (dt • (k • e - c • s.2 + q.2) + q.1) = v
        rw [← hm _ _ hs, show (fun i => dt * v i) = dt • v from rfl, map_smul]
        rfl
      · exact e2.trans (congrArg fv e1.symm)) lastT s hs
  simpa only [one_mul] using this

theorem SpringDamperOrientation.step_mapped {ops : QuatOps} {eps : ℝ} (h : LawfulQuatOps ops eps)
    (s : SpringDamperOrientation) {fy : Vec 4 → Vec 4} (fv : Vec 3 →ₗ[ℝ] Vec 3)
    (hd : ∀ a b, UnitQuat a → UnitQuat b → QuatStepArgs.diff ops (fy a) (fy b) = fv (QuatStepArgs.diff ops a b))
    (hm : ∀ v q, UnitQuat q → ops.mul (ops.exp (fv v)) (fy q) = fy (ops.mul (ops.exp v) q))
    {coupling coupling' : Option RotCoupling} (hc : RotCouplingMapped fy fv coupling coupling')
    (hg : UnitQuat s.goalY) {lastY : Vec 4} (hy : UnitQuat lastY) (lastYd : Vec 3) :
    (SpringDamperOrientation.step ops coupling' (fy lastY) (fv lastYd)).exec (s.mapped fy fv) =
      let r := (SpringDamperOrientation.step ops coupling lastY lastYd).exec s
      (r.1.map (fun x => (fy x.1, fv x.2)), r.2.mapped fy fv) := by
  rw [SpringDamperOrientation.exec_step, SpringDamperOrientation.exec_step]
  have h := springDamperQuatStep_mapped h fv hd hm hc hg s.k s.c s.intDt s.t (s.t + s.dt) (lastY, lastYd) hy
  have e : springDamperQuatStep ops (s.mapped fy fv).goalY (s.mapped fy fv).k (s.mapped fy fv).c coupling' none
      (s.mapped fy fv).intDt (s.mapped fy fv).t ((s.mapped fy fv).t + (s.mapped fy fv).dt) (fy lastY, fv lastYd) =
      springDamperQuatStep ops (fy s.goalY) s.k s.c coupling' none s.intDt s.t (s.t + s.dt) (fy lastY, fv lastYd) := rfl
  rw [e, h]
  cases springDamperQuatStep ops s.goalY s.k s.c coupling none s.intDt s.t (s.t + s.dt) (lastY, lastYd) <;> rfl

theorem SpringDamperOrientation.openLoop_mapped {ops : QuatOps} {eps : ℝ} (h : LawfulQuatOps ops eps)
    (s : SpringDamperOrientation) {fy : Vec 4 → Vec 4} (fv : Vec 3 →ₗ[ℝ] Vec 3)
    (hd : ∀ a b, UnitQuat a → UnitQuat b → QuatStepArgs.diff ops (fy a) (fy b) = fv (QuatStepArgs.diff ops a b))
    (hm : ∀ v q, UnitQuat q → ops.mul (ops.exp (fv v)) (fy q) = fy (ops.mul (ops.exp v) q))
    {coupling coupling' : Option RotCoupling} (hc : RotCouplingMapped fy fv coupling coupling')
    (hs : UnitQuat s.startY) (hg : UnitQuat s.goalY) (runT : ℝ) :
    ((SpringDamperOrientation.openLoop ops runT coupling').exec (s.mapped fy fv)).1 =
      ((SpringDamperOrientation.openLoop ops runT coupling).exec s).1.map (fun r => (r.1, r.2.map fy)) := by
  have h := openLoopWith_map_inv (goalT := runT) (startT := 0) (dt := s.dt) one_pos (s.startY, (0 : Vec 3)) (some runT)
    (springDamperQuatStep ops s.goalY s.k s.c coupling none s.intDt)
    (springDamperQuatStep ops (fy s.goalY) s.k s.c coupling' none s.intDt) fy fv
    (fun x => UnitQuat x.1) hs (fun a b x x' hx h' => C31_spring_damper_function h hx h')
    (fun a b' x hx => by
      rw [one_mul, one_mul]; exact springDamperQuatStep_mapped h fv hd hm hc hg s.k s.c s.intDt a b' x hx)
  simp only [one_mul, Option.map_id', List.map_id', map_zero] at h
  exact h

/-- **C72 (spring-damper).** The motion of a spring-damper system for orientations does not depend on the choice of the
body frame: `q` becomes `q r` for start, goal and all results of `open_loop` and `step`; angular velocities are the same. -/
theorem C72_spring_damper {ops : QuatOps} {eps : ℝ} (h : LawfulQuatOps ops eps) (s : SpringDamperOrientation)
    {r : Vec 4} (hr : UnitQuat r) {coupling coupling' : Option RotCoupling}
    (hc : RotCouplingMapped (turned r) id coupling coupling') (hg : UnitQuat s.goalY) :
    (UnitQuat s.startY → ∀ runT, ((SpringDamperOrientation.openLoop ops runT coupling').exec (s.mapped (turned r) id)).1 =
      ((SpringDamperOrientation.openLoop ops runT coupling).exec s).1.map (fun x => (x.1, x.2.map (turned r)))) ∧
    (∀ lastY lastYd, UnitQuat lastY →
      (SpringDamperOrientation.step ops coupling' (turned r lastY) lastYd).exec (s.mapped (turned r) id) =
        let x := (SpringDamperOrientation.step ops coupling lastY lastYd).exec s
        (x.1.map (fun y => (turned r y.1, y.2)), x.2.mapped (turned r) id)) := by
  have hd : ∀ a b, UnitQuat a → UnitQuat b → QuatStepArgs.diff ops (turned r a) (turned r b) =
      LinearMap.id (R := ℝ) (QuatStepArgs.diff ops a b) := fun a b ha hb => diff_turned h hr ha hb
  have hm : ∀ v q, UnitQuat q → ops.mul (ops.exp (LinearMap.id (R := ℝ) v)) (turned r q) =
      turned r (ops.mul (ops.exp v) q) := fun v q hq => mul_turned h hr (LawfulQuatOps.unit_exp h v) hq
  exact ⟨fun hs runT => SpringDamperOrientation.openLoop_mapped h s LinearMap.id hd hm hc hs hg runT,
    fun y yd hy => SpringDamperOrientation.step_mapped h s LinearMap.id hd hm hc hg hy yd⟩

/-- **C73 (spring-damper, orientations).** The motion does not depend on the choice of the world frame: `q` becomes `p q`,
angular velocities are rotated by `p`. -/
theorem C73_spring_damper_orientation {ops : QuatOps} {eps : ℝ} (h : LawfulQuatOps ops eps) (hlog : LogRotates ops)
    (s : SpringDamperOrientation) {p : Vec 4} (hp : UnitQuat p) {coupling coupling' : Option RotCoupling}
    (hc : RotCouplingMapped (turnedWorld p) (rotated p) coupling coupling') (hg : UnitQuat s.goalY) :
    (UnitQuat s.startY → ∀ runT,
      ((SpringDamperOrientation.openLoop ops runT coupling').exec (s.mapped (turnedWorld p) (rotated p))).1 =
      ((SpringDamperOrientation.openLoop ops runT coupling).exec s).1.map (fun x => (x.1, x.2.map (turnedWorld p)))) ∧
    (∀ lastY lastYd, UnitQuat lastY →
      (SpringDamperOrientation.step ops coupling' (turnedWorld p lastY) (rotated p lastYd)).exec
          (s.mapped (turnedWorld p) (rotated p)) =
        let x := (SpringDamperOrientation.step ops coupling lastY lastYd).exec s
        (x.1.map (fun y => (turnedWorld p y.1, rotated p y.2)), x.2.mapped (turnedWorld p) (rotated p))) := by
  have hd : ∀ a b, UnitQuat a → UnitQuat b → QuatStepArgs.diff ops (turnedWorld p a) (turnedWorld p b) =
      rotL p (QuatStepArgs.diff ops a b) := fun a b ha hb => diff_world h hlog hp ha hb
  have hm : ∀ v q, UnitQuat q → ops.mul (ops.exp (rotL p v)) (turnedWorld p q) =
      turnedWorld p (ops.mul (ops.exp v) q) := fun v q hq => mul_world h hp v hq
  exact ⟨fun hs runT => SpringDamperOrientation.openLoop_mapped h s (rotL p) hd hm hc hs hg runT,
    fun y yd hy => SpringDamperOrientation.step_mapped h s (rotL p) hd hm hc hg hy yd⟩

/-- The hypotheses hold for the functions of pytransform3d, a system configured with two different orientations, and no
coupling term. -/
example : LawfulQuatOps (QuatOps.python (1 / 10 ^ 7)) (1 / 10 ^ 7) ∧ LogRotates (QuatOps.python (1 / 10 ^ 7)) ∧
    UnitQuat ![3 / 5, 0, 4 / 5, 0] ∧ RotCouplingMapped (turned ![3 / 5, 0, 4 / 5, 0]) id none none ∧
    let s' := ((SpringDamperOrientation.configure { startY := some [1, 0, 0, 0], goalY := some [0, 1, 0, 0] }).exec
      (SpringDamperOrientation.create (1 / 100) 1 none (1 / 1000))).2
    UnitQuat s'.startY ∧ UnitQuat s'.goalY := by
  refine ⟨lawful_python (by norm_num), logRotates_python _, by simp [UnitQuat]; norm_num, trivial, ?_⟩
  have e1 : ([1, 0, 0, 0] : List ℝ) = List.ofFn (![1, 0, 0, 0] : Vec 4) := by simp [List.ofFn_succ]
  have e2 : ([0, 1, 0, 0] : List ℝ) = List.ofFn (![0, 1, 0, 0] : Vec 4) := by simp [List.ofFn_succ]
  have e : (SpringDamperOrientation.configure { startY := some [1, 0, 0, 0], goalY := some [0, 1, 0, 0] }).exec
      (SpringDamperOrientation.create (1 / 100) 1 none (1 / 1000)) =
    (.ok (), { SpringDamperOrientation.create (1 / 100) 1 none (1 / 1000) with
      startY := ![1, 0, 0, 0], goalY := ![0, 1, 0, 0] }) := by
    rw [e1, e2]
    unfold SpringDamperOrientation.configure
    simp only [Py.exec_zoom, movement_configure_rows]
  simp only [e]
  constructor <;> simp [UnitQuat]

end Verif
