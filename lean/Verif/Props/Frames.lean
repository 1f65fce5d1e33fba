import Verif.Lemmas.FramesImitate
import Verif.Props.CartesianImitate
import Verif.Props.Equivariance
import Verif.Spec.CartesianHistory

/-!
# C13, C14, C72, C73: other coordinate frames, linear maps, translations and time scaling of poses
-/

namespace Verif
open Spec Quaternion
variable {d d' m n : ℕ}

/-! ## C72: choice of the body frame -/

theorem map_comp_id {α β ε : Type} (x : Except ε (List α × β)) : x.map (fun r => (r.1.map (fun t => t), r.2)) = x := by
  cases x <;> simp [Except.map]

/-- **C72 (open_loop).** Choose the frame that is fixed to the body differently (`q` becomes `q r` for start and goal):
`open_loop` gives the same motion of the body, described with the new frame. In particular the positions and the time
stamps are the same, and with `r = -1` (start and goal given by the other one of the two quaternions of the same rotation)
the rotations are the same. -/
theorem C72_body_frame_open_loop (s : CartesianDMP m) {ops : QuatOps} {eps : ℝ} (h0 : 0 < eps)
    (h : LawfulQuatOps ops eps) {r : Vec 4} (hr : UnitQuat r) (hs : UnitQuat (orientation s.startY))
    (hg : UnitQuat (orientation s.goalY)) (runT : Option ℝ) (coupling : Option PoseCoupling) (name qname : String) :
    ((CartesianDMP.openLoop ops runT (coupling.map (PoseCoupling.turned r)) name qname).exec (s.turned r)).1 =
      ((CartesianDMP.openLoop ops runT coupling name qname).exec s).1.map (fun x => (x.1, x.2.map (turnedPose r))) := by
  rw [orientation_eq] at hs hg
  have hp : (s.posOpenLoopArgs coupling).Sim ((s.turned r).posOpenLoopArgs (coupling.map (PoseCoupling.turned r))) 1
      LinearMap.id 0 := by
    have e : (s.turned r).posOpenLoopArgs (coupling.map (PoseCoupling.turned r)) =
        (s.posOpenLoopArgs coupling).shift 0 := by
      unfold CartesianDMP.posOpenLoopArgs CartesianDMP.posArgs CartesianDMP.turned StepArgs.shift
      simp only [turnedPose_eq, sliceTo_poseMap, id, add_zero, sub_zero, Option.map_map]
      cases coupling <;> rfl
    rw [e]; exact sim_translate _ 0
  have hr' : ∀ qf : QuatStepFunction, qf = .python ops ∨ qf = .cython →
      QuatStepArgs.Sim qf (s.rotOpenLoopArgs coupling)
        ((s.turned r).rotOpenLoopArgs (coupling.map (PoseCoupling.turned r))) 1 (turned r) id := by
    intro qf hqf
    have e : (s.turned r).rotOpenLoopArgs (coupling.map (PoseCoupling.turned r)) =
        (s.rotOpenLoopArgs coupling).turn r := by
      unfold CartesianDMP.rotOpenLoopArgs CartesianDMP.rotArgs CartesianDMP.turned QuatStepArgs.turn
      simp only [turnedPose_eq, sliceFrom_poseMap, Option.map_map]
      cases coupling <;> rfl
    rw [e]
    refine QuatStepArgs.sim_turn _ ?_ hr hg hs
    rcases hqf with rfl | rfl
    · exact ⟨eps, h0, h⟩
    · trivial
  have := CartesianDMP.exec_openLoop_sim (runT := runT) hp (gy := turned r) (fun qf hqf => (hr' qf hqf).openLoop s.dt runT)
    (one_mul _).symm name qname
  simp only [one_mul, Option.map_id', List.map_id', LinearMap.id_apply, add_zero] at this
  rw [turnedPose_eq]
  exact this

/-- **C72 (step).** The same for one call of `step`: the orientation that is passed and the one that is returned refer to
the new body frame, velocities are the same, and the object is again the turned object. -/
theorem C72_body_frame_step (s : CartesianDMP m) {sf : StepFunction} {qf : QuatStepFunction} (hqf : LawfulStep qf)
    {r : Vec 4} (hr : UnitQuat r) (hs : UnitQuat (orientation s.startY)) (hg : UnitQuat (orientation s.goalY))
    (coupling : Option PoseCoupling) {lastY : Vec (3 + 4)} (hy : UnitQuat (orientation lastY)) (lastYd : Vec (3 + 3)) :
    (CartesianDMP.step (coupling.map (PoseCoupling.turned r)) sf qf (turnedPose r lastY) lastYd).exec (s.turned r) =
      let q := (CartesianDMP.step coupling sf qf lastY lastYd).exec s
      (q.1.map (fun x => (turnedPose r x.1, x.2)), q.2.turned r) := by
  rw [orientation_eq] at hs hg hy
  have hp : (s.posArgs coupling).Sim ((s.turned r).posArgs (coupling.map (PoseCoupling.turned r))) 1 LinearMap.id 0 := by
    have e : (s.turned r).posArgs (coupling.map (PoseCoupling.turned r)) = (s.posArgs coupling).shift 0 := by
      unfold CartesianDMP.posArgs CartesianDMP.turned StepArgs.shift
      simp only [turnedPose_eq, sliceTo_poseMap, id, add_zero, sub_zero, Option.map_map]
      cases coupling <;> rfl
    rw [e]; exact sim_translate _ 0
  have hq : QuatStepArgs.Sim qf (s.rotArgs coupling) ((s.turned r).rotArgs (coupling.map (PoseCoupling.turned r))) 1
      (turned r) id := by
    have e : (s.turned r).rotArgs (coupling.map (PoseCoupling.turned r)) = (s.rotArgs coupling).turn r := by
      unfold CartesianDMP.rotArgs CartesianDMP.turned QuatStepArgs.turn
      simp only [turnedPose_eq, sliceFrom_poseMap, Option.map_map]
      cases coupling <;> rfl
    rw [e]
    exact QuatStepArgs.sim_turn _ hqf hr hg hs
  have hvel : velMap (fun v => (1 : ℝ)⁻¹ • (LinearMap.id : Vec 3 →ₗ[ℝ] Vec 3) v) id = fun v : Vec (3 + 3) => v := by
    funext v; simp only [inv_one, one_smul]; exact velMap_id v
  have hpose : poseMap (fun x => (LinearMap.id : Vec 3 →ₗ[ℝ] Vec 3) x + (0 : Vec 3)) (turned r) = turnedPose r := by
    rw [turnedPose_eq]; simp only [LinearMap.id_apply, add_zero]; rfl
  have := CartesianDMP.exec_step_sim (sf := sf) hp (hq.run s.t (s.t + s.dt) (sliceFrom lastY, sliceFrom lastYd) hy)
    (one_mul _).symm (one_mul _).symm (CartesianDMP.turned r) (by
      intro y yd
      rw [hpose, hvel]
      rfl)
  rw [hpose, hvel] at this
  exact this

/-- **C72 (imitate).** A demonstration that refers to the new body frame gives the same weights, and start and goal in the
new frame: the result of `imitate` is the turned object. `quaternion_gradient` of pytransform3d must not depend on the body
frame for the demonstration; see `C72_quaternion_gradient`. -/
theorem C72_body_frame_imitate (s : CartesianDMP m) {ops : QuatOps} {eps : ℝ} (h : LawfulQuatOps ops eps)
    {qgrad : (Fin (n + 2) → Vec 4) → Fin (n + 2) → Vec 3} {r : Vec 4} (hr : UnitQuat r) (T : Fin (n + 2) → ℝ)
    (Y : Fin (n + 2) → Vec (3 + 4)) (hY : ∀ t, UnitQuat (orientation (Y t)))
    (hq : qgrad (fun t => turned r (orientation (Y t))) = qgrad (fun t => orientation (Y t))) (reg : ℝ) (afv : Bool) :
    (CartesianDMP.imitate ops qgrad T (fun t => turnedPose r (Y t)) reg afv).exec (s.turned r) =
      let q := (CartesianDMP.imitate ops qgrad T Y reg afv).exec s
      (q.1, q.2.turned r) := by
  simp only [orientation_eq] at hY hq
  rw [CartesianDMP.exec_imitate, CartesianDMP.exec_imitate]
  have e1 : (fun t => sliceTo (turnedPose r (Y t))) = fun t => sliceTo (Y t) := by
    funext t; rw [turnedPose_eq, sliceTo_poseMap]; rfl
  have e2 : (fun t => sliceFrom (turnedPose r (Y t))) = fun t => turned r (sliceFrom (Y t)) := by
    funext t; rw [turnedPose_eq, sliceFrom_poseMap]
  have e3 := determineForcesQuaternion_turn h hr T hY hq (sliceFrom s.alphaY) (sliceFrom s.betaY) s.ftRot.alphaZ afv s.smooth
  rw [e1, e2]
  simp only [CartesianDMP.turned, e3]
  cases dmpImitate m T (fun t => sliceTo (Y t)) reg (sliceTo s.alphaY) (sliceTo s.betaY) s.ftPos.overlap
      s.ftPos.alphaZ afv s.smooth with
  | error e => rfl
  | ok wp =>
    simp only
    cases dmpImitateWith m T reg s.ftRot.overlap s.ftRot.alphaZ
        (.ok (determineForcesQuaternion ops qgrad T (fun t => sliceFrom (Y t)) (sliceFrom s.alphaY)
          (sliceFrom s.betaY) s.ftRot.alphaZ afv s.smooth)) with
    | error e => rfl
    | ok wr =>
      simp only [CartesianDMP.exec_configure, movement_configure_rows]

/-- **C72, C73.** The documented `quaternion_gradient` of pytransform3d does not depend on the body frame, and is rotated
with the world frame. -/
theorem C72_quaternion_gradient {ops : QuatOps} {eps : ℝ} (h : LawfulQuatOps ops eps) {r : Vec 4} (hr : UnitQuat r)
    (Q : Fin (n + 2) → Vec 4) (hQ : ∀ t, UnitQuat (Q t)) :
    quaternionGradient ops (fun t => turned r (Q t)) = quaternionGradient ops Q ∧
      (LogRotates ops → ∀ t, quaternionGradient ops (fun t => turnedWorld r (Q t)) t =
        rotated r (quaternionGradient ops Q t)) := by
  constructor
  · funext t
    unfold quaternionGradient
    simp only [diff_turned h hr (hQ _) (hQ _)]
  · intro hlog t
    unfold quaternionGradient
    simp only [diff_world h hlog hr (hQ _) (hQ _)]
    split_ifs
    · rfl
    · have : ∀ v : Vec 3, (fun k => v k / 2) = (1 / 2 : ℝ) • v := by
        intro v; funext k; simp only [Pi.smul_apply, smul_eq_mul]; ring
      rw [this, this, ← rotL_apply, ← rotL_apply, map_smul]
    · rfl

/-! ## C73: other coordinates -/

/-- **C73 (open_loop).** With the same gains in all dimensions: map start and goal by `y ↦ P y + b` and the weights by `P`,
for any linear map `P` to any number of dimensions; then every point of the trajectory is mapped by `y ↦ P y + b`. -/
theorem C73_linear_open_loop (s : DMP d m) {α β : ℝ} (hα : ∀ k, s.alphaY k = α) (hβ : ∀ k, s.betaY k = β)
    (P : Vec d →ₗ[ℝ] Vec d') (b : Vec d') {coupling : Option (Coupling d)} {coupling' : Option (Coupling d')}
    (hc : CouplingMapped P b coupling coupling') (runT : Option ℝ) (name : String) :
    ((DMP.openLoop runT coupling' name).exec (s.mapped P b α β)).1 =
      ((DMP.openLoop runT coupling name).exec s).1.map (fun r => (r.1, r.2.map (fun y => P y + b))) := by
  rw [DMP.exec_openLoop, DMP.exec_openLoop]
  cases StepFunction.lookup name with
  | error e => rfl
  | ok sf =>
    have h := (sim_affine (s.openLoopArgs coupling) P b hα hβ hc).openLoop sf s.dt runT
    simp only [one_mul, Option.map_id', List.map_id'] at h
    simp only [Except.bind]
    rw [← h]
    congr 1
    unfold DMP.openLoopArgs StepArgs.affine
    simp only [map_zero]
    rfl

/-- **C73 (step).** The same for one call of `step`; the object is again the mapped object. -/
theorem C73_linear_step (s : DMP d m) {α β : ℝ} (hα : ∀ k, s.alphaY k = α) (hβ : ∀ k, s.betaY k = β)
    (P : Vec d →ₗ[ℝ] Vec d') (b : Vec d') {coupling : Option (Coupling d)} {coupling' : Option (Coupling d')}
    (hc : CouplingMapped P b coupling coupling') (sf : StepFunction) (lastY lastYd : Vec d) :
    (DMP.step coupling' sf (P lastY + b) (P lastYd)).exec (s.mapped P b α β) =
      let r := (DMP.step coupling sf lastY lastYd).exec s
      (r.1.map (fun x => (P x.1 + b, P x.2)), r.2.mapped P b α β) := by
  rw [DMP.exec_step, DMP.exec_step]
  have hb : (s.mapped P b α β).beginStep = s.beginStep.mapped P b α β := by
    unfold DMP.beginStep
    cases h : s.initialized <;> simp [DMP.mapped, h]
  rw [hb]
  have h := (sim_affine (s.beginStep.stepArgs coupling (s.beginStep.currentY - lastY)) P b hα hβ hc).run sf s.t
    (s.t + s.dt) (s.beginStep.currentY, s.beginStep.currentYd)
  simp only [one_mul, simMap_one] at h
  have hargs : (s.beginStep.mapped P b α β).stepArgs coupling'
      ((s.beginStep.mapped P b α β).currentY - (P lastY + b)) =
      (s.beginStep.stepArgs coupling (s.beginStep.currentY - lastY)).affine P b α β coupling' := by
    have : (s.beginStep.mapped P b α β).currentY - (P lastY + b) = P (s.beginStep.currentY - lastY) := by
      rw [map_sub]; simp only [DMP.mapped]; abel
    rw [this]; rfl
  rw [hargs]
  refine (congrArg (DMP.finishStep (s.beginStep.mapped P b α β)) h).trans ?_
  cases sf.run (s.beginStep.stepArgs coupling (s.beginStep.currentY - lastY)) s.t (s.t + s.dt)
    (s.beginStep.currentY, s.beginStep.currentYd) <;> rfl

/-- **C73 (imitate).** A demonstration in the new coordinates gives the mapped object. -/
theorem C73_linear_imitate (s : DMP d m) {α β : ℝ} (hα : ∀ k, s.alphaY k = α) (hβ : ∀ k, s.betaY k = β)
    (P : Vec d →ₗ[ℝ] Vec d') (b : Vec d') (T : Fin (n + 2) → ℝ) (Y : Fin (n + 2) → Vec d) (reg : ℝ) (afv : Bool) :
    (DMP.imitate T (fun t => P (Y t) + b) reg afv).exec (s.mapped P b α β) =
      let r := (DMP.imitate T Y reg afv).exec s
      (r.1, r.2.mapped P b α β) := by
  unfold DMP.imitate
  simp only [Py.exec_bind, Py.exec_modify, Py.exec_get, Py.exec_lift]
  have h := dmpImitate_map (m := m) P b T Y hα hβ reg s.ft.overlap s.ft.alphaZ afv s.smooth
  have e : dmpImitate m T (fun t => P (Y t) + b) reg (s.mapped P b α β).alphaY (s.mapped P b α β).betaY
      (s.mapped P b α β).ft.overlap (s.mapped P b α β).ft.alphaZ afv (s.mapped P b α β).smooth =
      dmpImitate m T (fun t => P (Y t) + b) reg (fun _ => α) (fun _ => β) s.ft.overlap s.ft.alphaZ afv s.smooth := rfl
  rw [e, h]
  cases dmpImitate m T Y reg s.alphaY s.betaY s.ft.overlap s.ft.alphaZ afv s.smooth with
  | error e => rfl
  | ok r =>
    simp only [Except.map, DMP.exec_configure, movement_configure_rows]
    rfl

/-- The hypotheses of the C73 theorems hold for a new DMP with scalar gains; the map below forgets the second coordinate,
doubles the first and moves it. -/
example : ∃ s : DMP 2 5, DMP.create 2 5 1 (1 / 100) (1 / 1000) 0 false (.scalar 25) (.scalar (25 / 4)) = .ok s ∧
    (∀ k, s.alphaY k = 25) ∧ (∀ k, s.betaY k = 25 / 4) ∧
    CouplingMapped (2 • projDim (0 : Fin 2)) (fun _ => 3) none none := by
  obtain ⟨s, h, h1⟩ := DMP.create_ok 2 5 (by norm_num) (τ := 1) one_pos (1 / 100) (1 / 1000) 0 false 25 (25 / 4)
  exact ⟨s, h, fun k => by rw [h1.2.2.2.2.2.2.2.2.2.2.1], fun k => by rw [h1.2.2.2.2.2.2.2.2.2.2.2.1], trivial⟩

/-! ## C73: world frame -/

theorem couplingMapped_world {p : Vec 4} (hp : UnitQuat p) (b : Vec 3) (coupling : Option PoseCoupling) :
    CouplingMapped (rotL p) b (coupling.map PoseCoupling.pos)
      ((coupling.map (PoseCoupling.inWorld p b)).map PoseCoupling.pos) := by
  cases coupling with
  | none => trivial
  | some c =>
    intro y v
    simp only [PoseCoupling.inWorld, rotL_apply, add_sub_cancel_right, rotated_conj_rotated hp]

/-- **C73 (open_loop, poses).** With the same gains in all dimensions, a Cartesian DMP does not depend on the world frame:
rotate and translate start and goal, rotate the weights; then the whole trajectory is rotated and translated. -/
theorem C73_world_frame_open_loop (s : CartesianDMP m) {ops : QuatOps} {eps : ℝ} (h0 : 0 < eps)
    (h : LawfulQuatOps ops eps) (hlog : LogRotates ops) {α β αr βr : ℝ} (hα : ∀ k, linear s.alphaY k = α)
    (hβ : ∀ k, linear s.betaY k = β) (hαr : ∀ k, angular s.alphaY k = αr) (hβr : ∀ k, angular s.betaY k = βr)
    {p : Vec 4} (hp : UnitQuat p) (b : Vec 3) (hs : UnitQuat (orientation s.startY))
    (hg : UnitQuat (orientation s.goalY)) (runT : Option ℝ) (coupling : Option PoseCoupling) (name qname : String) :
    ((CartesianDMP.openLoop ops runT (coupling.map (PoseCoupling.inWorld p b)) name qname).exec (s.inWorld p b)).1 =
      ((CartesianDMP.openLoop ops runT coupling name qname).exec s).1.map (fun x => (x.1, x.2.map (worldPose p b))) := by
  rw [orientation_eq] at hs hg
  rw [linear_eq] at hα hβ
  rw [angular_eq] at hαr hβr
  have hp' : (s.posOpenLoopArgs coupling).Sim
      ((s.inWorld p b).posOpenLoopArgs (coupling.map (PoseCoupling.inWorld p b))) 1 (rotL p) b := by
    have e : (s.inWorld p b).posOpenLoopArgs (coupling.map (PoseCoupling.inWorld p b)) =
        (s.posOpenLoopArgs coupling).affine (rotL p) b α β
          ((coupling.map (PoseCoupling.inWorld p b)).map PoseCoupling.pos) := by
      unfold CartesianDMP.posOpenLoopArgs CartesianDMP.posArgs CartesianDMP.inWorld StepArgs.affine
      simp only [worldPose_eq, sliceTo_poseMap, map_zero]
      rw [show sliceTo s.alphaY = fun _ => α from funext hα, show sliceTo s.betaY = fun _ => β from funext hβ]
      rfl
    rw [e]; exact sim_affine _ _ _ hα hβ (couplingMapped_world hp b coupling)
  have hr' : ∀ qf : QuatStepFunction, qf = .python ops ∨ qf = .cython →
      QuatStepArgs.Sim qf (s.rotOpenLoopArgs coupling)
        ((s.inWorld p b).rotOpenLoopArgs (coupling.map (PoseCoupling.inWorld p b))) 1 (turnedWorld p) (rotated p) := by
    intro qf hqf
    have e : (s.inWorld p b).rotOpenLoopArgs (coupling.map (PoseCoupling.inWorld p b)) =
        (s.rotOpenLoopArgs coupling).world p := by
      unfold CartesianDMP.rotOpenLoopArgs CartesianDMP.rotArgs CartesianDMP.inWorld QuatStepArgs.world
      have h0 : rotated p 0 = 0 := (rotL p).map_zero
      simp only [worldPose_eq, sliceFrom_poseMap, Option.map_map, h0]
      cases coupling <;> rfl
    rw [e]
    refine QuatStepArgs.sim_world _ ?_ ?_ hαr hβr hp hg hs
    · rcases hqf with rfl | rfl
      · exact ⟨eps, h0, h⟩
      · trivial
    · rcases hqf with rfl | rfl
      · exact hlog
      · trivial
  have := CartesianDMP.exec_openLoop_sim (runT := runT) hp' (gy := turnedWorld p)
    (fun qf hqf => (hr' qf hqf).openLoop s.dt runT) (one_mul _).symm name qname
  simp only [one_mul, Option.map_id', List.map_id'] at this
  rw [worldPose_eq]
  exact this

/-- **C73 (step, poses).** The same for one call of `step`. -/
theorem C73_world_frame_step (s : CartesianDMP m) {sf : StepFunction} {qf : QuatStepFunction} (hqf : LawfulStep qf)
    (hlog : FrameFree qf) {α β αr βr : ℝ} (hα : ∀ k, linear s.alphaY k = α)
    (hβ : ∀ k, linear s.betaY k = β) (hαr : ∀ k, angular s.alphaY k = αr) (hβr : ∀ k, angular s.betaY k = βr)
    {p : Vec 4} (hp : UnitQuat p) (b : Vec 3) (hs : UnitQuat (orientation s.startY))
    (hg : UnitQuat (orientation s.goalY)) (coupling : Option PoseCoupling) {lastY : Vec (3 + 4)}
    (hy : UnitQuat (orientation lastY)) (lastYd : Vec (3 + 3)) :
    (CartesianDMP.step (coupling.map (PoseCoupling.inWorld p b)) sf qf (worldPose p b lastY)
        (worldVelocity p lastYd)).exec (s.inWorld p b) =
      let q := (CartesianDMP.step coupling sf qf lastY lastYd).exec s
      (q.1.map (fun x => (worldPose p b x.1, worldVelocity p x.2)), q.2.inWorld p b) := by
  rw [orientation_eq] at hs hg hy
  rw [linear_eq] at hα hβ
  rw [angular_eq] at hαr hβr
  have hp' : (s.posArgs coupling).Sim
      ((s.inWorld p b).posArgs (coupling.map (PoseCoupling.inWorld p b))) 1 (rotL p) b := by
    have e : (s.inWorld p b).posArgs (coupling.map (PoseCoupling.inWorld p b)) =
        (s.posArgs coupling).affine (rotL p) b α β
          ((coupling.map (PoseCoupling.inWorld p b)).map PoseCoupling.pos) := by
      unfold CartesianDMP.posArgs CartesianDMP.inWorld StepArgs.affine
      simp only [worldPose_eq, worldVelocity_eq, sliceTo_poseMap, sliceTo_velMap, map_zero]
      rw [show sliceTo s.alphaY = fun _ => α from funext hα, show sliceTo s.betaY = fun _ => β from funext hβ]
      rfl
    rw [e]; exact sim_affine _ _ _ hα hβ (couplingMapped_world hp b coupling)
  have hr' : QuatStepArgs.Sim qf (s.rotArgs coupling)
        ((s.inWorld p b).rotArgs (coupling.map (PoseCoupling.inWorld p b))) 1 (turnedWorld p) (rotated p) := by
    have e : (s.inWorld p b).rotArgs (coupling.map (PoseCoupling.inWorld p b)) = (s.rotArgs coupling).world p := by
      unfold CartesianDMP.rotArgs CartesianDMP.inWorld QuatStepArgs.world
      simp only [worldPose_eq, worldVelocity_eq, sliceFrom_poseMap, sliceFrom_velMap, Option.map_map]
      cases coupling <;> rfl
    rw [e]
    exact QuatStepArgs.sim_world _ hqf hlog hαr hβr hp hg hs
  have hvel : velMap (fun v => (1 : ℝ)⁻¹ • rotL p v) (rotated p) = worldVelocity p := by
    rw [worldVelocity_eq]; simp only [inv_one, one_smul]
  have := CartesianDMP.exec_step_sim (sf := sf) hp' (hr'.run s.t (s.t + s.dt) (sliceFrom lastY, sliceFrom lastYd) hy)
    (one_mul _).symm (one_mul _).symm (CartesianDMP.inWorld p b) (by
      intro y yd
      rw [← worldPose_eq, hvel]
      rfl)
  rw [← worldPose_eq, hvel] at this
  exact this

/-- **C73 (imitate, poses).** A demonstration in the new world frame gives the object in the new world frame: the learned
weights are rotated. `quaternion_gradient` must be rotated with the frame; see `C72_quaternion_gradient`. -/
theorem C73_world_frame_imitate (s : CartesianDMP m) {ops : QuatOps} {eps : ℝ} (h : LawfulQuatOps ops eps)
    (hlog : LogRotates ops) {α β αr βr : ℝ} (hα : ∀ k, linear s.alphaY k = α)
    (hβ : ∀ k, linear s.betaY k = β) (hαr : ∀ k, angular s.alphaY k = αr) (hβr : ∀ k, angular s.betaY k = βr)
    {p : Vec 4} (hp : UnitQuat p) (b : Vec 3) {qgrad : (Fin (n + 2) → Vec 4) → Fin (n + 2) → Vec 3}
    (T : Fin (n + 2) → ℝ) (Y : Fin (n + 2) → Vec (3 + 4)) (hY : ∀ t, UnitQuat (orientation (Y t)))
    (hq : ∀ t, qgrad (fun t => turnedWorld p (orientation (Y t))) t = rotated p (qgrad (fun t => orientation (Y t)) t))
    (reg : ℝ) (afv : Bool) :
    (CartesianDMP.imitate ops qgrad T (fun t => worldPose p b (Y t)) reg afv).exec (s.inWorld p b) =
      let q := (CartesianDMP.imitate ops qgrad T Y reg afv).exec s
      (q.1, q.2.inWorld p b) := by
  simp only [orientation_eq] at hY hq
  rw [linear_eq] at hα hβ
  rw [angular_eq] at hαr hβr
  rw [CartesianDMP.exec_imitate, CartesianDMP.exec_imitate]
  have e1 : (fun t => sliceTo (worldPose p b (Y t))) = fun t => rotL p (sliceTo (Y t)) + b := by
    funext t; rw [worldPose_eq, sliceTo_poseMap]
  have e2 : (fun t => sliceFrom (worldPose p b (Y t))) = fun t => turnedWorld p (sliceFrom (Y t)) := by
    funext t; rw [worldPose_eq, sliceFrom_poseMap]
  rw [e1, e2]
  have h1 := dmpImitate_map (m := m) (rotL p) b T (fun t => sliceTo (Y t)) hα hβ reg s.ftPos.overlap s.ftPos.alphaZ afv
    s.smooth
  rw [← show sliceTo s.alphaY = fun _ => α from funext hα, ← show sliceTo s.betaY = fun _ => β from funext hβ] at h1
  have h2 : determineForcesQuaternion ops qgrad T (fun t => turnedWorld p (sliceFrom (Y t))) (sliceFrom s.alphaY)
      (sliceFrom s.betaY) s.ftRot.alphaZ afv s.smooth = fun t => rotL p (determineForcesQuaternion ops qgrad T
        (fun t => sliceFrom (Y t)) (sliceFrom s.alphaY) (sliceFrom s.betaY) s.ftRot.alphaZ afv s.smooth t) :=
    funext (determineForcesQuaternion_world h hlog hp T hY hq hαr hβr s.ftRot.alphaZ afv s.smooth)
  have h3 := dmpImitateWith_map (m := m) (rotL p) T reg s.ftRot.overlap s.ftRot.alphaZ
    (determineForcesQuaternion ops qgrad T (fun t => sliceFrom (Y t)) (sliceFrom s.alphaY) (sliceFrom s.betaY)
      s.ftRot.alphaZ afv s.smooth)
  simp only [CartesianDMP.inWorld]
  rw [h1, h2, h3]
  cases dmpImitate m T (fun t => sliceTo (Y t)) reg (sliceTo s.alphaY) (sliceTo s.betaY) s.ftPos.overlap
      s.ftPos.alphaZ afv s.smooth with
  | error e => rfl
  | ok wp =>
    simp only [Except.map]
    cases dmpImitateWith m T reg s.ftRot.overlap s.ftRot.alphaZ
        (.ok (determineForcesQuaternion ops qgrad T (fun t => sliceFrom (Y t)) (sliceFrom s.alphaY)
          (sliceFrom s.betaY) s.ftRot.alphaZ afv s.smooth)) with
    | error e => rfl
    | ok wr =>
      simp only [CartesianDMP.exec_configure, movement_configure_rows]
      rfl

/-- The hypotheses of the C72 and C73 theorems for poses hold for a new Cartesian DMP with scalar gains and the identity as
start and goal orientation, for the functions of pytransform3d. -/
example : LawfulQuatOps (QuatOps.python (1 / 10 ^ 7)) (1 / 10 ^ 7) ∧ LogRotates (QuatOps.python (1 / 10 ^ 7)) ∧
    UnitQuat ![3 / 5, 0, 4 / 5, 0] ∧
    ∃ s : CartesianDMP 5, CartesianDMP.create 5 1 (1 / 100) (1 / 1000) true (.scalar 25) (.scalar (25 / 4)) = .ok s ∧
    (∀ k, linear s.alphaY k = 25) ∧ (∀ k, linear s.betaY k = 25 / 4) ∧ (∀ k, angular s.alphaY k = 25) ∧
    (∀ k, angular s.betaY k = 25 / 4) ∧
    let y : List ℝ := [1, 2, 3, 1, 0, 0, 0]
    let s' := ((CartesianDMP.configure { startY := some y, goalY := some y }).exec s).2
    UnitQuat (orientation s'.startY) ∧ UnitQuat (orientation s'.goalY) := by
  refine ⟨lawful_python (by norm_num), logRotates_python _, by simp [UnitQuat]; norm_num, ?_⟩
  obtain ⟨s, h, h1⟩ := CartesianDMP.create_ok 5 (by norm_num) (τ := 1) one_pos (1 / 100) (1 / 1000) true 25 (25 / 4)
  refine ⟨s, h, ?_, ?_, ?_, ?_, ?_⟩
  · intro k; rw [linear_eq, h1.2.2.2.2.2.1]; rfl
  · intro k; rw [linear_eq, h1.2.2.2.2.2.2.1]; rfl
  · intro k; rw [angular_eq, h1.2.2.2.2.2.1]; rfl
  · intro k; rw [angular_eq, h1.2.2.2.2.2.2.1]; rfl
  · have e : ([1, 2, 3, 1, 0, 0, 0] : List ℝ) = List.ofFn (![1, 2, 3, 1, 0, 0, 0] : Vec (3 + 4)) := by
      simp [List.ofFn_succ]
    simp only [e, CartesianDMP.exec_configure, movement_configure_rows]
    constructor <;> simp [UnitQuat, orientation]

/-! ## C13, C14 for poses -/

/-- Positions moved by `b`. -/
def movedPose (b : Vec 3) (y : Vec (3 + 4)) : Vec (3 + 4) := Fin.append (position y + b) (orientation y)

theorem movedPose_eq (b : Vec 3) : movedPose b = poseMap (fun x => x + b) id := by
  funext y; unfold movedPose poseMap hstack; rw [position_eq, orientation_eq]; rfl

/-- Coupling terms moved along with the positions. -/
def PoseCoupling.moved (b : Vec 3) (c : PoseCoupling) : PoseCoupling where
  pos := fun y v => c.pos (y - b) v
  rot := c.rot

/-- **C13 (open_loop, poses).** Shifting start and goal position by `b` shifts every position by `b` and changes nothing
else, for arbitrary gains and quaternion functions. -/
theorem C13_translation_cartesian_open_loop (s : CartesianDMP m) (b : Vec 3) (ops : QuatOps) (runT : Option ℝ)
    (coupling : Option PoseCoupling) (name qname : String) :
    ((CartesianDMP.openLoop ops runT (coupling.map (PoseCoupling.moved b)) name qname).exec
        { s with startY := movedPose b s.startY, goalY := movedPose b s.goalY }).1 =
      ((CartesianDMP.openLoop ops runT coupling name qname).exec s).1.map (fun x => (x.1, x.2.map (movedPose b))) := by
  set s' : CartesianDMP m := { s with startY := movedPose b s.startY, goalY := movedPose b s.goalY } with hs'
  have hp : (s.posOpenLoopArgs coupling).Sim (s'.posOpenLoopArgs (coupling.map (PoseCoupling.moved b))) 1
      LinearMap.id b := by
    have e : s'.posOpenLoopArgs (coupling.map (PoseCoupling.moved b)) = (s.posOpenLoopArgs coupling).shift b := by
      unfold CartesianDMP.posOpenLoopArgs CartesianDMP.posArgs StepArgs.shift
      simp only [hs', movedPose_eq, sliceTo_poseMap, Option.map_map]
      cases coupling <;> rfl
    rw [e]; exact sim_translate _ b
  have e2 : s'.rotOpenLoopArgs (coupling.map (PoseCoupling.moved b)) = s.rotOpenLoopArgs coupling := by
    unfold CartesianDMP.rotOpenLoopArgs CartesianDMP.rotArgs
    simp only [hs', movedPose_eq, sliceFrom_poseMap, Option.map_map, id]
    cases coupling <;> rfl
  have e3 : sliceFrom s'.startY = sliceFrom s.startY := by
    simp only [hs', movedPose_eq, sliceFrom_poseMap, id]
  have := CartesianDMP.exec_openLoop_sim (ops := ops) (runT := runT) hp (gy := id) (fun qf _ => by
      rw [e2, e3]
      simp only [one_mul, Option.map_id', List.map_id', List.map_id]
      show openLoopWith s.executionTime 0 s.dt _ runT _ = _
      cases openLoopWith s.executionTime 0 s.dt (sliceFrom s.startY, (0 : Vec 3)) runT
        (qf.run (s.rotOpenLoopArgs coupling)) <;> rfl)
    (one_mul _).symm name qname
  simp only [one_mul, Option.map_id', List.map_id', LinearMap.id_apply] at this
  rw [movedPose_eq]
  exact this

/-- **C13 (step, poses).** -/
theorem C13_translation_cartesian_step (s : CartesianDMP m) (b : Vec 3) (sf : StepFunction) (qf : QuatStepFunction)
    (coupling : Option PoseCoupling) (lastY : Vec (3 + 4)) (lastYd : Vec (3 + 3)) :
    let shift : CartesianDMP m → CartesianDMP m := fun s =>
      { s with startY := movedPose b s.startY, goalY := movedPose b s.goalY, currentY := movedPose b s.currentY }
    (CartesianDMP.step (coupling.map (PoseCoupling.moved b)) sf qf (movedPose b lastY) lastYd).exec (shift s) =
      let q := (CartesianDMP.step coupling sf qf lastY lastYd).exec s
      (q.1.map (fun x => (movedPose b x.1, x.2)), shift q.2) := by
  intro shift
  have hp : (s.posArgs coupling).Sim ((shift s).posArgs (coupling.map (PoseCoupling.moved b))) 1 LinearMap.id b := by
    have e : (shift s).posArgs (coupling.map (PoseCoupling.moved b)) = (s.posArgs coupling).shift b := by
      unfold CartesianDMP.posArgs StepArgs.shift
      simp only [shift, movedPose_eq, sliceTo_poseMap, Option.map_map]
      cases coupling <;> rfl
    rw [e]; exact sim_translate _ b
  have e2 : (shift s).rotArgs (coupling.map (PoseCoupling.moved b)) = s.rotArgs coupling := by
    unfold CartesianDMP.rotArgs
    simp only [shift, movedPose_eq, sliceFrom_poseMap, Option.map_map, id]
    cases coupling <;> rfl
  have hvel : velMap (fun v => (1 : ℝ)⁻¹ • (LinearMap.id : Vec 3 →ₗ[ℝ] Vec 3) v) id = fun v : Vec (3 + 3) => v := by
    funext v; simp only [inv_one, one_smul]; exact velMap_id v
  have hpose : poseMap (fun x => (LinearMap.id : Vec 3 →ₗ[ℝ] Vec 3) x + b) id = movedPose b := by
    rw [movedPose_eq]; rfl
  have := CartesianDMP.exec_step_sim (sf := sf) (qf := qf) (y := lastY) (yd := lastYd) (gy := id) (gv := id) hp (by
      rw [e2, one_mul, one_mul]
      simp only [id]
      cases qf.run (s.rotArgs coupling) s.t (s.t + s.dt) (sliceFrom lastY, sliceFrom lastYd) with
      | error e => rfl
      | ok x => rfl)
    (one_mul _).symm (one_mul _).symm shift (by
      intro y yd
      rw [hpose, hvel]
      rfl)
  rw [hpose, hvel] at this
  exact this

/-- The coupling term is given velocities in the old time unit. -/
def PoseCoupling.slowed (c : ℝ) (f : PoseCoupling) : PoseCoupling where
  pos := fun y v => f.pos y (c • v)
  rot := fun q v => f.rot q (c • v)

theorem CartesianDMP.InTime.ft {s : CartesianDMP m} (h : s.InTime) : ∃ ft, DMP.initForcingTerm 3 m s.executionTime = .ok ft ∧
    s.ftPos = { ft with weights := s.ftPos.weights } ∧ s.ftRot = { ft with weights := s.ftRot.weights } := by
  unfold CartesianDMP.InTime at h
  rw [CartesianDMP.exec_setExecutionTime] at h
  cases h1 : DMP.initForcingTerm 3 m s.executionTime with
  | error e => rw [h1] at h; cases congrArg Prod.fst h
  | ok ft =>
    rw [h1] at h
    have h2 := congrArg Prod.snd h
    simp only at h2
    exact ⟨ft, rfl, (congrArg CartesianDMP.ftPos h2).symm, (congrArg CartesianDMP.ftRot h2).symm⟩

theorem CartesianDMP.InTime.mk' {s : CartesianDMP m} {ft : ForcingTerm 3 m}
    (h : DMP.initForcingTerm 3 m s.executionTime = .ok ft) (hp : s.ftPos = { ft with weights := s.ftPos.weights })
    (hr : s.ftRot = { ft with weights := s.ftRot.weights }) : s.InTime := by
  unfold CartesianDMP.InTime
  rw [CartesianDMP.exec_setExecutionTime, h]
  simp only
  rw [← hp, ← hr]

/-- **C14.** The forcing terms of a new Cartesian DMP belong to its execution time. -/
theorem C14_in_time_create {τ dt intDt : ℝ} {smooth : Bool} {α β : ArrayLike} {s : CartesianDMP m}
    (h : CartesianDMP.create m τ dt intDt smooth α β = .ok s) : s.InTime := by
  unfold CartesianDMP.create at h
  rw [CartesianDMP.initForcingTerms_eq] at h
  cases h1 : DMP.initForcingTerm 3 m τ with
  | error e => rw [h1] at h; cases h
  | ok ft =>
    rw [h1] at h
    cases h2 : ensure1dArray α (3 + 3) with
    | error e => rw [h2] at h; cases h
    | ok a =>
      rw [h2] at h
      cases h3 : ensure1dArray β (3 + 3) with
      | error e => rw [h3] at h; cases h
      | ok b =>
        rw [h3] at h
        simp only [bind, Except.bind, Except.map, Pure.pure, Except.pure, Except.ok.injEq] at h
        subst h
        exact CartesianDMP.InTime.mk' h1 rfl rfl

/-- **C14.** This remains so with every method call, raising or not, and with every assignment of `execution_time_` that
does not raise. -/
theorem C14_in_time_after {s : CartesianDMP m} (h : s.InTime) (o : CartesianOp m)
    (ho : ∀ τ, o = .setExecutionTime τ → ((CartesianDMP.setExecutionTime τ).exec s).1 = .ok ()) : (o.after s).InTime := by
  obtain ⟨ft, h1, h2, h3⟩ := h.ft
  cases o with
  | step c sf qf y yd =>
    simp only [CartesianOp.after, CartesianDMP.exec_step]
    cases sf.run (s.posArgs c) s.t (s.t + s.dt) (sliceTo y, sliceTo yd) with
    | error e => exact CartesianDMP.InTime.mk' h1 h2 h3
    | ok rp =>
      simp only
      cases qf.run (s.rotArgs c) s.t (s.t + s.dt) (sliceFrom y, sliceFrom yd) with
      | error e => exact CartesianDMP.InTime.mk' h1 h2 h3
      | ok rr => exact CartesianDMP.InTime.mk' h1 h2 h3
  | openLoop ops t c n qn => simpa only [CartesianOp.after, CartesianDMP.exec_openLoop] using h
  | configure a =>
    simp only [CartesianOp.after, CartesianDMP.exec_configure]
    exact CartesianDMP.InTime.mk' h1 h2 h3
  | reset => exact CartesianDMP.InTime.mk' h1 h2 h3
  | setWeights w =>
    simp only [CartesianOp.after, CartesianDMP.exec_setWeights]
    split
    · exact CartesianDMP.InTime.mk' h1 h2 h3
    · split
      · exact CartesianDMP.InTime.mk' h1 (by rw [h2]) h3
      · exact CartesianDMP.InTime.mk' h1 (by rw [h2]) (by rw [h3])
  | setExecutionTime τ =>
    have := ho τ rfl
    simp only [CartesianOp.after]
    rw [CartesianDMP.exec_setExecutionTime] at this ⊢
    cases h4 : DMP.initForcingTerm 3 m τ with
    | error e => rw [h4] at this; cases this
    | ok ft => exact CartesianDMP.InTime.mk' h4 rfl rfl
  | imitate ops qgrad T Y reg afv =>
    simp only [CartesianOp.after, CartesianDMP.exec_imitate, CartesianDMP.exec_configure]
    split
    · exact CartesianDMP.InTime.mk' h1 h2 h3
    · split
      · exact CartesianDMP.InTime.mk' h1 (by rw [h2]) h3
      · exact CartesianDMP.InTime.mk' h1 (by rw [h2]) (by rw [h3])

/-- **C14 (open_loop, poses).** Multiply `dt` and `int_dt` by `c > 0` and assign `execution_time_ = c * execution_time_`.
Then `open_loop` visits the same poses at times multiplied by `c`. -/
theorem C14_time_scaling_cartesian_open_loop {s : CartesianDMP m} (hs : s.InTime) {c : ℝ} (hc : 0 < c)
    {ops : QuatOps} {eps : ℝ} (h0 : 0 < eps) (h : LawfulQuatOps ops eps) (hst : UnitQuat (orientation s.startY)) :
    ∃ s', (CartesianDMP.setExecutionTime (c * s.executionTime)).exec
        { s with dt := c * s.dt, intDt := c * s.intDt } = (.ok (), s') ∧
      ∀ (runT : Option ℝ) (coupling : Option PoseCoupling) (name qname : String),
        ((CartesianDMP.openLoop ops (runT.map (c * ·)) (coupling.map (PoseCoupling.slowed c)) name qname).exec s').1 =
          ((CartesianDMP.openLoop ops runT coupling name qname).exec s).1.map (fun r => (r.1.map (c * ·), r.2)) := by
  rw [orientation_eq] at hst
  obtain ⟨ft, h1, h2, h3⟩ := hs.ft
  have h4 := initForcingTerm_scale hc h1
  refine ⟨_, (CartesianDMP.exec_setExecutionTime _ _).trans (by rw [h4]), ?_⟩
  intro runT coupling name qname
  set s' : CartesianDMP m := { s with
    dt := c * s.dt, intDt := c * s.intDt, executionTime := c * s.executionTime
    ftPos := { ft.scaleTime c with weights := s.ftPos.weights }
    ftRot := { ft.scaleTime c with weights := s.ftRot.weights } } with hs'
  have hp : (s.posOpenLoopArgs coupling).Sim (s'.posOpenLoopArgs (coupling.map (PoseCoupling.slowed c))) c
      LinearMap.id 0 := by
    have e : s'.posOpenLoopArgs (coupling.map (PoseCoupling.slowed c)) = (s.posOpenLoopArgs coupling).scaleTime c := by
      unfold CartesianDMP.posOpenLoopArgs CartesianDMP.posArgs StepArgs.scaleTime
      simp only [hs', mul_zero, smul_zero, Option.map_map]
      rw [h2]
      cases coupling <;> rfl
    rw [e]; exact sim_scaleTime _ hc
  have hr' : ∀ qf : QuatStepFunction, qf = .python ops ∨ qf = .cython →
      QuatStepArgs.Sim qf (s.rotOpenLoopArgs coupling)
        (s'.rotOpenLoopArgs (coupling.map (PoseCoupling.slowed c))) c id (c⁻¹ • ·) := by
    intro qf hqf
    have e : s'.rotOpenLoopArgs (coupling.map (PoseCoupling.slowed c)) = (s.rotOpenLoopArgs coupling).scaleTime c := by
      unfold CartesianDMP.rotOpenLoopArgs CartesianDMP.rotArgs QuatStepArgs.scaleTime
      simp only [hs', mul_zero, smul_zero, Option.map_map]
      rw [h3]
      cases coupling <;> rfl
    rw [e]
    refine QuatStepArgs.sim_scaleTime _ ?_ hc hst
    rcases hqf with rfl | rfl
    · exact ⟨eps, h0, h⟩
    · trivial
  have := CartesianDMP.exec_openLoop_sim (runT := runT) hp (gy := id) (fun qf hqf => (hr' qf hqf).openLoop s.dt runT)
    rfl name qname
  have hpose : poseMap (fun x => (LinearMap.id : Vec 3 →ₗ[ℝ] Vec 3) x + (0 : Vec 3)) id = fun y => y := by
    funext y; simp only [LinearMap.id_apply, add_zero]; exact poseMap_id y
  rw [hpose] at this
  simpa only [List.map_id'] using this

/-- **C14 (step, poses).** The same for `step`: poses are the same, velocities are divided by `c`, and the object is again
the rescaled object. -/
theorem C14_time_scaling_cartesian_step {s : CartesianDMP m} (hs : s.InTime) {c : ℝ} (hc : 0 < c) {sf : StepFunction}
    {qf : QuatStepFunction} (hqf : LawfulStep qf) (hst : UnitQuat (orientation s.startY))
    (coupling : Option PoseCoupling) {lastY : Vec (3 + 4)} (hy : UnitQuat (orientation lastY)) (lastYd : Vec (3 + 3)) :
    let scale : CartesianDMP m → CartesianDMP m := fun s =>
      { s with
        t := c * s.t, lastT := s.lastT.map (c * ·), startYd := c⁻¹ • s.startYd, currentYd := c⁻¹ • s.currentYd
        dt := c * s.dt, intDt := c * s.intDt }
    ∃ s', (CartesianDMP.setExecutionTime (c * s.executionTime)).exec (scale s) = (.ok (), s') ∧
      let r := (CartesianDMP.step coupling sf qf lastY lastYd).exec s
      let r' := (CartesianDMP.step (coupling.map (PoseCoupling.slowed c)) sf qf lastY (c⁻¹ • lastYd)).exec s'
      r'.1 = r.1.map (fun x => (x.1, c⁻¹ • x.2)) ∧
      (CartesianDMP.setExecutionTime (c * r.2.executionTime)).exec (scale r.2) = (.ok (), r'.2) := by
  intro scale
  rw [orientation_eq] at hst hy
  obtain ⟨ft, h1, h2, h3⟩ := hs.ft
  have h4 := initForcingTerm_scale hc h1
  have hset : ∀ x : CartesianDMP m, x.executionTime = s.executionTime →
      (CartesianDMP.setExecutionTime (c * x.executionTime)).exec (scale x) =
        (.ok (), { scale x with
                   executionTime := c * x.executionTime
                   ftPos := { ft.scaleTime c with weights := x.ftPos.weights }
                   ftRot := { ft.scaleTime c with weights := x.ftRot.weights } }) := by
    intro x hx
    rw [CartesianDMP.exec_setExecutionTime, hx, h4]
  refine ⟨_, hset s rfl, ?_⟩
  simp only
  set F : CartesianDMP m → CartesianDMP m := fun x => { scale x with
    executionTime := c * x.executionTime
    ftPos := { ft.scaleTime c with weights := x.ftPos.weights }
    ftRot := { ft.scaleTime c with weights := x.ftRot.weights } } with hF
  have hp : (s.posArgs coupling).Sim ((F s).posArgs (coupling.map (PoseCoupling.slowed c))) c LinearMap.id 0 := by
    have e : (F s).posArgs (coupling.map (PoseCoupling.slowed c)) = (s.posArgs coupling).scaleTime c := by
      unfold CartesianDMP.posArgs StepArgs.scaleTime
      simp only [hF, scale, mul_zero, Option.map_map]
      rw [h2]
      cases coupling <;> rfl
    rw [e]; exact sim_scaleTime _ hc
  have hr' : QuatStepArgs.Sim qf (s.rotArgs coupling)
        ((F s).rotArgs (coupling.map (PoseCoupling.slowed c))) c id (c⁻¹ • ·) := by
    have e : (F s).rotArgs (coupling.map (PoseCoupling.slowed c)) = (s.rotArgs coupling).scaleTime c := by
      unfold CartesianDMP.rotArgs QuatStepArgs.scaleTime
      simp only [hF, scale, mul_zero, Option.map_map]
      rw [h3]
      cases coupling <;> rfl
    rw [e]
    exact QuatStepArgs.sim_scaleTime _ hqf hc hst
  have hpose : poseMap (fun x => (LinearMap.id : Vec 3 →ₗ[ℝ] Vec 3) x + (0 : Vec 3)) id = fun y => y := by
    funext y; simp only [LinearMap.id_apply, add_zero]; exact poseMap_id y
  have hvel : velMap (fun v => c⁻¹ • (LinearMap.id : Vec 3 →ₗ[ℝ] Vec 3) v) (c⁻¹ • ·) = fun v => c⁻¹ • v := by
    funext v
    have e1 : sliceTo (c⁻¹ • v) = c⁻¹ • sliceTo v := rfl
    have e2 : sliceFrom (c⁻¹ • v) = c⁻¹ • sliceFrom v := rfl
    rw [← hstack_slices (c⁻¹ • v), e1, e2]
    rfl
  have := CartesianDMP.exec_step_sim (sf := sf) hp (hr'.run s.t (s.t + s.dt) (sliceFrom lastY, sliceFrom lastYd) hy)
    rfl rfl F (by
      intro y yd
      rw [hpose, hvel]
      simp only [CartesianDMP.beginStep, hF, scale, mul_add, Option.map_some])
  rw [hpose, hvel] at this
  have hx : ((CartesianDMP.step coupling sf qf lastY lastYd).exec s).2.executionTime = s.executionTime := by
    rw [CartesianDMP.exec_step]
    split
    · rfl
    · split <;> rfl
  rw [this]
  exact ⟨rfl, hset _ hx⟩

end Verif
