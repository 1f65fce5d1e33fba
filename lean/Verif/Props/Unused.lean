import Verif.Props.SpringDamper
import Verif.Props.StateFollowing
import Verif.Props.DualClass
import Verif.Props.FinalVelocity
import Verif.Lemmas.DmpHistory

/-!
# C74: the final velocity that is configured has no effect

`configure(goal_yd=..., goal_ydd=..., start_ydd=...)` is documented as final velocity, final acceleration and initial
acceleration of every movement primitive. Only `DMPWithFinalVelocity` uses them.
-/

namespace Verif
variable {d m n p v : ℕ}

/-- The same movement with another final velocity, final acceleration and initial acceleration. -/
def Movement.withFinal (yd ydd sdd : Vec v) (s : Movement p v) : Movement p v :=
  { s with goalYd := yd, goalYdd := ydd, startYdd := sdd }

theorem StepArgs.run_final (sf : StepFunction) (a : StepArgs d m) (yd ydd sdd : Vec d) :
    sf.run { a with goalYd := yd, goalYdd := ydd, startYdd := sdd } = sf.run a := by
  cases sf <;> rfl

/-- **C74 (finding, DMP).** Whatever final velocity, final acceleration and initial acceleration are configured, `step`
and `open_loop` give the same results (the objects afterwards differ in nothing but these attributes). -/
theorem C74_dmp_ignores_final_velocity (s : DMP d m) (yd ydd sdd : Vec d) :
    let other : DMP d m → DMP d m := fun s => { s with toMovement := s.toMovement.withFinal yd ydd sdd }
    (∀ coupling sf lastY lastYd, (DMP.step coupling sf lastY lastYd).exec (other s) =
      let r := (DMP.step coupling sf lastY lastYd).exec s
      (r.1, other r.2)) ∧
    (∀ runT coupling name, ((DMP.openLoop runT coupling name).exec (other s)).1 =
      ((DMP.openLoop runT coupling name).exec s).1) := by
  intro other
  constructor
  · intro coupling sf lastY lastYd
    rw [DMP.exec_step, DMP.exec_step]
    have hb : (other s).beginStep = other s.beginStep := by
      unfold DMP.beginStep
      cases h : s.initialized <;> simp [other, Movement.withFinal]
    have ha := StepArgs.run_final sf (s.beginStep.stepArgs coupling (s.beginStep.currentY - lastY)) yd ydd sdd
    have e : sf.run ((other s.beginStep).stepArgs coupling ((other s.beginStep).currentY - lastY)) (other s).t
        ((other s).t + (other s).dt) ((other s.beginStep).currentY, (other s.beginStep).currentYd) =
        sf.run (s.beginStep.stepArgs coupling (s.beginStep.currentY - lastY)) s.t (s.t + s.dt)
          (s.beginStep.currentY, s.beginStep.currentYd) := by
      rw [← ha]; rfl
    rw [hb, e]
    cases sf.run (s.beginStep.stepArgs coupling (s.beginStep.currentY - lastY)) s.t (s.t + s.dt)
      (s.beginStep.currentY, s.beginStep.currentYd) <;> rfl
  · intro runT coupling name
    rw [DMP.exec_openLoop, DMP.exec_openLoop]
    rfl

/-- **C74 (finding, Cartesian DMP).** -/
theorem C74_cartesian_ignores_final_velocity (s : CartesianDMP m) (yd ydd sdd : Vec (3 + 3)) :
    let other : CartesianDMP m → CartesianDMP m := fun s => { s with toMovement := s.toMovement.withFinal yd ydd sdd }
    (∀ coupling sf qf lastY lastYd, (CartesianDMP.step coupling sf qf lastY lastYd).exec (other s) =
      let r := (CartesianDMP.step coupling sf qf lastY lastYd).exec s
      (r.1, other r.2)) ∧
    (∀ ops runT coupling name qname, ((CartesianDMP.openLoop ops runT coupling name qname).exec (other s)).1 =
      ((CartesianDMP.openLoop ops runT coupling name qname).exec s).1) := by
  intro other
  constructor
  · intro coupling sf qf lastY lastYd
    rw [CartesianDMP.exec_step, CartesianDMP.exec_step]
    have e : sf.run ((other s).posArgs coupling) = sf.run (s.posArgs coupling) :=
      StepArgs.run_final sf (s.posArgs coupling) (sliceTo yd) (sliceTo ydd) (sliceTo sdd)
    have e2 : (other s).rotArgs coupling = s.rotArgs coupling := rfl
    have et : (other s).t = s.t := rfl
    have ed : (other s).dt = s.dt := rfl
    rw [e, e2, et, ed]
    cases sf.run (s.posArgs coupling) s.t (s.t + s.dt) (sliceTo lastY, sliceTo lastYd) with
    | error e => rfl
    | ok rp =>
      simp only
      cases qf.run (s.rotArgs coupling) s.t (s.t + s.dt) (sliceFrom lastY, sliceFrom lastYd) <;> rfl
  · intro ops runT coupling name qname
    rw [CartesianDMP.exec_openLoop, CartesianDMP.exec_openLoop]
    rfl

/-- **C74 (finding, dual arm DMP).** -/
theorem C74_dual_ignores_final_velocity (s : DualCartesianDMP m) (yd ydd sdd : Vec 12) :
    let other : DualCartesianDMP m → DualCartesianDMP m := fun s =>
      { s with toMovement := s.toMovement.withFinal yd ydd sdd }
    (∀ ops coupling sf lastY lastYd, (DualCartesianDMP.step ops coupling sf lastY lastYd).exec (other s) =
      let r := (DualCartesianDMP.step ops coupling sf lastY lastYd).exec s
      (r.1, other r.2)) ∧
    (∀ ops runT coupling name, ((DualCartesianDMP.openLoop ops runT coupling name).exec (other s)).1 =
      ((DualCartesianDMP.openLoop ops runT coupling name).exec s).1) := by
  intro other
  have hrun : ∀ (x : DualCartesianDMP m) (ops : QuatOps) c (sf : DualStepFunction) y,
      sf.run ((other x).stepArgs c (DualCartesianDMP.trackingError ops (other x).reference y)) =
        sf.run (x.stepArgs c (DualCartesianDMP.trackingError ops x.reference y)) := fun _ _ _ _ _ => rfl
  constructor
  · intro ops coupling sf lastY lastYd
    rw [DualCartesianDMP.exec_step, DualCartesianDMP.exec_step, hrun]
    have et : (other s).t = s.t := rfl
    have ed : (other s).dt = s.dt := rfl
    rw [et, ed]
    cases sf.run (s.stepArgs coupling (DualCartesianDMP.trackingError ops s.reference lastY)) s.t (s.t + s.dt)
      (lastY, lastYd) <;> rfl
  · intro ops runT coupling name
    rw [DualCartesianDMP.exec_openLoop, DualCartesianDMP.exec_openLoop]
    cases DualStepFunction.lookup ops name with
    | error e => rfl
    | ok sf =>
      have := DualCartesianDMP.loop_rel (ops := ops) (ops' := ops) (c := coupling) (c' := coupling) (sf := sf)
        (sf' := sf) (runT := runT.getD s.executionTime) (s := s) (s' := other s)
        (fun x s x' s' => x = x' ∧ s' = other s) (fun s s' => s' = other s)
        (by rintro x s _ _ ⟨rfl, rfl⟩; rfl)
        (by
          rintro x s _ _ ⟨rfl, rfl⟩
          have et : (other s).t = s.t := rfl
          have ed : (other s).dt = s.dt := rfl
          rw [hrun, et, ed]
          cases sf.run (s.stepArgs coupling (DualCartesianDMP.trackingError ops s.reference x.y)) s.t (s.t + s.dt)
            (x.y, x.yd) with
          | ok r => exact .inl ⟨r, r, rfl, rfl, rfl, rfl⟩
          | error e => exact .inr ⟨e, rfl, rfl, rfl⟩)
        (by rintro x s _ _ ⟨rfl, rfl⟩; rfl) ⟨rfl, rfl⟩
      have ee : (other s).executionTime = s.executionTime := rfl
      simp only [ee]
      rcases this with ⟨y, t, y', t', h1, h2, h3, -⟩ | ⟨e, t, t', h1, h2, -⟩
      · rw [h1, h2, h3]
      · rw [h1, h2]

/-- **C74 (finding, spring-damper).** -/
theorem C74_spring_damper_ignores_final_velocity (s : SpringDamper d) (yd ydd sdd : Vec d) :
    let other : SpringDamper d → SpringDamper d := fun s => { s with toMovement := s.toMovement.withFinal yd ydd sdd }
    (∀ coupling lastY lastYd, (SpringDamper.step coupling lastY lastYd).exec (other s) =
      let r := (SpringDamper.step coupling lastY lastYd).exec s
      (r.1, other r.2)) ∧
    (∀ runT coupling, ((SpringDamper.openLoop runT coupling).exec (other s)).1 =
      ((SpringDamper.openLoop runT coupling).exec s).1) := by
  intro other
  refine ⟨fun coupling lastY lastYd => ?_, fun _ _ => rfl⟩
  rw [SpringDamper.exec_step, SpringDamper.exec_step]
  show (match springDamperStep s.goalY s.k s.c coupling none s.intDt s.t (s.t + s.dt) (lastY, lastYd) with
    | .ok r => _ | .error e => _) = _
  cases springDamperStep s.goalY s.k s.c coupling none s.intDt s.t (s.t + s.dt) (lastY, lastYd) <;> rfl

/-- **C74 (finding, spring-damper for orientations).** -/
theorem C74_spring_damper_orientation_ignores_final_velocity (s : SpringDamperOrientation) (yd ydd sdd : Vec 3) :
    let other : SpringDamperOrientation → SpringDamperOrientation := fun s =>
      { s with toMovement := s.toMovement.withFinal yd ydd sdd }
    (∀ ops coupling lastY lastYd, (SpringDamperOrientation.step ops coupling lastY lastYd).exec (other s) =
      let r := (SpringDamperOrientation.step ops coupling lastY lastYd).exec s
      (r.1, other r.2)) ∧
    (∀ ops runT coupling, ((SpringDamperOrientation.openLoop ops runT coupling).exec (other s)).1 =
      ((SpringDamperOrientation.openLoop ops runT coupling).exec s).1) := by
  intro other
  refine ⟨fun ops coupling lastY lastYd => ?_, fun _ _ _ => rfl⟩
  rw [SpringDamperOrientation.exec_step, SpringDamperOrientation.exec_step]
  show (match springDamperQuatStep ops s.goalY s.k s.c coupling none s.intDt s.t (s.t + s.dt) (lastY, lastYd) with
    | .ok r => _ | .error e => _) = _
  cases springDamperQuatStep ops s.goalY s.k s.c coupling none s.intDt s.t (s.t + s.dt) (lastY, lastYd) <;> rfl

theorem StateFollowingArgs.step_final (a : StateFollowingArgs d n) (g yd ydd sdd : Vec d) :
    StateFollowingArgs.step { a with goalY := g, goalYd := yd, goalYdd := ydd, startYdd := sdd } = a.step := rfl

/-- **C74 (finding, state following DMP).** Not even the goal has an effect on `step` and `open_loop`: the trajectory is
determined by the viapoints. -/
theorem C74_state_following_ignores_goal (s : StateFollowingDMP d n) (g yd ydd sdd : Vec d) :
    let other : StateFollowingDMP d n → StateFollowingDMP d n := fun s =>
      { s with toMovement := { s.toMovement.withFinal yd ydd sdd with goalY := g } }
    (∀ coupling lastY lastYd, (StateFollowingDMP.step coupling lastY lastYd).exec (other s) =
      let r := (StateFollowingDMP.step coupling lastY lastYd).exec s
      (r.1, other r.2)) ∧
    (∀ runT coupling, (other s).openLoop runT coupling = s.openLoop runT coupling) := by
  intro other
  refine ⟨fun coupling lastY lastYd => ?_, fun _ _ => rfl⟩
  rw [StateFollowingDMP.exec_step, StateFollowingDMP.exec_step]
  have h := StateFollowingArgs.step_final (s.args coupling) g yd ydd sdd
  have e : ((other s).args coupling).step (other s).t ((other s).t + (other s).dt) (lastY, lastYd) =
      (s.args coupling).step s.t (s.t + s.dt) (lastY, lastYd) := by rw [← h]; rfl
  rw [e]
  cases (s.args coupling).step s.t (s.t + s.dt) (lastY, lastYd) <;> rfl

end Verif
