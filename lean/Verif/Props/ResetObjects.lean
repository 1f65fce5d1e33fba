import Verif.Props.FramesDual
import Verif.Props.Configure
import Verif.Props.StateFollowing

/-! # C19 for the other classes: `reset` makes execution repeatable -/

namespace Verif
open Spec
variable {d m n : ℕ}

/-- Start and goal of a movement as arguments of `configure`. -/
def Movement.startAndGoal {p v : ℕ} (s : Movement p v) : ConfigArgs :=
  { startY := some (List.ofFn s.startY), startYd := some (List.ofFn s.startYd), startYdd := some (List.ofFn s.startYdd)
    goalY := some (List.ofFn s.goalY), goalYd := some (List.ofFn s.goalYd), goalYdd := some (List.ofFn s.goalYdd) }

theorem Movement.exec_startAndGoal {p v : ℕ} (s x : Movement p v) :
    (Movement.configure s.startAndGoal).exec x =
      (.ok (), { s with t := x.t, lastT := x.lastT, currentY := x.currentY, currentYd := x.currentYd }) := by
  rw [C25_configure_sets]
  · have hx : ∀ {n : ℕ} (x o : Vec n), newValue (some (List.ofFn x)) o = x := by
      intro n x o; funext i; simp [newValue]
    simp only [startAndGoal, hx]
    rfl
  · simp [AllOk, FieldOk, startAndGoal]

/-! ## DMPWithFinalVelocity -/

theorem FvDMP.Reachable.smooth {s : FvDMP d m} (hs : FvDMP.Reachable s) : s.smooth = false := by
  induction hs with
  | @create τ dt intDt pGain α β s h =>
    unfold FvDMP.create DMP.create at h
    cases h1 : DMP.initForcingTerm d m τ with
    | error e => rw [h1] at h; cases h
    | ok ft =>
      rw [h1] at h
      cases h2 : ensure1dArray α d with
      | error e => rw [h2] at h; cases h
      | ok a =>
        rw [h2] at h
        cases h3 : ensure1dArray β d with
        | error e => rw [h3] at h; cases h
        | ok b =>
          rw [h3] at h
          simp only [Bind.bind, Except.bind, Pure.pure, Except.pure, Except.ok.injEq] at h
          subst h
          rfl
  | @op s s' o r hs h hok ih =>
    have h' : (o.exec s).2 = s' := by rw [h]
    subst h'
    cases o with
    | step c y yd =>
      simp only [FvOp.exec, FvDMP.exec_step]
      split <;> exact ih
    | openLoop t c =>
      have : ((FvDMP.openLoop t c).exec s).2 = s := by
        unfold FvDMP.openLoop
        simp only [Py.exec_bind, Py.exec_lift, Py.exec_get]
      simp only [FvOp.exec, this]
      exact ih
    | configure a => exact ih
    | reset => exact ih
    | setWeights w =>
      simp only [FvOp.exec, DMP.setWeights, Py.exec_bind, Py.exec_lift]
      cases DMP.reshapeWeights d m w <;> exact ih
    | setExecutionTime τ =>
      simp only [FvOp.exec, DMP.exec_setExecutionTime]
      split <;> exact ih
    | imitate T Y reg =>
      simp only [FvOp.exec, FvDMP.exec_imitate]
      split <;> exact ih

/-- **C19 (DMPWithFinalVelocity).** Take any reachable object, construct a new one with the same execution time and gains,
configure it with the same start and goal and set the same weights. Then after `reset` the old object returns the same
results as the new one for every sequence of calls of `step`. -/
theorem C19_fv {s : FvDMP d m} (hs : FvDMP.Reachable s) :
    ∃ f f1 f2 : FvDMP d m,
      FvDMP.create d m s.executionTime s.dt s.intDt s.pGain (.array1 (List.ofFn s.alphaY)) (.array1 (List.ofFn s.betaY)) =
        .ok f ∧
      (DMP.configure s.startAndGoal).exec f = (.ok (), f1) ∧ (DMP.setWeights (DMP.getWeights s)).exec f1 = (.ok (), f2) ∧
      ∀ calls : List (Option (Coupling d) × Vec d × Vec d),
        ((DMP.reset >>= fun _ => calls.mapM (fun x => FvDMP.step (m := m) x.1 x.2.1 x.2.2)).exec s).1 =
          ((calls.mapM (fun x => FvDMP.step (m := m) x.1 x.2.1 x.2.2)).exec f2).1 := by
  obtain ⟨ft, h1, h2⟩ := hs.valid
  have hw : (DMP.setWeights (DMP.getWeights s)).exec
      ({ s with toMovement := { s.toMovement with t := 0, lastT := none, currentY := 0, currentYd := 0 }
                ft := ft, initialized := false } : DMP d m) =
      (.ok (), { s with
        toMovement := { s.toMovement with t := 0, lastT := none, currentY := 0, currentYd := 0 }
        initialized := false }) := by
    have h3 := C22_get_set_weights (s : DMP d m)
    unfold DMP.setWeights at h3 ⊢
    simp only [Py.exec_bind, Py.exec_lift] at h3 ⊢
    cases hr : DMP.reshapeWeights d m (DMP.getWeights s) with
    | error e => rw [hr] at h3; cases h3
    | ok w =>
      rw [hr] at h3
      simp only [Py.exec_modify, Prod.mk.injEq, true_and] at h3 ⊢
      have : w = s.ft.weights := congrArg (fun x : DMP d m => x.ft.weights) h3
      rw [this]
      conv_rhs => rw [h2]
  refine ⟨{
    toMovement := Movement.init d d
    executionTime := s.executionTime, dt := s.dt, intDt := s.intDt, pGain := s.pGain, smooth := s.smooth
    ft := ft, alphaY := s.alphaY, betaY := s.betaY, initialized := false }, _, _, ?_, ?_, hw, ?_⟩
  · unfold FvDMP.create DMP.create
    rw [h1, ensure1dArray_ofFn, ensure1dArray_ofFn, hs.smooth]
    rfl
  · rw [DMP.exec_configure, Movement.exec_startAndGoal]
    rfl
  · intro calls
    cases calls with
    | nil => rfl
    | cons p l =>
      rw [Py.exec_bind]
      have hreset : DMP.reset.exec s = (.ok (), { s with toMovement := s.toMovement.reset }) := rfl
      rw [hreset]
      simp only [List.mapM_cons, Py.exec_bind, FvDMP.exec_step]
      have e : DMP.beginStep ({ s with toMovement := s.toMovement.reset } : DMP d m) =
          DMP.beginStep ({ s with
            toMovement := { s.toMovement with t := 0, lastT := none, currentY := 0, currentYd := 0 }
            initialized := false } : DMP d m) := by
        unfold DMP.beginStep Movement.reset
        cases s.initialized <;> rfl
      rw [e]
      rfl

/-! ## CartesianDMP -/

/-- **C19 (CartesianDMP).** The same for `CartesianDMP`, with all step functions. -/
theorem C19_cartesian {s : CartesianDMP m} (hs : TimedCartesian s) :
    ∃ f f1 f2 : CartesianDMP m,
      CartesianDMP.create m s.executionTime s.dt s.intDt s.smooth (.array1 (List.ofFn s.alphaY))
        (.array1 (List.ofFn s.betaY)) = .ok f ∧
      (CartesianDMP.configure s.startAndGoal).exec f = (.ok (), f1) ∧
      (CartesianDMP.setWeights s.getWeights).exec f1 = (.ok (), f2) ∧
      ∀ calls : List (Option PoseCoupling × StepFunction × QuatStepFunction × Vec (3 + 4) × Vec (3 + 3)),
        ((CartesianDMP.reset >>= fun _ =>
          calls.mapM (fun x => CartesianDMP.step (m := m) x.1 x.2.1 x.2.2.1 x.2.2.2.1 x.2.2.2.2)).exec s).1 =
          ((calls.mapM (fun x => CartesianDMP.step (m := m) x.1 x.2.1 x.2.2.1 x.2.2.2.1 x.2.2.2.2)).exec f2).1 := by
  have h : s.InTime := by
    induction hs with
    | create h => exact C14_in_time_create h
    | op o _ ho ih => exact C14_in_time_after ih o ho
  obtain ⟨ft, h1, h2, h3⟩ := h.ft
  have hw : (CartesianDMP.setWeights s.getWeights).exec
      ({ s with toMovement := { s.toMovement with t := 0, lastT := none, currentY := 0, currentYd := 0 }
                ftPos := ft, ftRot := ft } : CartesianDMP m) =
      (.ok (), { s with toMovement := { s.toMovement with t := 0, lastT := none, currentY := 0, currentYd := 0 } }) := by
    have h4 := C22_cartesian_get_set s
    rw [CartesianDMP.exec_setWeights] at h4 ⊢
    cases hr : CartesianDMP.assignRows m (s.getWeights.take (3 * m)) with
    | error e => rw [hr] at h4; cases h4
    | ok wp =>
      rw [hr] at h4
      simp only at h4 ⊢
      cases hr' : CartesianDMP.assignRows m (s.getWeights.drop (3 * m)) with
      | error e => rw [hr'] at h4; cases h4
      | ok wr =>
        rw [hr'] at h4
        simp only [Prod.mk.injEq, true_and] at h4 ⊢
        have e1 : wp = s.ftPos.weights := congrArg (fun x : CartesianDMP m => x.ftPos.weights) h4
        have e2 : wr = s.ftRot.weights := congrArg (fun x : CartesianDMP m => x.ftRot.weights) h4
        rw [e1, e2, ← h2, ← h3]
  refine ⟨{
    toMovement := Movement.init (3 + 4) (3 + 3)
    executionTime := s.executionTime, dt := s.dt, intDt := s.intDt, smooth := s.smooth
    ftPos := ft, ftRot := ft, alphaY := s.alphaY, betaY := s.betaY }, _, _, ?_, ?_, hw, ?_⟩
  · unfold CartesianDMP.create
    rw [CartesianDMP.initForcingTerms_eq, h1, ensure1dArray_ofFn, ensure1dArray_ofFn]
    rfl
  · rw [CartesianDMP.exec_configure, Movement.exec_startAndGoal]
    rfl
  · intro calls
    cases calls with
    | nil => rfl
    | cons p l =>
      rw [Py.exec_bind]
      have hreset : CartesianDMP.reset.exec s = (.ok (), { s with toMovement := s.toMovement.reset }) := rfl
      rw [hreset]
      simp only [List.mapM_cons, Py.exec_bind, CartesianDMP.exec_step]
      rfl

/-! ## DualCartesianDMP -/

/-- **C19 (DualCartesianDMP).** The same for `DualCartesianDMP`, with tracking error. -/
theorem C19_dual {s : DualCartesianDMP m} (hs : TimedDual s) :
    ∃ f f1 f2 : DualCartesianDMP m,
      DualCartesianDMP.create m s.executionTime s.dt s.intDt s.pGain s.smooth (.array1 (List.ofFn s.alphaY))
        (.array1 (List.ofFn s.betaY)) = .ok f ∧
      (DualCartesianDMP.configure s.startAndGoal).exec f = (.ok (), f1) ∧
      (DualCartesianDMP.setWeights s.getWeights).exec f1 = (.ok (), f2) ∧
      ∀ (ops : QuatOps) (calls : List (Option DualCoupling × DualStepFunction × Vec 14 × Vec 12)),
        ((DualCartesianDMP.reset >>= fun _ =>
          calls.mapM (fun x => DualCartesianDMP.step (m := m) ops x.1 x.2.1 x.2.2.1 x.2.2.2)).exec s).1 =
          ((calls.mapM (fun x => DualCartesianDMP.step (m := m) ops x.1 x.2.1 x.2.2.1 x.2.2.2)).exec f2).1 := by
  obtain ⟨ft, h1, h2⟩ := (DualCartesianDMP.C14_dual_in_time hs).ft
  have hw : (DualCartesianDMP.setWeights s.getWeights).exec
      ({ s with toMovement := { s.toMovement with t := 0, lastT := none, currentY := 0, currentYd := 0 }
                ft := ft, initialized := false } : DualCartesianDMP m) =
      (.ok (), { s with
        toMovement := { s.toMovement with t := 0, lastT := none, currentY := 0, currentYd := 0 }
        initialized := false }) := by
    have h3 := C22_dual_get_set s
    rw [DualCartesianDMP.exec_setWeights] at h3 ⊢
    cases hr : DMP.reshapeWeights 12 m s.getWeights with
    | error e => rw [hr] at h3; cases h3
    | ok w =>
      rw [hr] at h3
      simp only [Prod.mk.injEq, true_and] at h3 ⊢
      have : w = s.ft.weights := congrArg (fun x : DualCartesianDMP m => x.ft.weights) h3
      rw [this, ← h2]
  refine ⟨{
    toMovement := Movement.init 14 12
    executionTime := s.executionTime, dt := s.dt, intDt := s.intDt, pGain := s.pGain, smooth := s.smooth
    ft := ft, alphaY := s.alphaY, betaY := s.betaY, initialized := false }, _, _, ?_, ?_, hw, ?_⟩
  · unfold DualCartesianDMP.create
    rw [show DualCartesianDMP.initForcingTerm m s.executionTime = DMP.initForcingTerm 12 m s.executionTime from rfl, h1,
      ensure1dArray_ofFn, ensure1dArray_ofFn]
    rfl
  · rw [DualCartesianDMP.exec_configure, Movement.exec_startAndGoal]
    rfl
  · intro ops calls
    cases calls with
    | nil => rfl
    | cons p l =>
      rw [Py.exec_bind]
      have hreset : DualCartesianDMP.reset.exec s = (.ok (), { s with toMovement := s.toMovement.reset }) := rfl
      rw [hreset]
      simp only [List.mapM_cons, Py.exec_bind, DualCartesianDMP.exec_step]
      have e : DualCartesianDMP.reference ({ s with toMovement := s.toMovement.reset } : DualCartesianDMP m) =
          DualCartesianDMP.reference ({ s with
            toMovement := { s.toMovement with t := 0, lastT := none, currentY := 0, currentYd := 0 }
            initialized := false } : DualCartesianDMP m) := by
        unfold DualCartesianDMP.reference Movement.reset
        cases s.initialized <;> rfl
      rw [e]
      rfl

/-! ## StateFollowingDMP -/

/-- **C19 (StateFollowingDMP).** Whatever was done with an object, after `reset` it returns the same results as any other
object with the same configuration, which may have another time and another current state before `reset`. -/
theorem C19_state_following (s : StateFollowingDMP d n) (t : ℝ) (lastT : Option ℝ) (y yd : Vec d)
    (calls : List (Option (Coupling d) × Vec d × Vec d)) :
    ((StateFollowingDMP.reset >>= fun _ => calls.mapM (fun x => StateFollowingDMP.step (n := n) x.1 x.2.1 x.2.2)).exec
        { s with t := t, lastT := lastT, currentY := y, currentYd := yd }) =
      ((StateFollowingDMP.reset >>= fun _ => calls.mapM (fun x => StateFollowingDMP.step (n := n) x.1 x.2.1 x.2.2)).exec s) :=
  rfl

/-- Hypotheses are met: a dual-arm DMP after a step. -/
example : ∃ s : DualCartesianDMP 10, TimedDual s ∧ s.t = 1 / 100 := by
  obtain ⟨s0, h0, h1⟩ := DualCartesianDMP.create_ok 10 (by norm_num) (τ := 2) (by norm_num) (1 / 100) (1 / 1000) 0 true 25
    (25 / 4)
  refine ⟨_, .op (.step .cython none .cython 0 0) (.create h0) (fun τ h => by cases h), ?_⟩
  simp only [DualOp.after, DualCartesianDMP.exec_step]
  have ht : s0.t = 0 := by rw [h1.1]; rfl
  have hdt : s0.dt = 1 / 100 := h1.2.2.1
  split <;> simp [DualCartesianDMP.stepped, ht, hdt]

end Verif
