import Verif.Spec.StepNames
import Verif.Lemmas.DmpHistory
import Verif.Lemmas.Cartesian
import Verif.Props.DualClass

/-!
# Selection of an integrator by its name (C78)
-/

namespace Verif
open Spec

variable {d m : ℕ}

/-- C78: the names that are accepted are exactly the documented ones, and each stands for the integrator of that name. -/
theorem C78_names (name : String) (ops : QuatOps) :
    (∀ sf, StepFunction.lookup name = .ok sf ↔ (name, sf) ∈ integrators) ∧
    (∀ qf, QuatStepFunction.lookup ops name = .ok qf ↔ (name, qf) ∈ quaternionIntegrators ops) ∧
    (∀ sf, DualStepFunction.lookup ops name = .ok sf ↔ (name, sf) ∈ dualIntegrators ops) := by
  refine ⟨fun sf => ?_, fun sf => ?_, fun sf => ?_⟩
  · simp only [StepFunction.lookup, integrators]
    split_ifs <;> simp_all [eq_comm]
  · simp only [QuatStepFunction.lookup, quaternionIntegrators]
    split_ifs <;> simp_all [eq_comm]
  · simp only [DualStepFunction.lookup, dualIntegrators]
    split_ifs <;> simp_all [eq_comm]

theorem StepFunction.lookup_error {name : String} (h : Undocumented integrators name) :
    StepFunction.lookup name = .error .valueError := by
  have h1 := h .rk4
  have h2 := h .euler
  have h3 := h .rk4Cython
  have h4 := h .eulerCython
  simp only [integrators, List.mem_cons, Prod.mk.injEq, reduceCtorEq, and_true, and_false, List.not_mem_nil, or_false,
    false_or] at h1 h2 h3 h4
  simp [StepFunction.lookup, h1, h2, h3, h4]

theorem QuatStepFunction.lookup_error {name : String} {ops : QuatOps}
    (h : Undocumented (quaternionIntegrators ops) name) : QuatStepFunction.lookup ops name = .error .valueError := by
  have h1 := h .cython
  have h2 := h (.python ops)
  simp only [quaternionIntegrators, List.mem_cons, Prod.mk.injEq, reduceCtorEq, and_true, and_false, List.not_mem_nil,
    or_false, false_or] at h1 h2
  simp [QuatStepFunction.lookup, h1, h2]

theorem DualStepFunction.lookup_error {name : String} {ops : QuatOps}
    (h : Undocumented (dualIntegrators ops) name) : DualStepFunction.lookup ops name = .error .valueError := by
  have h1 := h .cython
  have h2 := h (.python ops)
  simp only [dualIntegrators, List.mem_cons, Prod.mk.injEq, reduceCtorEq, and_true, and_false, List.not_mem_nil,
    or_false, false_or] at h1 h2
  simp [DualStepFunction.lookup, h1, h2]

/-- Some name is in none of the tables. -/
example (ops : QuatOps) : Undocumented integrators "rk2" ∧ Undocumented (quaternionIntegrators ops) "rk4" ∧
    Undocumented (dualIntegrators ops) "euler" := by
  refine ⟨fun f => ?_, fun f => ?_, fun f => ?_⟩ <;> simp [integrators, quaternionIntegrators, dualIntegrators]

/-- C78: `DMP.step` and `DMP.open_loop` reject an unknown name with a ValueError, whatever the other arguments are, and leave
the object as it was. -/
theorem C78_dmp_unknown {name : String} (h : Undocumented integrators name) (s : DMP d m) (lastY lastYd : List ℝ)
    (c : Option (Coupling d)) (runT : Option ℝ) :
    (DMP.stepList lastY lastYd c name).exec s = (.error .valueError, s) ∧
    (DMP.openLoop runT c name).exec s = (.error .valueError, s) := by
  constructor
  · unfold DMP.stepList
    rw [Py.exec_bind, Py.exec_lift, StepFunction.lookup_error h]
  · rw [DMP.exec_openLoop, StepFunction.lookup_error h]
    rfl

/-- C78: a `DMP` uses the integrator that was named, in `step` and in `open_loop`. -/
theorem C78_dmp {name : String} {sf : StepFunction} (h : (name, sf) ∈ integrators) (s : DMP d m) (lastY lastYd : Vec d)
    (c : Option (Coupling d)) (runT : Option ℝ) :
    (DMP.stepList (List.ofFn lastY) (List.ofFn lastYd) c name).exec s = (DMP.step c sf lastY lastYd).exec s ∧
    (DMP.openLoop runT c name).exec s = (dmpOpenLoop (s.openLoopArgs c) s.dt runT sf, s) := by
  have hl := ((C78_names name QuatOps.cython).1 sf).2 h
  constructor
  · unfold DMP.stepList
    simp only [Py.exec_bind, Py.exec_lift, hl, checkLength, List.length_ofFn, dite_true, Except.mapError]
    simp
  · rw [DMP.exec_openLoop, hl]
    rfl

/-- C78: `CartesianDMP.open_loop` uses the two integrators that were named: the rows of its result are the rows of the
two integrations side by side, and exceptions are those of the integrations. -/
theorem C78_cartesian {name qname : String} {ops : QuatOps} {sf : StepFunction} {qf : QuatStepFunction}
    (h : (name, sf) ∈ integrators) (hq : (qname, qf) ∈ quaternionIntegrators ops) (s : CartesianDMP m)
    (c : Option PoseCoupling) (runT : Option ℝ) :
    (CartesianDMP.openLoop ops runT c name qname).exec s =
      ((dmpOpenLoop (s.posOpenLoopArgs c) s.dt runT sf).bind fun p =>
        (openLoopWith s.executionTime 0 s.dt (sliceFrom s.startY, (0 : Vec 3)) runT
          (qf.run (s.rotOpenLoopArgs c))).bind fun r =>
        if p.2.length ≠ r.2.length then .error .valueError else .ok (p.1, List.zipWith hstack p.2 r.2), s) := by
  rw [CartesianDMP.exec_openLoop, ((C78_names name ops).1 sf).2 h, ((C78_names qname ops).2.1 qf).2 hq]
  rfl

/-- The hypotheses of `C78_dmp`, `C78_cartesian` and `C78_dual` are met by different integrators. -/
example : ("euler", StepFunction.euler) ∈ integrators ∧ ("rk4-cython", StepFunction.rk4Cython) ∈ integrators ∧
    ("python", QuatStepFunction.python .cython) ∈ quaternionIntegrators .cython ∧
    ("cython", DualStepFunction.cython) ∈ dualIntegrators .cython := by
  simp [integrators, quaternionIntegrators, dualIntegrators]

/-- C78: `CartesianDMP.open_loop` rejects an unknown name of the position integrator with a ValueError. -/
theorem C78_cartesian_unknown {name : String} (h : Undocumented integrators name) (qname : String) (ops : QuatOps)
    (s : CartesianDMP m) (c : Option PoseCoupling) (runT : Option ℝ) :
    (CartesianDMP.openLoop ops runT c name qname).exec s = (.error .valueError, s) := by
  rw [CartesianDMP.exec_openLoop, StepFunction.lookup_error h]
  rfl

/-- C78: `CartesianDMP.open_loop` never returns a trajectory for an unknown name of the orientation integrator. The name is
only looked up after the position has been integrated: an exception of that integration, if there is one, is raised
instead of the ValueError. -/
theorem C78_cartesian_unknown_quaternion {name qname : String} {ops : QuatOps} {sf : StepFunction}
    (h : (name, sf) ∈ integrators) (hq : Undocumented (quaternionIntegrators ops) qname) (s : CartesianDMP m)
    (c : Option PoseCoupling) (runT : Option ℝ) :
    (CartesianDMP.openLoop ops runT c name qname).exec s =
      match dmpOpenLoop (s.posOpenLoopArgs c) s.dt runT sf with
      | .ok _ => (.error .valueError, s)
      | .error e => (.error e, s) := by
  rw [CartesianDMP.exec_openLoop, ((C78_names name ops).1 sf).2 h, QuatStepFunction.lookup_error hq]
  simp only [Except.bind]
  cases dmpOpenLoop (s.posOpenLoopArgs c) s.dt runT sf <;> rfl

/-- C78 (finding): the orientation integrator's name is looked up late. With a step size `dt = 0` an unknown name is reported
as a ZeroDivisionError, whereas an unknown name of the position integrator is a ValueError (`C78_cartesian_unknown`). -/
theorem C78_cartesian_lookup_is_late {qname : String} {ops : QuatOps}
    (hq : Undocumented (quaternionIntegrators ops) qname) (s : CartesianDMP m) (hdt : s.dt = 0)
    (c : Option PoseCoupling) (runT : Option ℝ) :
    (CartesianDMP.openLoop ops runT c "rk4" qname).exec s = (.error .zeroDivisionError, s) := by
  rw [C78_cartesian_unknown_quaternion (sf := .rk4) (by simp [integrators]) hq]
  have e : dmpOpenLoop (s.posOpenLoopArgs c) s.dt runT .rk4 = .error .zeroDivisionError := by
    unfold dmpOpenLoop openLoopWith
    simp only [hdt]
    simp
    rfl
  rw [e]

/-- C78: `DualCartesianDMP.open_loop` rejects an unknown name with a ValueError and leaves the object as it was (its time
is not reset either). -/
theorem C78_dual_unknown {name : String} {ops : QuatOps} (h : Undocumented (dualIntegrators ops) name)
    (s : DualCartesianDMP m) (c : Option DualCoupling) (runT : Option ℝ) :
    (DualCartesianDMP.openLoop ops runT c name).exec s = (.error .valueError, s) := by
  rw [DualCartesianDMP.exec_openLoop, DualStepFunction.lookup_error h]

/-- C78: `DualCartesianDMP.open_loop` uses the integrator that was named: while the time is less than `run_t`, `step` is
called with it. -/
theorem C78_dual {name : String} {ops : QuatOps} {sf : DualStepFunction} (h : (name, sf) ∈ dualIntegrators ops)
    (s : DualCartesianDMP m) (c : Option DualCoupling) (runT : ℝ) :
    (DualCartesianDMP.openLoop ops (some runT) c name).exec s =
      match (Py.while (fun s : DualCartesianDMP m => s.t < runT) (DualCartesianDMP.loopBody ops c sf)
        ⟨s.startY, s.startYd, [0], [s.startY]⟩).exec { s with t := 0 } with
      | (.ok x, s') => (.ok (x.T, x.Y), { s' with t := 0 })
      | (.error e, s') => (.error e, s') := by
  rw [DualCartesianDMP.exec_openLoop, ((C78_names name ops).2.2 sf).2 h]
  rfl

end Verif
