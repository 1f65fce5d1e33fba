import Verif.Props.SmoothStart
import Verif.Lemmas.Cartesian
import Verif.Lemmas.DmpHistory
import Verif.Props.DualClass

/-! # C10, C11, C35 for the classes: Python and Cython step functions are interchangeable -/

namespace Verif
open Spec
variable {d m : ℕ}

theorem rk4Cython_run (a : StepArgs d m) : StepFunction.rk4Cython.run a = StepFunction.rk4.run a := by
  funext lastT t s
  exact C10_rk4_cython_eq_python a lastT t s

/-- Open loops with two step functions that agree at all times after the start. -/
theorem openLoopWith_congr {p v : ℕ} (goalT startT : ℝ) {dt : ℝ} (hdt : 0 < dt) (start : Vec p × Vec v) (runT : Option ℝ)
    {f g : ℝ → ℝ → Vec p × Vec v → Except PyErr (Vec p × Vec v)} (h : ∀ lastT t s, startT < t → f lastT t s = g lastT t s) :
    openLoopWith goalT startT dt start runT f = openLoopWith goalT startT dt start runT g := by
  have e : (fun (i : ℕ) s => f (arangeAt startT dt i) (arangeAt startT dt (i + 1)) s) =
      fun i s => g (arangeAt startT dt i) (arangeAt startT dt (i + 1)) s := by
    funext i s
    refine h _ _ _ ?_
    unfold arangeAt
    push_cast
    have : (0 : ℝ) ≤ i := Nat.cast_nonneg i
    nlinarith
  unfold openLoopWith
  simp only [e]

/-- **C10 (DMP).** Results, exceptions and the object afterwards are the same with `"rk4"` and `"rk4-cython"`, for `step` and
`open_loop`, all objects, durations and coupling terms. -/
theorem C10_dmp (s : DMP d m) (c : Option (Coupling d)) :
    (∀ y yd, (DMP.step c .rk4Cython y yd).exec s = (DMP.step c .rk4 y yd).exec s) ∧
      ∀ runT, (DMP.openLoop runT c "rk4-cython").exec s = (DMP.openLoop runT c "rk4").exec s := by
  constructor
  · intro y yd
    rw [DMP.exec_step, DMP.exec_step, rk4Cython_run]
  · intro runT
    rw [DMP.exec_openLoop, DMP.exec_openLoop]
    simp [StepFunction.lookup, Except.bind, dmpOpenLoop, rk4Cython_run]

/-- **C10 (Cartesian).** The same for the positions of a Cartesian DMP, with any function for the orientations. -/
theorem C10_cartesian (s : CartesianDMP m) (c : Option PoseCoupling) :
    (∀ qf y yd, (CartesianDMP.step c .rk4Cython qf y yd).exec s = (CartesianDMP.step c .rk4 qf y yd).exec s) ∧
      ∀ ops runT qname, (CartesianDMP.openLoop ops runT c "rk4-cython" qname).exec s =
        (CartesianDMP.openLoop ops runT c "rk4" qname).exec s := by
  constructor
  · intro qf y yd
    rw [CartesianDMP.exec_step, CartesianDMP.exec_step, rk4Cython_run]
  · intro ops runT qname
    rw [CartesianDMP.exec_openLoop, CartesianDMP.exec_openLoop]
    simp [StepFunction.lookup, Except.bind, dmpOpenLoop, rk4Cython_run]

/-- **C11 (DMP).** Without coupling term, results, exceptions and the object afterwards are the same with `"euler"` and
`"euler-cython"`: `step` of every object at a time that is not negative, `open_loop` with every duration. -/
theorem C11_dmp (s : DMP d m) (hdt : 0 < s.dt) :
    (0 ≤ s.t → ∀ y yd, (DMP.step none .eulerCython y yd).exec s = (DMP.step none .euler y yd).exec s) ∧
      ∀ runT, (DMP.openLoop runT none "euler-cython").exec s = (DMP.openLoop runT none "euler").exec s := by
  constructor
  · intro ht y yd
    rw [DMP.exec_step, DMP.exec_step]
    congr 1
    exact C11_euler_cython_eq_python _ rfl rfl _ _ (add_pos_of_nonneg_of_pos ht hdt) _
  · intro runT
    rw [DMP.exec_openLoop, DMP.exec_openLoop]
    simp only [StepFunction.lookup, Except.bind, dmpOpenLoop]
    congr 1
    exact openLoopWith_congr _ _ hdt _ _ fun lastT t x ht => C11_euler_cython_eq_python _ rfl rfl lastT t ht x

/-- **C11 (Cartesian).** The same for the positions of a Cartesian DMP, with any function for the orientations. -/
theorem C11_cartesian (s : CartesianDMP m) (hdt : 0 < s.dt) :
    (0 ≤ s.t → ∀ qf y yd, (CartesianDMP.step none .eulerCython qf y yd).exec s = (CartesianDMP.step none .euler qf y yd).exec s) ∧
      ∀ ops runT qname, (CartesianDMP.openLoop ops runT none "euler-cython" qname).exec s =
        (CartesianDMP.openLoop ops runT none "euler" qname).exec s := by
  constructor
  · intro ht qf y yd
    rw [CartesianDMP.exec_step, CartesianDMP.exec_step]
    have e : StepFunction.eulerCython.run (s.posArgs none) s.t (s.t + s.dt) (sliceTo y, sliceTo yd) =
        StepFunction.euler.run (s.posArgs none) s.t (s.t + s.dt) (sliceTo y, sliceTo yd) :=
      C11_euler_cython_eq_python _ rfl rfl _ _ (add_pos_of_nonneg_of_pos ht hdt) _
    rw [e]
  · intro ops runT qname
    rw [CartesianDMP.exec_openLoop, CartesianDMP.exec_openLoop]
    have e : dmpOpenLoop (s.posOpenLoopArgs none) s.dt runT .eulerCython = dmpOpenLoop (s.posOpenLoopArgs none) s.dt runT .euler :=
      openLoopWith_congr _ _ hdt _ _ fun lastT t x ht => C11_euler_cython_eq_python _ rfl rfl lastT t ht x
    simp [StepFunction.lookup, Except.bind, e]

/-- The hypotheses of C11 hold for new objects. -/
example : ∃ s : DMP 2 5, s.Reachable ∧ 0 < s.dt ∧ 0 ≤ s.t := by
  obtain ⟨s, hs, -, h1, -, -, -, -, h3, -⟩ := DMP.create_ok 2 5 (by norm_num) one_pos (1 / 100) (1 / 1000) 0 true 25 (25 / 4)
  exact ⟨s, .create hs, by rw [h1]; norm_num, h3.ge⟩

/-! ## Dual arms -/

theorem agreeOnUnit_unit_error {ops : QuatOps} (h : AgreeOnUnit ops QuatOps.cython) {y y' : Vec 14}
    (hy : ∀ arm, UnitQuat (armRot arm y)) (hy' : ∀ arm, UnitQuat (armRot arm y')) (arm : Fin 2) :
    UnitQuat (armRot arm (DualCartesianDMP.trackingError ops y y')) := by
  have h1 := LawfulQuatOps.unit_conj lawful_cython (hy' arm)
  rw [DualCartesianDMP.trackingError, armRot_joinState, h.conj _ (hy' arm), h.mul _ _ (hy arm) h1]
  exact LawfulQuatOps.unit_mul lawful_cython (hy arm) h1

/-- **C35 (step).** `step` of a dual-arm DMP gives the same result and leaves the same object with `"python"` and `"cython"` if
`p_gain` is 0, a coupling term is used or one sub-step is taken (`dt <= int_dt`). All orientations are unit quaternions. -/
theorem C35_step {s : DualCartesianDMP m} {ops : QuatOps} (hops : AgreeOnUnit ops QuatOps.cython) {c : Option DualCoupling}
    (hg : ∀ arm, UnitQuat (armOrientation arm s.goalY)) (hst : ∀ arm, UnitQuat (armOrientation arm s.startY))
    (hcur : ∀ arm, UnitQuat (armOrientation arm (if s.initialized then s.currentY else s.startY)))
    {y : Vec 14} (hy : ∀ arm, UnitQuat (armOrientation arm y)) (hcase : s.pGain = 0 ∨ c ≠ none ∨ s.dt ≤ s.intDt) (yd : Vec 12) :
    (DualCartesianDMP.step ops c (.python ops) y yd).exec s = (DualCartesianDMP.step ops c .cython y yd).exec s := by
  rw [DualCartesianDMP.exec_step, DualCartesianDMP.exec_step]
  rw [C35_python_eq_cython (s.stepArgs c (DualCartesianDMP.trackingError ops s.reference y)) hops hg hst ?_ yd hy ?_]
  · rintro e he arm
    obtain rfl : DualCartesianDMP.trackingError ops s.reference y = e := Option.some.inj he
    simp only [armOrientation_eq] at hcur hy ⊢
    exact agreeOnUnit_unit_error hops hcur hy arm
  · rcases hcase with h | h | h
    · exact .inl h
    · exact .inr (.inr (.inl h))
    · exact .inr (.inr (.inr (by rw [add_sub_cancel_left]; exact h)))

/-- **C35 (open loop).** `open_loop` of a dual-arm DMP returns the same with `"python"` and `"cython"` under the same conditions;
for an object that holds its start state (not executed yet, or `reset` was called) for every `p_gain` and number of sub-steps. -/
theorem C35_open_loop {s : DualCartesianDMP m} {ops : QuatOps} {eps : ℝ} (heps : 0 < eps) (hl : LawfulQuatOps ops eps)
    (hops : AgreeOnUnit ops QuatOps.cython) {c : Option DualCoupling}
    (hg : ∀ arm, UnitQuat (armOrientation arm s.goalY)) (hst : ∀ arm, UnitQuat (armOrientation arm s.startY))
    (hcur : ∀ arm, UnitQuat (armOrientation arm (if s.initialized then s.currentY else s.startY)))
    (hcase : s.pGain = 0 ∨ c ≠ none ∨ s.dt ≤ s.intDt ∨ s.initialized = false ∨ s.currentY = s.startY) (runT : Option ℝ) :
    ((DualCartesianDMP.openLoop ops runT c "python").exec s).1 = ((DualCartesianDMP.openLoop ops runT c "cython").exec s).1 := by
  have main : ∀ s : DualCartesianDMP m, (∀ arm, UnitQuat (armOrientation arm s.goalY)) →
      (∀ arm, UnitQuat (armOrientation arm s.startY)) → (∀ arm, UnitQuat (armOrientation arm s.reference)) →
      (s.pGain = 0 ∨ c ≠ none ∨ s.dt ≤ s.intDt) →
      ((DualCartesianDMP.openLoop ops runT c "python").exec s).1 = ((DualCartesianDMP.openLoop ops runT c "cython").exec s).1 := by
    intro s hg hst hcur hcase
    rw [DualCartesianDMP.exec_openLoop, DualCartesianDMP.exec_openLoop]
    have l1 : DualStepFunction.lookup ops "python" = .ok (.python ops) := rfl
    have l2 : DualStepFunction.lookup ops "cython" = .ok .cython := by simp [DualStepFunction.lookup]
    rw [l1, l2]
    simp only
    have hsf : LawfulDualStep (.python ops) := ⟨eps, heps, hl⟩
    rcases DualCartesianDMP.loop_rel (ops := ops) (ops' := ops) (c := c) (c' := c) (sf := .python ops) (sf' := .cython)
      (runT := runT.getD s.executionTime) (s := s) (s' := s)
      (fun x s1 x' s1' => x = x' ∧ s1 = s1' ∧ (s1.startY = s.startY ∧ s1.goalY = s.goalY ∧ s1.pGain = s.pGain ∧ s1.dt = s.dt ∧
        s1.intDt = s.intDt) ∧ (∀ arm, UnitQuat (armOrientation arm x.y)) ∧ ∀ arm, UnitQuat (armOrientation arm s1.reference))
      (fun _ _ => True)
      (by rintro x s1 x' s1' ⟨rfl, rfl, -⟩; rfl)
      (by
        rintro x s1 x' s1' ⟨rfl, rfl, h1, h2, h3⟩
        obtain ⟨e1, e2, e3, e4, e5⟩ := h1
        have e := C35_python_eq_cython (s1.stepArgs c (DualCartesianDMP.trackingError ops s1.reference x.y)) hops
          (lastT := s1.t) (t := s1.t + s1.dt) (by rw [← e2] at hg; exact hg) (by rw [← e1] at hst; exact hst)
          (by
            rintro e he arm
            obtain rfl : DualCartesianDMP.trackingError ops s1.reference x.y = e := Option.some.inj he
            simp only [armOrientation_eq] at h2 h3 ⊢
            exact agreeOnUnit_unit_error hops h3 h2 arm) x.yd h2
          (by
            rcases hcase with h | h | h
            · exact .inl (e3.trans h)
            · exact .inr (.inr (.inl h))
            · refine .inr (.inr (.inr ?_))
              rw [add_sub_cancel_left]
              show s1.dt ≤ s1.intDt
              rw [e4, e5]; exact h)
        rw [← e]
        cases hx : (DualStepFunction.python ops).run (s1.stepArgs c (DualCartesianDMP.trackingError ops s1.reference x.y)) s1.t
          (s1.t + s1.dt) (x.y, x.yd) with
        | ok r =>
          left
          have hu := C31_dual_step_function hsf _ (by rw [← e1] at hst; exact hst) h2 (y' := r.1) (yd' := r.2) hx
          exact ⟨r, r, rfl, rfl, rfl, rfl, ⟨e1, e2, e3, e4, e5⟩, hu, hu⟩
        | error e => right; exact ⟨e, rfl, rfl, trivial⟩)
      (fun _ _ _ _ _ => trivial) ⟨rfl, rfl, ⟨rfl, rfl, rfl, rfl, rfl⟩, hst, hcur⟩ with
      ⟨y, t, y', t', h1, h2, rfl, rfl, -⟩ | ⟨e, t, t', h1, h2, -⟩
    · rw [h1, h2]
    · rw [h1, h2]
  have hcase' : (s.pGain = 0 ∨ c ≠ none ∨ s.dt ≤ s.intDt) ∨ (s.initialized = false ∨ s.currentY = s.startY) := by tauto
  rcases hcase' with h | h
  · exact main s hg hst hcur h
  · rw [C36_first_run h heps hl hst runT c "python", C36_first_run h heps hl hst runT c "cython"]
    exact main { s with pGain := 0 } hg hst hcur (.inl rfl)

/-- The hypotheses of C35_step and C35_open_loop are met: a moving dual-arm DMP with `p_gain = 1` and one sub-step, executed from a
pose that is not its current pose. -/
example : ∃ s : DualCartesianDMP 2, s.pGain ≠ 0 ∧ s.goalY ≠ s.startY ∧
    (DualCartesianDMP.step QuatOps.cython none (.python QuatOps.cython) s.goalY 0).exec s =
      (DualCartesianDMP.step QuatOps.cython none .cython s.goalY 0).exec s ∧
    ((DualCartesianDMP.openLoop QuatOps.cython (some 3) none "python").exec s).1 =
      ((DualCartesianDMP.openLoop QuatOps.cython (some 3) none "cython").exec s).1 := by
  obtain ⟨s0, -, -, hτ, hdt, hint, hp, hsm, hα, hβ, hw, hi⟩ :=
    DualCartesianDMP.create_ok 2 le_rfl one_pos 1 1 1 false 1 1
  let s : DualCartesianDMP 2 := { s0 with
    startY := joinState 0 (fun _ => ![1, 0, 0, 0]), startYd := 0
    goalY := joinState (fun _ => ![1, 1, 1]) (fun _ => ![1, 0, 0, 0]) }
  have hst : ∀ arm, UnitQuat (armOrientation arm s.startY) := by
    intro arm
    simp only [armOrientation_eq, s, armRot_joinState]
    simp [UnitQuat]
  have hg : ∀ arm, UnitQuat (armOrientation arm s.goalY) := by
    intro arm
    simp only [armOrientation_eq, s, armRot_joinState]
    simp [UnitQuat]
  have hi' : s.initialized = false := hi
  have hcur : ∀ arm, UnitQuat (armOrientation arm (if s.initialized then s.currentY else s.startY)) := by
    intro arm; rw [hi']; exact hst arm
  have hd : s.dt ≤ s.intDt := by
    show s0.dt ≤ s0.intDt
    rw [hdt, hint]
  have hops : AgreeOnUnit QuatOps.cython QuatOps.cython := by constructor <;> intros <;> rfl
  refine ⟨s, ?_, ?_, C35_step hops hg hst hcur hg (.inr (.inr hd)) 0,
    C35_open_loop (by norm_num) lawful_cython hops hg hst hcur (.inr (.inr (.inl hd))) (some 3)⟩
  · show s0.pGain ≠ 0
    rw [hp]; norm_num
  · intro h
    have h1 := congrArg (armPos 0) h
    simp only [s, armPos_joinState] at h1
    simpa using congrFun h1 0

end Verif
