import Verif.Model.DtypesPose
import Verif.Props.DtypesSpring
import Verif.Props.CartesianClass
import Verif.Props.DualClass

/-! # C100 (arrays of integers) for Cartesian and dual-arm DMPs -/

namespace Verif
open Spec
variable {d m : ℕ}

theorem StepFunction.runTyped_ok_types (sf : StepFunction) (a : StepArgs d m) (ty : Dtypes) {l t : ℝ}
    {s : Vec d × Vec d} (h : (sf.runTyped a ty l t s).1 = .ok ()) (hl : l < t) (h0 : a.startT < t) :
    ty.currentY = .float ∧ ty.currentYd = .float := by
  cases sf with
  | rk4 =>
    simp only [StepFunction.runTyped, StepArgs.stepRk4Typed] at h
    revert h
    cases ty.currentY <;> cases ty.currentYd <;> cases a.stepRk4 l t s <;> simp
  | euler =>
    simp only [StepFunction.runTyped, StepArgs.stepEulerTyped, if_neg (not_le.2 hl), if_neg (not_le.2 h0)] at h
    split_ifs at h
    revert h
    cases ty.currentY <;> cases ty.currentYd <;> cases intLoop a.intDt t a.eulerBody l s <;> simp
  | eulerCython =>
    simp only [StepFunction.runTyped, StepArgs.cythonTyped] at h
    split_ifs at h with hty
    rw [hty]; exact ⟨rfl, rfl⟩
  | rk4Cython =>
    simp only [StepFunction.runTyped, StepArgs.cythonTyped] at h
    split_ifs at h with hty
    rw [hty]; exact ⟨rfl, rfl⟩

theorem QuatStepFunction.runTyped_ok (qf : QuatStepFunction) (a : QuatStepArgs m) (ty : Dtypes) {l t : ℝ}
    {s : Vec 4 × Vec 3} (hty : l < t → a.startT < t → ty.currentY = .float)
    (h : (qf.runTyped a ty l t s).1 = .ok ()) : qf.run a l t s = .ok (qf.runTyped a ty l t s).2 := by
  cases qf with
  | python ops =>
    simp only [QuatStepFunction.runTyped, QuatStepFunction.run, QuatStepArgs.stepPyTyped, QuatStepArgs.stepPy] at h ⊢
    by_cases h1 : a.goalT ≤ a.startT
    · rw [if_pos h1] at h; cases h
    rw [if_neg h1] at h ⊢
    rw [if_neg h1]
    by_cases h2 : t ≤ a.startT
    · rw [if_pos h2, if_pos h2]
    rw [if_neg h2] at h ⊢
    rw [if_neg h2]
    by_cases h3 : t ≤ l
    · rw [if_pos h3, intLoop_done _ h3]
    rw [if_neg h3] at h ⊢
    rw [hty (not_le.1 h3) (not_le.1 h2)] at h ⊢
    have e : (fun dt t (s : Vec 4 × Vec 3) =>
        ((fun i => Dtype.float.store ((a.bodyPy ops dt t s).1 i), (a.bodyPy ops dt t s).2) : Vec 4 × Vec 3)) =
        a.bodyPy ops := rfl
    rw [e] at h ⊢
    revert h
    cases ty.currentYd <;> cases intLoop a.intDt t (a.bodyPy ops) l s <;> simp
  | cython =>
    simp only [QuatStepFunction.runTyped, QuatStepFunction.run] at h ⊢
    split_ifs at h ⊢
    revert h
    cases a.stepCy l t s <;> simp

namespace TypedCartesianDMP

theorem exec_step (c : Option PoseCoupling) (sf : StepFunction) (qf : QuatStepFunction) (y : Vec (3 + 4))
    (yd : Vec (3 + 3)) (s : TypedCartesianDMP m) :
    (step c sf qf y yd).exec s =
      let y' : Vec (3 + 4) := fun i => s.types.currentY.store (y i)
      let yd' : Vec (3 + 3) := fun i => s.types.currentYd.store (yd i)
      let rp := sf.runTyped (s.posArgs c) s.types s.t (s.t + s.dt) (sliceTo y', sliceTo yd')
      match rp.1 with
      | .error e => (.error e, { toCartesianDMP := { s.toCartesianDMP.beginStep y' yd' with
            currentY := hstack rp.2.1 (sliceFrom y'), currentYd := hstack rp.2.2 (sliceFrom yd') }
                                 types := s.types })
      | .ok _ =>
        let rr := qf.runTyped (s.rotArgs c) s.types s.t (s.t + s.dt) (sliceFrom y', sliceFrom yd')
        (match rr.1 with
          | .error e => .error e
          | .ok _ => .ok (hstack rp.2.1 rr.2.1, hstack rp.2.2 rr.2.2),
          { toCartesianDMP := { s.toCartesianDMP.beginStep y' yd' with
              currentY := hstack rp.2.1 rr.2.1, currentYd := hstack rp.2.2 rr.2.2 }
            types := s.types }) := by
  unfold step
  simp only [Py.exec_bind, Py.exec_modify, Py.exec_get, Py.exec_lift, Py.exec_pure, Option.getD_some]
  have e1 : ∀ y yd, CartesianDMP.posArgs (m := m) { s.toCartesianDMP with
    lastT := some s.t, t := s.t + s.dt, currentY := y, currentYd := yd } c = s.posArgs c := fun _ _ => rfl
  rw [e1]
  generalize sf.runTyped (s.posArgs c) s.types s.t (s.t + s.dt) _ = rp
  obtain ⟨r, x⟩ := rp
  cases r with
  | error e => rfl
  | ok u =>
    simp only [sliceFrom_hstack, Option.getD_some, sliceTo_hstack]
    have e2 : ∀ y yd, CartesianDMP.rotArgs (m := m) { s.toCartesianDMP with
      lastT := some s.t, t := s.t + s.dt, currentY := y, currentYd := yd } c = s.rotArgs c := fun _ _ => rfl
    rw [e2]
    generalize qf.runTyped (s.rotArgs c) s.types s.t (s.t + s.dt) _ = rr
    obtain ⟨r, x⟩ := rr
    cases r <;> rfl

end TypedCartesianDMP

/-- **C100 (`CartesianDMP`).** If a `step` that ends after the start of the movement returns, it returns what it would
return for arrays of floating-point numbers. -/
theorem C100_cartesian_step_no_rounding (c : Option PoseCoupling) (sf : StepFunction) (qf : QuatStepFunction)
    (y : Vec (3 + 4)) (yd : Vec (3 + 3)) (s s' : TypedCartesianDMP m) (r : Vec (3 + 4) × Vec (3 + 3)) (hdt : 0 < s.dt)
    (ht : 0 < s.t + s.dt) (h : (TypedCartesianDMP.step c sf qf y yd).exec s = (.ok r, s')) :
    (CartesianDMP.step c sf qf y yd).exec s.toCartesianDMP = (.ok r, s'.toCartesianDMP) := by
  rw [TypedCartesianDMP.exec_step] at h
  simp only at h
  cases h1 : (sf.runTyped (s.posArgs c) s.types s.t (s.t + s.dt)
      (sliceTo fun i => s.types.currentY.store (y i), sliceTo fun i => s.types.currentYd.store (yd i))).1 with
  | error e => rw [h1] at h; injection h with h2; cases h2
  | ok u =>
    rw [h1] at h
    simp only at h
    obtain ⟨t1, t2⟩ := sf.runTyped_ok_types _ _ h1 (show s.t < s.t + s.dt by linarith)
      (show (s.posArgs c).startT < s.t + s.dt from ht)
    have h3 := sf.runTyped_ok _ _ h1
    simp only [t1, t2, store_float] at h h3
    injection h with h4 h5
    cases h6 : (qf.runTyped (s.rotArgs c) s.types s.t (s.t + s.dt)
        (sliceFrom fun i => y i, sliceFrom fun i => yd i)).1 with
    | error e => rw [h6] at h4; cases h4
    | ok u =>
      rw [h6] at h4
      injection h4 with h4
      have h7 := qf.runTyped_ok _ _ (fun _ _ => t1) h6
      rw [CartesianDMP.exec_step]
      have ey : (fun i => y i) = y := rfl
      have eyd : (fun i => yd i) = yd := rfl
      rw [ey, eyd] at *
      rw [h3]
      simp only
      rw [h7]
      simp only
      rw [h4, ← h5]

/-- **C100 (finding, `CartesianDMP`).** Without the condition on the time there would be rounding: before the start of the
movement (the clock has been set to a negative time) the Python Euler step functions return the given state, and after
`reset` with a start made of integers it is rounded toward zero, without an exception. -/
theorem C100_finding_cartesian_rounding (c : Option PoseCoupling) (ops : QuatOps) (y : Vec (3 + 4)) (yd : Vec (3 + 3))
    (s : TypedCartesianDMP m) (hs : s.types.startY = .int) (hτ : 0 < s.executionTime) (t : ℝ) (ht : t + s.dt ≤ 0) :
    ((do TypedCartesianDMP.reset
         TypedCartesianDMP.configure { t := some t }
         TypedCartesianDMP.step c .euler (.python ops) y yd).exec s).1 =
      .ok (fun i => truncate (y i), fun i => s.types.startYd.store (yd i)) := by
  simp only [TypedCartesianDMP.reset, TypedCartesianDMP.configure, configureTypedField, Py.exec_bind, Py.exec_modify,
    Py.exec_pure, TypedCartesianDMP.exec_step]
  simp only [StepFunction.runTyped, StepArgs.stepEulerTyped, QuatStepFunction.runTyped, QuatStepArgs.stepPyTyped,
    CartesianDMP.posArgs, CartesianDMP.rotArgs, Movement.reset, if_neg (not_le.2 hτ), if_pos ht, hstack_slices, hs]
  rfl

namespace TypedCartesianDMP

theorem exec_openLoop (ops : QuatOps) (runT : Option ℝ) (c : Option PoseCoupling) (name qname : String)
    (s : TypedCartesianDMP m) :
    (openLoop ops runT c name qname).exec s =
      ((StepFunction.lookup name).bind fun sf =>
        (openLoopWith s.executionTime 0 s.dt (sliceTo s.startY, (0 : Vec 3)) runT
          (fun l t x => outcome (sf.runTyped (s.posOpenLoopArgs c) (TypedDMP.openLoopTypes s.types) l t x))).bind fun p =>
        (QuatStepFunction.lookup ops qname).bind fun qf =>
        (openLoopWith s.executionTime 0 s.dt (sliceFrom s.startY, (0 : Vec 3)) runT
          (fun l t x => outcome (qf.runTyped (s.rotOpenLoopArgs c) (rotOpenLoopTypes s.types) l t x))).bind fun r =>
        if p.2.length ≠ r.2.length then .error .valueError else .ok (p.1, List.zipWith hstack p.2 r.2), s) := by
  unfold openLoop
  simp only [Py.exec_bind, Py.exec_lift, Py.exec_get]
  cases StepFunction.lookup name with
  | error e => rfl
  | ok sf =>
    simp only [Except.bind]
    have e : ∀ f, openLoopWith (s.posOpenLoopArgs c).goalT (s.posOpenLoopArgs c).startT s.dt
      ((s.posOpenLoopArgs c).startY, (s.posOpenLoopArgs c).startYd) runT f =
      openLoopWith s.executionTime 0 s.dt (sliceTo s.startY, (0 : Vec 3)) runT f := fun _ => rfl
    rw [e]
    cases openLoopWith s.executionTime 0 s.dt (sliceTo s.startY, (0 : Vec 3)) runT
      (fun l t x => outcome (sf.runTyped (s.posOpenLoopArgs c) (TypedDMP.openLoopTypes s.types) l t x)) with
    | error e => rfl
    | ok p =>
      simp only
      cases QuatStepFunction.lookup ops qname with
      | error e => rfl
      | ok qf =>
        simp only
        have e : ∀ f, openLoopWith (s.rotOpenLoopArgs c).goalT (s.rotOpenLoopArgs c).startT s.dt
          ((s.rotOpenLoopArgs c).startY, (s.rotOpenLoopArgs c).startYd) runT f =
          openLoopWith s.executionTime 0 s.dt (sliceFrom s.startY, (0 : Vec 3)) runT f := fun _ => rfl
        rw [e]
        cases openLoopWith s.executionTime 0 s.dt (sliceFrom s.startY, (0 : Vec 3)) runT
          (fun l t x => outcome (qf.runTyped (s.rotOpenLoopArgs c) (rotOpenLoopTypes s.types) l t x)) with
        | error e => rfl
        | ok r =>
          simp only
          split_ifs <;> rfl

end TypedCartesianDMP

theorem openLoopWith_congr_short {p v : ℕ} {goalT startT dt : ℝ} {start : Vec p × Vec v} {runT : Option ℝ}
    {step step' : ℝ → ℝ → Vec p × Vec v → Except PyErr (Vec p × Vec v)} (hdt : 0 < dt)
    (h : runT.getD goalT ≤ startT) :
    openLoopWith goalT startT dt start runT step = openLoopWith goalT startT dt start runT step' := by
  have hn : arangeLen startT (runT.getD goalT + dt) dt ≤ 1 := by
    unfold arangeLen
    rw [Nat.ceil_le, div_le_iff₀ hdt]
    push_cast
    linarith
  unfold openLoopWith
  have hk : arangeLen startT (runT.getD goalT + dt) dt - 1 = 0 := by omega
  simp only [hk, loopRows]

theorem quat_runTyped_le (qf : QuatStepFunction) (a : QuatStepArgs m) (ty : Dtypes) (hty : ty.currentY = .float)
    (l t : ℝ) (x x' : Vec 4 × Vec 3) (h : outcome (qf.runTyped a ty l t x) = .ok x') : qf.run a l t x = .ok x' := by
  obtain ⟨h3, h4⟩ := outcome_ok h
  rw [← h4]
  exact qf.runTyped_ok _ _ (fun _ _ => hty) h3

/-- **C100 (`CartesianDMP`).** If `open_loop` returns a trajectory, it is that of arrays of floating-point numbers. In
particular the orientations are not rounded, although the orientation step assigns to the elements of its array. -/
theorem C100_cartesian_open_loop_no_rounding (ops : QuatOps) (runT : Option ℝ) (c : Option PoseCoupling)
    (name qname : String) (s s' : TypedCartesianDMP m) (r : List ℝ × List (Vec (3 + 4))) (hdt : 0 < s.dt)
    (h : (TypedCartesianDMP.openLoop ops runT c name qname).exec s = (.ok r, s')) :
    (CartesianDMP.openLoop ops runT c name qname).exec s.toCartesianDMP = (.ok r, s.toCartesianDMP) := by
  rw [TypedCartesianDMP.exec_openLoop] at h
  rw [CartesianDMP.exec_openLoop]
  injection h with h1 h2
  cases hl : StepFunction.lookup name with
  | error e => rw [hl] at h1; cases h1
  | ok sf =>
    rw [hl] at h1
    simp only [Except.bind] at h1 ⊢
    cases hp : openLoopWith s.executionTime 0 s.dt (sliceTo s.startY, (0 : Vec 3)) runT
        (fun l t x => outcome (sf.runTyped (s.posOpenLoopArgs c) (TypedDMP.openLoopTypes s.types) l t x)) with
    | error e => rw [hp] at h1; cases h1
    | ok p =>
      rw [hp] at h1
      simp only at h1
      have h3 : dmpOpenLoop (s.posOpenLoopArgs c) s.dt runT sf = .ok p :=
        openLoopWith_le (step' := sf.run (s.posOpenLoopArgs c)) (fun l t x x' hx => by
          obtain ⟨h3, h4⟩ := outcome_ok hx
          rw [← h4]
          exact sf.runTyped_ok _ _ h3) hp
      rw [h3]
      simp only
      cases hq : QuatStepFunction.lookup ops qname with
      | error e => rw [hq] at h1; cases h1
      | ok qf =>
        rw [hq] at h1
        simp only at h1 ⊢
        cases hr : openLoopWith s.executionTime 0 s.dt (sliceFrom s.startY, (0 : Vec 3)) runT
            (fun l t x => outcome (qf.runTyped (s.rotOpenLoopArgs c) (TypedCartesianDMP.rotOpenLoopTypes s.types) l t x)) with
        | error e => rw [hr] at h1; cases h1
        | ok q =>
          rw [hr] at h1
          have h4 : openLoopWith s.executionTime 0 s.dt (sliceFrom s.startY, (0 : Vec 3)) runT
              (qf.run (s.rotOpenLoopArgs c)) = .ok q := by
            by_cases hrun : runT.getD s.executionTime ≤ 0
            · rw [← hr]
              exact openLoopWith_congr_short hdt hrun
            · have hs : s.types.startY = .float := by
                by_contra hs
                have hs : s.types.startY = .int := by
                  revert hs; cases s.types.startY <;> simp
                have hty : (TypedDMP.openLoopTypes s.types).currentY = .int := hs
                cases ho : outcome (sf.runTyped (s.posOpenLoopArgs c) (TypedDMP.openLoopTypes s.types) 0 (0 + s.dt)
                    (sliceTo s.startY, (0 : Vec 3))) with
                | error e =>
                  rw [openLoopWith_first_error hdt (not_le.1 hrun) ho] at hp
                  cases hp
                | ok x =>
                  have := (sf.runTyped_ok_types _ _ (outcome_ok ho).1 (by linarith)
                    (show (0 : ℝ) < 0 + s.dt by linarith)).1
                  rw [hty] at this
                  cases this
              exact openLoopWith_le (quat_runTyped_le qf _ (TypedCartesianDMP.rotOpenLoopTypes s.types) hs) hr
          rw [h4]
          exact congrArg (fun x => (x, s.toCartesianDMP)) h1

theorem TypedCartesianDMP.step_integer (c : Option PoseCoupling) (sf : StepFunction) (qf : QuatStepFunction)
    (y : Vec (3 + 4)) (yd : Vec (3 + 3)) (s : TypedCartesianDMP m)
    (hs : s.types.currentY = .int ∨ s.types.currentYd = .int) (hdt : 0 < s.dt) (ht : 0 < s.t + s.dt)
    (hτ : 0 < s.executionTime) : ((TypedCartesianDMP.step c sf qf y yd).exec s).1 = .error (integerError sf) := by
  rw [TypedCartesianDMP.exec_step]
  simp only
  rw [runTyped_integer sf (s.posArgs c) s.types (l := s.t) (t := s.t + s.dt) _ hs hτ ht (by linarith)]

/-- Object after `reset`. -/
def TypedCartesianDMP.afterReset (s : TypedCartesianDMP m) : TypedCartesianDMP m :=
  { s with toMovement := s.toMovement.reset
           types.currentY := s.types.startY
           types.currentYd := s.types.startYd }

theorem TypedCartesianDMP.exec_reset_bind {α : Type} (s : TypedCartesianDMP m) (f : Py (TypedCartesianDMP m) α) :
    (do TypedCartesianDMP.reset; f).exec s = f.exec s.afterReset := by
  rw [Py.exec_bind]
  rfl

theorem TypedCartesianDMP.openLoop_integer (ops : QuatOps) (runT : Option ℝ) (c : Option PoseCoupling)
    (name qname : String) (sf : StepFunction) (s : TypedCartesianDMP m) (hs : s.types.startY = .int) (hdt : 0 < s.dt)
    (hτ : 0 < s.executionTime) (hl : StepFunction.lookup name = .ok sf) (hr : 0 < runT.getD s.executionTime) :
    (TypedCartesianDMP.openLoop ops runT c name qname).exec s = (.error (integerError sf), s) := by
  have h := runTyped_integer sf (s.posOpenLoopArgs c) (TypedDMP.openLoopTypes s.types) (l := 0) (t := 0 + s.dt)
    (sliceTo s.startY, (0 : Vec 3)) (.inl hs) hτ (show (0 : ℝ) < 0 + s.dt by linarith) (by linarith)
  rw [TypedCartesianDMP.exec_openLoop, hl]
  simp only [Except.bind]
  rw [openLoopWith_first_error hdt hr (e := integerError sf)]
  simp only [outcome]
  rw [h]

/-- **C100 (finding, `CartesianDMP`).** With a start made of integers `open_loop` raises an exception, and so does the first
`step` after `reset`, whatever the step functions. -/
theorem C100_finding_cartesian_integer_start (c : Option PoseCoupling) (s : TypedCartesianDMP m)
    (hs : s.types.startY = .int) (hdt : 0 < s.dt) (hτ : 0 < s.executionTime) :
    (∀ (sf : StepFunction) (qf : QuatStepFunction) (y : Vec (3 + 4)) (yd : Vec (3 + 3)),
      ((do TypedCartesianDMP.reset; TypedCartesianDMP.step c sf qf y yd).exec s).1 = .error (integerError sf)) ∧
    ∀ (ops : QuatOps) (runT : Option ℝ) (name qname : String) (sf : StepFunction),
      StepFunction.lookup name = .ok sf → 0 < runT.getD s.executionTime →
      (TypedCartesianDMP.openLoop ops runT c name qname).exec s = (.error (integerError sf), s) := by
  constructor
  · intro sf qf y yd
    rw [TypedCartesianDMP.exec_reset_bind]
    exact TypedCartesianDMP.step_integer c sf qf y yd s.afterReset (.inl hs) hdt (show (0 : ℝ) < 0 + s.dt by linarith) hτ
  · intro ops runT name qname sf hl hr
    exact TypedCartesianDMP.openLoop_integer ops runT c name qname sf s hs hdt hτ hl hr

theorem DualStepFunction.runTyped_ok (sf : DualStepFunction) (a : DualStepArgs m) (ty : Dtypes) {l t : ℝ} (hl : l < t)
    {s : Vec 14 × Vec 12} (h : (sf.runTyped a ty l t s).1 = .ok ()) :
    sf.run a l t s = .ok (sf.runTyped a ty l t s).2 ∧ ty.currentY = .float ∧ ty.currentYd = .float := by
  cases sf with
  | python ops =>
    simp only [DualStepFunction.runTyped, DualStepFunction.run, if_neg (not_le.2 hl)] at h ⊢
    revert h
    cases ty.currentY <;> cases ty.currentYd <;> cases a.stepPy ops l t s <;> simp
  | cython =>
    simp only [DualStepFunction.runTyped, DualStepFunction.run] at h ⊢
    by_cases hty : ty = Dtypes.floats
    · rw [if_pos hty] at h ⊢
      revert h
      rw [hty]
      cases a.stepCy l t s <;> simp [Dtypes.floats]
    · rw [if_neg hty] at h
      cases h

/-- Exception of a dual-arm step function for arrays of integers: TypeError in Python, ValueError in Cython. -/
def Spec.dualIntegerError : DualStepFunction → PyErr
  | .python _ => .typeError
  | .cython => .valueError

theorem DualStepFunction.runTyped_integer (sf : DualStepFunction) (a : DualStepArgs m) (ty : Dtypes) {l t : ℝ}
    (hl : l < t) (s : Vec 14 × Vec 12) (hty : ty.currentY = .int ∨ ty.currentYd = .int) :
    (sf.runTyped a ty l t s).1 = .error (dualIntegerError sf) := by
  have hne : ty ≠ Dtypes.floats := by rintro rfl; rcases hty with h | h <;> cases h
  cases sf with
  | python ops =>
    simp only [DualStepFunction.runTyped, if_neg (not_le.2 hl), dualIntegerError]
    rcases hty with h | h <;> rw [h]
    cases ty.currentY <;> rfl
  | cython => simp only [DualStepFunction.runTyped, if_neg hne, dualIntegerError]

namespace TypedDualCartesianDMP

/-- Data types of the current arrays in a step. -/
def stepTypes (s : TypedDualCartesianDMP m) : Dtypes :=
  if s.initialized then s.types else { s.types with currentY := s.types.startY, currentYd := s.types.startYd }

theorem exec_step (ops : QuatOps) (c : Option DualCoupling) (sf : DualStepFunction) (tyLast : Dtype) (y : Vec 14)
    (yd : Vec 12) (s : TypedDualCartesianDMP m) :
    (step ops c sf tyLast y yd).exec s =
      let ty := s.stepTypes
      let r := sf.runTyped (s.stepArgs c (trackingError ops ty.currentY tyLast s.reference y)) ty s.t (s.t + s.dt)
        (fun i => ty.currentY.store (y i), fun i => ty.currentYd.store (yd i))
      (outcome r, { toDualCartesianDMP := s.toDualCartesianDMP.stepped r.2.1 r.2.2, types := ty }) := by
  unfold step stepTypes
  simp only [Py.exec_bind, Py.exec_modify, Py.exec_get, Py.exec_lift, Py.exec_pure]
  cases hi : s.initialized with
  | false =>
    simp only [Bool.false_eq_true, if_false, Option.getD_some, DualCartesianDMP.reference, hi]
    have e : ∀ y yd c e, DualCartesianDMP.stepArgs (m := m) { s.toDualCartesianDMP with
      lastT := some s.t, t := s.t + s.dt, currentY := y, currentYd := yd, initialized := true } c e =
      s.stepArgs c e := fun _ _ _ _ => rfl
    rw [e]
    generalize DualStepFunction.runTyped _ _ _ _ _ _ = r
    obtain ⟨r, x⟩ := r
    cases r <;> rfl
  | true =>
    simp only [if_true, Option.getD_some, DualCartesianDMP.reference, hi]
    have e : ∀ y yd c e, DualCartesianDMP.stepArgs (m := m) { s.toDualCartesianDMP with
      lastT := some s.t, t := s.t + s.dt, currentY := y, currentYd := yd, initialized := true } c e =
      s.stepArgs c e := fun _ _ _ _ => rfl
    rw [e]
    generalize DualStepFunction.runTyped _ _ _ _ _ _ = r
    obtain ⟨r, x⟩ := r
    cases r <;> rfl

end TypedDualCartesianDMP

/-- **C100 (`DualCartesianDMP`).** If `step` returns, it returns what it would return for arrays of floating-point numbers,
whether the given positions are integers or not. -/
theorem C100_dual_step_no_rounding (ops : QuatOps) (c : Option DualCoupling) (sf : DualStepFunction) (tyLast : Dtype)
    (y : Vec 14) (yd : Vec 12) (s s' : TypedDualCartesianDMP m) (r : Vec 14 × Vec 12) (hdt : 0 < s.dt)
    (h : (TypedDualCartesianDMP.step ops c sf tyLast y yd).exec s = (.ok r, s')) :
    (DualCartesianDMP.step ops c sf y yd).exec s.toDualCartesianDMP = (.ok r, s'.toDualCartesianDMP) := by
  rw [TypedDualCartesianDMP.exec_step] at h
  simp only at h
  injection h with h1 h2
  obtain ⟨h3, h4⟩ := outcome_ok h1
  obtain ⟨h5, h6, h7⟩ := sf.runTyped_ok _ _ (show s.t < s.t + s.dt by linarith) h3
  rw [h4] at h5
  simp only [h6, h7, store_float, TypedDualCartesianDMP.trackingError] at h5
  rw [DualCartesianDMP.exec_step, h5]
  rw [← h2, h4]

/-- **C100 (finding, `DualCartesianDMP`).** With a start (or start velocity) made of integers the first `step` raises an
exception, with the Python and with the Cython step function. -/
theorem C100_finding_dual_integer_start (ops : QuatOps) (c : Option DualCoupling) (sf : DualStepFunction) (tyLast : Dtype)
    (y : Vec 14) (yd : Vec 12) (s : TypedDualCartesianDMP m) (hs : s.types.startY = .int ∨ s.types.startYd = .int)
    (hi : s.initialized = false) (hdt : 0 < s.dt) :
    ((TypedDualCartesianDMP.step ops c sf tyLast y yd).exec s).1 = .error (dualIntegerError sf) := by
  rw [TypedDualCartesianDMP.exec_step]
  simp only [outcome]
  rw [sf.runTyped_integer _ _ (by linarith) _ (by simpa [TypedDualCartesianDMP.stepTypes, hi] using hs)]

/-- **C100 (`DualCartesianDMP`).** With arrays of floating-point numbers everything is as described by the model without
data types, whether the positions that are given to `step` are integers or not. -/
theorem C100_dual_step_floats (ops : QuatOps) (c : Option DualCoupling) (sf : DualStepFunction) (tyLast : Dtype)
    (y : Vec 14) (yd : Vec 12) (s : TypedDualCartesianDMP m) (hs : s.types = Dtypes.floats) (hdt : 0 < s.dt) :
    ((TypedDualCartesianDMP.step ops c sf tyLast y yd).exec s).1 =
      ((DualCartesianDMP.step ops c sf y yd).exec s.toDualCartesianDMP).1 := by
  have ht : s.stepTypes = Dtypes.floats := by
    unfold TypedDualCartesianDMP.stepTypes
    rw [hs]
    split_ifs <;> rfl
  have hl : ¬s.t + s.dt ≤ s.t := by linarith
  rw [TypedDualCartesianDMP.exec_step, DualCartesianDMP.exec_step, ht]
  simp only [Dtypes.floats, store_float, TypedDualCartesianDMP.trackingError]
  cases sf with
  | python ops' =>
    simp only [DualStepFunction.runTyped, DualStepFunction.run, if_neg hl]
    cases DualStepArgs.stepPy _ _ _ _ _ <;> rfl
  | cython =>
    simp only [DualStepFunction.runTyped, DualStepFunction.run, Dtypes.floats, if_true]
    cases DualStepArgs.stepCy _ _ _ _ <;> rfl

namespace TypedDualCartesianDMP

/-- The data types of the arrays are those for which a step function does not raise an exception. -/
def Accepted (sf : DualStepFunction) (ty : Dtypes) : Prop :=
  ty.currentY = .float ∧ ty.currentYd = .float ∧ (sf = .cython → ty = Dtypes.floats)

theorem accepted_of_ok {sf : DualStepFunction} {a : DualStepArgs m} {ty : Dtypes} {l t : ℝ} (hl : l < t)
    {s : Vec 14 × Vec 12} (h : (sf.runTyped a ty l t s).1 = .ok ()) : Accepted sf ty := by
  obtain ⟨-, h1, h2⟩ := sf.runTyped_ok a ty hl h
  refine ⟨h1, h2, ?_⟩
  rintro rfl
  simp only [DualStepFunction.runTyped] at h
  by_contra hn
  rw [if_neg hn] at h
  cases h

theorem runTyped_accepted {sf : DualStepFunction} {a : DualStepArgs m} {ty : Dtypes} {l t : ℝ} (hl : l < t)
    {s : Vec 14 × Vec 12} (h : Accepted sf ty) : outcome (sf.runTyped a ty l t s) = sf.run a l t s := by
  obtain ⟨h1, h2, h3⟩ := h
  cases sf with
  | python ops =>
    simp only [DualStepFunction.runTyped, DualStepFunction.run, if_neg (not_le.2 hl), h1, h2]
    cases DualStepArgs.stepPy _ _ _ _ _ <;> rfl
  | cython =>
    simp only [DualStepFunction.runTyped, DualStepFunction.run, if_pos (h3 rfl)]
    cases DualStepArgs.stepCy _ _ _ _ <;> rfl

theorem exec_loopBody (ops : QuatOps) (c : Option DualCoupling) (sf : DualStepFunction) (x : DualCartesianDMP.LoopVars)
    (s : TypedDualCartesianDMP m) (h : Accepted sf s.stepTypes) (hdt : 0 < s.dt) :
    (loopBody ops c sf x).exec s =
      match sf.run (s.stepArgs c (DualCartesianDMP.trackingError ops s.reference x.y)) s.t (s.t + s.dt) (x.y, x.yd) with
      | .ok r => (.ok ⟨r.1, r.2, x.T ++ [s.t + s.dt], x.Y ++ [r.1]⟩,
          { toDualCartesianDMP := s.toDualCartesianDMP.stepped r.1 r.2, types := s.stepTypes })
      | .error e => (.error e, ((loopBody ops c sf x).exec s).2) := by
  have hl : s.t < s.t + s.dt := by linarith
  have hr := runTyped_accepted (a := s.stepArgs c (DualCartesianDMP.trackingError ops s.reference x.y)) hl
    (s := (x.y, x.yd)) h
  have e : ∀ ty, trackingError ops .float ty s.reference x.y =
      DualCartesianDMP.trackingError ops s.reference x.y := fun ty => by cases ty <;> rfl
  unfold loopBody
  simp only [Py.exec_bind, Py.exec_get, exec_step, e, h.1, h.2.1, store_float]
  have ey : ((fun i => x.y i, fun i => x.yd i) : Vec 14 × Vec 12) = (x.y, x.yd) := rfl
  rw [← hr, ey]
  generalize DualStepFunction.runTyped _ _ _ _ _ _ = r
  obtain ⟨r, z⟩ := r
  cases r <;> rfl

theorem loopBody_accepted {ops : QuatOps} {c : Option DualCoupling} {sf : DualStepFunction}
    {x y : DualCartesianDMP.LoopVars} {s s' : TypedDualCartesianDMP m} (hdt : 0 < s.dt)
    (h : (loopBody ops c sf x).exec s = (.ok y, s')) : Accepted sf s.stepTypes := by
  unfold loopBody at h
  simp only [Py.exec_bind, Py.exec_get, exec_step] at h
  generalize hr : DualStepFunction.runTyped _ _ _ _ _ _ = r at h
  obtain ⟨r, z⟩ := r
  cases r with
  | error e => injection h with h1; cases h1
  | ok u => exact accepted_of_ok (show s.t < s.t + s.dt by linarith) (congrArg Prod.fst hr)

theorem loop_ok {ops : QuatOps} {c : Option DualCoupling} {sf : DualStepFunction} {runT : ℝ}
    {x y : DualCartesianDMP.LoopVars} {s s' : TypedDualCartesianDMP m} (hdt : 0 < s.dt)
    (h : (Py.while (fun s : TypedDualCartesianDMP m => s.t < runT) (loopBody ops c sf) x).exec s = (.ok y, s')) :
    (Py.while (fun s : DualCartesianDMP m => s.t < runT) (DualCartesianDMP.loopBody ops c sf) x).exec
      s.toDualCartesianDMP = (.ok y, s'.toDualCartesianDMP) := by
  by_cases hc : s.t < runT
  · have hacc : Accepted sf s.stepTypes := by
      cases hb : (loopBody ops c sf x).exec s with
      | mk r s1 =>
        cases r with
        | ok z => exact loopBody_accepted hdt hb
        | error e =>
          rw [Py.exec_while, whileLoop_step _ _ ⟨⟨x, rfl⟩, hc⟩] at h
          simp only [hb] at h
          rw [whileLoop_done _ _ (by rintro ⟨⟨_, h1⟩, -⟩; cases h1)] at h
          injection h with h1
          cases h1
    rcases Py.while_rel (cond := fun s : TypedDualCartesianDMP m => s.t < runT) (body := loopBody ops c sf)
      (cond' := fun s : DualCartesianDMP m => s.t < runT) (body' := DualCartesianDMP.loopBody ops c sf)
      (fun x s x' s' => x' = x ∧ s' = s.toDualCartesianDMP ∧ Accepted sf s.stepTypes ∧ 0 < s.dt) (fun _ _ => True)
      (by rintro x s _ _ ⟨rfl, rfl, -⟩; rfl)
      (by
        rintro _ s x _ ⟨rfl, rfl, ha, hd⟩
        rw [exec_loopBody ops c sf x s ha hd, DualCartesianDMP.exec_loopBody]
        cases sf.run (s.stepArgs c (DualCartesianDMP.trackingError ops s.reference x.y)) s.t (s.t + s.dt) (x.y, x.yd) with
        | ok r => exact .inl ⟨_, _, _, _, rfl, rfl, rfl, rfl, ha, hd⟩
        | error e => exact .inr ⟨e, _, _, rfl, rfl, trivial⟩)
      (fun _ _ _ _ _ => trivial) (x := x) (s := s) (x' := x) (s' := s.toDualCartesianDMP) ⟨rfl, rfl, hacc, hdt⟩ with
      ⟨z, t, z', t', h1, h2, rfl, rfl, -⟩ | ⟨e, t, t', h1, -⟩
    · rw [h] at h1
      injection h1 with h3 h4
      injection h3 with h3
      rw [h2, h3, h4]
    · rw [h] at h1
      injection h1 with h3
      cases h3
  · rw [Py.exec_while_done (cond := fun s : TypedDualCartesianDMP m => s.t < runT) hc] at h
    injection h with h1 h2
    rw [Py.exec_while_done (cond := fun s : DualCartesianDMP m => s.t < runT) hc, h1, h2]

end TypedDualCartesianDMP

/-- **C100 (`DualCartesianDMP`).** If `open_loop` returns a trajectory, it is that of arrays of floating-point numbers. -/
theorem C100_dual_open_loop_no_rounding (ops : QuatOps) (runT : Option ℝ) (c : Option DualCoupling) (name : String)
    (s s' : TypedDualCartesianDMP m) (r : List ℝ × List (Vec 14)) (hdt : 0 < s.dt)
    (h : (TypedDualCartesianDMP.openLoop ops runT c name).exec s = (.ok r, s')) :
    (DualCartesianDMP.openLoop ops runT c name).exec s.toDualCartesianDMP = (.ok r, s'.toDualCartesianDMP) := by
  unfold TypedDualCartesianDMP.openLoop at h
  unfold DualCartesianDMP.openLoop
  simp only [Py.exec_bind, Py.exec_modify, Py.exec_get, Py.exec_lift, Py.exec_pure] at h ⊢
  cases hl : DualStepFunction.lookup ops name with
  | error e => rw [hl] at h; injection h with h1; cases h1
  | ok sf =>
    rw [hl] at h
    simp only at h ⊢
    generalize hw : Py.exec (Py.while _ _ _) _ = w at h
    obtain ⟨w, s1⟩ := w
    cases w with
    | error e => injection h with h1; cases h1
    | ok y =>
      have := TypedDualCartesianDMP.loop_ok (by exact hdt) hw
      simp only at this
      rw [this]
      injection h with h1 h2
      rw [← h1, ← h2]

/-! ## Examples -/

/-- The hypotheses of the findings are met by reachable objects: a new Cartesian DMP configured with a start made of
integers. -/
example (s : CartesianDMP m) (hs : CartesianDMP.create m 1 (1 / 100) (1 / 1000) false (.scalar 25) (.scalar (25 / 4)) = .ok s) :
    ∃ s' : TypedCartesianDMP m, (TypedCartesianDMP.configure
        { startY := some (.int [0, 1, 2, 1, 0, 0, 0]) }).exec (TypedCartesianDMP.ofCartesianDMP s) = (.ok (), s') ∧
      s'.types.startY = .int ∧ s'.dt = s.dt ∧ s'.executionTime = s.executionTime :=
  ⟨_, rfl, rfl, rfl, rfl⟩

theorem QuatStepFunction.runTyped_floats (qf : QuatStepFunction) (a : QuatStepArgs m) (l t : ℝ) (s : Vec 4 × Vec 3) :
    outcome (qf.runTyped a Dtypes.floats l t s) = qf.run a l t s := by
  cases qf with
  | python ops =>
    simp only [QuatStepFunction.runTyped, QuatStepFunction.run, QuatStepArgs.stepPyTyped, QuatStepArgs.stepPy]
    split_ifs with h1 h2 h3
    · rfl
    · rfl
    · rw [intLoop_done _ h3]; rfl
    · have e : (fun dt t (s : Vec 4 × Vec 3) =>
          ((fun i => Dtypes.floats.currentY.store ((a.bodyPy ops dt t s).1 i), (a.bodyPy ops dt t s).2) : Vec 4 × Vec 3)) =
          a.bodyPy ops := rfl
      rw [e]
      cases intLoop a.intDt t (a.bodyPy ops) l s <;> rfl
  | cython =>
    simp only [QuatStepFunction.runTyped, QuatStepFunction.run, if_true]
    cases a.stepCy l t s <;> rfl

/-- **C100 (`CartesianDMP`).** With arrays of floating-point numbers `step` is as described by the model without data
types. -/
theorem C100_cartesian_step_floats (c : Option PoseCoupling) (sf : StepFunction) (qf : QuatStepFunction)
    (y : Vec (3 + 4)) (yd : Vec (3 + 3)) (s : TypedCartesianDMP m) (hs : s.types = Dtypes.floats) :
    ((TypedCartesianDMP.step c sf qf y yd).exec s).1 =
      ((CartesianDMP.step c sf qf y yd).exec s.toCartesianDMP).1 := by
  have hq := qf.runTyped_floats (s.rotArgs c) s.t (s.t + s.dt) (sliceFrom y, sliceFrom yd)
  rw [TypedCartesianDMP.exec_step, CartesianDMP.exec_step, ← hq, hs]
  have ey : (fun i => Dtypes.floats.currentY.store (y i)) = y := rfl
  have eyd : (fun i => Dtypes.floats.currentYd.store (yd i)) = yd := rfl
  simp only [ey, eyd, StepFunction.runTyped_floats]
  cases sf.run (s.posArgs c) s.t (s.t + s.dt) (sliceTo y, sliceTo yd) with
  | error e => rfl
  | ok r =>
    simp only [inPlace]
    generalize QuatStepFunction.runTyped _ _ _ _ _ _ = z
    obtain ⟨z, x⟩ := z
    cases z <;> rfl

/-- A `step` of a Cartesian DMP with arrays of floating-point numbers returns, so the hypotheses of the theorems that
exclude rounding are met. -/
example (c : Option PoseCoupling) (ops : QuatOps) (y : Vec (3 + 4)) (yd : Vec (3 + 3)) (s : CartesianDMP m)
    (hτ : 0 < s.executionTime) (hi : 0 < s.intDt) :
    ∃ r, ((TypedCartesianDMP.step c .euler (.python ops) y yd).exec (TypedCartesianDMP.ofCartesianDMP s)).1 = .ok r := by
  obtain ⟨rp, hp⟩ : ∃ r, StepFunction.euler.run (s.posArgs c) s.t (s.t + s.dt) (sliceTo y, sliceTo yd) = .ok r := by
    simp only [StepFunction.run, StepArgs.stepEuler, if_neg (show ¬(s.posArgs c).goalT ≤ (s.posArgs c).startT from not_le.2 hτ)]
    by_cases h0 : s.t + s.dt ≤ (s.posArgs c).startT
    · rw [if_pos h0]; exact ⟨_, rfl⟩
    · rw [if_neg h0]; exact ⟨_, intLoop_eq _ hi _ _⟩
  obtain ⟨rr, hr⟩ : ∃ r, (QuatStepFunction.python ops).run (s.rotArgs c) s.t (s.t + s.dt) (sliceFrom y, sliceFrom yd) = .ok r := by
    simp only [QuatStepFunction.run, QuatStepArgs.stepPy, if_neg (show ¬(s.rotArgs c).goalT ≤ (s.rotArgs c).startT from not_le.2 hτ)]
    by_cases h0 : s.t + s.dt ≤ (s.rotArgs c).startT
    · rw [if_pos h0]; exact ⟨_, rfl⟩
    · rw [if_neg h0]; exact ⟨_, intLoop_eq _ hi _ _⟩
  rw [C100_cartesian_step_floats c .euler (.python ops) y yd (TypedCartesianDMP.ofCartesianDMP s) rfl]
  refine ⟨(hstack rp.1 rr.1, hstack rp.2 rr.2), ?_⟩
  show ((CartesianDMP.step c .euler (.python ops) y yd).exec s).1 = _
  rw [CartesianDMP.exec_step, hp]
  simp only
  rw [hr]

end Verif
