import Verif.Spec.Dtypes
import Verif.Lemmas.Dtypes
import Verif.Props.Imitate
import Verif.Props.FinalVelocity

/-! # C100: arrays of integers -/

namespace Verif
open Spec
variable {d m n : ℕ}

/-! ## Configuration -/

/-- **C100.** `configure` accepts arrays of integers and of floating-point numbers alike: it raises in the same cases and
stores the same numbers. -/
theorem C100_configure (a : TypedConfigArgs) (s : TypedDMP d m) :
    ((TypedDMP.configure a).exec s).1 = ((DMP.configure a.values).exec s.toDMP).1 ∧
      ((TypedDMP.configure a).exec s).2.toDMP = ((DMP.configure a.values).exec s.toDMP).2 := by
  obtain ⟨h1, h2⟩ := follows_configure a s
  exact ⟨h1, by rw [h2]; rfl⟩

/-- **C100.** The data type is the one of the array that was passed last. -/
theorem C100_configure_types (a : TypedConfigArgs) (s s' : TypedDMP d m)
    (h : (TypedDMP.configure a).exec s = (.ok (), s')) :
    s'.types =
      { s.types with
        startY := (a.startY.map NumArray.dtype).getD s.types.startY
        startYd := (a.startYd.map NumArray.dtype).getD s.types.startYd
        startYdd := (a.startYdd.map NumArray.dtype).getD s.types.startYdd
        goalY := (a.goalY.map NumArray.dtype).getD s.types.goalY
        goalYd := (a.goalYd.map NumArray.dtype).getD s.types.goalYd
        goalYdd := (a.goalYdd.map NumArray.dtype).getD s.types.goalYdd } := by
  have := configure_types a s (by rw [h])
  rw [h] at this
  exact this

/-! ## One step -/

/-- **C100.** Arrays of integers never change the result of a step silently: if `step` returns, then it returns what it
would return for the same numbers in arrays of floating-point numbers, and leaves the object in the same state. -/
theorem C100_step_no_rounding (c : Option (Coupling d)) (sf : StepFunction) (y yd : Vec d) (s s' : TypedDMP d m)
    (r : Vec d × Vec d) (h : (TypedDMP.step c sf y yd).exec s = (.ok r, s')) :
    (DMP.step c sf y yd).exec s.toDMP = (.ok r, s'.toDMP) := by
  unfold TypedDMP.step at h
  rw [TypedDMP.exec_stepWith] at h
  injection h with h1 h2
  obtain ⟨h3, h4⟩ := typedResult_ok h1
  have h5 := sf.runTyped_ok _ _ h3
  rw [h4] at h5
  rw [DMP.exec_step]
  rw [show sf.run (s.toDMP.beginStep.stepArgs c (s.toDMP.beginStep.currentY - y)) s.t (s.t + s.dt)
    (s.toDMP.beginStep.currentY, s.toDMP.beginStep.currentYd) = .ok r from h5]
  simp only [DMP.finishStep]
  rw [← h2, h4]
  rfl

/-- **C100.** Objects whose arrays all contain floating-point numbers behave as described by the model without data
types. -/
theorem C100_step_floats (c : Option (Coupling d)) (sf : StepFunction) (y yd : Vec d) (s : TypedDMP d m)
    (h : s.types = Dtypes.floats) :
    (TypedDMP.step c sf y yd).exec s = (((DMP.step c sf y yd).exec s.toDMP).1,
      { toDMP := ((DMP.step c sf y yd).exec s.toDMP).2, types := Dtypes.floats }) := by
  unfold TypedDMP.step
  rw [TypedDMP.exec_stepWith, DMP.exec_step]
  have hb : s.beginStep = { toDMP := s.toDMP.beginStep, types := Dtypes.floats } := by
    unfold TypedDMP.beginStep
    rw [h]
    split_ifs <;> rfl
  simp only [hb, StepFunction.runTyped_floats, typedResult_inPlace]
  cases sf.run (s.toDMP.beginStep.stepArgs c (s.toDMP.beginStep.currentY - y)) s.t (s.t + s.dt)
    (s.toDMP.beginStep.currentY, s.toDMP.beginStep.currentYd) <;> rfl

/-- **C100.** With the Python step functions goals (and start velocities and accelerations) may be arrays of integers, as
long as the current position and velocity are not. -/
theorem C100_step_python (c : Option (Coupling d)) {sf : StepFunction} (hsf : sf = .rk4 ∨ sf = .euler) (y yd : Vec d)
    (s : TypedDMP d m) (hy : (if s.initialized then s.types.currentY else s.types.startY) = .float)
    (hyd : (if s.initialized then s.types.currentYd else s.types.startYd) = .float) :
    ((TypedDMP.step c sf y yd).exec s).1 = ((DMP.step c sf y yd).exec s.toDMP).1 ∧
      ((TypedDMP.step c sf y yd).exec s).2.toDMP = ((DMP.step c sf y yd).exec s.toDMP).2 := by
  unfold TypedDMP.step
  rw [TypedDMP.exec_stepWith, DMP.exec_step]
  have h1 : s.beginStep.types.currentY = .float := by
    rw [← hy]; unfold TypedDMP.beginStep; split_ifs <;> rfl
  have h2 : s.beginStep.types.currentYd = .float := by
    rw [← hyd]; unfold TypedDMP.beginStep; split_ifs <;> rfl
  have hr : ∀ a l t x, sf.runTyped a s.beginStep.types l t x = inPlace x (sf.run (d := d) (m := m) a l t x) := by
    intro a l t x
    rcases hsf with rfl | rfl
    · exact a.stepRk4Typed_floats h1 h2 l t x
    · exact a.stepEulerTyped_floats h1 h2 l t x
  simp only [hr, typedResult_inPlace]
  have e : s.beginStep.toDMP = s.toDMP.beginStep := rfl
  rw [e]
  cases sf.run (s.toDMP.beginStep.stepArgs c (s.toDMP.beginStep.currentY - y)) s.t (s.t + s.dt)
    (s.toDMP.beginStep.currentY, s.toDMP.beginStep.currentYd) <;> exact ⟨rfl, rfl⟩

theorem runTyped_integer (sf : StepFunction) (a : StepArgs d m) (ty : Dtypes) {l t : ℝ} (s : Vec d × Vec d)
    (hty : ty.currentY = .int ∨ ty.currentYd = .int) (hg : a.startT < a.goalT) (ht : a.startT < t) (hl : l < t) :
    (sf.runTyped a ty l t s).1 = .error (integerError sf) := by
  have hne : ty ≠ Dtypes.floats := by rintro rfl; rcases hty with h | h <;> cases h
  cases sf with
  | rk4 =>
    simp only [StepFunction.runTyped, StepArgs.stepRk4Typed, integerError]
    rcases hty with h | h
    · rw [h]
    · rw [h]
      cases ty.currentY
      · rfl
      · rfl
  | euler =>
    simp only [StepFunction.runTyped, StepArgs.stepEulerTyped, integerError]
    rw [if_neg (not_le.2 hg), if_neg (not_le.2 ht), if_neg (not_le.2 hl)]
    rcases hty with h | h
    · rw [h]
      cases ty.currentYd <;> rfl
    · rw [h]
  | eulerCython => simp only [StepFunction.runTyped, StepArgs.cythonTyped, integerError, if_neg hne]
  | rk4Cython => simp only [StepFunction.runTyped, StepArgs.cythonTyped, integerError, if_neg hne]

theorem step_integer (c : Option (Coupling d)) (sf : StepFunction) (y yd : Vec d) (s : TypedDMP d m)
    (hty : s.beginStep.types.currentY = .int ∨ s.beginStep.types.currentYd = .int) (ht : 0 ≤ s.t) (hdt : 0 < s.dt)
    (hτ : 0 < s.executionTime) : ((TypedDMP.step c sf y yd).exec s).1 = .error (integerError sf) := by
  unfold TypedDMP.step
  rw [TypedDMP.exec_stepWith]
  simp only [typedResult]
  rw [runTyped_integer sf _ s.beginStep.types _ hty hτ (show (0 : ℝ) < s.t + s.dt by linarith) (by linarith)]

/-- **C100 (finding).** A DMP that was configured with a start position (or velocity) made of integers cannot be executed:
the first step raises TypeError or, with the Cython step functions, ValueError, for all goals, weights and coupling
terms. The clock has been advanced nevertheless. -/
theorem C100_finding_integer_start (c : Option (Coupling d)) (sf : StepFunction) (y yd : Vec d) (s : TypedDMP d m)
    (hs : s.initialized = false) (hty : s.types.startY = .int ∨ s.types.startYd = .int) (ht : 0 ≤ s.t) (hdt : 0 < s.dt)
    (hτ : 0 < s.executionTime) :
    ((TypedDMP.step c sf y yd).exec s).1 = .error (integerError sf) ∧
      ((TypedDMP.step c sf y yd).exec s).2.t = s.t + s.dt := by
  refine ⟨step_integer c sf y yd s (by simpa [TypedDMP.beginStep, hs] using hty) ht hdt hτ, ?_⟩
  unfold TypedDMP.step
  rw [TypedDMP.exec_stepWith]
  rfl

/-- **C100 (finding).** With the Cython step functions (one of which is the default) an array of integers in any of the
attributes raises ValueError, even if the step function does not use it; position and velocity are not changed. -/
theorem C100_finding_integer_goal (c : Option (Coupling d)) {sf : StepFunction}
    (hsf : sf = .eulerCython ∨ sf = .rk4Cython) (y yd : Vec d) (s : TypedDMP d m)
    (hty : s.types.goalY = .int ∨ s.types.goalYd = .int ∨ s.types.goalYdd = .int ∨ s.types.startY = .int ∨
      s.types.startYd = .int ∨ s.types.startYdd = .int) :
    ((TypedDMP.step c sf y yd).exec s).1 = .error .valueError ∧
      (s.initialized = true → ((TypedDMP.step c sf y yd).exec s).2.currentY = s.currentY ∧
        ((TypedDMP.step c sf y yd).exec s).2.currentYd = s.currentYd) := by
  unfold TypedDMP.step
  rw [TypedDMP.exec_stepWith]
  have hne : s.beginStep.types ≠ Dtypes.floats := by
    intro e
    have e' : ∀ f : Dtypes → Dtype, f s.beginStep.types = f Dtypes.floats := fun f => by rw [e]
    have k1 := e' (·.goalY)
    have k2 := e' (·.goalYd)
    have k3 := e' (·.goalYdd)
    have k4 := e' (·.startY)
    have k5 := e' (·.startYd)
    have k6 := e' (·.startYdd)
    revert k1 k2 k3 k4 k5 k6 hty
    unfold TypedDMP.beginStep Dtypes.floats
    cases s.initialized <;> simp only [if_true, Bool.false_eq_true, if_false] <;> (intro h k1 k2 k3 k4 k5 k6; simp_all)
  have hr : ∀ a l t x, sf.runTyped (d := d) (m := m) a s.beginStep.types l t x = (.error .valueError, x) := by
    intro a l t x
    rcases hsf with rfl | rfl <;> simp only [StepFunction.runTyped, StepArgs.cythonTyped, if_neg hne]
  simp only [hr]
  refine ⟨rfl, fun hi => ?_⟩
  simp [TypedDMP.beginStep, DMP.beginStep, hi]

/-- **C100 (finding).** The exception of the Python Euler integrator is raised half way: if only the start position is made
of integers, the velocity of the object has been changed already, to the velocity after the first sub-step (here: the
only one). -/
theorem C100_finding_euler_half_way (y yd : Vec d) (s : TypedDMP d m) (hs : s.initialized = false)
    (hy : s.types.startY = .int) (hyd : s.types.startYd = .float) (ht : 0 ≤ s.t) (hdt : 0 < s.dt)
    (hτ : 0 < s.executionTime) (hint : s.dt ≤ s.intDt) :
    ((TypedDMP.step none .euler y yd).exec s).2.currentYd = ((DMP.step none .euler y yd).exec s.toDMP).2.currentYd ∧
      ((TypedDMP.step none .euler y yd).exec s).2.currentY = s.startY := by
  have hl : s.t < s.t + s.dt := by linarith
  have hpos : (0 : ℝ) < s.t + s.dt := by linarith
  unfold TypedDMP.step
  rw [TypedDMP.exec_stepWith, DMP.exec_step]
  have hb1 : s.beginStep.types.currentY = .int := by simp [TypedDMP.beginStep, hs, hy]
  have hb2 : s.beginStep.types.currentYd = .float := by simp [TypedDMP.beginStep, hs, hyd]
  have e : s.beginStep.toDMP = s.toDMP.beginStep := rfl
  have hi : (0 : ℝ) < s.intDt := by linarith
  generalize hA : s.toDMP.beginStep.stepArgs none (s.toDMP.beginStep.currentY - y) = a
  have a1 : a.startT = 0 := by rw [← hA]; rfl
  have a2 : a.goalT = s.executionTime := by rw [← hA]; rfl
  have a3 : a.intDt = s.intDt := by rw [← hA]; rfl
  have a4 : a.coupling = none := by rw [← hA]; rfl
  have hrun : ∀ x, StepFunction.run .euler a s.t (s.t + s.dt) x = .ok (a.eulerBody s.dt (s.t + s.dt) x) := by
    intro x
    simp only [StepFunction.run, StepArgs.stepEuler]
    rw [if_neg (by rw [a1, a2]; exact not_le.2 hτ), if_neg (by rw [a1]; exact not_le.2 hpos), a3, intLoop_step _ hl]
    have h1 : (if s.t + s.dt - s.t < s.intDt then s.t + s.dt - s.t else s.intDt) = s.dt := by
      split_ifs with h <;> linarith
    rw [h1, intLoop_done _ le_rfl]
  have htyp : ∀ x, StepFunction.runTyped .euler a s.beginStep.types s.t (s.t + s.dt) x =
      (.error .typeError, (x.1, (a.eulerBody s.dt (s.t + s.dt) x).2)) := by
    intro x
    simp only [StepFunction.runTyped, StepArgs.stepEulerTyped]
    rw [if_neg (by rw [a1, a2]; exact not_le.2 hτ), if_neg (by rw [a1]; exact not_le.2 hpos), if_neg (not_le.2 hl),
      hb1, hb2]
    simp only [StepArgs.firstDt, a3]
    have h1 : (if s.t + s.dt - s.t < s.intDt then s.t + s.dt - s.t else s.intDt) = s.dt := by
      split_ifs with h <;> linarith
    rw [h1]
    simp only [StepArgs.eulerVelocity, StepArgs.eulerBody, StepArgs.addCd, a4]
  rw [hrun]
  simp only [e, hA, htyp]
  refine ⟨rfl, ?_⟩
  simp [DMP.beginStep, hs]

/-! ## Open loop -/

/-- **C100.** If `open_loop` returns a trajectory, then it is the one that results from the same numbers in arrays of
floating-point numbers. -/
theorem C100_open_loop_no_rounding (runT : Option ℝ) (c : Option (Coupling d)) (name : String) (s s' : TypedDMP d m)
    (r : List ℝ × List (Vec d)) (h : (TypedDMP.openLoop runT c name).exec s = (.ok r, s')) :
    (DMP.openLoop runT c name).exec s.toDMP = (.ok r, s.toDMP) := by
  rw [TypedDMP.exec_openLoop] at h
  rw [DMP.exec_openLoop]
  injection h with h1 h2
  cases hl : StepFunction.lookup name with
  | error e => rw [hl] at h1; cases h1
  | ok sf =>
    rw [hl] at h1
    simp only [Except.bind] at h1 ⊢
    have := openLoopWith_le (step' := sf.run (s.toDMP.openLoopArgs c)) (fun l t x x' hx => by
      obtain ⟨h3, h4⟩ := typedResult_ok hx
      rw [← h4]
      exact sf.runTyped_ok _ _ h3) h1
    rw [show dmpOpenLoop (s.toDMP.openLoopArgs c) s.dt runT sf = .ok r from this]

/-- **C100.** If start and goal contain floating-point numbers, `open_loop` behaves as described by the model without data
types. -/
theorem C100_open_loop_floats (runT : Option ℝ) (c : Option (Coupling d)) (name : String) (s : TypedDMP d m)
    (hs : s.types.startY = .float) (hg : s.types.goalY = .float) :
    ((TypedDMP.openLoop runT c name).exec s).1 = ((DMP.openLoop runT c name).exec s.toDMP).1 := by
  rw [TypedDMP.exec_openLoop, DMP.exec_openLoop]
  cases StepFunction.lookup name with
  | error e => rfl
  | ok sf =>
    simp only [Except.bind]
    have hty : TypedDMP.openLoopTypes s.types = Dtypes.floats := by
      unfold TypedDMP.openLoopTypes Dtypes.floats; rw [hs, hg]
    simp only [hty, StepFunction.runTyped_floats, typedResult_inPlace]
    rfl

/-- **C100.** With the Python step functions the goal may be made of integers. -/
theorem C100_open_loop_python (runT : Option ℝ) (c : Option (Coupling d)) {name : String}
    (hn : name = "rk4" ∨ name = "euler") (s : TypedDMP d m) (hs : s.types.startY = .float) :
    ((TypedDMP.openLoop runT c name).exec s).1 = ((DMP.openLoop runT c name).exec s.toDMP).1 := by
  rw [TypedDMP.exec_openLoop, DMP.exec_openLoop]
  have hr : ∀ sf : StepFunction, (sf = .rk4 ∨ sf = .euler) → ∀ a l t x,
      sf.runTyped a (TypedDMP.openLoopTypes s.types) l t x = inPlace x (sf.run (d := d) (m := m) a l t x) := by
    intro sf hsf a l t x
    rcases hsf with rfl | rfl
    · exact a.stepRk4Typed_floats (ty := TypedDMP.openLoopTypes s.types) hs hs l t x
    · exact a.stepEulerTyped_floats (ty := TypedDMP.openLoopTypes s.types) hs hs l t x
  rcases hn with rfl | rfl
  · rw [show StepFunction.lookup "rk4" = .ok .rk4 by simp [StepFunction.lookup]]
    simp only [Except.bind, hr .rk4 (.inl rfl), typedResult_inPlace]
    rfl
  · rw [show StepFunction.lookup "euler" = .ok .euler by simp [StepFunction.lookup]]
    simp only [Except.bind, hr .euler (.inr rfl), typedResult_inPlace]
    rfl

theorem openLoopWith_first_error {p v : ℕ} {goalT startT dt : ℝ} {start : Vec p × Vec v} {runT : Option ℝ}
    {step : ℝ → ℝ → Vec p × Vec v → Except PyErr (Vec p × Vec v)} {e : PyErr} (hdt : 0 < dt)
    (hrun : startT < runT.getD goalT) (h : step startT (startT + dt) start = .error e) :
    openLoopWith goalT startT dt start runT step = .error e := by
  have hn : 2 ≤ arangeLen startT (runT.getD goalT + dt) dt := by
    unfold arangeLen
    rw [show (2 : ℕ) = 1 + 1 from rfl, Nat.add_one_le_ceil_iff]
    rw [lt_div_iff₀ hdt]
    push_cast
    linarith
  obtain ⟨k, hk⟩ : ∃ k, arangeLen startT (runT.getD goalT + dt) dt = k + 2 := ⟨_, (Nat.sub_add_cancel hn).symm⟩
  unfold openLoopWith
  simp only [hk, if_neg hdt.ne', show k + 2 - 1 = k + 1 from rfl, loopRows, arangeAt]
  have h0 : startT + ((0 : ℕ) : ℝ) * dt = startT := by push_cast; ring
  have h1 : startT + ((0 + 1 : ℕ) : ℝ) * dt = startT + dt := by push_cast; ring
  rw [h0, h1, h]
  rfl

/-- **C100 (finding).** A DMP that was configured with a start position made of integers cannot be executed with
`open_loop` either, whatever the step function. -/
theorem C100_finding_open_loop_integer_start {runT : Option ℝ} (c : Option (Coupling d)) {name : String}
    {sf : StepFunction} (hn : StepFunction.lookup name = .ok sf) (s : TypedDMP d m) (hs : s.types.startY = .int)
    (hdt : 0 < s.dt) (hτ : 0 < s.executionTime) (hrun : 0 < runT.getD s.executionTime) :
    (TypedDMP.openLoop runT c name).exec s = (.error (integerError sf), s) := by
  rw [TypedDMP.exec_openLoop, hn]
  simp only [Except.bind]
  rw [openLoopWith_first_error hdt hrun (e := integerError sf)]
  simp only [typedResult]
  rw [runTyped_integer sf _ (TypedDMP.openLoopTypes s.types) _ (.inl hs) hτ (show (0 : ℝ) < 0 + s.dt by linarith)
    (by linarith)]

/-- **C100 (finding).** With the Cython step functions a goal made of integers is sufficient. -/
theorem C100_finding_open_loop_integer_goal {runT : Option ℝ} (c : Option (Coupling d)) {name : String}
    (hn : name = "rk4-cython" ∨ name = "euler-cython") (s : TypedDMP d m) (hs : s.types.goalY = .int)
    (hdt : 0 < s.dt) (hrun : 0 < runT.getD s.executionTime) :
    (TypedDMP.openLoop runT c name).exec s = (.error .valueError, s) := by
  have hne : TypedDMP.openLoopTypes s.types ≠ Dtypes.floats := by
    intro e
    have : (TypedDMP.openLoopTypes s.types).goalY = .float := by rw [e]; rfl
    rw [show (TypedDMP.openLoopTypes s.types).goalY = .int from hs] at this
    cases this
  rw [TypedDMP.exec_openLoop]
  rcases hn with rfl | rfl
  · rw [show StepFunction.lookup "rk4-cython" = .ok .rk4Cython by simp [StepFunction.lookup]]
    simp only [Except.bind]
    rw [openLoopWith_first_error hdt hrun (e := .valueError)]
    simp only [typedResult, StepFunction.runTyped, StepArgs.cythonTyped, if_neg hne]
  · rw [show StepFunction.lookup "euler-cython" = .ok .eulerCython by simp [StepFunction.lookup]]
    simp only [Except.bind]
    rw [openLoopWith_first_error hdt hrun (e := .valueError)]
    simp only [typedResult, StepFunction.runTyped, StepArgs.cythonTyped, if_neg hne]

/-! ## Imitation -/

theorem truncate_int (i : ℤ) : truncate i = i := by
  unfold truncate; split_ifs <;> simp

theorem truncate_zero : truncate 0 = 0 := by simpa using truncate_int 0

theorem truncate_eq_zero {x : ℝ} (h : |x| < 1) : truncate x = 0 := by
  obtain ⟨h1, h2⟩ := abs_lt.1 h
  unfold truncate
  split_ifs with h0
  · rw [Int.floor_eq_zero_iff.2 ⟨h0, h2⟩]; simp
  · rw [Int.ceil_eq_zero_iff.2 ⟨h1, (not_le.1 h0).le⟩]; simp

/-- **C100 (truncation).** What is stored in an array of integers: an integer between zero and the number, less than one
away from it. -/
theorem C100_truncate (x : ℝ) : ∃ i : ℤ, Dtype.store .int x = i ∧ |x - i| < 1 ∧ |(i : ℝ)| ≤ |x| ∧ 0 ≤ x * i := by
  show ∃ i : ℤ, truncate x = i ∧ |x - i| < 1 ∧ |(i : ℝ)| ≤ |x| ∧ 0 ≤ x * i
  unfold truncate
  split_ifs with h
  · refine ⟨⌊x⌋, rfl, ?_, ?_, ?_⟩
    · rw [abs_of_nonneg (by linarith [Int.floor_le x])]; linarith [Int.lt_floor_add_one x]
    · rw [abs_of_nonneg h, abs_of_nonneg (by exact_mod_cast Int.floor_nonneg.2 h)]; exact Int.floor_le x
    · exact mul_nonneg h (by exact_mod_cast Int.floor_nonneg.2 h)
  · have h := (not_le.1 h).le
    have hc : ((⌈x⌉ : ℤ) : ℝ) ≤ 0 := by exact_mod_cast Int.ceil_le.2 (by simpa using h)
    refine ⟨⌈x⌉, rfl, ?_, ?_, mul_nonneg_of_nonpos_of_nonpos h hc⟩
    · rw [abs_of_nonpos (by linarith [Int.le_ceil x])]; linarith [Int.ceil_lt_add_one x]
    · rw [abs_of_nonpos h, abs_of_nonpos hc]; linarith [Int.le_ceil x]

theorem row_values (Y : DemoArray n d) (i : Fin (n + 2)) : (Y.row i).values = List.ofFn (Y.values i) := by
  cases Y with
  | float Y => rfl
  | int Y => exact List.map_ofFn ..

theorem row_dtype (Y : DemoArray n d) (i : Fin (n + 2)) : (Y.row i).dtype = Y.dtype := by
  cases Y <;> rfl

theorem typed_newValue {n : ℕ} (x o : Vec n) : newValue (some (List.ofFn x)) o = x := by
  funext i; simp [newValue]

theorem exec_typedImitate (T : Fin (n + 2) → ℝ) (Y : DemoArray n d) (reg : ℝ) (afv : Bool) (s : TypedDMP d m) :
    (TypedDMP.imitate T Y reg afv).exec s =
      match dmpImitateWith m T reg s.ft.overlap s.ft.alphaZ
        (.ok (typedForces T Y s.alphaY s.betaY s.ft.alphaZ afv s.smooth)) with
      | .ok w => (TypedDMP.configure { startY := some (Y.row 0), goalY := some (Y.row (Fin.last (n + 1))) }).exec
          { s with ft := { s.ft with weights := w } }
      | .error e => (.error e, s) := by
  unfold TypedDMP.imitate
  simp only [Py.exec_bind, Py.exec_lift, Py.exec_get, Py.exec_modify]
  cases dmpImitateWith m T reg s.ft.overlap s.ft.alphaZ
        (.ok (typedForces T Y s.alphaY s.betaY s.ft.alphaZ afv s.smooth)) <;> rfl

theorem imitate_of_forces (T : Fin (n + 2) → ℝ) (Y : DemoArray n d) (reg : ℝ) (afv : Bool) (s : TypedDMP d m)
    (h : typedForces T Y s.alphaY s.betaY s.ft.alphaZ afv s.smooth =
      determineForces T Y.values s.alphaY s.betaY s.ft.alphaZ afv s.smooth) :
    ((TypedDMP.imitate T Y reg afv).exec s).1 = ((DMP.imitate T Y.values reg afv).exec s.toDMP).1 ∧
      ((TypedDMP.imitate T Y reg afv).exec s).2.toDMP = ((DMP.imitate T Y.values reg afv).exec s.toDMP).2 := by
  rw [exec_typedImitate, DMP.exec_imitate, h]
  unfold dmpImitate
  cases dmpImitateWith m T reg s.ft.overlap s.ft.alphaZ
        (.ok (determineForces T Y.values s.alphaY s.betaY s.ft.alphaZ afv s.smooth)) with
  | error e => exact ⟨rfl, rfl⟩
  | ok w =>
    have := C100_configure { startY := some (Y.row 0), goalY := some (Y.row (Fin.last (n + 1))) }
      ({ s with ft := { s.ft with weights := w } } : TypedDMP d m)
    simp only [TypedConfigArgs.values, Option.map_some, row_values, Option.map_none] at this
    exact this

/-- **C100.** Demonstrations made of floating-point numbers are imitated as described by the model without data types. -/
theorem C100_imitate_floats (T : Fin (n + 2) → ℝ) (Y : Fin (n + 2) → Vec d) (reg : ℝ) (afv : Bool) (s : TypedDMP d m) :
    ((TypedDMP.imitate T (.float Y) reg afv).exec s).1 = ((DMP.imitate T Y reg afv).exec s.toDMP).1 ∧
      ((TypedDMP.imitate T (.float Y) reg afv).exec s).2.toDMP = ((DMP.imitate T Y reg afv).exec s.toDMP).2 :=
  imitate_of_forces T (.float Y) reg afv s rfl

/-- **C100.** A demonstration made of integers is imitated correctly if all its velocities and accelerations (according to
finite differences) are integers, too. -/
theorem C100_imitate_integers (T : Fin (n + 2) → ℝ) (Y : Fin (n + 2) → Fin d → ℤ) (reg : ℝ) (afv : Bool)
    (s : TypedDMP d m) (V A : Fin (n + 2) → Fin d → ℤ)
    (hV : ∀ t k, gradient (fun i => (Y i k : ℝ)) t / gradient T t = V t k)
    (hA : ∀ t k, gradient (fun i => demoYd T (fun t k => (Y t k : ℝ)) afv i k) t / gradient T t = A t k) :
    let Y' : Fin (n + 2) → Vec d := fun t k => (Y t k : ℝ)
    ((TypedDMP.imitate T (.int Y) reg afv).exec s).1 = ((DMP.imitate T Y' reg afv).exec s.toDMP).1 ∧
      ((TypedDMP.imitate T (.int Y) reg afv).exec s).2.toDMP = ((DMP.imitate T Y' reg afv).exec s.toDMP).2 := by
  refine imitate_of_forces T (.int Y) reg afv s ?_
  have h1 : typedYd T (.int Y) afv = demoYd T (fun t k => (Y t k : ℝ)) afv := by
    funext t k
    simp only [typedYd, demoYd, DemoArray.values, DemoArray.dtype, Dtype.store]
    split_ifs
    · rfl
    · rw [hV, truncate_int]
  have h2 : typedYdd T (.int Y) afv = demoYdd T (fun t k => (Y t k : ℝ)) afv := by
    funext t k
    simp only [typedYdd, demoYdd, DemoArray.dtype, Dtype.store, h1]
    split_ifs
    · rfl
    · rw [hA, truncate_int]
  simp only [typedForces, determineForces, h1, h2]
  rfl

theorem typedForces_slow (T : Fin (n + 2) → ℝ) (Y : Fin (n + 2) → Fin d → ℤ) (afv : Bool) (alphaY betaY : Vec d)
    (alphaZ : ℝ) (smooth : Bool) (hslow : ∀ t k, |gradient (fun i => (Y i k : ℝ)) t / gradient T t| < 1) :
    typedForces T (.int Y) alphaY betaY alphaZ afv smooth =
      restForces T (fun t k => (Y t k : ℝ)) alphaY betaY alphaZ smooth := by
  have h1 : ∀ t k, typedYd T (.int Y) afv t k = 0 := by
    intro t k
    simp only [typedYd, DemoArray.values, DemoArray.dtype, Dtype.store]
    split_ifs
    · rfl
    · exact truncate_eq_zero (hslow t k)
  have h2 : ∀ t k, typedYdd T (.int Y) afv t k = 0 := by
    intro t k
    simp only [typedYdd, DemoArray.dtype, Dtype.store, h1, gradient_const, zero_div, truncate_zero, ite_self]
  funext t k
  simp only [typedForces, restForces, h1, h2, DemoArray.values]
  ring

/-- **C100 (finding).** A slow demonstration made of integers (less than one unit per unit of time everywhere, e.g. a
robot whose positions are recorded in whole millimetres and whose time stamps are milliseconds) is misunderstood: all
velocities and accelerations are rounded to zero without a warning, so that the learned weights are the best ones for
staying at rest in each of the demonstrated positions. -/
theorem C100_finding_slow {s : TypedDMP d m} {s' : TypedDMP d m} (hs : s.toDMP.Reachable) (T : Fin (n + 2) → ℝ)
    (Y : Fin (n + 2) → Fin d → ℤ) {reg : ℝ} (h0 : T 0 = 0) (hT : T (Fin.last _) = s.executionTime) (afv : Bool)
    (hslow : ∀ t k, |gradient (fun i => (Y i k : ℝ)) t / gradient T t| < 1)
    (h : (TypedDMP.imitate T (.int Y) reg afv).exec s = (.ok (), s')) :
    let error := regularizedError (restForces T (fun t k => (Y t k : ℝ)) s.alphaY s.betaY s.ft.alphaZ s.smooth)
      (fun W t => ({ s'.ft with weights := W } : ForcingTerm d m).call (T t)) reg
    ∀ V, error s'.ft.weights ≤ error V ∧ (0 < reg → error V ≤ error s'.ft.weights → V = s'.ft.weights) := by
  intro error V
  obtain ⟨ft, h1, h2⟩ := hs.valid
  rw [DMP.initForcingTerm_ok_iff] at h1
  obtain ⟨e1, e2, e3, e4, -⟩ := create_eq h1
  have hc : ForcingTerm.create d m (T (Fin.last (n + 1))) (T 0) s.ft.overlap s.ft.alphaZ = .ok ft := by
    rw [h2, h0, hT, e3, e4]; exact h1
  rw [exec_typedImitate, typedForces_slow T Y afv _ _ _ _ hslow] at h
  by_cases hreg : reg < 0
  · rw [dmpImitateWith_neg hreg] at h; cases h
  have hreg := not_lt.1 hreg
  rw [dmpImitateWith_eq hc hreg] at h
  simp only at h
  generalize hR : ridgeRegression (Matrix.of (ft.designMatrix T))
    (Matrix.of (restForces T (fun t k => (Y t k : ℝ)) s.alphaY s.betaY s.ft.alphaZ s.smooth)) reg = R at h
  have hft : s'.ft = { ft with weights := R } := by
    have hf := fun S => (follows_configure (d := d) (m := m) { startY := some ((DemoArray.int Y).row 0)
                                                               goalY := some ((DemoArray.int Y).row (Fin.last (n + 1))) } S).2
    have hf := hf { s with ft := { s.ft with weights := R } }
    rw [h] at hf
    have hf : s'.ft = { s.ft with weights := R } := congrArg (fun S : TypedDMP d m => S.ft) hf
    rw [hf, h2]
  obtain ⟨hg, hst, -⟩ := create_eq hc
  have he : error = regularizedError (restForces T (fun t k => (Y t k : ℝ)) s.alphaY s.betaY s.ft.alphaZ s.smooth)
      (fun W t k => ∑ i, W k i * ft.designMatrix T i t) reg := by
    show regularizedError _ _ _ = _
    congr 1
    funext W t k
    rw [hft]
    exact (designMatrix_force ft T hst hg W t k).symm
  rw [he, hft]
  exact ⟨C26_ridge_optimal _ _ hreg hR.symm V, fun hpos hV => C26_ridge_unique _ _ hpos hR.symm V hV⟩

/-- **C100.** Imitating a demonstration made of integers succeeds in the same cases as imitating floating-point numbers;
start and goal position of the DMP are arrays of integers afterwards. -/
theorem C100_imitate_configures {s : TypedDMP d m} (hs : s.toDMP.Reachable) (T : Fin (n + 2) → ℝ) (Y : DemoArray n d)
    {reg : ℝ} (hreg : 0 ≤ reg) (hT : T 0 < T (Fin.last _)) (afv : Bool) :
    ∃ w, (TypedDMP.imitate T Y reg afv).exec s =
      (.ok (), { s with startY := Y.values 0
                        goalY := Y.values (Fin.last _)
                        ft := { s.ft with weights := w }
                        types := { s.types with startY := Y.dtype, goalY := Y.dtype } }) := by
  obtain ⟨ft, h1, h2⟩ := hs.valid
  rw [DMP.initForcingTerm_ok_iff] at h1
  obtain ⟨e1, e2, e3, e4, hm, -, hov, -⟩ := create_eq h1
  obtain ⟨ft', hc⟩ : ∃ ft', ForcingTerm.create d m (T (Fin.last (n + 1))) (T 0) s.ft.overlap s.ft.alphaZ = .ok ft' := by
    unfold ForcingTerm.create
    rw [if_neg (by omega), if_neg (not_le.2 hT), if_neg (by rw [h2]; simp only; rw [e3]; exact not_le.2 hov)]
    exact ⟨_, rfl⟩
  refine ⟨ridgeRegression (Matrix.of (ft'.designMatrix T))
    (Matrix.of (typedForces T Y s.alphaY s.betaY s.ft.alphaZ afv s.smooth)) reg, ?_⟩
  rw [exec_typedImitate, dmpImitateWith_eq hc hreg]
  simp only
  generalize ridgeRegression (Matrix.of (ft'.designMatrix T))
    (Matrix.of (typedForces T Y s.alphaY s.betaY s.ft.alphaZ afv s.smooth)) reg = w
  generalize hS : ({ s with ft := { s.ft with weights := w } } : TypedDMP d m) = S
  generalize hA : ({ startY := some (Y.row 0), goalY := some (Y.row (Fin.last (n + 1))) } : TypedConfigArgs) = a
  obtain ⟨k1, k2⟩ := follows_configure a S
  have k3 : a.values = { startY := some (List.ofFn (Y.values 0)), goalY := some (List.ofFn (Y.values (Fin.last _))) } := by
    rw [← hA]; simp only [TypedConfigArgs.values, Option.map_some, row_values, Option.map_none]
  rw [k3, C25_configure_sets _ _ (by simp [AllOk, FieldOk])] at k1 k2
  have k4 := configure_types a S k1
  refine Prod.ext k1 ?_
  rw [k2, k4, ← hA, ← hS]
  simp only [typed_newValue, newType, Option.map_some, Option.getD_some, row_dtype, Option.map_none, Option.getD_none]
  rfl

/-- **C100 (finding).** A DMP that has imitated a demonstration made of integers cannot be executed at all, neither with
`open_loop` nor (after `reset` or before the first step) with `step`, until start and goal are replaced by arrays of
floating-point numbers. -/
theorem C100_finding_imitated_cannot_run {s s' : TypedDMP d m} (hs : s.toDMP.Reachable) (T : Fin (n + 2) → ℝ)
    (Y : Fin (n + 2) → Fin d → ℤ) {reg : ℝ} (hreg : 0 ≤ reg) (hT : T 0 < T (Fin.last _)) (afv : Bool)
    (h : (TypedDMP.imitate T (.int Y) reg afv).exec s = (.ok (), s')) (hdt : 0 < s.dt) {runT : Option ℝ}
    (hrun : 0 < runT.getD s.executionTime) (c : Option (Coupling d)) {name : String} {sf : StepFunction}
    (hn : StepFunction.lookup name = .ok sf) :
    (TypedDMP.openLoop runT c name).exec s' = (.error (integerError sf), s') ∧
      (s.initialized = false → 0 ≤ s.t → ∀ y yd,
        ((TypedDMP.step c sf y yd).exec s').1 = .error (integerError sf)) ∧
      ∀ y yd, ((TypedDMP.reset >>= fun _ => TypedDMP.step c sf y yd).exec s').1 = .error (integerError sf) := by
  obtain ⟨w, hw⟩ := C100_imitate_configures hs T (.int Y) hreg hT afv
  rw [h] at hw
  injection hw with _ hw
  have hτ : 0 < s.executionTime := by
    obtain ⟨ft, h1, -⟩ := hs.valid
    exact ((DMP.initForcingTerm_isOk_iff s.executionTime).1 ⟨ft, h1⟩).2
  have f1 : s'.types.startY = .int := by rw [hw]; rfl
  have f2 : s'.dt = s.dt := by rw [hw]
  have f3 : s'.executionTime = s.executionTime := by rw [hw]
  have f4 : s'.initialized = s.initialized := by rw [hw]
  have f5 : s'.t = s.t := by rw [hw]
  clear hw
  rw [← f2] at hdt
  rw [← f3] at hτ hrun
  refine ⟨C100_finding_open_loop_integer_start c hn s' f1 hdt hτ hrun, fun hi ht y yd =>
    (C100_finding_integer_start c sf y yd s' (f4.trans hi) (.inl f1) (by rw [f5]; exact ht) hdt hτ).1, fun y yd => ?_⟩
  rw [Py.exec_bind]
  simp only [TypedDMP.reset, Py.exec_modify]
  refine step_integer c sf y yd _ (.inl ?_) le_rfl hdt hτ
  unfold TypedDMP.beginStep
  split_ifs <;> exact f1

/-- **C100 (finding).** Rounding makes a difference: the weights learned from the movement `0, 1` at the times `0, 4` are
different for integers and floating-point numbers. -/
theorem C100_finding_imitate_differs (s : TypedDMP 1 2) (hs : s.toDMP.Reachable) (hα : s.alphaY 0 = 25) :
    let T : Fin 2 → ℝ := ![0, 4]
    ((TypedDMP.imitate (n := 0) T (.int ![![0], ![1]]) 0 false).exec s).2.ft.weights ≠
      ((TypedDMP.imitate (n := 0) T (.float ![![0], ![1]]) 0 false).exec s).2.ft.weights := by
  intro T heq
  obtain ⟨ft, h1, h2⟩ := hs.valid
  rw [DMP.initForcingTerm_ok_iff] at h1
  obtain ⟨e1, e2, e3, e4, hm, -, hov, -⟩ := create_eq h1
  obtain ⟨ft', hc⟩ : ∃ ft', ForcingTerm.create 1 2 (T (Fin.last (0 + 1))) (T 0) s.ft.overlap s.ft.alphaZ = .ok ft' := by
    unfold ForcingTerm.create
    rw [if_neg (by omega), if_neg (by simp [T]), if_neg (by rw [h2]; simp only; rw [e3]; exact not_le.2 hov)]
    exact ⟨_, rfl⟩
  have key : ∀ Y : DemoArray 0 1, ((TypedDMP.imitate (n := 0) T Y 0 false).exec s).2.ft.weights =
      ridgeRegression (Matrix.of (ft'.designMatrix T))
        (Matrix.of (typedForces T Y s.alphaY s.betaY s.ft.alphaZ false s.smooth)) 0 := by
    intro Y
    rw [exec_typedImitate, dmpImitateWith_eq hc le_rfl]
    simp only
    rw [(follows_configure _ _).2]
  rw [key, key] at heq
  have n1 := ridge_normal (Matrix.of (ft'.designMatrix T))
    (Matrix.of (typedForces T (.int ![![0], ![1]]) s.alphaY s.betaY s.ft.alphaZ false s.smooth)) le_rfl
  have n2 := ridge_normal (Matrix.of (ft'.designMatrix T))
    (Matrix.of (typedForces T (.float ![![0], ![1]]) s.alphaY s.betaY s.ft.alphaZ false s.smooth)) le_rfl
  rw [heq, n2] at n1
  have n3 := congrFun (congrFun n1 0) 0
  have hsum : ∀ f : Fin (0 + 2) → ℝ, ∑ t, f t = f 0 + f 1 := fun f => Fin.sum_univ_two f
  simp only [Matrix.mul_apply, hsum, Matrix.of_apply] at n3
  have g0 : gradient (n := 0) T 0 = 4 := by norm_num [gradient, T]
  have d0 : typedYd (n := 0) T (.float ![![0], ![1]]) false 0 0 = 1 / 4 := by
    norm_num [typedYd, gradient, T, DemoArray.values, DemoArray.dtype, Dtype.store]
  have d1 : typedYd (n := 0) T (.float ![![0], ![1]]) false 1 0 = 0 := by
    unfold typedYd
    rw [if_pos ⟨rfl, rfl⟩]
  have d2 : typedYdd (n := 0) T (.float ![![0], ![1]]) false 0 0 = -1 / 16 := by
    have : gradient (n := 0) (fun i => typedYd (n := 0) T (.float ![![0], ![1]]) false i 0) 0 = -1 / 4 := by
      unfold gradient
      rw [if_pos (by rfl)]; simp only [d0, d1]; norm_num
    simp only [typedYdd, DemoArray.dtype, Dtype.store, this, g0]
    norm_num
  have d3 : typedYdd (n := 0) T (.float ![![0], ![1]]) false 1 0 = 0 := by
    unfold typedYdd
    exact if_pos rfl
  have hslow : ∀ t k, |gradient (n := 0) (fun i => ((![![0], ![1]] : Fin 2 → Fin 1 → ℤ) i k : ℝ)) t / gradient T t| < 1 := by
    intro t k
    fin_cases t <;> fin_cases k <;> norm_num [gradient, T, abs_lt]
  rw [typedForces_slow T _ false _ _ _ _ hslow] at n3
  simp only [typedForces, restForces, d0, d1, d2, d3, DemoArray.values, hα] at n3
  have hX : 0 < ft'.designMatrix T 0 0 := by
    unfold ForcingTerm.designMatrix
    exact mul_pos (Real.exp_pos _) (div_pos (Real.exp_pos _) (ForcingTerm.sum_rbf_pos _ (by norm_num) _))
  have hl : (Fin.last (0 + 1) : Fin (0 + 2)) = 1 := rfl
  have hT0 : T 0 = 0 := rfl
  have hT1 : T 1 = 4 := rfl
  have y0 : (![![0], ![1]] : Fin (0 + 2) → Vec 1) 0 0 = 0 := rfl
  have y1 : (![![0], ![1]] : Fin (0 + 2) → Vec 1) 1 0 = 1 := rfl
  have z0 : ((![![0], ![1]] : Fin (0 + 2) → Fin 1 → ℤ) 0 0 : ℝ) = 0 := by norm_num
  have z1 : ((![![0], ![1]] : Fin (0 + 2) → Fin 1 → ℤ) 1 0 : ℝ) = 1 := by norm_num
  simp only [hl, hT0, hT1, y0, y1, z0, z1] at n3
  nlinarith

/-- The hypotheses of the theorems about imitation can be met. -/
example : ∃ s s' : TypedDMP 1 2, s.toDMP.Reachable ∧ s.alphaY 0 = 25 ∧ s.initialized = false ∧ 0 < s.dt ∧
    ∃ T : Fin 2 → ℝ, T 0 = 0 ∧ T (Fin.last _) = s.executionTime ∧
    (∀ t k, |gradient (n := 0) (fun i => ((![![0], ![1]] : Fin 2 → Fin 1 → ℤ) i k : ℝ)) t / gradient T t| < 1) ∧
    (TypedDMP.imitate (n := 0) T (.int ![![0], ![1]]) 0 false).exec s = (.ok (), s') := by
  obtain ⟨s, hs, h1, h2, -, -, -, h3, -, -, -, -, h4, -⟩ :=
    DMP.create_ok 1 2 le_rfl (τ := 4) (by norm_num) (1 / 100) (1 / 1000) 0 false 25 (25 / 4)
  obtain ⟨w, hw⟩ := C100_imitate_configures (n := 0) (s := TypedDMP.ofDMP s) (.create hs) ![0, 4]
    (.int ![![0], ![1]]) le_rfl (by simp) false
  refine ⟨TypedDMP.ofDMP s, _, .create hs, by rw [show (TypedDMP.ofDMP s).alphaY = s.alphaY from rfl, h4], h3,
    by rw [show (TypedDMP.ofDMP s).dt = s.dt from rfl, h2]; norm_num, ![0, 4], rfl,
    by rw [show (TypedDMP.ofDMP s).executionTime = s.executionTime from rfl, h1]; rfl, ?_, hw⟩
  intro t k
  fin_cases t <;> fin_cases k <;> simp [gradient] <;> norm_num [abs_lt]

/-- The hypotheses of the theorems about start and goal positions made of integers can be met: a new DMP that was
configured with such arrays. -/
example : ∃ s s' : TypedDMP 1 2, s.toDMP.Reachable ∧ s.types = Dtypes.floats ∧
    (TypedDMP.configure { startY := some (.int [1]), goalY := some (.int [2]) }).exec s = (.ok (), s') ∧
    s'.initialized = false ∧ s'.types.startY = .int ∧ s'.types.startYd = .float ∧ s'.types.goalY = .int ∧ 0 ≤ s'.t ∧
    0 < s'.dt ∧ 0 < s'.executionTime ∧ s'.dt ≤ s'.intDt := by
  obtain ⟨s, hs, h1, h2, h5, -, -, h3, h4, -⟩ :=
    DMP.create_ok 1 2 le_rfl (τ := 4) (by norm_num) (1 / 100) (1 / 50) 0 false 25 (25 / 4)
  refine ⟨TypedDMP.ofDMP s, _, .create hs, rfl, Prod.ext ?_ rfl, h3, rfl, rfl, rfl, ?_, ?_, ?_, ?_⟩
  · rfl
  · show 0 ≤ s.t
    rw [h4]
  · show 0 < s.dt
    rw [h2]; norm_num
  · show 0 < s.executionTime
    rw [h1]; norm_num
  · show s.dt ≤ s.intDt
    rw [h2, h5]; norm_num

/-! ## DMPs with final velocity -/

/-- **C100 (final velocity).** If `step` returns, then it returns what it would return for the same numbers in arrays of
floating-point numbers. -/
theorem C100_fv_step_no_rounding (c : Option (Coupling d)) (y yd : Vec d) (s s' : TypedDMP d m)
    (r : Vec d × Vec d) (h : (TypedDMP.fvStep c y yd).exec s = (.ok r, s')) :
    (FvDMP.step c y yd).exec s.toDMP = (.ok r, s'.toDMP) := by
  unfold TypedDMP.fvStep at h
  rw [TypedDMP.exec_stepWith] at h
  injection h with h1 h2
  obtain ⟨h3, h4⟩ := typedResult_ok h1
  have h5 := StepArgs.fvStepTyped_ok _ _ h3
  rw [h4] at h5
  rw [FvDMP.exec_step]
  rw [show (s.toDMP.beginStep.stepArgs c (s.toDMP.beginStep.currentY - y)).fvStep s.t (s.t + s.dt)
    (s.toDMP.beginStep.currentY, s.toDMP.beginStep.currentYd) = .ok r from h5]
  simp only
  rw [← h2, h4]
  rfl

/-- **C100 (final velocity).** Goals made of integers are no problem: if the current position and velocity are arrays of
floating-point numbers, then `step` behaves as described by the model without data types. -/
theorem C100_fv_step_floats (c : Option (Coupling d)) (y yd : Vec d) (s : TypedDMP d m)
    (hy : (if s.initialized then s.types.currentY else s.types.startY) = .float)
    (hyd : (if s.initialized then s.types.currentYd else s.types.startYd) = .float) :
    ((TypedDMP.fvStep c y yd).exec s).1 = ((FvDMP.step c y yd).exec s.toDMP).1 ∧
      ((TypedDMP.fvStep c y yd).exec s).2.toDMP = ((FvDMP.step c y yd).exec s.toDMP).2 := by
  unfold TypedDMP.fvStep
  rw [TypedDMP.exec_stepWith, FvDMP.exec_step]
  have h1 : s.beginStep.types.currentY = .float := by
    rw [← hy]; unfold TypedDMP.beginStep; split_ifs <;> rfl
  have h2 : s.beginStep.types.currentYd = .float := by
    rw [← hyd]; unfold TypedDMP.beginStep; split_ifs <;> rfl
  simp only [StepArgs.fvStepTyped_floats _ h1 h2, typedResult_inPlace]
  have e : s.beginStep.toDMP = s.toDMP.beginStep := rfl
  rw [e]
  cases (s.toDMP.beginStep.stepArgs c (s.toDMP.beginStep.currentY - y)).fvStep s.t (s.t + s.dt)
    (s.toDMP.beginStep.currentY, s.toDMP.beginStep.currentYd) <;> exact ⟨rfl, rfl⟩

theorem fvOpenLoop_eq (runT : Option ℝ) (c : Option (Coupling d)) (s : FvDMP d m) :
    (FvDMP.openLoop runT c).exec s =
      (openLoopWith s.executionTime 0 s.dt (s.startY, s.startYd) runT (FvDMP.openLoopArgs s c).fvStep, s) := rfl

/-- **C100 (final velocity).** If `open_loop` returns a trajectory, then it is the one that results from the same numbers
in arrays of floating-point numbers. -/
theorem C100_fv_open_loop_no_rounding (runT : Option ℝ) (c : Option (Coupling d)) (s s' : TypedDMP d m)
    (r : List ℝ × List (Vec d)) (h : (TypedDMP.fvOpenLoop runT c).exec s = (.ok r, s')) :
    (FvDMP.openLoop runT c).exec s.toDMP = (.ok r, s.toDMP) := by
  rw [TypedDMP.exec_fvOpenLoop] at h
  rw [fvOpenLoop_eq]
  injection h with h1 h2
  rw [openLoopWith_le (step' := (FvDMP.openLoopArgs s.toDMP c).fvStep) (fun l t x x' hx => by
      obtain ⟨h3, h4⟩ := typedResult_ok hx
      rw [← h4]
      exact StepArgs.fvStepTyped_ok _ _ h3) h1]

/-- **C100 (final velocity).** If start position and velocity contain floating-point numbers, `open_loop` behaves as
described by the model without data types. -/
theorem C100_fv_open_loop_floats (runT : Option ℝ) (c : Option (Coupling d)) (s : TypedDMP d m)
    (hs : s.types.startY = .float) (hd : s.types.startYd = .float) :
    ((TypedDMP.fvOpenLoop runT c).exec s).1 = ((FvDMP.openLoop runT c).exec s.toDMP).1 := by
  rw [TypedDMP.exec_fvOpenLoop, fvOpenLoop_eq]
  have hr : ∀ l t x, (FvDMP.openLoopArgs s.toDMP c).fvStepTyped (TypedDMP.fvOpenLoopTypes s.types) l t x =
      inPlace x ((FvDMP.openLoopArgs s.toDMP c).fvStep l t x) := fun l t x =>
    StepArgs.fvStepTyped_floats _ (ty := TypedDMP.fvOpenLoopTypes s.types) hs hd l t x
  simp only [hr, typedResult_inPlace]

/-- **C100 (finding, final velocity).** With a start position or velocity made of integers, `step` and `open_loop` raise
TypeError. -/
theorem C100_finding_fv_integer_start (c : Option (Coupling d)) (s : TypedDMP d m)
    (hty : s.types.startY = .int ∨ s.types.startYd = .int) (hdt : 0 < s.dt) (hτ : 0 < s.executionTime) :
    (s.initialized = false → 0 ≤ s.t → ∀ y yd, ((TypedDMP.fvStep c y yd).exec s).1 = .error .typeError) ∧
      ∀ runT : Option ℝ, 0 < runT.getD s.executionTime →
        (TypedDMP.fvOpenLoop runT c).exec s = (.error .typeError, s) := by
  have key : ∀ (a : StepArgs d m) (ty : Dtypes) (l t : ℝ) (x : Vec d × Vec d),
      (ty.currentY = .int ∨ ty.currentYd = .int) → a.startT < a.goalT → a.startT < t → l < t →
      (a.fvStepTyped ty l t x).1 = .error .typeError := by
    intro a ty l t x h hg ht hl
    obtain ⟨q, hq, -⟩ := C29_solve_constraints hg.ne a.startY a.startYd a.startYdd a.goalY a.goalYd a.goalYdd
    unfold StepArgs.fvStepTyped
    rw [if_neg (not_le.2 hg), if_neg (not_le.2 ht), hq]
    simp only
    rw [if_neg (not_le.2 hl)]
    rcases h with h | h
    · rw [h]; cases ty.currentYd <;> rfl
    · rw [h]
  refine ⟨fun hi ht y yd => ?_, fun runT hrun => ?_⟩
  · unfold TypedDMP.fvStep
    rw [TypedDMP.exec_stepWith]
    simp only [typedResult]
    rw [key _ s.beginStep.types _ _ _ (by simpa [TypedDMP.beginStep, hi] using hty) hτ
      (show (0 : ℝ) < s.t + s.dt by linarith) (by linarith)]
  · rw [TypedDMP.exec_fvOpenLoop]
    rw [openLoopWith_first_error hdt hrun (e := .typeError)]
    simp only [typedResult]
    rw [key _ (TypedDMP.fvOpenLoopTypes s.types) _ _ _ hty hτ (show (0 : ℝ) < 0 + s.dt by linarith) (by linarith)]

/-- **C100 (finding, final velocity).** The exception is raised half way: if only the start position is made of integers,
the velocity of the object has been changed already, to the velocity after the first sub-step (here: the only one), while
its position is still the start position. -/
theorem C100_finding_fv_half_way (c : Option (Coupling d)) (y yd : Vec d) (s : TypedDMP d m) (hs : s.initialized = false)
    (hy : s.types.startY = .int) (hyd : s.types.startYd = .float) (ht : 0 ≤ s.t) (hdt : 0 < s.dt)
    (hτ : 0 < s.executionTime) (hint : s.dt ≤ s.intDt) :
    ((TypedDMP.fvStep c y yd).exec s).2.currentYd = ((FvDMP.step c y yd).exec s.toDMP).2.currentYd ∧
      ((TypedDMP.fvStep c y yd).exec s).2.currentY = s.startY := by
  have hl : s.t < s.t + s.dt := by linarith
  have hpos : (0 : ℝ) < s.t + s.dt := by linarith
  unfold TypedDMP.fvStep
  rw [TypedDMP.exec_stepWith, FvDMP.exec_step]
  have hb1 : s.beginStep.types.currentY = .int := by simp [TypedDMP.beginStep, hs, hy]
  have hb2 : s.beginStep.types.currentYd = .float := by simp [TypedDMP.beginStep, hs, hyd]
  have e : s.beginStep.toDMP = s.toDMP.beginStep := rfl
  generalize hA : s.toDMP.beginStep.stepArgs c (s.toDMP.beginStep.currentY - y) = a
  have a1 : a.startT = 0 := by rw [← hA]; rfl
  have a2 : a.goalT = s.executionTime := by rw [← hA]; rfl
  have a3 : a.intDt = s.intDt := by rw [← hA]; rfl
  have hg : a.startT < a.goalT := by rw [a1, a2]; exact hτ
  obtain ⟨q, hq, -⟩ := C29_solve_constraints hg.ne a.startY a.startYd a.startYdd a.goalY a.goalYd a.goalYdd
  have h1 : (if s.t + s.dt - s.t < s.intDt then s.t + s.dt - s.t else s.intDt) = s.dt := by
    split_ifs with h <;> linarith
  have hrun : ∀ x, a.fvStep s.t (s.t + s.dt) x = .ok (a.fvBody q s.dt (s.t + s.dt) x) := by
    intro x
    unfold StepArgs.fvStep
    rw [if_neg (not_le.2 hg), if_neg (by rw [a1]; exact not_le.2 hpos), hq]
    show intLoop a.intDt (s.t + s.dt) (a.fvBody q) s.t x = _
    rw [a3, intLoop_step _ hl, h1, intLoop_done _ le_rfl]
  have htyp : ∀ x, a.fvStepTyped s.beginStep.types s.t (s.t + s.dt) x =
      (.error .typeError, (x.1, (a.fvBody q s.dt (s.t + s.dt) x).2)) := by
    intro x
    unfold StepArgs.fvStepTyped
    rw [if_neg (not_le.2 hg), if_neg (by rw [a1]; exact not_le.2 hpos), hq]
    simp only
    rw [if_neg (not_le.2 hl), hb1, hb2]
    simp only [StepArgs.firstDt, a3, h1, StepArgs.fvVelocity]
  rw [hrun]
  simp only [e, hA, htyp]
  refine ⟨trivial, ?_⟩
  simp [DMP.beginStep, hs]

theorem exec_typedFvImitate (T : Fin (n + 2) → ℝ) (Y : DemoArray n d) (reg : ℝ) (s : TypedDMP d m) :
    (TypedDMP.fvImitate T Y reg).exec s =
      match dmpImitateWith m T reg s.ft.overlap s.ft.alphaZ (typedFvForces T Y s.alphaY s.betaY) with
      | .ok w => (TypedDMP.configure
          { startY := some (Y.row 0), startYd := some (rowArray Y.dtype (typedFvYd T Y 0))
            startYdd := some (rowArray Y.dtype (typedFvYdd T Y 0)), goalY := some (Y.row (Fin.last (n + 1)))
            goalYd := some (rowArray Y.dtype (typedFvYd T Y (Fin.last (n + 1))))
            goalYdd := some (rowArray Y.dtype (typedFvYdd T Y (Fin.last (n + 1)))) }).exec
          { s with ft := { s.ft with weights := w } }
      | .error e => (.error e, s) := by
  unfold TypedDMP.fvImitate
  simp only [Py.exec_bind, Py.exec_lift, Py.exec_get, Py.exec_modify]
  cases dmpImitateWith m T reg s.ft.overlap s.ft.alphaZ (typedFvForces T Y s.alphaY s.betaY) <;> rfl

/-- **C100 (final velocity).** Demonstrations made of floating-point numbers are imitated as described by the model without
data types. -/
theorem C100_fv_imitate_floats (T : Fin (n + 2) → ℝ) (Y : Fin (n + 2) → Vec d) (reg : ℝ) (s : TypedDMP d m) :
    ((TypedDMP.fvImitate T (.float Y) reg).exec s).1 = ((FvDMP.imitate T Y reg).exec s.toDMP).1 ∧
      ((TypedDMP.fvImitate T (.float Y) reg).exec s).2.toDMP = ((FvDMP.imitate T Y reg).exec s.toDMP).2 := by
  rw [exec_typedFvImitate, FvDMP.exec_imitate]
  have h : typedFvForces T (.float Y) s.alphaY s.betaY = fvDetermineForces T Y s.alphaY s.betaY := rfl
  rw [h]
  cases dmpImitateWith m T reg s.ft.overlap s.ft.alphaZ (fvDetermineForces T Y s.alphaY s.betaY) with
  | error e => exact ⟨rfl, rfl⟩
  | ok w => exact C100_configure _ ({ s with ft := { s.ft with weights := w } } : TypedDMP d m)

theorem rowArray_values {x : Vec d} {i : Fin d → ℤ} (h : ∀ k, x k = i k) :
    (rowArray .int x).values = List.ofFn x := by
  have : (rowArray .int x).values = List.map (Int.cast : ℤ → ℝ) (List.ofFn (fun k => ⌊x k⌋)) := rfl
  rw [this, List.map_ofFn]
  congr 1
  funext k
  simp [h]

/-- **C100 (finding, final velocity).** A demonstration made of integers whose velocities are slower than one unit per unit
of time is imitated as if it started and ended at rest: start and goal velocities and accelerations of the DMP are
zero, whatever the final velocity of the demonstration. -/
theorem C100_finding_fv_slow (T : Fin (n + 2) → ℝ) (Y : Fin (n + 2) → Fin d → ℤ) (reg : ℝ) (s s' : TypedDMP d m)
    (hslow : ∀ (i : Fin (n + 1)) k, |((Y i.succ k : ℝ) - Y i.castSucc k) / (T i.succ - T i.castSucc)| < 1)
    (h : (TypedDMP.fvImitate T (.int Y) reg).exec s = (.ok (), s')) :
    s'.startYd = 0 ∧ s'.startYdd = 0 ∧ s'.goalYd = 0 ∧ s'.goalYdd = 0 := by
  have h1 : ∀ i k, typedFvYd T (.int Y) i k = 0 := by
    intro i k
    simp only [typedFvYd, DemoArray.dtype, Dtype.store, DemoArray.values, backwardDifference]
    split_ifs with h0
    · exact truncate_zero
    · refine truncate_eq_zero ?_
      have := hslow ⟨i.val - 1, by omega⟩ k
      have e : (⟨i.val - 1, by omega⟩ : Fin (n + 1)).succ = i := by
        ext; simp; omega
      rw [e] at this
      exact this
  have h2 : ∀ i k, typedFvYdd T (.int Y) i k = 0 := by
    intro i k
    simp only [typedFvYdd, DemoArray.dtype, Dtype.store, backwardDifference, h1, sub_self, zero_div, ite_self,
      truncate_zero]
  rw [exec_typedFvImitate] at h
  cases hw : dmpImitateWith m T reg s.ft.overlap s.ft.alphaZ (typedFvForces T (.int Y) s.alphaY s.betaY) with
  | error e => rw [hw] at h; cases h
  | ok w =>
    rw [hw] at h
    simp only [DemoArray.dtype] at h
    generalize hS : ({ s with ft := { s.ft with weights := w } } : TypedDMP d m) = S at h
    generalize hA : ({ startY := _, startYd := _, startYdd := _, goalY := _, goalYd := _, goalYdd := _ } :
      TypedConfigArgs) = a at h
    obtain ⟨k1, k2⟩ := follows_configure a S
    have k3 : a.values =
        { startY := some (List.ofFn ((DemoArray.int Y).values 0)), startYd := some (List.ofFn (0 : Vec d))
          startYdd := some (List.ofFn (0 : Vec d)), goalY := some (List.ofFn ((DemoArray.int Y).values (Fin.last _)))
          goalYd := some (List.ofFn (0 : Vec d)), goalYdd := some (List.ofFn (0 : Vec d)) } := by
      have z1 : ∀ i, typedFvYd T (.int Y) i = 0 := fun i => funext fun k => h1 i k
      have z2 : ∀ i, typedFvYdd T (.int Y) i = 0 := fun i => funext fun k => h2 i k
      rw [← hA]
      simp only [TypedConfigArgs.values, Option.map_some, row_values, z1, z2,
        rowArray_values (x := (0 : Vec d)) (i := fun _ => 0) (fun k => by simp)]
    rw [k3, C25_configure_sets _ _ (by simp [AllOk, FieldOk]), h] at k2
    simp only [typed_newValue] at k2
    rw [k2]
    exact ⟨rfl, rfl, rfl, rfl⟩

/-- **C100 (finding, final velocity).** After imitating a demonstration made of integers the DMP cannot be executed. -/
theorem C100_finding_fv_imitated_cannot_run (T : Fin (n + 2) → ℝ) (Y : Fin (n + 2) → Fin d → ℤ) (reg : ℝ)
    (s s' : TypedDMP d m) (h : (TypedDMP.fvImitate T (.int Y) reg).exec s = (.ok (), s')) (hdt : 0 < s.dt)
    (hτ : 0 < s.executionTime) (c : Option (Coupling d)) {runT : Option ℝ} (hrun : 0 < runT.getD s.executionTime) :
    (TypedDMP.fvOpenLoop runT c).exec s' = (.error .typeError, s') := by
  rw [exec_typedFvImitate] at h
  cases hw : dmpImitateWith m T reg s.ft.overlap s.ft.alphaZ (typedFvForces T (.int Y) s.alphaY s.betaY) with
  | error e => rw [hw] at h; cases h
  | ok w =>
    rw [hw] at h
    simp only [DemoArray.dtype] at h
    have f := C100_configure_types _ _ _ h
    have g := (follows_configure _ _).2.symm.trans (congrArg Prod.snd h)
    have f1 : s'.types.startY = .int := by rw [f]; rfl
    have g : _ = s' := g
    have f2 : s'.dt = s.dt := by rw [← g]
    have f3 : s'.executionTime = s.executionTime := by rw [← g]
    exact (C100_finding_fv_integer_start c s' (.inl f1) (by rw [f2]; exact hdt) (by rw [f3]; exact hτ)).2 runT
      (by rw [f3]; exact hrun)

end Verif
