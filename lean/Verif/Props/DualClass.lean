import Verif.Props.Dual
import Verif.Props.Cartesian
import Verif.Props.Imitate

/-! # Properties of `DualCartesianDMP` (C31, C36) -/

namespace Verif
open Spec
variable {m : ℕ}

namespace DualCartesianDMP

/-- State with which the passed one is compared in `step`. -/
def reference (s : DualCartesianDMP m) : Vec 14 := if s.initialized then s.currentY else s.startY

/-- Object after `step` that ended in state `y`, `yd`. -/
def stepped (s : DualCartesianDMP m) (y : Vec 14) (yd : Vec 12) : DualCartesianDMP m :=
  { s with lastT := some s.t, t := s.t + s.dt, currentY := y, currentYd := yd, initialized := true }

theorem exec_step (ops : QuatOps) (c : Option DualCoupling) (sf : DualStepFunction) (y : Vec 14) (yd : Vec 12)
    (s : DualCartesianDMP m) : (step ops c sf y yd).exec s =
      match sf.run (s.stepArgs c (trackingError ops s.reference y)) s.t (s.t + s.dt) (y, yd) with
      | .ok r => (.ok r, s.stepped r.1 r.2)
      | .error e => (.error e, s.stepped y yd) := by
  unfold step
  simp only [Py.exec_bind, Py.exec_modify, Py.exec_get, Py.exec_lift, Py.exec_pure]
  cases hi : s.initialized with
  | true =>
    simp only [reference, hi, if_true, Option.getD_some]
    have e : ∀ c e, stepArgs { s with
      lastT := some s.t, t := s.t + s.dt, currentY := y, currentYd := yd, initialized := true } c e =
      s.stepArgs c e := fun _ _ => rfl
    rw [← e]
    cases sf.run _ _ _ _ with
    | ok r => simp [stepped]
    | error e => simp [stepped]
  | false =>
    simp only [reference, hi, Bool.false_eq_true, if_false, Option.getD_some]
    have e : ∀ c e, stepArgs { s with
      lastT := some s.t, t := s.t + s.dt, currentY := y, currentYd := yd, initialized := true } c e =
      s.stepArgs c e := fun _ _ => rfl
    rw [← e]
    cases sf.run _ _ _ _ with
    | ok r => simp [stepped]
    | error e => simp [stepped]

theorem exec_loopBody (ops : QuatOps) (c : Option DualCoupling) (sf : DualStepFunction) (x : LoopVars)
    (s : DualCartesianDMP m) : (loopBody ops c sf x).exec s =
      match sf.run (s.stepArgs c (trackingError ops s.reference x.y)) s.t (s.t + s.dt) (x.y, x.yd) with
      | .ok r => (.ok ⟨r.1, r.2, x.T ++ [s.t + s.dt], x.Y ++ [r.1]⟩, s.stepped r.1 r.2)
      | .error e => (.error e, s.stepped x.y x.yd) := by
  unfold loopBody
  simp only [Py.exec_bind, exec_step]
  cases sf.run (s.stepArgs c (trackingError ops s.reference x.y)) s.t (s.t + s.dt) (x.y, x.yd) with
  | ok r => rfl
  | error e => rfl

/-- The loop of `open_loop`. -/
noncomputable def loop (ops : QuatOps) (c : Option DualCoupling) (sf : DualStepFunction) (runT : ℝ)
    (s : DualCartesianDMP m) : Except PyErr LoopVars × DualCartesianDMP m :=
  (Py.while (fun s : DualCartesianDMP m => s.t < runT) (loopBody ops c sf)
    ⟨s.startY, s.startYd, [0], [s.startY]⟩).exec { s with t := 0 }

theorem exec_openLoop (ops : QuatOps) (runT : Option ℝ) (c : Option DualCoupling) (name : String)
    (s : DualCartesianDMP m) : (openLoop ops runT c name).exec s =
      match DualStepFunction.lookup ops name with
      | .error e => (.error e, s)
      | .ok sf => match loop ops c sf (runT.getD s.executionTime) s with
        | (.ok x, s') => (.ok (x.T, x.Y), { s' with t := 0 })
        | (.error e, s') => (.error e, s') := by
  unfold openLoop
  simp only [Py.exec_bind, Py.exec_modify, Py.exec_get, Py.exec_lift, Py.exec_pure]
  cases DualStepFunction.lookup ops name with
  | error e => rfl
  | ok sf =>
    simp only [loop]
    generalize Py.exec (Py.while _ _ _) _ = w
    rcases w with ⟨_ | _, _⟩ <;> rfl

/-- Executions of two loops in lockstep. -/
theorem loop_rel {ops ops' : QuatOps} {c c' : Option DualCoupling} {sf sf' : DualStepFunction} {runT : ℝ}
    {s s' : DualCartesianDMP m} (R : LoopVars → DualCartesianDMP m → LoopVars → DualCartesianDMP m → Prop)
    (RE : DualCartesianDMP m → DualCartesianDMP m → Prop)
    (ht : ∀ x s x' s', R x s x' s' → s.t = s'.t)
    (hb : ∀ x s x' s', R x s x' s' →
      (∃ r r', sf.run (s.stepArgs c (trackingError ops s.reference x.y)) s.t (s.t + s.dt) (x.y, x.yd) = .ok r ∧
        sf'.run (s'.stepArgs c' (trackingError ops' s'.reference x'.y)) s'.t (s'.t + s'.dt) (x'.y, x'.yd) = .ok r' ∧
        R ⟨r.1, r.2, x.T ++ [s.t + s.dt], x.Y ++ [r.1]⟩ (s.stepped r.1 r.2)
          ⟨r'.1, r'.2, x'.T ++ [s'.t + s'.dt], x'.Y ++ [r'.1]⟩ (s'.stepped r'.1 r'.2)) ∨
      ∃ e, sf.run (s.stepArgs c (trackingError ops s.reference x.y)) s.t (s.t + s.dt) (x.y, x.yd) = .error e ∧
        sf'.run (s'.stepArgs c' (trackingError ops' s'.reference x'.y)) s'.t (s'.t + s'.dt) (x'.y, x'.yd) = .error e ∧
        RE (s.stepped x.y x.yd) (s'.stepped x'.y x'.yd))
    (hR : ∀ x s x' s', R x s x' s' → RE s s')
    (h : R ⟨s.startY, s.startYd, [0], [s.startY]⟩ { s with t := 0 }
      ⟨s'.startY, s'.startYd, [0], [s'.startY]⟩ { s' with t := 0 }) :
    (∃ y t y' t', loop ops c sf runT s = (.ok y, t) ∧ loop ops' c' sf' runT s' = (.ok y', t') ∧ R y t y' t') ∨
      ∃ e t t', loop ops c sf runT s = (.error e, t) ∧ loop ops' c' sf' runT s' = (.error e, t') ∧ RE t t' := by
  refine Py.while_rel (body := loopBody ops c sf) (body' := loopBody ops' c' sf') R RE ?_ ?_ hR h
  · intro x s x' s' hr
    rw [ht _ _ _ _ hr]
  · intro x s x' s' hr
    rw [exec_loopBody, exec_loopBody]
    rcases hb _ _ _ _ hr with ⟨r, r', h1, h2, h3⟩ | ⟨e, h1, h2, h3⟩
    · left; rw [h1, h2]; exact ⟨_, _, _, _, rfl, rfl, h3⟩
    · right; rw [h1, h2]; exact ⟨_, _, _, rfl, rfl, h3⟩

theorem same_stepped (s : DualCartesianDMP m) (y : Vec 14) (yd : Vec 12) : SameConfiguration s (s.stepped y yd) := rfl

end DualCartesianDMP

theorem Spec.SameConfiguration.refl (s : DualCartesianDMP m) : SameConfiguration s s := rfl

theorem Spec.SameConfiguration.symm {s s' : DualCartesianDMP m} (h : SameConfiguration s s') : SameConfiguration s' s := by
  unfold SameConfiguration at *
  rw [h]

theorem Spec.SameConfiguration.trans {s s' s'' : DualCartesianDMP m} (h : SameConfiguration s s')
    (h' : SameConfiguration s' s'') : SameConfiguration s s'' := by
  unfold SameConfiguration at *
  rw [h', h]

theorem Spec.SameConfiguration.stepArgs {s s' : DualCartesianDMP m} (h : SameConfiguration s s') (c : Option DualCoupling)
    (e : Vec 14) : s'.stepArgs c e = s.stepArgs c e := by
  rw [h]; rfl

/-- Without correction gain and tracking error have no influence. -/
theorem DualStepFunction.run_correction (sf : DualStepFunction) (a : DualStepArgs m) (g : ℝ) (e : Option (Vec 14))
    (h : ∀ dt, a.correction sf.ops dt = 0)
    (h' : ∀ dt, { a with pGain := g, trackingError := e }.correction sf.ops dt = 0) :
    sf.run a = sf.run { a with pGain := g, trackingError := e } := by
  have hu : ∀ ops cd cdd dt t x, a.update ops cd cdd dt t x =
      { a with pGain := g, trackingError := e }.update ops cd cdd dt t x := fun _ _ _ _ _ _ => rfl
  funext lastT t x
  cases sf with
  | python ops =>
    simp only [DualStepFunction.run, DualStepArgs.stepPy]
    have : a.bodyPy ops = { a with pGain := g, trackingError := e }.bodyPy ops := by
      funext dt t x
      unfold DualStepArgs.bodyPy
      have h1 : a.correction ops dt = 0 := h dt
      have h2 : { a with pGain := g, trackingError := e }.correction ops dt = 0 := h' dt
      simp only [h1, h2, hu]
    rw [this]
  | cython =>
    simp only [DualStepFunction.run, DualStepArgs.stepCy]
    have : a.bodyCy = { a with pGain := g, trackingError := e }.bodyCy := by
      funext dt t x
      unfold DualStepArgs.bodyCy
      have h1 : a.correction QuatOps.cython dt = 0 := h dt
      have h2 : { a with pGain := g, trackingError := e }.correction QuatOps.cython dt = 0 := h' dt
      simp only [h1, h2, hu]
    rw [this]

/-- Without gain the tracking error has no influence. -/
theorem DualStepFunction.run_pGain_zero (sf : DualStepFunction) (s : DualCartesianDMP m) (h : s.pGain = 0)
    (c : Option DualCoupling) (e e' : Vec 14) : sf.run (s.stepArgs c e) = sf.run (s.stepArgs c e') :=
  sf.run_correction (s.stepArgs c e) s.pGain (some e') (fun _ => DualStepArgs.correction_pGain _ _ _ (.inl h))
    (fun _ => DualStepArgs.correction_pGain _ _ _ (.inl h))

/-- Executing a DMP, whether it raises or not, does not change its configuration. -/
theorem DualCall.after_same (ops : QuatOps) (s : DualCartesianDMP m) (call : DualCall) :
    SameConfiguration s (call.after ops s) := by
  cases call with
  | reset => exact rfl
  | step c sf y yd =>
    simp only [DualCall.after, DualCartesianDMP.exec_step]
    split <;> exact rfl
  | openLoop runT c name =>
    simp only [DualCall.after, DualCartesianDMP.exec_openLoop]
    cases DualStepFunction.lookup ops name with
    | error e => exact rfl
    | ok sf =>
      simp only
      rcases DualCartesianDMP.loop_rel (ops := ops) (ops' := ops) (c := c) (c' := c) (sf := sf) (sf' := sf)
        (runT := runT.getD s.executionTime) (s := s) (s' := s)
        (fun x s1 x' s1' => x = x' ∧ s1 = s1' ∧ SameConfiguration s s1)
        (fun s1 s1' => s1 = s1' ∧ SameConfiguration s s1)
        (by rintro x s1 x' s1' ⟨rfl, rfl, -⟩; rfl)
        (by
          rintro x s1 x' s1' ⟨rfl, rfl, h⟩
          cases sf.run (s1.stepArgs c (DualCartesianDMP.trackingError ops s1.reference x.y)) s1.t (s1.t + s1.dt)
            (x.y, x.yd) with
          | ok r => left; exact ⟨r, r, rfl, rfl, rfl, rfl, h.trans rfl⟩
          | error e => right; exact ⟨e, rfl, rfl, rfl, h.trans rfl⟩)
        (by rintro x s1 x' s1' ⟨rfl, rfl, h⟩; exact ⟨rfl, h⟩) ⟨rfl, rfl, rfl⟩ with
        ⟨y, t, y', t', h1, -, -, -, h2⟩ | ⟨e, t, t', h1, -, -, h2⟩
      · rw [h1]; exact h2.trans rfl
      · rw [h1]; exact h2

/-- **C36.** Without `p_gain`, `open_loop` only depends on the configuration of the object: two objects with the same
parameters, weights, start and goal give the same result (time stamps and states, or the same exception), whatever they
were used for before. -/
theorem C36_depends_only_on_configuration {s s' : DualCartesianDMP m} (h : SameConfiguration s s') (hp : s.pGain = 0)
    (ops : QuatOps) (runT : Option ℝ) (c : Option DualCoupling) (name : String) :
    ((DualCartesianDMP.openLoop ops runT c name).exec s').1 =
      ((DualCartesianDMP.openLoop ops runT c name).exec s).1 := by
  rw [DualCartesianDMP.exec_openLoop, DualCartesianDMP.exec_openLoop]
  cases DualStepFunction.lookup ops name with
  | error e => rfl
  | ok sf =>
    simp only
    have hex : s'.executionTime = s.executionTime := by rw [h]
    rw [hex]
    rcases DualCartesianDMP.loop_rel (ops := ops) (ops' := ops) (c := c) (c' := c) (sf := sf) (sf' := sf)
      (runT := runT.getD s.executionTime) (s := s) (s' := s')
      (fun x s1 x' s1' => x = x' ∧ s1.t = s1'.t ∧ SameConfiguration s s1 ∧ SameConfiguration s1 s1')
      (fun _ _ => True)
      (fun _ _ _ _ h => h.2.1)
      (by
        rintro x s1 x' s1' ⟨rfl, h1, h2, h3⟩
        have hp1 : s1.pGain = 0 := by rw [h2]; exact hp
        have hdt : s1'.dt = s1.dt := by rw [h3]
        rw [h3.stepArgs, sf.run_pGain_zero s1 hp1 c (DualCartesianDMP.trackingError ops s1'.reference x.y)
          (DualCartesianDMP.trackingError ops s1.reference x.y), hdt, ← h1]
        cases sf.run (s1.stepArgs c (DualCartesianDMP.trackingError ops s1.reference x.y)) s1.t (s1.t + s1.dt)
            (x.y, x.yd) with
        | ok r =>
          left
          refine ⟨r, r, rfl, rfl, rfl, ?_, h2.trans rfl, ?_⟩
          · show s1.t + s1.dt = s1'.t + s1'.dt
            rw [h1, hdt]
          · exact (SameConfiguration.symm (s1.same_stepped _ _)).trans (h3.trans (s1'.same_stepped _ _))
        | error e => right; exact ⟨e, rfl, rfl, trivial⟩)
      (fun _ _ _ _ _ => trivial)
      (by
        have e1 : s'.startY = s.startY := by rw [h]
        have e2 : s'.startYd = s.startYd := by rw [h]
        refine ⟨by rw [e1, e2], rfl, rfl, ?_⟩
        exact (SameConfiguration.symm (s' := { s with t := 0 }) (s := s) rfl).trans (h.trans rfl)) with
      ⟨y, t, y', t', h1, h2, rfl, -⟩ | ⟨e, t, t', h1, h2, -⟩
    · rw [h1, h2]
    · rw [h1, h2]

/-- **C36.** Without `p_gain`, `open_loop` is repeatable: after any sequence of `step`, `open_loop` and `reset` calls
(raising or not) it returns what it would have returned before. -/
theorem C36_repeatable {s : DualCartesianDMP m} (hp : s.pGain = 0) (ops : QuatOps) (history : List DualCall)
    (runT : Option ℝ) (c : Option DualCoupling) (name : String) :
    ((DualCartesianDMP.openLoop ops runT c name).exec (history.foldl (DualCall.after ops) s)).1 =
      ((DualCartesianDMP.openLoop ops runT c name).exec s).1 := by
  apply C36_depends_only_on_configuration _ hp
  induction history generalizing s with
  | nil => exact rfl
  | cons call history ih =>
    have h := DualCall.after_same ops s call
    exact h.trans (ih (by rw [h]; exact hp))

/-- **C31.** `DualCartesianDMP.step` returns unit quaternions. -/
theorem C31_dual_step {ops : QuatOps} {sf : DualStepFunction} (h : LawfulDualStep sf) {c : Option DualCoupling}
    {s s' : DualCartesianDMP m} (hst : ∀ arm, UnitQuat (armOrientation arm s.startY)) {y : Vec 14} {yd : Vec 12}
    (hy : ∀ arm, UnitQuat (armOrientation arm y)) {r : Vec 14 × Vec 12}
    (hr : (DualCartesianDMP.step ops c sf y yd).exec s = (.ok r, s')) (arm : Fin 2) :
    UnitQuat (armOrientation arm r.1) := by
  rw [DualCartesianDMP.exec_step] at hr
  cases h1 : sf.run (s.stepArgs c (DualCartesianDMP.trackingError ops s.reference y)) s.t (s.t + s.dt) (y, yd) with
  | error e => rw [h1] at hr; cases hr
  | ok x =>
    rw [h1] at hr
    simp only [Prod.mk.injEq, Except.ok.injEq] at hr
    rw [← hr.1]
    exact C31_dual_step_function h _ hst hy (y' := x.1) (yd' := x.2) h1 arm

/-- **C31.** All orientations of both arms in the result of `DualCartesianDMP.open_loop` are unit quaternions. -/
theorem C31_dual_open_loop {ops : QuatOps} {eps : ℝ} (heps : 0 < eps) (hops : LawfulQuatOps ops eps)
    {s : DualCartesianDMP m} (hst : ∀ arm, UnitQuat (armOrientation arm s.startY)) {runT : Option ℝ}
    {c : Option DualCoupling} {name : String} {T : List ℝ} {Y : List (Vec 14)}
    (hr : ((DualCartesianDMP.openLoop ops runT c name).exec s).1 = .ok (T, Y)) :
    ∀ y ∈ Y, ∀ arm, UnitQuat (armOrientation arm y) := by
  rw [DualCartesianDMP.exec_openLoop] at hr
  cases hl : DualStepFunction.lookup ops name with
  | error e => rw [hl] at hr; cases hr
  | ok sf =>
    have hsf : LawfulDualStep sf := by
      unfold DualStepFunction.lookup at hl
      split_ifs at hl
      · cases hl; exact ⟨eps, heps, hops⟩
      · cases hl; trivial
    rw [hl] at hr
    simp only at hr
    rcases DualCartesianDMP.loop_rel (ops := ops) (ops' := ops) (c := c) (c' := c) (sf := sf) (sf' := sf)
      (runT := runT.getD s.executionTime) (s := s) (s' := s)
      (fun x s1 x' s1' => x = x' ∧ s1 = s1' ∧ s1.startY = s.startY ∧ (∀ arm, UnitQuat (armOrientation arm x.y)) ∧
        ∀ y ∈ x.Y, ∀ arm, UnitQuat (armOrientation arm y))
      (fun _ _ => True)
      (by rintro x s1 x' s1' ⟨rfl, rfl, -⟩; rfl)
      (by
        rintro x s1 x' s1' ⟨rfl, rfl, h1, h2, h3⟩
        cases hx : sf.run (s1.stepArgs c (DualCartesianDMP.trackingError ops s1.reference x.y)) s1.t (s1.t + s1.dt)
          (x.y, x.yd) with
        | ok r =>
          left
          have hu := C31_dual_step_function hsf _ (by rw [← h1] at hst; exact hst) h2 (y' := r.1) (yd' := r.2) hx
          refine ⟨r, r, rfl, rfl, rfl, rfl, h1, hu, ?_⟩
          intro y hy
          rcases List.mem_append.1 hy with hy | hy
          · exact h3 y hy
          · rw [List.mem_singleton.1 hy]; exact hu
        | error e => right; exact ⟨e, rfl, rfl, trivial⟩)
      (fun _ _ _ _ _ => trivial) ⟨rfl, rfl, rfl, hst, by simpa using hst⟩ with
      ⟨y, t, y', t', h1, -, -, -, -, -, h2⟩ | ⟨e, t, t', h1, -, -⟩
    · rw [h1] at hr
      simp only [Except.ok.injEq, Prod.mk.injEq] at hr
      rw [← hr.2]; exact h2
    · rw [h1] at hr; cases hr

/-! ## `p_gain` -/

/-- The rotation vector between equal orientations is 0, also if the product and the logarithm are taken from different
libraries. -/
theorem log_mul_conj_self {ops ops' : QuatOps} {eps eps' : ℝ} (h : LawfulQuatOps ops eps) (h' : LawfulQuatOps ops' eps')
    (heps : 0 < eps') {q : Vec 4} (hq : UnitQuat q) : ops'.log (ops.mul q (ops.conj q)) = 0 := by
  have hc := LawfulQuatOps.unit_conj h hq
  have hu := LawfulQuatOps.unit_mul h hq hc
  have hm := h.mul q _ hq hc
  rw [h.conj q hq, (unitQuat_iff_mul_star q).1 hq] at hm
  apply h'.log_small _ hu
  have a := congrArg QuaternionAlgebra.imI hm
  have b := congrArg QuaternionAlgebra.imJ hm
  have c := congrArg QuaternionAlgebra.imK hm
  have a' : ops.mul q (ops.conj q) 1 = 0 := a
  have b' : ops.mul q (ops.conj q) 2 = 0 := b
  have c' : ops.mul q (ops.conj q) 3 = 0 := c
  rw [a', b', c']
  simpa using heps

/-- The tracking error between equal states causes no correction. -/
theorem correction_self (s : DualCartesianDMP m) {ops : QuatOps} {eps : ℝ} (hops : LawfulQuatOps ops eps)
    {sf : DualStepFunction} (hsf : LawfulDualStep sf) (c : Option DualCoupling) {y : Vec 14}
    (hy : ∀ arm, UnitQuat (armRot arm y)) (dt : ℝ) :
    (s.stepArgs c (DualCartesianDMP.trackingError ops y y)).correction sf.ops dt = 0 := by
  obtain ⟨eps', heps', h'⟩ := LawfulDualStep.ops hsf
  unfold DualStepArgs.correction DualCartesianDMP.stepArgs DualCartesianDMP.trackingError
  simp only [armPos_joinState, armRot_joinState, log_mul_conj_self hops h' heps' (hy _), sub_self, Pi.zero_apply,
    mul_zero, zero_div]
  exact vel_ext (fun arm => by rw [armLin_joinVel]; rfl) (fun arm => by rw [armAng_joinVel]; rfl)

/-- **C36.** The gain has no influence on an `open_loop` call of an object whose internal state is its start state: right
after construction and configuration (nothing executed yet) or after `reset`. In particular, calling `reset` before
`open_loop` makes it repeatable for every `p_gain`. -/
theorem C36_first_run {s : DualCartesianDMP m} (hfresh : s.initialized = false ∨ s.currentY = s.startY)
    {ops : QuatOps} {eps : ℝ} (heps : 0 < eps) (hops : LawfulQuatOps ops eps)
    (hst : ∀ arm, UnitQuat (armOrientation arm s.startY)) (runT : Option ℝ) (c : Option DualCoupling) (name : String) :
    ((DualCartesianDMP.openLoop ops runT c name).exec s).1 =
      ((DualCartesianDMP.openLoop ops runT c name).exec { s with pGain := 0 }).1 := by
  rw [DualCartesianDMP.exec_openLoop, DualCartesianDMP.exec_openLoop]
  cases hl : DualStepFunction.lookup ops name with
  | error e => rfl
  | ok sf =>
    have hsf : LawfulDualStep sf := by
      unfold DualStepFunction.lookup at hl
      split_ifs at hl
      · cases hl; exact ⟨eps, heps, hops⟩
      · cases hl; trivial
    simp only
    simp only [armOrientation_eq] at hst
    rcases DualCartesianDMP.loop_rel (ops := ops) (ops' := ops) (c := c) (c' := c) (sf := sf) (sf' := sf)
      (runT := runT.getD s.executionTime) (s := s) (s' := { s with pGain := 0 })
      (fun x s1 x' s1' => x = x' ∧ s1' = { s1 with pGain := 0 } ∧ s1.startY = s.startY ∧ s1.reference = x.y ∧
        ∀ arm, UnitQuat (armRot arm x.y))
      (fun _ _ => True)
      (by rintro x s1 x' s1' ⟨rfl, rfl, -⟩; rfl)
      (by
        rintro x s1 x' s1' ⟨rfl, rfl, h1, h2, h3⟩
        have e1 : DualCartesianDMP.reference { s1 with pGain := 0 } = x.y := h2
        have e2 : sf.run (s1.stepArgs c (DualCartesianDMP.trackingError ops x.y x.y)) =
            sf.run (DualCartesianDMP.stepArgs { s1 with pGain := 0 } c
              (DualCartesianDMP.trackingError ops x.y x.y)) :=
          sf.run_correction (s1.stepArgs c (DualCartesianDMP.trackingError ops x.y x.y)) 0
            (some (DualCartesianDMP.trackingError ops x.y x.y)) (correction_self s1 hops hsf c h3)
            (fun _ => DualStepArgs.correction_pGain _ _ _ (.inl rfl))
        rw [h2, e1, ← e2]
        cases hx : sf.run (s1.stepArgs c (DualCartesianDMP.trackingError ops x.y x.y)) s1.t (s1.t + s1.dt)
          (x.y, x.yd) with
        | ok r =>
          left
          refine ⟨r, r, rfl, rfl, rfl, rfl, h1, rfl, ?_⟩
          exact DualStepFunction.run_unit hsf _ (by rw [← h1] at hst; exact hst) (s := (x.y, x.yd)) h3 hx
        | error e => right; exact ⟨e, rfl, rfl, trivial⟩)
      (fun _ _ _ _ _ => trivial)
      (by
        refine ⟨rfl, rfl, rfl, ?_, hst⟩
        rcases hfresh with h | h
        · simp [DualCartesianDMP.reference, h]
        · simp [DualCartesianDMP.reference, h]) with
      ⟨y, t, y', t', h1, h2, rfl, -⟩ | ⟨e, t, t', h1, h2, -⟩
    · rw [h1, h2]
    · rw [h1, h2]

/-- Open loop with a single step. -/
theorem DualCartesianDMP.openLoop_single (s : DualCartesianDMP m) (ops : QuatOps) {name : String}
    {sf : DualStepFunction} (hl : DualStepFunction.lookup ops name = .ok sf) {runT : ℝ} (h0 : 0 < runT)
    (h1 : runT ≤ s.dt) (hdt : s.dt ≤ s.intDt) :
    (DualCartesianDMP.openLoop ops (some runT) none name).exec s =
      (.ok ([0, s.dt], [s.startY,
        ((s.stepArgs none (trackingError ops s.reference s.startY)).update sf.ops 0
          ((s.stepArgs none (trackingError ops s.reference s.startY)).correction sf.ops s.dt) s.dt s.dt
          (s.startY, s.startYd)).1]),
        { s.stepped ((s.stepArgs none (trackingError ops s.reference s.startY)).update sf.ops 0
          ((s.stepArgs none (trackingError ops s.reference s.startY)).correction sf.ops s.dt) s.dt s.dt
          (s.startY, s.startYd)).1 ((s.stepArgs none (trackingError ops s.reference s.startY)).update sf.ops 0
          ((s.stepArgs none (trackingError ops s.reference s.startY)).correction sf.ops s.dt) s.dt s.dt
          (s.startY, s.startYd)).2 with t := 0, lastT := some 0 }) := by
  rw [exec_openLoop, hl]
  simp only [Option.getD_some]
  have hrun := sf.run_single (s.stepArgs none (trackingError ops s.reference s.startY)) rfl (lastT := 0) (t := s.dt)
    (by linarith) (by rw [sub_zero]; exact hdt) (show (0 : ℝ) < s.dt by linarith) (s.startY, s.startYd)
  rw [sub_zero] at hrun
  set u := (s.stepArgs none (trackingError ops s.reference s.startY)).update sf.ops 0
          ((s.stepArgs none (trackingError ops s.reference s.startY)).correction sf.ops s.dt) s.dt s.dt
          (s.startY, s.startYd) with hu
  have hbody : (loopBody ops none sf ⟨s.startY, s.startYd, [0], [s.startY]⟩).exec { s with t := 0 } =
      (.ok ⟨u.1, u.2, [0, s.dt], [s.startY, u.1]⟩, { s with
        t := s.dt, lastT := some 0, currentY := u.1, currentYd := u.2, initialized := true }) := by
    rw [exec_loopBody]
    have e : sf.run (stepArgs { s with t := 0 } none (trackingError ops (reference { s with t := 0 }) s.startY)) 0
        (0 + s.dt) (s.startY, s.startYd) = .ok u := by
      rw [zero_add]; exact hrun
    simp only
    rw [e]
    simp [stepped]
  have hw : loop ops none sf runT s = (.ok ⟨u.1, u.2, [0, s.dt], [s.startY, u.1]⟩, { s with
        t := s.dt, lastT := some 0, currentY := u.1, currentYd := u.2, initialized := true }) :=
    Py.exec_while_step h0 hbody (Py.exec_while_done (by simpa using h1))
  rw [hw]
  rfl

/-- **C36.** With `p_gain` the second call differs from the first one: for every freshly configured object and a run
time that takes one step, the second `open_loop` call adds `dt * p_gain * (y - start) / tau^2` to the position
`y` reached by the first call, since the internal state was left at the end of the first trajectory. -/
theorem C36_second_run_differs {s : DualCartesianDMP m} (hfresh : s.initialized = false) {ops : QuatOps} {eps : ℝ}
    (heps : 0 < eps) (hops : LawfulQuatOps ops eps) (hst : ∀ arm, UnitQuat (armOrientation arm s.startY))
    {name : String} (hname : name = "python" ∨ name = "cython") {runT : ℝ} (h0 : 0 < runT) (h1 : runT ≤ s.dt)
    (hdt : s.dt ≤ s.intDt) :
    ∃ y y', ((DualCartesianDMP.openLoop ops (some runT) none name).exec s).1 = .ok ([0, s.dt], [s.startY, y]) ∧
      ((DualCartesianDMP.openLoop ops (some runT) none name).exec
        ((DualCartesianDMP.openLoop ops (some runT) none name).exec s).2).1 = .ok ([0, s.dt], [s.startY, y']) ∧
      ∀ arm k, armPosition arm y' k = armPosition arm y k +
        s.dt * (s.pGain * (armPosition arm y k - armPosition arm s.startY k) / s.executionTime ^ 2) := by
  obtain ⟨sf, hl⟩ : ∃ sf, DualStepFunction.lookup ops name = .ok sf := by
    rcases hname with rfl | rfl
    · exact ⟨.python ops, rfl⟩
    · exact ⟨.cython, rfl⟩
  have hsf : LawfulDualStep sf := by
    unfold DualStepFunction.lookup at hl
    split_ifs at hl
    · cases hl; exact ⟨eps, heps, hops⟩
    · cases hl; trivial
  simp only [armOrientation_eq] at hst
  have href : s.reference = s.startY := by simp [DualCartesianDMP.reference, hfresh]
  have hcor := correction_self s hops hsf none hst s.dt
  rw [s.openLoop_single ops hl h0 h1 hdt, href, hcor]
  set u := (s.stepArgs none (DualCartesianDMP.trackingError ops s.startY s.startY)).update sf.ops 0 0 s.dt s.dt
    (s.startY, s.startYd) with hu
  set s' : DualCartesianDMP m := { s.stepped u.1 u.2 with t := 0, lastT := some 0 } with hs'
  refine ⟨u.1, ((s'.stepArgs none (DualCartesianDMP.trackingError ops s'.reference s'.startY)).update sf.ops 0
    ((s'.stepArgs none (DualCartesianDMP.trackingError ops s'.reference s'.startY)).correction sf.ops s'.dt) s'.dt s'.dt
    (s'.startY, s'.startYd)).1, rfl, ?_, ?_⟩
  · show ((DualCartesianDMP.openLoop ops (some runT) none name).exec s').1 = _
    rw [s'.openLoop_single ops hl h0 h1 hdt]
    rfl
  intro arm k
  simp only [armPosition_eq]
  have href' : s'.reference = u.1 := rfl
  rw [href']
  have hupd : ∀ e cdd, (s'.stepArgs none e).update sf.ops 0 cdd s'.dt s'.dt (s'.startY, s'.startYd) =
      (s.stepArgs none (DualCartesianDMP.trackingError ops s.startY s.startY)).update sf.ops 0 cdd s.dt s.dt
        (s.startY, s.startYd) := fun _ _ => rfl
  rw [hupd]
  have hcork : armLin arm ((s'.stepArgs none (DualCartesianDMP.trackingError ops u.1 s'.startY)).correction sf.ops
      s'.dt) k = s.pGain * (armPos arm u.1 k - armPos arm s.startY k) / s.dt := by
    unfold DualStepArgs.correction
    simp only [DualCartesianDMP.stepArgs, armLin_joinVel, DualCartesianDMP.trackingError, armPos_joinState]
    rfl
  have hpos : ∀ cdd : Vec 12, armPos arm ((s.stepArgs none
      (DualCartesianDMP.trackingError ops s.startY s.startY)).update sf.ops 0 cdd s.dt s.dt (s.startY, s.startYd)).1 k =
      armPos arm u.1 k + s.dt * (s.dt * (armLin arm cdd k / s.executionTime ^ 2)) := by
    intro cdd
    rw [hu]
    simp only [DualStepArgs.update, armPos_joinState, show armLin arm (0 : Vec 12) k = 0 from rfl,
      show (s.stepArgs none (DualCartesianDMP.trackingError ops s.startY s.startY)).goalT = s.executionTime from rfl,
      show (s.stepArgs none (DualCartesianDMP.trackingError ops s.startY s.startY)).startT = 0 from rfl, sub_zero]
    ring
  rw [hpos, hcork]
  have : s.dt ≠ 0 := by linarith
  field_simp

/-- Constructor calls with valid arguments succeed. -/
theorem DualCartesianDMP.create_ok (m : ℕ) (hm : 2 ≤ m) {τ : ℝ} (hτ : 0 < τ) (dt intDt pGain : ℝ) (smooth : Bool)
    (α β : ℝ) :
    ∃ s, DualCartesianDMP.create m τ dt intDt pGain smooth (.scalar α) (.scalar β) = .ok s ∧
      s.toMovement = Movement.init 14 12 ∧ s.executionTime = τ ∧ s.dt = dt ∧ s.intDt = intDt ∧ s.pGain = pGain ∧
      s.smooth = smooth ∧ s.alphaY = (fun _ => α) ∧ s.betaY = (fun _ => β) ∧ (s.ft.weights = fun _ _ => 0) ∧
      s.initialized = false := by
  obtain ⟨ft, hft⟩ := (DMP.initForcingTerm_isOk_iff (d := 12) (m := m) τ).2 ⟨hm, hτ⟩
  have hw : ft.weights = fun _ _ => 0 := by
    rw [DMP.initForcingTerm_ok_iff] at hft
    unfold ForcingTerm.create at hft
    rw [if_neg (by omega), if_neg (by linarith), if_neg (by norm_num)] at hft
    simp only [Except.ok.injEq] at hft
    rw [← hft]
  unfold DualCartesianDMP.create
  rw [show DualCartesianDMP.initForcingTerm m τ = DMP.initForcingTerm 12 m τ from rfl, hft]
  simp only [bind, Except.bind, C59_ensure_1d_array]
  exact ⟨_, rfl, rfl, rfl, rfl, rfl, rfl, rfl, rfl, rfl, hw, rfl⟩

/-- **C24 (dual arm).** Changing the execution time of a dual-arm DMP keeps its weights, and the phase runs from 1 to 0.01
within the new execution time. For a duration that is not positive ValueError is raised, after the new duration was
stored. -/
theorem C24_dual (hm : 2 ≤ m) (s : DualCartesianDMP m) {τ : ℝ} :
    (0 < τ → ∃ ft : ForcingTerm 12 m, (DualCartesianDMP.setExecutionTime τ).exec s =
        (.ok (), { s with executionTime := τ, ft := ft }) ∧ ft.weights = s.ft.weights ∧ ft.phaseAt 0 = 1 ∧
        ft.phaseAt τ = 1 / 100) ∧
      (τ ≤ 0 → (DualCartesianDMP.setExecutionTime τ).exec s = (.error .valueError, { s with executionTime := τ })) := by
  have he : (DualCartesianDMP.setExecutionTime τ).exec s = match DMP.initForcingTerm 12 m τ with
      | .ok ft => (.ok (), { s with executionTime := τ, ft := { ft with weights := s.ft.weights } })
      | .error e => (.error e, { s with executionTime := τ }) := by
    unfold DualCartesianDMP.setExecutionTime
    simp only [Py.exec_bind, Py.exec_modify, Py.exec_get, Py.exec_lift]
    rw [show DualCartesianDMP.initForcingTerm m τ = DMP.initForcingTerm 12 m τ from rfl]
    cases DMP.initForcingTerm 12 m τ <;> rfl
  rw [he]
  constructor
  · intro hτ
    obtain ⟨ft, hft⟩ := (DMP.initForcingTerm_isOk_iff (d := 12) (m := m) τ).2 ⟨hm, hτ⟩
    rw [hft]
    refine ⟨_, rfl, rfl, ?_⟩
    rw [DMP.initForcingTerm_ok_iff] at hft
    obtain ⟨e1, e2, e3, e4, _⟩ := create_eq hft
    constructor
    · simp [ForcingTerm.phaseAt, phase, e2]
    · simp only [ForcingTerm.phaseAt, phase, e1, e2, e4, sub_zero, neg_neg]
      rw [mul_div_assoc, div_self hτ.ne', mul_one, Real.exp_log (by norm_num)]
  · intro hτ
    have : DMP.initForcingTerm 12 m τ = .error .valueError := by
      unfold DMP.initForcingTerm canonicalSystemAlpha
      rw [if_neg (by norm_num), if_pos hτ]
      rfl
    rw [this]

/-- The disagreement of C36 is real: an object made by the constructor and configured with a start and a goal pose for
which two consecutive `open_loop` calls return different trajectories. -/
example : ∃ (s : DualCartesianDMP 2), s.initialized = false ∧
    ((DualCartesianDMP.openLoop QuatOps.cython (some 1) none "cython").exec s).1 ≠
      ((DualCartesianDMP.openLoop QuatOps.cython (some 1) none "cython").exec
        ((DualCartesianDMP.openLoop QuatOps.cython (some 1) none "cython").exec s).2).1 := by
  obtain ⟨s0, -, -, hτ, hdt, hint, hp, hsm, hα, hβ, hw, hi⟩ :=
    DualCartesianDMP.create_ok 2 le_rfl one_pos 1 1 1 false 1 1
  let s : DualCartesianDMP 2 := { s0 with
    startY := joinState 0 (fun _ => ![1, 0, 0, 0]), startYd := 0
    goalY := joinState (fun _ => ![1, 1, 1]) (fun _ => ![1, 0, 0, 0]) }
  have hst : ∀ arm, UnitQuat (armOrientation arm s.startY) := by
    intro arm
    simp only [armOrientation_eq, s, armRot_joinState]
    simp [UnitQuat]
  have hdt' : s.dt = 1 := hdt
  have hint' : s.intDt = 1 := hint
  refine ⟨s, hi, ?_⟩
  have hfresh : s.initialized = false := hi
  obtain ⟨y, y', h1, h2, h3⟩ := C36_second_run_differs hfresh (by norm_num) lawful_cython hst (.inr rfl)
    one_pos (by rw [hdt']) (by rw [hdt', hint'])
  rw [h2, h1]
  intro h
  simp only [Except.ok.injEq, Prod.mk.injEq, List.cons.injEq, true_and, and_true] at h
  have hk := h3 0 0
  rw [← h, hdt', show s.pGain = 1 from hp, show s.executionTime = 1 from hτ] at hk
  have hy0 : armPosition 0 y 0 = armPosition 0 s.startY 0 := by linarith
  -- but the first step moves by `alpha * beta * (goal - start)`
  rw [s.openLoop_single QuatOps.cython rfl one_pos (by rw [hdt']) (by rw [hdt', hint'])] at h1
  simp only [Except.ok.injEq, Prod.mk.injEq, List.cons.injEq, true_and, and_true] at h1
  have href : s.reference = s.startY := by simp [DualCartesianDMP.reference, hfresh]
  have hst' : ∀ arm, UnitQuat (armRot arm s.startY) := by simpa only [armOrientation_eq] using hst
  rw [href, correction_self s lawful_cython (sf := .cython) trivial none hst'] at h1
  rw [← h1] at hy0
  simp only [armPosition_eq, DualStepArgs.update, armPos_joinState] at hy0
  have hf : ∀ z, s.ft.force z = 0 := by
    intro z; funext k; simp [ForcingTerm.force, s, hw]
  simp only [DualCartesianDMP.stepArgs, hf, DualStepArgs.smoothingPos] at hy0
  have hsm' : s.smooth = false := hsm
  have hα' : s.alphaY = fun _ => 1 := hα
  have hβ' : s.betaY = fun _ => 1 := hβ
  have hτ' : s.executionTime = 1 := hτ
  simp only [hsm', hα', hβ', hτ', hdt'] at hy0
  have e0 : armPos 0 s.startY 0 = 0 := by simp [s, armPos_joinState]
  have e1 : armPos 0 s.goalY 0 = 1 := by simp [s, armPos_joinState]
  rw [e0, e1] at hy0
  have e2 : ∀ v : Vec 12, v = 0 → armLin 0 v 0 = 0 := by rintro v rfl; rfl
  rw [e2 s.startYd rfl] at hy0
  norm_num [armLin] at hy0

end Verif
