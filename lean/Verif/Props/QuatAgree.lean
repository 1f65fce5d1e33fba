import Verif.Props.Dual
import Verif.Lemmas.SimQuat
import Verif.Props.Cartesian

/-! # C82: both orientation step functions are interchangeable -/

namespace Verif
open Spec
variable {m : ℕ}

namespace QuatStepArgs

theorem update_congr (a : QuatStepArgs m) {ops ops' : QuatOps} {eps : ℝ} (h : AgreeOnUnit ops ops')
    (hl : LawfulQuatOps ops' eps) (hg : UnitQuat a.goalY) (hst : UnitQuat a.startY) (cd cdd : Vec 3) (dt t : ℝ)
    {s : Vec 4 × Vec 3} (hs : UnitQuat s.1) : a.update ops cd cdd dt t s = a.update ops' cd cdd dt t s := by
  have hd : ∀ p q, UnitQuat p → UnitQuat q → diff ops p q = diff ops' p q := by
    intro p q hp hq
    unfold diff
    have hc := LawfulQuatOps.unit_conj hl hq
    rw [h.conj q hq, h.mul _ _ hp hc, h.log _ (LawfulQuatOps.unit_mul hl hp hc)]
  have hm : ∀ v q, UnitQuat q → ops.mul (ops.exp v) q = ops'.mul (ops'.exp v) q := by
    intro v q hq
    rw [h.exp, h.mul _ _ (LawfulQuatOps.unit_exp hl v) hq]
  unfold update
  simp only [hd _ _ hg hst, hd _ _ hg hs, hm _ _ hs]

end QuatStepArgs

/-- **C82 (step functions).** The Python and the Cython step function for orientations give the same result (or do both not
return) if the step ends after `start_t`, which is before `goal_t`, and if not both a coupling term and a precomputed
coupling are given. Quaternion functions that agree on unit quaternions are assumed, and that all given orientations are
unit quaternions. -/
theorem C82_python_eq_cython (a : QuatStepArgs m) {ops : QuatOps} (hops : AgreeOnUnit ops QuatOps.cython)
    (hg : UnitQuat a.goalY) (hst : UnitQuat a.startY) (hT : a.startT < a.goalT) {lastT t : ℝ} (ht : a.startT < t)
    (hcase : a.coupling = none ∨ a.precomputed = none) {y : Vec 4} (hy : UnitQuat y) (yd : Vec 3) :
    (QuatStepFunction.python ops).run a lastT t (y, yd) = QuatStepFunction.cython.run a lastT t (y, yd) := by
  simp only [QuatStepFunction.run, QuatStepArgs.stepPy, QuatStepArgs.stepCy, not_le.2 hT, not_le.2 ht, if_false]
  have hbody : ∀ (dt ct : ℝ) (x : Vec 4 × Vec 3), UnitQuat x.1 → a.bodyPy ops dt ct x = a.bodyCy dt ct x := by
    intro dt ct x hx
    unfold QuatStepArgs.bodyPy QuatStepArgs.bodyCy
    rw [a.update_congr hops lawful_cython hg hst _ _ dt ct hx]
    rcases hcase with h | h
    · rw [h]
      cases a.precomputed with
      | none => rfl
      | some p => simp only [zero_add]
    · rw [h]
  rcases intLoop_rel (upd := a.bodyPy ops) (upd' := a.bodyCy) (intDt := a.intDt) (t := t)
    (fun x x' => x = x' ∧ UnitQuat x'.1)
    (by
      rintro dt ct x x' ⟨rfl, h2⟩
      exact ⟨hbody dt ct x h2, a.update_unit lawful_cython _ _ dt ct h2⟩) lastT (s := (y, yd)) (s' := (y, yd)) ⟨rfl, hy⟩ with
    ⟨h1, h2⟩ | ⟨x, x', h1, h2, h3, -⟩
  · rw [h1, h2]
  · rw [h1, h2, h3]

/-- **C82 (finding).** A precomputed coupling is added to the coupling term by the Python function and ignored by the Cython
function if there is a coupling term. One sub-step of the Python function with a precomputed coupling is one sub-step of
the Cython function with the sum of both as coupling term. -/
theorem C82_precomputed (a : QuatStepArgs m) {c : RotCoupling} {p : Vec 3 × Vec 3} (hc : a.coupling = some c)
    (hp : a.precomputed = some p) (hT : a.startT < a.goalT) {lastT t : ℝ} (ht : a.startT < t) (s : Vec 4 × Vec 3) :
    QuatStepFunction.cython.run a lastT t s = QuatStepFunction.cython.run { a with precomputed := none } lastT t s ∧
    (QuatStepFunction.python QuatOps.cython).run a lastT t s =
      QuatStepFunction.cython.run
        { a with coupling := some fun y yd => ((c y yd).1 + p.1, (c y yd).2 + p.2), precomputed := none } lastT t s := by
  constructor
  · simp only [QuatStepFunction.run, QuatStepArgs.stepCy]
    have e : a.bodyCy = ({ a with precomputed := none } : QuatStepArgs m).bodyCy := by
      funext dt t s
      simp only [QuatStepArgs.bodyCy, hc]
      rfl
    rw [e]
  · simp only [QuatStepFunction.run, QuatStepArgs.stepPy, QuatStepArgs.stepCy, not_le.2 hT, not_le.2 ht, if_false]
    have e : a.bodyPy QuatOps.cython = ({ a with
        coupling := some fun y yd => ((c y yd).1 + p.1, (c y yd).2 + p.2), precomputed := none } : QuatStepArgs m).bodyCy := by
      funext dt t s
      simp only [QuatStepArgs.bodyCy, QuatStepArgs.bodyPy, hc, hp]
      rfl
    rw [e]

/-- **C82 (finding).** The disagreement in numbers: after one sub-step the angular velocity of the Python function is larger
than the one of the Cython function by the effect of the precomputed coupling. -/
theorem C82_precomputed_difference (a : QuatStepArgs m) {c : RotCoupling} {p : Vec 3 × Vec 3} (hc : a.coupling = some c)
    (hp : a.precomputed = some p) (hT : a.startT < a.goalT) {lastT t : ℝ} (ht : a.startT < t) (hlt : lastT < t)
    (hint : t - lastT < a.intDt) (s : Vec 4 × Vec 3) :
    ∃ y yd y' yd', (QuatStepFunction.python QuatOps.cython).run a lastT t s = .ok (y, yd) ∧
      QuatStepFunction.cython.run a lastT t s = .ok (y', yd') ∧
      ∀ k, yd k = yd' k + p.1 k / (a.goalT - a.startT) + (t - lastT) * (p.2 k / (a.goalT - a.startT) ^ 2) := by
  simp only [QuatStepFunction.run, QuatStepArgs.stepPy, QuatStepArgs.stepCy, not_le.2 hT, not_le.2 ht, if_false]
  rw [intLoop_step _ hlt, intLoop_step _ hlt]
  simp only [if_pos hint, add_sub_cancel]
  rw [intLoop_done _ le_rfl, intLoop_done _ le_rfl]
  refine ⟨_, _, _, _, rfl, rfl, fun k => ?_⟩
  simp only [hc, hp, Pi.add_apply]
  ring

/-- Hypotheses of the C82 theorems about step functions can be met, with and without precomputed coupling. -/
example : ∃ a : QuatStepArgs 2, a.coupling = none ∧ a.precomputed ≠ none ∧ UnitQuat a.goalY ∧ UnitQuat a.startY ∧
    a.goalY ≠ a.startY ∧ a.startT < a.goalT ∧ (1 / 2000 : ℝ) < a.intDt ∧ a.startT < (1 / 2000 : ℝ) := by
  refine ⟨{ goalY := ![0, 1, 0, 0], startY := ![1, 0, 0, 0], startYd := 0, goalT := 1, startT := 0, alphaY := 1, betaY := 1
            precomputed := some (0, fun _ => 1)
            ft := ⟨1, 0, 1, 1, 0, 1, fun _ _ => 0, 0, 0⟩ }, rfl, by simp, ?_, ?_, ?_, ?_, ?_, ?_⟩
  · simp [UnitQuat]
  · simp [UnitQuat]
  · intro h; have := congrFun h 0; simp at this
  all_goals norm_num

/-- **C82 (finding).** For a step that ends at or before `start_t` the Python function leaves the state unchanged; the
Cython function integrates from the start state. -/
theorem C82_before_start (a : QuatStepArgs m) (ops : QuatOps) (hT : a.startT < a.goalT) {lastT t : ℝ} (ht : t ≤ a.startT)
    (s : Vec 4 × Vec 3) :
    (QuatStepFunction.python ops).run a lastT t s = .ok s ∧
    QuatStepFunction.cython.run a lastT t s = QuatStepFunction.cython.run a lastT t (a.startY, a.startYd) ∧
    (t ≤ lastT → QuatStepFunction.cython.run a lastT t s = .ok (a.startY, a.startYd)) := by
  refine ⟨?_, ?_, fun h => ?_⟩
  · simp only [QuatStepFunction.run, QuatStepArgs.stepPy, not_le.2 hT, if_false, if_pos ht]
  · simp only [QuatStepFunction.run, QuatStepArgs.stepCy, if_pos ht]
  · simp only [QuatStepFunction.run, QuatStepArgs.stepCy, if_pos ht]
    rw [intLoop_done _ h]

/-- **C82 (CartesianDMP.step).** -/
theorem C82_step {ops : QuatOps} (hops : AgreeOnUnit ops QuatOps.cython) {s : CartesianDMP m} (hτ : 0 < s.executionTime)
    (hg : UnitQuat (orientation s.goalY)) (hst : UnitQuat (orientation s.startY)) (ht : 0 < s.t + s.dt)
    {y : Vec (3 + 4)} (hy : UnitQuat (orientation y)) (yd : Vec (3 + 3)) (c : Option PoseCoupling) (sf : StepFunction) :
    (CartesianDMP.step c sf (.python ops) y yd).exec s = (CartesianDMP.step c sf .cython y yd).exec s := by
  rw [orientation_eq] at *
  rw [CartesianDMP.exec_step, CartesianDMP.exec_step,
    C82_python_eq_cython (s.rotArgs c) hops hg hst hτ ht (.inr rfl) hy]

/-- **C82 (CartesianDMP.open_loop).** -/
theorem C82_open_loop {ops : QuatOps} (hops : AgreeOnUnit ops QuatOps.cython) {s : CartesianDMP m}
    (hτ : 0 < s.executionTime) (hdt : 0 < s.dt) (hg : UnitQuat (orientation s.goalY))
    (hst : UnitQuat (orientation s.startY)) (runT : Option ℝ) (c : Option PoseCoupling) (name : String) :
    (CartesianDMP.openLoop ops runT c name "python").exec s = (CartesianDMP.openLoop ops runT c name "cython").exec s := by
  rw [orientation_eq] at *
  rw [CartesianDMP.exec_openLoop, CartesianDMP.exec_openLoop]
  have e1 : QuatStepFunction.lookup ops "python" = .ok (.python ops) := rfl
  have e2 : QuatStepFunction.lookup ops "cython" = .ok .cython := rfl
  rw [e1, e2]
  simp only [Except.bind]
  have e : openLoopWith s.executionTime 0 s.dt (sliceFrom s.startY, (0 : Vec 3)) runT
      ((QuatStepFunction.python ops).run (s.rotOpenLoopArgs c)) =
    openLoopWith s.executionTime 0 s.dt (sliceFrom s.startY, (0 : Vec 3)) runT
      (QuatStepFunction.cython.run (s.rotOpenLoopArgs c)) := by
    have hpos : ∀ i, 0 < arangeAt 0 s.dt (i + 1) := by
      intro i
      unfold arangeAt
      have : (0 : ℝ) < ((i + 1 : ℕ) : ℝ) * s.dt := by positivity
      linarith
    have hl := loopRows_map_inv (σ := Vec 4 × Vec 3) (τ := Vec 4 × Vec 3)
      (fun i x => QuatStepFunction.cython.run (s.rotOpenLoopArgs c) (arangeAt 0 s.dt i) (arangeAt 0 s.dt (i + 1)) x)
      (fun i x => (QuatStepFunction.python ops).run (s.rotOpenLoopArgs c) (arangeAt 0 s.dt i) (arangeAt 0 s.dt (i + 1)) x)
      Prod.fst Prod.fst id id (fun x => UnitQuat x.1)
      (fun i x x' hx h => QuatStepFunction.run_unit (qf := .cython) trivial _ hst hx h)
      (fun i x hx => by
        have := C82_python_eq_cython (s.rotOpenLoopArgs c) hops hg hst hτ (lastT := arangeAt 0 s.dt i)
          (hpos i) (.inr rfl) hx x.2
        refine this.trans ?_
        cases QuatStepFunction.cython.run (s.rotOpenLoopArgs c) (arangeAt 0 s.dt i) (arangeAt 0 s.dt (i + 1)) (x.1, x.2) <;> rfl)
      (fun _ _ => rfl)
      (arangeLen 0 (runT.getD s.executionTime + s.dt) s.dt - 1) (sliceFrom s.startY, (0 : Vec 3)) 0 hst
    unfold openLoopWith
    simp only [id] at hl
    simp only [hl]
    cases loopRows (fun i x => QuatStepFunction.cython.run (s.rotOpenLoopArgs c) (arangeAt 0 s.dt i)
      (arangeAt 0 s.dt (i + 1)) x) Prod.fst (arangeLen 0 (runT.getD s.executionTime + s.dt) s.dt - 1)
      (sliceFrom s.startY, (0 : Vec 3)) 0 <;> simp [Except.map]
  rw [e]

/-- Hypotheses of the C82 theorems about Cartesian DMPs can be met: a new Cartesian DMP that is configured to turn. -/
example : ∃ s0 s : CartesianDMP 10, CartesianDMP.create 10 1 (1 / 100) (1 / 1000) false (.scalar 25) (.scalar (25 / 4)) =
      .ok s0 ∧
    (CartesianDMP.configure { startY := some [0, 0, 0, 1, 0, 0, 0], goalY := some [1, 0, 0, 0, 1, 0, 0] }).exec s0 =
      (.ok (), s) ∧
    0 < s.executionTime ∧ 0 < s.dt ∧ 0 < s.t + s.dt ∧ UnitQuat (orientation s.startY) ∧ UnitQuat (orientation s.goalY) := by
  obtain ⟨s0, h0, h1, h2, h3, -⟩ := CartesianDMP.create_ok 10 (by norm_num) one_pos (1 / 100) (1 / 1000) false 25 (25 / 4)
  have ht : s0.t = 0 := by rw [h1]; rfl
  refine ⟨s0, _, h0, rfl, ?_, ?_, ?_, ?_, ?_⟩
  · show 0 < s0.executionTime
    rw [h2]; norm_num
  · show 0 < s0.dt
    rw [h3]; norm_num
  · show 0 < s0.t + s0.dt
    rw [h3, ht]; norm_num
  · show UnitQuat (orientation (fun i : Fin 7 => [(0 : ℝ), 0, 0, 1, 0, 0, 0][i.val]))
    unfold orientation UnitQuat
    simp
  · show UnitQuat (orientation (fun i : Fin 7 => [(1 : ℝ), 0, 0, 0, 1, 0, 0][i.val]))
    unfold orientation UnitQuat
    simp

end Verif
