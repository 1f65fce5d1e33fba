import Verif.Lemmas.Cartesian
import Verif.Props.DmpClass

/-!
# C31, C33, C34: orientations, Cartesian DMPs

Hypothesis `LawfulStep qf`: nothing for the Cython step function; for the Python step function, that the quaternion
functions of pytransform3d obey the laws of quaternions (`Spec.LawfulQuatOps`).
-/

namespace Verif
open Spec
variable {m : ℕ}

/-- The documented behaviour of pytransform3d is lawful. -/
example : LawfulStep (.python (QuatOps.python (1 / 10 ^ 7))) := ⟨_, by norm_num, lawful_python (by norm_num)⟩

/-- Constructor calls with valid arguments succeed. -/
theorem CartesianDMP.create_ok (m : ℕ) (hm : 2 ≤ m) {τ : ℝ} (hτ : 0 < τ) (dt intDt : ℝ) (smooth : Bool) (α β : ℝ) :
    ∃ s, CartesianDMP.create m τ dt intDt smooth (.scalar α) (.scalar β) = .ok s ∧
      s.toMovement = Movement.init (3 + 4) (3 + 3) ∧ s.executionTime = τ ∧ s.dt = dt ∧ s.intDt = intDt ∧
      s.smooth = smooth ∧ s.alphaY = (fun _ => α) ∧ s.betaY = (fun _ => β) ∧ (s.ftPos.weights = fun _ _ => 0) ∧
      (s.ftRot.weights = fun _ _ => 0) ∧ s.ftPos = s.ftRot ∧ DMP.initForcingTerm 3 m τ = .ok s.ftPos := by
  obtain ⟨ft, hft⟩ := (DMP.initForcingTerm_isOk_iff (d := 3) (m := m) τ).2 ⟨hm, hτ⟩
  have hft' := hft
  rw [DMP.initForcingTerm_ok_iff] at hft
  have hw : ft.weights = fun _ _ => 0 := by
    unfold ForcingTerm.create at hft
    rw [if_neg (by omega), if_neg (by linarith), if_neg (by norm_num)] at hft
    simp only [Except.ok.injEq] at hft
    rw [← hft]
  have hi : CartesianDMP.initForcingTerms m τ = .ok (ft, ft) := by
    unfold CartesianDMP.initForcingTerms canonicalSystemAlpha
    rw [if_neg (by norm_num), if_neg (by linarith)]
    simp only [bind, Except.bind]
    rw [hft]
    rfl
  unfold CartesianDMP.create
  rw [hi]
  simp only [bind, Except.bind, C59_ensure_1d_array]
  exact ⟨_, rfl, rfl, rfl, rfl, rfl, rfl, rfl, rfl, hw, hw, rfl, hft'⟩

/-! ## C31 -/

/-- **C31.** A quaternion step function turns a unit quaternion into a unit quaternion: for all times, goals, gains,
weights, coupling terms and velocities. -/
theorem C31_step_function {qf : QuatStepFunction} (h : LawfulStep qf) (a : QuatStepArgs m) (hst : UnitQuat a.startY)
    {lastT t : ℝ} {y y' : Vec 4} {yd yd' : Vec 3} (hy : UnitQuat y)
    (hr : qf.run a lastT t (y, yd) = .ok (y', yd')) : UnitQuat y' :=
  QuatStepFunction.run_unit h a hst (s := (y, yd)) (s' := (y', yd')) hy hr

/-- **C31.** `CartesianDMP.step` returns a unit quaternion if the passed orientation is one. -/
theorem C31_cartesian_step {sf : StepFunction} {qf : QuatStepFunction} (h : LawfulStep qf) {c : Option PoseCoupling}
    {s s' : CartesianDMP m} (hst : UnitQuat (orientation s.startY)) {y : Vec (3 + 4)} {yd : Vec (3 + 3)}
    (hy : UnitQuat (orientation y)) {r : Vec (3 + 4) × Vec (3 + 3)}
    (hr : (CartesianDMP.step c sf qf y yd).exec s = (.ok r, s')) : UnitQuat (orientation r.1) := by
  rw [orientation_eq] at *
  rw [CartesianDMP.exec_step] at hr
  cases h1 : sf.run (s.posArgs c) s.t (s.t + s.dt) (sliceTo y, sliceTo yd) with
  | error e => rw [h1] at hr; cases hr
  | ok rp =>
    rw [h1] at hr
    cases h2 : qf.run (s.rotArgs c) s.t (s.t + s.dt) (sliceFrom y, sliceFrom yd) with
    | error e => rw [h2] at hr; cases hr
    | ok rr =>
      rw [h2] at hr
      simp only [Prod.mk.injEq, Except.ok.injEq] at hr
      rw [← hr.1]
      simp only [sliceFrom_hstack]
      exact QuatStepFunction.run_unit h (s.rotArgs c) hst (s := (sliceFrom y, sliceFrom yd)) hy h2

theorem CartesianDMP.step_startY {sf : StepFunction} {qf : QuatStepFunction} {c : Option PoseCoupling}
    (s : CartesianDMP m) (y : Vec (3 + 4)) (yd : Vec (3 + 3)) :
    ((CartesianDMP.step c sf qf y yd).exec s).2.startY = s.startY := by
  rw [CartesianDMP.exec_step]
  cases sf.run (s.posArgs c) s.t (s.t + s.dt) (sliceTo y, sliceTo yd) with
  | error e => rfl
  | ok rp => cases qf.run (s.rotArgs c) s.t (s.t + s.dt) (sliceFrom y, sliceFrom yd) <;> rfl

/-- **C31.** Every orientation returned by any number of `CartesianDMP.step` calls, each one with the previous result,
is a unit quaternion. -/
theorem C31_cartesian_steps {sf : StepFunction} {qf : QuatStepFunction} (h : LawfulStep qf) {c : Option PoseCoupling}
    (n : ℕ) {s s' : CartesianDMP m} (hst : UnitQuat (orientation s.startY)) {y : Vec (3 + 4)} {yd : Vec (3 + 3)}
    (hy : UnitQuat (orientation y)) {rows : List (Vec (3 + 4) × Vec (3 + 3))}
    (hr : (fedBack (CartesianDMP.step c sf qf) n y yd).exec s = (.ok rows, s')) :
    ∀ r ∈ rows, UnitQuat (orientation r.1) := by
  induction n generalizing s s' y yd rows with
  | zero =>
    have : rows = [] := by
      simp only [fedBack, Py.exec_pure, Prod.mk.injEq, Except.ok.injEq] at hr
      exact hr.1.symm
    simp [this]
  | succ n ih =>
    simp only [fedBack, Py.exec_bind, Py.exec_pure] at hr
    rcases h1 : (CartesianDMP.step c sf qf y yd).exec s with ⟨r, s1⟩
    rw [h1] at hr
    cases r with
    | error e => cases hr
    | ok r =>
      simp only at hr
      have hu := C31_cartesian_step h hst hy h1
      have hs1 : s1.startY = s.startY := by
        have := CartesianDMP.step_startY (sf := sf) (qf := qf) (c := c) s y yd
        rwa [h1] at this
      rcases h2 : (fedBack (CartesianDMP.step c sf qf) n r.1 r.2).exec s1 with ⟨rest, s2⟩
      rw [h2] at hr
      cases rest with
      | error e => cases hr
      | ok rest =>
        simp only [Prod.mk.injEq, Except.ok.injEq] at hr
        rw [← hr.1]
        intro x hx
        rcases List.mem_cons.1 hx with rfl | hx
        · exact hu
        · exact ih (by rw [hs1]; exact hst) hu h2 x hx

/-- **C31.** Every row returned by `CartesianDMP.open_loop` has a unit quaternion. -/
theorem C31_cartesian_open_loop {ops : QuatOps} {eps : ℝ} (heps : 0 < eps) (hops : LawfulQuatOps ops eps)
    {s : CartesianDMP m} (hst : UnitQuat (orientation s.startY)) {runT : Option ℝ} {c : Option PoseCoupling}
    {name qname : String} {T : List ℝ} {Y : List (Vec (3 + 4))}
    (hr : ((CartesianDMP.openLoop ops runT c name qname).exec s).1 = .ok (T, Y)) :
    ∀ y ∈ Y, UnitQuat (orientation y) := by
  rw [CartesianDMP.exec_openLoop] at hr
  simp only at hr
  cases h1 : StepFunction.lookup name with
  | error e => rw [h1] at hr; cases hr
  | ok sf =>
    rw [h1] at hr
    simp only [Except.bind] at hr
    cases h2 : dmpOpenLoop (s.posOpenLoopArgs c) s.dt runT sf with
    | error e => rw [h2] at hr; cases hr
    | ok p =>
      rw [h2] at hr
      simp only at hr
      cases h3 : QuatStepFunction.lookup ops qname with
      | error e => rw [h3] at hr; cases hr
      | ok qf =>
        rw [h3] at hr
        simp only at hr
        have hl : LawfulStep qf := by
          unfold QuatStepFunction.lookup at h3
          split_ifs at h3
          · simp only [Except.ok.injEq] at h3; rw [← h3]; exact ⟨eps, heps, hops⟩
          · simp only [Except.ok.injEq] at h3; rw [← h3]; trivial
        cases h4 : openLoopWith s.executionTime 0 s.dt (sliceFrom s.startY, (0 : Vec 3)) runT
          (qf.run (s.rotOpenLoopArgs c)) with
        | error e => rw [h4] at hr; cases hr
        | ok r =>
          rw [h4] at hr
          simp only at hr
          split_ifs at hr with h5
          simp only [Except.ok.injEq, Prod.mk.injEq] at hr
          rw [orientation_eq] at hst
          have hall : ∀ q ∈ r.2, UnitQuat q := openLoopWith_forall (T := r.1) (Y := r.2)
            (P := fun x : Vec 4 × Vec 3 => UnitQuat x.1) (Q := UnitQuat) hst (fun _ hx => hx)
            (fun a b x x' hx hx' => QuatStepFunction.run_unit hl (s.rotOpenLoopArgs c) hst hx hx') h4
          intro y hy
          rw [← hr.2] at hy
          obtain ⟨i, hi, rfl⟩ := List.mem_iff_getElem.1 hy
          rw [List.getElem_zipWith, orientation_eq, sliceFrom_hstack]
          exact hall _ (List.getElem_mem _)

/-- Hypotheses of the C31 theorems can be met: a new Cartesian DMP configured with a unit start orientation. -/
example : ∃ s : CartesianDMP 10, (∃ s0, CartesianDMP.create 10 1 (1 / 100) (1 / 1000) false (.scalar 25)
      (.scalar (25 / 4)) = .ok s0 ∧
      (CartesianDMP.configure { startY := some [0, 0, 0, 1, 0, 0, 0] }).exec s0 = (.ok (), s)) ∧
    UnitQuat (orientation s.startY) := by
  obtain ⟨s0, h0, -⟩ := CartesianDMP.create_ok 10 (by norm_num) one_pos (1 / 100) (1 / 1000) false 25 (25 / 4)
  refine ⟨_, ⟨s0, h0, rfl⟩, ?_⟩
  show UnitQuat (orientation (fun i : Fin 7 => [(0 : ℝ), 0, 0, 1, 0, 0, 0][i.val]))
  unfold orientation UnitQuat
  simp

/-- **C31, Cython.** The Cython step function even turns every non-zero quaternion into a unit quaternion as soon as it
integrates at all; the Python step function keeps the length. -/
theorem C31_cython_normalises (a : QuatStepArgs m) {lastT t : ℝ} (hlt : lastT < t)
    (hst : a.startT < t) {y y' : Vec 4} {yd yd' : Vec 3} (hy : y ≠ 0)
    (hr : QuatStepFunction.cython.run a lastT t (y, yd) = .ok (y', yd')) : UnitQuat y' := by
  simp only [QuatStepFunction.run, QuatStepArgs.stepCy, not_le.2 hst, if_false] at hr
  rw [intLoop_step _ hlt] at hr
  simp only at hr
  refine intLoop_inv (P := fun x : Vec 4 × Vec 3 => UnitQuat x.1) (s' := (y', yd')) ?_ ?_ hr
  · intro dt t x hx
    exact a.update_unit lawful_cython _ _ dt t hx
  · exact isUnit_concat (UnitQuat.ne_zero (isUnit_exp _)) hy

/-! ## C34 -/

theorem UnitQuat.neg {q : Vec 4} (h : UnitQuat q) : UnitQuat (-q) := by
  unfold UnitQuat at *; simpa using h

theorem QuatStepFunction.run_fixed {qf : QuatStepFunction} (h : LawfulStep qf) (a : QuatStepArgs m)
    (hc : a.coupling = none) (hp : a.precomputed = none) (hw : a.ft.weights = fun _ _ => 0)
    (hg : UnitQuat a.goalY) (hst : UnitQuat a.startY)
    (hsm : a.smooth = true → a.goalY = a.startY ∨ a.goalY = -a.startY) (hT : a.startT < a.goalT) (hint : 0 < a.intDt)
    {lastT t : ℝ} (ht : a.startT < t) {s : Vec 4 × Vec 3} (hy : s.1 = a.goalY ∨ s.1 = -a.goalY) (hv : s.2 = 0) :
    qf.run a lastT t s = .ok s := by
  have key : ∀ (ops : QuatOps) (eps : ℝ), 0 < eps → LawfulQuatOps ops eps → ∀ (body : ℝ → ℝ → Vec 4 × Vec 3 → Vec 4 × Vec 3),
      (∀ dt t x, body dt t x = a.update ops 0 0 dt t x) → intLoop a.intDt t body lastT s = .ok s := by
    intro ops eps heps hl body hb
    have h1 := intLoop_eq (upd := body) (t := t) hint lastT s
    rw [h1, intLoop_fixed (s := s) (fun dt t => by
      rw [hb]; exact a.update_fixed hl heps hg hst hw hsm dt t hy hv) h1]
  cases qf with
  | python ops =>
    obtain ⟨eps, heps, hl⟩ := h
    simp only [QuatStepFunction.run, QuatStepArgs.stepPy, not_le.2 hT, not_le.2 ht, if_false]
    exact key ops eps heps hl _ (fun dt t x => by simp only [QuatStepArgs.bodyPy, hc, hp])
  | cython =>
    simp only [QuatStepFunction.run, QuatStepArgs.stepCy, not_le.2 ht, if_false]
    exact key QuatOps.cython _ (by norm_num) lawful_cython _ (fun dt t x => by
      simp only [QuatStepArgs.bodyCy, hc, hp])

/-- **C34.** A quaternion step function leaves the goal orientation, or its antipode, with zero velocity unchanged, if
the weights are zero (no coupling; with smooth scaling, if also the start orientation is the goal or its antipode). -/
theorem C34_step_function {qf : QuatStepFunction} (h : LawfulStep qf) (a : QuatStepArgs m)
    (hc : a.coupling = none) (hp : a.precomputed = none) (hw : a.ft.weights = fun _ _ => 0)
    (hg : UnitQuat a.goalY) (hst : UnitQuat a.startY)
    (hsm : a.smooth = true → a.goalY = a.startY ∨ a.goalY = -a.startY) (hT : a.startT < a.goalT) (hint : 0 < a.intDt)
    {lastT t : ℝ} (ht : a.startT < t) {y : Vec 4} (hy : y = a.goalY ∨ y = -a.goalY) :
    qf.run a lastT t (y, 0) = .ok (y, 0) :=
  QuatStepFunction.run_fixed h a hc hp hw hg hst hsm hT hint ht (s := (y, 0)) hy rfl

/-- **C34.** `CartesianDMP.open_loop` without rotation weights from a start orientation that is the goal orientation or
its antipode: all rows have exactly the start orientation, whatever the position does and for every run time. -/
theorem C34_open_loop {ops : QuatOps} {eps : ℝ} (heps : 0 < eps) (hops : LawfulQuatOps ops eps)
    {s : CartesianDMP m} (hst : UnitQuat (orientation s.startY))
    (hg : orientation s.goalY = orientation s.startY ∨ orientation s.goalY = -orientation s.startY)
    (hw : s.ftRot.weights = fun _ _ => 0) (hτ : 0 < s.executionTime) (hint : 0 < s.intDt) (hdt : 0 < s.dt)
    {runT : Option ℝ} {name qname : String} {T : List ℝ} {Y : List (Vec (3 + 4))}
    (hr : ((CartesianDMP.openLoop ops runT none name qname).exec s).1 = .ok (T, Y)) :
    ∀ y ∈ Y, orientation y = orientation s.startY := by
  rw [CartesianDMP.exec_openLoop] at hr
  simp only at hr
  cases h1 : StepFunction.lookup name with
  | error e => rw [h1] at hr; cases hr
  | ok sf =>
    rw [h1] at hr
    simp only [Except.bind] at hr
    cases h2 : dmpOpenLoop (s.posOpenLoopArgs none) s.dt runT sf with
    | error e => rw [h2] at hr; cases hr
    | ok p =>
      rw [h2] at hr
      simp only at hr
      cases h3 : QuatStepFunction.lookup ops qname with
      | error e => rw [h3] at hr; cases hr
      | ok qf =>
        rw [h3] at hr
        simp only at hr
        have hl : LawfulStep qf := by
          unfold QuatStepFunction.lookup at h3
          split_ifs at h3
          · simp only [Except.ok.injEq] at h3; rw [← h3]; exact ⟨eps, heps, hops⟩
          · simp only [Except.ok.injEq] at h3; rw [← h3]; trivial
        cases h4 : openLoopWith s.executionTime 0 s.dt (sliceFrom s.startY, (0 : Vec 3)) runT
          (qf.run (s.rotOpenLoopArgs none)) with
        | error e => rw [h4] at hr; cases hr
        | ok r =>
          rw [h4] at hr
          simp only at hr
          split_ifs at hr with h5
          simp only [Except.ok.injEq, Prod.mk.injEq] at hr
          rw [orientation_eq] at hst
          rw [orientation_eq, orientation_eq] at hg
          have hgu : UnitQuat (sliceFrom s.goalY) := by
            rcases hg with hg | hg
            · rw [hg]; exact hst
            · rw [hg]; exact UnitQuat.neg hst
          have hall : ∀ q ∈ r.2, q = sliceFrom s.startY := by
            unfold openLoopWith at h4
            simp only [bind, Except.bind, hdt.ne', if_false, Pure.pure, Except.pure] at h4
            by_cases h6 : arangeLen 0 (runT.getD s.executionTime + s.dt) s.dt = 0
            · rw [if_pos h6] at h4; cases h4
            rw [if_neg h6] at h4
            cases h7 : loopRows (fun i x => qf.run (s.rotOpenLoopArgs none) (arangeAt 0 s.dt i)
                (arangeAt 0 s.dt (i + 1)) x) Prod.fst
                (arangeLen 0 (runT.getD s.executionTime + s.dt) s.dt - 1) (sliceFrom s.startY, (0 : Vec 3)) 0 with
            | error e => simp [h7] at h4
            | ok rows =>
              simp only [h7, Except.ok.injEq] at h4
              rw [← h4]
              intro q hq
              rcases List.mem_cons.1 hq with rfl | hq
              · rfl
              · refine loopRows_forall (P := fun x : Vec 4 × Vec 3 => x = (sliceFrom s.startY, 0))
                  (Q := fun q => q = sliceFrom s.startY) ?_ ?_ _ _ _ _ rfl h7 q hq
                · rintro i x x' rfl hx
                  rw [QuatStepFunction.run_fixed hl (s.rotOpenLoopArgs none) rfl rfl hw hgu hst (fun _ => hg) hτ hint
                    (by show (0 : ℝ) < arangeAt 0 s.dt (i + 1); unfold arangeAt; push_cast; positivity)
                    (by
                      show sliceFrom s.startY = sliceFrom s.goalY ∨ sliceFrom s.startY = -sliceFrom s.goalY
                      rcases hg with hg | hg
                      · left; exact hg.symm
                      · right; rw [hg, neg_neg]) rfl] at hx
                  simp only [Except.ok.injEq] at hx
                  exact hx.symm
                · rintro x rfl; rfl
          intro y hy
          rw [← hr.2] at hy
          obtain ⟨i, hi, rfl⟩ := List.mem_iff_getElem.1 hy
          rw [List.getElem_zipWith, orientation_eq, orientation_eq, sliceFrom_hstack]
          exact hall _ (List.getElem_mem _)

/-- **C34.** `CartesianDMP.step` at the goal orientation (or its antipode) with zero angular velocity returns exactly
that orientation and angular velocity, at every time and in every state of the object. -/
theorem C34_step {sf : StepFunction} {qf : QuatStepFunction} (h : LawfulStep qf) {s s' : CartesianDMP m}
    (hst : UnitQuat (orientation s.startY)) (hg : UnitQuat (orientation s.goalY))
    (hsm : s.smooth = true →
      orientation s.goalY = orientation s.startY ∨ orientation s.goalY = -orientation s.startY)
    (hw : s.ftRot.weights = fun _ _ => 0) (hτ : 0 < s.executionTime) (hint : 0 < s.intDt) (ht : 0 < s.t + s.dt)
    {y : Vec (3 + 4)} {yd : Vec (3 + 3)}
    (hy : orientation y = orientation s.goalY ∨ orientation y = -orientation s.goalY) (hyd : angular yd = 0)
    {r : Vec (3 + 4) × Vec (3 + 3)} (hr : (CartesianDMP.step none sf qf y yd).exec s = (.ok r, s')) :
    orientation r.1 = orientation y ∧ angular r.2 = 0 := by
  rw [CartesianDMP.exec_step] at hr
  simp only [orientation_eq, angular_eq] at *
  cases h1 : sf.run (s.posArgs none) s.t (s.t + s.dt) (sliceTo y, sliceTo yd) with
  | error e => rw [h1] at hr; cases hr
  | ok rp =>
    rw [h1] at hr
    rw [QuatStepFunction.run_fixed h (s.rotArgs none) rfl rfl hw hg hst hsm hτ hint (lastT := s.t) (t := s.t + s.dt) ht
      (s := (sliceFrom y, sliceFrom yd)) hy hyd] at hr
    simp only [Prod.mk.injEq, Except.ok.injEq] at hr
    rw [← hr.1]
    simp [hyd]

/-- **C34, converse.** Without smooth scaling and forces, and with non-zero gains, a resting state that a sub-step of
positive length leaves unchanged is the goal orientation or its antipode, up to the threshold `eps` below which the
quaternion library regards a rotation as the identity. -/
theorem C34_only_equilibria {ops : QuatOps} {eps : ℝ} (hops : LawfulQuatOps ops eps) (a : QuatStepArgs m)
    (hsm : a.smooth = false) (hw : a.ft.weights = fun _ _ => 0) (hg : UnitQuat a.goalY)
    (hT : a.startT < a.goalT) (hα : ∀ k, a.alphaY k ≠ 0) (hβ : ∀ k, a.betaY k ≠ 0) {dt t : ℝ} (hdt : 0 < dt)
    {y : Vec 4} (hy : UnitQuat y) (hfix : (a.update ops 0 0 dt t (y, 0)).2 = 0) :
    y = a.goalY ∨ y = -a.goalY ∨
      √((ops.mul a.goalY (ops.conj y)) 1 ^ 2 + (ops.mul a.goalY (ops.conj y)) 2 ^ 2 +
        (ops.mul a.goalY (ops.conj y)) 3 ^ 2) < eps := by
  have hf : ∀ z, a.ft.force z = 0 := by
    intro z; funext k; simp [ForcingTerm.force, hw]
  have hd : QuatStepArgs.diff ops a.goalY y = 0 := by
    funext k
    have := congrFun hfix k
    unfold QuatStepArgs.update at this
    have hτ : a.goalT - a.startT ≠ 0 := by linarith
    simp only [hf, hsm, Bool.false_eq_true, if_false, Pi.zero_apply, mul_zero, sub_zero, add_zero, zero_div, zero_add,
      mul_eq_zero, div_eq_zero_iff, hdt.ne', hα k, hβ k, false_or, pow_eq_zero_iff, ne_eq, OfNat.ofNat_ne_zero,
      not_false_eq_true, hτ, or_false] at this
    simpa using this
  by_cases hs : √((ops.mul a.goalY (ops.conj y)) 1 ^ 2 + (ops.mul a.goalY (ops.conj y)) 2 ^ 2 +
        (ops.mul a.goalY (ops.conj y)) 3 ^ 2) < eps
  · right; right; exact hs
  have hu := LawfulQuatOps.unit_mul hops hg (LawfulQuatOps.unit_conj hops hy)
  have hl := (hops.log _ hu (not_lt.1 hs)).2
  unfold QuatStepArgs.diff at hd
  rw [hd] at hl
  have h0 : Spec.pure 0 = 0 := by ext <;> simp <;> rfl
  rw [h0, smul_zero, NormedSpace.exp_zero, hops.mul _ _ hg (LawfulQuatOps.unit_conj hops hy), hops.conj y hy] at hl
  have hyy : star (quat y) * quat y = 1 := by
    have := (unitQuat_iff_mul_star y).1 hy
    rw [Quaternion.self_mul_star] at this
    rw [Quaternion.star_mul_self, this]
  rcases hl with hl | hl
  · left
    apply quat_injective
    have := congrArg (· * quat y) hl
    simp only [mul_assoc, hyy, mul_one, one_mul] at this
    exact this
  · right; left
    apply quat_injective
    have hn : quat (-a.goalY) = -quat a.goalY := by ext <;> simp
    have := congrArg (· * quat y) hl
    simp only [neg_mul, mul_assoc, hyy, mul_one, one_mul] at this
    rw [hn, ← this]

/-- Hypotheses of C34 can be met. -/
example : ∃ a : QuatStepArgs 2, a.coupling = none ∧ a.precomputed = none ∧ (a.ft.weights = fun _ _ => 0) ∧
    UnitQuat a.goalY ∧ UnitQuat a.startY ∧ a.goalY ≠ a.startY ∧ a.smooth = false ∧ a.startT < a.goalT ∧ 0 < a.intDt := by
  refine ⟨{ goalY := ![0, 1, 0, 0], startY := ![1, 0, 0, 0], startYd := 0, goalT := 1, startT := 0, alphaY := 1, betaY := 1
            ft := ⟨1, 0, 1, 1, 0, 1, fun _ _ => 0, 0, 0⟩ }, rfl, rfl, rfl, ?_, ?_, ?_, rfl, ?_, ?_⟩
  · simp [UnitQuat]
  · simp [UnitQuat]
  · intro h; have := congrFun h 0; simp at this
  · norm_num
  · norm_num

end Verif
