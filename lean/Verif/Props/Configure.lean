import Verif.Props.DmpClass
import Verif.Spec.Configure

/-! # C19, C25: configuration and reset -/

namespace Verif
open Spec
variable {d m p v : ℕ}

instance (n : ℕ) (arg : Option (List ℝ)) : Decidable (FieldOk n arg) := by
  unfold FieldOk
  cases arg with
  | none => exact isTrue (by intro xs h; cases h)
  | some xs => exact decidable_of_iff (xs.length = n) (by simp)

theorem exec_configureField {σ : Type} {n : ℕ} (arg : Option (List ℝ)) (get : σ → Vec n) (set : Vec n → σ → σ)
    (hlaw : ∀ s, set (get s) s = s) (s : σ) :
    (configureField arg set).exec s =
      if FieldOk n arg then (.ok (), set (newValue arg (get s)) s) else (.error .valueError, s) := by
  cases arg with
  | none =>
    rw [if_pos (by intro xs h; cases h)]
    simp [configureField, newValue, hlaw]
  | some xs =>
    have hiff : FieldOk n (some xs) ↔ xs.length = n := by simp [FieldOk]
    simp only [configureField, Py.exec_bind, Py.exec_lift, checkLength]
    by_cases h : xs.length = n
    · rw [dif_pos h, if_pos (hiff.2 h)]
      simp only [Py.exec_modify, newValue]
      have e : (fun i : Fin n => xs[i.val]'(by rw [h]; exact i.isLt)) = fun i : Fin n => xs.getD i.val 0 := by
        funext i
        simp [List.getD, h]
      rw [e]
    · rw [dif_neg h, if_neg (by rwa [hiff])]

/-- `configure` as a chain of checks. -/
theorem exec_movement_configure (a : ConfigArgs) (s : Movement p v) :
    (Movement.configure a).exec s =
      let s0 : Movement p v := { s with t := a.t.getD s.t }
      if FieldOk p a.startY then
        let s1 := { s0 with startY := newValue a.startY s.startY }
        if FieldOk v a.startYd then
          let s2 := { s1 with startYd := newValue a.startYd s.startYd }
          if FieldOk v a.startYdd then
            let s3 := { s2 with startYdd := newValue a.startYdd s.startYdd }
            if FieldOk p a.goalY then
              let s4 := { s3 with goalY := newValue a.goalY s.goalY }
              if FieldOk v a.goalYd then
                let s5 := { s4 with goalYd := newValue a.goalYd s.goalYd }
                if FieldOk v a.goalYdd then
                  (.ok (), { s5 with goalYdd := newValue a.goalYdd s.goalYdd })
                else (.error .valueError, s5)
              else (.error .valueError, s4)
            else (.error .valueError, s3)
          else (.error .valueError, s2)
        else (.error .valueError, s1)
      else (.error .valueError, s0) := by
  rcases a with ⟨t, a1, a2, a3, a4, a5, a6⟩
  have hmod : (Movement.configure ⟨t, a1, a2, a3, a4, a5, a6⟩).exec s =
      (Movement.configure ⟨none, a1, a2, a3, a4, a5, a6⟩).exec { s with t := t.getD s.t } := by
    cases t <;> rfl
  rw [hmod]
  generalize t.getD s.t = t'
  simp only [Movement.configure, Py.exec_bind,
    exec_configureField a1 (fun s : Movement p v => s.startY) (fun x s => { s with startY := x }) (fun _ => rfl),
    exec_configureField a2 (fun s : Movement p v => s.startYd) (fun x s => { s with startYd := x })
      (fun _ => rfl),
    exec_configureField a3 (fun s : Movement p v => s.startYdd) (fun x s => { s with startYdd := x })
      (fun _ => rfl),
    exec_configureField a4 (fun s : Movement p v => s.goalY) (fun x s => { s with goalY := x }) (fun _ => rfl),
    exec_configureField a5 (fun s : Movement p v => s.goalYd) (fun x s => { s with goalYd := x })
      (fun _ => rfl),
    exec_configureField a6 (fun s : Movement p v => s.goalYdd) (fun x s => { s with goalYdd := x })
      (fun _ => rfl)]
  by_cases h1 : FieldOk p a1
  · by_cases h2 : FieldOk v a2
    · by_cases h3 : FieldOk v a3
      · by_cases h4 : FieldOk p a4
        · by_cases h5 : FieldOk v a5
          · by_cases h6 : FieldOk v a6 <;> simp [h1, h2, h3, h4, h5, h6]
          · simp [h1, h2, h3, h4, h5]
        · simp [h1, h2, h3, h4]
      · simp [h1, h2, h3]
    · simp [h1, h2]
  · simp [h1]

/-- All given arrays have the right length. -/
def Spec.AllOk (p v : ℕ) (a : ConfigArgs) : Prop :=
  FieldOk p a.startY ∧ FieldOk v a.startYd ∧ FieldOk v a.startYdd ∧ FieldOk p a.goalY ∧ FieldOk v a.goalYd ∧
    FieldOk v a.goalYdd

/-- **C25.** If all given arrays have the right length, `configure` succeeds and sets exactly the given values. -/
theorem C25_configure_sets (a : ConfigArgs) (s : Movement p v) (h : AllOk p v a) :
    (Movement.configure a).exec s = (.ok (),
      { t := a.t.getD s.t, lastT := s.lastT, startY := newValue a.startY s.startY
        startYd := newValue a.startYd s.startYd, startYdd := newValue a.startYdd s.startYdd
        goalY := newValue a.goalY s.goalY, goalYd := newValue a.goalYd s.goalYd
        goalYdd := newValue a.goalYdd s.goalYdd, currentY := s.currentY, currentYd := s.currentYd }) := by
  obtain ⟨h1, h2, h3, h4, h5, h6⟩ := h
  rw [exec_movement_configure]
  simp [h1, h2, h3, h4, h5, h6]

/-- **C25.** `configure` raises ValueError if and only if some given array has the wrong length. -/
theorem C25_configure_raises_iff (a : ConfigArgs) (s : Movement p v) :
    ((Movement.configure a).exec s).1 = .error .valueError ↔ ¬ AllOk p v a := by
  rw [exec_movement_configure]
  unfold AllOk
  by_cases h1 : FieldOk p a.startY
  · by_cases h2 : FieldOk v a.startYd
    · by_cases h3 : FieldOk v a.startYdd
      · by_cases h4 : FieldOk p a.goalY
        · by_cases h5 : FieldOk v a.goalYd
          · by_cases h6 : FieldOk v a.goalYdd <;> simp [h1, h2, h3, h4, h5, h6]
          · simp [h1, h2, h3, h4, h5]
        · simp [h1, h2, h3, h4]
      · simp [h1, h2, h3]
    · simp [h1, h2]
  · simp [h1]

/-- **C25.** Whether it raises or not, `configure` never touches `last_t`, the current state or an attribute for which
no value is given, and every attribute has either its old or its new value afterwards. -/
theorem C25_configure_frame (a : ConfigArgs) (s : Movement p v) :
    let s' := ((Movement.configure a).exec s).2
    s'.lastT = s.lastT ∧ s'.currentY = s.currentY ∧ s'.currentYd = s.currentYd ∧ s'.t = a.t.getD s.t ∧
    (s'.startY = s.startY ∨ s'.startY = newValue a.startY s.startY) ∧
    (s'.startYd = s.startYd ∨ s'.startYd = newValue a.startYd s.startYd) ∧
    (s'.startYdd = s.startYdd ∨ s'.startYdd = newValue a.startYdd s.startYdd) ∧
    (s'.goalY = s.goalY ∨ s'.goalY = newValue a.goalY s.goalY) ∧
    (s'.goalYd = s.goalYd ∨ s'.goalYd = newValue a.goalYd s.goalYd) ∧
    (s'.goalYdd = s.goalYdd ∨ s'.goalYdd = newValue a.goalYdd s.goalYdd) := by
  simp only
  rw [exec_movement_configure]
  by_cases h1 : FieldOk p a.startY
  · by_cases h2 : FieldOk v a.startYd
    · by_cases h3 : FieldOk v a.startYdd
      · by_cases h4 : FieldOk p a.goalY
        · by_cases h5 : FieldOk v a.goalYd
          · by_cases h6 : FieldOk v a.goalYdd <;> simp [h1, h2, h3, h4, h5, h6]
          · simp [h1, h2, h3, h4, h5]
        · simp [h1, h2, h3, h4]
      · simp [h1, h2, h3]
    · simp [h1, h2]
  · simp [h1]

/-- Finding (C25): a failing `configure` may already have applied some arguments: with a valid start position and a goal
of wrong length the call raises ValueError but the start position is changed. -/
theorem C25_configure_not_atomic (s : Movement p v) (x : Vec p) (g : List ℝ) (hg : g.length ≠ p) :
    (Movement.configure { startY := some (List.ofFn x), goalY := some g }).exec s =
      (.error .valueError, { s with startY := x }) := by
  rw [exec_movement_configure]
  have h1 : FieldOk p (some (List.ofFn x)) := by simp [FieldOk]
  have h2 : ∀ n, FieldOk n none := by intro n xs h; cases h
  have h4 : ¬ FieldOk p (some g) := by simpa [FieldOk] using hg
  simp [h1, h2, h4, newValue]

/-- Examples for both cases of C25. -/
example : AllOk 2 2 { startY := some [1, 2], goalY := some [3, 4] } ∧
    ¬ AllOk 2 2 { startY := some [1, 2], goalY := some [3, 4, 5] } := by
  simp [AllOk, FieldOk]

/-! ## C19 -/

/-- The part of a DMP that determines its future: everything but the time stamp of the last step. -/
def DMP.SameFuture (s s' : DMP d m) : Prop :=
  s' = { s with lastT := s'.lastT, currentY := s'.currentY, currentYd := s'.currentYd, initialized := s'.initialized } ∧
    s'.beginStep.currentY = s.beginStep.currentY ∧ s'.beginStep.currentYd = s.beginStep.currentYd

theorem DMP.SameFuture.beginStep {s s' : DMP d m} (h : s.SameFuture s') : s'.beginStep = s.beginStep := by
  obtain ⟨h1, h2, h3⟩ := h
  have e : s'.beginStep = { s'.beginStep with currentY := s.beginStep.currentY, currentYd := s.beginStep.currentYd } := by
    rw [← h2, ← h3]
  rw [e, h1]
  rfl

/-- Two DMPs with the same future return the same results for every non-empty sequence of steps and end in the same
state. -/
theorem DMP.SameFuture.steps {s s' : DMP d m} (h : s.SameFuture s') (coupling : Option (Coupling d))
    (sf : StepFunction) (fb : List (Vec d × Vec d)) :
    ((fb.mapM (fun p => DMP.step (m := m) coupling sf p.1 p.2)).exec s').1 =
      ((fb.mapM (fun p => DMP.step (m := m) coupling sf p.1 p.2)).exec s).1 := by
  cases fb with
  | nil => rfl
  | cons p fb =>
    simp only [List.mapM_cons, Py.exec_bind, DMP.exec_step]
    have ht : s'.t = s.t := by rw [h.1]
    have hdt : s'.dt = s.dt := by rw [h.1]
    rw [h.beginStep, ht, hdt]

theorem checkLength_ofFn {n : ℕ} (x : Vec n) : checkLength n (List.ofFn x) = .ok x := by
  unfold checkLength
  rw [dif_pos (by simp)]
  congr 1
  funext i; simp

theorem ensure1dArray_ofFn {n : ℕ} (x : Vec n) : ensure1dArray (.array1 (List.ofFn x)) n = .ok x := by
  rw [C59_ensure_1d_array]
  simp only [List.length_ofFn]
  by_cases h : n = 1
  · subst h
    simp only [dif_pos]
    congr 1
    funext i
    rw [Subsingleton.elim i 0]; simp
  · rw [dif_neg h, dif_pos trivial]
    congr 1
    funext i; simp

/-- **C19.** Take any reachable DMP (any history of steps, configurations, weight and execution time changes,
imitations, resets). Construct a new DMP with the same execution time, gains and options, configure it with the same
start and goal and set the same weights. Then after `reset` the old object returns the same results as the new one for
every sequence of `step` calls. -/
theorem C19_reset_repeatable {s : DMP d m} (hs : s.Reachable) :
    ∃ f f1 f2 : DMP d m,
      DMP.create d m s.executionTime s.dt s.intDt s.pGain s.smooth (.array1 (List.ofFn s.alphaY))
        (.array1 (List.ofFn s.betaY)) = .ok f ∧
      (DMP.configure { startY := some (List.ofFn s.startY), startYd := some (List.ofFn s.startYd)
                       startYdd := some (List.ofFn s.startYdd), goalY := some (List.ofFn s.goalY)
                       goalYd := some (List.ofFn s.goalYd), goalYdd := some (List.ofFn s.goalYdd) }).exec f =
        (.ok (), f1) ∧
      (DMP.setWeights s.getWeights).exec f1 = (.ok (), f2) ∧
      ∀ (coupling : Option (Coupling d)) (sf : StepFunction) (fb : List (Vec d × Vec d)),
        ((DMP.reset >>= fun _ => fb.mapM (fun p => DMP.step (m := m) coupling sf p.1 p.2)).exec s).1 =
          ((fb.mapM (fun p => DMP.step (m := m) coupling sf p.1 p.2)).exec f2).1 := by
  obtain ⟨ft, h1, h2⟩ := hs.valid
  have hw : (DMP.setWeights s.getWeights).exec
      ({ s with toMovement := { s.toMovement with t := 0, lastT := none, currentY := 0, currentYd := 0 }
                ft := ft, initialized := false } : DMP d m) =
      (.ok (), { s with
        toMovement := { s.toMovement with t := 0, lastT := none, currentY := 0, currentYd := 0 }
        initialized := false }) := by
    have h3 := C22_get_set_weights s
    unfold DMP.setWeights at h3 ⊢
    simp only [Py.exec_bind, Py.exec_lift] at h3 ⊢
    cases hr : DMP.reshapeWeights d m s.getWeights with
    | error e => rw [hr] at h3; cases h3
    | ok w =>
      rw [hr] at h3
      simp only [Py.exec_modify, Prod.mk.injEq, true_and] at h3 ⊢
      have : w = s.ft.weights := by
        have h4 := congrArg (fun x : DMP d m => x.ft.weights) h3
        exact h4
      rw [this]
      conv_rhs => rw [h2]
  refine ⟨{
    toMovement := Movement.init d d
    executionTime := s.executionTime, dt := s.dt, intDt := s.intDt, pGain := s.pGain, smooth := s.smooth
    ft := ft, alphaY := s.alphaY, betaY := s.betaY, initialized := false },
    { s with
      toMovement := { s.toMovement with t := 0, lastT := none, currentY := 0, currentYd := 0 }
      ft := ft, initialized := false },
    { s with
      toMovement := { s.toMovement with t := 0, lastT := none, currentY := 0, currentYd := 0 }
      initialized := false }, ?_, ?_, hw, ?_⟩
  · unfold DMP.create
    rw [h1, ensure1dArray_ofFn, ensure1dArray_ofFn]
    rfl
  · rw [DMP.exec_configure, C25_configure_sets]
    · have hx : ∀ {n : ℕ} (x o : Vec n), newValue (some (List.ofFn x)) o = x := by
        intro n x o; funext i; simp [newValue]
      simp only [hx]
      rfl
    · simp [AllOk, FieldOk]
  · intro coupling sf fb
    rw [Py.exec_bind]
    have hreset : DMP.reset.exec s = (.ok (), { s with toMovement := s.toMovement.reset }) := rfl
    rw [hreset]
    simp only
    refine (DMP.SameFuture.steps ?_ coupling sf fb).symm
    refine ⟨?_, ?_, ?_⟩
    · rfl
    · unfold DMP.beginStep Movement.reset
      cases s.initialized <;> rfl
    · unfold DMP.beginStep Movement.reset
      cases s.initialized <;> rfl

/-- **C19.** Changing `start_y` after the first step without `reset` has no effect on the result of `step` and on the
state of the object (apart from the attribute itself), unless smooth scaling is used or the Cython Euler step is called at
a time that is not positive. -/
theorem C19_start_change_ignored (s : DMP d m) (hi : s.initialized = true) (hsm : s.smooth = false) (x : Vec d)
    (coupling : Option (Coupling d)) (lastY lastYd : Vec d) (sf : StepFunction)
    (hsf : sf = .eulerCython → 0 < s.t + s.dt) :
    let r := (DMP.step coupling sf lastY lastYd).exec s
    (DMP.step coupling sf lastY lastYd).exec { s with startY := x } = (r.1, { r.2 with startY := x }) := by
  intro r
  have hr : r = (DMP.step coupling sf lastY lastYd).exec s := rfl
  rw [DMP.exec_step] at hr
  rw [DMP.exec_step]
  have hb : ({ s with startY := x } : DMP d m).beginStep = { s.beginStep with startY := x } := by
    unfold DMP.beginStep; simp [hi]
  rw [hb]
  have hf : ∀ (s1 : DMP d m) e, DMP.finishStep { s1 with startY := x } e =
      ((s1.finishStep e).1, { (s1.finishStep e).2 with startY := x }) := by
    intro s1 e; cases e <;> rfl
  set a := s.beginStep.stepArgs coupling (s.beginStep.currentY - lastY) with ha
  have hargs : ({ s.beginStep with startY := x } : DMP d m).stepArgs coupling
      (({ s.beginStep with startY := x } : DMP d m).currentY - lastY) = { a with startY := x } := rfl
  rw [hargs]
  have hsm' : a.smooth = false := hsm
  have hacc : ∀ Y V cdd z τ f tdd, ({ a with startY := x } : StepArgs d m).acc Y V cdd z τ f tdd =
      a.acc Y V cdd z τ f tdd := by
    intro Y V cdd z τ f tdd
    simp [StepArgs.acc, hsm']
  have haccCy : ∀ Y V cdd z τ f tdd, ({ a with startY := x } : StepArgs d m).accCy Y V cdd z τ f tdd =
      a.accCy Y V cdd z τ f tdd := by
    intro Y V cdd z τ f tdd
    simp [StepArgs.accCy, hsm']
  have key : sf.run { a with startY := x } s.t (s.t + s.dt) (s.beginStep.currentY, s.beginStep.currentYd) =
      sf.run a s.t (s.t + s.dt) (s.beginStep.currentY, s.beginStep.currentYd) := by
    cases sf with
    | rk4 =>
      show StepArgs.stepRk4 _ _ _ _ = StepArgs.stepRk4 _ _ _ _
      unfold StepArgs.stepRk4
      simp only [hacc]
      rfl
    | rk4Cython =>
      show StepArgs.stepRk4Cy _ _ _ _ = StepArgs.stepRk4Cy _ _ _ _
      unfold StepArgs.stepRk4Cy
      simp only [haccCy]
      rfl
    | euler =>
      show StepArgs.stepEuler _ _ _ _ = StepArgs.stepEuler _ _ _ _
      unfold StepArgs.stepEuler
      have : ({ a with startY := x } : StepArgs d m).eulerBody = a.eulerBody := by
        funext dt t s
        unfold StepArgs.eulerBody
        simp only [hacc]
        rfl
      simp only [this]
    | eulerCython =>
      show StepArgs.stepEulerCy _ _ _ _ = StepArgs.stepEulerCy _ _ _ _
      unfold StepArgs.stepEulerCy
      have : ({ a with startY := x } : StepArgs d m).eulerBodyCy = a.eulerBodyCy := by
        funext dt t s
        unfold StepArgs.eulerBodyCy
        simp only [hsm', Bool.false_eq_true, if_false]
        rfl
      have h0 : ¬ s.t + s.dt ≤ a.startT := not_le.2 (hsf rfl)
      simp only [this]
      rw [if_neg h0, if_neg h0]
  rw [hr]
  have hfin := hf s.beginStep (sf.run { a with startY := x } s.t (s.t + s.dt)
      (s.beginStep.currentY, s.beginStep.currentYd))
  rw [key] at hfin
  rw [← hfin, ← key]

/-- Finding (C19): with smooth scaling the start position still enters the differential equation, so changing it after
the first step without `reset` does change the running movement. -/
theorem C19_start_change_with_smooth_scaling :
    ∃ (s : DMP 1 2) (x : Vec 1), s.Reachable ∧ s.initialized = true ∧ s.smooth = true ∧
      ((DMP.step none .euler 0 0).exec { s with startY := x }).1 ≠ ((DMP.step none .euler 0 0).exec s).1 := by
  obtain ⟨s0, hs, h1, h2, h3, h4, h5, h6, h7, h8, h9, h10, hα, hβ, hw⟩ :=
    DMP.create_ok 1 2 le_rfl one_pos 1 1 0 true 1 1
  have hnext : ((DMPOp.step none .rk4 0 0).exec s0).2.Reachable :=
    .op (.step none .rk4 0 0) (.create hs) rfl (by intro τ h; cases h)
  set s := ((DMPOp.step none .rk4 0 0).exec s0).2 with hsdef
  have e : ∃ c : Vec 1 × Vec 1, s = { s0.beginStep with currentY := c.1, currentYd := c.2 } := by
    rw [hsdef]
    simp only [DMPOp.exec, DMP.exec_step]
    exact ⟨_, rfl⟩
  obtain ⟨c, e⟩ := e
  clear_value s
  have hi : s.initialized = true := by rw [e]; rfl
  have ht : s.t = 1 := by rw [e]; show s0.t + s0.dt = 1; rw [h7, h2]; norm_num
  have hstart : s.startY = 0 := by rw [e]; exact h8
  have hsm : s.smooth = true := by rw [e]; exact h5
  have hd : s.dt = 1 := by rw [e]; exact h2
  have hid : s.intDt = 1 := by rw [e]; exact h3
  have hτ : s.executionTime = 1 := by rw [e]; exact h1
  have hα' : s.alphaY = fun _ => 1 := by rw [e]; exact hα
  have hβ' : s.betaY = fun _ => 1 := by rw [e]; exact hβ
  refine ⟨s, fun _ => 1, hnext, hi, hsm, ?_⟩
  rw [DMP.exec_step, DMP.exec_step]
  have hrun : ∀ a : StepArgs 1 2, a.goalT = 1 → a.startT = 0 → a.intDt = 1 → ∀ r,
      StepFunction.euler.run a s.t (s.t + s.dt) r = .ok (a.eulerBody 1 2 r) := by
    intro a ha1 ha2 ha3 r
    show a.stepEuler _ _ _ = _
    unfold StepArgs.stepEuler
    rw [ht, hd, if_neg (by rw [ha1, ha2]; norm_num), if_neg (by rw [ha2]; norm_num),
      intLoop_single _ (by norm_num) (by rw [ha3]; norm_num)]
    norm_num
  have hx : ({ s with startY := fun _ => 1 } : DMP 1 2).t = s.t := rfl
  have hx' : ({ s with startY := fun _ => 1 } : DMP 1 2).dt = s.dt := rfl
  rw [hx, hx', hrun _ hτ rfl hid, hrun _ hτ rfl hid]
  simp only [DMP.finishStep]
  intro h
  injection h with h
  have h' := congrFun (congrArg Prod.fst h) 0
  have hz : 0 < s.ft.phaseAt 2 := Real.exp_pos _
  simp [StepArgs.eulerBody, StepArgs.addCd, DMP.stepArgs, DMP.beginStep, StepArgs.acc, hi, hsm, hτ, hα', hβ', hstart,
    StepArgs.initialCdd] at h'
  linarith

/-- C19 covers objects that have been used. -/
example : ∃ s : DMP 1 2, s.Reachable ∧ s.initialized = true ∧ s.t = 1 / 100 := by
  obtain ⟨s, hs, h1, h2, h3, h4, h5, h6, h7, _⟩ :=
    DMP.create_ok 1 2 le_rfl one_pos (1 / 100) (1 / 1000) 0 false 25 (25 / 4)
  refine ⟨((DMPOp.step none .rk4 0 0).exec s).2, .op (.step none .rk4 0 0) (.create hs) rfl (by intro τ h; cases h),
    ?_, ?_⟩
  · simp only [DMPOp.exec, DMP.exec_step]
    simp [DMP.finishStep, DMP.beginStep, StepFunction.run, StepArgs.stepRk4, h6]
  · simp only [DMPOp.exec, DMP.exec_step]
    simp [DMP.finishStep, DMP.beginStep, StepFunction.run, StepArgs.stepRk4, h6, h7, h2]

end Verif
