import Verif.Lemmas.DmpHistory
import Verif.Lemmas.Sim
import Verif.Spec.Execution
import Mathlib.Tactic.NormNum

/-! # C17-C20, C22, C24, C25, C59, C61: methods of the `DMP` class -/

namespace Verif
variable {d m : ℕ}

/-! ## Reachable objects exist -/

theorem DMP.create_ok (d m : ℕ) (hm : 2 ≤ m) {τ : ℝ} (hτ : 0 < τ) (dt intDt pGain : ℝ) (smooth : Bool)
    (α β : ℝ) : ∃ s, DMP.create d m τ dt intDt pGain smooth (.scalar α) (.scalar β) = .ok s ∧
      s.executionTime = τ ∧ s.dt = dt ∧ s.intDt = intDt ∧ s.pGain = pGain ∧ s.smooth = smooth ∧
      s.initialized = false ∧ s.t = 0 ∧ s.startY = 0 ∧ s.startYd = 0 ∧ s.goalY = 0 ∧
      s.alphaY = (fun _ => α) ∧ s.betaY = (fun _ => β) ∧ s.ft.weights = fun _ _ => 0 := by
  obtain ⟨ft, hft⟩ := (DMP.initForcingTerm_isOk_iff (d := d) (m := m) τ).2 ⟨hm, hτ⟩
  have hw : ft.weights = fun _ _ => 0 := by
    rw [DMP.initForcingTerm_ok_iff] at hft
    unfold ForcingTerm.create at hft
    split_ifs at hft
    simp only [Except.ok.injEq] at hft
    subst hft; rfl
  have hs : ∀ x : ℝ, ensure1dArray (.scalar x) d = .ok (fun _ => x) := by
    intro x
    simp [ensure1dArray, checkLength]
  unfold DMP.create
  rw [hft, hs, hs]
  exact ⟨_, rfl, rfl, rfl, rfl, rfl, rfl, rfl, rfl, rfl, rfl, rfl, rfl, rfl, hw⟩

/-- Reachable DMPs with the constructor's default values exist. -/
example : ∃ s : DMP 2 10, s.Reachable ∧ s.executionTime = 1 ∧ s.dt = 1 / 100 ∧ s.intDt = 1 / 1000 := by
  obtain ⟨s, hs, h⟩ := DMP.create_ok 2 10 (by norm_num) one_pos (1 / 100) (1 / 1000) 0 false 25 (25 / 4)
  exact ⟨s, .create hs, h.1, h.2.1, h.2.2.1⟩

/-! ## C17 -/

theorem run_pGain_zero (sf : StepFunction) (a : StepArgs d m) (h : a.pGain = 0) (e : Vec d) (lastT t : ℝ)
    (s : Vec d × Vec d) : sf.run { a with trackingError := e } lastT t s = sf.run a lastT t s := by
  have hb : ({ a with trackingError := e } : StepArgs d m).eulerBody = a.eulerBody := by
    funext dt t s
    simp [StepArgs.eulerBody, h, StepArgs.acc, StepArgs.addCd, StepArgs.initialCdd]
  have hb2 : ({ a with trackingError := e } : StepArgs d m).eulerBodyCy = a.eulerBodyCy := by
    funext dt t s
    simp [StepArgs.eulerBodyCy, h, StepArgs.cyCoupling]
  have hrk : ({ a with trackingError := e } : StepArgs d m).stepRk4 lastT t s = a.stepRk4 lastT t s := by
    simp [StepArgs.stepRk4, h, StepArgs.acc, StepArgs.addCd, StepArgs.initialCdd]
  cases sf with
  | rk4 => exact hrk
  | rk4Cython =>
    show StepArgs.stepRk4Cy _ _ _ _ = StepArgs.stepRk4Cy _ _ _ _
    rw [C10_rk4_cython_eq_python, C10_rk4_cython_eq_python]; exact hrk
  | euler => simp only [StepFunction.run, StepArgs.stepEuler, hb]
  | eulerCython => simp only [StepFunction.run, StepArgs.stepEulerCy, hb2]

theorem step_pGain_zero (coupling : Option (Coupling d)) (sf : StepFunction) (y yd y' yd' : Vec d) (s : DMP d m)
    (h : s.pGain = 0) : (DMP.step coupling sf y yd).exec s = (DMP.step coupling sf y' yd').exec s := by
  rw [DMP.exec_step, DMP.exec_step]
  congr 1
  have := run_pGain_zero sf (s.beginStep.stepArgs coupling (s.beginStep.currentY - y')) h
    (s.beginStep.currentY - y) s.t (s.t + s.dt) (s.beginStep.currentY, s.beginStep.currentYd)
  exact this

theorem step_pGain (coupling : Option (Coupling d)) (sf : StepFunction) (y yd : Vec d) (s : DMP d m) :
    ((DMP.step coupling sf y yd).exec s).2.pGain = s.pGain := by
  rw [DMP.exec_step]
  cases sf.run (s.beginStep.stepArgs coupling (s.beginStep.currentY - y)) s.t (s.t + s.dt)
    (s.beginStep.currentY, s.beginStep.currentYd) <;> rfl

/-- **C17.** With `p_gain = 0`, a sequence of `step` calls returns the same states and leaves the same object for
any two sequences of passed states of the same length. -/
theorem C17_step_ignores_feedback (s : DMP d m) (hp : s.pGain = 0) (coupling : Option (Coupling d))
    (sf : StepFunction) (fb fb' : List (Vec d × Vec d)) (hlen : fb.length = fb'.length) :
    (fb.mapM (fun p => DMP.step coupling sf p.1 p.2)).exec s =
      (fb'.mapM (fun p => DMP.step (m := m) coupling sf p.1 p.2)).exec s := by
  induction fb generalizing fb' s with
  | nil =>
    cases fb' with
    | nil => rfl
    | cons _ _ => simp at hlen
  | cons p fb ih =>
    cases fb' with
    | nil => simp at hlen
    | cons p' fb' =>
      simp only [List.mapM_cons, Py.exec_bind]
      have h2 := step_pGain coupling sf p'.1 p'.2 s
      rw [step_pGain_zero coupling sf p.1 p.2 p'.1 p'.2 s hp]
      rcases h3 : (DMP.step coupling sf p'.1 p'.2).exec s with ⟨r, s'⟩
      rw [h3] at h2
      cases r with
      | error e => rfl
      | ok x =>
        simp only
        rw [ih s' (h2.trans hp) fb' (by simpa using hlen)]

/-- The hypothesis of C17 holds for the default `p_gain`. -/
example : ∃ s : DMP 2 10, s.Reachable ∧ s.pGain = 0 := by
  obtain ⟨s, hs, h⟩ := DMP.create_ok 2 10 (by norm_num) one_pos (1 / 100) (1 / 1000) 0 false 25 (25 / 4)
  exact ⟨s, .create hs, h.2.2.2.1⟩

/-! ## C18 -/

/-- Without tracking error, `p_gain`, velocities and accelerations of the goal are irrelevant. -/
theorem run_no_error (sf : StepFunction) (a : StepArgs d m) (he : a.trackingError = 0) (p : ℝ) (g g' h : Vec d)
    (lastT t : ℝ) (s : Vec d × Vec d) :
    sf.run a lastT t s =
      sf.run { a with pGain := p, goalYd := g, goalYdd := g', startYdd := h } lastT t s := by
  have hb : ({ a with pGain := p, goalYd := g, goalYdd := g', startYdd := h } : StepArgs d m).eulerBody =
      a.eulerBody := by
    funext dt t s
    simp [StepArgs.eulerBody, he, StepArgs.acc, StepArgs.addCd, StepArgs.initialCdd]
  have hb2 : ({ a with pGain := p, goalYd := g, goalYdd := g', startYdd := h } : StepArgs d m).eulerBodyCy =
      a.eulerBodyCy := by
    funext dt t s
    simp [StepArgs.eulerBodyCy, he, StepArgs.cyCoupling]
  have hrk : ({ a with pGain := p, goalYd := g, goalYdd := g', startYdd := h } : StepArgs d m).stepRk4 lastT t s =
      a.stepRk4 lastT t s := by
    simp [StepArgs.stepRk4, he, StepArgs.acc, StepArgs.addCd, StepArgs.initialCdd]
  cases sf with
  | rk4 => exact hrk.symm
  | rk4Cython =>
    show StepArgs.stepRk4Cy _ _ _ _ = StepArgs.stepRk4Cy _ _ _ _
    rw [C10_rk4_cython_eq_python, C10_rk4_cython_eq_python]; exact hrk.symm
  | euler => simp only [StepFunction.run, StepArgs.stepEuler, hb]
  | eulerCython => simp only [StepFunction.run, StepArgs.stepEulerCy, hb2]

theorem fedBack_eq_loopRows (coupling : Option (Coupling d)) (sf : StepFunction) (s0 : DMP d m) :
    ∀ (n i : ℕ) (s : DMP d m), s.openLoopArgs coupling = s0.openLoopArgs coupling → s.startYd = 0 →
      s.dt = s0.dt → s.t = i * s0.dt →
      ((Spec.fedBack (DMP.step coupling sf) n s.beginStep.currentY s.beginStep.currentYd).exec s).1 =
        loopRows (fun i x => sf.run (s0.openLoopArgs coupling) (arangeAt 0 s0.dt i) (arangeAt 0 s0.dt (i + 1)) x)
          id n (s.beginStep.currentY, s.beginStep.currentYd) i := by
  intro n
  induction n with
  | zero => intro i s _ _ _ _; rfl
  | succ n ih =>
    intro i s ha hs hdt ht
    simp only [Spec.fedBack, loopRows, Py.exec_bind, DMP.exec_step, Py.exec_pure]
    have e1 : s.t = arangeAt 0 s0.dt i := by rw [ht]; simp [arangeAt]
    have e2 : s.t + s.dt = arangeAt 0 s0.dt (i + 1) := by
      rw [ht, hdt]; simp [arangeAt]; ring
    have hrun : sf.run (s.beginStep.stepArgs coupling (s.beginStep.currentY - s.beginStep.currentY)) s.t
        (s.t + s.dt) (s.beginStep.currentY, s.beginStep.currentYd) =
        sf.run (s0.openLoopArgs coupling) (arangeAt 0 s0.dt i) (arangeAt 0 s0.dt (i + 1))
          (s.beginStep.currentY, s.beginStep.currentYd) := by
      rw [← e1, ← e2, ← ha, run_no_error sf _ (by simp [DMP.stepArgs]) 0 0 0 0]
      congr 1
      unfold DMP.stepArgs DMP.openLoopArgs
      simp only [DMP.beginStep, sub_self, hs]
    rw [hrun]
    cases hr : sf.run (s0.openLoopArgs coupling) (arangeAt 0 s0.dt i) (arangeAt 0 s0.dt (i + 1))
          (s.beginStep.currentY, s.beginStep.currentYd) with
    | error e => rfl
    | ok r =>
      simp only [DMP.finishStep, bind, Except.bind]
      set s1 : DMP d m := { s.beginStep with currentY := r.1, currentYd := r.2 } with hs1
      have hb : (s1.beginStep.currentY, s1.beginStep.currentYd) = r := by
        simp [hs1, DMP.beginStep]
      have hi := ih (i + 1) s1 (by rw [← ha]; rfl) hs hdt
        (by
          have : s1.t = s.t + s.dt := rfl
          rw [this, ht, hdt]; push_cast; ring)
      have hb1 : s1.beginStep.currentY = r.1 := by rw [← hb]
      have hb2 : s1.beginStep.currentYd = r.2 := by rw [← hb]
      rw [hb1, hb2] at hi
      rcases hf : (Spec.fedBack (DMP.step coupling sf) n r.1 r.2).exec s1 with ⟨x, s2⟩
      rw [hf] at hi
      simp only at hi
      rw [← hi]
      cases x <;> rfl

/-- **C18.** For a new or reset DMP (time 0, not started or current state equal to start state) with start velocity
0 and `dt > 0`: `open_loop(run_t = n * dt)` returns the times `0, dt, ..., n * dt` and, after `start_y`, exactly the
positions obtained by `n` calls of `step` in which every result is passed to the next call; if one raises, so does
the other with the same error. Any `p_gain`, coupling term and step function. -/
theorem C18_step_eq_open_loop (s : DMP d m) (ht : s.t = 0) (hv : s.startYd = 0) (hdt : 0 < s.dt)
    (hcur : s.initialized = true → s.currentY = s.startY ∧ s.currentYd = s.startYd)
    (coupling : Option (Coupling d)) {name : String} {sf : StepFunction}
    (hname : StepFunction.lookup name = .ok sf) (n : ℕ) :
    ((DMP.openLoop (some (n * s.dt)) coupling name).exec s).1 =
      ((Spec.fedBack (DMP.step coupling sf) n s.startY s.startYd).exec s).1.map
        (fun rows => ((List.range (n + 1)).map (fun i : ℕ => i * s.dt), s.startY :: rows.map Prod.fst)) := by
  rw [DMP.exec_openLoop, hname]
  have hb : s.beginStep.currentY = s.startY ∧ s.beginStep.currentYd = s.startYd := by
    unfold DMP.beginStep
    cases hi : s.initialized with
    | false => simp
    | true => simpa using hcur hi
  have hl := fedBack_eq_loopRows coupling sf s n 0 s rfl hv rfl (by simp [ht])
  rw [hb.1, hb.2] at hl
  rw [hl]
  have hlen : arangeLen (s.openLoopArgs coupling).startT (n * s.dt + s.dt) s.dt = n + 1 := by
    unfold arangeLen DMP.openLoopArgs
    rw [sub_zero, show (n : ℝ) * s.dt + s.dt = (n + 1 : ℕ) * s.dt by push_cast; ring,
      mul_div_assoc, div_self hdt.ne', mul_one, Nat.ceil_natCast]
  simp only [Except.bind, dmpOpenLoop, openLoopWith, Option.getD_some, hdt.ne', if_false, hlen, Nat.add_sub_cancel,
    Nat.succ_ne_zero, bind, pure, Except.pure]
  have hmap := loopRows_map
    (fun i x => sf.run (s.openLoopArgs coupling) (arangeAt 0 s.dt i) (arangeAt 0 s.dt (i + 1)) x)
    (fun i x => sf.run (s.openLoopArgs coupling) (arangeAt 0 s.dt i) (arangeAt 0 s.dt (i + 1)) x)
    id Prod.fst id Prod.fst
    (fun i x => by simp only [id]; cases sf.run (s.openLoopArgs coupling) _ _ x <;> rfl)
    (fun x => rfl) n (s.startY, s.startYd) 0
  have hst : ((s.openLoopArgs coupling).startY, (s.openLoopArgs coupling).startYd) = id (s.startY, s.startYd) := by
    rw [hv]; rfl
  have hst0 : (s.openLoopArgs coupling).startT = 0 := rfl
  rw [hst, hst0, hmap]
  cases loopRows (fun i x => sf.run (s.openLoopArgs coupling) (arangeAt 0 s.dt i) (arangeAt 0 s.dt (i + 1)) x)
    id n (s.startY, s.startYd) 0 with
  | error e => rfl
  | ok rows =>
    simp only [Except.map]
    congr 2
    apply List.map_congr_left
    intro i _
    simp [arangeAt]

/-- Hypotheses of C18 hold for new DMPs. -/
example : ∃ s : DMP 2 10, s.Reachable ∧ s.t = 0 ∧ s.startYd = 0 ∧ 0 < s.dt ∧ s.initialized = false ∧
    StepFunction.lookup "rk4" = .ok .rk4 := by
  obtain ⟨s, hs, h⟩ := DMP.create_ok 2 10 (by norm_num) one_pos (1 / 100) (1 / 1000) 0 false 25 (25 / 4)
  refine ⟨s, .create hs, h.2.2.2.2.2.2.1, h.2.2.2.2.2.2.2.2.1, ?_, h.2.2.2.2.2.1, rfl⟩
  rw [h.2.1]; norm_num

/-- Finding (C18): with a start velocity, stepping and `open_loop` differ. A DMP without gains and weights that
starts in 0 with velocity 1 is at position 1 after one step of length 1, while `open_loop` stays at 0. -/
theorem C18_differ_with_start_velocity :
    ∃ (s : DMP 1 2) (r : Vec 1 × Vec 1) (Y : List ℝ × List (Vec 1)), s.Reachable ∧ s.t = 0 ∧
      s.initialized = false ∧
      ((DMP.step none .euler s.startY s.startYd).exec s).1 = .ok r ∧ r.1 0 = 1 ∧
      ((DMP.openLoop (some 1) none "euler").exec s).1 = .ok Y ∧ Y.2 = [fun _ => 0, fun _ => 0] := by
  obtain ⟨s0, hs0, h1, h2, h3, h4, h5, h6, h7, h8, h9, h10, h11, h12, h13⟩ :=
    DMP.create_ok 1 2 le_rfl one_pos 1 1 0 false 0 0
  have hr0 : s0.Reachable := .create hs0
  have hc : (DMP.configure { startYd := some [1] }).exec s0 = (.ok (), { s0 with startYd := fun _ => 1 }) := by
    rw [DMP.exec_configure]
    simp only [Movement.configure, configureField, Py.exec_bind, Py.exec_pure, Py.exec_lift, Py.exec_modify,
      checkLength]
    simp
  have hr : DMP.Reachable { s0 with startYd := (fun _ => 1 : Vec 1) } :=
    .op (.configure { startYd := some [1] }) hr0 hc (by intro τ h; cases h)
  have hf : ∀ z, s0.ft.force z = 0 := by
    intro z; funext k; simp [ForcingTerm.force, h13]
  refine ⟨{ s0 with startYd := fun _ => 1 }, (fun _ => 1, fun _ => 1), ([0, 1], [fun _ => 0, fun _ => 0]), hr, h7, h6,
    ?_, rfl, ?_, rfl⟩
  · rw [DMP.exec_step]
    have hrun : ∀ x : DMP 1 2, (DMP.finishStep x (.ok ((fun _ => 1, fun _ => 1) : Vec 1 × Vec 1))).1 =
        .ok (fun _ => 1, fun _ => 1) := fun _ => rfl
    rw [← hrun]
    congr 2
    simp only [StepFunction.run, StepArgs.stepEuler, DMP.stepArgs, DMP.beginStep, h1, h2, h3, h6, h7]
    rw [if_neg (by norm_num), if_neg (by norm_num), intLoop_single _ (by norm_num) (by norm_num)]
    refine congrArg Except.ok ?_
    ext k <;> simp [StepArgs.eulerBody, StepArgs.addCd, StepArgs.acc, StepArgs.initialCdd, hf, h11, h12, h8]
  · rw [DMP.exec_openLoop]
    have hl : StepFunction.lookup "euler" = .ok .euler := rfl
    rw [hl]
    have hlen : arangeLen 0 (1 + 1) 1 = 2 := by
      unfold arangeLen
      rw [show ((1 + 1 - 0) / 1 : ℝ) = (2 : ℕ) by norm_num, Nat.ceil_natCast]
    simp only [Except.bind, dmpOpenLoop, openLoopWith, DMP.openLoopArgs, h1, h2, h3, Option.getD_some, hlen, loopRows,
      StepFunction.run, StepArgs.stepEuler, bind, pure, Except.pure, h8]
    rw [if_neg one_ne_zero, if_neg (by norm_num), if_neg (by norm_num), if_neg (by simp [arangeAt]),
      intLoop_single _ (by simp [arangeAt]) (by simp [arangeAt])]
    simp only [Except.ok.injEq, Prod.mk.injEq, List.cons.injEq, and_true]
    refine ⟨?_, rfl, ?_⟩
    · simp [arangeAt, List.range_succ]
    · funext k
      simp [StepArgs.eulerBody, StepArgs.addCd, StepArgs.acc, StepArgs.initialCdd, hf, h11, h12]

/-! ## C20 -/

/-- **C20.** If `open_loop` returns, then its time array is the uniform grid `0, dt, 2 dt, ...` whose last entry is the
first grid point that is not before `run_t` (default: execution time), there is one position per time, and the first
position is `start_y`. -/
theorem C20_open_loop_grid (s : DMP d m) (hdt : 0 < s.dt) (runT : Option ℝ) (coupling : Option (Coupling d))
    (name : String) {T : List ℝ} {Y : List (Vec d)}
    (h : ((DMP.openLoop runT coupling name).exec s).1 = .ok (T, Y)) :
    Y.length = T.length ∧ 0 < T.length ∧ (∀ i (hi : i < T.length), T[i] = i * s.dt) ∧
      runT.getD s.executionTime ≤ (T.length - 1 : ℕ) * s.dt ∧
      (∀ i : ℕ, i + 1 < T.length → i * s.dt < runT.getD s.executionTime) ∧
      Y.head? = some s.startY := by
  rw [DMP.exec_openLoop] at h
  cases hn : StepFunction.lookup name with
  | error e => rw [hn] at h; cases h
  | ok sf =>
    rw [hn] at h
    simp only [Except.bind, dmpOpenLoop, openLoopWith, hdt.ne', if_false, bind, pure, Except.pure] at h
    have e0 : (s.openLoopArgs coupling).startT = 0 := rfl
    have e1 : (s.openLoopArgs coupling).goalT = s.executionTime := rfl
    have e2 : (s.openLoopArgs coupling).startY = s.startY := rfl
    rw [e0, e1, e2] at h
    set run := runT.getD s.executionTime with hrun
    set n := arangeLen 0 (run + s.dt) s.dt with hndef
    by_cases hz : n = 0
    · rw [if_pos hz] at h; cases h
    rw [if_neg hz] at h
    cases hl : loopRows (fun i x => sf.run (s.openLoopArgs coupling) (arangeAt 0 s.dt i)
        (arangeAt 0 s.dt (i + 1)) x) Prod.fst (n - 1) (s.startY, (s.openLoopArgs coupling).startYd) 0 with
    | error e => rw [hl] at h; cases h
    | ok rows =>
      rw [hl] at h
      simp only [Except.ok.injEq, Prod.mk.injEq] at h
      obtain ⟨hT, hY⟩ := h
      subst hT hY
      have hlen := (loopRows_get _ _ _ _ _ _ hl).1
      have hnpos : 0 < n := Nat.pos_of_ne_zero hz
      have hceil : n = ⌈run / s.dt + 1⌉₊ := by
        rw [hndef]; unfold arangeLen; congr 1; field_simp; ring
      refine ⟨by simp [hlen]; omega, by simpa using hnpos, ?_, ?_, ?_, rfl⟩
      · intro i hi
        simp [arangeAt]
      · simp only [List.length_map, List.length_range]
        have h1 : run / s.dt + 1 ≤ n := by rw [hceil]; exact Nat.le_ceil _
        have h2 : ((n - 1 : ℕ) : ℝ) = n - 1 := by
          rw [Nat.cast_sub hnpos]; simp
        rw [h2, ← div_le_iff₀ hdt]
        linarith
      · intro i hi
        simp only [List.length_map, List.length_range] at hi
        rw [hceil, Nat.lt_ceil] at hi
        push_cast at hi
        rw [← lt_div_iff₀ hdt]
        linarith

/-- **C20 (prefix).** A longer run extends a shorter run: the time and position arrays of the shorter run are prefixes
of those of the longer run. -/
theorem C20_open_loop_prefix (s : DMP d m) (hdt : 0 < s.dt) {r r' : ℝ} (hr : r ≤ r')
    (coupling : Option (Coupling d)) (name : String) {T T' : List ℝ} {Y Y' : List (Vec d)}
    (h : ((DMP.openLoop (some r) coupling name).exec s).1 = .ok (T, Y))
    (h' : ((DMP.openLoop (some r') coupling name).exec s).1 = .ok (T', Y')) : T <+: T' ∧ Y <+: Y' := by
  rw [DMP.exec_openLoop] at h h'
  cases hn : StepFunction.lookup name with
  | error e => rw [hn] at h; cases h
  | ok sf =>
    rw [hn] at h h'
    simp only [Except.bind, dmpOpenLoop, openLoopWith, hdt.ne', if_false, bind, pure, Except.pure, Option.getD_some] at h h'
    set a := s.openLoopArgs coupling
    set n := arangeLen a.startT (r + s.dt) s.dt with hndef
    set n' := arangeLen a.startT (r' + s.dt) s.dt with hndef'
    have hnn : n ≤ n' := by
      rw [hndef, hndef']; unfold arangeLen
      apply Nat.ceil_mono
      gcongr
    by_cases hz : n = 0
    · rw [if_pos hz] at h; cases h
    have hz' : n' ≠ 0 := by omega
    rw [if_neg hz] at h
    rw [if_neg hz'] at h'
    cases hl : loopRows (fun i x => sf.run a (arangeAt a.startT s.dt i) (arangeAt a.startT s.dt (i + 1)) x)
        Prod.fst (n - 1) (a.startY, a.startYd) 0 with
    | error e => rw [hl] at h; cases h
    | ok rows =>
      cases hl' : loopRows (fun i x => sf.run a (arangeAt a.startT s.dt i) (arangeAt a.startT s.dt (i + 1)) x)
          Prod.fst (n' - 1) (a.startY, a.startYd) 0 with
      | error e => rw [hl'] at h'; cases h'
      | ok rows' =>
        rw [hl] at h
        rw [hl'] at h'
        simp only [Except.ok.injEq, Prod.mk.injEq] at h h'
        obtain ⟨hT, hY⟩ := h
        obtain ⟨hT', hY'⟩ := h'
        subst hT hY hT' hY'
        constructor
        · apply List.IsPrefix.map
          obtain ⟨k, hk⟩ : ∃ k, n' = n + k := ⟨n' - n, by omega⟩
          rw [← hndef, ← hndef', hk, List.range_add]
          exact List.prefix_append _ _
        · rw [List.prefix_cons_inj]
          have hg := loopRows_get _ _ _ _ _ _ hl
          have hg' := loopRows_get _ _ _ _ _ _ hl'
          rw [List.prefix_iff_eq_take]
          apply List.ext_getElem
          · rw [List.length_take, hg.1, hg'.1]; omega
          · intro j hj1 hj2
            rw [List.getElem_take]
            obtain ⟨x, hx1, hx2⟩ := hg.2 j hj1
            obtain ⟨x', hx1', hx2'⟩ := hg'.2 j (by rw [hg'.1]; rw [hg.1] at hj1; omega)
            rw [hx1] at hx1'
            cases hx1'
            rw [← hx2, ← hx2']

/-- **C20.** `open_loop` with `rk4` and `dt > 0` does return for every non-negative duration. -/
theorem C20_open_loop_returns (s : DMP d m) (hdt : 0 < s.dt) {r : ℝ} (hr : 0 ≤ r) (coupling : Option (Coupling d)) :
    ∃ T Y, ((DMP.openLoop (some r) coupling "rk4").exec s).1 = .ok (T, Y) := by
  rw [DMP.exec_openLoop]
  have hl : StepFunction.lookup "rk4" = .ok .rk4 := rfl
  rw [hl]
  simp only [Except.bind, dmpOpenLoop, openLoopWith, hdt.ne', if_false, bind, pure, Except.pure, Option.getD_some]
  set a := s.openLoopArgs coupling
  have hn : arangeLen a.startT (r + s.dt) s.dt ≠ 0 := by
    unfold arangeLen
    have : a.startT = 0 := rfl
    rw [this, sub_zero, Ne, Nat.ceil_eq_zero, not_le]
    positivity
  rw [if_neg hn]
  obtain ⟨rows, hrows⟩ := loopRows_ok
    (fun i x => StepFunction.rk4.run a (arangeAt a.startT s.dt i) (arangeAt a.startT s.dt (i + 1)) x) Prod.fst
    (arangeLen a.startT (r + s.dt) s.dt - 1) (a.startY, a.startYd) 0 (by
      generalize arangeLen a.startT (r + s.dt) s.dt - 1 = k
      generalize (a.startY, a.startYd) = x
      generalize 0 = i
      induction k generalizing x i with
      | zero => exact ⟨x, rfl⟩
      | succ k ih =>
        obtain ⟨y, hy⟩ : ∃ y, StepFunction.rk4.run a (arangeAt a.startT s.dt i)
            (arangeAt a.startT s.dt (i + 1)) x = .ok y := ⟨_, rfl⟩
        obtain ⟨z, hz⟩ := ih y (i + 1)
        exact ⟨z, by rw [loopState, hy]; exact hz⟩)
  rw [hrows]
  exact ⟨_, _, rfl⟩

/-! ## C22 -/

/-- **C22.** Weights that are written can be read; nothing else changes. -/
theorem C22_set_get_weights (s : DMP d m) (w : List ℝ) (hw : w.length = d * m) :
    ∃ s', (DMP.setWeights w).exec s = (.ok (), s') ∧ s'.getWeights = w ∧
      { s' with ft := { s'.ft with weights := s.ft.weights } } = s := by
  unfold DMP.setWeights DMP.reshapeWeights
  simp only [Py.exec_bind, Py.exec_lift]
  rw [dif_pos hw]
  refine ⟨_, rfl, ?_, rfl⟩
  unfold DMP.getWeights
  apply List.ext_getElem
  · simp [hw]
  · intro i h1 h2
    simp only [List.getElem_ofFn]
    congr 1
    have hi : i < d * m := by rw [← hw]; exact h2
    have := congrArg Fin.val (finProdFinEquiv.apply_symm_apply (⟨i, hi⟩ : Fin (d * m)))
    simpa [finProdFinEquiv] using this

/-- **C22.** Writing the weights that were read changes nothing. -/
theorem C22_get_set_weights (s : DMP d m) : (DMP.setWeights s.getWeights).exec s = (.ok (), s) := by
  unfold DMP.setWeights DMP.reshapeWeights
  simp only [Py.exec_bind, Py.exec_lift]
  rw [dif_pos (by simp [DMP.getWeights])]
  simp only [Py.exec_modify, Prod.mk.injEq, true_and]
  have : (fun (k : Fin d) (i : Fin m) => s.getWeights[(finProdFinEquiv (k, i)).val]'(by
      simp [DMP.getWeights, -finProdFinEquiv_apply_val])) = s.ft.weights := by
    funext k i
    simp only [DMP.getWeights, List.getElem_ofFn]
    have h := finProdFinEquiv.symm_apply_apply (k, i)
    have h1 : (finProdFinEquiv (k, i)).divNat = k := congrArg Prod.fst h
    have h2 : (finProdFinEquiv (k, i)).modNat = i := congrArg Prod.snd h
    simp only [Fin.eta, h1, h2]
  rw [this]

/-- **C22.** A weight vector of wrong length raises ValueError and changes nothing. -/
theorem C22_wrong_length (s : DMP d m) (w : List ℝ) (hw : w.length ≠ d * m) :
    (DMP.setWeights w).exec s = (.error .valueError, s) := by
  unfold DMP.setWeights DMP.reshapeWeights
  simp only [Py.exec_bind, Py.exec_lift]
  rw [dif_neg hw]

/-- The weights are read in row-major order: entry `k * m + i` belongs to dimension `k`, basis function `i`. -/
theorem C22_row_major (s : DMP d m) (k : Fin d) (i : Fin m) :
    s.getWeights[k.val * m + i.val]? = some (s.ft.weights k i) := by
  have h := finProdFinEquiv.symm_apply_apply (k, i)
  have h1 : (finProdFinEquiv (k, i)).divNat = k := congrArg Prod.fst h
  have h2 : (finProdFinEquiv (k, i)).modNat = i := congrArg Prod.snd h
  have hv : (finProdFinEquiv (k, i)).val = k.val * m + i.val := by
    simp [finProdFinEquiv]; ring
  rw [← hv, List.getElem?_eq_getElem (by
    simp [DMP.getWeights, -finProdFinEquiv_apply_val])]
  simp only [DMP.getWeights, List.getElem_ofFn, Fin.eta, h1, h2]

/-! ## C24 -/

/-- **C24.** For every reachable DMP, assigning a positive execution time succeeds, is read back, keeps the weights and
everything else, and rebuilds the phase: it is 1 at time 0 and 0.01 at the new end. -/
theorem C24_set_execution_time {s : DMP d m} (hs : s.Reachable) {τ : ℝ} (hτ : 0 < τ) :
    ∃ s', (DMP.setExecutionTime τ).exec s = (.ok (), s') ∧ s'.executionTime = τ ∧
      s'.getWeights = s.getWeights ∧ s'.ft.phaseAt 0 = 1 ∧ s'.ft.phaseAt τ = 1 / 100 ∧
      { s' with executionTime := s.executionTime, ft := s.ft } = s := by
  obtain ⟨ft, hft⟩ := (DMP.initForcingTerm_isOk_iff (d := d) (m := m) τ).2 ⟨hs.valid.pos.1, hτ⟩
  rw [DMP.exec_setExecutionTime, hft]
  rw [DMP.initForcingTerm_ok_iff] at hft
  unfold ForcingTerm.create at hft
  split_ifs at hft
  simp only [Except.ok.injEq] at hft
  subst hft
  refine ⟨_, rfl, rfl, rfl, ?_, ?_, rfl⟩
  · simp [ForcingTerm.phaseAt, phase]
  · simp only [ForcingTerm.phaseAt, phase, sub_zero]
    rw [neg_neg, mul_div_assoc, div_self hτ.ne', mul_one, Real.exp_log (by norm_num)]

/-- **C24.** After the assignment the phase and the basis functions are those of a new DMP with this execution time. -/
theorem C24_same_as_new {s s' : DMP d m} {τ : ℝ} (h : (DMP.setExecutionTime τ).exec s = (.ok (), s'))
    {dt intDt pGain : ℝ} {smooth : Bool} {α β : ArrayLike} {f : DMP d m}
    (hf : DMP.create d m τ dt intDt pGain smooth α β = .ok f) :
    s'.ft = { f.ft with weights := s.ft.weights } := by
  obtain ⟨ft, h1, h2⟩ := DMP.create_valid hf
  have he : f.executionTime = τ := by
    unfold DMP.create at hf
    cases h1 : DMP.initForcingTerm d m τ with
    | error e => rw [h1] at hf; cases hf
    | ok ft =>
      rw [h1] at hf
      cases h2 : ensure1dArray α d with
      | error e => rw [h2] at hf; cases hf
      | ok a =>
        rw [h2] at hf
        cases h3 : ensure1dArray β d with
        | error e => rw [h3] at hf; cases hf
        | ok b =>
          rw [h3] at hf
          simp only [bind, Except.bind, pure, Except.pure, Except.ok.injEq] at hf
          subst hf; rfl
  rw [he] at h1
  rw [DMP.exec_setExecutionTime, h1] at h
  simp only [Prod.mk.injEq, true_and] at h
  subst h
  rw [h2]

/-- Finding (C24): a failing assignment is not atomic. For every DMP and every `execution_time <= 0` the assignment
raises ValueError, but the invalid value is stored while the forcing term still belongs to the old one. -/
theorem C24_failure_not_atomic (s : DMP d m) {τ : ℝ} (hτ : τ ≤ 0) :
    (DMP.setExecutionTime τ).exec s = (.error .valueError, { s with executionTime := τ }) := by
  rw [DMP.exec_setExecutionTime]
  have : DMP.initForcingTerm d m τ = .error .valueError := by
    unfold DMP.initForcingTerm canonicalSystemAlpha
    rw [if_neg (by norm_num), if_pos hτ]
    rfl
  rw [this]

/-- Hypotheses of C24 and of `C24_same_as_new` are met. -/
example : ∃ s s' f : DMP 2 10, s.Reachable ∧ (DMP.setExecutionTime 2).exec s = (.ok (), s') ∧
    DMP.create 2 10 2 1 1 0 false (.scalar 1) (.scalar 1) = .ok f := by
  obtain ⟨s, hs, _⟩ := DMP.create_ok 2 10 (by norm_num) one_pos (1 / 100) (1 / 1000) 0 false 25 (25 / 4)
  obtain ⟨f, hf, _⟩ := DMP.create_ok 2 10 (by norm_num) (two_pos (α := ℝ)) 1 1 0 false 1 1
  obtain ⟨s', h, _⟩ := C24_set_execution_time (.create hs) (two_pos (α := ℝ))
  exact ⟨s, s', f, .create hs, h, hf⟩

/-! ## C59 -/

/-- **C59.** `check_1d_array_length` raises exactly for a wrong length and otherwise keeps the values. -/
theorem C59_check_length (n : ℕ) (xs : List ℝ) :
    (xs.length = n → ∃ v, checkLength n xs = .ok v ∧ List.ofFn v = xs) ∧
    (xs.length ≠ n → checkLength n xs = .error .valueError) := by
  constructor
  · intro h
    refine ⟨_, by unfold checkLength; rw [dif_pos h], ?_⟩
    apply List.ext_getElem
    · simp [h]
    · intro i h1 h2; simp
  · intro h
    unfold checkLength; rw [dif_neg h]

/-- **C59.** `ensure_1d_array`: a scalar or an array of length one becomes `n` copies, an array of length `n` is
returned unchanged, everything else raises ValueError. -/
theorem C59_ensure_1d_array (n : ℕ) (value : ArrayLike) :
    ensure1dArray value n = match value with
      | .scalar x => .ok (fun _ => x)
      | .arrayNd => .error .valueError
      | .array1 xs =>
        if h1 : xs.length = 1 then .ok (fun _ => xs[0])
        else if h : xs.length = n then .ok (fun i => xs[i]) else .error .valueError := by
  cases value with
  | scalar x => simp [ensure1dArray, checkLength]
  | arrayNd => rfl
  | array1 xs =>
    match xs with
    | [] => simp [ensure1dArray, checkLength]
    | [x] => simp [ensure1dArray, checkLength]
    | x :: y :: xs => simp [ensure1dArray, checkLength]

/-! ## C61 -/

/-- **C61.** `n_steps_open_loop` composes, for every `step` method: running `n + k` steps has the same result, effect
and errors as running `n` steps and then `k` steps from the returned state. -/
theorem C61_n_steps_compose {σ : Type} {p v : ℕ} (step : Vec p → Vec v → Py σ (Vec p × Vec v)) (n k : ℕ)
    (y : Vec p) (yd : Vec v) (s : σ) :
    (nStepsOpenLoop step (n + k) y yd).exec s =
      (nStepsOpenLoop step n y yd >>= fun r => nStepsOpenLoop step k r.1 r.2).exec s := by
  induction n generalizing y yd s with
  | zero => simp only [Nat.zero_add, nStepsOpenLoop, pure_bind]
  | succ n ih =>
    rw [show n + 1 + k = (n + k) + 1 by omega]
    simp only [nStepsOpenLoop, bind_assoc, Py.exec_bind]
    rcases (step y yd).exec s with ⟨r, s'⟩
    cases r with
    | error e => rfl
    | ok x =>
      simp only
      rw [ih, Py.exec_bind]

/-- **C61.** The result is the last one of the fed-back sequence of `step` results. -/
theorem C61_n_steps_eq_fedBack {σ : Type} {p v : ℕ} (step : Vec p → Vec v → Py σ (Vec p × Vec v)) (n : ℕ)
    (y : Vec p) (yd : Vec v) (s : σ) :
    ((nStepsOpenLoop step n y yd).exec s) =
      (((Spec.fedBack step n y yd).exec s).1.map (fun rows => rows.getLastD (y, yd)),
        ((Spec.fedBack step n y yd).exec s).2) := by
  induction n generalizing y yd s with
  | zero => rfl
  | succ n ih =>
    simp only [nStepsOpenLoop, Spec.fedBack, Py.exec_bind, Py.exec_pure]
    rcases (step y yd).exec s with ⟨r, s'⟩
    cases r with
    | error e => rfl
    | ok x =>
      simp only
      rw [ih]
      rcases (Spec.fedBack step n x.1 x.2).exec s' with ⟨rows, s''⟩
      cases rows with
      | error e => rfl
      | ok rows => simp only [Except.map, List.getLastD_cons]

end Verif
