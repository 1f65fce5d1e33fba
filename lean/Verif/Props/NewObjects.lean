import Verif.Props.PhaseObjects
import Verif.Props.MinJerk
import Verif.Props.StepNames
import Verif.Props.Imitate
import Verif.Props.SpringDamper
import Verif.Lemmas.Promp
import Verif.Spec.Execution

/-! # C83: new movement primitives -/

namespace Verif
open Spec
variable {d m n p v : ℕ}

theorem fedBack_fixed {σ : Type} {step : Vec p → Vec v → Py σ (Vec p × Vec v)} {y : Vec p} {yd : Vec v} (P : σ → Prop)
    (h : ∀ s, P s → ∃ s', (step y yd).exec s = (.ok (y, yd), s') ∧ P s') (n : ℕ) {s : σ} (hs : P s) :
    ((fedBack step n y yd).exec s).1 = .ok (List.replicate n (y, yd)) := by
  induction n generalizing s with
  | zero => rfl
  | succ n ih =>
    obtain ⟨s', h1, h2⟩ := h s hs
    have h3 := ih h2
    unfold fedBack
    rw [Py.exec_bind, h1]
    simp only
    rw [Py.exec_bind]
    generalize (fedBack step n y yd).exec s' = r at h3 ⊢
    obtain ⟨r, s''⟩ := r
    simp only at h3
    subst h3
    rfl

theorem openLoopWith_fixed {goalT startT dt : ℝ} (hdt : 0 < dt) {start : Vec p × Vec v} {runT : Option ℝ}
    (hr : startT ≤ runT.getD goalT) {step : ℝ → ℝ → Vec p × Vec v → Except PyErr (Vec p × Vec v)}
    (h : ∀ lastT t, step lastT t start = .ok start) :
    ∃ T, T ≠ [] ∧ openLoopWith goalT startT dt start runT step = .ok (T, List.replicate T.length start.1) := by
  have hn : arangeLen startT (runT.getD goalT + dt) dt ≠ 0 := by
    unfold arangeLen
    rw [Ne, Nat.ceil_eq_zero, not_le]
    apply div_pos _ hdt
    linarith
  refine ⟨(List.range (arangeLen startT (runT.getD goalT + dt) dt)).map (arangeAt startT dt), by simp [hn], ?_⟩
  · unfold openLoopWith
    rw [if_neg hdt.ne', if_neg hn, loopRows_fixed _ _ (fun i => h _ _)]
    simp only [bind, Except.bind, Pure.pure, Except.pure]
    rw [← List.replicate_succ, Nat.sub_add_cancel (by omega)]
    simp only [List.length_map, List.length_range]

theorem DMP.create_eq {τ dt intDt pGain : ℝ} {smooth : Bool} {α β : ArrayLike} {s : DMP d m}
    (h : DMP.create d m τ dt intDt pGain smooth α β = .ok s) :
    s.toMovement = Movement.init d d ∧ s.executionTime = τ ∧ s.dt = dt ∧ s.intDt = intDt ∧ s.initialized = false ∧
      0 < τ ∧ s.ft.weights = fun _ _ => 0 := by
  unfold DMP.create at h
  cases h1 : DMP.initForcingTerm d m τ with
  | error e => rw [h1] at h; cases h
  | ok ft =>
    rw [h1] at h
    cases h2 : ensure1dArray α d with
    | error e => rw [h2] at h; cases h
    | ok a =>
      rw [h2] at h
      cases h3 : ensure1dArray β d with
      | error e => rw [h3] at h; cases h
      | ok b =>
        rw [h3] at h
        simp only [bind, Except.bind, Pure.pure, Except.pure, Except.ok.injEq] at h
        subst h
        rw [DMP.initForcingTerm_ok_iff] at h1
        obtain ⟨_, _, _, _, _, e6, _, e8⟩ := Verif.create_eq h1
        exact ⟨rfl, rfl, rfl, rfl, rfl, e6, e8⟩

theorem getWeights_zero {s : DMP d m} (h : s.ft.weights = fun _ _ => 0) : s.getWeights = List.replicate (d * m) 0 := by
  unfold DMP.getWeights
  rw [h]
  simp

/-- **C83 (DMP).** A new DMP has zero weights and holds still at the origin with every integrator: all rows of `open_loop`
are 0 for every run time, and so are all results of `step` if they are fed back. This holds for every gain, execution
time, `p_gain` and with and without smooth scaling. -/
theorem C83_dmp {τ dt intDt pGain : ℝ} {smooth : Bool} {α β : ArrayLike} {s : DMP d m}
    (h : DMP.create d m τ dt intDt pGain smooth α β = .ok s) (hdt : 0 < dt) (hint : 0 < intDt) {name : String}
    {sf : StepFunction} (hsf : (name, sf) ∈ integrators) :
    s.getWeights = List.replicate (d * m) 0 ∧
    (∀ runT : Option ℝ, (∀ r ∈ runT, 0 ≤ r) → ∃ T, T ≠ [] ∧
      ((DMP.openLoop runT none name).exec s).1 = .ok (T, List.replicate T.length 0)) ∧
    ∀ n, ((fedBack (DMP.step none sf) n 0 0).exec s).1 = .ok (List.replicate n (0, 0)) := by
  obtain ⟨h1, h2, h3, h4, h5, h6, h7⟩ := DMP.create_eq h
  have hstart : s.startY = 0 := by rw [h1]; rfl
  have hstartd : s.startYd = 0 := by rw [h1]; rfl
  have hgoal : s.goalY = 0 := by rw [h1]; rfl
  refine ⟨getWeights_zero h7, fun runT hr => ?_, fun n => ?_⟩
  · rw [DMP.exec_openLoop, ((C78_names name QuatOps.cython).1 sf).2 hsf]
    simp only [Except.bind]
    have := openLoopWith_fixed (goalT := (s.openLoopArgs none).goalT) (startT := 0) (dt := s.dt)
      (start := ((s.openLoopArgs none).startY, (s.openLoopArgs none).startYd)) (runT := runT) (by rw [h3]; exact hdt) (by
      cases runT with
      | none => show 0 ≤ s.executionTime; rw [h2]; exact h6.le
      | some r => exact hr r rfl) (step := sf.run (s.openLoopArgs none)) (fun lastT t => by
        have := C15_goal_is_equilibrium (s.openLoopArgs none) rfl rfl (hstart.trans hgoal.symm) rfl
          (fun k i => congrFun (congrFun h7 k) i) rfl (by show 0 < s.executionTime; rw [h2]; exact h6)
          (by show 0 < s.intDt; rw [h4]; exact hint) sf lastT t
        rw [show (s.openLoopArgs none).goalY = (s.openLoopArgs none).startY from hgoal.trans hstart.symm] at this
        exact this)
    rw [show (s.openLoopArgs none).startY = 0 from hstart] at this
    unfold dmpOpenLoop
    rw [show (s.openLoopArgs none).startY = 0 from hstart]
    exact this
  · refine fedBack_fixed (fun s : DMP d m => s.startY = 0 ∧ s.goalY = 0 ∧ s.startYd = 0 ∧ (s.ft.weights = fun _ _ => 0) ∧
      0 < s.executionTime ∧ 0 < s.intDt ∧ (s.initialized = true → s.currentY = 0 ∧ s.currentYd = 0)) ?_ n
      ⟨hstart, hgoal, hstartd, h7, by rw [h2]; exact h6, by rw [h4]; exact hint, by rw [h5]; simp⟩
    rintro s ⟨a1, a2, a3, a4, a5, a6, a7⟩
    rw [DMP.exec_step]
    have hc : s.beginStep.currentY = 0 := by
      show (if s.initialized then s.currentY else s.startY) = 0
      split_ifs with hi
      · exact (a7 hi).1
      · exact a1
    have hcd : s.beginStep.currentYd = 0 := by
      show (if s.initialized then s.currentYd else s.startYd) = 0
      split_ifs with hi
      · exact (a7 hi).2
      · exact a3
    have := C15_goal_is_equilibrium (s.beginStep.stepArgs none (s.beginStep.currentY - 0)) rfl rfl (a1.trans a2.symm) a3
      (fun k i => congrFun (congrFun a4 k) i) (by rw [hc]; simp [DMP.stepArgs]) a5 a6 sf s.t (s.t + s.dt)
    rw [show (s.beginStep.stepArgs none (s.beginStep.currentY - 0)).goalY = 0 from a2] at this
    rw [hcd]
    rw [hc] at this ⊢
    rw [this]
    exact ⟨_, rfl, a1, a2, a3, a4, a5, a6, fun _ => ⟨rfl, rfl⟩⟩

theorem fvStep_rest (a : StepArgs d m) (hc : a.coupling = none) (hp : a.precomputed = none) (h1 : a.startY = 0)
    (h2 : a.startYd = 0) (h3 : a.startYdd = 0) (h4 : a.goalY = 0) (h5 : a.goalYd = 0) (h6 : a.goalYdd = 0)
    (hw : a.ft.weights = fun _ _ => 0) (he : a.trackingError = 0) (hT : a.startT < a.goalT) (hd : 0 < a.intDt)
    (lastT t : ℝ) : a.fvStep lastT t (0, 0) = .ok (0, 0) := by
  unfold StepArgs.fvStep
  rw [if_neg (not_le.2 hT)]
  split_ifs with ht
  · rfl
  unfold solveConstraints linalgSolve
  rw [if_neg (constraintMatrix_det hT.ne), h1, h2, h3, h4, h5, h6]
  have hz : (fun (i : Fin 6) (k : Fin d) => ((constraintMatrix a.startT a.goalT)⁻¹ * Matrix.of ![(0 : Vec d), 0, 0, 0, 0, 0]) i k) =
      fun _ => 0 := by
    have : (Matrix.of ![(0 : Vec d), 0, 0, 0, 0, 0] : Matrix (Fin 6) (Fin d) ℝ) = 0 := by
      ext i k; fin_cases i <;> rfl
    rw [this, Matrix.mul_zero]
    rfl
  simp only [bind, Except.bind]
  rw [hz, intLoop_eq _ hd]
  have hb : ∀ dt u, a.fvBody (fun _ => 0) dt u ((0, 0) : Vec d × Vec d) = (0, 0) := by
    intro dt u
    have hf : ∀ z, a.ft.force z = 0 := by
      intro z; funext k; exact C04_force_zero a.ft k (fun i => congrFun (congrFun hw k) i) z
    have hg : applyConstraints u a.goalY a.goalT (fun _ => (0 : Vec d)) = (0, 0, 0) := by
      unfold applyConstraints
      rw [h4]
      split_ifs
      · rfl
      · simp; rfl
    unfold StepArgs.fvBody StepArgs.fvCoupling
    simp only [hc, hp, hf, hg, he]
    ext k <;> simp
  congr 1
  generalize subSteps a.intDt t lastT = L
  induction L with
  | nil => rfl
  | cons q L ih => rw [List.foldl_cons, hb, ih]

/-- **C83 (DMPWithFinalVelocity).** A new object holds still at the origin. -/
theorem C83_fv {τ dt intDt pGain : ℝ} {α β : ArrayLike} {s : FvDMP d m}
    (h : FvDMP.create d m τ dt intDt pGain α β = .ok s) (hdt : 0 < dt) (hint : 0 < intDt) :
    s.getWeights = List.replicate (d * m) 0 ∧
    (∀ runT : Option ℝ, (∀ r ∈ runT, 0 ≤ r) → ∃ T, T ≠ [] ∧
      ((FvDMP.openLoop runT none).exec s).1 = .ok (T, List.replicate T.length 0)) ∧
    ∀ n, ((fedBack (FvDMP.step none) n 0 0).exec s).1 = .ok (List.replicate n (0, 0)) := by
  obtain ⟨h1, h2, h3, h4, h5, h6, h7⟩ := DMP.create_eq h
  refine ⟨getWeights_zero h7, fun runT hr => ?_, fun n => ?_⟩
  · have := openLoopWith_fixed (goalT := s.executionTime) (startT := 0) (dt := s.dt)
      (start := ((0 : Vec d), (0 : Vec d))) (runT := runT) (by rw [h3]; exact hdt) (by
      cases runT with
      | none => show 0 ≤ s.executionTime; rw [h2]; exact h6.le
      | some r => exact hr r rfl) (step := (FvDMP.openLoopArgs s none).fvStep) (fun lastT t =>
        fvStep_rest _ rfl rfl (by rw [FvDMP.openLoopArgs, DMP.stepArgs, h1]; rfl)
          (by rw [FvDMP.openLoopArgs, DMP.stepArgs, h1]; rfl) (by rw [FvDMP.openLoopArgs, DMP.stepArgs, h1]; rfl)
          (by rw [FvDMP.openLoopArgs, DMP.stepArgs, h1]; rfl) (by rw [FvDMP.openLoopArgs, DMP.stepArgs, h1]; rfl)
          (by rw [FvDMP.openLoopArgs, DMP.stepArgs, h1]; rfl) h7 rfl
          (by show 0 < s.executionTime; rw [h2]; exact h6) (by show 0 < s.intDt; rw [h4]; exact hint) lastT t)
    have e : ((FvDMP.openLoop runT none).exec s).1 = openLoopWith s.executionTime 0 s.dt (s.startY, s.startYd) runT
      (FvDMP.openLoopArgs s none).fvStep := rfl
    rw [e, show s.startY = 0 by rw [h1]; rfl, show s.startYd = 0 by rw [h1]; rfl]
    exact this
  · refine fedBack_fixed (fun s : FvDMP d m => s.startY = 0 ∧ s.startYd = 0 ∧ s.startYdd = 0 ∧ s.goalY = 0 ∧ s.goalYd = 0 ∧
      s.goalYdd = 0 ∧ (s.ft.weights = fun _ _ => 0) ∧
      0 < s.executionTime ∧ 0 < s.intDt ∧ (s.initialized = true → s.currentY = 0 ∧ s.currentYd = 0)) ?_ n
      ⟨by rw [h1]; rfl, by rw [h1]; rfl, by rw [h1]; rfl, by rw [h1]; rfl, by rw [h1]; rfl, by rw [h1]; rfl, h7,
        by rw [h2]; exact h6, by rw [h4]; exact hint, by rw [h5]; simp⟩
    rintro s ⟨a1, a2, a3, a4, a5, a6, a7, a8, a9, a10⟩
    rw [FvDMP.exec_step]
    have hc : s.beginStep.currentY = 0 := by
      show (if s.initialized then s.currentY else s.startY) = 0
      split_ifs with hi
      · exact (a10 hi).1
      · exact a1
    have hcd : s.beginStep.currentYd = 0 := by
      show (if s.initialized then s.currentYd else s.startYd) = 0
      split_ifs with hi
      · exact (a10 hi).2
      · exact a2
    have := fvStep_rest (s.beginStep.stepArgs none (s.beginStep.currentY - 0)) rfl rfl a1 a2 a3 a4 a5 a6 a7
      (by rw [hc]; simp [DMP.stepArgs]) a8 a9 s.t (s.t + s.dt)
    rw [hcd]
    rw [hc] at this ⊢
    rw [this]
    exact ⟨_, rfl, a1, a2, a3, a4, a5, a6, a7, a8, a9, fun _ => ⟨rfl, rfl⟩⟩

/-- **C83 (SpringDamper).** -/
theorem C83_spring_damper (d : ℕ) {dt k intDt : ℝ} (c : Option ℝ) (hdt : 0 < dt) (hint : 0 < intDt) :
    (∀ r : ℝ, 0 ≤ r → ∃ T, T ≠ [] ∧
      ((SpringDamper.openLoop r none).exec (SpringDamper.create d dt k c intDt)).1 = .ok (T, List.replicate T.length 0)) ∧
    ∀ n, ((fedBack (SpringDamper.step none) n 0 0).exec (SpringDamper.create d dt k c intDt)).1 =
      .ok (List.replicate n (0, 0)) := by
  have hfix : ∀ lastT t, springDamperStep (0 : Vec d) k c none none intDt lastT t (0, 0) = .ok (0, 0) := by
    intro lastT t
    rw [springDamperStep_eq _ _ _ _ _ hint]
    congr 1
    generalize subSteps intDt t lastT = L
    induction L with
    | nil => rfl
    | cons p L ih =>
      rw [List.foldl_cons]
      have : springDamperBody (0 : Vec d) k (damping k c) none none p.1 p.2 (0, 0) = (0, 0) := by
        unfold springDamperBody sdCoupling
        ext i <;> simp
      rw [this, ih]
  constructor
  · intro r hr
    exact openLoopWith_fixed (start := ((0 : Vec d), (0 : Vec d))) hdt hr hfix
  · intro n
    refine fedBack_fixed (fun s : SpringDamper d => s.goalY = 0 ∧ s.k = k ∧ s.c = c ∧ s.intDt = intDt) ?_ n
      ⟨rfl, rfl, rfl, rfl⟩
    rintro s ⟨a1, a2, a3, a4⟩
    rw [SpringDamper.exec_step, a1, a2, a3, a4, hfix]
    exact ⟨_, rfl, a1, a2, a3, a4⟩

theorem minimumJerk_zero (T : ℝ) : minimumJerk 0 0 T = fun _ => 0 := by
  funext t
  simp [minimumJerk]

/-- **C83 (MinimumJerkTrajectory).** -/
theorem C83_minimum_jerk (d : ℕ) {τ dt : ℝ} (hdt : 0 < dt) (hτ : 0 ≤ τ) (xs : List (Vec d × Vec d))
    (hx : xs.length ≤ ⌊τ / dt⌋₊ + 1) :
    ((MinimumJerkTrajectory.steps xs).exec (MinimumJerkTrajectory.create d τ dt)).1 =
      .ok (List.replicate xs.length (0, 0)) := by
  have hrows : ∃ rows, generateMinimumJerk (0 : Vec d) 0 τ dt = .ok rows ∧ rows.length = ⌊τ / dt⌋₊ + 1 ∧
      ∀ r ∈ rows, r.1 = 0 ∧ r.2.1 = 0 := by
    rcases lt_or_ge τ (2 * dt) with h2 | h2
    · obtain ⟨rows, e1, e2, e3⟩ := C40_no_movement (0 : Vec d) 0 hdt hτ h2
      exact ⟨rows, e1, e2, fun r hr => by rw [e3 r hr]; exact ⟨rfl, rfl⟩⟩
    · obtain ⟨rows, e1, e2, e3⟩ := C40_closed_form (0 : Vec d) 0 hdt h2
      refine ⟨rows, e1, e2, fun r hr => ?_⟩
      obtain ⟨k, hk, rfl⟩ := List.mem_iff_getElem.1 hr
      constructor <;> funext i
      · rw [(e3 k hk i).1]; simp [minimumJerk_zero]
      · rw [(e3 k hk i).2.1]; simp [minimumJerk_zero]
  obtain ⟨rows, e1, e2, e3⟩ := hrows
  have := MinimumJerkTrajectory.C40_class (MinimumJerkTrajectory.create d τ dt) (rows := rows) e1 xs
  rw [if_pos (by rw [e2]; exact hx)] at this
  have hrun : (MinimumJerkTrajectory.run xs).exec (MinimumJerkTrajectory.create d τ dt) =
    (MinimumJerkTrajectory.steps xs).exec (MinimumJerkTrajectory.create d τ dt) := rfl
  rw [hrun] at this
  rw [this]
  congr 1
  rw [List.eq_replicate_iff]
  refine ⟨by simp [e2]; omega, ?_⟩
  intro b hb
  obtain ⟨r, hr, rfl⟩ := List.mem_map.1 hb
  obtain ⟨h1, h2⟩ := e3 r (List.mem_of_mem_take hr)
  rw [h1, h2]

/-- **C83 (ProMP).** The mean trajectory of a new ProMP is 0. Its weights are uncorrelated with variance 1, so that the
variance of each position is the sum of the squared activations of the basis functions. -/
theorem C83_promp {w : ℕ} {T : Vec n} {tm : ℝ} (hm : Spec.IsLargest T tm) :
    ((ProMP.init d w).meanTrajectory.exec (.float T)).1 = .ok 0 ∧
    ((ProMP.init d w).varTrajectory.exec (.float T)).1 =
      .ok (Matrix.of fun i _ => ∑ a, Spec.activation w (T i / tm) a ^ 2) := by
  constructor
  · unfold ProMP.meanTrajectory
    rw [ProMP.exec_trajectoryFromWeights rfl hm]
    simp only [Except.ok.injEq]
    ext i k
    simp [Spec.prompPosition, ProMP.init]
  · rw [ProMP.exec_varTrajectory rfl hm]
    simp only [Except.ok.injEq]
    ext i k
    have : Spec.covariance (ProMP.init d w).weightCov (T i / tm) k (T i / tm) k =
        ∑ a, Spec.activation w (T i / tm) a ^ 2 := by
      unfold Spec.covariance
      refine Finset.sum_congr rfl fun a _ => ?_
      rw [Finset.sum_eq_single a]
      · simp [ProMP.init, sq]
      · intro b _ hb
        have : Spec.flat k a ≠ Spec.flat k b := by
          intro e
          exact hb (by simpa [Spec.flat] using e.symm)
        simp [ProMP.init, Matrix.one_apply_ne this]
      · simp
    simp only [Matrix.of_apply, this]
    exact max_eq_left (Finset.sum_nonneg fun a _ => sq_nonneg _)

theorem openLoopWith_first {goalT startT dt : ℝ} {start : Vec p × Vec v} {runT : Option ℝ}
    {step : ℝ → ℝ → Vec p × Vec v → Except PyErr (Vec p × Vec v)} {T : List ℝ} {Y : List (Vec p)}
    (h : openLoopWith goalT startT dt start runT step = .ok (T, Y)) : ∃ L, Y = start.1 :: L := by
  unfold openLoopWith at h
  simp only [bind, Except.bind, Pure.pure, Except.pure] at h
  split_ifs at h
  split at h
  · cases h
  · simp only [Except.ok.injEq, Prod.mk.injEq] at h
    exact ⟨_, h.2.symm⟩

theorem not_unitQuat_zero : ¬ UnitQuat (0 : Vec 4) := by
  simp [UnitQuat]

/-- **C83 (finding).** The orientation of a new `CartesianDMP` is the zero vector, which does not represent a rotation; the
first row of every `open_loop` of an object that was not configured is therefore not a pose. -/
theorem C83_cartesian {τ dt intDt : ℝ} {smooth : Bool} {α β : ArrayLike} {s : CartesianDMP m}
    (h : CartesianDMP.create m τ dt intDt smooth α β = .ok s) : ¬ UnitQuat (orientation s.startY) ∧
    ∀ (ops : QuatOps) (runT : Option ℝ) (c : Option PoseCoupling) (name qname : String) (T : List ℝ) (Y : List (Vec (3 + 4))),
      ((CartesianDMP.openLoop ops runT c name qname).exec s).1 = .ok (T, Y) →
      ∃ L, Y = 0 :: L := by
  have hs : s.startY = 0 := by
    unfold CartesianDMP.create at h
    rw [CartesianDMP.initForcingTerms_eq] at h
    cases h1 : DMP.initForcingTerm 3 m τ with
    | error e => rw [h1] at h; cases h
    | ok ft =>
      rw [h1] at h
      cases h2 : ensure1dArray α (3 + 3) with
      | error e => rw [h2] at h; cases h
      | ok a =>
        rw [h2] at h
        cases h3 : ensure1dArray β (3 + 3) with
        | error e => rw [h3] at h; cases h
        | ok b =>
          rw [h3] at h
          simp only [bind, Except.bind, Except.map, Pure.pure, Except.pure, Except.ok.injEq] at h
          subst h
          rfl
  have ho : orientation s.startY = 0 := by rw [hs]; funext i; fin_cases i <;> rfl
  refine ⟨by rw [ho]; exact not_unitQuat_zero, ?_⟩
  intro ops runT c name qname T Y hr
  rw [CartesianDMP.exec_openLoop] at hr
  simp only at hr
  cases h1 : StepFunction.lookup name with
  | error e => rw [h1] at hr; cases hr
  | ok sf =>
    rw [h1] at hr
    simp only [Except.bind] at hr
    cases h2 : dmpOpenLoop (s.posOpenLoopArgs c) s.dt runT sf with
    | error e => rw [h2] at hr; cases hr
    | ok pr =>
      rw [h2] at hr
      simp only at hr
      cases h3 : QuatStepFunction.lookup ops qname with
      | error e => rw [h3] at hr; cases hr
      | ok qf =>
        rw [h3] at hr
        simp only at hr
        cases h4 : openLoopWith s.executionTime 0 s.dt (sliceFrom s.startY, (0 : Vec 3)) runT
          (qf.run (s.rotOpenLoopArgs c)) with
        | error e => rw [h4] at hr; cases hr
        | ok qr =>
          rw [h4] at hr
          simp only at hr
          split_ifs at hr
          simp only [Except.ok.injEq, Prod.mk.injEq] at hr
          obtain ⟨L1, e1⟩ := openLoopWith_first h2
          obtain ⟨L2, e2⟩ := openLoopWith_first h4
          rw [e1, e2, List.zipWith_cons_cons] at hr
          refine ⟨List.zipWith hstack L1 L2, hr.2.symm.trans ?_⟩
          congr 1
          show hstack (sliceTo s.startY) (sliceFrom s.startY) = 0
          rw [hs]
          funext i
          fin_cases i <;> rfl

/-- **C83 (finding).** Likewise for `SpringDamperOrientation` and `DualCartesianDMP`. -/
theorem C83_orientations : (∀ (dt k : ℝ) (c : Option ℝ) (intDt : ℝ),
      ¬ UnitQuat (SpringDamperOrientation.create dt k c intDt).startY) ∧
    ∀ {τ dt intDt pGain : ℝ} {smooth : Bool} {α β : ArrayLike} {s : DualCartesianDMP m},
      DualCartesianDMP.create m τ dt intDt pGain smooth α β = .ok s → ∀ arm, ¬ UnitQuat (armOrientation arm s.startY) := by
  refine ⟨fun _ _ _ _ => not_unitQuat_zero, ?_⟩
  intro τ dt intDt pGain smooth α β s h arm
  have hs : s.startY = 0 := by
    unfold DualCartesianDMP.create at h
    rw [show DualCartesianDMP.initForcingTerm m τ = DMP.initForcingTerm 12 m τ from rfl] at h
    cases h1 : DMP.initForcingTerm 12 m τ with
    | error e => rw [h1] at h; cases h
    | ok ft =>
      rw [h1] at h
      cases h2 : ensure1dArray α 12 with
      | error e => rw [h2] at h; cases h
      | ok a =>
        rw [h2] at h
        cases h3 : ensure1dArray β 12 with
        | error e => rw [h3] at h; cases h
        | ok b =>
          rw [h3] at h
          simp only [bind, Except.bind, Pure.pure, Except.pure, Except.ok.injEq] at h
          subst h
          rfl
  have ho : armOrientation arm s.startY = 0 := by
    rw [hs]; funext i; fin_cases arm <;> fin_cases i <;> rfl
  rw [ho]
  exact not_unitQuat_zero

/-- The hypotheses can be met: constructor calls succeed, and there is an integrator. -/
example : (∃ s, DMP.create 2 10 1 (1 / 100) (1 / 1000) 0 true (.scalar 25) (.scalar (25 / 4)) = .ok s) ∧
    ("rk4", StepFunction.rk4) ∈ integrators ∧ ((0 : ℝ) < 1 / 100) ∧ Spec.IsLargest ![0, 1, (2 : ℝ)] 2 := by
  obtain ⟨s, h, -⟩ := DMP.create_ok (d := 2) (m := 10) (by norm_num) (τ := 1) one_pos (1 / 100) (1 / 1000) 0 true 25 (25 / 4)
  refine ⟨⟨s, h⟩, by simp [integrators], by norm_num, ⟨2, rfl⟩, fun i => ?_⟩
  fin_cases i <;> norm_num

end Verif
