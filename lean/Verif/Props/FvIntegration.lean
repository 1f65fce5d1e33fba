import Verif.Props.FvConvergence
import Verif.Props.Integration
import Verif.Spec.FvSolution

/-! # C86: a DMP with final velocity approximates its differential equation and reaches the final velocity -/

namespace Verif
open Filter Topology
variable {d m : ℕ}

/-! ## Helper lemmas -/

theorem Spec.ConnectsStartAndGoal.boundary {s : DMP d m} {c : Fin 6 → Vec d} (h : Spec.ConnectsStartAndGoal s c) (k : Fin d) :
    Spec.QuinticBoundary (fun i => c i k) 0 s.executionTime (s.startY k) (s.startYd k) (s.startYdd k) (s.goalY k) (s.goalYd k)
      (s.goalYdd k) := by
  have h1 := h.startY k
  have h2 := h.startYd k
  have h3 := h.startYdd k
  have h4 := h.goalY k
  have h5 := h.goalYd k
  have h6 := h.goalYdd k
  unfold Spec.quintic at h1 h4
  unfold Spec.quinticD at h2 h5
  unfold Spec.quinticDD at h3 h6
  constructor <;> linarith

theorem Spec.QuinticBoundary.connects {s : DMP d m} {c : Fin 6 → Vec d}
    (h : ∀ k, Spec.QuinticBoundary (fun i => c i k) 0 s.executionTime (s.startY k) (s.startYd k) (s.startYdd k) (s.goalY k)
      (s.goalYd k) (s.goalYdd k)) : Spec.ConnectsStartAndGoal s c := by
  constructor <;> intro k <;> obtain ⟨h1, h2, h3, h4, h5, h6⟩ := h k <;>
    simp only [Spec.quintic, Spec.quinticD, Spec.quinticDD] <;> linarith

theorem Spec.ConnectsStartAndGoal.solve {s : DMP d m} {c : Fin 6 → Vec d} (h : Spec.ConnectsStartAndGoal s c)
    (hτ : 0 < s.executionTime) :
    solveConstraints 0 s.executionTime s.startY s.startYd s.startYdd s.goalY s.goalYd s.goalYdd = .ok c := by
  obtain ⟨c', hc', -, hu⟩ := C29_solve_constraints hτ.ne s.startY s.startYd s.startYdd s.goalY s.goalYd s.goalYdd
  rw [hc', hu c h.boundary]

theorem hasDerivAt_quintic (c : Fin 6 → ℝ) (t : ℝ) : HasDerivAt (Spec.quintic c) (Spec.quinticD c t) t := by
  unfold Spec.quintic Spec.quinticD
  have hp : ∀ n : ℕ, HasDerivAt (fun u : ℝ => u ^ n) (n * t ^ (n - 1)) t := fun n => hasDerivAt_pow n t
  have h := ((((((hasDerivAt_const t (c 0)).add ((hasDerivAt_id t).const_mul (c 1))).add ((hp 2).const_mul (c 2))).add
    ((hp 3).const_mul (c 3))).add ((hp 4).const_mul (c 4))).add ((hp 5).const_mul (c 5)))
  exact h.congr_deriv (by norm_num; ring)

theorem hasDerivAt_quinticD (c : Fin 6 → ℝ) (t : ℝ) : HasDerivAt (Spec.quinticD c) (Spec.quinticDD c t) t := by
  unfold Spec.quinticD Spec.quinticDD
  have hp : ∀ n : ℕ, HasDerivAt (fun u : ℝ => u ^ n) (n * t ^ (n - 1)) t := fun n => hasDerivAt_pow n t
  have h := (((((hasDerivAt_const t (c 1)).add ((hasDerivAt_id t).const_mul (2 * c 2))).add ((hp 2).const_mul (3 * c 3))).add
    ((hp 3).const_mul (4 * c 4))).add ((hp 4).const_mul (5 * c 5)))
  exact h.congr_deriv (by norm_num; ring)

namespace StepArgs

/-- The part of the acceleration that does not depend on the state. -/
noncomputable def fvDrive (a : StepArgs d m) (c : Fin 6 → Vec d) (k : Fin d) (t : ℝ) : ℝ :=
  a.alphaY k * a.betaY k / (a.goalT - a.startT) ^ 2 * (Spec.quintic (fun i => c i k) t - a.goalY k) +
    a.alphaY k / (a.goalT - a.startT) * Spec.quinticD (fun i => c i k) t +
    a.ft.call t k / (a.goalT - a.startT) ^ 2 + Spec.quinticDD (fun i => c i k) t

theorem fvDrive_contDiff (a : StepArgs d m) (hm : 0 < m) (c : Fin 6 → Vec d) (k : Fin d) :
    ContDiff ℝ 1 (a.fvDrive c k) := by
  unfold fvDrive Spec.quintic Spec.quinticD Spec.quinticDD
  have := a.ft.call_contDiff (n := 1) hm k
  fun_prop

theorem fvBody_sd (a : StepArgs d m) (hc : a.coupling = none) (hp : a.precomputed = none) (he : a.trackingError = 0)
    (hT : a.startT < a.goalT) (c : Fin 6 → Vec d) {t : ℝ} (ht : t ≤ a.goalT) (h : ℝ) (s : Vec d × Vec d) (k : Fin d) :
    ((a.fvBody c h t s).1 k - a.goalY k, (a.fvBody c h t s).2 k) =
      sdStep (a.alphaY k * a.betaY k / (a.goalT - a.startT) ^ 2) (a.alphaY k / (a.goalT - a.startT)) h (a.fvDrive c k t)
        (s.1 k - a.goalY k, s.2 k) := by
  have hτ : a.goalT - a.startT ≠ 0 := by linarith
  have heps : (0 : ℝ) < 1 / 2 ^ 52 := by positivity
  have hcc : a.fvCoupling s = (0, 0) := by
    unfold fvCoupling
    rw [hc, hp]
  simp only [fvBody, hcc, applyConstraints_before (show t ≤ a.goalT + 1 / 2 ^ 52 by linarith), he, Pi.zero_apply, sdStep,
    fvDrive, ForcingTerm.call, Spec.quintic, Spec.quinticD, Spec.quinticDD]
  ext
  · simp only; field_simp; ring
  · simp only; field_simp; ring

theorem fvStep_eq (a : StepArgs d m) (hT : a.startT < a.goalT) (hd : 0 < a.intDt) {lastT t : ℝ} (ht : a.startT < t)
    {c : Fin 6 → Vec d}
    (hc : solveConstraints a.startT a.goalT a.startY a.startYd a.startYdd a.goalY a.goalYd a.goalYdd = .ok c)
    (s : Vec d × Vec d) :
    a.fvStep lastT t s = .ok ((subSteps a.intDt t lastT).foldl (fun s p => a.fvBody c p.1 p.2 s) s) := by
  unfold fvStep
  rw [if_neg (not_le.2 hT), if_neg (not_le.2 ht), hc]
  exact intLoop_eq _ hd _ _

theorem foldl_fv_sd (a : StepArgs d m) (hc : a.coupling = none) (hp : a.precomputed = none) (he : a.trackingError = 0)
    (hT : a.startT < a.goalT) (c : Fin 6 → Vec d) (k : Fin d) (L : List (ℝ × ℝ)) (hL : ∀ p ∈ L, p.2 ≤ a.goalT) :
    ∀ s : Vec d × Vec d,
      ((L.foldl (fun s p => a.fvBody c p.1 p.2 s) s).1 k - a.goalY k, (L.foldl (fun s p => a.fvBody c p.1 p.2 s) s).2 k) =
        L.foldl (fun s p => sdStep (a.alphaY k * a.betaY k / (a.goalT - a.startT) ^ 2)
          (a.alphaY k / (a.goalT - a.startT)) p.1 (a.fvDrive c k p.2) s) (s.1 k - a.goalY k, s.2 k) := by
  induction L with
  | nil => intro s; rfl
  | cons p L ih =>
    intro s
    rw [List.foldl_cons, List.foldl_cons, ih (fun q hq => hL q (List.mem_cons_of_mem _ hq)),
      a.fvBody_sd hc hp he hT c (hL p (by simp))]

end StepArgs

theorem subSteps_time_le {intDt t lastT : ℝ} (hd : 0 < intDt) (hlt : lastT ≤ t) :
    ∀ p ∈ subSteps intDt t lastT, p.2 ≤ t := by
  intro p hp
  have hpart := subSteps_isPartition hd lastT hlt
  obtain ⟨i, hi, rfl⟩ := List.getElem_of_mem hp
  rw [hpart.times i hi]
  have h2 : (((subSteps intDt t lastT).take (i + 1)).map Prod.fst).sum ≤ ((subSteps intDt t lastT).map Prod.fst).sum := by
    conv_rhs => rw [← List.take_append_drop (i + 1) (subSteps intDt t lastT), List.map_append, List.sum_append]
    have : 0 ≤ (((subSteps intDt t lastT).drop (i + 1)).map Prod.fst).sum := by
      apply List.sum_nonneg
      intro x hx
      obtain ⟨q, hq, rfl⟩ := List.mem_map.1 hx
      exact (hpart.pos q (List.mem_of_mem_drop hq)).1.le
    linarith
  have := hpart.total
  linarith

/-- Error of a sequence of steps. -/
theorem fv_error {s : FvDMP d m} (hs : FvDMP.Reachable s) {c : Fin 6 → Vec d} (hcon : Spec.ConnectsStartAndGoal s c)
    {t0 : ℝ} (ht0 : 0 ≤ t0) {x0 : Vec d × Vec d} {y v : ℝ → Vec d} (hsol : Spec.SolvesFv s c t0 x0 y v) :
    ∃ C, 0 ≤ C ∧ ∀ (a : StepArgs d m) (D δ : ℝ), a = { DMP.stepArgs s none 0 with intDt := δ, pGain := a.pGain } → 0 < D →
      0 < δ → ∀ xs : ℕ → Vec d × Vec d, xs 0 = x0 →
      (∀ i : ℕ, a.fvStep (t0 + i * D) (t0 + (i + 1) * D) (xs i) = .ok (xs (i + 1))) →
      ∀ i : ℕ, t0 + i * D ≤ s.executionTime → ∀ k, |(xs i).1 k - y (t0 + i * D) k| ≤ C * min δ D ∧
        |(xs i).2 k - v (t0 + i * D) k| ≤ C * min δ D := by
  classical
  have hval := hs.valid
  have hm : 0 < m := by have := hval.forcing.1; omega
  have hτ0 := hval.pos.2
  set τ := s.executionTime with hτ
  let b : StepArgs d m := DMP.stepArgs s none 0
  let x : Fin d → ℝ → ℝ × ℝ := fun k t => (y t k - s.goalY k, v t k)
  have hx : ∀ k t, HasDerivAt (x k)
      (sdField (s.alphaY k * s.betaY k / (τ - 0) ^ 2) (s.alphaY k / (τ - 0)) (x k t) (b.fvDrive c k t)) t := by
    intro k t
    have h1 := ((hsol.velocity t k).sub_const (s.goalY k)).prodMk (hsol.acceleration t k)
    refine h1.congr_deriv ?_
    have e1 : b.alphaY = s.alphaY := rfl
    have e2 : b.betaY = s.betaY := rfl
    have e3 : b.goalT - b.startT = τ - 0 := rfl
    have e4 : b.goalY = s.goalY := rfl
    have e5 : b.ft = s.ft := rfl
    simp only [sdField, StepArgs.fvDrive, e1, e2, e3, e4, e5, sub_zero, x, ← hτ]
    ext
    · rfl
    · simp only
      field_simp
      ring
  have hE := fun k => sd_grid_error (b.fvDrive_contDiff hm c k) (hx k) t0 τ
  choose CE hCE0 hCE using hE
  have hsum : ∀ k, CE k ≤ ∑ k, CE k := fun k => Finset.single_le_sum (fun j _ => hCE0 j) (Finset.mem_univ k)
  refine ⟨∑ k, CE k, Finset.sum_nonneg fun k _ => hCE0 k, ?_⟩
  intro a D δ ha hD hδ xs h0 hstep i hi k
  have hstart : ((xs 0).1 k - s.goalY k, (xs 0).2 k) = x k t0 := by rw [h0, ← hsol.start]
  have h := hCE k δ D hδ hD (fun i => ((xs i).1 k - s.goalY k, (xs i).2 k)) hstart (fun i hi => by
    have h1 := hstep i
    have h2 : a.fvStep (t0 + i * D) (t0 + (i + 1) * D) (xs i) =
        .ok ((subSteps δ (t0 + (i + 1) * D) (t0 + i * D)).foldl (fun s p => a.fvBody c p.1 p.2 s) (xs i)) := by
      have ht : 0 < t0 + ((i : ℝ) + 1) * D := by positivity
      have e : a.intDt = δ := by rw [ha]
      rw [← e]
      exact a.fvStep_eq (by rw [ha]; exact hτ0) (by rw [e]; exact hδ) (by rw [ha]; exact ht)
        (by rw [ha]; exact hcon.solve hτ0) (xs i)
    rw [h2] at h1
    injection h1 with h1
    rw [← h1]
    have h3 := a.foldl_fv_sd (by rw [ha]; rfl) (by rw [ha]; rfl) (by rw [ha]; rfl)
      (by rw [ha]; exact hτ0) c k (subSteps δ (t0 + (i + 1) * D) (t0 + i * D)) (fun p hp => by
        have := subSteps_time_le hδ (by nlinarith : t0 + i * D ≤ t0 + (i + 1) * D) p hp
        have e : a.goalT = τ := by rw [ha]; rfl
        rw [e]
        linarith) (xs i)
    have e4 : a.goalY = s.goalY := by rw [ha]; rfl
    have e5 : a.fvDrive c k = b.fvDrive c k := by rw [ha]; rfl
    have e6 : a.alphaY k * a.betaY k / (a.goalT - a.startT) ^ 2 = s.alphaY k * s.betaY k / (τ - 0) ^ 2 := by rw [ha]; rfl
    have e7 : a.alphaY k / (a.goalT - a.startT) = s.alphaY k / (τ - 0) := by rw [ha]; rfl
    rw [e4, e5, e6, e7] at h3
    exact h3) i hi
  have h' := h.trans (mul_le_mul_of_nonneg_right (hsum k) (le_min hδ.le hD.le))
  constructor
  · have := (norm_fst_le _).trans h'
    simpa [x] using this
  · have := (norm_snd_le _).trans h'
    simpa [x] using this

/-! ## C86 -/

/-- **C86 (the polynomial exists and is unique).** -/
theorem C86_polynomial {s : FvDMP d m} (hs : FvDMP.Reachable s) :
    ∃ c, Spec.ConnectsStartAndGoal s c ∧ ∀ c', Spec.ConnectsStartAndGoal s c' → c' = c := by
  obtain ⟨c, -, hb, hu⟩ := C29_solve_constraints hs.valid.pos.2.ne s.startY s.startYd s.startYdd s.goalY s.goalYd s.goalYdd
  exact ⟨c, Spec.QuinticBoundary.connects hb, fun c' h => hu c' h.boundary⟩

/-- **C86 (open_loop).** Let `y`, `v` be the solution of the differential equation that starts at `start_y` with velocity
`start_yd`. There is a constant `C` such that for all positive `dt` and `int_dt` `open_loop` returns, and its positions
until the end of the execution time differ from the solution by at most `C` times the largest step. -/
theorem C86_open_loop {s : FvDMP d m} (hs : FvDMP.Reachable s) {c : Fin 6 → Vec d} (hc : Spec.ConnectsStartAndGoal s c)
    {y v : ℝ → Vec d} (hsol : Spec.SolvesFv s c 0 (s.startY, s.startYd) y v) :
    ∃ C, ∀ dt intDt : ℝ, 0 < dt → 0 < intDt →
      (∀ r : ℝ, 0 ≤ r → ∃ T Y, ((FvDMP.openLoop (some r) none).exec { s with dt := dt, intDt := intDt }).1 = .ok (T, Y)) ∧
      ∀ runT T Y, ((FvDMP.openLoop runT none).exec { s with dt := dt, intDt := intDt }).1 = .ok (T, Y) →
        ∀ i (hT : i < T.length) (hY : i < Y.length), T[i] ≤ s.executionTime → ∀ k,
          |Y[i] k - y T[i] k| ≤ C * min intDt dt := by
  classical
  have hτ := hs.valid.pos.2
  obtain ⟨C, -, hC⟩ := fv_error hs hc le_rfl hsol
  refine ⟨C, fun dt intDt hdt hint => ?_⟩
  set s' : FvDMP d m := { s with dt := dt, intDt := intDt } with hs'
  let a := FvDMP.openLoopArgs s' none
  have haT : a.startT < a.goalT := hτ
  have e0 : a.startT = 0 := rfl
  have hat : ∀ i : ℕ, arangeAt a.startT s'.dt i = 0 + i * dt := fun i => rfl
  have hok : ∀ (i : ℕ) x, ∃ x', a.fvStep (arangeAt a.startT s'.dt i) (arangeAt a.startT s'.dt (i + 1)) x = .ok x' := by
    intro i x
    obtain ⟨c, h⟩ := a.fvStep_ok haT hint (lastT := arangeAt a.startT s'.dt i) (t := arangeAt a.startT s'.dt (i + 1)) (by
      rw [hat, e0]
      have : 0 < ((i + 1 : ℕ) : ℝ) * dt := by positivity
      linarith)
    exact ⟨_, h x⟩
  choose nxt hnxt using hok
  let xs : ℕ → Vec d × Vec d := fun i => Nat.rec (a.startY, a.startYd) (fun i x => nxt i x) i
  have hxs : ∀ i, xs (i + 1) = nxt i (xs i) := fun i => rfl
  have hexec : ∀ runT, ((FvDMP.openLoop runT none).exec s').1 =
      openLoopWith a.goalT a.startT s'.dt (a.startY, a.startYd) runT a.fvStep := by
    intro runT
    unfold FvDMP.openLoop
    simp only [Py.exec_bind, Py.exec_lift, Py.exec_get]
    rfl
  have hres := fun runT => openLoopWith_total (goalT := a.goalT) (runT := runT) (show s'.dt ≠ 0 from hdt.ne')
    (start := (a.startY, a.startYd)) hnxt (xs := xs) rfl hxs
  constructor
  · intro r hr
    rw [hexec, hres, if_neg]
    · exact ⟨_, _, rfl⟩
    · unfold arangeLen
      rw [e0, sub_zero, Nat.ceil_eq_zero, not_le, Option.getD_some]
      have : s'.dt = dt := rfl
      rw [this]
      positivity
  · intro runT T Y h i hT hY hR k
    rw [hexec, hres] at h
    split_ifs at h
    simp only [Except.ok.injEq, Prod.mk.injEq] at h
    obtain ⟨rfl, rfl⟩ := h
    simp only [List.getElem_map, List.getElem_range] at hR ⊢
    rw [hat] at hR ⊢
    refine (hC a dt intDt rfl hdt hint xs rfl (fun i => ?_) i hR k).1
    rw [hxs, ← hnxt, hat, hat]
    push_cast
    rfl

/-- **C86 (step).** The same for positions and velocities returned by calls of `step` from the current state. -/
theorem C86_step {s : FvDMP d m} (hs : FvDMP.Reachable s) (ht : 0 ≤ s.t) {c : Fin 6 → Vec d}
    (hc : Spec.ConnectsStartAndGoal s c) {y v : ℝ → Vec d}
    (hsol : Spec.SolvesFv s c s.t (if s.initialized then (s.currentY, s.currentYd) else (s.startY, s.startYd)) y v) :
    ∃ C, ∀ dt intDt : ℝ, 0 < dt → 0 < intDt →
      ∀ (obj : ℕ → FvDMP d m) (fb out : ℕ → Vec d × Vec d), obj 0 = { s with dt := dt, intDt := intDt } →
        Spec.Run (FvDMP.step none) obj fb out →
        (s.pGain = 0 ∨
          (fb 0).1 = (if s.initialized then s.currentY else s.startY) ∧ ∀ i, (fb (i + 1)).1 = (out i).1) →
        ∀ i : ℕ, s.t + (i + 1) * dt ≤ s.executionTime → ∀ k,
          |(out i).1 k - y (s.t + (i + 1) * dt) k| ≤ C * min intDt dt ∧
          |(out i).2 k - v (s.t + (i + 1) * dt) k| ≤ C * min intDt dt := by
  obtain ⟨C, -, hC⟩ := fv_error hs hc ht hsol
  refine ⟨C, fun dt intDt hdt hint obj fb out h0 hrun hfb i hi k => ?_⟩
  have hx := FvDMP.step_states h0 hrun hfb
  have := hC (DMP.stepArgs { s with dt := dt, intDt := intDt } none 0) dt intDt rfl hdt hint
    (fun i => ((obj i).beginStep.currentY, (obj i).beginStep.currentYd)) (by
      simp only [h0, DMP.beginStep]
      cases s.initialized <;> rfl) hx (i + 1) (by push_cast; exact hi) k
  have e := (FvDMP.run_result hrun i).2
  have e1 : (obj (i + 1)).beginStep.currentY = (out i).1 := congrArg Prod.fst e
  have e2 : (obj (i + 1)).beginStep.currentYd = (out i).2 := congrArg Prod.snd e
  rw [e1, e2] at this
  push_cast at this
  exact this

/-- **C86 (solutions exist).** For every object, whatever its weights, and every initial state the differential equation has
a solution. -/
theorem C86_solution_exists {s : FvDMP d m} (hs : FvDMP.Reachable s) (c : Fin 6 → Vec d) (t0 : ℝ) (x0 : Vec d × Vec d) :
    ∃ y v, Spec.SolvesFv s c t0 x0 y v := by
  have hval := hs.valid
  have hm : 0 < m := by have := hval.forcing.1; omega
  have hτ : 0 < s.executionTime := hval.pos.2
  have hex := fun k => sd_solution_exists (s.alphaY k * s.betaY k / s.executionTime ^ 2)
    (s.alphaY k / s.executionTime)
    (((s.ft.call_contDiff (n := 1) hm k).continuous).div_const (s.executionTime ^ 2)) t0
    (x0.1 k - Spec.quintic (fun i => c i k) t0, x0.2 k - Spec.quinticD (fun i => c i k) t0)
  choose x hx0 hx using hex
  refine ⟨fun t k => (x k t).1 + Spec.quintic (fun i => c i k) t, fun t k => (x k t).2 + Spec.quinticD (fun i => c i k) t,
    ⟨?_, ?_, ?_⟩⟩
  · ext k
    · simp [hx0]
    · simp [hx0]
  · intro t k
    have h : HasDerivAt (fun t => (x k t).1) _ t := (hx k t).fst
    exact h.add (hasDerivAt_quintic _ t)
  · intro t k
    have h : HasDerivAt (fun t => (x k t).2) _ t := (hx k t).snd
    refine (h.add (hasDerivAt_quinticD _ t)).congr_deriv ?_
    simp only [sdField]
    field_simp
    ring

/-- **C86 (no forcing).** With weights 0 the polynomial itself is the solution. -/
theorem C86_polynomial_solves {s : FvDMP d m} (hw : s.ft.weights = fun _ _ => 0) {c : Fin 6 → Vec d}
    (hc : Spec.ConnectsStartAndGoal s c) :
    Spec.SolvesFv s c 0 (s.startY, s.startYd) (fun t k => Spec.quintic (fun i => c i k) t)
      (fun t k => Spec.quinticD (fun i => c i k) t) := by
  have hcall : ∀ t k, s.ft.call t k = 0 := by
    intro t k
    simp [ForcingTerm.call, ForcingTerm.force, hw]
  refine ⟨?_, fun t k => hasDerivAt_quintic _ t, fun t k => ?_⟩
  · ext k
    · exact hc.startY k
    · exact hc.startYd k
  · refine (hasDerivAt_quinticD _ t).congr_deriv ?_
    simp [hcall]

/-- **C86 (final velocity).** A DMP without forcing that executes `N` steps of length `execution_time / N` from its start
arrives at its goal with the final velocity, up to an error that is proportional to the largest step. -/
theorem C86_reaches {s : FvDMP d m} (hs : FvDMP.Reachable s) (ht : s.t = 0) (hini : s.initialized = false)
    (hw : s.ft.weights = fun _ _ => 0) :
    ∃ C, ∀ (N : ℕ) (intDt : ℝ), 0 < intDt →
      ∀ (obj : ℕ → FvDMP d m) (fb out : ℕ → Vec d × Vec d),
        obj 0 = { s with dt := s.executionTime / (N + 1), intDt := intDt } → Spec.Run (FvDMP.step none) obj fb out →
        (s.pGain = 0 ∨ (fb 0).1 = s.startY ∧ ∀ i, (fb (i + 1)).1 = (out i).1) →
        ∀ k, |(out N).1 k - s.goalY k| ≤ C * min intDt (s.executionTime / (N + 1)) ∧
          |(out N).2 k - s.goalYd k| ≤ C * min intDt (s.executionTime / (N + 1)) := by
  obtain ⟨c, hc, -⟩ := C86_polynomial hs
  have hτ := hs.valid.pos.2
  obtain ⟨C, hC⟩ := C86_step hs ht.ge hc (by
    rw [hini, ht]; exact C86_polynomial_solves hw hc)
  refine ⟨C, fun N intDt hint obj fb out h0 hrun hfb k => ?_⟩
  have hN : (0 : ℝ) < N + 1 := by positivity
  have e : s.t + ((N : ℝ) + 1) * (s.executionTime / (N + 1)) = s.executionTime := by
    rw [ht]; field_simp; ring
  have := hC (s.executionTime / (N + 1)) intDt (by positivity) hint obj fb out h0 hrun
    (by rw [hini]; exact hfb) N (by rw [e]) k
  rw [e, hc.goalY, hc.goalYd] at this
  exact this

/-- The hypotheses of `C86_reaches` are met by a DMP with a final velocity that is not 0; executions exist. -/
example : ∃ (s : FvDMP 2 10) (obj : ℕ → FvDMP 2 10) (fb out : ℕ → Vec 2 × Vec 2), FvDMP.Reachable s ∧ s.t = 0 ∧
    s.initialized = false ∧ (s.ft.weights = fun _ _ => 0) ∧ s.goalYd = ![1, 2] ∧
    obj 0 = { s with dt := s.executionTime / (100 + 1), intDt := 1 / 1000 } ∧
    Spec.Run (FvDMP.step none) obj fb out ∧ s.pGain = 0 := by
  obtain ⟨s, hs, h1, h2, h3, h4, h5, h6, h7, h8, h9, h10, h11, h12, h13⟩ :=
    DMP.create_ok 2 10 (by norm_num) one_pos (1 / (100 + 1)) (1 / 1000) 0 false 25 (25 / 4)
  have hr : FvDMP.Reachable s := .create (τ := 1) hs
  have hr' : FvDMP.Reachable { s with goalYd := ![1, 2] } := by
    refine .op (.configure { goalYd := some [1, 2] }) hr (r := .ok ()) ?_ (by intro τ h; cases h)
    show (DMP.configure { goalYd := some [1, 2] }).exec s = _
    rw [DMP.exec_configure]
    simp only [Movement.configure, configureField, Py.exec_bind, Py.exec_pure, Py.exec_lift, Py.exec_modify, checkLength]
    simp
    funext i
    fin_cases i <;> rfl
  obtain ⟨obj, fb, out, e1, e2, -⟩ := FvDMP.runs_exist hr' (by show 0 < s.dt; rw [h2]; norm_num)
    (by show 0 ≤ s.t; rw [h7]) (by show 0 < s.intDt; rw [h3]; norm_num)
  refine ⟨_, obj, fb, out, hr', h7, ?_, ?_, rfl, ?_, e2, h4⟩
  · show s.initialized = false
    exact h6
  · show s.ft.weights = _
    exact h13
  · rw [e1]
    show ({ s with goalYd := ![1, 2] } : DMP 2 10) =
      { s with goalYd := ![1, 2], dt := s.executionTime / (100 + 1), intDt := 1 / 1000 }
    rw [h1, ← h2, ← h3]

end Verif
