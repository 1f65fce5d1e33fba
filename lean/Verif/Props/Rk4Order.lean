import Verif.Lemmas.Rk4Order
import Verif.Spec.Rk4
import Verif.Props.Integration

/-! # C81: accuracy of the Runge-Kutta integrator -/

namespace Verif
variable {d m : ℕ}

theorem StepArgs.drive_derivs (a : StepArgs d m) (hm : 0 < m) (k : Fin d) (j : ℕ) (t : ℝ) :
    HasDerivAt (iteratedDeriv j (a.drive k)) (iteratedDeriv (j + 1) (a.drive k) t) t := by
  have h : ContDiff ℝ (j + 1 : ℕ) (a.drive k) := a.drive_contDiff hm k
  rw [iteratedDeriv_succ]
  exact (h.differentiable_iteratedDeriv j (by exact_mod_cast Nat.lt_succ_self j) t).hasDerivAt

/-- One Runge-Kutta step in coordinates. -/
theorem run_rk4_sd (a : StepArgs d m) (hc : a.coupling = none) (hp : a.precomputed = none) (he : a.trackingError = 0)
    (hT : a.startT < a.goalT) {sf : StepFunction} (hsf : sf = .rk4 ∨ sf = .rk4Cython) {t0 D : ℝ} {i : ℕ}
    {x x' : Vec d × Vec d} (h : sf.run a (t0 + i * D) (t0 + (i + 1) * D) x = .ok x') (k : Fin d) :
    (x'.1 k - a.goalY k, x'.2 k) =
      rkStep (a.alphaY k * a.betaY k / (a.goalT - a.startT) ^ 2) (a.alphaY k / (a.goalT - a.startT)) D
        (a.drive k (t0 + (i + 1) * D)) (a.drive k (t0 + (i + 1) * D + D / 2)) (a.drive k (t0 + (i + 1) * D + D))
        (x.1 k - a.goalY k, x.2 k) := by
  have h3 : a.stepRk4 (t0 + i * D) (t0 + (i + 1) * D) x = .ok x' := by
    rcases hsf with rfl | rfl
    · exact h
    · rw [← C10_rk4_cython_eq_python]; exact h
  have h4 := a.stepRk4_sd hc hp he hT h3 k
  have e : t0 + (i + 1) * D - (t0 + i * D) = D := by ring
  rw [e] at h4
  exact h4

theorem DMP.acceleration_eq {s : DMP d m} (hτ : 0 < s.executionTime) (k : Fin d) (t y v : ℝ) :
    Spec.dmpAcceleration (s.alphaY k) (s.betaY k) (s.goalY k) (s.startY k) s.executionTime s.smooth
        (s.ft.phaseAt t) (s.ft.call t k) y v =
      -(s.alphaY k * s.betaY k / s.executionTime ^ 2) * (y - s.goalY k) -
        s.alphaY k / s.executionTime * v + (s.openLoopArgs none).drive k t := by
  have h := (s.openLoopArgs none).acceleration_eq (show (0 : ℝ) < s.executionTime from hτ) k t y v
  have e : (s.openLoopArgs none).goalT - (s.openLoopArgs none).startT = s.executionTime := sub_zero _
  rw [e] at h
  exact h

/-- Open-loop executions with a Runge-Kutta method in coordinates. -/
theorem openLoop_rk4 {s : DMP d m} (hs : s.Reachable) {name : String} {sf : StepFunction}
    (hname : StepFunction.lookup name = .ok sf) (hsf : sf = .rk4 ∨ sf = .rk4Cython) {dt intDt : ℝ} (hdt : 0 < dt)
    (hint : 0 < intDt) :
    ∃ xs : Fin d → ℕ → ℝ × ℝ, (∀ k, xs k 0 = (s.startY k - s.goalY k, 0)) ∧
      (∀ k i, xs k (i + 1) = rkStep (s.alphaY k * s.betaY k / s.executionTime ^ 2) (s.alphaY k / s.executionTime) dt
        ((s.openLoopArgs none).drive k (0 + (i + 1) * dt)) ((s.openLoopArgs none).drive k (0 + (i + 1) * dt + dt / 2))
        ((s.openLoopArgs none).drive k (0 + (i + 1) * dt + dt)) (xs k i)) ∧
      (∀ r : ℝ, 0 ≤ r → ∃ T Y, ((DMP.openLoop (some r) none name).exec { s with dt := dt, intDt := intDt }).1 = .ok (T, Y)) ∧
      ∀ runT T Y, ((DMP.openLoop runT none name).exec { s with dt := dt, intDt := intDt }).1 = .ok (T, Y) →
        ∀ i (hT : i < T.length) (hY : i < Y.length), T[i] = i * dt ∧ ∀ k, Y[i] k - s.goalY k = (xs k i).1 := by
  have hval := hs.valid
  have hτ : 0 < s.executionTime := hval.pos.2
  let a := s.openLoopArgs none
  have haT : a.startT < a.goalT := hτ
  have haτ : a.goalT - a.startT = s.executionTime := sub_zero _
  obtain ⟨xs, h0, hx, hret, hrows⟩ := openLoop_states (s := { s with dt := dt, intDt := intDt }) hname hdt (fun i x =>
    run_ok { a with intDt := intDt } rfl rfl haT hint sf
      (show (0 : ℝ) + i * dt ≤ 0 + (i + 1) * dt by linarith)
      (show (0 : ℝ) < 0 + (i + 1) * dt by
        have : 0 < ((i : ℝ) + 1) * dt := by positivity
        linarith) x)
  refine ⟨fun k i => ((xs i).1 k - s.goalY k, (xs i).2 k), fun k => ?_, fun k i => ?_, hret, ?_⟩
  · show ((xs 0).1 k - _, (xs 0).2 k) = _
    rw [h0]; rfl
  · have h2 := run_rk4_sd { a with intDt := intDt } rfl rfl rfl haT hsf (hx i) k
    rw [show ({ a with intDt := intDt } : StepArgs d m).goalT - ({ a with intDt := intDt } : StepArgs d m).startT =
      s.executionTime from haτ] at h2
    exact h2
  · intro runT T Y h i hT hY
    obtain ⟨e1, e2⟩ := hrows runT T Y h i hT hY
    exact ⟨e1, fun k => by rw [e2]⟩

/-! ## C81 -/

/-- **C81 (the shifted equations have solutions).** -/
theorem C81_solution_exists {s : DMP d m} (hs : s.Reachable) (δ t0 : ℝ) (x0 : Vec d × Vec d) :
    ∃ y v, Spec.SolvesDmpAhead s δ t0 x0 y v := by
  have hval := hs.valid
  have hm : 0 < m := by have := hval.forcing.1; omega
  have hτ : 0 < s.executionTime := hval.pos.2
  have hex := fun k => sd_solution_exists (s.alphaY k * s.betaY k / s.executionTime ^ 2)
    (s.alphaY k / s.executionTime)
    ((((s.openLoopArgs none).drive_contDiff (n := 1) hm k).continuous).comp (continuous_add_const δ)) t0
    (x0.1 k - s.goalY k, x0.2 k)
  choose x hx0 hx using hex
  refine ⟨fun t k => (x k t).1 + s.goalY k, fun t k => (x k t).2, ⟨?_, ?_, ?_⟩⟩
  · ext k
    · simp [hx0]
    · simp [hx0]
  · intro t k
    exact ((hx k t).fst).add_const _
  · intro t k
    have h := (hx k t).snd
    rw [DMP.acceleration_eq hτ, add_sub_cancel_right]
    exact h

theorem DMP.partial_eq {s : DMP d m} (hτ : 0 < s.executionTime) (k : Fin d) (t y v : ℝ) :
    deriv (fun r => Spec.dmpAcceleration (s.alphaY k) (s.betaY k) (s.goalY k) (s.startY k) s.executionTime s.smooth
        (s.ft.phaseAt r) (s.ft.call r k) y v) t = iteratedDeriv 1 ((s.openLoopArgs none).drive k) t := by
  simp only [DMP.acceleration_eq hτ]
  rw [iteratedDeriv_one, deriv_const_add]

/-- **C81 (the equation of the first-order error has a solution).** -/
theorem C81_shift_exists {s : DMP d m} (hs : s.Reachable) (t0 : ℝ) (y v : ℝ → Vec d) :
    ∃ w wd, Spec.SolvesShift s t0 y v w wd := by
  have hval := hs.valid
  have hm : 0 < m := by have := hval.forcing.1; omega
  have hτ : 0 < s.executionTime := hval.pos.2
  have hex := fun k => sd_solution_exists (s.alphaY k * s.betaY k / s.executionTime ^ 2)
    (s.alphaY k / s.executionTime)
    (u := iteratedDeriv 1 ((s.openLoopArgs none).drive k))
    (continuous_iff_continuousAt.2 fun t => ((s.openLoopArgs none).drive_derivs hm k 1 t).continuousAt) t0 0
  choose x hx0 hx using hex
  refine ⟨fun t k => (x k t).1, fun t k => (x k t).2, ⟨?_, ?_, ?_⟩⟩
  · ext k
    · simp [hx0]
    · simp [hx0]
  · intro t k
    exact (hx k t).fst
  · intro t k
    have h : HasDerivAt (fun t => (x k t).2) (sdField (s.alphaY k * s.betaY k / s.executionTime ^ 2)
      (s.alphaY k / s.executionTime) (x k t) (iteratedDeriv 1 ((s.openLoopArgs none).drive k) t)).2 t := (hx k t).snd
    rw [DMP.partial_eq hτ]
    refine h.congr_deriv ?_
    simp only [sdField]
    field_simp

/-- **C81 (open_loop).** Let `x_δ` be the solution of the differential equation of a DMP with phase and forcing term
evaluated `δ` ahead of time. For every duration `R` there is a constant `C` such that, for every positive `dt`, the
positions that `open_loop` computes with a Runge-Kutta method up to time `R` differ from `x_dt` by at most `C dt⁴`. -/
theorem C81_open_loop {s : DMP d m} (hs : s.Reachable) (R : ℝ) :
    ∃ C, ∀ (name : String) (sf : StepFunction) (dt intDt : ℝ) (y v : ℝ → Vec d), StepFunction.lookup name = .ok sf →
      (sf = .rk4 ∨ sf = .rk4Cython) → 0 < dt → 0 < intDt → Spec.SolvesDmpAhead s dt 0 (s.startY, 0) y v →
      ∀ runT T Y, ((DMP.openLoop runT none name).exec { s with dt := dt, intDt := intDt }).1 = .ok (T, Y) →
        ∀ i (hT : i < T.length) (hY : i < Y.length), T[i] ≤ R → ∀ k, |Y[i] k - y T[i] k| ≤ C * dt ^ 4 := by
  classical
  have hval := hs.valid
  have hm : 0 < m := by have := hval.forcing.1; omega
  have hτ : 0 < s.executionTime := hval.pos.2
  have hK := fun k => rk4_late_error (s.alphaY k * s.betaY k / s.executionTime ^ 2) (s.alphaY k / s.executionTime) 0 R
    ((s.openLoopArgs none).drive_derivs hm k) (s.startY k - s.goalY k, 0)
  choose C hC0 hC using hK
  refine ⟨∑ k, C k, ?_⟩
  intro name sf dt intDt y v hname hsf hdt hint hsol runT T Y h i hT hY hR k
  obtain ⟨xs, h0, hx, -, hrows⟩ := openLoop_rk4 hs hname hsf hdt hint
  obtain ⟨e1, e2⟩ := hrows runT T Y h i hT hY
  have h1 := hC k dt (fun t => (y t k - s.goalY k, v t k)) hdt (by
      have := hsol.start
      rw [Prod.mk.injEq] at this
      rw [this.1, this.2]; rfl) (fun t => by
      have h1 := ((hsol.velocity t k).sub_const (s.goalY k)).prodMk (hsol.acceleration t k)
      rw [DMP.acceleration_eq hτ] at h1
      simp only [iteratedDeriv_zero]
      exact h1) (xs k) (h0 k) (fun i _ => by
      simp only [iteratedDeriv_zero]
      exact hx k i) i (by rw [zero_add]; exact e1 ▸ hR)
  have h2 := (norm_fst_le _).trans h1
  rw [e1]
  have h3 : C k ≤ ∑ k, C k := Finset.single_le_sum (fun j _ => hC0 j) (Finset.mem_univ k)
  have h4 := mul_le_mul_of_nonneg_right h3 (by positivity : 0 ≤ dt ^ 4)
  rw [zero_add, Prod.fst_sub, ← e2, Real.norm_eq_abs, sub_sub_sub_cancel_right] at h2
  exact h2.trans h4

/-- The hypotheses can be met for every reachable DMP, both methods and all step sizes. -/
example {s : DMP d m} (hs : s.Reachable) {dt : ℝ} (hdt : 0 < dt) : ∃ y v, Spec.SolvesDmpAhead s dt 0 (s.startY, 0) y v ∧
    ∃ T Y, ((DMP.openLoop (some 1) none "rk4").exec { s with dt := dt, intDt := 1 }).1 = .ok (T, Y) := by
  obtain ⟨y, v, h⟩ := C81_solution_exists hs dt 0 (s.startY, 0)
  obtain ⟨-, -, -, hret, -⟩ := openLoop_rk4 (name := "rk4") (sf := .rk4) hs rfl (.inl rfl) hdt one_pos
  exact ⟨y, v, h, hret 1 zero_le_one⟩

/-- **C81 (fourth order without a forcing term).** If all weights are zero and the goal is not smoothed, then the
positions that `open_loop` computes with a Runge-Kutta method differ from the solution by at most `C dt⁴`. -/
theorem C81_unforced {s : DMP d m} (hs : s.Reachable) (hw : s.ft.weights = fun _ _ => 0) (hsm : s.smooth = false)
    {y v : ℝ → Vec d} (hsol : Spec.SolvesDmp s 0 (s.startY, 0) y v) (R : ℝ) :
    ∃ C, ∀ (name : String) (sf : StepFunction) (dt intDt : ℝ), StepFunction.lookup name = .ok sf →
      (sf = .rk4 ∨ sf = .rk4Cython) → 0 < dt → 0 < intDt →
      ∀ runT T Y, ((DMP.openLoop runT none name).exec { s with dt := dt, intDt := intDt }).1 = .ok (T, Y) →
        ∀ i (hT : i < T.length) (hY : i < Y.length), T[i] ≤ R → ∀ k, |Y[i] k - y T[i] k| ≤ C * dt ^ 4 := by
  obtain ⟨C, hC⟩ := C81_open_loop hs R
  refine ⟨C, fun name sf dt intDt hname hsf hdt hint => hC name sf dt intDt y v hname hsf hdt hint ⟨hsol.start, hsol.velocity, ?_⟩⟩
  intro t k
  have h := hsol.acceleration t k
  have hcall : ∀ t, s.ft.call t k = 0 := by
    intro t
    simp [ForcingTerm.call, ForcingTerm.force, hw]
  rw [hcall, hsm] at h ⊢
  exact h

/-- **C81 (error).** In general the error has order one: it is `dt` times the derivative of the solution with respect to
the time shift, up to `C dt²`. -/
theorem C81_error {s : DMP d m} (hs : s.Reachable) {y v w wd : ℝ → Vec d}
    (hsol : Spec.SolvesDmp s 0 (s.startY, 0) y v) (hw : Spec.SolvesShift s 0 y v w wd) (R : ℝ) :
    ∃ C, ∀ (name : String) (sf : StepFunction) (dt intDt : ℝ), StepFunction.lookup name = .ok sf →
      (sf = .rk4 ∨ sf = .rk4Cython) → 0 < dt → 0 < intDt →
      ∀ runT T Y, ((DMP.openLoop runT none name).exec { s with dt := dt, intDt := intDt }).1 = .ok (T, Y) →
        ∀ i (hT : i < T.length) (hY : i < Y.length), T[i] ≤ R → ∀ k,
          |Y[i] k - y T[i] k - dt * w T[i] k| ≤ C * dt ^ 2 := by
  classical
  have hval := hs.valid
  have hm : 0 < m := by have := hval.forcing.1; omega
  have hτ : 0 < s.executionTime := hval.pos.2
  have hK := fun k => rk4_late_expansion (k := s.alphaY k * s.betaY k / s.executionTime ^ 2)
    (c := s.alphaY k / s.executionTime) 0 R ((s.openLoopArgs none).drive_derivs hm k)
    (x := fun t => (y t k - s.goalY k, v t k)) (w := fun t => (w t k, wd t k)) (fun t => by
      have h1 := ((hsol.velocity t k).sub_const (s.goalY k)).prodMk (hsol.acceleration t k)
      rw [DMP.acceleration_eq hτ] at h1
      simp only [iteratedDeriv_zero]
      exact h1) (fun t => by
      have h1 := (hw.velocity t k).prodMk (hw.acceleration t k)
      rw [DMP.partial_eq hτ] at h1
      refine h1.congr_deriv ?_
      ext
      · rfl
      · simp only [sdField]
        field_simp) (by
      have := hw.start
      have h1 : w 0 = 0 := congrArg Prod.fst this
      have h2 : wd 0 = 0 := congrArg Prod.snd this
      rw [h1, h2]; rfl)
  choose C hC0 hC using hK
  refine ⟨∑ k, C k, ?_⟩
  intro name sf dt intDt hname hsf hdt hint runT T Y h i hT hY hR k
  obtain ⟨xs, h0, hx, -, hrows⟩ := openLoop_rk4 hs hname hsf hdt hint
  obtain ⟨e1, e2⟩ := hrows runT T Y h i hT hY
  have h1 := hC k dt hdt (xs k) (by
      have := hsol.start
      rw [Prod.mk.injEq] at this
      rw [this.1, this.2, h0]; rfl) (fun i _ => by
      simp only [iteratedDeriv_zero]
      exact hx k i) i (by rw [zero_add]; exact e1 ▸ hR)
  have h2 := (norm_fst_le _).trans h1
  rw [e1]
  have h3 : C k ≤ ∑ k, C k := Finset.single_le_sum (fun j _ => hC0 j) (Finset.mem_univ k)
  have h4 := mul_le_mul_of_nonneg_right h3 (by positivity : 0 ≤ dt ^ 2)
  rw [zero_add, Prod.fst_sub, Prod.fst_sub, ← e2, Real.norm_eq_abs, sub_sub_sub_cancel_right] at h2
  exact h2.trans h4

/-- **C81 (finding).** The Runge-Kutta method is only of order one: there are a DMP with default gains and a time `T` such
that the error of the position at `T` is at least `c dt` for all small `dt = T / N`. -/
theorem C81_first_order_only : ∃ (s : DMP 1 10) (y v : ℝ → Vec 1) (c T : ℝ) (N0 : ℕ), s.Reachable ∧
    s.alphaY 0 = 25 ∧ s.betaY 0 = 25 / 4 ∧ Spec.SolvesDmp s 0 (s.startY, 0) y v ∧ 0 < c ∧ 0 < T ∧ T < s.executionTime ∧
    ∀ (name : String) (sf : StepFunction) (intDt : ℝ) (N : ℕ), StepFunction.lookup name = .ok sf →
      (sf = .rk4 ∨ sf = .rk4Cython) → 0 < intDt → N0 ≤ N →
      ∃ times Y, ((DMP.openLoop (some T) none name).exec { s with dt := T / N, intDt := intDt }).1 = .ok (times, Y) ∧
        ∃ (hT : N < times.length) (hY : N < Y.length), times[N] = T ∧ c * (T / N) ≤ |Y[N] 0 - y T 0| := by
  obtain ⟨s0, hs0, e1, -, -, -, e5, -, -, e8, -, e10, e11, e12, -⟩ :=
    DMP.create_ok 1 10 (by norm_num) one_pos (1 / 100) (1 / 1000) 0 false 25 (25 / 4)
  have hr0 : s0.Reachable := .create hs0
  have hc : (DMP.setWeights (List.replicate 10 1)).exec s0 =
      (.ok (), { s0 with ft := { s0.ft with weights := fun _ _ => 1 } }) := by
    unfold DMP.setWeights DMP.reshapeWeights
    simp only [Py.exec_bind, Py.exec_lift]
    rw [dif_pos (by simp)]
    simp only [List.getElem_replicate]
    rfl
  set s : DMP 1 10 := { s0 with ft := { s0.ft with weights := fun _ _ => 1 } } with hsdef
  have hr : s.Reachable := .op (.setWeights (List.replicate 10 1)) hr0 hc (by intro τ h; cases h)
  have hft : ∃ A, 0 < A ∧ ∀ t, s.ft.phaseAt t = Real.exp (-A * t) := by
    obtain ⟨ft, h1, h2⟩ := hr.valid
    rw [DMP.initForcingTerm_ok_iff] at h1
    unfold ForcingTerm.create at h1
    split_ifs at h1
    injection h1 with h1
    refine ⟨-Real.log (1 / 100), by
      have := Real.log_neg (by norm_num : (0 : ℝ) < 1 / 100) (by norm_num)
      linarith, fun t => ?_⟩
    rw [h2, ← h1]
    have e : s.executionTime = 1 := e1
    simp [ForcingTerm.phaseAt, phase, e]
  obtain ⟨A, hA, hph⟩ := hft
  have hcall : ∀ t, s.ft.call t 0 = Real.exp (-A * t) := by
    intro t
    have hne : ∑ j, s.ft.rbf (s.ft.phaseAt t) j ≠ 0 :=
      (Finset.sum_pos (fun j _ => Real.exp_pos _) Finset.univ_nonempty).ne'
    have : ∑ i : Fin 10, s.ft.weights 0 i * s.ft.activations (s.ft.phaseAt t) i = 1 := by
      have hw : ∀ i, s.ft.weights 0 i = 1 := fun _ => rfl
      simp only [hw, one_mul, ForcingTerm.activations]
      rw [← Finset.sum_div, div_self hne]
    unfold ForcingTerm.call ForcingTerm.force
    rw [this, hph]
    ring
  have hτ : s.executionTime = 1 := e1
  have hsm : s.smooth = false := e5
  have hstart : s.startY = 0 := e8
  have hgoal : s.goalY = 0 := e10
  obtain ⟨y, v, hsol, -⟩ := C77_solution_exists hr 0 (s.startY, 0)
  have hacc : ∀ t, HasDerivAt (fun t => v t 0) (s.alphaY 0 * (-s.betaY 0 * y t 0 - v t 0) + Real.exp (-A * t)) t := by
    intro t
    have h := hsol.acceleration t 0
    rw [hcall, hτ, hsm, hgoal] at h
    refine h.congr_deriv ?_
    unfold Spec.dmpAcceleration
    simp
  have hy0 : y 0 = 0 := by
    have := congrArg Prod.fst hsol.start
    rw [hstart] at this; exact this
  have hv0 : v 0 = 0 := congrArg Prod.snd hsol.start
  have hexp : ∀ t, HasDerivAt (fun t : ℝ => Real.exp (-A * t)) (-A * Real.exp (-A * t)) t := by
    intro t
    have h1 : HasDerivAt (fun t : ℝ => -A * t) (-A) t := by
      simpa using (hasDerivAt_id t).const_mul (-A)
    exact h1.exp.congr_deriv (by ring)
  have hshift : Spec.SolvesShift s 0 y v (fun t k => -A * y t k) (fun t k => -A * v t k) := by
    refine ⟨?_, fun t k => (hsol.velocity t k).const_mul (-A), ?_⟩
    · ext k
      · simp [hy0]
      · simp [hv0]
    · intro t k
      obtain rfl : k = 0 := Subsingleton.elim _ _
      have hd : deriv (fun r => Spec.dmpAcceleration (s.alphaY 0) (s.betaY 0) (s.goalY 0) (s.startY 0) s.executionTime
          s.smooth (s.ft.phaseAt r) (s.ft.call r 0) (y t 0) (v t 0)) t = -A * Real.exp (-A * t) := by
        simp only [hcall, hτ, hsm, hgoal]
        unfold Spec.dmpAcceleration
        simp only [Bool.false_eq_true, if_false, one_pow, div_one]
        exact ((hexp t).const_add _).deriv
      rw [hd, hτ]
      refine ((hacc t).const_mul (-A)).congr_deriv ?_
      ring
  obtain ⟨T, hT0, hT1, hT⟩ : ∃ T, 0 < T ∧ T < 1 ∧ y T 0 ≠ 0 := by
    by_contra hcon
    push Not at hcon
    have hev : ∀ t, 0 < t → t < 1 → ∀ f : ℝ → ℝ, (∀ r, 0 < r → r < 1 → f r = 0) → ∀ f', HasDerivAt f f' t → f' = 0 := by
      intro t h0 h1 f hf f' hd
      have h2 : f =ᶠ[nhds t] fun _ => (0 : ℝ) := by
        filter_upwards [Ioo_mem_nhds h0 h1] with r hr using hf r hr.1 hr.2
      exact (hd.congr_of_eventuallyEq h2.symm).unique (hasDerivAt_const t (0 : ℝ))
    have hv : ∀ t, 0 < t → t < 1 → v t 0 = 0 := fun t h0 h1 =>
      hev t h0 h1 (fun t => y t 0) hcon _ (hsol.velocity t 0)
    have h := hev (1 / 2) (by norm_num) (by norm_num) (fun t => v t 0) hv _ (hacc (1 / 2))
    rw [hcon (1 / 2) (by norm_num) (by norm_num), hv (1 / 2) (by norm_num) (by norm_num)] at h
    have := Real.exp_pos (-A * (1 / 2))
    simp only [mul_zero, sub_zero, zero_add] at h
    linarith
  obtain ⟨C, hC⟩ := C81_error hr hsol hshift T
  set W := |(-A * y T 0)| with hW
  have hW0 : 0 < W := abs_pos.2 (mul_ne_zero (by linarith) hT)
  set N0 := ⌈T * (2 * (|C| + 1)) / W⌉₊ + 1 with hN0
  refine ⟨s, y, v, W / 2, T, N0, hr, by rw [show s.alphaY = _ from e11], by rw [show s.betaY = _ from e12], hsol,
    by positivity, hT0, by rw [hτ]; exact hT1, ?_⟩
  intro name sf intDt N hname hsf hint hN
  have hNpos : (0 : ℝ) < N := by
    have : 0 < N := by omega
    exact_mod_cast this
  have hdt : 0 < T / N := by positivity
  obtain ⟨-, -, -, hret, -⟩ := openLoop_rk4 hr hname hsf hdt hint
  obtain ⟨times, Y, hres⟩ := hret T hT0.le
  obtain ⟨g1, g2, g3, g4, -⟩ := C20_open_loop_grid { s with dt := T / N, intDt := intDt } hdt (some T) none name hres
  have hlen : N < times.length := by
    have h1 : T ≤ (times.length - 1 : ℕ) * (T / N) := g4
    have h2 : (N : ℝ) * (T / N) = T := by field_simp
    have h3 : (N : ℝ) ≤ (times.length - 1 : ℕ) := by
      refine le_of_mul_le_mul_right ?_ hdt
      rw [h2]; exact h1
    have : N ≤ times.length - 1 := by exact_mod_cast h3
    omega
  have htN : times[N] = T := by
    have h1 := g3 N hlen
    refine h1.trans ?_
    show (N : ℝ) * (T / N) = T
    field_simp
  refine ⟨times, Y, hres, hlen, by rw [g1]; exact hlen, htN, ?_⟩
  have h1 := hC name sf (T / N) intDt hname hsf hdt hint (some T) times Y hres N hlen (by rw [g1]; exact hlen)
    htN.le 0
  rw [htN] at h1
  set D := T / N with hD
  have h2 : (|C| + 1) * D ≤ W / 2 := by
    have h3 : T * (2 * (|C| + 1)) / W ≤ N := by
      refine (Nat.le_ceil _).trans ?_
      have : ⌈T * (2 * (|C| + 1)) / W⌉₊ ≤ N := by omega
      exact_mod_cast this
    rw [div_le_iff₀ hW0] at h3
    have h4 : (|C| + 1) * D = T * (2 * (|C| + 1)) / (2 * N) := by rw [hD]; field_simp
    rw [h4, div_le_iff₀ (by positivity)]
    linarith
  have h3 : C * D ^ 2 ≤ W / 2 * D := by
    have h4 : C * D ≤ (|C| + 1) * D := mul_le_mul_of_nonneg_right (by linarith [le_abs_self C]) hdt.le
    have h5 := mul_le_mul_of_nonneg_right (h4.trans h2) hdt.le
    nlinarith
  have h4 : |D * (-A * y T 0)| = D * W := by rw [abs_mul, abs_of_pos hdt]
  have h5 := abs_sub_abs_le_abs_sub (D * (-A * y T 0)) ((Y[N]'(by rw [g1]; exact hlen)) 0 - y T 0)
  rw [abs_sub_comm (D * _)] at h5
  rw [h4] at h5
  nlinarith

end Verif
