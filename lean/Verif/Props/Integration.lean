import Verif.Lemmas.LinearOde
import Verif.Spec.Solution
import Verif.Props.Convergence
import Verif.Props.SpringDamper

/-! # C77: integrators approximate the solution of the differential equation -/

namespace Verif
variable {d m : ℕ}

theorem ForcingTerm.call_contDiff {n : WithTop ℕ∞} (ft : ForcingTerm d m) (hm : 0 < m) (k : Fin d) :
    ContDiff ℝ n (fun t => ft.call t k) := by
  have hph : ContDiff ℝ n (fun t => ft.phaseAt t) := by
    unfold ForcingTerm.phaseAt phase
    fun_prop
  have hrbf : ∀ i, ContDiff ℝ n (fun t => ft.rbf (ft.phaseAt t) i) := by
    intro i
    unfold ForcingTerm.rbf
    exact Real.contDiff_exp.comp (contDiff_const.mul ((hph.sub contDiff_const).pow 2))
  have hsum : ContDiff ℝ n (fun t => ∑ j, ft.rbf (ft.phaseAt t) j) := ContDiff.sum fun j _ => hrbf j
  have hne : ∀ t, ∑ j, ft.rbf (ft.phaseAt t) j ≠ 0 := by
    intro t
    have : Nonempty (Fin m) := ⟨⟨0, hm⟩⟩
    exact (Finset.sum_pos (fun j _ => Real.exp_pos _) Finset.univ_nonempty).ne'
  unfold ForcingTerm.call ForcingTerm.force ForcingTerm.activations
  exact hph.mul (ContDiff.sum fun i _ => contDiff_const.mul ((hrbf i).div hsum hne))

theorem StepArgs.drive_contDiff {n : WithTop ℕ∞} (a : StepArgs d m) (hm : 0 < m) (k : Fin d) : ContDiff ℝ n (a.drive k) := by
  have hph : ContDiff ℝ n (fun t => a.ft.phaseAt t) := by
    unfold ForcingTerm.phaseAt phase
    fun_prop
  unfold StepArgs.drive
  refine ContDiff.div_const (ContDiff.sub (a.ft.call_contDiff hm k) ?_) _
  cases a.smooth
  · simpa using contDiff_const
  · simpa using contDiff_const.mul (contDiff_const.mul hph)

theorem StepArgs.acceleration_eq (a : StepArgs d m) (hT : a.startT < a.goalT) (k : Fin d) (t y v : ℝ) :
    Spec.dmpAcceleration (a.alphaY k) (a.betaY k) (a.goalY k) (a.startY k) (a.goalT - a.startT) a.smooth
        (a.ft.phaseAt t) (a.ft.call t k) y v =
      -(a.alphaY k * a.betaY k / (a.goalT - a.startT) ^ 2) * (y - a.goalY k) -
        a.alphaY k / (a.goalT - a.startT) * v + a.drive k t := by
  have hτ : a.goalT - a.startT ≠ 0 := by linarith
  unfold Spec.dmpAcceleration StepArgs.drive
  cases a.smooth
  · simp only [Bool.false_eq_true, if_false]; field_simp; ring
  · simp only [if_true]; field_simp; ring

section Core
variable (a : StepArgs d m)

/-- Error of a sequence of steps. -/
theorem run_error (hc : a.coupling = none) (hp : a.precomputed = none) (he : a.trackingError = 0)
    (hT : a.startT < a.goalT) (hm : 0 < m) {t0 : ℝ} (ht0 : a.startT ≤ t0) (R : ℝ) {y v : ℝ → Vec d}
    (hy : ∀ t k, HasDerivAt (fun t => y t k) (v t k) t)
    (hv : ∀ t k, HasDerivAt (fun t => v t k) (Spec.dmpAcceleration (a.alphaY k) (a.betaY k) (a.goalY k) (a.startY k)
      (a.goalT - a.startT) a.smooth (a.ft.phaseAt t) (a.ft.call t k) (y t k) (v t k)) t) :
    ∃ C, 0 ≤ C ∧ ∀ (sf : StepFunction) (D δ : ℝ), 0 < D → 0 < δ → ∀ xs : ℕ → Vec d × Vec d, xs 0 = (y t0, v t0) →
      (∀ i : ℕ, sf.run { a with intDt := δ } (t0 + i * D) (t0 + (i + 1) * D) (xs i) = .ok (xs (i + 1))) →
      ∀ i : ℕ, t0 + i * D ≤ R → ∀ k, |(xs i).1 k - y (t0 + i * D) k| ≤ C * Spec.largestStep D δ sf ∧
        |(xs i).2 k - v (t0 + i * D) k| ≤ C * Spec.largestStep D δ sf := by
  classical
  set τ := a.goalT - a.startT with hτ
  let x : Fin d → ℝ → ℝ × ℝ := fun k t => (y t k - a.goalY k, v t k)
  have hx : ∀ k t, HasDerivAt (x k)
      (sdField (a.alphaY k * a.betaY k / τ ^ 2) (a.alphaY k / τ) (x k t) (a.drive k t)) t := by
    intro k t
    have h1 := ((hy t k).sub_const (a.goalY k)).prodMk (hv t k)
    rw [a.acceleration_eq hT] at h1
    exact h1
  have hE := fun k => sd_grid_error (a.drive_contDiff hm k) (hx k) t0 R
  have hK := fun k => rk_grid_error (a.drive_contDiff hm k) (hx k) t0 R
  choose CE hCE0 hCE using hE
  choose CK hCK0 hCK using hK
  have hsumE : ∀ k, CE k ≤ ∑ k, (CE k + CK k) := fun k =>
    le_trans (by linarith [hCK0 k]) (Finset.single_le_sum (f := fun k => CE k + CK k)
      (fun j _ => add_nonneg (hCE0 j) (hCK0 j)) (Finset.mem_univ k))
  have hsumK : ∀ k, CK k ≤ ∑ k, (CE k + CK k) := fun k =>
    le_trans (by linarith [hCE0 k]) (Finset.single_le_sum (f := fun k => CE k + CK k)
      (fun j _ => add_nonneg (hCE0 j) (hCK0 j)) (Finset.mem_univ k))
  refine ⟨∑ k, (CE k + CK k), Finset.sum_nonneg fun k _ => add_nonneg (hCE0 k) (hCK0 k), ?_⟩
  intro sf D δ hD hδ xs h0 hstep i hi k
  have hend : ∀ i : ℕ, a.startT < t0 + (i + 1) * D := by
    intro i
    have : 0 < ((i : ℝ) + 1) * D := by positivity
    linarith
  have hle : ∀ i : ℕ, t0 + i * D ≤ t0 + (i + 1) * D := fun i => by linarith
  set a' : StepArgs d m := { a with intDt := δ } with ha'
  suffices h : ‖((xs i).1 k - a.goalY k, (xs i).2 k) - x k (t0 + i * D)‖ ≤
      (∑ k, (CE k + CK k)) * Spec.largestStep D δ sf by
    constructor
    · have := (norm_fst_le _).trans h
      simpa [x] using this
    · have := (norm_snd_le _).trans h
      simpa [x] using this
  have hstart : ((xs 0).1 k - a.goalY k, (xs 0).2 k) = x k t0 := by rw [h0]
  have euler : (sf = .euler ∨ sf = .eulerCython) → Spec.largestStep D δ sf = min δ D →
      ‖((xs i).1 k - a.goalY k, (xs i).2 k) - x k (t0 + i * D)‖ ≤ (∑ k, (CE k + CK k)) * Spec.largestStep D δ sf := by
    intro hsf hl
    have h1 := hCE k δ D hδ hD (fun i => ((xs i).1 k - a.goalY k, (xs i).2 k)) hstart (fun i _ => by
      have h1 := hstep i
      rw [run_euler_eq a' hc hp hsf hδ hT (hle i) (hend i)] at h1
      injection h1 with h1
      rw [← h1]
      exact a'.foldl_sd hc hp he hT k _ _) i hi
    rw [hl]
    exact h1.trans (mul_le_mul_of_nonneg_right (hsumE k) (le_min hδ.le hD.le))
  have rk : (sf = .rk4 ∨ sf = .rk4Cython) → Spec.largestStep D δ sf = D →
      ‖((xs i).1 k - a.goalY k, (xs i).2 k) - x k (t0 + i * D)‖ ≤ (∑ k, (CE k + CK k)) * Spec.largestStep D δ sf := by
    intro hsf hl
    have h1 := hCK k D hD (fun i => ((xs i).1 k - a.goalY k, (xs i).2 k)) hstart (fun i _ => by
      have h3 : a'.stepRk4 (t0 + i * D) (t0 + (i + 1) * D) (xs i) = .ok (xs (i + 1)) := by
        have := hstep i
        rcases hsf with rfl | rfl
        · exact this
        · rw [← C10_rk4_cython_eq_python]; exact this
      have h4 := a'.stepRk4_sd hc hp he hT h3 k
      have e : t0 + (i + 1) * D - (t0 + i * D) = D := by ring
      rw [e] at h4
      exact h4) i hi
    rw [hl]
    exact h1.trans (mul_le_mul_of_nonneg_right (hsumK k) hD.le)
  cases sf with
  | euler => exact euler (.inl rfl) rfl
  | eulerCython => exact euler (.inr rfl) rfl
  | rk4 => exact rk (.inl rfl) rfl
  | rk4Cython => exact rk (.inr rfl) rfl

end Core

/-! ## C77 -/

/-- **C77 (the differential equation has exactly one solution).** -/
theorem C77_solution_exists {s : DMP d m} (hs : s.Reachable) (t0 : ℝ) (x0 : Vec d × Vec d) :
    ∃ y v, Spec.SolvesDmp s t0 x0 y v ∧ ∀ y' v', Spec.SolvesDmp s t0 x0 y' v' → y' = y ∧ v' = v := by
  have hval := hs.valid
  have hm : 0 < m := by have := hval.forcing.1; omega
  let a := s.openLoopArgs none
  have hT : a.startT < a.goalT := hval.pos.2
  have hex := fun k => sd_solution_exists (a.alphaY k * a.betaY k / (a.goalT - a.startT) ^ 2)
    (a.alphaY k / (a.goalT - a.startT)) (a.drive_contDiff (n := 1) hm k).continuous t0 (x0.1 k - a.goalY k, x0.2 k)
  choose x hx0 hx using hex
  have hacc : ∀ (k : Fin d) (t p q : ℝ), Spec.dmpAcceleration (s.alphaY k) (s.betaY k) (s.goalY k) (s.startY k)
      s.executionTime s.smooth (s.ft.phaseAt t) (s.ft.call t k) p q =
      -(a.alphaY k * a.betaY k / (a.goalT - a.startT) ^ 2) * (p - a.goalY k) -
        a.alphaY k / (a.goalT - a.startT) * q + a.drive k t := by
    intro k t p q
    rw [← a.acceleration_eq hT]
    show _ = Spec.dmpAcceleration (s.alphaY k) (s.betaY k) (s.goalY k) (s.startY k) (s.executionTime - 0) s.smooth
      (s.ft.phaseAt t) (s.ft.call t k) p q
    rw [sub_zero]
  refine ⟨fun t k => (x k t).1 + a.goalY k, fun t k => (x k t).2, ⟨?_, ?_, ?_⟩, ?_⟩
  · ext k
    · simp [hx0]
    · simp [hx0]
  · intro t k
    exact ((hx k t).fst).add_const _
  · intro t k
    have h : HasDerivAt (fun t => (x k t).2) (sdField (a.alphaY k * a.betaY k / (a.goalT - a.startT) ^ 2)
      (a.alphaY k / (a.goalT - a.startT)) (x k t) (a.drive k t)).2 t := (hx k t).snd
    rw [hacc, add_sub_cancel_right]
    exact h
  · intro y' v' h
    have huniq : ∀ k, (fun t => (y' t k - a.goalY k, v' t k)) = x k := by
      intro k
      refine sd_solution_unique (t0 := t0) (fun t => ?_) (hx k) ?_
      · have h1 := ((h.velocity t k).sub_const (a.goalY k)).prodMk (h.acceleration t k)
        rw [hacc] at h1
        exact h1
      · rw [hx0]
        have := h.start
        rw [← this]
    constructor
    · funext t k
      have := congrArg Prod.fst (congrFun (huniq k) t)
      simp only at this
      linarith
    · funext t k
      exact congrArg Prod.snd (congrFun (huniq k) t)

/-- The step functions do not raise for positive step sizes. -/
theorem run_ok (a : StepArgs d m) (hc : a.coupling = none) (hp : a.precomputed = none) (hT : a.startT < a.goalT)
    (hint : 0 < a.intDt) (sf : StepFunction) {lastT t : ℝ} (hlt : lastT ≤ t) (ht : a.startT < t) (x : Vec d × Vec d) :
    ∃ x', sf.run a lastT t x = .ok x' := by
  cases sf with
  | euler => exact ⟨_, run_euler_eq a hc hp (.inl rfl) hint hT hlt ht x⟩
  | eulerCython => exact ⟨_, run_euler_eq a hc hp (.inr rfl) hint hT hlt ht x⟩
  | rk4 => exact ⟨_, rfl⟩
  | rk4Cython =>
    show ∃ s', a.stepRk4Cy lastT t x = .ok s'
    rw [C10_rk4_cython_eq_python]; exact ⟨_, rfl⟩

/-- **C77 (open_loop).** Let `y` be the solution of the differential equation of a DMP that starts at rest in the start
position. For every duration `R` there is a constant `C` such that, for all positive `dt` and `int_dt` and every step
function, `open_loop` returns, and its positions up to time `R` differ from the solution by at most `C` times the largest
step. -/
theorem C77_open_loop {s : DMP d m} (hs : s.Reachable) {y v : ℝ → Vec d}
    (hsol : Spec.SolvesDmp s 0 (s.startY, 0) y v) (R : ℝ) :
    ∃ C, ∀ (name : String) (sf : StepFunction) (dt intDt : ℝ), StepFunction.lookup name = .ok sf → 0 < dt → 0 < intDt →
      (∀ r : ℝ, 0 ≤ r → ∃ T Y, ((DMP.openLoop (some r) none name).exec { s with dt := dt, intDt := intDt }).1 = .ok (T, Y)) ∧
      ∀ runT T Y, ((DMP.openLoop runT none name).exec { s with dt := dt, intDt := intDt }).1 = .ok (T, Y) →
        ∀ i (hT : i < T.length) (hY : i < Y.length), T[i] ≤ R → ∀ k,
          |Y[i] k - y T[i] k| ≤ C * Spec.largestStep dt intDt sf := by
  have hval := hs.valid
  have hm : 0 < m := by have := hval.forcing.1; omega
  let a := s.openLoopArgs none
  have haT : a.startT < a.goalT := hval.pos.2
  have hv : ∀ t k, HasDerivAt (fun t => v t k) (Spec.dmpAcceleration (a.alphaY k) (a.betaY k) (a.goalY k) (a.startY k)
      (a.goalT - a.startT) a.smooth (a.ft.phaseAt t) (a.ft.call t k) (y t k) (v t k)) t := by
    intro t k
    have e : a.goalT - a.startT = s.executionTime := sub_zero _
    rw [e]
    exact hsol.acceleration t k
  obtain ⟨C, -, hC⟩ := run_error a rfl rfl rfl haT hm (le_refl a.startT) R hsol.velocity hv
  refine ⟨C, ?_⟩
  intro name sf dt intDt hname hdt hint
  obtain ⟨xs, h0, hx, hret, hrows⟩ := openLoop_states (s := { s with dt := dt, intDt := intDt }) hname hdt (fun i x =>
    run_ok { a with intDt := intDt } rfl rfl haT hint sf
      (show (0 : ℝ) + i * dt ≤ 0 + (i + 1) * dt by linarith)
      (show (0 : ℝ) < 0 + (i + 1) * dt by
        have : 0 < ((i : ℝ) + 1) * dt := by positivity
        linarith) x)
  refine ⟨hret, ?_⟩
  intro runT T Y h i hT hY hR k
  obtain ⟨e1, e2⟩ := hrows runT T Y h i hT hY
  rw [e1] at hR ⊢
  rw [e2]
  have := (hC sf dt intDt hdt hint xs (by rw [h0]; exact hsol.start.symm) hx i
    (show (0 : ℝ) + i * dt ≤ R by rw [zero_add]; exact hR) k).1
  have e : a.startT + i * dt = i * dt := zero_add _
  rw [e] at this
  exact this

/-- **C77 (step).** Let `y`, `v` be the solution that starts in the current state of a DMP. For every time `R` there is a
constant `C` such that, for all positive `dt` and `int_dt` and every step function, positions and velocities returned by
calls of `step` up to time `R` differ from the solution by at most `C` times the largest step. As in C07 and C08 there
is no feedback (`p_gain = 0`) or every call receives the previous result. -/
theorem C77_step {s : DMP d m} (hs : s.Reachable) (ht : 0 ≤ s.t) {y v : ℝ → Vec d}
    (hsol : Spec.SolvesDmp s s.t (if s.initialized then (s.currentY, s.currentYd) else (s.startY, s.startYd)) y v) (R : ℝ) :
    ∃ C, ∀ (sf : StepFunction) (dt intDt : ℝ), 0 < dt → 0 < intDt →
      ∀ (obj : ℕ → DMP d m) (fb out : ℕ → Vec d × Vec d), obj 0 = { s with dt := dt, intDt := intDt } →
        Spec.Run (DMP.step none sf) obj fb out →
        (s.pGain = 0 ∨
          (fb 0).1 = (if s.initialized then s.currentY else s.startY) ∧ ∀ i, (fb (i + 1)).1 = (out i).1) →
        ∀ i : ℕ, s.t + (i + 1) * dt ≤ R → ∀ k,
          |(out i).1 k - y (s.t + (i + 1) * dt) k| ≤ C * Spec.largestStep dt intDt sf ∧
          |(out i).2 k - v (s.t + (i + 1) * dt) k| ≤ C * Spec.largestStep dt intDt sf := by
  have hval := hs.valid
  have hm : 0 < m := by have := hval.forcing.1; omega
  let a := s.stepArgs none 0
  have haT : a.startT < a.goalT := hval.pos.2
  have hv : ∀ t k, HasDerivAt (fun t => v t k) (Spec.dmpAcceleration (a.alphaY k) (a.betaY k) (a.goalY k) (a.startY k)
      (a.goalT - a.startT) a.smooth (a.ft.phaseAt t) (a.ft.call t k) (y t k) (v t k)) t := by
    intro t k
    have e : a.goalT - a.startT = s.executionTime := sub_zero _
    rw [e]
    exact hsol.acceleration t k
  obtain ⟨C, -, hC⟩ := run_error a rfl rfl rfl haT hm (show a.startT ≤ s.t from ht) R hsol.velocity hv
  refine ⟨C, ?_⟩
  intro sf dt intDt hdt hint obj fb out h0 hrun hfb i hi k
  have hx := step_states h0 hrun hfb
  have h1 := hC sf dt intDt hdt hint (fun i => ((obj i).beginStep.currentY, (obj i).beginStep.currentYd)) (by
    rw [hsol.start, h0]
    cases h : s.initialized <;> simp [DMP.beginStep]) hx (i + 1) (by push_cast; exact hi) k
  rw [← (run_result hrun i).2]
  push_cast at h1
  exact h1

/-- Without a forcing term and with the usual gains (`β = α / 4`) the solution is the critically damped approach of the
goal; it meets the hypothesis of `C77_open_loop`. -/
theorem C77_critically_damped {s : DMP d m} (hs : s.Reachable) (hw : s.ft.weights = fun _ _ => 0) (hsm : s.smooth = false)
    (hβ : ∀ k, s.betaY k = s.alphaY k / 4) :
    Spec.SolvesDmp s 0 (s.startY, 0)
      (fun t k => s.goalY k + (s.startY k - s.goalY k) * (1 + s.alphaY k / (2 * s.executionTime) * t) *
        Real.exp (-(s.alphaY k / (2 * s.executionTime) * t)))
      (fun t k => -(s.startY k - s.goalY k) * (s.alphaY k / (2 * s.executionTime)) ^ 2 * t *
        Real.exp (-(s.alphaY k / (2 * s.executionTime) * t))) := by
  have hτ : s.executionTime ≠ 0 := hs.valid.pos.2.ne'
  have hcall : ∀ t k, s.ft.call t k = 0 := by
    intro t k
    simp [ForcingTerm.call, ForcingTerm.force, hw]
  have hexp : ∀ w t : ℝ, HasDerivAt (fun t => Real.exp (-(w * t))) (Real.exp (-(w * t)) * -w) t := by
    intro w t
    have : HasDerivAt (fun t : ℝ => -(w * t)) (-w) t := by
      have h := ((hasDerivAt_id t).const_mul w).neg
      rw [mul_one] at h
      exact h
    exact this.exp
  refine ⟨?_, ?_, ?_⟩
  · ext k <;> simp
  · intro t k
    set w := s.alphaY k / (2 * s.executionTime)
    have h1 : HasDerivAt (fun t : ℝ => (s.startY k - s.goalY k) * (1 + w * t)) ((s.startY k - s.goalY k) * w) t := by
      simpa using (((hasDerivAt_id t).const_mul w).const_add 1).const_mul (s.startY k - s.goalY k)
    have h2 := (h1.mul (hexp w t)).const_add (s.goalY k)
    exact h2.congr_deriv (by ring)
  · intro t k
    have h1 : HasDerivAt (fun t : ℝ => -(s.startY k - s.goalY k) * (s.alphaY k / (2 * s.executionTime)) ^ 2 * t)
        (-(s.startY k - s.goalY k) * (s.alphaY k / (2 * s.executionTime)) ^ 2) t := by
      simpa using (hasDerivAt_id t).const_mul (-(s.startY k - s.goalY k) * (s.alphaY k / (2 * s.executionTime)) ^ 2)
    have h2 := h1.mul (hexp (s.alphaY k / (2 * s.executionTime)) t)
    rw [hcall, hsm]
    unfold Spec.dmpAcceleration
    simp only [Bool.false_eq_true, if_false, hβ]
    refine h2.congr_deriv ?_
    generalize Real.exp (-(s.alphaY k / (2 * s.executionTime) * t)) = E
    field_simp
    ring

/-- Default gains meet the hypotheses; the solution is not constant. -/
example : ∃ s : DMP 1 10, s.Reachable ∧ s.ft.weights = (fun _ _ => 0) ∧ s.smooth = false ∧
    (∀ k, s.betaY k = s.alphaY k / 4) ∧ s.startY ≠ s.goalY ∧ 0 ≤ s.t := by
  obtain ⟨s0, hs0, -, -, -, -, h5, h6, h7, h8, h9, h10, h11, h12, h13⟩ :=
    DMP.create_ok 1 10 (by norm_num) one_pos (1 / 100) (1 / 1000) 0 false 25 (25 / 4)
  have hr0 : s0.Reachable := .create hs0
  have hc : (DMP.configure { startY := some [1] }).exec s0 = (.ok (), { s0 with startY := fun _ => 1 }) := by
    rw [DMP.exec_configure]
    simp only [Movement.configure, configureField, Py.exec_bind, Py.exec_pure, Py.exec_lift, Py.exec_modify,
      checkLength]
    simp
  have hr : ({ s0 with startY := fun _ => 1 } : DMP 1 10).Reachable :=
    .op (.configure { startY := some [1] }) hr0 hc (by intro τ h; cases h)
  refine ⟨_, hr, h13, h5, fun k => ?_, fun h => ?_, h7.ge⟩
  · show s0.betaY k = s0.alphaY k / 4
    rw [h11, h12]
  · have h' : (fun _ => (1 : ℝ)) = s0.goalY := h
    rw [h10] at h'
    have := congrFun h' 0
    simp at this

/-! ## Coupling terms -/

/-- **C77 (finding).** The velocity of a coupling term is added once per sub-step and is not multiplied with the step
size, so that its effect grows when `int_dt` gets smaller. Without forcing term and with a constant coupling velocity `w`
the Python Euler method rests at a distance of `(τ / int_dt - α) w / (α β)` from the goal, and the Cython method at
`(τ / int_dt) w / (α β)`. Neither has a limit for `int_dt → 0`. -/
theorem C77_coupling_velocity {s : DMP d m} (hs : s.Reachable) (hw : s.ft.weights = fun _ _ => 0) (hsm : s.smooth = false)
    (hp : s.pGain = 0) (hgain : ∀ k, 0 < s.alphaY k ∧ 0 < s.betaY k) (ht : 0 ≤ s.t) (hint : 0 < s.intDt) (n : ℕ)
    (hn : 0 < n) (hdt : s.dt = n * s.intDt) (w y yd : Vec d) :
    let x := if s.initialized then (s.currentY, s.currentYd) else (s.startY, s.startYd)
    let offset : ℝ → Vec d := fun e k => (s.executionTime / s.intDt - e * s.alphaY k) * w k / (s.alphaY k * s.betaY k)
    (x = (s.goalY + offset 1, fun k => w k / s.executionTime) →
      ((DMP.step (some fun _ _ => (w, 0)) .euler y yd).exec s).1 = .ok x) ∧
    (x = (s.goalY + offset 0, 0) →
      ((DMP.step (some fun _ _ => (w, 0)) .eulerCython y yd).exec s).1 = .ok x) := by
  have hτ := hs.valid.pos.2
  have hn0 : (0 : ℝ) < n := by exact_mod_cast hn
  have hdt0 : 0 < s.dt := by rw [hdt]; positivity
  have hf : ∀ z, s.ft.force z = 0 := by
    intro z; funext k; simp [ForcingTerm.force, hw]
  intro x offset
  have hx : (s.beginStep.currentY, s.beginStep.currentYd) = x := by
    simp only [x, DMP.beginStep]
    cases s.initialized <;> rfl
  set a := s.beginStep.stepArgs (some fun _ _ => (w, 0)) (s.beginStep.currentY - y) with ha
  have haT : ¬ a.goalT ≤ a.startT := not_le.2 hτ
  have hat : ¬ s.t + s.dt ≤ a.startT := not_le.2 (show (0 : ℝ) < s.t + s.dt by linarith)
  obtain ⟨-, huni⟩ := subSteps_uniform (h := s.intDt) (a := s.t) (b := s.t + s.dt) (n := n) hint (by rw [hdt]; ring)
  have hfix : ∀ (f : ℝ → ℝ → Vec d × Vec d → Vec d × Vec d), (∀ t, f s.intDt t x = x) →
      ∀ L : List (ℝ × ℝ), (∀ p ∈ L, p.1 = s.intDt) → L.foldl (fun x p => f p.1 p.2 x) x = x := by
    intro f hf L
    induction L with
    | nil => intro _; rfl
    | cons p L ih =>
      intro hL
      rw [List.foldl_cons, hL p (by simp), hf, ih fun q hq => hL q (by simp [hq])]
  have hae : a.goalT - a.startT = s.executionTime := sub_zero _
  have hap : a.pGain = 0 := hp
  have has : a.smooth = false := hsm
  constructor
  · intro h
    rw [DMP.exec_step]
    have hrun : StepFunction.euler.run a s.t (s.t + s.dt) (s.beginStep.currentY, s.beginStep.currentYd) = .ok x := by
      show a.stepEuler _ _ _ = _
      unfold StepArgs.stepEuler
      rw [if_neg haT, if_neg hat, intLoop_eq _ (show 0 < a.intDt from hint), hx]
      refine congrArg Except.ok (hfix _ (fun t => ?_) _ huni)
      rw [h]
      unfold StepArgs.eulerBody StepArgs.acc StepArgs.addCd
      have hft : a.ft = s.ft := rfl
      have hac : a.coupling = some fun _ _ => (w, 0) := rfl
      simp only [hae, hap, has, hft, hf, hac]
      have e : ∀ k, s.intDt * ((s.alphaY k * (s.betaY k * (s.goalY k - (s.goalY k + offset 1 k)) -
          s.executionTime * (w k / s.executionTime))) / s.executionTime ^ 2) = -(w k / s.executionTime) := by
        intro k
        obtain ⟨h1, h2⟩ := hgain k
        simp only [offset]
        field_simp
        ring
      ext k
      · have := e k
        simp only [Pi.add_apply, Pi.smul_apply, smul_eq_mul, Bool.false_eq_true, if_false, Pi.zero_apply, sub_zero, zero_mul,
          zero_div, add_zero]
        rw [show a.alphaY = s.alphaY from rfl, show a.betaY = s.betaY from rfl, show a.goalY = s.goalY from rfl, this]
        ring
      · have := e k
        simp only [Pi.add_apply, Pi.smul_apply, smul_eq_mul, Bool.false_eq_true, if_false, Pi.zero_apply, sub_zero, zero_mul,
          zero_div, add_zero]
        rw [show a.alphaY = s.alphaY from rfl, show a.betaY = s.betaY from rfl, show a.goalY = s.goalY from rfl, this]
        ring
    rw [← ha, hrun]
    rfl
  · intro h
    rw [DMP.exec_step]
    have hrun : StepFunction.eulerCython.run a s.t (s.t + s.dt) (s.beginStep.currentY, s.beginStep.currentYd) = .ok x := by
      show a.stepEulerCy _ _ _ = _
      unfold StepArgs.stepEulerCy
      simp only
      rw [if_neg haT, if_neg hat, intLoop_eq _ (show 0 < a.intDt from hint), hx]
      refine congrArg Except.ok (hfix _ (fun t => ?_) _ huni)
      rw [h]
      unfold StepArgs.eulerBodyCy StepArgs.cyCoupling
      have hft : a.ft = s.ft := rfl
      have hac : a.coupling = some fun _ _ => (w, 0) := rfl
      simp only [hae, hap, has, hft, hf, hac]
      have e : ∀ k, s.intDt * ((s.alphaY k * (s.betaY k * (s.goalY k - (s.goalY k + offset 0 k)))) /
          s.executionTime ^ 2) + w k / s.executionTime = 0 := by
        intro k
        obtain ⟨h1, h2⟩ := hgain k
        simp only [offset]
        field_simp
        ring
      ext k
      · have := e k
        simp only [Pi.add_apply, Bool.false_eq_true, if_false, Pi.zero_apply, sub_zero, zero_mul,
          zero_div, add_zero, mul_zero]
        rw [show a.alphaY = s.alphaY from rfl, show a.betaY = s.betaY from rfl, show a.goalY = s.goalY from rfl, zero_add,
          this]
        ring
      · have := e k
        simp only [Pi.add_apply, Bool.false_eq_true, if_false, Pi.zero_apply, sub_zero, zero_mul,
          zero_div, add_zero, mul_zero]
        rw [show a.alphaY = s.alphaY from rfl, show a.betaY = s.betaY from rfl, show a.goalY = s.goalY from rfl, zero_add,
          this]
    rw [← ha, hrun]
    rfl

/-- Default parameters meet the hypotheses of the finding for both methods. -/
example (w e v : ℝ) : ∃ s : DMP 1 10, s.Reachable ∧ s.ft.weights = (fun _ _ => 0) ∧ s.smooth = false ∧ s.pGain = 0 ∧
    (∀ k, 0 < s.alphaY k ∧ 0 < s.betaY k) ∧ 0 ≤ s.t ∧ 0 < s.intDt ∧ s.dt = (10 : ℕ) * s.intDt ∧
    (if s.initialized then (s.currentY, s.currentYd) else (s.startY, s.startYd)) = (s.goalY + fun _ => e, fun _ => v) := by
  obtain ⟨s0, hs0, -, h2, h3, h4, h5, h6, h7, h8, h9, h10, h11, h12, h13⟩ :=
    DMP.create_ok 1 10 (by norm_num) one_pos (1 / 100) (1 / 1000) 0 false 25 (25 / 4)
  have hr0 : s0.Reachable := .create hs0
  have hc : (DMP.configure { startY := some [e], startYd := some [v] }).exec s0 =
      (.ok (), { s0 with startY := fun _ => e, startYd := fun _ => v }) := by
    rw [DMP.exec_configure]
    simp only [Movement.configure, configureField, Py.exec_bind, Py.exec_pure, Py.exec_lift, Py.exec_modify,
      checkLength]
    simp
  have hr : ({ s0 with startY := fun _ => e, startYd := fun _ => v } : DMP 1 10).Reachable :=
    .op (.configure { startY := some [e], startYd := some [v] }) hr0 hc (by intro τ h; cases h)
  refine ⟨_, hr, h13, h5, h4, fun k => ?_, h7.ge, ?_, ?_, ?_⟩
  · show 0 < s0.alphaY k ∧ 0 < s0.betaY k
    rw [h11, h12]; norm_num
  · show 0 < s0.intDt
    rw [h3]; norm_num
  · show s0.dt = (10 : ℕ) * s0.intDt
    rw [h2, h3]; norm_num
  · show (if s0.initialized = true then _ else _) = (s0.goalY + _, _)
    rw [h6, h10]
    simp

/-! ## Spring-damper systems -/

/-- Error of a sequence of steps. -/
theorem springDamper_error {goal : Vec d} {k : ℝ} {c : Option ℝ} {t0 : ℝ} {x0 : Vec d × Vec d} {y v : ℝ → Vec d}
    (hsol : Spec.SolvesSpring goal k (Spec.damping k c) t0 x0 y v) (R : ℝ) :
    ∃ C, 0 ≤ C ∧ ∀ (D δ : ℝ), 0 < D → 0 < δ → ∀ xs : ℕ → Vec d × Vec d, xs 0 = x0 →
      (∀ i : ℕ, springDamperStep goal k c none none δ (t0 + i * D) (t0 + (i + 1) * D) (xs i) = .ok (xs (i + 1))) →
      ∀ i : ℕ, t0 + i * D ≤ R → ∀ j, |(xs i).1 j - y (t0 + i * D) j| ≤ C * min δ D ∧
        |(xs i).2 j - v (t0 + i * D) j| ≤ C * min δ D := by
  classical
  let x : Fin d → ℝ → ℝ × ℝ := fun j t => (y t j - goal j, v t j)
  have hx : ∀ j t, HasDerivAt (x j) (sdField k (Spec.damping k c) (x j t) ((fun _ => (0 : ℝ)) t)) t := by
    intro j t
    have h1 := ((hsol.velocity t j).sub_const (goal j)).prodMk (hsol.acceleration t j)
    have e : k * (goal j - y t j) - Spec.damping k c * v t j =
        -k * (y t j - goal j) - Spec.damping k c * v t j + 0 := by ring
    rw [e] at h1
    exact h1
  have hE := fun j => sd_grid_error contDiff_const (hx j) t0 R
  choose CE hCE0 hCE using hE
  refine ⟨∑ j, CE j, Finset.sum_nonneg fun j _ => hCE0 j, ?_⟩
  intro D δ hD hδ xs h0 hstep i hi j
  suffices h : ‖((xs i).1 j - goal j, (xs i).2 j) - x j (t0 + i * D)‖ ≤ (∑ j, CE j) * min δ D by
    constructor
    · have := (norm_fst_le _).trans h
      simpa [x] using this
    · have := (norm_snd_le _).trans h
      simpa [x] using this
  have h1 := hCE j δ D hδ hD (fun i => ((xs i).1 j - goal j, (xs i).2 j)) (by
      have := hsol.start
      simp only [x, h0, ← this]) (fun i _ => by
    have h1 := hstep i
    rw [springDamperStep_eq _ _ _ _ _ hδ] at h1
    injection h1 with h1
    rw [← h1]
    exact springDamper_foldl goal k (Spec.damping k c) j _ _) i hi
  exact h1.trans (mul_le_mul_of_nonneg_right
    (Finset.single_le_sum (f := CE) (fun j _ => hCE0 j) (Finset.mem_univ j)) (le_min hδ.le hD.le))

/-- **C77 (spring-damper, step).** As `C77_step`; every call receives the previous result. -/
theorem C77_spring_step (s : SpringDamper d) {x0 : Vec d × Vec d} {y v : ℝ → Vec d}
    (hsol : Spec.SolvesSpring s.goalY s.k (Spec.damping s.k s.c) s.t x0 y v) (R : ℝ) :
    ∃ C, ∀ (dt intDt : ℝ), 0 < dt → 0 < intDt →
      ∀ (obj : ℕ → SpringDamper d) (fb out : ℕ → Vec d × Vec d), obj 0 = { s with dt := dt, intDt := intDt } →
        Spec.Run (SpringDamper.step none) obj fb out → fb 0 = x0 → (∀ i, fb (i + 1) = out i) →
        ∀ i : ℕ, s.t + (i + 1) * dt ≤ R → ∀ j,
          |(out i).1 j - y (s.t + (i + 1) * dt) j| ≤ C * min intDt dt ∧
          |(out i).2 j - v (s.t + (i + 1) * dt) j| ≤ C * min intDt dt := by
  obtain ⟨C, -, hC⟩ := springDamper_error hsol R
  refine ⟨C, ?_⟩
  intro dt intDt hdt hint obj fb out h0 hrun hf0 hf i hi j
  have h1 := hC dt intDt hdt hint fb hf0 (fun i => by
    have := (SpringDamper.run_objects hrun i).2.2.2.2.2.2
    rw [h0] at this
    rw [hf]
    exact this) (i + 1) (by push_cast; exact hi) j
  rw [hf] at h1
  push_cast at h1
  exact h1

/-- **C77 (spring-damper, open_loop).** As `C77_open_loop`. -/
theorem C77_spring_open_loop (s : SpringDamper d) {y v : ℝ → Vec d}
    (hsol : Spec.SolvesSpring s.goalY s.k (Spec.damping s.k s.c) 0 (s.startY, 0) y v) (R : ℝ) :
    ∃ C, ∀ (dt intDt : ℝ), 0 < dt → 0 < intDt →
      (∀ r : ℝ, 0 ≤ r → ∃ T Y, ((SpringDamper.openLoop r none).exec { s with dt := dt, intDt := intDt }).1 = .ok (T, Y)) ∧
      ∀ r T Y, ((SpringDamper.openLoop r none).exec { s with dt := dt, intDt := intDt }).1 = .ok (T, Y) →
        T.length = Y.length ∧ ∀ i (hT : i < T.length) (hY : i < Y.length), T[i] ≤ R → ∀ j,
          |Y[i] j - y T[i] j| ≤ C * min intDt dt := by
  obtain ⟨C, -, hC⟩ := springDamper_error hsol R
  refine ⟨C, ?_⟩
  intro dt intDt hdt hint
  let nxt : ℕ → Vec d × Vec d → Vec d × Vec d := fun i x =>
    (subSteps intDt (arangeAt 0 dt (i + 1)) (arangeAt 0 dt i)).foldl
      (fun x p => springDamperBody s.goalY s.k (Spec.damping s.k s.c) none none p.1 p.2 x) x
  have hnxt : ∀ i x, springDamperStep s.goalY s.k s.c none none intDt (arangeAt 0 dt i) (arangeAt 0 dt (i + 1)) x =
      .ok (nxt i x) := fun i x => springDamperStep_eq _ _ _ _ _ hint _ _ _
  let xs : ℕ → Vec d × Vec d := fun i => Nat.rec (s.startY, 0) (fun i x => nxt i x) i
  have hxs : ∀ i, xs (i + 1) = nxt i (xs i) := fun i => rfl
  have hol : ∀ r, ((SpringDamper.openLoop r none).exec { s with dt := dt, intDt := intDt }).1 =
      if arangeLen 0 (r + dt) dt = 0 then .error .indexError
      else .ok ((List.range (arangeLen 0 (r + dt) dt)).map (arangeAt 0 dt),
        (List.range (arangeLen 0 (r + dt) dt)).map (fun i => (xs i).1)) := fun r =>
    openLoopWith_total (goalT := r) (startT := 0) (runT := some r) hdt.ne' hnxt rfl hxs
  constructor
  · intro r hr
    rw [hol]
    have hn : arangeLen 0 (r + dt) dt ≠ 0 := by
      unfold arangeLen
      rw [sub_zero, Ne, Nat.ceil_eq_zero, not_le]
      positivity
    rw [if_neg hn]
    exact ⟨_, _, rfl⟩
  · intro r T Y h
    rw [hol] at h
    split_ifs at h with hz
    simp only [Except.ok.injEq, Prod.mk.injEq] at h
    obtain ⟨rfl, rfl⟩ := h
    refine ⟨by simp, ?_⟩
    intro i hT hY hR j
    simp only [List.getElem_map, List.getElem_range] at hR ⊢
    exact (hC dt intDt hdt hint xs rfl (fun i => by
      have := hnxt i (xs i)
      rw [← hxs] at this
      simp only [arangeAt] at this
      push_cast at this
      exact this) i hR j).1

/-- **C77 (default damping).** Without the argument `c` the system is critically damped: the solution approaches the goal
on a straight line without overshoot. It meets the hypothesis of `C77_spring_open_loop`. -/
theorem C77_spring_critically_damped (s : SpringDamper d) (hc : s.c = none) (hk : 0 ≤ s.k) :
    Spec.SolvesSpring s.goalY s.k (Spec.damping s.k s.c) 0 (s.startY, 0)
      (fun t => s.goalY + ((1 + √s.k * t) * Real.exp (-(√s.k * t))) • (s.startY - s.goalY))
      (fun t => -(s.k * t * Real.exp (-(√s.k * t))) • (s.startY - s.goalY)) := by
  have hexp : ∀ t : ℝ, HasDerivAt (fun t => Real.exp (-(√s.k * t))) (Real.exp (-(√s.k * t)) * -√s.k) t := by
    intro t
    have : HasDerivAt (fun t : ℝ => -(√s.k * t)) (-√s.k) t := by
      have h := ((hasDerivAt_id t).const_mul √s.k).neg
      rw [mul_one] at h
      exact h
    exact this.exp
  have hsq : √s.k * √s.k = s.k := Real.mul_self_sqrt hk
  refine ⟨?_, ?_, ?_⟩
  · ext k <;> simp
  · intro t k
    have h1 : HasDerivAt (fun t : ℝ => 1 + √s.k * t) √s.k t := by
      simpa using ((hasDerivAt_id t).const_mul √s.k).const_add 1
    have h2 := ((h1.mul (hexp t)).mul_const (s.startY k - s.goalY k)).const_add (s.goalY k)
    refine h2.congr_deriv ?_
    simp only [Pi.smul_apply, Pi.sub_apply, smul_eq_mul]
    linear_combination (-(t * Real.exp (-(√s.k * t)) * (s.startY k - s.goalY k))) * hsq
  · intro t k
    have h1 : HasDerivAt (fun t : ℝ => s.k * t) s.k t := by
      simpa using (hasDerivAt_id t).const_mul s.k
    have h2 := ((h1.mul (hexp t)).neg).mul_const (s.startY k - s.goalY k)
    refine h2.congr_deriv ?_
    rw [hc]
    simp only [Spec.damping, Option.getD_none, Pi.smul_apply, Pi.sub_apply, Pi.add_apply, smul_eq_mul]
    ring

end Verif
