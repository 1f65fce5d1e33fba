import Verif.Lemmas.DmpStep
import Verif.Lemmas.SubSteps
import Verif.Props.Forcing

/-! # C09-C12, C15, C16: single steps of the regular DMP -/

namespace Verif
open scoped BigOperators
variable {d m : ℕ}

/-- Generic form of the code's Runge-Kutta formulas for second order systems. -/
theorem rk4_second_order (A : ℝ → Vec d → Vec d → Vec d) (t h : ℝ) (y v : Vec d) :
    let K0 := A t y v
    let C1 := v + (h / 2) • K0
    let K1 := A (t + h / 2) (y + (h / 2) • v) C1
    let C2 := v + (h / 2) • K1
    let K2 := A (t + h / 2) (y + (h / 2) • C1) C2
    let C3 := v + h • K2
    let K3 := A (t + h) (y + h • C2) C3
    Spec.rk4 (fun u (x : Vec d × Vec d) => (x.2, A u x.1 x.2)) t h (y, v) =
      (y + h • (v + (h / 6) • (K0 + K1 + K2)), v + (h / 6) • (K0 + (2 : ℝ) • K1 + (2 : ℝ) • K2 + K3)) := by
  intro K0 C1 K1 C2 K2 C3 K3
  have : Spec.rk4 (fun u (x : Vec d × Vec d) => (x.2, A u x.1 x.2)) t h (y, v) =
      (y + (h / 6) • (v + (2 : ℝ) • C1 + (2 : ℝ) • C2 + C3),
       v + (h / 6) • (K0 + (2 : ℝ) • K1 + (2 : ℝ) • K2 + K3)) := rfl
  rw [this]
  congr 1
  simp only [C1, C2, C3]
  ext k
  simp only [Pi.add_apply, Pi.smul_apply, smul_eq_mul]
  ring

/-- **C09.** Without coupling, one rk4 step of the code is the classical Runge-Kutta step of the DMP's
differential equation, with phase and forcing term read `h = t - last_t` ahead of the textbook times. A
tracking error acts as an additional constant force `p_gain * tracking_error / h`. -/
theorem C09_rk4_is_classical (a : StepArgs d m) (hc : a.coupling = none) (hp : a.precomputed = none)
    (lastT t : ℝ) (s : Vec d × Vec d) :
    let h := t - lastT
    let ode : ℝ → Vec d × Vec d → Vec d × Vec d := fun u x =>
      (x.2, fun k => Spec.dmpAcceleration (a.alphaY k) (a.betaY k) (a.goalY k) (a.startY k)
        (a.goalT - a.startT) a.smooth (a.ft.phaseAt (u + h))
        (a.ft.call (u + h) k + a.pGain * a.trackingError k / h) (x.1 k) (x.2 k))
    a.stepRk4 lastT t s = .ok (Spec.rk4 ode lastT h s) := by
  intro h ode
  have key := rk4_second_order (fun u (y v : Vec d) => fun k =>
    Spec.dmpAcceleration (a.alphaY k) (a.betaY k) (a.goalY k) (a.startY k)
        (a.goalT - a.startT) a.smooth (a.ft.phaseAt (u + h))
        (a.ft.call (u + h) k + a.pGain * a.trackingError k / h) (y k) (v k)) lastT h s.1 s.2
  have hacc : ∀ (Y V : Vec d) (u : ℝ),
      a.acc Y V a.initialCdd (a.ft.phaseAt u) (a.goalT - a.startT) (a.ft.force (a.ft.phaseAt u))
        (fun k => a.pGain * a.trackingError k / h) =
      fun k => Spec.dmpAcceleration (a.alphaY k) (a.betaY k) (a.goalY k) (a.startY k)
        (a.goalT - a.startT) a.smooth (a.ft.phaseAt u)
        (a.ft.call u k + a.pGain * a.trackingError k / h) (Y k) (V k) := by
    intro Y V u
    funext k
    rw [StepArgs.acc_apply a hc]
    simp [StepArgs.initialCdd, hp, ForcingTerm.call]
  have e1 : t = lastT + h := by simp [h]
  have e4 : 1 / 2 * (t - lastT) = h / 2 := by simp only [h]; ring
  unfold StepArgs.stepRk4 StepArgs.addCd
  simp only [hc]
  congr 1
  refine Eq.trans ?_ key.symm
  simp only [e4]
  simp only [show t - lastT = h from rfl, hacc]
  clear_value h
  subst e1
  rw [add_right_comm lastT h (h / 2)]

/-- C09 applies to an actual DMP step with forcing, smooth scaling and non-zero velocity; the values are not
trivial: the step moves the state. -/
example : ∃ a : StepArgs 1 2, a.coupling = none ∧ a.precomputed = none ∧ a.smooth = true ∧
    a.goalT - a.startT = 1 := by
  refine ⟨{ goalY := 1, goalYd := 0, goalYdd := 0, startY := 0, startYd := 0, startYdd := 0, goalT := 1,
            startT := 0, alphaY := 25, betaY := 6, smooth := true
            ft := { goalT := 1, startT := 0, overlap := 1 / 2, alphaZ := 1, logOverlap := 1,
                    executionTime := 1, weights := 1, centers := 1, widths := 1 } },
    rfl, rfl, rfl, by norm_num⟩

/-- **C10.** The Python and the Cython rk4 step agree for all arguments. -/
theorem C10_rk4_cython_eq_python (a : StepArgs d m) (lastT t : ℝ) (s : Vec d × Vec d) :
    a.stepRk4Cy lastT t s = a.stepRk4 lastT t s := by
  unfold StepArgs.stepRk4Cy StepArgs.stepRk4
  simp only [StepArgs.accCy_eq]
  have htdd : (fun k => a.pGain / (t - lastT) * a.trackingError k) =
      (fun k => a.pGain * a.trackingError k / (t - lastT)) := by
    funext k; ring
  simp only [htdd]
  set K0 := a.acc s.1 s.2 a.initialCdd (a.ft.phaseAt t) (a.goalT - a.startT) (a.ft.force (a.ft.phaseAt t))
    (fun k => a.pGain * a.trackingError k / (t - lastT))
  set C1 : Vec d := s.2 + (1 / 2 * (t - lastT)) • K0 with hC1
  set K1 := a.acc (s.1 + (1 / 2 * (t - lastT)) • s.2) C1 a.initialCdd
    (a.ft.phaseAt (t + 1 / 2 * (t - lastT))) (a.goalT - a.startT)
    (a.ft.force (a.ft.phaseAt (t + 1 / 2 * (t - lastT))))
    (fun k => a.pGain * a.trackingError k / (t - lastT))
  set C2 : Vec d := s.2 + (1 / 2 * (t - lastT)) • K1 with hC2
  set K2 := a.acc (s.1 + (1 / 2 * (t - lastT)) • C1) C2 a.initialCdd
    (a.ft.phaseAt (t + 1 / 2 * (t - lastT))) (a.goalT - a.startT)
    (a.ft.force (a.ft.phaseAt (t + 1 / 2 * (t - lastT))))
    (fun k => a.pGain * a.trackingError k / (t - lastT))
  set C3 : Vec d := s.2 + (t - lastT) • K2 with hC3
  set K3 := a.acc (s.1 + (t - lastT) • C2) C3 a.initialCdd (a.ft.phaseAt (t + (t - lastT)))
    (a.goalT - a.startT) (a.ft.force (a.ft.phaseAt (t + (t - lastT))))
    (fun k => a.pGain * a.trackingError k / (t - lastT))
  have hy : (fun k => s.1 k + (t - lastT) * (s.2 k + 2 * C1 k + 2 * C2 k + C3 k) / 6) =
      s.1 + (t - lastT) • (s.2 + ((t - lastT) / 6) • (K0 + K1 + K2)) := by
    funext k
    simp only [hC1, hC2, hC3, Pi.add_apply, Pi.smul_apply, smul_eq_mul]
    ring
  have hyd : (fun k => s.2 k + (t - lastT) * (K0 k + 2 * K1 k + 2 * K2 k + K3 k) / 6) =
      s.2 + ((t - lastT) / 6) • (K0 + (2 : ℝ) • K1 + (2 : ℝ) • K2 + K3) := by
    funext k
    simp only [Pi.add_apply, Pi.smul_apply, smul_eq_mul]
    ring
  rw [hy, hyd]
  unfold StepArgs.addCd
  cases a.coupling with
  | none => rfl
  | some c =>
    simp only
    congr 2
    funext k
    rw [← hyd]

/-- **C11.** Without coupling term, and for steps that end after `start_t`, the Python and the Cython Euler step
agree for all arguments (including the cases in which they do not terminate or raise). -/
theorem C11_euler_cython_eq_python (a : StepArgs d m) (hc : a.coupling = none) (hp : a.precomputed = none)
    (lastT t : ℝ) (ht : a.startT < t) (s : Vec d × Vec d) :
    a.stepEulerCy lastT t s = a.stepEuler lastT t s := by
  unfold StepArgs.stepEulerCy StepArgs.stepEuler
  have h : ¬ t ≤ a.startT := not_le.2 ht
  have hb : a.eulerBodyCy = a.eulerBody := by
    funext dt t s
    exact StepArgs.eulerBodyCy_eq a hc (by simp [hp]) dt t s
  simp only [h, if_false, hb]

/-- A one-dimensional set of arguments without forcing for witnesses. -/
noncomputable def witnessArgs (c : Option (Coupling 1)) : StepArgs 1 2 :=
  { goalY := 0, goalYd := 0, goalYdd := 0, startY := 0, startYd := 0, startYdd := 0, goalT := 1,
    startT := 0, alphaY := 0, betaY := 0, coupling := c, intDt := 1
    ft := { goalT := 1, startT := 0, overlap := 1 / 2, alphaZ := 1, logOverlap := 1,
            executionTime := 1, weights := 0, centers := 0, widths := 0 } }

theorem intLoop_single {σ : Type} (upd : ℝ → ℝ → σ → σ) {intDt t lastT : ℝ} (h : lastT < t)
    (h2 : t - lastT ≤ intDt) (s : σ) :
    intLoop intDt t upd lastT s = .ok (upd (t - lastT) t s) := by
  have hd : 0 < intDt := by linarith
  rw [intLoop_eq upd hd, subSteps_last hd h h2]; rfl

/-- Finding (C11): with a velocity coupling term the two Euler implementations disagree. With the constant
coupling velocity 1 and otherwise trivial dynamics the Python version leaves the position at 0 in the first
step, the Cython version moves to 1. -/
theorem C11_disagree_with_coupling :
    ∃ (a : StepArgs 1 2) (s : Vec 1 × Vec 1) (lastT t : ℝ) (r r' : Vec 1 × Vec 1),
      a.startT < t ∧ lastT < t ∧ a.stepEuler lastT t s = .ok r ∧ a.stepEulerCy lastT t s = .ok r' ∧
      r.1 0 = 0 ∧ r'.1 0 = 1 := by
  have h1 : ¬ ((1 : ℝ) ≤ 0) := by norm_num
  refine ⟨witnessArgs (some fun _ _ => (1, 0)), (0, 0), 0, 1,
    (witnessArgs (some fun _ _ => (1, 0))).eulerBody (1 - 0) 1 (0, 0),
    (witnessArgs (some fun _ _ => (1, 0))).eulerBodyCy (1 - 0) 1 (0, 0), by simp [witnessArgs], by norm_num,
    ?_, ?_, ?_, ?_⟩
  · unfold StepArgs.stepEuler
    simp only [witnessArgs, h1, if_false]
    exact intLoop_single _ (by norm_num) (by norm_num) _
  · unfold StepArgs.stepEulerCy
    simp only [witnessArgs, h1, if_false]
    exact intLoop_single _ (by norm_num) (by norm_num) _
  · simp [witnessArgs, StepArgs.eulerBody, StepArgs.addCd, StepArgs.acc, ForcingTerm.force]
  · simp [witnessArgs, StepArgs.eulerBodyCy, StepArgs.cyCoupling, ForcingTerm.force]

/-- Finding (C11): for a step that ends at or before `start_t` the Python version leaves the state alone, the
Cython version overwrites it with the start state before it integrates. -/
theorem C11_disagree_before_start :
    ∃ (a : StepArgs 1 2) (s : Vec 1 × Vec 1) (lastT t : ℝ) (r r' : Vec 1 × Vec 1),
      t ≤ a.startT ∧ lastT < t ∧ a.stepEuler lastT t s = .ok r ∧ a.stepEulerCy lastT t s = .ok r' ∧
      r.1 0 = 5 ∧ r'.1 0 = 0 := by
  have h1 : ¬ ((1 : ℝ) ≤ 0) := by norm_num
  refine ⟨witnessArgs none, (5, 0), -1, 0, (5, 0), (witnessArgs none).eulerBodyCy (0 - -1) 0 (0, 0),
    by simp [witnessArgs], by norm_num, ?_, ?_, ?_, ?_⟩
  · unfold StepArgs.stepEuler
    simp only [witnessArgs, h1, if_false, le_refl, if_true]
  · unfold StepArgs.stepEulerCy
    simp only [witnessArgs, h1, if_false, le_refl, if_true]
    exact intLoop_single _ (by norm_num) (by norm_num) _
  · simp
  · simp [witnessArgs, StepArgs.eulerBodyCy, StepArgs.cyCoupling, ForcingTerm.force]

/-- The hypotheses of C11 hold for a concrete step. -/
example : (witnessArgs none).coupling = none ∧ (witnessArgs none).precomputed = none ∧
    (witnessArgs none).startT < 1 := ⟨rfl, rfl, by simp [witnessArgs]⟩

/-- **C12.** For `int_dt > 0` a (Python) Euler step with `start_t < goal_t`, `start_t < t`, `last_t <= t` returns,
and its effect is that of one update per sub-step of a partition of `[last_t, t]` into exactly
`ceil((t - last_t) / int_dt)` sub-steps. -/
theorem C12_euler_substeps (a : StepArgs d m) (hd : 0 < a.intDt) (hT : a.startT < a.goalT) {lastT t : ℝ}
    (hlt : lastT ≤ t) (ht : a.startT < t) (s : Vec d × Vec d) :
    ∃ L, Spec.IsPartition lastT t a.intDt L ∧
      a.stepEuler lastT t s = .ok (L.foldl (fun s p => a.eulerBody p.1 p.2 s) s) ∧
      a.stepEulerCy lastT t s = .ok (L.foldl (fun s p => a.eulerBodyCy p.1 p.2 s) s) := by
  refine ⟨_, subSteps_isPartition hd lastT hlt, ?_, ?_⟩
  · unfold StepArgs.stepEuler
    rw [if_neg (not_le.2 hT), if_neg (not_le.2 ht), intLoop_eq _ hd]
  · unfold StepArgs.stepEulerCy
    rw [if_neg (not_le.2 hT), if_neg (not_le.2 ht), intLoop_eq _ hd]

/-- **C12.** For `int_dt <= 0` the step never returns. -/
theorem C12_euler_diverges (a : StepArgs d m) (hd : a.intDt ≤ 0) (hT : a.startT < a.goalT) {lastT t : ℝ}
    (hlt : lastT < t) (ht : a.startT < t) (s : Vec d × Vec d) :
    a.stepEuler lastT t s = .error .nonterminating ∧ a.stepEulerCy lastT t s = .error .nonterminating := by
  constructor
  · unfold StepArgs.stepEuler
    rw [if_neg (not_le.2 hT), if_neg (not_le.2 ht), intLoop_diverges _ hd hlt]
  · unfold StepArgs.stepEulerCy
    rw [if_neg (not_le.2 hT), if_neg (not_le.2 ht), intLoop_diverges _ hd hlt]

/-- **C12.** For `start_t >= goal_t` the step raises ValueError. -/
theorem C12_euler_raises (a : StepArgs d m) (hT : a.goalT ≤ a.startT) (lastT t : ℝ) (s : Vec d × Vec d) :
    a.stepEuler lastT t s = .error .valueError ∧ a.stepEulerCy lastT t s = .error .valueError := by
  unfold StepArgs.stepEuler StepArgs.stepEulerCy
  rw [if_pos hT, if_pos hT]
  exact ⟨rfl, rfl⟩

/-- C12 covers the defaults `dt = 0.01`, `int_dt = 0.001`: ten sub-steps. -/
example : ∃ L, Spec.IsPartition 0 (1 / 100) (1 / 1000) L ∧ L.length = 10 := by
  refine ⟨_, subSteps_isPartition (by norm_num) 0 (by norm_num), ?_⟩
  rw [(subSteps_isPartition (by norm_num) 0 (by norm_num)).length]
  norm_num

/-- **C15.** A state at rest in the goal, with start = goal and zero weights, is not changed by any step function
(no coupling, no tracking error). -/
theorem C15_goal_is_equilibrium (a : StepArgs d m) (hc : a.coupling = none) (hp : a.precomputed = none)
    (hs : a.startY = a.goalY) (hsd : a.startYd = 0) (hw : ∀ k i, a.ft.weights k i = 0)
    (he : a.trackingError = 0) (hT : a.startT < a.goalT) (hd : 0 < a.intDt) (sf : StepFunction)
    (lastT t : ℝ) : sf.run a lastT t (a.goalY, 0) = .ok (a.goalY, 0) := by
  have hf : ∀ z, a.ft.force z = 0 := by
    intro z; funext k; exact C04_force_zero a.ft k (hw k) z
  have hacc : ∀ z (tdd : Vec d), tdd = 0 →
      a.acc a.goalY 0 a.initialCdd z (a.goalT - a.startT) 0 tdd = 0 := by
    rintro z tdd rfl
    funext k
    rw [StepArgs.acc_apply a hc]
    simp [Spec.dmpAcceleration, hs, StepArgs.initialCdd, hp]
  have htdd : ∀ h : ℝ, (fun k => a.pGain * a.trackingError k / h) = (0 : Vec d) := by
    intro h; funext k; simp [he]
  have hb : ∀ dt u, a.eulerBody dt u (a.goalY, 0) = (a.goalY, 0) := by
    intro dt u
    rw [StepArgs.eulerBody_none a hc]
    simp only [hf, htdd, hacc]
    simp
  have hfold : ∀ L : List (ℝ × ℝ),
      L.foldl (fun s p => a.eulerBody p.1 p.2 s) (a.goalY, (0 : Vec d)) = (a.goalY, 0) := by
    intro L
    induction L with
    | nil => rfl
    | cons p L ih => rw [List.foldl_cons, hb, ih]
  have hrk : a.stepRk4 lastT t (a.goalY, 0) = .ok (a.goalY, 0) := by
    unfold StepArgs.stepRk4 StepArgs.addCd
    simp only [hc, hf, htdd, hacc, smul_zero, add_zero]
  have hbc : a.eulerBodyCy = a.eulerBody := by
    funext dt u s
    exact StepArgs.eulerBodyCy_eq a hc (by simp [hp]) dt u s
  cases sf with
  | rk4 => exact hrk
  | rk4Cython =>
    show a.stepRk4Cy lastT t (a.goalY, 0) = _
    rw [C10_rk4_cython_eq_python]; exact hrk
  | euler =>
    show a.stepEuler lastT t (a.goalY, 0) = _
    unfold StepArgs.stepEuler
    rw [if_neg (not_le.2 hT)]
    split_ifs
    · rfl
    · rw [intLoop_eq _ hd, hfold]
  | eulerCython =>
    show a.stepEulerCy lastT t (a.goalY, 0) = _
    unfold StepArgs.stepEulerCy
    rw [if_neg (not_le.2 hT), hs, hsd, hbc]
    simp only [ite_self]
    rw [intLoop_eq _ hd, hfold]

/-- **C15.** Conversely, without forcing and smooth scaling and with non-zero gains, a resting state that an Euler
(sub-)step does not change is the goal. -/
theorem C15_only_goal_is_equilibrium (a : StepArgs d m) (hc : a.coupling = none) (hp : a.precomputed = none)
    (hw : ∀ k i, a.ft.weights k i = 0) (he : a.trackingError = 0) (hT : a.startT < a.goalT)
    (hsm : a.smooth = false) (hα : ∀ k, a.alphaY k ≠ 0) (hβ : ∀ k, a.betaY k ≠ 0) (y : Vec d) (dt u : ℝ)
    (hdt : dt ≠ 0) (hfix : a.eulerBody dt u (y, 0) = (y, 0)) : y = a.goalY := by
  funext k
  rw [StepArgs.eulerBody_none a hc] at hfix
  have h2 := congrFun (congrArg Prod.snd hfix) k
  simp only [Pi.add_apply, Pi.smul_apply, smul_eq_mul, StepArgs.acc_apply a hc, Pi.zero_apply, zero_add,
    Spec.dmpAcceleration, hsm, C04_force_zero a.ft k (hw k), he, StepArgs.initialCdd, hp] at h2
  have hτ : a.goalT - a.startT ≠ 0 := by linarith
  have h3 := (mul_eq_zero.1 h2).resolve_left hdt
  have h4 := (div_eq_zero_iff.1 h3).resolve_right (pow_ne_zero 2 hτ)
  simp at h4
  rcases h4 with h4 | h4 | h4
  · exact absurd h4 (hα k)
  · exact absurd h4 (hβ k)
  · linarith

/-- **C16.** With smooth scaling the acceleration at rest in the start position at phase 1 does not depend on the
goal: it is the force divided by the squared execution time. -/
theorem C16_smooth_start (a : StepArgs d m) (hc : a.coupling = none) (hsm : a.smooth = true) (f cdd tdd : Vec d)
    (τ : ℝ) (k : Fin d) :
    a.acc a.startY 0 cdd 1 τ f tdd k = (f k + cdd k + tdd k) / τ ^ 2 := by
  rw [StepArgs.acc_apply a hc]
  simp [Spec.dmpAcceleration, hsm]

/-- **C16.** Without smooth scaling it contains the distance to the goal times `alpha * beta / tau^2`. -/
theorem C16_unscaled_start (a : StepArgs d m) (hc : a.coupling = none) (hsm : a.smooth = false)
    (f cdd tdd : Vec d) (z τ : ℝ) (k : Fin d) :
    a.acc a.startY 0 cdd z τ f tdd k =
      a.alphaY k * a.betaY k / τ ^ 2 * (a.goalY k - a.startY k) + (f k + cdd k + tdd k) / τ ^ 2 := by
  rw [StepArgs.acc_apply a hc]
  simp only [Spec.dmpAcceleration, hsm, Pi.zero_apply, Bool.false_eq_true, if_false]
  ring

/-- Hypotheses of C15 are met by a DMP that starts in a non-trivial goal. -/
example : ∃ a : StepArgs 1 2, a.coupling = none ∧ a.precomputed = none ∧ a.startY = a.goalY ∧ a.startYd = 0 ∧
    (∀ k i, a.ft.weights k i = 0) ∧ a.trackingError = 0 ∧ a.startT < a.goalT ∧ 0 < a.intDt ∧ a.goalY 0 = 7 ∧
    a.smooth = false ∧ (∀ k, a.alphaY k ≠ 0) ∧ (∀ k, a.betaY k ≠ 0) := by
  refine ⟨{ witnessArgs none with startY := 7, goalY := 7, alphaY := 25, betaY := 6, intDt := 1 / 1000 },
    ?_⟩
  simp [witnessArgs]

end Verif
