import Verif.Lemmas.Converge
import Verif.Spec.Stability
import Verif.Props.FinalVelocity

/-! # C07, C08: DMPs reach their goal -/

namespace Verif
open Filter Topology
variable {d m : ℕ}

namespace StepArgs

/-- The part of the acceleration of dimension `k` that does not depend on the state. -/
noncomputable def drive (a : StepArgs d m) (k : Fin d) (t : ℝ) : ℝ :=
  (a.ft.call t k - if a.smooth then a.alphaY k * (a.betaY k * (a.goalY k - a.startY k) * a.ft.phaseAt t) else 0) /
    (a.goalT - a.startT) ^ 2

theorem drive_tendsto (a : StepArgs d m) (hm : 1 < m) (hα : 0 < a.ft.alphaZ) (hT : a.ft.startT < a.ft.goalT)
    (k : Fin d) : Tendsto (a.drive k) atTop (𝓝 0) := by
  have h1 : Tendsto (fun t => a.ft.call t k) atTop (𝓝 0) :=
    (tendsto_pi_nhds.1 (C04_force_vanishes a.ft hm hα hT)) k
  have h2 : Tendsto (fun t => if a.smooth then a.alphaY k * (a.betaY k * (a.goalY k - a.startY k) * a.ft.phaseAt t)
      else 0) atTop (𝓝 0) := by
    cases a.smooth with
    | false => simp
    | true =>
      have := ((phaseAt_tendsto_zero a.ft hα hT).const_mul (a.betaY k * (a.goalY k - a.startY k))).const_mul (a.alphaY k)
      simpa using this
  have := (h1.sub h2).div_const ((a.goalT - a.startT) ^ 2)
  simp only [sub_zero, zero_div] at this
  exact this

theorem acc_sd (a : StepArgs d m) (hc : a.coupling = none) (hp : a.precomputed = none) (hT : a.startT < a.goalT)
    (Y V : Vec d) (t : ℝ) (k : Fin d) :
    a.acc Y V a.initialCdd (a.ft.phaseAt t) (a.goalT - a.startT) (a.ft.force (a.ft.phaseAt t)) (fun _ => 0) k =
      -(a.alphaY k * a.betaY k / (a.goalT - a.startT) ^ 2) * (Y k - a.goalY k) -
        a.alphaY k / (a.goalT - a.startT) * V k + a.drive k t := by
  have hτ : a.goalT - a.startT ≠ 0 := by linarith
  rw [acc_apply a hc]
  unfold Spec.dmpAcceleration drive ForcingTerm.call initialCdd
  rw [hp]
  simp only [Pi.zero_apply, add_zero]
  cases a.smooth
  · simp only [Bool.false_eq_true, if_false]; field_simp; ring
  · simp only [if_true]; field_simp; ring

theorem eulerBody_sd (a : StepArgs d m) (hc : a.coupling = none) (hp : a.precomputed = none)
    (he : a.trackingError = 0) (hT : a.startT < a.goalT) (h t : ℝ) (s : Vec d × Vec d) (k : Fin d) :
    ((a.eulerBody h t s).1 k - a.goalY k, (a.eulerBody h t s).2 k) =
      sdStep (a.alphaY k * a.betaY k / (a.goalT - a.startT) ^ 2) (a.alphaY k / (a.goalT - a.startT)) h (a.drive k t)
        (s.1 k - a.goalY k, s.2 k) := by
  rw [eulerBody_none a hc]
  have hz : (fun k => a.pGain * a.trackingError k / h) = fun _ => (0 : ℝ) := by funext k; simp [he]
  simp only [hz, Pi.add_apply, Pi.smul_apply, smul_eq_mul, acc_sd a hc hp hT, sdStep]
  ext
  · simp only; ring
  · simp only

theorem foldl_sd (a : StepArgs d m) (hc : a.coupling = none) (hp : a.precomputed = none)
    (he : a.trackingError = 0) (hT : a.startT < a.goalT) (k : Fin d) (L : List (ℝ × ℝ)) :
    ∀ s : Vec d × Vec d,
      ((L.foldl (fun s p => a.eulerBody p.1 p.2 s) s).1 k - a.goalY k, (L.foldl (fun s p => a.eulerBody p.1 p.2 s) s).2 k) =
        L.foldl (fun s p => sdStep (a.alphaY k * a.betaY k / (a.goalT - a.startT) ^ 2)
          (a.alphaY k / (a.goalT - a.startT)) p.1 (a.drive k p.2) s) (s.1 k - a.goalY k, s.2 k) := by
  induction L with
  | nil => intro s; rfl
  | cons p L ih =>
    intro s
    rw [List.foldl_cons, List.foldl_cons, ih, eulerBody_sd a hc hp he hT]

theorem stepRk4_sd (a : StepArgs d m) (hc : a.coupling = none) (hp : a.precomputed = none)
    (he : a.trackingError = 0) (hT : a.startT < a.goalT) {lastT t : ℝ} {s s' : Vec d × Vec d}
    (h : a.stepRk4 lastT t s = .ok s') (k : Fin d) :
    (s'.1 k - a.goalY k, s'.2 k) =
      rkStep (a.alphaY k * a.betaY k / (a.goalT - a.startT) ^ 2) (a.alphaY k / (a.goalT - a.startT)) (t - lastT)
        (a.drive k t) (a.drive k (t + (t - lastT) / 2)) (a.drive k (t + (t - lastT))) (s.1 k - a.goalY k, s.2 k) := by
  unfold stepRk4 addCd at h
  simp only [hc] at h
  have hz : (fun k => a.pGain * a.trackingError k / (t - lastT)) = fun _ => (0 : ℝ) := by funext k; simp [he]
  have h2 : 1 / 2 * (t - lastT) = (t - lastT) / 2 := by ring
  injection h with h
  subst h
  simp only [hz, h2, Pi.add_apply, Pi.smul_apply, smul_eq_mul, acc_sd a hc hp hT, rkStep]
  ext
  · simp only; ring
  · simp only; ring

end StepArgs

/-- A coordinate-wise limit. -/
theorem tendsto_of_coordinates {g : Vec d} {xs : ℕ → Vec d × Vec d}
    (h : ∀ k, Tendsto (fun i => ((xs i).1 k - g k, (xs i).2 k)) atTop (𝓝 (0, 0))) :
    Tendsto xs atTop (𝓝 (g, 0)) := by
  rw [nhds_prod_eq]
  refine Tendsto.prodMk ?_ ?_
  · rw [tendsto_pi_nhds]
    intro k
    have := ((continuous_fst.tendsto _).comp (h k)).add_const (g k)
    simpa [Function.comp_def] using this
  · rw [tendsto_pi_nhds]
    intro k
    exact (continuous_snd.tendsto _).comp (h k)

section Core
variable (a : StepArgs d m)

theorem run_euler_eq (hc : a.coupling = none) (hp : a.precomputed = none) {sf : StepFunction}
    (hsf : sf = .euler ∨ sf = .eulerCython) (hd : 0 < a.intDt) (hT : a.startT < a.goalT) {lastT t : ℝ}
    (_hlt : lastT ≤ t) (ht : a.startT < t) (s : Vec d × Vec d) :
    sf.run a lastT t s = .ok ((subSteps a.intDt t lastT).foldl (fun s p => a.eulerBody p.1 p.2 s) s) := by
  rcases hsf with rfl | rfl
  · show a.stepEuler lastT t s = _
    unfold StepArgs.stepEuler
    rw [if_neg (not_le.2 hT), if_neg (not_le.2 ht), intLoop_eq _ hd]
  · show a.stepEulerCy lastT t s = _
    rw [C11_euler_cython_eq_python a hc hp _ _ ht]
    unfold StepArgs.stepEuler
    rw [if_neg (not_le.2 hT), if_neg (not_le.2 ht), intLoop_eq _ hd]

/-- Limit of any sequence of steps of a stable integrator. -/
theorem run_tendsto (hc : a.coupling = none) (hp : a.precomputed = none) (he : a.trackingError = 0)
    (hT : a.startT < a.goalT) (hm : 1 < m) (hα : 0 < a.ft.alphaZ) (hft : a.ft.startT < a.ft.goalT)
    {sf : StepFunction} {dt t0 : ℝ} (hdt : 0 < dt) (ht0 : a.startT ≤ t0)
    (hgain : ∀ k, 0 < a.alphaY k ∧ 0 < a.betaY k)
    (hst : ∀ k, Spec.Stable sf dt a.intDt (a.goalT - a.startT) (a.alphaY k) (a.betaY k))
    {xs : ℕ → Vec d × Vec d}
    (hx : ∀ i : ℕ, sf.run a (t0 + i * dt) (t0 + (i + 1) * dt) (xs i) = .ok (xs (i + 1))) :
    Tendsto xs atTop (𝓝 (a.goalY, 0)) := by
  apply tendsto_of_coordinates
  intro k
  obtain ⟨hα', hβ'⟩ := hgain k
  set τ := a.goalT - a.startT with hτdef
  have hτ : 0 < τ := by linarith
  have hk : 0 < a.alphaY k * a.betaY k / τ ^ 2 := by positivity
  have hcc : 0 < a.alphaY k / τ := by positivity
  have hdrive := a.drive_tendsto hm hα hft k
  have hend : ∀ i : ℕ, a.startT < t0 + (i + 1) * dt := by
    intro i
    have : 0 < ((i : ℝ) + 1) * dt := by positivity
    linarith
  have hle : ∀ i : ℕ, t0 + i * dt ≤ t0 + (i + 1) * dt := fun i => by linarith
  have heuler : ∀ (hsf : sf = .euler ∨ sf = .eulerCython) (hint : 0 < a.intDt) (i : ℕ),
      ((xs (i + 1)).1 k - a.goalY k, (xs (i + 1)).2 k) =
        (subSteps a.intDt (t0 + (i + 1) * dt) (t0 + i * dt)).foldl
          (fun s p => sdStep (a.alphaY k * a.betaY k / τ ^ 2) (a.alphaY k / τ) p.1 (a.drive k p.2) s)
          ((xs i).1 k - a.goalY k, (xs i).2 k) := by
    intro hsf hint i
    have h1 := hx i
    rw [run_euler_eq a hc hp hsf hint hT (hle i) (hend i)] at h1
    injection h1 with h1
    rw [← h1]
    exact a.foldl_sd hc hp he hT k _ _
  rcases hst k with ⟨hsf, hint, h⟩ | ⟨hsf, hint, n, hn, hn', h⟩ | ⟨hsf, h1, h2⟩
  · refine sd_tendsto_robust (t0 := t0) (x := fun i => ((xs i).1 k - a.goalY k, (xs i).2 k))
      hk hcc hint ?_ hdt hdrive (heuler hsf hint)
    have e1 : 2 * a.intDt * (2 * (a.alphaY k * a.betaY k / τ ^ 2) + (a.alphaY k / τ) ^ 2) *
        (a.alphaY k * a.betaY k / τ ^ 2 + (a.alphaY k / τ) ^ 2) =
        (2 * a.intDt * (a.alphaY k + 2 * a.betaY k) * (a.alphaY k + a.betaY k)) * (a.alphaY k ^ 2 / τ ^ 4) := by
      field_simp; ring
    have e2 : a.alphaY k * a.betaY k / τ ^ 2 * (a.alphaY k / τ) = a.betaY k * τ * (a.alphaY k ^ 2 / τ ^ 4) := by
      field_simp
    rw [e1, e2]
    exact mul_le_mul_of_nonneg_right h (by positivity)
  · refine sd_tendsto_sharp (t0 := t0) (x := fun i => ((xs i).1 k - a.goalY k, (xs i).2 k))
      hk hcc hint ?_ hn hn' hdrive (heuler hsf hint)
    have e1 : a.intDt ^ 2 * (a.alphaY k * a.betaY k / τ ^ 2) + 2 * (a.intDt * (a.alphaY k / τ)) =
        (a.intDt ^ 2 * (a.alphaY k * a.betaY k) + 2 * (a.intDt * a.alphaY k * τ)) / τ ^ 2 := by field_simp
    rw [e1, div_lt_iff₀ (by positivity)]
    exact h
  · refine rk_tendsto (t0 := t0) (x := fun i => ((xs i).1 k - a.goalY k, (xs i).2 k)) hk hcc hdt ?_ ?_ hdrive ?_
    · have e1 : dt * (a.alphaY k * a.betaY k / τ ^ 2) = (dt * a.betaY k) * (a.alphaY k / τ ^ 2) := by ring
      have e2 : a.alphaY k / τ = τ * (a.alphaY k / τ ^ 2) := by field_simp
      rw [e1, e2]
      exact mul_lt_mul_of_pos_right h1 (by positivity)
    · have e1 : 2 * (dt * (a.alphaY k / τ)) = 2 * (dt * a.alphaY k * τ) / τ ^ 2 := by field_simp
      have e2 : 4 + dt ^ 2 * (a.alphaY k * a.betaY k / τ ^ 2) =
          (4 * τ ^ 2 + dt ^ 2 * (a.alphaY k * a.betaY k)) / τ ^ 2 := by field_simp
      rw [e1, e2]
      exact div_lt_div_of_pos_right h2 (by positivity)
    · intro i
      have h3 : a.stepRk4 (t0 + i * dt) (t0 + (i + 1) * dt) (xs i) = .ok (xs (i + 1)) := by
        have := hx i
        rcases hsf with rfl | rfl
        · exact this
        · rw [← C10_rk4_cython_eq_python]; exact this
      have h4 := a.stepRk4_sd hc hp he hT h3 k
      have e : t0 + (i + 1) * dt - (t0 + i * dt) = dt := by ring
      rw [e] at h4
      exact h4

/-- A stable integrator does not raise. -/
theorem run_returns (hc : a.coupling = none) (hp : a.precomputed = none) (hT : a.startT < a.goalT)
    {sf : StepFunction} {dt τ α β lastT t : ℝ} (hst : Spec.Stable sf dt a.intDt τ α β)
    (hlt : lastT ≤ t) (ht : a.startT < t) (s : Vec d × Vec d) : ∃ s', sf.run a lastT t s = .ok s' := by
  rcases hst with ⟨hsf, hint, h⟩ | ⟨hsf, hint, n, hn, hn', h⟩ | ⟨hsf, h1, h2⟩
  · exact ⟨_, run_euler_eq a hc hp hsf hint hT hlt ht s⟩
  · exact ⟨_, run_euler_eq a hc hp hsf hint hT hlt ht s⟩
  · rcases hsf with rfl | rfl
    · exact ⟨_, rfl⟩
    · show ∃ s', a.stepRk4Cy lastT t s = .ok s'
      rw [C10_rk4_cython_eq_python]; exact ⟨_, rfl⟩

end Core

/-! ## The class -/

theorem DMP.Valid.forcing {s : DMP d m} (h : s.Valid) : 1 < m ∧ 0 < s.ft.alphaZ ∧ s.ft.startT < s.ft.goalT := by
  obtain ⟨ft, h1, h2⟩ := h
  rw [DMP.initForcingTerm_ok_iff] at h1
  obtain ⟨e1, e2, _, e4, hm, hlt, _⟩ := create_eq h1
  rw [h2]
  refine ⟨by omega, ?_, ?_⟩
  · show 0 < ft.alphaZ
    rw [e4]
    have := Real.log_neg (by norm_num : (0 : ℝ) < 1 / 100) (by norm_num)
    linarith
  · show ft.startT < ft.goalT
    rw [e1, e2]; exact hlt

/-- Objects during an execution differ only in time and current state. -/
theorem run_objects {sf : StepFunction} {coupling : Option (Coupling d)} {obj : ℕ → DMP d m} {fb out : ℕ → Vec d × Vec d}
    (h : Spec.Run (DMP.step coupling sf) obj fb out) (i : ℕ) :
    ∃ lt y yd ini, obj i = { obj 0 with lastT := lt, t := (obj 0).t + i * (obj 0).dt, currentY := y, currentYd := yd,
                                        initialized := ini } := by
  induction i with
  | zero => exact ⟨(obj 0).lastT, (obj 0).currentY, (obj 0).currentYd, (obj 0).initialized, by simp⟩
  | succ i ih =>
    obtain ⟨lt, y, yd, ini, hi⟩ := ih
    have h1 := h i
    rw [DMP.exec_step] at h1
    cases hr : sf.run ((obj i).beginStep.stepArgs coupling ((obj i).beginStep.currentY - (fb i).1)) (obj i).t
        ((obj i).t + (obj i).dt) ((obj i).beginStep.currentY, (obj i).beginStep.currentYd) with
    | error e => rw [hr] at h1; cases h1
    | ok r =>
      rw [hr] at h1
      have h2 : { (obj i).beginStep with currentY := r.1, currentYd := r.2 } = obj (i + 1) := congrArg Prod.snd h1
      refine ⟨some (obj i).t, r.1, r.2, true, ?_⟩
      have h3 : (obj i).t + (obj i).dt = (obj 0).t + ((i + 1 : ℕ) : ℝ) * (obj 0).dt := by
        rw [hi]; push_cast; ring
      rw [← h3, ← h2]
      unfold DMP.beginStep
      rw [hi]

/-- State from which call `i` integrates. -/
theorem run_result {sf : StepFunction} {coupling : Option (Coupling d)} {obj : ℕ → DMP d m} {fb out : ℕ → Vec d × Vec d}
    (h : Spec.Run (DMP.step coupling sf) obj fb out) (i : ℕ) :
    sf.run ((obj i).beginStep.stepArgs coupling ((obj i).beginStep.currentY - (fb i).1)) (obj i).t
        ((obj i).t + (obj i).dt) ((obj i).beginStep.currentY, (obj i).beginStep.currentYd) = .ok (out i) ∧
      ((obj (i + 1)).beginStep.currentY, (obj (i + 1)).beginStep.currentYd) = out i := by
  have h1 := h i
  rw [DMP.exec_step] at h1
  cases hr : sf.run ((obj i).beginStep.stepArgs coupling ((obj i).beginStep.currentY - (fb i).1)) (obj i).t
      ((obj i).t + (obj i).dt) ((obj i).beginStep.currentY, (obj i).beginStep.currentYd) with
  | error e => rw [hr] at h1; cases h1
  | ok r =>
    rw [hr] at h1
    have h0 : (Except.ok r : Except PyErr (Vec d × Vec d)) = .ok (out i) := congrArg Prod.fst h1
    have h2 : { (obj i).beginStep with currentY := r.1, currentYd := r.2 } = obj (i + 1) := congrArg Prod.snd h1
    refine ⟨h0, ?_⟩
    injection h0 with h0
    rw [← h2, ← h0]
    simp [DMP.beginStep]

/-- Without tracking error all calls of `step` integrate with the same arguments. -/
theorem step_states {s : DMP d m} {sf : StepFunction} {coupling : Option (Coupling d)}
    {obj : ℕ → DMP d m} {fb out : ℕ → Vec d × Vec d} (h0 : obj 0 = s) (hrun : Spec.Run (DMP.step coupling sf) obj fb out)
    (hfb : s.pGain = 0 ∨
      (fb 0).1 = (if s.initialized then s.currentY else s.startY) ∧ ∀ i, (fb (i + 1)).1 = (out i).1) (i : ℕ) :
    sf.run (s.stepArgs coupling 0) (s.t + i * s.dt) (s.t + (i + 1) * s.dt)
        ((obj i).beginStep.currentY, (obj i).beginStep.currentYd) =
      .ok ((obj (i + 1)).beginStep.currentY, (obj (i + 1)).beginStep.currentYd) := by
  subst h0
  set s := obj 0 with hsdef
  let a := s.stepArgs coupling 0
  obtain ⟨r1, r2⟩ := run_result hrun i
  rw [r2]
  obtain ⟨lt, y, yd, ini, hi⟩ := run_objects hrun i
  have e1 : (obj i).t = s.t + i * s.dt := by rw [hi]
  have e2 : (obj i).t + (obj i).dt = s.t + (i + 1) * s.dt := by rw [hi]; push_cast; ring
  have e3 : (obj i).beginStep.stepArgs coupling ((obj i).beginStep.currentY - (fb i).1) =
      { a with trackingError := (obj i).beginStep.currentY - (fb i).1 } := by
    simp only [a, DMP.stepArgs, DMP.beginStep]
    rw [hi]
  rw [e2, e1, e3] at r1
  rw [← r1]
  rcases hfb with hp | ⟨hf0, hf⟩
  · exact (run_pGain_zero sf a hp _ _ _ _).symm
  · have e4 : (obj i).beginStep.currentY - (fb i).1 = 0 := by
      cases i with
      | zero =>
        rw [hf0, sub_eq_zero]
        rfl
      | succ i =>
        rw [hf i, sub_eq_zero, ← (run_result hrun i).2]
    rw [e4]
    rfl

/-- Limit of an infinite execution. -/
theorem step_tendsto {s : DMP d m} (hs : s.Reachable) {sf : StepFunction} (hdt : 0 < s.dt) (ht : 0 ≤ s.t)
    (hgain : ∀ k, 0 < s.alphaY k ∧ 0 < s.betaY k)
    (hst : ∀ k, Spec.Stable sf s.dt s.intDt s.executionTime (s.alphaY k) (s.betaY k))
    {obj : ℕ → DMP d m} {fb out : ℕ → Vec d × Vec d} (h0 : obj 0 = s) (hrun : Spec.Run (DMP.step none sf) obj fb out)
    (hfb : s.pGain = 0 ∨
      (fb 0).1 = (if s.initialized then s.currentY else s.startY) ∧ ∀ i, (fb (i + 1)).1 = (out i).1) :
    Tendsto out atTop (𝓝 (s.goalY, 0)) := by
  have hx := step_states h0 hrun hfb
  have hval := hs.valid
  obtain ⟨hm, hα, hft⟩ := hval.forcing
  have hτ := hval.pos.2
  let a := s.stepArgs none 0
  let xs : ℕ → Vec d × Vec d := fun i => ((obj i).beginStep.currentY, (obj i).beginStep.currentYd)
  have hlim := run_tendsto a rfl rfl rfl (show (0 : ℝ) < s.executionTime from hτ) hm hα hft hdt
    (show (0 : ℝ) ≤ s.t from ht) hgain (fun k => by
      have := hst k
      show Spec.Stable sf s.dt s.intDt (s.executionTime - 0) _ _
      rw [sub_zero]; exact this) hx
  have : out = fun i => xs (i + 1) := by funext i; exact ((run_result hrun i).2).symm
  rw [this]
  exact (tendsto_add_atTop_iff_nat 1).2 hlim

/-- A call of `step` on an object with a stable integrator returns. -/
theorem step_returns {s : DMP d m} (hs : s.Valid) {sf : StepFunction} (hdt : 0 < s.dt) (ht : 0 ≤ s.t) (k : Fin d)
    (hst : Spec.Stable sf s.dt s.intDt s.executionTime (s.alphaY k) (s.betaY k)) (y yd : Vec d) :
    ∃ r, (DMP.step none sf y yd).exec s = (.ok r, { s.beginStep with currentY := r.1, currentYd := r.2 }) := by
  rw [DMP.exec_step]
  obtain ⟨r, hr⟩ := run_returns (s.beginStep.stepArgs none (s.beginStep.currentY - y)) rfl rfl
    (show (0 : ℝ) < s.executionTime from hs.pos.2) hst (show s.t ≤ s.t + s.dt by linarith)
    (show (0 : ℝ) < s.t + s.dt by linarith) (s.beginStep.currentY, s.beginStep.currentYd)
  rw [hr]
  exact ⟨r, rfl⟩

/-- Infinite closed-loop executions exist if no call raises. -/
theorem runs_exist_of_returns {s : DMP d m} (hs : s.Valid) {sf : StepFunction} {coupling : Option (Coupling d)} (ht : 0 ≤ s.t)
    (hret : ∀ x : DMP d m, x.Valid → x.dt = s.dt → 0 ≤ x.t → x.intDt = s.intDt → x.executionTime = s.executionTime →
      x.alphaY = s.alphaY → x.betaY = s.betaY → ∀ y yd : Vec d,
      ∃ r, (DMP.step coupling sf y yd).exec x = (.ok r, { x.beginStep with currentY := r.1, currentYd := r.2 }))
    (hdt : 0 ≤ s.dt) :
    ∃ obj fb out, obj 0 = s ∧ Spec.Run (DMP.step (m := m) coupling sf) obj fb out ∧
      (fb 0).1 = (if s.initialized then s.currentY else s.startY) ∧ ∀ i, fb (i + 1) = out i := by
  classical
  let next : DMP d m × (Vec d × Vec d) → DMP d m × (Vec d × Vec d) := fun p =>
    let r := (DMP.step coupling sf p.2.1 p.2.2).exec p.1
    (r.2, match r.1 with | .ok x => x | .error _ => p.2)
  let tr : ℕ → DMP d m × (Vec d × Vec d) := fun i => next^[i] (s, (s.beginStep.currentY, s.beginStep.currentYd))
  have hsucc : ∀ i, tr (i + 1) = next (tr i) := fun i => Function.iterate_succ_apply' _ _ _
  have hinv : ∀ i, (tr i).1.Valid ∧ (tr i).1.dt = s.dt ∧ 0 ≤ (tr i).1.t ∧ (tr i).1.intDt = s.intDt ∧
      (tr i).1.executionTime = s.executionTime ∧ (tr i).1.alphaY = s.alphaY ∧ (tr i).1.betaY = s.betaY := by
    intro i
    induction i with
    | zero => exact ⟨hs, rfl, ht, rfl, rfl, rfl, rfl⟩
    | succ i ih =>
      obtain ⟨h1, h2, h3, h4, h5, h6, h7⟩ := ih
      obtain ⟨r, hr⟩ := hret (tr i).1 h1 h2 h3 h4 h5 h6 h7 (tr i).2.1 (tr i).2.2
      have e : (tr (i + 1)).1 = { (tr i).1.beginStep with currentY := r.1, currentYd := r.2 } := by
        rw [hsucc]; simp only [next, hr]
      rw [e]
      refine ⟨h1.congr rfl rfl, h2, ?_, h4, h5, h6, h7⟩
      show 0 ≤ (tr i).1.t + (tr i).1.dt
      rw [h2]; linarith
  refine ⟨fun i => (tr i).1, fun i => (tr i).2, fun i => (tr (i + 1)).2, rfl, ?_, rfl, fun i => rfl⟩
  intro i
  obtain ⟨h1, h2, h3, h4, h5, h6, h7⟩ := hinv i
  obtain ⟨r, hr⟩ := hret (tr i).1 h1 h2 h3 h4 h5 h6 h7 (tr i).2.1 (tr i).2.2
  simp only [hsucc]
  simp only [next, hr]

/-- Infinite closed-loop executions of a stable integrator exist. -/
theorem runs_exist {s : DMP d m} (hs : s.Reachable) {sf : StepFunction} (hdt : 0 < s.dt) (ht : 0 ≤ s.t) (k : Fin d)
    (hst : Spec.Stable sf s.dt s.intDt s.executionTime (s.alphaY k) (s.betaY k)) :
    ∃ obj fb out, obj 0 = s ∧ Spec.Run (DMP.step (m := m) none sf) obj fb out ∧
      (fb 0).1 = (if s.initialized then s.currentY else s.startY) ∧ ∀ i, fb (i + 1) = out i :=
  runs_exist_of_returns hs.valid ht (fun _ h1 h2 h3 h4 h5 h6 h7 y yd =>
    step_returns h1 (by rw [h2]; exact hdt) h3 k (by rw [h2, h4, h5, h6, h7]; exact hst) y yd) hdt.le

/-- States of an open-loop execution that cannot raise. -/
theorem openLoop_states {s : DMP d m} {name : String} {sf : StepFunction} {coupling : Option (Coupling d)}
    (hname : StepFunction.lookup name = .ok sf) (hdt : 0 < s.dt)
    (hok : ∀ (i : ℕ) (x : Vec d × Vec d),
      ∃ x', sf.run (s.openLoopArgs coupling) (0 + i * s.dt) (0 + (i + 1) * s.dt) x = .ok x') :
    ∃ xs : ℕ → Vec d × Vec d, xs 0 = (s.startY, 0) ∧
      (∀ i : ℕ, sf.run (s.openLoopArgs coupling) (0 + i * s.dt) (0 + (i + 1) * s.dt) (xs i) = .ok (xs (i + 1))) ∧
      (∀ r : ℝ, 0 ≤ r → ∃ T Y, ((DMP.openLoop (some r) coupling name).exec s).1 = .ok (T, Y)) ∧
      ∀ (runT : Option ℝ) T Y, ((DMP.openLoop runT coupling name).exec s).1 = .ok (T, Y) →
        ∀ i (hT : i < T.length) (hY : i < Y.length), T[i] = i * s.dt ∧ Y[i] = (xs i).1 := by
  classical
  let a := s.openLoopArgs coupling
  let step : ℕ → Vec d × Vec d → Except PyErr (Vec d × Vec d) := fun i x =>
    sf.run a (arangeAt a.startT s.dt i) (arangeAt a.startT s.dt (i + 1)) x
  have hstep : ∀ i x, step i x = sf.run a (0 + i * s.dt) (0 + (i + 1) * s.dt) x := by
    intro i x
    show sf.run a (0 + (i : ℝ) * s.dt) (0 + ((i + 1 : ℕ) : ℝ) * s.dt) x = _
    push_cast; rfl
  have hok' : ∀ i x, ∃ x', step i x = .ok x' := fun i x => by rw [hstep]; exact hok i x
  choose nxt hnxt using hok'
  let xs : ℕ → Vec d × Vec d := fun i => Nat.rec (a.startY, a.startYd) (fun i x => nxt i x) i
  have hxs : ∀ i, xs (i + 1) = nxt i (xs i) := fun i => rfl
  have hstate : ∀ n i, loopState step n (xs i) i = .ok (xs (i + n)) := by
    intro n
    induction n with
    | zero => intro i; rfl
    | succ n ih =>
      intro i
      rw [loopState, hnxt]
      show loopState step n (nxt i (xs i)) (i + 1) = _
      have h := ih (i + 1)
      rw [← hxs]
      refine h.trans ?_
      rw [show i + 1 + n = i + (n + 1) by omega]
  refine ⟨xs, rfl, fun i => by rw [hxs, ← hnxt, hstep], ?_, ?_⟩
  · intro r hr
    rw [DMP.exec_openLoop, hname]
    simp only [Except.bind, dmpOpenLoop, openLoopWith, hdt.ne', if_false, Bind.bind, pure, Except.pure, Option.getD_some]
    have hn : arangeLen a.startT (r + s.dt) s.dt ≠ 0 := by
      unfold arangeLen
      have : a.startT = 0 := rfl
      rw [this, sub_zero, Ne, Nat.ceil_eq_zero, not_le]
      positivity
    rw [if_neg hn]
    obtain ⟨rows, hrows⟩ := loopRows_ok step Prod.fst (arangeLen a.startT (r + s.dt) s.dt - 1) (a.startY, a.startYd) 0
      ⟨_, hstate _ 0⟩
    rw [hrows]
    exact ⟨_, _, rfl⟩
  · intro runT T Y h i hT hY
    have hgrid := C20_open_loop_grid s hdt runT coupling name h
    refine ⟨hgrid.2.2.1 i hT, ?_⟩
    rw [DMP.exec_openLoop, hname] at h
    simp only [Except.bind, dmpOpenLoop, openLoopWith, hdt.ne', if_false, Bind.bind, pure, Except.pure] at h
    split_ifs at h with hz
    cases hl : loopRows step Prod.fst (arangeLen a.startT (runT.getD a.goalT + s.dt) s.dt - 1) (a.startY, a.startYd) 0 with
    | error e =>
      have : loopRows (fun i x => sf.run a (arangeAt a.startT s.dt i) (arangeAt a.startT s.dt (i + 1)) x) Prod.fst
        (arangeLen a.startT (runT.getD a.goalT + s.dt) s.dt - 1) (a.startY, a.startYd) 0 = .error e := hl
      rw [this] at h; cases h
    | ok rows =>
      have h5 : loopRows (fun i x => sf.run a (arangeAt a.startT s.dt i) (arangeAt a.startT s.dt (i + 1)) x) Prod.fst
        (arangeLen a.startT (runT.getD a.goalT + s.dt) s.dt - 1) (a.startY, a.startYd) 0 = .ok rows := hl
      rw [h5] at h
      simp only [Except.ok.injEq, Prod.mk.injEq] at h
      obtain ⟨_, hY'⟩ := h
      subst hY'
      cases i with
      | zero => rfl
      | succ j =>
        obtain ⟨x, hx1, hx2⟩ := (loopRows_get _ _ _ _ _ _ hl).2 j (by simpa using hY)
        have := hstate (j + 1) 0
        have e0 : xs 0 = (a.startY, a.startYd) := rfl
        rw [e0, hx1] at this
        injection this with this
        rw [zero_add] at this
        simp only [List.getElem_cons_succ]
        rw [← hx2, this]

/-- Positions of long open-loop executions. -/
theorem openLoop_tendsto {s : DMP d m} (hs : s.Reachable) {name : String} {sf : StepFunction}
    (hname : StepFunction.lookup name = .ok sf) (hdt : 0 < s.dt) (hd : 0 < d)
    (hgain : ∀ k, 0 < s.alphaY k ∧ 0 < s.betaY k)
    (hst : ∀ k, Spec.Stable sf s.dt s.intDt s.executionTime (s.alphaY k) (s.betaY k)) :
    (∀ r : ℝ, 0 ≤ r → ∃ T Y, ((DMP.openLoop (some r) none name).exec s).1 = .ok (T, Y)) ∧
    ∀ ε > 0, ∃ R : ℝ, ∀ (runT : Option ℝ) T Y, ((DMP.openLoop runT none name).exec s).1 = .ok (T, Y) →
      ∀ i (hT : i < T.length) (hY : i < Y.length), R ≤ T[i] → ∀ k, |Y[i] k - s.goalY k| < ε := by
  have hval := hs.valid
  obtain ⟨hm, hα, hft⟩ := hval.forcing
  have hτ := hval.pos.2
  let a := s.openLoopArgs none
  have haT : a.startT < a.goalT := hτ
  obtain ⟨xs, -, hx, hret, hrows⟩ := openLoop_states hname hdt (fun i x => by
    refine run_returns a rfl rfl haT (hst ⟨0, hd⟩) (by linarith) ?_ x
    show (0 : ℝ) < 0 + (i + 1) * s.dt
    have : 0 < ((i : ℝ) + 1) * s.dt := by positivity
    linarith)
  have hlim : Tendsto xs atTop (𝓝 (a.goalY, 0)) := by
    refine run_tendsto a rfl rfl rfl haT hm hα hft (sf := sf) hdt (le_refl a.startT) hgain (fun k => ?_) hx
    show Spec.Stable sf s.dt s.intDt (s.executionTime - 0) _ _
    rw [sub_zero]; exact hst k
  refine ⟨hret, ?_⟩
  intro ε hε
  have hev : ∃ N, ∀ i ≥ N, ∀ k, |(xs i).1 k - s.goalY k| < ε := by
    have h1 : Tendsto (fun i => (xs i).1) atTop (𝓝 s.goalY) := (continuous_fst.tendsto _).comp hlim
    have h2 : ∀ k, ∀ᶠ i in atTop, |(xs i).1 k - s.goalY k| < ε := by
      intro k
      have h3 := (tendsto_pi_nhds.1 h1) k
      have := (Metric.tendsto_atTop.1 h3) ε hε
      obtain ⟨N, hN⟩ := this
      exact eventually_atTop.2 ⟨N, fun i hi => by simpa [Real.dist_eq] using hN i hi⟩
    exact eventually_atTop.1 (eventually_all.2 h2)
  obtain ⟨N, hN⟩ := hev
  refine ⟨N * s.dt, ?_⟩
  intro runT T Y h i hT hY hR k
  obtain ⟨e1, e2⟩ := hrows runT T Y h i hT hY
  rw [e1] at hR
  rw [e2]
  exact hN i (by have := le_of_mul_le_mul_right hR hdt; exact_mod_cast this) k

/-! ## C07 -/

/-- **C07 (step).** For every object with positive gains, whatever its weights, start, goal, current state and smooth
scaling: if the Euler method is stable for its `int_dt`, positions and velocities returned by an infinite sequence of
`step` calls converge to the goal and 0. With `p_gain` different from 0 the passed states must be the returned ones. -/
theorem C07_euler_step_converges {s : DMP d m} (hs : s.Reachable) {sf : StepFunction}
    (_hsf : sf = .euler ∨ sf = .eulerCython) (hdt : 0 < s.dt) (ht : 0 ≤ s.t)
    (hgain : ∀ k, 0 < s.alphaY k ∧ 0 < s.betaY k)
    (hst : ∀ k, Spec.Stable sf s.dt s.intDt s.executionTime (s.alphaY k) (s.betaY k))
    {obj : ℕ → DMP d m} {fb out : ℕ → Vec d × Vec d} (h0 : obj 0 = s) (hrun : Spec.Run (DMP.step none sf) obj fb out)
    (hfb : s.pGain = 0 ∨
      (fb 0).1 = (if s.initialized then s.currentY else s.startY) ∧ ∀ i, (fb (i + 1)).1 = (out i).1) :
    Tendsto out atTop (𝓝 (s.goalY, 0)) :=
  step_tendsto hs hdt ht hgain hst h0 hrun hfb

/-- **C07 (open_loop).** Under the same conditions `open_loop` returns for every duration, and its positions at late
times are arbitrarily close to the goal. -/
theorem C07_euler_open_loop_converges {s : DMP d m} (hs : s.Reachable) {name : String}
    (hname : name = "euler" ∨ name = "euler-cython") (hdt : 0 < s.dt) (hd : 0 < d)
    (hgain : ∀ k, 0 < s.alphaY k ∧ 0 < s.betaY k)
    (hst : ∀ sf, StepFunction.lookup name = .ok sf →
      ∀ k, Spec.Stable sf s.dt s.intDt s.executionTime (s.alphaY k) (s.betaY k)) :
    (∀ r : ℝ, 0 ≤ r → ∃ T Y, ((DMP.openLoop (some r) none name).exec s).1 = .ok (T, Y)) ∧
    ∀ ε > 0, ∃ R : ℝ, ∀ (runT : Option ℝ) T Y, ((DMP.openLoop runT none name).exec s).1 = .ok (T, Y) →
      ∀ i (hT : i < T.length) (hY : i < Y.length), R ≤ T[i] → ∀ k, |Y[i] k - s.goalY k| < ε := by
  rcases hname with rfl | rfl
  · exact openLoop_tendsto hs (sf := .euler) rfl hdt hd hgain (hst _ rfl)
  · exact openLoop_tendsto hs (sf := .eulerCython) rfl hdt hd hgain (hst _ rfl)

/-- Default values (execution time 1, `int_dt` 0.001, gains 25 and 25/4) meet the hypotheses of C07; executions exist. -/
example : ∃ (s : DMP 2 10) (obj : ℕ → DMP 2 10) (fb out : ℕ → Vec 2 × Vec 2), s.Reachable ∧ 0 < s.dt ∧ 0 ≤ s.t ∧
    (∀ k, 0 < s.alphaY k ∧ 0 < s.betaY k) ∧
    (∀ k, Spec.Stable .eulerCython s.dt s.intDt s.executionTime (s.alphaY k) (s.betaY k)) ∧
    obj 0 = s ∧ Spec.Run (DMP.step none .eulerCython) obj fb out ∧ s.pGain = 0 := by
  obtain ⟨s, hs, h1, h2, h3, h4, h5, h6, h7, h8, h9, h10, h11, h12, h13⟩ :=
    DMP.create_ok 2 10 (by norm_num) one_pos (1 / 100) (1 / 1000) 0 false 25 (25 / 4)
  have hst : ∀ k, Spec.Stable .eulerCython s.dt s.intDt s.executionTime (s.alphaY k) (s.betaY k) := by
    intro k
    rw [h1, h3, h11, h12]
    exact .euler (.inr rfl) (by norm_num) (by norm_num)
  have hdt : 0 < s.dt := by rw [h2]; norm_num
  obtain ⟨obj, fb, out, e1, e2, _⟩ := runs_exist (.create hs) hdt (by rw [h7]) 0 (hst 0)
  refine ⟨s, obj, fb, out, .create hs, hdt, by rw [h7], ?_, hst, e1, e2, h4⟩
  intro k
  rw [h11, h12]
  norm_num

/-- Finding (C07): the condition cannot be dropped. For any gains, execution time and `dt = int_dt` with
`int_dt² α β + 2 int_dt α τ ≥ 4 τ²` there is a DMP without weights and an infinite execution of the Euler method whose
velocity never becomes small. -/
theorem C07_unstable_beyond_limit {α β τ h : ℝ} (hα : 0 < α) (hβ : 0 < β) (hτ : 0 < τ) (hh : 0 < h)
    (hlim : 4 * τ ^ 2 ≤ h ^ 2 * (α * β) + 2 * (h * α * τ)) :
    ∃ (s : DMP 1 2) (obj : ℕ → DMP 1 2) (fb out : ℕ → Vec 1 × Vec 1) (δ : ℝ), s.Reachable ∧ s.t = 0 ∧ s.pGain = 0 ∧
      s.dt = h ∧ s.intDt = h ∧ s.executionTime = τ ∧ s.alphaY = (fun _ => α) ∧ s.betaY = (fun _ => β) ∧
      obj 0 = s ∧ Spec.Run (DMP.step none .euler) obj fb out ∧ 0 < δ ∧ ∀ i, δ ≤ |(out i).2 0| := by
  obtain ⟨l, hl, hvec⟩ := sdStep_unstable (k := α * β / τ ^ 2) (c := α / τ) (h := h) (by
    have e : h ^ 2 * (α * β / τ ^ 2) + 2 * (h * (α / τ)) = (h ^ 2 * (α * β) + 2 * (h * α * τ)) / τ ^ 2 := by field_simp
    rw [e, le_div_iff₀ (by positivity)]
    exact hlim)
  set e0 := l - 1 + h * (α / τ) with he0
  set v0 := -(h * (α * β / τ ^ 2)) with hv0
  obtain ⟨s0, hs0, h1, h2, h3, h4, h5, h6, h7, h8, h9, h10, h11, h12, h13⟩ :=
    DMP.create_ok 1 2 le_rfl hτ h h 0 false α β
  have hr0 : s0.Reachable := .create hs0
  have hc : (DMP.configure { startY := some [e0], startYd := some [v0] }).exec s0 =
      (.ok (), { s0 with startY := fun _ => e0, startYd := fun _ => v0 }) := by
    rw [DMP.exec_configure]
    simp only [Movement.configure, configureField, Py.exec_bind, Py.exec_pure, Py.exec_lift, Py.exec_modify,
      checkLength]
    simp
  set s : DMP 1 2 := { s0 with startY := fun _ => e0, startYd := fun _ => v0 } with hsdef
  have hr : s.Reachable := .op (.configure { startY := some [e0], startYd := some [v0] }) hr0 hc (by intro τ h; cases h)
  have hf : ∀ z, s0.ft.force z = 0 := by
    intro z; funext k; simp [ForcingTerm.force, h13]
  -- one step
  have hstep : ∀ (x : DMP 1 2), x.ft = s0.ft → x.executionTime = τ → x.intDt = h → x.dt = h → x.goalY = 0 →
      x.alphaY = (fun _ => α) → x.betaY = (fun _ => β) → x.smooth = false → x.pGain = 0 → 0 ≤ x.t →
      (DMP.step none .euler x.beginStep.currentY x.beginStep.currentYd).exec x =
        (.ok ((fun _ => (sdStep (α * β / τ ^ 2) (α / τ) h 0 (x.beginStep.currentY 0, x.beginStep.currentYd 0)).1),
              (fun _ => (sdStep (α * β / τ ^ 2) (α / τ) h 0 (x.beginStep.currentY 0, x.beginStep.currentYd 0)).2)),
         { x.beginStep with
           currentY := fun _ => (sdStep (α * β / τ ^ 2) (α / τ) h 0 (x.beginStep.currentY 0, x.beginStep.currentYd 0)).1
           currentYd := fun _ =>
             (sdStep (α * β / τ ^ 2) (α / τ) h 0 (x.beginStep.currentY 0, x.beginStep.currentYd 0)).2 }) := by
    intro x q1 q2 q3 q4 q5 q6 q7 q8 q9 q10
    rw [DMP.exec_step]
    have hrun : StepFunction.euler.run (x.beginStep.stepArgs none (x.beginStep.currentY - x.beginStep.currentY)) x.t
        (x.t + x.dt) (x.beginStep.currentY, x.beginStep.currentYd) =
        .ok ((fun _ => (sdStep (α * β / τ ^ 2) (α / τ) h 0 (x.beginStep.currentY 0, x.beginStep.currentYd 0)).1),
              (fun _ => (sdStep (α * β / τ ^ 2) (α / τ) h 0 (x.beginStep.currentY 0, x.beginStep.currentYd 0)).2)) := by
      set a := x.beginStep.stepArgs none (x.beginStep.currentY - x.beginStep.currentY) with ha
      have haT : a.startT < a.goalT := by show (0 : ℝ) < x.executionTime; rw [q2]; exact hτ
      have hint : a.intDt = h := q3
      show a.stepEuler _ _ _ = _
      unfold StepArgs.stepEuler
      rw [if_neg (not_le.2 haT), if_neg (by show ¬ x.t + x.dt ≤ 0; rw [q4]; linarith),
        intLoop_single _ (by rw [q4]; linarith) (by rw [hint, q4]; linarith)]
      have hd0 : a.drive 0 (x.t + x.dt) = 0 := by
        have e1 : a.ft = s0.ft := q1
        have e2 : a.smooth = false := q8
        simp [StepArgs.drive, ForcingTerm.call, e1, e2, hf]
      have hb := a.eulerBody_sd rfl rfl (by simp [ha, DMP.stepArgs]) haT (x.t + x.dt - x.t) (x.t + x.dt)
        (x.beginStep.currentY, x.beginStep.currentYd) 0
      have eg : a.goalY = 0 := q5
      have eτ : a.goalT - a.startT = τ := by show x.executionTime - 0 = τ; rw [q2, sub_zero]
      have eα : a.alphaY 0 = α := by show x.alphaY 0 = α; rw [q6]
      have eβ : a.betaY 0 = β := by show x.betaY 0 = β; rw [q7]
      have edt : x.t + x.dt - x.t = h := by rw [q4]; ring
      rw [hd0, eg, eτ, eα, eβ, edt] at hb
      simp only [Pi.zero_apply, sub_zero] at hb
      rw [edt]
      refine congrArg Except.ok ?_
      ext k
      · have : k = 0 := Subsingleton.elim _ _
        subst this
        exact congrArg Prod.fst hb
      · have : k = 0 := Subsingleton.elim _ _
        subst this
        exact congrArg Prod.snd hb
    rw [hrun]
    rfl
  -- the execution
  let X : ℕ → DMP 1 2 := fun i => Nat.rec s (fun i x =>
    ((DMP.step none .euler x.beginStep.currentY x.beginStep.currentYd).exec x).2) i
  have hX : ∀ i, X (i + 1) =
    ((DMP.step none .euler (X i).beginStep.currentY (X i).beginStep.currentYd).exec (X i)).2 := fun i => rfl
  have hinv : ∀ i, (X i).ft = s0.ft ∧ (X i).executionTime = τ ∧ (X i).intDt = h ∧ (X i).dt = h ∧ (X i).goalY = 0 ∧
      (X i).alphaY = (fun _ => α) ∧ (X i).betaY = (fun _ => β) ∧ (X i).smooth = false ∧ (X i).pGain = 0 ∧ 0 ≤ (X i).t ∧
      (X i).beginStep.currentY 0 = l ^ i * e0 ∧ (X i).beginStep.currentYd 0 = l ^ i * v0 := by
    intro i
    induction i with
    | zero =>
      refine ⟨rfl, h1, h3, h2, h10, h11, h12, h5, h4, by show 0 ≤ s0.t; rw [h7], ?_, ?_⟩
      · show (if s0.initialized then s0.currentY else fun _ => e0) 0 = _
        rw [h6]; simp
      · show (if s0.initialized then s0.currentYd else fun _ => v0) 0 = _
        rw [h6]; simp
    | succ i ih =>
      obtain ⟨q1, q2, q3, q4, q5, q6, q7, q8, q9, q10, q11, q12⟩ := ih
      have hs := hstep (X i) q1 q2 q3 q4 q5 q6 q7 q8 q9 q10
      have hlin : sdStep (α * β / τ ^ 2) (α / τ) h 0 (l ^ i * e0, l ^ i * v0) = (l ^ (i + 1) * e0, l ^ (i + 1) * v0) := by
        have e1 := congrArg Prod.fst hvec
        have e2 := congrArg Prod.snd hvec
        simp only [sdStep] at e1 e2 ⊢
        ext
        · simp only; rw [pow_succ]; linear_combination l ^ i * e1
        · simp only; rw [pow_succ]; linear_combination l ^ i * e2
      rw [q11, q12, hlin] at hs
      rw [hX i, hs]
      refine ⟨q1, q2, q3, q4, q5, q6, q7, q8, q9, ?_, ?_, ?_⟩
      · show 0 ≤ (X i).t + (X i).dt
        rw [q4]; linarith
      · simp [DMP.beginStep]
      · simp [DMP.beginStep]
  have hv : 0 < |v0| := by
    rw [hv0, abs_neg]; positivity
  refine ⟨s, X, fun i => ((X i).beginStep.currentY, (X i).beginStep.currentYd),
    fun i => ((X (i + 1)).beginStep.currentY, (X (i + 1)).beginStep.currentYd), |v0|, hr, h7, h4, h2, h3, h1, h11, h12, rfl,
    ?_, hv, ?_⟩
  · intro i
    obtain ⟨q1, q2, q3, q4, q5, q6, q7, q8, q9, q10, q11, q12⟩ := hinv i
    have hs := hstep (X i) q1 q2 q3 q4 q5 q6 q7 q8 q9 q10
    simp only [hX i]
    rw [hs]
    simp [DMP.beginStep]
  · intro i
    obtain ⟨q1, q2, q3, q4, q5, q6, q7, q8, q9, q10, q11, q12⟩ := hinv (i + 1)
    simp only [q12, abs_mul, abs_pow]
    have h1 : 1 ≤ |l| := by rw [abs_of_neg (by linarith)]; linarith
    nlinarith [one_le_pow₀ h1 (n := i + 1)]

/-- The hypotheses of the finding are met by the default gains, execution time 1 and `int_dt = 0.1`. -/
example : 4 * (1 : ℝ) ^ 2 ≤ (1 / 10 : ℝ) ^ 2 * (25 * (25 / 4)) + 2 * (1 / 10 * 25 * 1) := by norm_num

/-! ## C08 -/

/-- **C08 (step).** As C07, for the Runge-Kutta methods. -/
theorem C08_rk4_step_converges {s : DMP d m} (hs : s.Reachable) {sf : StepFunction}
    (_hsf : sf = .rk4 ∨ sf = .rk4Cython) (hdt : 0 < s.dt) (ht : 0 ≤ s.t)
    (hgain : ∀ k, 0 < s.alphaY k ∧ 0 < s.betaY k)
    (hst : ∀ k, Spec.Stable sf s.dt s.intDt s.executionTime (s.alphaY k) (s.betaY k))
    {obj : ℕ → DMP d m} {fb out : ℕ → Vec d × Vec d} (h0 : obj 0 = s) (hrun : Spec.Run (DMP.step none sf) obj fb out)
    (hfb : s.pGain = 0 ∨
      (fb 0).1 = (if s.initialized then s.currentY else s.startY) ∧ ∀ i, (fb (i + 1)).1 = (out i).1) :
    Tendsto out atTop (𝓝 (s.goalY, 0)) :=
  step_tendsto hs hdt ht hgain hst h0 hrun hfb

/-- **C08 (open_loop).** As C07, for the Runge-Kutta methods. -/
theorem C08_rk4_open_loop_converges {s : DMP d m} (hs : s.Reachable) {name : String}
    (hname : name = "rk4" ∨ name = "rk4-cython") (hdt : 0 < s.dt) (hd : 0 < d)
    (hgain : ∀ k, 0 < s.alphaY k ∧ 0 < s.betaY k)
    (hst : ∀ sf, StepFunction.lookup name = .ok sf →
      ∀ k, Spec.Stable sf s.dt s.intDt s.executionTime (s.alphaY k) (s.betaY k)) :
    (∀ r : ℝ, 0 ≤ r → ∃ T Y, ((DMP.openLoop (some r) none name).exec s).1 = .ok (T, Y)) ∧
    ∀ ε > 0, ∃ R : ℝ, ∀ (runT : Option ℝ) T Y, ((DMP.openLoop runT none name).exec s).1 = .ok (T, Y) →
      ∀ i (hT : i < T.length) (hY : i < Y.length), R ≤ T[i] → ∀ k, |Y[i] k - s.goalY k| < ε := by
  rcases hname with rfl | rfl
  · exact openLoop_tendsto hs (sf := .rk4) rfl hdt hd hgain (hst _ rfl)
  · exact openLoop_tendsto hs (sf := .rk4Cython) rfl hdt hd hgain (hst _ rfl)

/-- Default values (execution time 1, `dt` 0.01, gains 25 and 25/4) meet the hypotheses of C08; executions exist. -/
example : ∃ (s : DMP 2 10) (obj : ℕ → DMP 2 10) (fb out : ℕ → Vec 2 × Vec 2), s.Reachable ∧ 0 < s.dt ∧ 0 ≤ s.t ∧
    (∀ k, 0 < s.alphaY k ∧ 0 < s.betaY k) ∧
    (∀ k, Spec.Stable .rk4 s.dt s.intDt s.executionTime (s.alphaY k) (s.betaY k)) ∧
    obj 0 = s ∧ Spec.Run (DMP.step none .rk4) obj fb out ∧ s.pGain = 0 := by
  obtain ⟨s, hs, h1, h2, h3, h4, h5, h6, h7, h8, h9, h10, h11, h12, h13⟩ :=
    DMP.create_ok 2 10 (by norm_num) one_pos (1 / 100) (1 / 1000) 0 false 25 (25 / 4)
  have hst : ∀ k, Spec.Stable .rk4 s.dt s.intDt s.executionTime (s.alphaY k) (s.betaY k) := by
    intro k
    rw [h1, h2, h11, h12]
    exact .rk4 (.inl rfl) (by norm_num) (by norm_num)
  have hdt : 0 < s.dt := by rw [h2]; norm_num
  obtain ⟨obj, fb, out, e1, e2, _⟩ := runs_exist (.create hs) hdt (by rw [h7]) 0 (hst 0)
  refine ⟨s, obj, fb, out, .create hs, hdt, by rw [h7], ?_, hst, e1, e2, h4⟩
  intro k
  rw [h11, h12]
  norm_num

end Verif
