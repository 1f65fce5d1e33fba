import Verif.Lemmas.SmallChanges
import Verif.Spec.SmallChanges
import Verif.Props.Superposition
import Verif.Props.FvConvergence
import Verif.Props.SpringDamper

/-! # C104: small changes have small effects -/

namespace Verif
open Spec Filter Topology
variable {d m n : ℕ}

theorem closeRows_of_index {δ : ℝ} {r₁ r₂ : List ℝ × List (Vec d)} (hs : SameTimes r₁ r₂)
    (h : ∀ i (h₁ : i < r₁.2.length) (h₂ : i < r₂.2.length) k, |r₁.2[i] k - r₂.2[i] k| ≤ δ) : CloseRows δ r₁ r₂ :=
  ⟨hs.1, List.forall₂_iff_get.2 ⟨hs.2, fun i h₁ h₂ k => h i h₁ h₂ k⟩⟩

/-- A sequence that converges is bounded. -/
theorem bounded_of_tendsto {xs : ℕ → Vec d × Vec d} {g : Vec d × Vec d} (h : Tendsto xs atTop (𝓝 g)) :
    ∃ C : ℝ, ∀ i k, |(xs i).1 k| ≤ C := by
  obtain ⟨C, hC⟩ := (Metric.isBounded_range_of_tendsto xs h).exists_norm_le
  refine ⟨C, fun i k => ?_⟩
  have h1 := hC (xs i) ⟨i, rfl⟩
  exact (norm_le_pi_norm (xs i).1 k).trans ((norm_fst_le (xs i)).trans h1)

namespace DMP

/-- Values of start, goal and their derivatives, and weights. -/
abbrev Params (d m : ℕ) := (Fin 6 → Vec d) × (Fin d → Fin m → ℝ)

/-- The system of `s` with other start, goal and weights. -/
def withParams (s : DMP d m) (v : Params d m) : DMP d m :=
  { s with
    startY := v.1 0, startYd := v.1 1, startYdd := v.1 2, goalY := v.1 3, goalYd := v.1 4, goalYdd := v.1 5
    currentY := 0, currentYd := 0, ft := { s.ft with weights := v.2 } }

theorem withParams_mix (s : DMP d m) (p q : ℝ) (v w : Params d m) :
    (s.withParams v).mix p q (s.withParams w) = s.withParams (p • v + q • w) := by
  unfold withParams DMP.mix Movement.mix ForcingTerm.mix
  simp only [mix_zero]
  rfl

theorem withParams_same (s : DMP d m) (v w : Params d m) : (s.withParams v).SameSystem (s.withParams w) :=
  ⟨rfl, rfl, rfl, rfl, rfl, rfl, rfl, rfl, rfl, rfl, rfl⟩

/-- Start, goal and weights. -/
def positionParams (s : DMP d m) : Params d m := (![s.startY, 0, 0, s.goalY, 0, 0], s.ft.weights)

/-- Start, goal, their derivatives, and weights. -/
def motionParams (s : DMP d m) : Params d m :=
  (![s.startY, s.startYd, s.startYdd, s.goalY, s.goalYd, s.goalYdd], s.ft.weights)

theorem norm_params_le {v w : Params d m} {δ : ℝ} (hδ : 0 ≤ δ) (h1 : ∀ j, Close δ (v.1 j) (w.1 j))
    (h2 : CloseWeights δ v.2 w.2) : ‖v - w‖ ≤ δ := by
  rw [Prod.norm_def, max_le_iff]
  constructor
  · rw [pi_norm_le_iff_of_nonneg hδ]
    intro j
    rw [pi_norm_le_iff_of_nonneg hδ]
    intro k
    exact (Real.norm_eq_abs _).le.trans (h1 j k)
  · rw [pi_norm_le_iff_of_nonneg hδ]
    intro j
    rw [pi_norm_le_iff_of_nonneg hδ]
    intro k
    exact (Real.norm_eq_abs _).le.trans (h2 j k)

theorem close_zero {δ : ℝ} (hδ : 0 ≤ δ) : Close δ (0 : Vec d) 0 := fun k => by simpa using hδ

theorem Near.params {δ : ℝ} (hδ : 0 ≤ δ) {s₁ s₂ : DMP d m} (h : Near δ s₁ s₂) :
    ‖s₁.positionParams - s₂.positionParams‖ ≤ δ := by
  refine norm_params_le hδ (fun j => ?_) h.weights
  fin_cases j
  · exact h.start
  · exact close_zero hδ
  · exact close_zero hδ
  · exact h.goal
  · exact close_zero hδ
  · exact close_zero hδ

theorem NearMotion.params {δ : ℝ} (hδ : 0 ≤ δ) {s₁ s₂ : DMP d m} (h : NearMotion δ s₁ s₂) :
    ‖s₁.motionParams - s₂.motionParams‖ ≤ δ := by
  refine norm_params_le hδ (fun j => ?_) h.weights
  fin_cases j
  · exact h.start
  · exact h.startYd
  · exact h.startYdd
  · exact h.goal
  · exact h.goalYd
  · exact h.goalYdd

theorem SameSystem.ft_eq {s₁ s₂ : DMP d m} (h : s₁.SameSystem s₂) : { s₁.ft with weights := s₂.ft.weights } = s₂.ft :=
  h.ft.symm

end DMP

/-- The radius in which two objects are near is not negative. -/
theorem Spec.Close.nonneg {δ : ℝ} {x y : Vec d} (h : Close δ x y) (hd : 0 < d) : 0 ≤ δ :=
  (abs_nonneg _).trans (h ⟨0, hd⟩)

/-- Lipschitz continuity of `open_loop` for every DMP whose phase decays. -/
theorem DMP.openLoop_lipschitz {s : DMP d m} (hm : 1 < m) (hα : 0 < s.ft.alphaZ) (hft : s.ft.startT < s.ft.goalT)
    (hτ : 0 < s.executionTime) {name : String} {sf : StepFunction}
    (hname : StepFunction.lookup name = .ok sf) (hdt : 0 < s.dt) (hgain : ∀ k, 0 < s.alphaY k ∧ 0 < s.betaY k)
    (hst : ∀ k, Spec.Stable sf s.dt s.intDt s.executionTime (s.alphaY k) (s.betaY k)) :
    ∃ K : ℝ, 0 ≤ K ∧ ∀ (δ : ℝ) (s₁ s₂ : DMP d m), s.SameSystem s₁ → DMP.Near δ s₁ s₂ → ∀ runT r₁ r₂,
      ((DMP.openLoop runT none name).exec s₁).1 = .ok r₁ → ((DMP.openLoop runT none name).exec s₂).1 = .ok r₂ →
      CloseRows (K * δ) r₁ r₂ := by
  rcases Nat.eq_zero_or_pos d with hd | hd
  · subst hd
    refine ⟨0, le_rfl, fun δ s₁ s₂ _ h runT r₁ r₂ h₁ h₂ => ?_⟩
    exact closeRows_of_index ((C101_open_loop h.system 1 0 runT name).2 r₁ r₂ h₁ h₂) (fun _ _ _ k => k.elim0)
  obtain ⟨K, hK0, hK⟩ := lipschitz_of_superposition (V := DMP.Params d m) (R := Option ℝ)
    (fun v rt => ((DMP.openLoop rt none name).exec (s.withParams v)).1)
    (fun p q v w rt => by
      have := (C101_open_loop (s.withParams_same v w) p q rt name).1
      rw [DMP.withParams_mix] at this
      exact this)
    (fun v w rt r₁ r₂ h₁ h₂ => (C101_open_loop (s.withParams_same v w) 1 0 rt name).2 r₁ r₂ h₁ h₂)
    (fun v => by
      let a := (s.withParams v).openLoopArgs none
      have haT : a.startT < a.goalT := hτ
      obtain ⟨xs, -, hx, -, hrows⟩ := openLoop_states (s := s.withParams v) hname hdt (fun i x => by
        refine run_returns a rfl rfl haT (hst ⟨0, hd⟩) ?_ ?_ x
        · have : 0 < s.dt := hdt
          show 0 + (i : ℝ) * s.dt ≤ 0 + (i + 1) * s.dt
          linarith
        · show (0 : ℝ) < 0 + (i + 1) * s.dt
          have : 0 < ((i : ℝ) + 1) * s.dt := by positivity
          linarith)
      have hlim : Tendsto xs atTop (𝓝 (a.goalY, 0)) := by
        refine run_tendsto a rfl rfl rfl haT hm hα hft (sf := sf) hdt (le_refl a.startT) hgain (fun k => ?_) hx
        show Spec.Stable sf s.dt s.intDt (s.executionTime - 0) _ _
        rw [sub_zero]; exact hst k
      obtain ⟨C, hC⟩ := bounded_of_tendsto hlim
      refine ⟨C, fun rt r hr y hy k => ?_⟩
      obtain ⟨i, hi, rfl⟩ := List.getElem_of_mem hy
      have hg := C20_open_loop_grid (s.withParams v) hdt rt none name (T := r.1) (Y := r.2) hr
      rw [(hrows rt r.1 r.2 hr i (by rw [← hg.1]; exact hi) hi).2]
      exact hC i k)
  refine ⟨K, hK0, fun δ s₁ s₂ hs₁ h runT r₁ r₂ h₁ h₂ => ?_⟩
  have hδ := h.start.nonneg hd
  have hs₂ := h.system
  have e₁ : (s.withParams s₁.positionParams).openLoopArgs none = s₁.openLoopArgs none := by
    unfold DMP.openLoopArgs DMP.withParams DMP.positionParams
    simp only [hs₁.ft_eq, hs₁.executionTime, hs₁.alphaY, hs₁.betaY, hs₁.intDt, hs₁.smooth]
    rfl
  have e₂ : (s.withParams s₂.positionParams).openLoopArgs none = s₂.openLoopArgs none := by
    have ef : { s.ft with weights := s₂.ft.weights } = s₂.ft := by
      rw [← hs₂.ft_eq, ← hs₁.ft_eq]
    unfold DMP.openLoopArgs DMP.withParams DMP.positionParams
    simp only [ef, hs₂.executionTime, hs₂.alphaY, hs₂.betaY, hs₂.intDt, hs₂.smooth, hs₁.executionTime, hs₁.alphaY, hs₁.betaY,
      hs₁.intDt, hs₁.smooth]
    rfl
  have h₁' : ((DMP.openLoop runT none name).exec (s.withParams s₁.positionParams)).1 = .ok r₁ := by
    rw [DMP.exec_openLoop, e₁, ← h₁, DMP.exec_openLoop, hs₁.dt]; rfl
  have h₂' : ((DMP.openLoop runT none name).exec (s.withParams s₂.positionParams)).1 = .ok r₂ := by
    rw [DMP.exec_openLoop, e₂, ← h₂, DMP.exec_openLoop, hs₂.dt, hs₁.dt]; rfl
  obtain ⟨q₁, q₂⟩ := hK _ _ runT r₁ r₂ h₁' h₂'
  refine closeRows_of_index q₁ fun i hi₁ hi₂ k => (q₂ i hi₁ hi₂ k).trans ?_
  exact mul_le_mul_of_nonneg_left (h.params hδ) hK0

/-- **C104 (open_loop).** For every DMP whose integrator is stable there is a constant `K` such that for all starts, goals
and weights, and all run times: if they are changed by at most `δ`, every row of the trajectory changes by at most `K * δ`.
The constant does not depend on the run time. -/
theorem C104_open_loop {s : DMP d m} (hs : s.Reachable) {name : String} {sf : StepFunction}
    (hname : StepFunction.lookup name = .ok sf) (hdt : 0 < s.dt) (hgain : ∀ k, 0 < s.alphaY k ∧ 0 < s.betaY k)
    (hst : ∀ k, Spec.Stable sf s.dt s.intDt s.executionTime (s.alphaY k) (s.betaY k)) :
    ∃ K : ℝ, 0 ≤ K ∧ ∀ (δ : ℝ) (s₁ s₂ : DMP d m), s.SameSystem s₁ → DMP.Near δ s₁ s₂ → ∀ runT r₁ r₂,
      ((DMP.openLoop runT none name).exec s₁).1 = .ok r₁ → ((DMP.openLoop runT none name).exec s₂).1 = .ok r₂ →
      CloseRows (K * δ) r₁ r₂ := by
  obtain ⟨hm, hα, hft⟩ := hs.valid.forcing
  exact DMP.openLoop_lipschitz hm hα hft hs.valid.pos.2 hname hdt hgain hst

/-- **C104 (final velocity).** The same for `DMPWithFinalVelocity`, where the trajectory also depends on the velocities and
accelerations at the start and at the goal. -/
theorem C104_fv_open_loop {s : FvDMP d m} (hs : FvDMP.Reachable s) (hdt : 0 < s.dt) (hint : 0 < s.intDt)
    (hgain : ∀ k, 0 < s.alphaY k ∧ 0 < s.betaY k)
    (hst : ∀ k, Spec.Stable .euler s.dt s.intDt s.executionTime (s.alphaY k) (s.betaY k)) :
    ∃ K : ℝ, 0 ≤ K ∧ ∀ (δ : ℝ) (s₁ s₂ : FvDMP d m), s.SameSystem s₁ → DMP.NearMotion δ s₁ s₂ → ∀ runT r₁ r₂,
      ((FvDMP.openLoop runT none).exec s₁).1 = .ok r₁ → ((FvDMP.openLoop runT none).exec s₂).1 = .ok r₂ →
      CloseRows (K * δ) r₁ r₂ := by
  rcases Nat.eq_zero_or_pos d with hd | hd
  · subst hd
    refine ⟨0, le_rfl, fun δ s₁ s₂ _ h runT r₁ r₂ h₁ h₂ => ?_⟩
    exact closeRows_of_index ((C101_fv_open_loop h.system 1 0 runT).2 r₁ r₂ h₁ h₂) (fun _ _ _ k => k.elim0)
  have hval := hs.valid
  obtain ⟨K, hK0, hK⟩ := lipschitz_of_superposition (V := DMP.Params d m) (R := Option ℝ)
    (fun v rt => ((FvDMP.openLoop rt none).exec (s.withParams v)).1)
    (fun p q v w rt => by
      have := (C101_fv_open_loop (s.withParams_same v w) p q rt).1
      rw [DMP.withParams_mix] at this
      exact this)
    (fun v w rt r₁ r₂ h₁ h₂ => (C101_fv_open_loop (s.withParams_same v w) 1 0 rt).2 r₁ r₂ h₁ h₂)
    (fun v => by
      have hv : (s.withParams v).Valid := hval.congr rfl rfl
      obtain ⟨hm, hα, hft⟩ := hv.forcing
      have hτ := hv.pos.2
      let a := FvDMP.openLoopArgs (s.withParams v) none
      have haT : a.startT < a.goalT := hτ
      have e0 : a.startT = 0 := rfl
      have hat : ∀ i : ℕ, arangeAt a.startT s.dt i = 0 + i * s.dt := fun i => rfl
      have hok : ∀ (i : ℕ) x, ∃ x', a.fvStep (arangeAt a.startT s.dt i) (arangeAt a.startT s.dt (i + 1)) x = .ok x' := by
        intro i x
        obtain ⟨c, h⟩ := a.fvStep_ok haT hint (lastT := arangeAt a.startT s.dt i) (t := arangeAt a.startT s.dt (i + 1)) (by
          rw [hat, e0]
          have : 0 < ((i + 1 : ℕ) : ℝ) * s.dt := by positivity
          linarith)
        exact ⟨_, h x⟩
      choose nxt hnxt using hok
      let xs : ℕ → Vec d × Vec d := fun i => Nat.rec (a.startY, a.startYd) (fun i x => nxt i x) i
      have hxs : ∀ i, xs (i + 1) = nxt i (xs i) := fun i => rfl
      have hlim : Tendsto xs atTop (𝓝 (a.goalY, 0)) := by
        refine a.fv_tendsto rfl rfl rfl haT hm hα hft (t0 := 0) hdt hint hgain (fun k => ?_) (fun i => ?_)
        · show Spec.Stable .euler s.dt s.intDt (s.executionTime - 0) _ _
          rw [sub_zero]; exact hst k
        · rw [hxs, ← hnxt, hat, hat]
          push_cast
          rfl
      obtain ⟨C, hC⟩ := bounded_of_tendsto hlim
      refine ⟨C, fun rt r hr y hy k => ?_⟩
      have hr' : openLoopWith a.goalT a.startT s.dt (a.startY, a.startYd) rt a.fvStep = .ok r := by
        rw [← hr, FvDMP.exec_openLoop]; rfl
      rw [openLoopWith_total (goalT := a.goalT) (runT := rt) hdt.ne' (start := (a.startY, a.startYd)) hnxt (xs := xs) rfl hxs]
        at hr'
      split_ifs at hr'
      injection hr' with hr'
      rw [← hr'] at hy
      obtain ⟨i, -, rfl⟩ := List.mem_map.1 hy
      exact hC i k)
  refine ⟨K, hK0, fun δ s₁ s₂ hs₁ h runT r₁ r₂ h₁ h₂ => ?_⟩
  have hδ := h.start.nonneg hd
  have hs₂ := h.system
  have e₁ : FvDMP.openLoopArgs (s.withParams s₁.motionParams) none = FvDMP.openLoopArgs s₁ none := by
    unfold FvDMP.openLoopArgs DMP.stepArgs DMP.withParams DMP.motionParams
    simp only [hs₁.ft_eq, hs₁.executionTime, hs₁.alphaY, hs₁.betaY, hs₁.intDt, hs₁.smooth]
    rfl
  have e₂ : FvDMP.openLoopArgs (s.withParams s₂.motionParams) none = FvDMP.openLoopArgs s₂ none := by
    have ef : { s.ft with weights := s₂.ft.weights } = s₂.ft := by
      rw [← hs₂.ft_eq, ← hs₁.ft_eq]
    unfold FvDMP.openLoopArgs DMP.stepArgs DMP.withParams DMP.motionParams
    simp only [ef, hs₂.executionTime, hs₂.alphaY, hs₂.betaY, hs₂.intDt, hs₂.smooth, hs₁.executionTime, hs₁.alphaY, hs₁.betaY,
      hs₁.intDt, hs₁.smooth]
    rfl
  have h₁' : ((FvDMP.openLoop runT none).exec (s.withParams s₁.motionParams)).1 = .ok r₁ := by
    rw [FvDMP.exec_openLoop, e₁, ← h₁, FvDMP.exec_openLoop, hs₁.dt]; rfl
  have h₂' : ((FvDMP.openLoop runT none).exec (s.withParams s₂.motionParams)).1 = .ok r₂ := by
    rw [FvDMP.exec_openLoop, e₂, ← h₂, FvDMP.exec_openLoop, hs₂.dt, hs₁.dt]; rfl
  obtain ⟨q₁, q₂⟩ := hK _ _ runT r₁ r₂ h₁' h₂'
  refine closeRows_of_index q₁ fun i hi₁ hi₂ k => (q₂ i hi₁ hi₂ k).trans ?_
  exact mul_le_mul_of_nonneg_left (h.params hδ) hK0


/-! ## Imitation -/

/-- A linear function of finitely many parameters is bounded. -/
theorem linear_bound {V W : Type} [NormedAddCommGroup V] [NormedSpace ℝ V] [FiniteDimensional ℝ V] [NormedAddCommGroup W]
    [NormedSpace ℝ W] (f : V → W) (hf : ∀ (p q : ℝ) v w, f (p • v + q • w) = p • f v + q • f w) :
    ∃ K : ℝ, 0 ≤ K ∧ ∀ v w, ‖f v - f w‖ ≤ K * ‖v - w‖ := by
  let L : V →ₗ[ℝ] W :=
    { toFun := f
      map_add' := fun v w => by simpa using hf 1 1 v w
      map_smul' := fun c v => by simpa using hf c 0 v 0 }
  refine ⟨‖LinearMap.toContinuousLinearMap L‖, norm_nonneg _, fun v w => ?_⟩
  have := (LinearMap.toContinuousLinearMap L).le_opNorm (v - w)
  rw [map_sub] at this
  exact this

theorem DMP.motionParams_mix (p q : ℝ) (s₁ s₂ : DMP d m) :
    (s₁.mix p q s₂).motionParams = p • s₁.motionParams + q • s₂.motionParams := by
  unfold motionParams DMP.mix Movement.mix ForcingTerm.mix
  refine Prod.ext ?_ ?_
  · funext j
    fin_cases j <;> rfl
  · rfl

theorem DMP.close_of_params {s₁ s₂ : DMP d m} {δ : ℝ} (h : ‖s₁.motionParams - s₂.motionParams‖ ≤ δ) :
    (∀ j, Close δ (s₁.motionParams.1 j) (s₂.motionParams.1 j)) ∧ CloseWeights δ s₁.ft.weights s₂.ft.weights := by
  have hδ : 0 ≤ δ := (norm_nonneg _).trans h
  constructor
  · intro j k
    have h1 := (norm_fst_le _).trans h
    have h2 := (pi_norm_le_iff_of_nonneg hδ).1 h1 j
    exact (pi_norm_le_iff_of_nonneg hδ).1 h2 k
  · intro k i
    have h1 := (norm_snd_le _).trans h
    have h2 := (pi_norm_le_iff_of_nonneg hδ).1 h1 k
    exact (pi_norm_le_iff_of_nonneg hδ).1 h2 i

theorem norm_rows_le {Y₁ Y₂ : Fin (n + 2) → Vec d} {δ : ℝ} (hδ : 0 ≤ δ) (h : ∀ t, Close δ (Y₁ t) (Y₂ t)) :
    ‖Y₁ - Y₂‖ ≤ δ := by
  rw [pi_norm_le_iff_of_nonneg hδ]
  intro t
  rw [pi_norm_le_iff_of_nonneg hδ]
  intro k
  exact (Real.norm_eq_abs _).le.trans (h t k)

/-- What `imitate` does to an object. -/
theorem DMP.imitate_result (s : DMP d m) (T : Fin (n + 2) → ℝ) (Y : Fin (n + 2) → Vec d) (reg : ℝ) (afv : Bool) :
    (∃ e, dmpImitate m T Y reg s.alphaY s.betaY s.ft.overlap s.ft.alphaZ afv s.smooth = .error e ∧
      (DMP.imitate T Y reg afv).exec s = (.error e, s)) ∨
    ∃ w, dmpImitate m T Y reg s.alphaY s.betaY s.ft.overlap s.ft.alphaZ afv s.smooth =
        .ok (w, Y 0, Y (Fin.last _)) ∧ (DMP.imitate T Y reg afv).exec s =
      (.ok (), { s with startY := Y 0, goalY := Y (Fin.last _), ft := { s.ft with weights := w } }) := by
  rw [DMP.exec_imitate]
  unfold dmpImitate
  cases h : dmpImitateWith m T reg s.ft.overlap s.ft.alphaZ
    (.ok (determineForces T Y s.alphaY s.betaY s.ft.alphaZ afv s.smooth)) with
  | error e => exact .inl ⟨e, rfl, rfl⟩
  | ok w =>
    refine .inr ⟨w, rfl, ?_⟩
    simp only [DMP.exec_configure, movement_configure_rows]
    rfl


/-- **C104 (imitate).** Whatever the time stamps and the regularisation, there is a constant `K` such that for all
demonstrations: if all positions of the demonstration are changed by at most `δ`, the learned weights, start and goal change
by at most `K * δ`, and an exception is raised for both demonstrations or for none. -/
theorem C104_imitate (s : DMP d m) (T : Fin (n + 2) → ℝ) (reg : ℝ) (afv : Bool) :
    ∃ K : ℝ, 0 ≤ K ∧ ∀ (δ : ℝ) (Y₁ Y₂ : Fin (n + 2) → Vec d), 0 ≤ δ → (∀ t, Close δ (Y₁ t) (Y₂ t)) →
      let r₁ := (DMP.imitate T Y₁ reg afv).exec s
      let r₂ := (DMP.imitate T Y₂ reg afv).exec s
      r₁.1 = r₂.1 ∧ DMP.Near (K * δ) r₁.2 r₂.2 ∧ s.SameSystem r₁.2 := by
  set s0 := s.withParams 0 with hs0
  have hmix : ∀ p q : ℝ, s0.mix p q s0 = s0 := fun p q => by rw [hs0, DMP.withParams_mix]; simp
  have hsame : s0.SameSystem s0 := s.withParams_same 0 0
  obtain ⟨K, hK0, hK⟩ := linear_bound (fun Y : Fin (n + 2) → Vec d => ((DMP.imitate T Y reg afv).exec s0).2.motionParams)
    (fun p q Y₁ Y₂ => by
      have h := (C101_imitate hsame p q T Y₁ Y₂ reg afv).2.2.1
      rw [hmix] at h
      rw [← DMP.motionParams_mix, ← h]
      rfl)
  refine ⟨K, hK0, fun δ Y₁ Y₂ hδ hY => ?_⟩
  intro r₁ r₂
  have hb := (hK Y₁ Y₂).trans (mul_le_mul_of_nonneg_left (norm_rows_le hδ hY) hK0)
  obtain ⟨c1, c2⟩ := DMP.close_of_params hb
  have herr := (C101_imitate hsame 1 0 T Y₁ Y₂ reg afv).2.1
  have g : ∀ Y, (∃ e, (DMP.imitate T Y reg afv).exec s = (.error e, s) ∧ (DMP.imitate T Y reg afv).exec s0 = (.error e, s0)) ∨
      ∃ w, (DMP.imitate T Y reg afv).exec s =
        (.ok (), { s with startY := Y 0, goalY := Y (Fin.last _), ft := { s.ft with weights := w } }) ∧
        (DMP.imitate T Y reg afv).exec s0 =
        (.ok (), { s0 with startY := Y 0, goalY := Y (Fin.last _), ft := { s0.ft with weights := w } }) := by
    intro Y
    have e : dmpImitate m T Y reg s0.alphaY s0.betaY s0.ft.overlap s0.ft.alphaZ afv s0.smooth =
      dmpImitate m T Y reg s.alphaY s.betaY s.ft.overlap s.ft.alphaZ afv s.smooth := rfl
    rcases s.imitate_result T Y reg afv with ⟨e₁, a₁, b₁⟩ | ⟨w₁, a₁, b₁⟩ <;>
      rcases s0.imitate_result T Y reg afv with ⟨e₂, a₂, b₂⟩ | ⟨w₂, a₂, b₂⟩
    · rw [e, a₁] at a₂; injection a₂ with a₂; subst a₂
      exact .inl ⟨e₁, b₁, b₂⟩
    · rw [e, a₁] at a₂; cases a₂
    · rw [e, a₁] at a₂; cases a₂
    · rw [e, a₁] at a₂; injection a₂ with a₂; injection a₂ with a₂ a₃; subst a₂
      exact .inr ⟨w₁, b₁, b₂⟩
  have hKδ : 0 ≤ K * δ := mul_nonneg hK0 hδ
  rcases g Y₁ with ⟨e₁, a₁, b₁⟩ | ⟨w₁, a₁, b₁⟩ <;> rcases g Y₂ with ⟨e₂, a₂, b₂⟩ | ⟨w₂, a₂, b₂⟩
  · rw [b₁, b₂] at herr
    simp only [r₁, r₂, a₁, a₂]
    refine ⟨herr.symm, ⟨⟨rfl, rfl, rfl, rfl, rfl, rfl, rfl, rfl, rfl, rfl, rfl⟩, ?_, ?_, ?_⟩,
      ⟨rfl, rfl, rfl, rfl, rfl, rfl, rfl, rfl, rfl, rfl, rfl⟩⟩
    · intro k; simpa using hKδ
    · intro k; simpa using hKδ
    · intro k i; simpa using hKδ
  · rw [b₁, b₂] at herr; cases herr
  · rw [b₁, b₂] at herr; cases herr
  · rw [b₁, b₂] at c1 c2
    simp only [r₁, r₂, a₁, a₂]
    exact ⟨trivial, ⟨⟨rfl, rfl, rfl, rfl, rfl, rfl, rfl, rfl, rfl, rfl, rfl⟩, c1 0, c1 3, c2⟩,
      ⟨rfl, rfl, rfl, rfl, rfl, rfl, rfl, rfl, rfl, rfl, rfl⟩⟩

/-- **C104 (reproduction).** A small change of the demonstration has a small effect on its reproduction: there is a constant
`K` such that for all pairs of demonstrations with the same time stamps whose positions differ by at most `δ`, the
trajectories generated after learning from one and from the other differ by at most `K * δ`, for every run time. -/
theorem C104_reproduction {s : DMP d m} (hs : s.Reachable) {name : String} {sf : StepFunction}
    (hname : StepFunction.lookup name = .ok sf) (hdt : 0 < s.dt) (hgain : ∀ k, 0 < s.alphaY k ∧ 0 < s.betaY k)
    (hst : ∀ k, Spec.Stable sf s.dt s.intDt s.executionTime (s.alphaY k) (s.betaY k)) (T : Fin (n + 2) → ℝ) (reg : ℝ)
    (afv : Bool) :
    ∃ K : ℝ, 0 ≤ K ∧ ∀ (δ : ℝ) (Y₁ Y₂ : Fin (n + 2) → Vec d), 0 ≤ δ → (∀ t, Close δ (Y₁ t) (Y₂ t)) → ∀ runT r₁ r₂,
      ((DMP.openLoop runT none name).exec ((DMP.imitate T Y₁ reg afv).exec s).2).1 = .ok r₁ →
      ((DMP.openLoop runT none name).exec ((DMP.imitate T Y₂ reg afv).exec s).2).1 = .ok r₂ → CloseRows (K * δ) r₁ r₂ := by
  obtain ⟨K, hK0, hK⟩ := C104_open_loop hs hname hdt hgain hst
  obtain ⟨L, hL0, hL⟩ := C104_imitate s T reg afv
  refine ⟨K * L, mul_nonneg hK0 hL0, fun δ Y₁ Y₂ hδ hY runT r₁ r₂ h₁ h₂ => ?_⟩
  obtain ⟨-, hn, hsys⟩ := hL δ Y₁ Y₂ hδ hY
  rw [mul_assoc]
  exact hK _ _ _ hsys hn runT r₁ r₂ h₁ h₂

/-! ## Imitation with final velocity -/

theorem FvDMP.imitate_result (s : FvDMP d m) (T : Fin (n + 2) → ℝ) (Y : Fin (n + 2) → Vec d) (reg : ℝ) :
    (∃ e, dmpImitateWith m T reg s.ft.overlap s.ft.alphaZ (fvDetermineForces T Y s.alphaY s.betaY) = .error e ∧
      (FvDMP.imitate T Y reg).exec s = (.error e, s)) ∨
    ∃ w, dmpImitateWith m T reg s.ft.overlap s.ft.alphaZ (fvDetermineForces T Y s.alphaY s.betaY) = .ok w ∧
      (FvDMP.imitate T Y reg).exec s =
      (.ok (), { s with
        startY := Y 0
        startYd := fvYd T Y 0
        startYdd := fvYdd T Y 0
        goalY := Y (Fin.last _)
        goalYd := fvYd T Y (Fin.last _)
        goalYdd := fvYdd T Y (Fin.last _)
        ft := { s.ft with weights := w } }) := by
  rw [FvDMP.exec_imitate]
  cases h : dmpImitateWith m T reg s.ft.overlap s.ft.alphaZ (fvDetermineForces T Y s.alphaY s.betaY) with
  | error e => exact .inl ⟨e, rfl, rfl⟩
  | ok w =>
    refine .inr ⟨w, rfl, ?_⟩
    simp only [DMP.exec_configure, movement_configure_all]

/-- **C104 (final velocity, imitate).** The same for `DMPWithFinalVelocity`, which also learns velocities and accelerations at
the start and at the end of the demonstration. -/
theorem C104_fv_imitate (s : FvDMP d m) (T : Fin (n + 2) → ℝ) (reg : ℝ) :
    ∃ K : ℝ, 0 ≤ K ∧ ∀ (δ : ℝ) (Y₁ Y₂ : Fin (n + 2) → Vec d), 0 ≤ δ → (∀ t, Close δ (Y₁ t) (Y₂ t)) →
      let r₁ := (FvDMP.imitate T Y₁ reg).exec s
      let r₂ := (FvDMP.imitate T Y₂ reg).exec s
      r₁.1 = r₂.1 ∧ DMP.NearMotion (K * δ) r₁.2 r₂.2 ∧ s.SameSystem r₁.2 := by
  set s0 : FvDMP d m := s.withParams 0 with hs0
  have hmix : ∀ p q : ℝ, s0.mix p q s0 = s0 := fun p q => by rw [hs0, DMP.withParams_mix]; simp
  have hsame : s0.SameSystem s0 := s.withParams_same 0 0
  obtain ⟨K, hK0, hK⟩ := linear_bound (fun Y : Fin (n + 2) → Vec d => ((FvDMP.imitate T Y reg).exec s0).2.motionParams)
    (fun p q Y₁ Y₂ => by
      have h := (C101_fv_imitate hsame p q T Y₁ Y₂ reg).2.2.1
      rw [hmix] at h
      rw [← DMP.motionParams_mix, ← h]
      rfl)
  refine ⟨K, hK0, fun δ Y₁ Y₂ hδ hY => ?_⟩
  intro r₁ r₂
  have hb := (hK Y₁ Y₂).trans (mul_le_mul_of_nonneg_left (norm_rows_le hδ hY) hK0)
  obtain ⟨c1, c2⟩ := DMP.close_of_params hb
  have herr := (C101_fv_imitate hsame 1 0 T Y₁ Y₂ reg).2.1
  have e : ∀ Y, dmpImitateWith m T reg s0.ft.overlap s0.ft.alphaZ (fvDetermineForces T Y s0.alphaY s0.betaY) =
    dmpImitateWith m T reg s.ft.overlap s.ft.alphaZ (fvDetermineForces T Y s.alphaY s.betaY) := fun _ => rfl
  have hKδ : 0 ≤ K * δ := mul_nonneg hK0 hδ
  rcases FvDMP.imitate_result s T Y₁ reg with ⟨e₁, a₁, b₁⟩ | ⟨w₁, a₁, b₁⟩ <;>
    rcases FvDMP.imitate_result s T Y₂ reg with ⟨e₂, a₂, b₂⟩ | ⟨w₂, a₂, b₂⟩ <;>
    rcases FvDMP.imitate_result s0 T Y₁ reg with ⟨e₃, a₃, b₃⟩ | ⟨w₃, a₃, b₃⟩ <;>
    rcases FvDMP.imitate_result s0 T Y₂ reg with ⟨e₄, a₄, b₄⟩ | ⟨w₄, a₄, b₄⟩ <;>
    rw [e, a₁] at a₃ <;> rw [e, a₂] at a₄ <;> rw [b₃, b₄] at herr <;> try (first | (cases a₃; done) | (cases a₄; done) | (cases herr; done))
  · cases a₃; cases a₄
    simp only [r₁, r₂, b₁, b₂]
    have hc : ∀ x : Vec d, Close (K * δ) x x := fun x k => by simpa using hKδ
    refine ⟨herr.symm, ⟨⟨⟨rfl, rfl, rfl, rfl, rfl, rfl, rfl, rfl, rfl, rfl, rfl⟩, hc _, hc _, ?_⟩, hc _, hc _, hc _, hc _⟩,
      ⟨rfl, rfl, rfl, rfl, rfl, rfl, rfl, rfl, rfl, rfl, rfl⟩⟩
    intro k i; simpa using hKδ
  · cases a₃; cases a₄
    rw [b₃, b₄] at c1 c2
    simp only [r₁, r₂, b₁, b₂]
    exact ⟨trivial, ⟨⟨⟨rfl, rfl, rfl, rfl, rfl, rfl, rfl, rfl, rfl, rfl, rfl⟩, c1 0, c1 3, c2⟩, c1 1, c1 2, c1 4, c1 5⟩,
      ⟨rfl, rfl, rfl, rfl, rfl, rfl, rfl, rfl, rfl, rfl, rfl⟩⟩

/-- **C104 (final velocity, reproduction).** -/
theorem C104_fv_reproduction {s : FvDMP d m} (hs : FvDMP.Reachable s) (hdt : 0 < s.dt) (hint : 0 < s.intDt)
    (hgain : ∀ k, 0 < s.alphaY k ∧ 0 < s.betaY k)
    (hst : ∀ k, Spec.Stable .euler s.dt s.intDt s.executionTime (s.alphaY k) (s.betaY k)) (T : Fin (n + 2) → ℝ) (reg : ℝ) :
    ∃ K : ℝ, 0 ≤ K ∧ ∀ (δ : ℝ) (Y₁ Y₂ : Fin (n + 2) → Vec d), 0 ≤ δ → (∀ t, Close δ (Y₁ t) (Y₂ t)) → ∀ runT r₁ r₂,
      ((FvDMP.openLoop runT none).exec ((FvDMP.imitate T Y₁ reg).exec s).2).1 = .ok r₁ →
      ((FvDMP.openLoop runT none).exec ((FvDMP.imitate T Y₂ reg).exec s).2).1 = .ok r₂ → CloseRows (K * δ) r₁ r₂ := by
  obtain ⟨K, hK0, hK⟩ := C104_fv_open_loop hs hdt hint hgain hst
  obtain ⟨L, hL0, hL⟩ := C104_fv_imitate s T reg
  refine ⟨K * L, mul_nonneg hK0 hL0, fun δ Y₁ Y₂ hδ hY runT r₁ r₂ h₁ h₂ => ?_⟩
  obtain ⟨-, hn, hsys⟩ := hL δ Y₁ Y₂ hδ hY
  rw [mul_assoc]
  exact hK _ _ _ hsys hn runT r₁ r₂ h₁ h₂

/-! ## Spring-damper systems -/

namespace SpringDamper

/-- The system of `s` with other start and goal. -/
def withParams (s : SpringDamper d) (v : Vec d × Vec d) : SpringDamper d :=
  { s with
    startY := v.1, startYd := 0, startYdd := 0, goalY := v.2, goalYd := 0, goalYdd := 0, currentY := 0, currentYd := 0 }

theorem withParams_mix (s : SpringDamper d) (p q : ℝ) (v w : Vec d × Vec d) :
    (s.withParams v).mix p q (s.withParams w) = s.withParams (p • v + q • w) := by
  unfold withParams SpringDamper.mix Movement.mix
  simp only [mix_zero]
  rfl

end SpringDamper

/-- **C104 (spring-damper).** The same for spring-damper systems. -/
theorem C104_spring_damper_open_loop {s : SpringDamper d} (hst : StableSpring s.k (damping s.k s.c) s.dt s.intDt) :
    ∃ K : ℝ, 0 ≤ K ∧ ∀ (δ : ℝ) (s₁ s₂ : SpringDamper d), s.SameSystem s₁ → SpringDamper.Near δ s₁ s₂ → ∀ runT r₁ r₂,
      ((SpringDamper.openLoop runT none).exec s₁).1 = .ok r₁ → ((SpringDamper.openLoop runT none).exec s₂).1 = .ok r₂ →
      CloseRows (K * δ) r₁ r₂ := by
  obtain ⟨hk, hc, hdt, hint, -⟩ := id hst
  have hsame : ∀ v w, (s.withParams v).SameSystem (s.withParams w) := fun v w => ⟨rfl, rfl, rfl, rfl, rfl, rfl, rfl⟩
  obtain ⟨K, hK0, hK⟩ := lipschitz_of_superposition (V := Vec d × Vec d) (R := ℝ)
    (fun v rt => ((SpringDamper.openLoop rt none).exec (s.withParams v)).1)
    (fun p q v w rt => by
      have := (C101_spring_damper_open_loop (hsame v w) p q rt).1
      rw [SpringDamper.withParams_mix] at this
      exact this)
    (fun v w rt r₁ r₂ h₁ h₂ => (C101_spring_damper_open_loop (hsame v w) 1 0 rt).2 r₁ r₂ h₁ h₂)
    (fun v => by
      let nxt : ℕ → Vec d × Vec d → Vec d × Vec d := fun i x =>
        (subSteps s.intDt (arangeAt 0 s.dt (i + 1)) (arangeAt 0 s.dt i)).foldl
          (fun x p => springDamperBody v.2 s.k (damping s.k s.c) none none p.1 p.2 x) x
      have hnxt : ∀ i x, springDamperStep v.2 s.k s.c none none s.intDt (arangeAt 0 s.dt i) (arangeAt 0 s.dt (i + 1)) x =
          .ok (nxt i x) := fun i x => springDamperStep_eq _ _ _ _ _ hint _ _ _
      let xs : ℕ → Vec d × Vec d := fun i => Nat.rec (v.1, 0) (fun i x => nxt i x) i
      have hxs : ∀ i, xs (i + 1) = nxt i (xs i) := fun i => rfl
      have hlim : Tendsto xs atTop (𝓝 (v.2, 0)) := by
        refine springDamper_tendsto hst 0 (fun i => ?_)
        have := hnxt i (xs i)
        rw [← hxs] at this
        simp only [arangeAt] at this
        push_cast at this
        exact this
      have hol : ∀ r, ((SpringDamper.openLoop r none).exec (s.withParams v)).1 =
          if arangeLen 0 (r + s.dt) s.dt = 0 then .error .indexError
          else .ok ((List.range (arangeLen 0 (r + s.dt) s.dt)).map (arangeAt 0 s.dt),
            (List.range (arangeLen 0 (r + s.dt) s.dt)).map (fun i => (xs i).1)) := fun r =>
        openLoopWith_total (goalT := r) (startT := 0) (runT := some r) hdt.ne' hnxt rfl hxs
      obtain ⟨C, hC⟩ := bounded_of_tendsto hlim
      refine ⟨C, fun rt r hr y hy k => ?_⟩
      rw [hol] at hr
      split_ifs at hr
      injection hr with hr
      rw [← hr] at hy
      obtain ⟨i, -, rfl⟩ := List.mem_map.1 hy
      exact hC i k)
  refine ⟨K, hK0, fun δ s₁ s₂ hs₁ h runT r₁ r₂ h₁ h₂ => ?_⟩
  rcases Nat.eq_zero_or_pos d with hd | hd
  · subst hd
    exact closeRows_of_index ((C101_spring_damper_open_loop h.system 1 0 runT).2 r₁ r₂ h₁ h₂) (fun _ _ _ k => k.elim0)
  have hδ := h.start.nonneg hd
  have hs₂ := h.system
  have hrun : ∀ (a b : SpringDamper d), a.startY = b.startY → a.goalY = b.goalY → a.k = b.k → a.c = b.c → a.dt = b.dt →
      a.intDt = b.intDt → ((SpringDamper.openLoop runT none).exec a).1 = ((SpringDamper.openLoop runT none).exec b).1 := by
    intro a b q1 q2 q3 q4 q5 q6
    show openLoopWith runT 0 a.dt (a.startY, 0) (some runT) (springDamperStep a.goalY a.k a.c none none a.intDt) =
      openLoopWith runT 0 b.dt (b.startY, 0) (some runT) (springDamperStep b.goalY b.k b.c none none b.intDt)
    rw [q1, q2, q3, q4, q5, q6]
  have h₁' : ((SpringDamper.openLoop runT none).exec (s.withParams (s₁.startY, s₁.goalY))).1 = .ok r₁ := by
    rw [← h₁]
    exact hrun _ _ rfl rfl hs₁.k.symm hs₁.c.symm hs₁.dt.symm hs₁.intDt.symm
  have h₂' : ((SpringDamper.openLoop runT none).exec (s.withParams (s₂.startY, s₂.goalY))).1 = .ok r₂ := by
    rw [← h₂]
    exact hrun _ _ rfl rfl (hs₂.k.trans hs₁.k).symm (hs₂.c.trans hs₁.c).symm (hs₂.dt.trans hs₁.dt).symm
      (hs₂.intDt.trans hs₁.intDt).symm
  obtain ⟨q₁, q₂⟩ := hK _ _ runT r₁ r₂ h₁' h₂'
  refine closeRows_of_index q₁ fun i hi₁ hi₂ k => (q₂ i hi₁ hi₂ k).trans ?_
  refine mul_le_mul_of_nonneg_left ?_ hK0
  rw [Prod.norm_def, max_le_iff, pi_norm_le_iff_of_nonneg hδ, pi_norm_le_iff_of_nonneg hδ]
  exact ⟨fun k => (Real.norm_eq_abs _).le.trans (h.start k), fun k => (Real.norm_eq_abs _).le.trans (h.goal k)⟩

/-! ## Non-vacuity -/

/-- Defaults meet the hypotheses of C104; objects that differ by `δ` and trajectories exist. -/
example (δ : ℝ) (hδ : 0 ≤ δ) : ∃ s s' : DMP 2 10, s.Reachable ∧ 0 < s.dt ∧ (∀ k, 0 < s.alphaY k ∧ 0 < s.betaY k) ∧
    (∀ k, Spec.Stable .rk4 s.dt s.intDt s.executionTime (s.alphaY k) (s.betaY k)) ∧ s.SameSystem s ∧ DMP.Near δ s s' ∧
    (∀ k, s'.startY k = s.startY k + δ) ∧ ∃ r r', ((DMP.openLoop (some 2) none "rk4").exec s).1 = .ok r ∧
      ((DMP.openLoop (some 2) none "rk4").exec s').1 = .ok r' := by
  obtain ⟨s, hs, h1, h2, h3, h4, h5, h6, h7, h8, h9, h10, h11, h12, h13⟩ :=
    DMP.create_ok 2 10 (by norm_num) one_pos (1 / 100) (1 / 1000) 0 false 25 (25 / 4)
  have hst : ∀ k, Spec.Stable .rk4 s.dt s.intDt s.executionTime (s.alphaY k) (s.betaY k) := by
    intro k
    rw [h1, h2, h11, h12]
    exact .rk4 (.inl rfl) (by norm_num) (by norm_num)
  have hdt : 0 < s.dt := by rw [h2]; norm_num
  have hg : ∀ k, 0 < s.alphaY k ∧ 0 < s.betaY k := by
    intro k
    rw [h11, h12]
    norm_num
  let s' : DMP 2 10 := { s with startY := fun k => s.startY k + δ }
  refine ⟨s, s', .create hs, hdt, hg, hst, ⟨rfl, rfl, rfl, rfl, rfl, rfl, rfl, rfl, rfl, rfl, rfl⟩,
    ⟨⟨rfl, rfl, rfl, rfl, rfl, rfl, rfl, rfl, rfl, rfl, rfl⟩, ?_, ?_, ?_⟩, fun _ => rfl, ?_⟩
  · intro k
    show |s.startY k - (s.startY k + δ)| ≤ δ
    rw [sub_add_cancel_left, abs_neg, abs_of_nonneg hδ]
  · intro k; simpa [s'] using hδ
  · intro k i; simpa [s'] using hδ
  · obtain ⟨T, Y, e⟩ := (openLoop_tendsto (.create hs) (name := "rk4") rfl hdt (by norm_num) hg hst).1 2 (by norm_num)
    have h := C101_open_loop (s₁ := s) (s₂ := s') ⟨rfl, rfl, rfl, rfl, rfl, rfl, rfl, rfl, rfl, rfl, rfl⟩ 1 0 (some 2) "rk4"
    refine ⟨(T, Y), ?_⟩
    cases e' : ((DMP.openLoop (some 2) none "rk4").exec s').1 with
    | ok r' => exact ⟨r', e, rfl⟩
    | error x =>
      exfalso
      have h1 := h.1
      rw [DMP.mix_one_zero] at h1
      simp only [e, e', Except.bind, Except.map] at h1
      cases h1

end Verif
