import Verif.Lemmas.DeviationDual
import Verif.Props.OrientationCartesian
import Verif.Props.DualTracking
import Verif.Spec.Disturbance
import Verif.Spec.Superposition
import Verif.Props.Tracking

/-! # C105: bounded disturbances have bounded effects -/

namespace Verif
open Spec Filter Topology
variable {d m : ℕ}

/-! ## Helper lemmas -/

/-- Arguments with which call `i` integrates. -/
theorem run_args {s : DMP d m} {sf : StepFunction}
    {obj : ℕ → DMP d m} {fb out : ℕ → Vec d × Vec d} (h0 : obj 0 = s) (hrun : Spec.Run (DMP.step none sf) obj fb out) (i : ℕ) :
    sf.run { s.stepArgs none 0 with trackingError := (obj i).beginStep.currentY - (fb i).1 }
        (s.t + i * s.dt) (s.t + i * s.dt + s.dt) ((obj i).beginStep.currentY, (obj i).beginStep.currentYd) =
      .ok ((obj (i + 1)).beginStep.currentY, (obj (i + 1)).beginStep.currentYd) := by
  subst h0
  obtain ⟨r1, r2⟩ := run_result hrun i
  rw [r2]
  obtain ⟨lt, y, yd, ini, hi⟩ := run_objects hrun i
  have e1 : (obj i).t = (obj 0).t + i * (obj 0).dt := by rw [hi]
  have e2 : (obj i).dt = (obj 0).dt := by rw [hi]
  have e3 : (obj i).beginStep.stepArgs none ((obj i).beginStep.currentY - (fb i).1) =
      { (obj 0).stepArgs none 0 with trackingError := (obj i).beginStep.currentY - (fb i).1 } := by
    simp only [DMP.stepArgs, DMP.beginStep]
    rw [hi]
  rw [e1, e2, e3] at r1
  exact r1

theorem FvDMP.run_args {s : FvDMP d m}
    {obj : ℕ → FvDMP d m} {fb out : ℕ → Vec d × Vec d} (h0 : obj 0 = s) (hrun : Spec.Run (FvDMP.step none) obj fb out) (i : ℕ) :
    ({ DMP.stepArgs s none 0 with trackingError := (obj i).beginStep.currentY - (fb i).1 } : StepArgs d m).fvStep
        (s.t + i * s.dt) (s.t + i * s.dt + s.dt) ((obj i).beginStep.currentY, (obj i).beginStep.currentYd) =
      .ok ((obj (i + 1)).beginStep.currentY, (obj (i + 1)).beginStep.currentYd) := by
  subst h0
  obtain ⟨r1, r2⟩ := FvDMP.run_result hrun i
  rw [r2]
  obtain ⟨lt, y, yd, ini, hi⟩ := FvDMP.run_objects hrun i
  have e1 : (obj i).t = (obj 0).t + i * (obj 0).dt := by rw [hi]
  have e2 : (obj i).dt = (obj 0).dt := by rw [hi]
  have e3 : (obj i).beginStep.stepArgs none ((obj i).beginStep.currentY - (fb i).1) =
      { DMP.stepArgs (obj 0) none 0 with trackingError := (obj i).beginStep.currentY - (fb i).1 } := by
    simp only [DMP.stepArgs, DMP.beginStep]
    rw [hi]
  rw [e1, e2, e3] at r1
  exact r1

theorem beginStep_held (s : DMP d m) : s.beginStep.currentY = heldPosition s := by
  unfold DMP.beginStep heldPosition; cases s.initialized <;> rfl

/-- Tracking errors are bounded by the disturbances. -/
theorem trackingError_le {δ : ℝ} {s : DMP d m} {obj : ℕ → DMP d m} {fb out : ℕ → Vec d × Vec d} (h0 : obj 0 = s)
    (hout : ∀ i, ((obj (i + 1)).beginStep.currentY, (obj (i + 1)).beginStep.currentYd) = out i)
    (hm : MeasuredPosition δ (heldPosition s) fb out) (i : ℕ) (k : Fin d) :
    |((obj i).beginStep.currentY - (fb i).1) k| ≤ δ := by
  cases i with
  | zero =>
    rw [Pi.sub_apply, abs_sub_comm, h0, beginStep_held]
    exact hm.1 k
  | succ i =>
    have : (obj (i + 1)).beginStep.currentY = (out i).1 := congrArg Prod.fst (hout i)
    rw [Pi.sub_apply, abs_sub_comm, this]
    exact hm.2 i k

/-! ## C105 -/

/-- **C105 (DMP).** For every DMP with a stable integrator there is a constant `K`, which does not depend on start, goal, state
and weights, such that feeding back positions that differ from the returned ones by at most `δ` instead of the returned ones
changes positions and velocities that `step` returns by at most `K * δ`, in all calls. -/
theorem C105_step (s : DMP d m) (hτ : 0 < s.executionTime) (hdt : 0 < s.dt) (ht : 0 ≤ s.t) {sf : StepFunction}
    (hgain : ∀ k, 0 < s.alphaY k ∧ 0 < s.betaY k)
    (hst : ∀ k, Spec.Stable sf s.dt s.intDt s.executionTime (s.alphaY k) (s.betaY k)) :
    ∃ K : ℝ, 0 ≤ K ∧ ∀ (s₂ : DMP d m), s.SameSystem s₂ → ∀ (δ : ℝ), 0 ≤ δ → ∀ obj fb out obj' fb' out',
      obj 0 = s₂ → Run (DMP.step none sf) obj fb out → MeasuredPosition 0 (heldPosition s₂) fb out →
      obj' 0 = s₂ → Run (DMP.step none sf) obj' fb' out' → MeasuredPosition δ (heldPosition s₂) fb' out' →
      ∀ i, StateWithin (K * δ) (out' i) (out i) := by
  have key : ∀ k, ∃ M : ℝ, 0 ≤ M ∧ ∀ (s₂ : DMP d m), s.SameSystem s₂ → ∀ (δ : ℝ), 0 ≤ δ → ∀ obj fb out obj' fb' out',
      obj 0 = s₂ → Run (DMP.step none sf) obj fb out → MeasuredPosition 0 (heldPosition s₂) fb out →
      obj' 0 = s₂ → Run (DMP.step none sf) obj' fb' out' → MeasuredPosition δ (heldPosition s₂) fb' out' →
      ∀ i, |(out' i).1 k - (out i).1 k| ≤ M * δ ∧ |(out' i).2 k - (out i).2 k| ≤ M * δ := by
    intro k
    obtain ⟨A, B, C, ρ, K, hA, hd, hρ0, hρ, hK, h⟩ := run_contraction (d := d) (m := m) s.pGain hτ hdt (hgain k).1 (hgain k).2 (hst k)
    obtain ⟨M, hM0, hM⟩ := bound_of_contraction hA hd hρ0 hρ hK
    refine ⟨M, hM0, ?_⟩
    intro s₂ hs δ hδ obj fb out obj' fb' out' h0 hrun hm h0' hrun' hm' i
    let xs : ℕ → Vec d × Vec d := fun i => ((obj i).beginStep.currentY, (obj i).beginStep.currentYd)
    let xs' : ℕ → Vec d × Vec d := fun i => ((obj' i).beginStep.currentY, (obj' i).beginStep.currentYd)
    have hout : ∀ i, xs (i + 1) = out i := fun i => (run_result hrun i).2
    have hout' : ∀ i, xs' (i + 1) = out' i := fun i => (run_result hrun' i).2
    have hb := hM δ (fun i => dev (xs' i) (xs i) k) hδ (by
      show dev (xs' 0) (xs 0) k = 0
      simp only [xs, xs', h0, h0', dev, sub_self]
      rfl) (by
      intro i
      have r := run_args h0 hrun i
      have r' := run_args h0' hrun' i
      rw [hs.dt] at r r'
      have hg : (s₂.stepArgs none 0).HasGains k s.intDt s.executionTime (s.alphaY k) (s.betaY k) s.pGain := by
        refine ⟨rfl, rfl, ?_, ?_, ?_, ?_, hs.intDt, hs.pGain⟩
        · show 0 < s₂.executionTime; rw [hs.executionTime]; exact hτ
        · show s₂.executionTime - 0 = _; rw [hs.executionTime, sub_zero]
        · show s₂.alphaY k = _; rw [hs.alphaY]
        · show s₂.betaY k = _; rw [hs.betaY]
      have ht' : (0 : ℝ) ≤ s₂.t + i * s.dt := by rw [hs.t]; positivity
      refine (h _ k _ _ hg _ ht' _ _ _ _ r r').trans ?_
      have e0 : ((obj i).beginStep.currentY - (fb i).1) k = 0 := by
        have := trackingError_le h0 hout hm i k
        exact abs_eq_zero.1 (le_antisymm this (abs_nonneg _))
      have e1 := trackingError_le h0' hout' hm' i k
      rw [e0, sub_zero]
      have e2 := sq_le_sq' (neg_le_of_abs_le e1) (le_of_abs_le e1)
      have e3 := mul_le_mul_of_nonneg_left e2 hK
      show ρ * qf A B C (dev (xs' i) (xs i) k) + _ ≤ _
      linarith) (i + 1)
    simp only [hout, hout'] at hb
    exact hb
  choose M hM0 hM using key
  refine ⟨∑ k, M k, Finset.sum_nonneg fun k _ => hM0 k, ?_⟩
  intro s₂ hs δ hδ obj fb out obj' fb' out' h0 hrun hm h0' hrun' hm' i
  have hle : ∀ k, M k * δ ≤ (∑ k, M k) * δ := fun k =>
    mul_le_mul_of_nonneg_right (Finset.single_le_sum (fun k _ => hM0 k) (Finset.mem_univ k)) hδ
  exact ⟨fun k => (hM k s₂ hs δ hδ obj fb out obj' fb' out' h0 hrun hm h0' hrun' hm' i).1.trans (hle k),
    fun k => (hM k s₂ hs δ hδ obj fb out obj' fb' out' h0 hrun hm h0' hrun' hm' i).2.trans (hle k)⟩

/-- **C105 (DMP, goal).** With feedback that is wrong by at most `δ` a DMP finally stays at the goal up to `K * δ`, with velocities
up to `K * δ`. -/
theorem C105_step_reaches {s : DMP d m} (hs : s.Reachable) (hdt : 0 < s.dt) (ht : 0 ≤ s.t) {sf : StepFunction}
    (hgain : ∀ k, 0 < s.alphaY k ∧ 0 < s.betaY k)
    (hst : ∀ k, Spec.Stable sf s.dt s.intDt s.executionTime (s.alphaY k) (s.betaY k)) :
    ∃ K : ℝ, 0 ≤ K ∧ ∀ (δ : ℝ), 0 ≤ δ → ∀ obj fb out, obj 0 = s → Run (DMP.step none sf) obj fb out →
      MeasuredPosition δ (heldPosition s) fb out → ∀ ε > 0, ∃ N, ∀ i ≥ N, StateWithin (K * δ + ε) (out i) (s.goalY, 0) := by
  obtain ⟨K, hK0, hK⟩ := C105_step s hs.valid.pos.2 hdt ht hgain hst
  refine ⟨K, hK0, fun δ hδ obj fb out h0 hrun hm ε hε => ?_⟩
  by_cases hd : Nonempty (Fin d)
  · obtain ⟨k⟩ := hd
    obtain ⟨obj₁, fb₁, out₁, h0₁, hrun₁, hm₁, hfb₁⟩ := runs_exist hs hdt ht k (hst k)
    have hlim := step_tendsto hs hdt ht hgain hst h0₁ hrun₁ (.inr ⟨hm₁, fun i => by rw [hfb₁]⟩)
    have hall : ∀ᶠ i in atTop, ∀ k, |(out₁ i).1 k - s.goalY k| < ε ∧ |(out₁ i).2 k| < ε := by
      rw [Filter.eventually_all]
      intro k
      have h1 : Tendsto (fun i => (out₁ i).1 k) atTop (𝓝 (s.goalY k)) :=
        (tendsto_pi_nhds.1 ((continuous_fst.tendsto _).comp hlim)) k
      have h2 : Tendsto (fun i => (out₁ i).2 k) atTop (𝓝 0) :=
        (tendsto_pi_nhds.1 ((continuous_snd.tendsto _).comp hlim)) k
      filter_upwards [Metric.tendsto_nhds.1 h1 ε hε, Metric.tendsto_nhds.1 h2 ε hε] with i e1 e2
      rw [Real.dist_eq] at e1 e2
      rw [sub_zero] at e2
      exact ⟨e1, e2⟩
    obtain ⟨N, hN⟩ := eventually_atTop.1 hall
    refine ⟨N, fun i hi => ?_⟩
    have hb := hK s ⟨rfl, rfl, rfl, rfl, rfl, rfl, rfl, rfl, rfl, rfl, rfl⟩ δ hδ obj₁ fb₁ out₁ obj fb out h0₁ hrun₁
      ⟨fun k => by rw [hm₁]; simp [heldPosition], fun i k => by rw [hfb₁]; simp⟩ h0 hrun hm i
    constructor
    · intro k
      have e1 := hb.1 k
      have e2 := (hN i hi k).1
      have := abs_sub_le ((out i).1 k) ((out₁ i).1 k) (s.goalY k)
      show |(out i).1 k - s.goalY k| ≤ _
      linarith
    · intro k
      have e1 := hb.2 k
      have e2 := (hN i hi k).2
      have := abs_sub_le ((out i).2 k) ((out₁ i).2 k) 0
      rw [sub_zero, sub_zero] at this
      show |(out i).2 k - 0| ≤ _
      rw [sub_zero]
      linarith
  · exact ⟨0, fun i _ => ⟨fun k => absurd ⟨k⟩ hd, fun k => absurd ⟨k⟩ hd⟩⟩

/-- Executions of a class whose `step` always returns exist for every way to disturb the states that are fed back. -/
theorem disturbed_run {σ : Type} {p v : ℕ} (step : Vec p → Vec v → Py σ (Vec p × Vec v)) (I : σ → Prop)
    (hstep : ∀ o y yd, I o → ∃ r o', (step y yd).exec o = (.ok r, o') ∧ I o') {s : σ} (hs : I s)
    (x0 : Vec p × Vec v) (n : ℕ → Vec p × Vec v) :
    ∃ obj fb out, obj 0 = s ∧ Run step obj fb out ∧ fb 0 = x0 + n 0 ∧ ∀ i, fb (i + 1) = out i + n (i + 1) := by
  classical
  let next : ℕ → σ × (Vec p × Vec v) → σ × (Vec p × Vec v) := fun i x =>
    let r := (step (x.2.1 + (n i).1) (x.2.2 + (n i).2)).exec x.1
    (r.2, match r.1 with | .ok y => y | .error _ => x.2)
  let tr : ℕ → σ × (Vec p × Vec v) := fun i => Nat.rec (s, x0) (fun i x => next i x) i
  have hsucc : ∀ i, tr (i + 1) = next i (tr i) := fun i => rfl
  have hinv : ∀ i, I (tr i).1 := by
    intro i
    induction i with
    | zero => exact hs
    | succ i ih =>
      obtain ⟨r, o', hr, ho⟩ := hstep (tr i).1 ((tr i).2.1 + (n i).1) ((tr i).2.2 + (n i).2) ih
      rw [hsucc]
      simp only [next, hr]
      exact ho
  refine ⟨fun i => (tr i).1, fun i => (tr i).2 + n i, fun i => (tr (i + 1)).2, rfl, ?_, rfl, fun i => rfl⟩
  intro i
  obtain ⟨r, o', hr, -⟩ := hstep (tr i).1 ((tr i).2.1 + (n i).1) ((tr i).2.2 + (n i).2) (hinv i)
  simp only [hsucc]
  show (step ((tr i).2.1 + (n i).1) ((tr i).2.2 + (n i).2)).exec (tr i).1 = _
  simp only [next, hr]

theorem within_add {p v : ℕ} {δ : ℝ} (x n : Vec p × Vec v) (h : (∀ k, |n.1 k| ≤ δ) ∧ ∀ k, |n.2 k| ≤ δ) : StateWithin δ (x + n) x :=
  ⟨fun k => by simpa using h.1 k, fun k => by simpa using h.2 k⟩

/-- Executions that are disturbed in any way exist from every object with a stable integrator. -/
theorem C105_runs_exist {s : DMP d m} (hs : s.Reachable) {sf : StepFunction} (hdt : 0 < s.dt) (ht : 0 ≤ s.t) (k : Fin d)
    (hst : Spec.Stable sf s.dt s.intDt s.executionTime (s.alphaY k) (s.betaY k)) {δ : ℝ} (n : ℕ → Vec d × Vec d)
    (hn : ∀ i, (∀ k, |(n i).1 k| ≤ δ) ∧ ∀ k, |(n i).2 k| ≤ δ) :
    ∃ obj fb out, obj 0 = s ∧ Run (DMP.step (m := m) none sf) obj fb out ∧ MeasuredPosition δ (heldPosition s) fb out ∧
      (fb 0).1 = heldPosition s + (n 0).1 ∧ ∀ i, fb (i + 1) = out i + n (i + 1) := by
  obtain ⟨obj, fb, out, h0, hrun, hf0, hf⟩ := disturbed_run (DMP.step (m := m) none sf) (fun o => o.Valid ∧ o.dt = s.dt ∧
    0 ≤ o.t ∧ o.intDt = s.intDt ∧ o.executionTime = s.executionTime ∧ o.alphaY = s.alphaY ∧ o.betaY = s.betaY) (by
      rintro o y yd ⟨h1, h2, h3, h4, h5, h6, h7⟩
      obtain ⟨r, hr⟩ := step_returns h1 (sf := sf) (by rw [h2]; exact hdt) h3 k (by rw [h2, h4, h5, h6, h7]; exact hst) y yd
      refine ⟨r, _, hr, h1.congr rfl rfl, h2, ?_, h4, h5, h6, h7⟩
      show 0 ≤ o.t + o.dt
      rw [h2]; linarith) (s := s) ⟨hs.valid, rfl, ht, rfl, rfl, rfl, rfl⟩ (heldPosition s, 0) n
  refine ⟨obj, fb, out, h0, hrun, ⟨fun k => ?_, fun i k => ?_⟩, by rw [hf0]; rfl, hf⟩
  · rw [hf0]; exact (within_add _ _ (hn 0)).1 k
  · rw [hf]; exact (within_add _ _ (hn (i + 1))).1 k

/-- The hypotheses of C105 hold, for instance, for a DMP with the gains of the code, gain 1 of the tracking error and sensors whose
deviation changes its sign in each call. -/
example : ∃ (s : DMP 2 10) (obj : ℕ → DMP 2 10) (fb out : ℕ → Vec 2 × Vec 2), s.Reachable ∧ 0 < s.dt ∧ 0 ≤ s.t ∧ s.pGain = 1 ∧
    (∀ k, 0 < s.alphaY k ∧ 0 < s.betaY k) ∧
    (∀ k, Spec.Stable .rk4 s.dt s.intDt s.executionTime (s.alphaY k) (s.betaY k)) ∧
    obj 0 = s ∧ Run (DMP.step none .rk4) obj fb out ∧ MeasuredPosition (1 / 10) (heldPosition s) fb out ∧
    ∀ i k, (fb (i + 1)).1 k = (out i).1 k + (-1) ^ (i + 1) / 10 := by
  obtain ⟨s, hs, h1, h2, h3, h4, h5, h6, h7, h8, h9, h10, h11, h12, h13⟩ :=
    DMP.create_ok 2 10 (by norm_num) one_pos (1 / 100) (1 / 1000) 1 false 25 (25 / 4)
  have hst : ∀ k, Spec.Stable .rk4 s.dt s.intDt s.executionTime (s.alphaY k) (s.betaY k) := by
    intro k
    rw [h1, h2, h11, h12]
    exact .rk4 (.inl rfl) (by norm_num) (by norm_num)
  have hdt : 0 < s.dt := by rw [h2]; norm_num
  obtain ⟨obj, fb, out, e1, e2, e3, -, e4⟩ := C105_runs_exist (.create hs) hdt (by rw [h7]) 0 (hst 0) (δ := 1 / 10)
    (fun i => (fun _ => (-1) ^ i / 10, fun _ => (-1) ^ i / 10)) (fun i => by
      have : |((-1 : ℝ) ^ i / 10)| ≤ 1 / 10 := by rw [abs_div, abs_pow, abs_neg, abs_one, one_pow]; norm_num
      exact ⟨fun _ => this, fun _ => this⟩)
  exact ⟨s, obj, fb, out, .create hs, hdt, by rw [h7], h4, fun k => by rw [h11, h12]; norm_num, hst, e1, e2, e3,
    fun i k => by rw [e4]; rfl⟩

/-- **C105 (DMPWithFinalVelocity).** As for DMPs: there is a `K`, independent of start, goal and weights, such that feeding back
positions that are wrong by at most `δ` changes all results of `step` by at most `K * δ`. -/
theorem C105_fv_step (s : FvDMP d m) (hτ : 0 < s.executionTime) (hdt : 0 < s.dt) (ht : 0 ≤ s.t)
    (hgain : ∀ k, 0 < s.alphaY k ∧ 0 < s.betaY k)
    (hst : ∀ k, Spec.Stable .euler s.dt s.intDt s.executionTime (s.alphaY k) (s.betaY k)) :
    ∃ K : ℝ, 0 ≤ K ∧ ∀ (s₂ : FvDMP d m), DMP.SameSystem s s₂ → ∀ (δ : ℝ), 0 ≤ δ → ∀ obj fb out obj' fb' out',
      obj 0 = s₂ → Run (FvDMP.step none) obj fb out → MeasuredPosition 0 (heldPosition s₂) fb out →
      obj' 0 = s₂ → Run (FvDMP.step none) obj' fb' out' → MeasuredPosition δ (heldPosition s₂) fb' out' →
      ∀ i, StateWithin (K * δ) (out' i) (out i) := by
  have key : ∀ k, ∃ M : ℝ, 0 ≤ M ∧ ∀ (s₂ : FvDMP d m), DMP.SameSystem s s₂ → ∀ (δ : ℝ), 0 ≤ δ → ∀ obj fb out obj' fb' out',
      obj 0 = s₂ → Run (FvDMP.step none) obj fb out → MeasuredPosition 0 (heldPosition s₂) fb out →
      obj' 0 = s₂ → Run (FvDMP.step none) obj' fb' out' → MeasuredPosition δ (heldPosition s₂) fb' out' →
      ∀ i, |(out' i).1 k - (out i).1 k| ≤ M * δ ∧ |(out' i).2 k - (out i).2 k| ≤ M * δ := by
    intro k
    obtain ⟨A, B, C, ρ, K, hA, hd, hρ0, hρ, hK, h⟩ := fv_contraction (d := d) (m := m) s.pGain hτ hdt (hgain k).1 (hgain k).2 (hst k)
    obtain ⟨M, hM0, hM⟩ := bound_of_contraction hA hd hρ0 hρ hK
    refine ⟨M, hM0, ?_⟩
    intro s₂ hs δ hδ obj fb out obj' fb' out' h0 hrun hm h0' hrun' hm' i
    let xs : ℕ → Vec d × Vec d := fun i => ((obj i).beginStep.currentY, (obj i).beginStep.currentYd)
    let xs' : ℕ → Vec d × Vec d := fun i => ((obj' i).beginStep.currentY, (obj' i).beginStep.currentYd)
    have hout : ∀ i, xs (i + 1) = out i := fun i => (FvDMP.run_result hrun i).2
    have hout' : ∀ i, xs' (i + 1) = out' i := fun i => (FvDMP.run_result hrun' i).2
    have hb := hM δ (fun i => dev (xs' i) (xs i) k) hδ (by
      show dev (xs' 0) (xs 0) k = 0
      simp only [xs, xs', h0, h0', dev, sub_self]
      rfl) (by
      intro i
      have r := FvDMP.run_args h0 hrun i
      have r' := FvDMP.run_args h0' hrun' i
      rw [hs.dt] at r r'
      have hg : (DMP.stepArgs s₂ none 0).HasGains k s.intDt s.executionTime (s.alphaY k) (s.betaY k) s.pGain := by
        refine ⟨rfl, rfl, ?_, ?_, ?_, ?_, hs.intDt, hs.pGain⟩
        · show 0 < s₂.executionTime; rw [hs.executionTime]; exact hτ
        · show s₂.executionTime - 0 = _; rw [hs.executionTime, sub_zero]
        · show s₂.alphaY k = _; rw [hs.alphaY]
        · show s₂.betaY k = _; rw [hs.betaY]
      have ht' : (0 : ℝ) ≤ s₂.t + i * s.dt := by rw [hs.t]; positivity
      refine (h _ k _ _ hg _ ht' _ _ _ _ r r').trans ?_
      have e0 : ((obj i).beginStep.currentY - (fb i).1) k = 0 := by
        have := trackingError_le h0 hout hm i k
        exact abs_eq_zero.1 (le_antisymm this (abs_nonneg _))
      have e1 := trackingError_le h0' hout' hm' i k
      rw [e0, sub_zero]
      have e2 := sq_le_sq' (neg_le_of_abs_le e1) (le_of_abs_le e1)
      have e3 := mul_le_mul_of_nonneg_left e2 hK
      show ρ * qf A B C (dev (xs' i) (xs i) k) + _ ≤ _
      linarith) (i + 1)
    simp only [hout, hout'] at hb
    exact hb
  choose M hM0 hM using key
  refine ⟨∑ k, M k, Finset.sum_nonneg fun k _ => hM0 k, ?_⟩
  intro s₂ hs δ hδ obj fb out obj' fb' out' h0 hrun hm h0' hrun' hm' i
  have hle : ∀ k, M k * δ ≤ (∑ k, M k) * δ := fun k =>
    mul_le_mul_of_nonneg_right (Finset.single_le_sum (fun k _ => hM0 k) (Finset.mem_univ k)) hδ
  exact ⟨fun k => (hM k s₂ hs δ hδ obj fb out obj' fb' out' h0 hrun hm h0' hrun' hm' i).1.trans (hle k),
    fun k => (hM k s₂ hs δ hδ obj fb out obj' fb' out' h0 hrun hm h0' hrun' hm' i).2.trans (hle k)⟩

/-- Two executions of which one is disturbed, in one dimension. -/
theorem noisy_dev {A B C ρ K : ℝ} (hA : 0 < A) (hd : B ^ 2 < 4 * A * C) (hρ0 : 0 ≤ ρ) (hρ : ρ < 1) (hK : 0 ≤ K) :
    ∃ M : ℝ, 0 ≤ M ∧ ∀ (d : ℕ) (δ : ℝ) (x0 : Vec d × Vec d) (fb out fb' out' : ℕ → Vec d × Vec d) (k : Fin d), 0 ≤ δ →
      Measured 0 x0 fb out → Measured δ x0 fb' out' →
      (∀ i, qf A B C (dev (out' i) (out i) k) ≤ ρ * qf A B C (dev (fb' i) (fb i) k) + K * δ ^ 2) →
      ∀ i, |(out' i).1 k - (out i).1 k| ≤ M * δ ∧ |(out' i).2 k - (out i).2 k| ≤ M * δ := by
  obtain ⟨M, hM0, hM⟩ := bound_of_noisy hA hd hρ0 hρ hK
  refine ⟨M, hM0, fun d δ x0 fb out fb' out' k hδ hm hm' hq i => ?_⟩
  have eq0 : ∀ {x y : Vec d × Vec d}, StateWithin 0 x y → x.1 k = y.1 k ∧ x.2 k = y.2 k := fun h =>
    ⟨sub_eq_zero.1 (abs_eq_zero.1 (le_antisymm (h.1 k) (abs_nonneg _))),
      sub_eq_zero.1 (abs_eq_zero.1 (le_antisymm (h.2 k) (abs_nonneg _)))⟩
  refine hM δ (fun i => dev (fb' i) (fb i) k) (fun i => dev (out' i) (out i) k) hδ ?_ ?_ (fun i => ⟨?_, ?_⟩) hq i
  · show |(fb' 0).1 k - (fb 0).1 k| ≤ δ
    rw [(eq0 hm.1).1]; exact hm'.1.1 k
  · show |(fb' 0).2 k - (fb 0).2 k| ≤ δ
    rw [(eq0 hm.1).2]; exact hm'.1.2 k
  · show |(fb' (i + 1)).1 k - (fb (i + 1)).1 k - ((out' i).1 k - (out i).1 k)| ≤ δ
    rw [(eq0 (hm.2 i)).1, sub_sub_sub_cancel_right]; exact (hm'.2 i).1 k
  · show |(fb' (i + 1)).2 k - (fb (i + 1)).2 k - ((out' i).2 k - (out i).2 k)| ≤ δ
    rw [(eq0 (hm.2 i)).2, sub_sub_sub_cancel_right]; exact (hm'.2 i).2 k

/-- **C105 (SpringDamper).** For every spring-damper system with a stable integrator there is a constant `K`, which does not depend
on goal, state and the first passed state, such that passing positions and velocities that differ from the returned ones by at
most `δ` changes positions and velocities that `step` returns by at most `K * δ`, in all calls. -/
theorem C105_spring_damper_step (s : SpringDamper d) (hst : StableSpring s.k (damping s.k s.c) s.dt s.intDt) :
    ∃ K : ℝ, 0 ≤ K ∧ ∀ (s₂ : SpringDamper d), s.SameSystem s₂ → ∀ (δ : ℝ), 0 ≤ δ → ∀ x0 obj fb out obj' fb' out',
      obj 0 = s₂ → Run (SpringDamper.step none) obj fb out → Measured 0 x0 fb out →
      obj' 0 = s₂ → Run (SpringDamper.step none) obj' fb' out' → Measured δ x0 fb' out' →
      ∀ i, StateWithin (K * δ) (out' i) (out i) := by
  obtain ⟨A, B, C, ρ, hA, hd, hρ0, hρ, h⟩ := springDamper_contraction (d := d) hst
  obtain ⟨M, hM0, hM⟩ := noisy_dev (K := 0) hA hd hρ0 hρ le_rfl
  refine ⟨M, hM0, ?_⟩
  intro s₂ hs δ hδ x0 obj fb out obj' fb' out' h0 hrun hm h0' hrun' hm' i
  have hstep : ∀ {obj fb out}, obj 0 = s₂ → Run (SpringDamper.step none) obj fb out → ∀ i : ℕ,
      springDamperStep s₂.goalY s.k s.c none none s.intDt (s₂.t + i * s.dt) (s₂.t + i * s.dt + s.dt) (fb i) = .ok (out i) := by
    intro obj fb out h0 hrun i
    have := (SpringDamper.run_objects hrun i).2.2.2.2.2.2
    rw [h0, hs.k, hs.c, hs.intDt, hs.dt] at this
    rw [← this]
    congr 1
    ring
  have hall : ∀ k, |(out' i).1 k - (out i).1 k| ≤ M * δ ∧ |(out' i).2 k - (out i).2 k| ≤ M * δ := fun k =>
    hM d δ x0 fb out fb' out' k hδ hm hm' (fun i => by
      rw [zero_mul, add_zero]
      exact h s₂.goalY _ _ _ _ _ k (hstep h0 hrun i) (hstep h0' hrun' i)) i
  exact ⟨fun k => (hall k).1, fun k => (hall k).2⟩

/-- Executions of a spring-damper system that are disturbed in any way exist. -/
theorem C105_spring_damper_runs_exist (s : SpringDamper d) (hint : 0 < s.intDt) {δ : ℝ} (x0 : Vec d × Vec d)
    (n : ℕ → Vec d × Vec d) (hn : ∀ i, (∀ k, |(n i).1 k| ≤ δ) ∧ ∀ k, |(n i).2 k| ≤ δ) :
    ∃ obj fb out, obj 0 = s ∧ Run (SpringDamper.step none) obj fb out ∧ Measured δ x0 fb out ∧
      fb 0 = x0 + n 0 ∧ ∀ i, fb (i + 1) = out i + n (i + 1) := by
  obtain ⟨obj, fb, out, h0, hrun, hf0, hf⟩ := disturbed_run (SpringDamper.step none) (fun o => 0 < o.intDt) (by
      intro o y yd ho
      rw [SpringDamper.exec_step, springDamperStep_eq _ _ _ _ _ ho]
      exact ⟨_, _, rfl, ho⟩) (s := s) hint x0 n
  exact ⟨obj, fb, out, h0, hrun, ⟨by rw [hf0]; exact within_add _ _ (hn 0), fun i => by rw [hf]; exact within_add _ _ (hn _)⟩, hf0, hf⟩

/-! ### Positions of Cartesian DMPs -/

/-- Position and linear velocity. -/
def poseLinear (x : Vec (3 + 4) × Vec (3 + 3)) : Vec 3 × Vec 3 := (position x.1, linear x.2)

/-- **C105 (CartesianDMP).** Positions and linear velocities. Nothing is assumed of the orientations that are passed. `K` does not
depend on start, goal and weights. -/
theorem C105_cartesian_step (s : CartesianDMP m) (hτ : 0 < s.executionTime) (hdt : 0 < s.dt) {sf : StepFunction}
    {qf : QuatStepFunction} (hgain : ∀ k, 0 < linear s.alphaY k ∧ 0 < linear s.betaY k)
    (hst : ∀ k, Spec.Stable sf s.dt s.intDt s.executionTime (linear s.alphaY k) (linear s.betaY k)) :
    ∃ K : ℝ, 0 ≤ K ∧ ∀ (s₂ : CartesianDMP m), s₂.dt = s.dt → s₂.intDt = s.intDt → s₂.executionTime = s.executionTime →
      s₂.alphaY = s.alphaY → s₂.betaY = s.betaY → 0 ≤ s₂.t → ∀ (δ : ℝ), 0 ≤ δ → ∀ x0 obj fb out obj' fb' out',
      obj 0 = s₂ → Run (CartesianDMP.step none sf qf) obj fb out →
      Measured 0 x0 (fun i => poseLinear (fb i)) (fun i => poseLinear (out i)) →
      obj' 0 = s₂ → Run (CartesianDMP.step none sf qf) obj' fb' out' →
      Measured δ x0 (fun i => poseLinear (fb' i)) (fun i => poseLinear (out' i)) →
      ∀ i, StateWithin (K * δ) (poseLinear (out' i)) (poseLinear (out i)) := by
  have key : ∀ k, ∃ M : ℝ, 0 ≤ M ∧ ∀ (s₂ : CartesianDMP m), s₂.dt = s.dt → s₂.intDt = s.intDt → s₂.executionTime = s.executionTime →
      s₂.alphaY = s.alphaY → s₂.betaY = s.betaY → 0 ≤ s₂.t → ∀ (δ : ℝ), 0 ≤ δ → ∀ x0 obj fb out obj' fb' out',
      obj 0 = s₂ → Run (CartesianDMP.step none sf qf) obj fb out →
      Measured 0 x0 (fun i => poseLinear (fb i)) (fun i => poseLinear (out i)) →
      obj' 0 = s₂ → Run (CartesianDMP.step none sf qf) obj' fb' out' →
      Measured δ x0 (fun i => poseLinear (fb' i)) (fun i => poseLinear (out' i)) →
      ∀ i, |(poseLinear (out' i)).1 k - (poseLinear (out i)).1 k| ≤ M * δ ∧
        |(poseLinear (out' i)).2 k - (poseLinear (out i)).2 k| ≤ M * δ := by
    intro k
    obtain ⟨A, B, C, ρ, K, hA, hd, hρ0, hρ, hK, h⟩ := run_contraction (d := 3) (m := m) 0 hτ hdt (hgain k).1 (hgain k).2 (hst k)
    obtain ⟨M, hM0, hM⟩ := noisy_dev (K := 0) hA hd hρ0 hρ le_rfl
    refine ⟨M, hM0, ?_⟩
    intro s₂ e1 e2 e3 e4 e5 ht δ hδ x0 obj fb out obj' fb' out' h0 hrun hm h0' hrun' hm' i
    have hstep : ∀ {obj fb out}, obj 0 = s₂ → Run (CartesianDMP.step none sf qf) obj fb out → ∀ i : ℕ,
        sf.run (s₂.posArgs none) (s₂.t + i * s.dt) (s₂.t + i * s.dt + s.dt) (poseLinear (fb i)) = .ok (poseLinear (out i)) := by
      intro obj fb out h0 hrun i
      have := (CartesianDMP.run_objects hrun i).2.1
      rw [h0, e1] at this
      have e : s₂.t + i * s.dt + s.dt = s₂.t + (i + 1) * s.dt := by ring
      rw [e]
      exact this
    have hg : (s₂.posArgs none).HasGains k s.intDt s.executionTime (linear s.alphaY k) (linear s.betaY k) 0 := by
      refine ⟨rfl, rfl, ?_, ?_, ?_, ?_, e2, rfl⟩
      · show 0 < s₂.executionTime; rw [e3]; exact hτ
      · show s₂.executionTime - 0 = _; rw [e3, sub_zero]
      · show sliceTo s₂.alphaY k = _; rw [e4, linear_eq]
      · show sliceTo s₂.betaY k = _; rw [e5, linear_eq]
    refine hM 3 δ x0 _ _ _ _ k hδ hm hm' (fun i => ?_) i
    have := h _ k 0 0 hg (s₂.t + i * s.dt) (show (0 : ℝ) ≤ _ by positivity) _ _ _ _ (hstep h0 hrun i) (hstep h0' hrun' i)
    simpa using this
  choose M hM0 hM using key
  refine ⟨∑ k, M k, Finset.sum_nonneg fun k _ => hM0 k, ?_⟩
  intro s₂ e1 e2 e3 e4 e5 ht δ hδ x0 obj fb out obj' fb' out' h0 hrun hm h0' hrun' hm' i
  have hle : ∀ k, M k * δ ≤ (∑ k, M k) * δ := fun k =>
    mul_le_mul_of_nonneg_right (Finset.single_le_sum (fun k _ => hM0 k) (Finset.mem_univ k)) hδ
  exact ⟨fun k => (hM k s₂ e1 e2 e3 e4 e5 ht δ hδ x0 obj fb out obj' fb' out' h0 hrun hm h0' hrun' hm' i).1.trans (hle k),
    fun k => (hM k s₂ e1 e2 e3 e4 e5 ht δ hδ x0 obj fb out obj' fb' out' h0 hrun hm h0' hrun' hm' i).2.trans (hle k)⟩

/-! ### Positions of dual-arm DMPs -/

/-- Position and linear velocity of an arm. -/
def armPoseLinear (arm : Fin 2) (x : Vec 14 × Vec 12) : Vec 3 × Vec 3 := (armPosition arm x.1, armLinear arm x.2)

theorem dualDev_eq (x y : Vec 14 × Vec 12) (arm : Fin 2) (k : Fin 3) :
    dualDev x y arm k = dev (armPoseLinear arm x) (armPoseLinear arm y) k := by
  unfold dualDev dev armPoseLinear
  simp only [armPosition_eq, armLinear_eq]

/-- Arguments with which call `i` integrates. -/
theorem DualCartesianDMP.run_args {ops : QuatOps} {sf : DualStepFunction} {s : DualCartesianDMP m} {obj : ℕ → DualCartesianDMP m}
    {fb out : ℕ → Vec 14 × Vec 12} (h0 : obj 0 = s) (h : Run (DualCartesianDMP.step ops none sf) obj fb out) (i : ℕ) :
    sf.run (s.stepArgs none (trackingError ops (obj i).reference (fb i).1)) (s.t + i * s.dt) (s.t + i * s.dt + s.dt) (fb i) =
      .ok (out i) ∧ (obj (i + 1)).reference = (out i).1 := by
  have hone : ∀ i, sf.run ((obj i).stepArgs none (trackingError ops (obj i).reference (fb i).1)) (obj i).t
      ((obj i).t + (obj i).dt) (fb i) = .ok (out i) ∧ obj (i + 1) = (obj i).stepped (out i).1 (out i).2 := by
    intro i
    have hi := h i
    rw [exec_step] at hi
    cases hr : sf.run ((obj i).stepArgs none (trackingError ops (obj i).reference (fb i).1)) (obj i).t
        ((obj i).t + (obj i).dt) ((fb i).1, (fb i).2) with
    | error e => rw [hr] at hi; cases hi
    | ok r =>
      rw [hr] at hi
      have e : r = out i := Except.ok.inj (congrArg Prod.fst hi)
      have e' := congrArg Prod.snd hi
      simp only at e'
      rw [e] at e'
      exact ⟨congrArg _ e, e'.symm⟩
  have hobj : ∀ i, SameConfiguration s (obj i) ∧ (obj i).t = s.t + i * s.dt := by
    intro i
    induction i with
    | zero => rw [h0]; exact ⟨Spec.SameConfiguration.refl _, by simp⟩
    | succ i ih =>
      obtain ⟨h1, h2⟩ := ih
      have hdt : (obj i).dt = s.dt := by rw [h1]
      rw [(hone i).2]
      refine ⟨h1.trans (same_stepped _ _ _), ?_⟩
      show (obj i).t + (obj i).dt = _
      rw [h2, hdt]; push_cast; ring
  obtain ⟨h1, h2⟩ := hobj i
  have hdt : (obj i).dt = s.dt := by rw [h1]
  constructor
  · have := (hone i).1
    rw [h1.stepArgs, hdt, h2] at this
    exact this
  · rw [(hone i).2]; rfl

/-- **C105 (DualCartesianDMP).** Positions and linear velocities of both arms. Nothing is assumed of the orientations that are passed.
`K` does not depend on start, goal and weights. -/
theorem C105_dual_step (s : DualCartesianDMP m) (hτ : 0 < s.executionTime) (hdt : 0 < s.dt) {ops : QuatOps} {sf : DualStepFunction}
    (hgain : ∀ arm k, 0 < armLinear arm s.alphaY k ∧ 0 < armLinear arm s.betaY k)
    (hst : ∀ arm k, Spec.Stable .euler s.dt s.intDt s.executionTime (armLinear arm s.alphaY k) (armLinear arm s.betaY k)) :
    ∃ K : ℝ, 0 ≤ K ∧ ∀ (s₂ : DualCartesianDMP m), s₂.dt = s.dt → s₂.intDt = s.intDt → s₂.executionTime = s.executionTime →
      s₂.alphaY = s.alphaY → s₂.betaY = s.betaY → s₂.pGain = s.pGain → 0 ≤ s₂.t → ∀ (δ : ℝ), 0 ≤ δ →
      ∀ x0 obj fb out obj' fb' out' arm,
      obj 0 = s₂ → Run (DualCartesianDMP.step ops none sf) obj fb out →
      Measured 0 x0 (fun i => armPoseLinear arm (fb i)) (fun i => armPoseLinear arm (out i)) →
      obj' 0 = s₂ → Run (DualCartesianDMP.step ops none sf) obj' fb' out' →
      Measured δ x0 (fun i => armPoseLinear arm (fb' i)) (fun i => armPoseLinear arm (out' i)) →
      ∀ i, StateWithin (K * δ) (armPoseLinear arm (out' i)) (armPoseLinear arm (out i)) := by
  have key : ∀ p : Fin 2 × Fin 3, ∃ M : ℝ, 0 ≤ M ∧ ∀ (s₂ : DualCartesianDMP m), s₂.dt = s.dt → s₂.intDt = s.intDt →
      s₂.executionTime = s.executionTime →
      s₂.alphaY = s.alphaY → s₂.betaY = s.betaY → s₂.pGain = s.pGain → 0 ≤ s₂.t → ∀ (δ : ℝ), 0 ≤ δ →
      ∀ x0 obj fb out obj' fb' out',
      obj 0 = s₂ → Run (DualCartesianDMP.step ops none sf) obj fb out →
      Measured 0 x0 (fun i => armPoseLinear p.1 (fb i)) (fun i => armPoseLinear p.1 (out i)) →
      obj' 0 = s₂ → Run (DualCartesianDMP.step ops none sf) obj' fb' out' →
      Measured δ x0 (fun i => armPoseLinear p.1 (fb' i)) (fun i => armPoseLinear p.1 (out' i)) →
      ∀ i, |(armPoseLinear p.1 (out' i)).1 p.2 - (armPoseLinear p.1 (out i)).1 p.2| ≤ M * δ ∧
        |(armPoseLinear p.1 (out' i)).2 p.2 - (armPoseLinear p.1 (out i)).2 p.2| ≤ M * δ := by
    rintro ⟨arm, k⟩
    obtain ⟨A, B, C, ρ, K, hA, hd, hρ0, hρ, hK, h⟩ := dual_contraction (m := m) s.pGain hτ hdt (hgain arm k).1 (hgain arm k).2 (hst arm k)
    obtain ⟨M, hM0, hM⟩ := noisy_dev hA hd hρ0 hρ hK
    refine ⟨M, hM0, ?_⟩
    intro s₂ e1 e2 e3 e4 e5 e6 ht δ hδ x0 obj fb out obj' fb' out' h0 hrun hm h0' hrun' hm' i
    refine hM 3 δ x0 _ _ _ _ k hδ hm hm' (fun i => ?_) i
    have r := (DualCartesianDMP.run_args h0 hrun i).1
    have r' := (DualCartesianDMP.run_args h0' hrun' i).1
    rw [e1] at r r'
    have hq := h (s₂.stepArgs none 0) sf arm k _ _ rfl (show 0 < s₂.executionTime by rw [e3]; exact hτ)
      (show s₂.executionTime - 0 = _ by rw [e3, sub_zero]) (show armLin arm s₂.alphaY k = _ by rw [e4, armLinear_eq])
      (show armLin arm s₂.betaY k = _ by rw [e5, armLinear_eq]) e2 e6 (s₂.t + i * s.dt) (show (0 : ℝ) ≤ _ by positivity) _ _ _ _ r r'
    simp only [dualDev_eq] at hq
    refine hq.trans ?_
    have hc : ∀ y z : Vec 14, armPos arm (DualCartesianDMP.trackingError ops y z) k = armPosition arm y k - armPosition arm z k := by
      intro y z
      simp only [DualCartesianDMP.trackingError, armPos_joinState, armPosition_eq]
    have hin : |armPos arm (DualCartesianDMP.trackingError ops (obj' i).reference (fb' i).1) k -
        armPos arm (DualCartesianDMP.trackingError ops (obj i).reference (fb i).1) k| ≤ δ := by
      rw [hc, hc]
      have eq0 : ∀ {x y : Vec 3 × Vec 3}, StateWithin 0 x y → x.1 k = y.1 k := fun h =>
        sub_eq_zero.1 (abs_eq_zero.1 (le_antisymm (h.1 k) (abs_nonneg _)))
      cases i with
      | zero =>
        have a1 : armPosition arm (fb 0).1 k = x0.1 k := eq0 hm.1
        have a2 : |armPosition arm (fb' 0).1 k - x0.1 k| ≤ δ := hm'.1.1 k
        rw [h0, h0', a1, sub_sub_sub_cancel_left, abs_sub_comm]
        exact a2
      | succ i =>
        have a1 : armPosition arm (fb (i + 1)).1 k = armPosition arm (out i).1 k := eq0 (hm.2 i)
        have a2 : |armPosition arm (fb' (i + 1)).1 k - armPosition arm (out' i).1 k| ≤ δ := (hm'.2 i).1 k
        rw [(DualCartesianDMP.run_args h0 hrun i).2, (DualCartesianDMP.run_args h0' hrun' i).2, a1, sub_self, sub_zero, abs_sub_comm]
        exact a2
    have a3 := sq_le_sq' (neg_le_of_abs_le hin) (le_of_abs_le hin)
    have a4 := mul_le_mul_of_nonneg_left a3 hK
    linarith
  choose M hM0 hM using key
  refine ⟨∑ k, M k, Finset.sum_nonneg fun k _ => hM0 k, ?_⟩
  intro s₂ e1 e2 e3 e4 e5 e6 ht δ hδ x0 obj fb out obj' fb' out' arm h0 hrun hm h0' hrun' hm' i
  have hle : ∀ k, M k * δ ≤ (∑ k, M k) * δ := fun k =>
    mul_le_mul_of_nonneg_right (Finset.single_le_sum (fun k _ => hM0 k) (Finset.mem_univ k)) hδ
  exact ⟨fun k => (hM (arm, k) s₂ e1 e2 e3 e4 e5 e6 ht δ hδ x0 obj fb out obj' fb' out' h0 hrun hm h0' hrun' hm' i).1.trans (hle _),
    fun k => (hM (arm, k) s₂ e1 e2 e3 e4 e5 e6 ht δ hδ x0 obj fb out obj' fb' out' h0 hrun hm h0' hrun' hm' i).2.trans (hle _)⟩

/-- Executions of a dual-arm DMP that are disturbed in any way exist. -/
theorem C105_dual_runs_exist {s : DualCartesianDMP m} (ops : QuatOps) (sf : DualStepFunction) (hint : 0 < s.intDt) {δ : ℝ}
    (x0 : Vec 14 × Vec 12) (n : ℕ → Vec 14 × Vec 12) (hn : ∀ i, (∀ k, |(n i).1 k| ≤ δ) ∧ ∀ k, |(n i).2 k| ≤ δ) :
    ∃ obj fb out, obj 0 = s ∧ Run (DualCartesianDMP.step (m := m) ops none sf) obj fb out ∧
      (∀ arm, Measured δ (armPoseLinear arm x0) (fun i => armPoseLinear arm (fb i)) (fun i => armPoseLinear arm (out i))) ∧
      fb 0 = x0 + n 0 ∧ ∀ i, fb (i + 1) = out i + n (i + 1) := by
  obtain ⟨obj, fb, out, h0, hrun, hf0, hf⟩ := disturbed_run (DualCartesianDMP.step (m := m) ops none sf) (fun o => 0 < o.intDt) (by
      intro o y yd ho
      obtain ⟨r, hr⟩ := DualCartesianDMP.step_returns ops none sf ho y yd
      exact ⟨r, _, hr, ho⟩) (s := s) hint x0 n
  have hw : ∀ arm {x y : Vec 14 × Vec 12}, StateWithin δ x y → StateWithin δ (armPoseLinear arm x) (armPoseLinear arm y) := by
    intro arm x y h
    unfold armPoseLinear
    rw [armPosition_eq, armPosition_eq, armLinear_eq, armLinear_eq]
    exact ⟨fun k => h.1 _, fun k => h.2 _⟩
  exact ⟨obj, fb, out, h0, hrun, fun arm => ⟨hw arm (by rw [hf0]; exact within_add _ _ (hn 0)),
    fun i => hw arm (by rw [hf]; exact within_add _ _ (hn _))⟩, hf0, hf⟩

/-- Executions of a Cartesian DMP that are disturbed in any way exist. -/
theorem C105_cartesian_runs_exist {s : CartesianDMP m} {sf : StepFunction} {qf : QuatStepFunction}
    (hdt : 0 < s.dt) (ht : 0 ≤ s.t) (hτ : 0 < s.executionTime) (hint : 0 < s.intDt) {α β : ℝ}
    (hst : Spec.Stable sf s.dt s.intDt s.executionTime α β) {δ : ℝ} (x0 : Vec (3 + 4) × Vec (3 + 3))
    (n : ℕ → Vec (3 + 4) × Vec (3 + 3)) (hn : ∀ i, (∀ k, |(n i).1 k| ≤ δ) ∧ ∀ k, |(n i).2 k| ≤ δ) :
    ∃ obj fb out, obj 0 = s ∧ Run (CartesianDMP.step (m := m) none sf qf) obj fb out ∧
      Measured δ (poseLinear x0) (fun i => poseLinear (fb i)) (fun i => poseLinear (out i)) ∧
      fb 0 = x0 + n 0 ∧ ∀ i, fb (i + 1) = out i + n (i + 1) := by
  obtain ⟨obj, fb, out, h0, hrun, hf0, hf⟩ := disturbed_run (CartesianDMP.step (m := m) none sf qf)
    (fun o => o.dt = s.dt ∧ 0 ≤ o.t ∧ o.executionTime = s.executionTime ∧ o.intDt = s.intDt) (by
      rintro o y yd ⟨h1, h2, h3, h4⟩
      obtain ⟨obj, fb, out, e0, e1, e2, -⟩ := C75_cartesian_runs_exist (s := o) (sf := sf) (qf := qf) (by rw [h1]; exact hdt) h2
        (by rw [h3]; exact hτ) (by rw [h4]; exact hint) (by rw [h1, h3, h4]; exact hst) (y, yd)
      have e3 := e2 0
      rw [e1, e0] at e3
      refine ⟨_, _, e3, ?_⟩
      obtain ⟨lt, u, v, e4⟩ := (CartesianDMP.run_objects e2 1).1
      rw [e4, e0]
      refine ⟨h1, ?_, h3, h4⟩
      show 0 ≤ o.t + ((1 : ℕ) : ℝ) * o.dt
      rw [h1]
      push_cast
      linarith) (s := s) ⟨rfl, ht, rfl, rfl⟩ x0 n
  have hw : ∀ {x y : Vec (3 + 4) × Vec (3 + 3)}, StateWithin δ x y → StateWithin δ (poseLinear x) (poseLinear y) := by
    intro x y h
    unfold poseLinear
    rw [position_eq, position_eq, linear_eq, linear_eq]
    exact ⟨fun k => h.1 _, fun k => h.2 _⟩
  exact ⟨obj, fb, out, h0, hrun, ⟨hw (by rw [hf0]; exact within_add _ _ (hn 0)),
    fun i => hw (by rw [hf]; exact within_add _ _ (hn _))⟩, hf0, hf⟩

end Verif
