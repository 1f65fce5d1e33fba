import Verif.Props.Convergence
import Verif.Lemmas.Loops
import Verif.Lemmas.SubSteps

/-! # C85: a DMP with final velocity comes to rest at its goal -/

namespace Verif
open Filter Topology
variable {d m : ℕ}

/-! ## Helper lemmas -/

theorem subSteps_time_gt {intDt t lastT : ℝ} (hd : 0 < intDt) (hlt : lastT ≤ t) :
    ∀ p ∈ subSteps intDt t lastT, lastT < p.2 := by
  intro p hp
  have hpart := subSteps_isPartition hd lastT hlt
  obtain ⟨i, hi, rfl⟩ := List.getElem_of_mem hp
  rw [hpart.times i hi]
  have h1 : ∀ x ∈ ((subSteps intDt t lastT).take (i + 1)).map Prod.fst, 0 < x := by
    intro x hx
    obtain ⟨q, hq, rfl⟩ := List.mem_map.1 hx
    exact (hpart.pos q (List.mem_of_mem_take hq)).1
  have h2 : 0 < (((subSteps intDt t lastT).take (i + 1)).map Prod.fst).sum := by
    apply List.sum_pos _ h1
    intro hc
    have := congrArg List.length hc
    rw [List.length_map, List.length_take, List.length_nil] at this
    omega
  linarith

namespace StepArgs

/-- After the goal time a sub-step is that of a DMP. -/
theorem fvBody_after (a : StepArgs d m) (hc : a.coupling = none) (hp : a.precomputed = none)
    (he : a.trackingError = 0) (hT : a.startT < a.goalT) (c : Fin 6 → Vec d) {t : ℝ} (ht : a.goalT + 1 / 2 ^ 52 < t)
    (h : ℝ) (s : Vec d × Vec d) : a.fvBody c h t s = ({ a with smooth := false } : StepArgs d m).eulerBody h t s := by
  have hτ : a.goalT - a.startT ≠ 0 := by linarith
  have key : ∀ k, ((a.fvBody c h t s).1 k - a.goalY k, (a.fvBody c h t s).2 k) =
      ((({ a with smooth := false } : StepArgs d m).eulerBody h t s).1 k - a.goalY k,
        (({ a with smooth := false } : StepArgs d m).eulerBody h t s).2 k) := by
    intro k
    rw [({ a with smooth := false } : StepArgs d m).eulerBody_sd hc hp he hT h t s k]
    have hcc : a.fvCoupling s = (0, 0) := by
      unfold fvCoupling
      rw [hc, hp]
    simp only [fvBody, hcc, C29_reference_after_goal ht, he, Pi.zero_apply, sdStep, drive, ForcingTerm.call,
      Bool.false_eq_true, if_false]
    ext
    · simp only; field_simp; ring
    · simp only; field_simp; ring
  refine Prod.ext (funext fun k => ?_) (funext fun k => ?_)
  · have := congrArg Prod.fst (key k)
    simpa using this
  · exact congrArg Prod.snd (key k)

theorem fvStep_ok (a : StepArgs d m) (hT : a.startT < a.goalT) (hd : 0 < a.intDt) {lastT t : ℝ} (ht : a.startT < t) :
    ∃ c, ∀ s, a.fvStep lastT t s = .ok ((subSteps a.intDt t lastT).foldl (fun s p => a.fvBody c p.1 p.2 s) s) := by
  obtain ⟨c, hc, -⟩ := C29_solve_constraints hT.ne a.startY a.startYd a.startYdd a.goalY a.goalYd a.goalYdd
  refine ⟨c, fun s => ?_⟩
  unfold fvStep
  rw [if_neg (not_le.2 hT), if_neg (not_le.2 ht), hc]
  exact intLoop_eq _ hd _ _

theorem fvStep_after (a : StepArgs d m) (hc : a.coupling = none) (hp : a.precomputed = none)
    (he : a.trackingError = 0) (hT : a.startT < a.goalT) (hd : 0 < a.intDt) {lastT t : ℝ}
    (hl : a.goalT + 1 / 2 ^ 52 ≤ lastT) (hlt : lastT ≤ t) (s : Vec d × Vec d) :
    a.fvStep lastT t s = StepFunction.euler.run { a with smooth := false } lastT t s := by
  have heps : (0 : ℝ) < 1 / 2 ^ 52 := by positivity
  have ht : a.startT < t := by linarith
  obtain ⟨c, h⟩ := a.fvStep_ok hT hd (lastT := lastT) ht
  rw [h, run_euler_eq ({ a with smooth := false } : StepArgs d m) hc hp (.inl rfl) hd hT hlt ht]
  congr 1
  have hgt := subSteps_time_gt hd hlt
  show List.foldl _ s (subSteps a.intDt t lastT) = List.foldl _ s (subSteps a.intDt t lastT)
  generalize subSteps a.intDt t lastT = L at hgt
  induction L generalizing s with
  | nil => rfl
  | cons p L ih =>
    rw [List.foldl_cons, List.foldl_cons,
      a.fvBody_after hc hp he hT c (by have := hgt p (by simp); linarith)]
    exact ih _ (fun q hq => hgt q (List.mem_cons_of_mem _ hq))

theorem fvStep_pGain_zero (a : StepArgs d m) (h : a.pGain = 0) (e : Vec d) (lastT t : ℝ) (s : Vec d × Vec d) :
    ({ a with trackingError := e } : StepArgs d m).fvStep lastT t s = a.fvStep lastT t s := by
  have hb : ({ a with trackingError := e } : StepArgs d m).fvBody = a.fvBody := by
    funext c dt t s
    simp [fvBody, h, fvCoupling]
  simp only [fvStep, hb]

theorem fv_tendsto (a : StepArgs d m) (hc : a.coupling = none) (hp : a.precomputed = none) (he : a.trackingError = 0)
    (hT : a.startT < a.goalT) (hm : 1 < m) (hα : 0 < a.ft.alphaZ) (hft : a.ft.startT < a.ft.goalT)
    {dt t0 : ℝ} (hdt : 0 < dt) (hint : 0 < a.intDt) (hgain : ∀ k, 0 < a.alphaY k ∧ 0 < a.betaY k)
    (hst : ∀ k, Spec.Stable .euler dt a.intDt (a.goalT - a.startT) (a.alphaY k) (a.betaY k))
    {xs : ℕ → Vec d × Vec d}
    (hx : ∀ i : ℕ, a.fvStep (t0 + i * dt) (t0 + (i + 1) * dt) (xs i) = .ok (xs (i + 1))) :
    Tendsto xs atTop (𝓝 (a.goalY, 0)) := by
  have heps : (0 : ℝ) < 1 / 2 ^ 52 := by positivity
  obtain ⟨N, hN⟩ := exists_nat_ge ((a.goalT + 1 / 2 ^ 52 - t0) / dt)
  rw [div_le_iff₀ hdt] at hN
  have hl : a.goalT + 1 / 2 ^ 52 ≤ t0 + N * dt := by linarith
  rw [← tendsto_add_atTop_iff_nat N]
  refine run_tendsto ({ a with smooth := false } : StepArgs d m) hc hp he hT hm hα hft (sf := .euler) (t0 := t0 + N * dt)
    hdt ?_ hgain hst ?_
  · show a.startT ≤ _; linarith
  · intro i
    have h1 := hx (i + N)
    have e1 : t0 + ((i + N : ℕ) : ℝ) * dt = t0 + N * dt + i * dt := by push_cast; ring
    have e2 : t0 + (((i + N : ℕ) : ℝ) + 1) * dt = t0 + N * dt + (i + 1) * dt := by push_cast; ring
    have hi : 0 ≤ (i : ℝ) * dt := by positivity
    rw [e1, e2, a.fvStep_after hc hp he hT hint (by linarith) (by linarith)] at h1
    rw [h1]
    congr 2
    omega

end StepArgs

namespace FvDMP

theorem run_objects {obj : ℕ → FvDMP d m} {fb out : ℕ → Vec d × Vec d} (h : Spec.Run (FvDMP.step none) obj fb out) (i : ℕ) :
    ∃ lt y yd ini, obj i = { obj 0 with lastT := lt, t := (obj 0).t + i * (obj 0).dt, currentY := y, currentYd := yd,
                                        initialized := ini } := by
  induction i with
  | zero => exact ⟨(obj 0).lastT, (obj 0).currentY, (obj 0).currentYd, (obj 0).initialized, by simp⟩
  | succ i ih =>
    obtain ⟨lt, y, yd, ini, hi⟩ := ih
    have h1 := h i
    rw [FvDMP.exec_step] at h1
    cases hr : ((obj i).beginStep.stepArgs none ((obj i).beginStep.currentY - (fb i).1)).fvStep (obj i).t
        ((obj i).t + (obj i).dt) ((obj i).beginStep.currentY, (obj i).beginStep.currentYd) with
    | error e => rw [hr] at h1; cases h1
    | ok r =>
      rw [hr] at h1
      have h2 : { (obj i).beginStep with currentY := r.1, currentYd := r.2 } = obj (i + 1) := congrArg Prod.snd h1
      refine ⟨some (obj i).t, r.1, r.2, true, ?_⟩
      have h3 : (obj i).t + (obj i).dt = (obj 0).t + ((i + 1 : ℕ) : ℝ) * (obj 0).dt := by
        rw [hi]; push_cast; ring
      rw [← h3, ← h2]
      unfold DMP.beginStep
      rw [hi]

theorem run_result {obj : ℕ → FvDMP d m} {fb out : ℕ → Vec d × Vec d} (h : Spec.Run (FvDMP.step none) obj fb out) (i : ℕ) :
    ((obj i).beginStep.stepArgs none ((obj i).beginStep.currentY - (fb i).1)).fvStep (obj i).t
        ((obj i).t + (obj i).dt) ((obj i).beginStep.currentY, (obj i).beginStep.currentYd) = .ok (out i) ∧
      ((obj (i + 1)).beginStep.currentY, (obj (i + 1)).beginStep.currentYd) = out i := by
  have h1 := h i
  rw [FvDMP.exec_step] at h1
  cases hr : ((obj i).beginStep.stepArgs none ((obj i).beginStep.currentY - (fb i).1)).fvStep (obj i).t
      ((obj i).t + (obj i).dt) ((obj i).beginStep.currentY, (obj i).beginStep.currentYd) with
  | error e => rw [hr] at h1; cases h1
  | ok r =>
    rw [hr] at h1
    have h0 : (Except.ok r : Except PyErr (Vec d × Vec d)) = .ok (out i) := congrArg Prod.fst h1
    have h2 : { (obj i).beginStep with currentY := r.1, currentYd := r.2 } = obj (i + 1) := congrArg Prod.snd h1
    refine ⟨h0, ?_⟩
    injection h0 with h0
    rw [← h2, ← h0]
    simp [DMP.beginStep]

theorem step_states {s : FvDMP d m} {obj : ℕ → FvDMP d m} {fb out : ℕ → Vec d × Vec d} (h0 : obj 0 = s)
    (hrun : Spec.Run (FvDMP.step none) obj fb out)
    (hfb : s.pGain = 0 ∨
      (fb 0).1 = (if s.initialized then s.currentY else s.startY) ∧ ∀ i, (fb (i + 1)).1 = (out i).1) (i : ℕ) :
    (DMP.stepArgs s none 0).fvStep (s.t + i * s.dt) (s.t + (i + 1) * s.dt)
        ((obj i).beginStep.currentY, (obj i).beginStep.currentYd) =
      .ok ((obj (i + 1)).beginStep.currentY, (obj (i + 1)).beginStep.currentYd) := by
  subst h0
  set s := obj 0 with hsdef
  let a := DMP.stepArgs s none 0
  obtain ⟨r1, r2⟩ := run_result hrun i
  rw [r2]
  obtain ⟨lt, y, yd, ini, hi⟩ := run_objects hrun i
  have e1 : (obj i).t = s.t + i * s.dt := by rw [hi]
  have e2 : (obj i).t + (obj i).dt = s.t + (i + 1) * s.dt := by rw [hi]; push_cast; ring
  have e3 : (obj i).beginStep.stepArgs none ((obj i).beginStep.currentY - (fb i).1) =
      { a with trackingError := (obj i).beginStep.currentY - (fb i).1 } := by
    simp only [a, DMP.stepArgs, DMP.beginStep]
    rw [hi]
  rw [e2, e1, e3] at r1
  rw [← r1]
  rcases hfb with hp | ⟨hf0, hf⟩
  · exact (a.fvStep_pGain_zero hp _ _ _ _).symm
  · have e4 : (obj i).beginStep.currentY - (fb i).1 = 0 := by
      cases i with
      | zero =>
        rw [hf0, sub_eq_zero]
        rfl
      | succ i =>
        rw [hf i, sub_eq_zero, ← (run_result hrun i).2]
    rw [e4]
    rfl

end FvDMP

/-! ## C85 -/

/-- **C85 (step).** For every object with positive gains, whatever its weights, start, goal, final velocity and
acceleration, and current state: if the Euler method is stable for its `int_dt`, positions and velocities returned by an
infinite sequence of `step` calls converge to the goal and 0. With `p_gain` different from 0 the passed states must be the
returned ones. -/
theorem C85_step_converges {s : FvDMP d m} (hs : FvDMP.Reachable s) (hdt : 0 < s.dt) (hint : 0 < s.intDt)
    (hgain : ∀ k, 0 < s.alphaY k ∧ 0 < s.betaY k)
    (hst : ∀ k, Spec.Stable .euler s.dt s.intDt s.executionTime (s.alphaY k) (s.betaY k))
    {obj : ℕ → FvDMP d m} {fb out : ℕ → Vec d × Vec d} (h0 : obj 0 = s) (hrun : Spec.Run (FvDMP.step none) obj fb out)
    (hfb : s.pGain = 0 ∨
      (fb 0).1 = (if s.initialized then s.currentY else s.startY) ∧ ∀ i, (fb (i + 1)).1 = (out i).1) :
    Tendsto out atTop (𝓝 (s.goalY, 0)) := by
  have hx := FvDMP.step_states h0 hrun hfb
  have hval := hs.valid
  obtain ⟨hm, hα, hft⟩ := hval.forcing
  have hτ := hval.pos.2
  let a := DMP.stepArgs s none 0
  let xs : ℕ → Vec d × Vec d := fun i => ((obj i).beginStep.currentY, (obj i).beginStep.currentYd)
  have hlim := a.fv_tendsto rfl rfl rfl (show (0 : ℝ) < s.executionTime from hτ) hm hα hft hdt hint hgain (fun k => by
      have := hst k
      show Spec.Stable .euler s.dt s.intDt (s.executionTime - 0) _ _
      rw [sub_zero]; exact this) hx
  have : out = fun i => xs (i + 1) := by funext i; exact ((FvDMP.run_result hrun i).2).symm
  rw [this]
  exact (tendsto_add_atTop_iff_nat 1).2 hlim

/-- **C85 (open_loop).** Under the same conditions `open_loop` returns for every duration, and its positions at late
times are arbitrarily close to the goal. -/
theorem C85_open_loop_converges {s : FvDMP d m} (hs : FvDMP.Reachable s) (hdt : 0 < s.dt) (hint : 0 < s.intDt)
    (hgain : ∀ k, 0 < s.alphaY k ∧ 0 < s.betaY k)
    (hst : ∀ k, Spec.Stable .euler s.dt s.intDt s.executionTime (s.alphaY k) (s.betaY k)) :
    (∀ r : ℝ, 0 ≤ r → ∃ T Y, ((FvDMP.openLoop (some r) none).exec s).1 = .ok (T, Y)) ∧
    ∀ ε > 0, ∃ R : ℝ, ∀ (runT : Option ℝ) T Y, ((FvDMP.openLoop runT none).exec s).1 = .ok (T, Y) →
      ∀ i (hT : i < T.length) (hY : i < Y.length), R ≤ T[i] → ∀ k, |Y[i] k - s.goalY k| < ε := by
  classical
  have hval := hs.valid
  obtain ⟨hm, hα, hft⟩ := hval.forcing
  have hτ := hval.pos.2
  let a := FvDMP.openLoopArgs s none
  have haT : a.startT < a.goalT := hτ
  have e0 : a.startT = 0 := rfl
  have hat : ∀ i : ℕ, arangeAt a.startT s.dt i = 0 + i * s.dt := fun i => rfl
  have hok : ∀ (i : ℕ) x, ∃ x', a.fvStep (arangeAt a.startT s.dt i) (arangeAt a.startT s.dt (i + 1)) x = .ok x' := by
    intro i x
    obtain ⟨c, h⟩ := a.fvStep_ok haT hint (lastT := arangeAt a.startT s.dt i) (t := arangeAt a.startT s.dt (i + 1)) (by
      rw [hat, e0]
      have : 0 < ((i + 1 : ℕ) : ℝ) * s.dt := by positivity
      linarith)
    exact ⟨_, h x⟩
  choose nxt hnxt using hok
  let xs : ℕ → Vec d × Vec d := fun i => Nat.rec (a.startY, a.startYd) (fun i x => nxt i x) i
  have hxs : ∀ i, xs (i + 1) = nxt i (xs i) := fun i => rfl
  have hexec : ∀ runT, ((FvDMP.openLoop runT none).exec s).1 =
      openLoopWith a.goalT a.startT s.dt (a.startY, a.startYd) runT a.fvStep := by
    intro runT
    unfold FvDMP.openLoop
    simp only [Py.exec_bind, Py.exec_lift, Py.exec_get]
    rfl
  have hres := fun runT => openLoopWith_total (goalT := a.goalT) (runT := runT) hdt.ne' (start := (a.startY, a.startYd)) hnxt (xs := xs) rfl hxs
  constructor
  · intro r hr
    rw [hexec, hres, if_neg]
    · exact ⟨_, _, rfl⟩
    · unfold arangeLen
      rw [e0, sub_zero, Nat.ceil_eq_zero, not_le, Option.getD_some]
      positivity
  have hlim : Tendsto xs atTop (𝓝 (a.goalY, 0)) := by
    refine a.fv_tendsto rfl rfl rfl haT hm hα hft (t0 := 0) hdt hint hgain (fun k => ?_) (fun i => ?_)
    · show Spec.Stable .euler s.dt s.intDt (s.executionTime - 0) _ _
      rw [sub_zero]; exact hst k
    · rw [hxs, ← hnxt, hat, hat]
      push_cast
      rfl
  intro ε hε
  have hev : ∃ N, ∀ i ≥ N, ∀ k, |(xs i).1 k - s.goalY k| < ε := by
    have h1 : Tendsto (fun i => (xs i).1) atTop (𝓝 s.goalY) := (continuous_fst.tendsto _).comp hlim
    have h2 : ∀ k, ∀ᶠ i in atTop, |(xs i).1 k - s.goalY k| < ε := by
      intro k
      have h3 := (tendsto_pi_nhds.1 h1) k
      have := (Metric.tendsto_atTop.1 h3) ε hε
      obtain ⟨N, hN⟩ := this
      exact eventually_atTop.2 ⟨N, fun i hi => by simpa [Real.dist_eq] using hN i hi⟩
    exact eventually_atTop.1 (eventually_all.2 h2)
  obtain ⟨N, hN⟩ := hev
  refine ⟨N * s.dt, ?_⟩
  intro runT T Y h i hT hY hR k
  rw [hexec, hres] at h
  split_ifs at h
  simp only [Except.ok.injEq, Prod.mk.injEq] at h
  obtain ⟨rfl, rfl⟩ := h
  simp only [List.getElem_map, List.getElem_range] at hR ⊢
  rw [hat, zero_add] at hR
  exact hN i (by have := le_of_mul_le_mul_right hR hdt; exact_mod_cast this) k

/-- Infinite closed-loop executions exist. -/
theorem FvDMP.runs_exist {s : FvDMP d m} (hs : FvDMP.Reachable s) (hdt : 0 < s.dt) (ht : 0 ≤ s.t) (hint : 0 < s.intDt) :
    ∃ obj fb out, obj 0 = s ∧ Spec.Run (FvDMP.step (m := m) none) obj fb out ∧
      (fb 0).1 = (if s.initialized then s.currentY else s.startY) ∧ ∀ i, fb (i + 1) = out i := by
  classical
  let next : FvDMP d m × (Vec d × Vec d) → FvDMP d m × (Vec d × Vec d) := fun p =>
    let r := (FvDMP.step none p.2.1 p.2.2).exec p.1
    (r.2, match r.1 with | .ok x => x | .error _ => p.2)
  let tr : ℕ → FvDMP d m × (Vec d × Vec d) := fun i =>
    next^[i] (s, ((DMP.beginStep s).currentY, (DMP.beginStep s).currentYd))
  have hsucc : ∀ i, tr (i + 1) = next (tr i) := fun i => Function.iterate_succ_apply' _ _ _
  have hret : ∀ (q : FvDMP d m) (y yd : Vec d), 0 < q.executionTime → 0 < q.dt → 0 ≤ q.t → 0 < q.intDt →
      ∃ r, (FvDMP.step none y yd).exec q = (.ok r, { DMP.beginStep q with currentY := r.1, currentYd := r.2 }) := by
    intro q y yd h1 h2 h3 h4
    rw [FvDMP.exec_step]
    obtain ⟨c, hr⟩ := ((DMP.beginStep q).stepArgs none ((DMP.beginStep q).currentY - y)).fvStep_ok (lastT := q.t)
      (t := q.t + q.dt) (show (0 : ℝ) < q.executionTime from h1) h4 (show (0 : ℝ) < q.t + q.dt by linarith)
    rw [hr]
    exact ⟨_, rfl⟩
  have hinv : ∀ i, 0 < (tr i).1.executionTime ∧ 0 < (tr i).1.dt ∧ 0 ≤ (tr i).1.t ∧ 0 < (tr i).1.intDt := by
    intro i
    induction i with
    | zero => exact ⟨hs.valid.pos.2, hdt, ht, hint⟩
    | succ i ih =>
      obtain ⟨h1, h2, h3, h4⟩ := ih
      obtain ⟨r, hr⟩ := hret (tr i).1 (tr i).2.1 (tr i).2.2 h1 h2 h3 h4
      have e : (tr (i + 1)).1 = { DMP.beginStep (tr i).1 with currentY := r.1, currentYd := r.2 } := by
        rw [hsucc]; simp only [next, hr]
      rw [e]
      refine ⟨h1, h2, ?_, h4⟩
      show 0 ≤ (tr i).1.t + (tr i).1.dt
      linarith
  refine ⟨fun i => (tr i).1, fun i => (tr i).2, fun i => (tr (i + 1)).2, rfl, ?_, rfl, fun i => rfl⟩
  intro i
  obtain ⟨h1, h2, h3, h4⟩ := hinv i
  obtain ⟨r, hr⟩ := hret (tr i).1 (tr i).2.1 (tr i).2.2 h1 h2 h3 h4
  simp only [hsucc]
  simp only [next, hr]

/-- Default values meet the hypotheses of C85, also after a final velocity was configured. -/
example : ∃ s : FvDMP 2 10, FvDMP.Reachable s ∧ 0 < s.dt ∧ 0 < s.intDt ∧ s.goalYd = ![1, 2] ∧
    (∀ k, 0 < s.alphaY k ∧ 0 < s.betaY k) ∧
    (∀ k, Spec.Stable .euler s.dt s.intDt s.executionTime (s.alphaY k) (s.betaY k)) := by
  obtain ⟨s, hs, h1, h2, h3, h4, h5, h6, h7, h8, h9, h10, h11, h12, h13⟩ :=
    DMP.create_ok 2 10 (by norm_num) one_pos (1 / 100) (1 / 1000) 0 false 25 (25 / 4)
  have hr : FvDMP.Reachable s := .create (τ := 1) hs
  refine ⟨_, .op (.configure { goalYd := some [1, 2] }) hr (r := .ok ()) (s' := { s with goalYd := ![1, 2] }) ?_
    (by intro τ h; cases h), ?_⟩
  · show (DMP.configure { goalYd := some [1, 2] }).exec s = _
    rw [DMP.exec_configure]
    simp only [Movement.configure, configureField, Py.exec_bind, Py.exec_pure, Py.exec_lift, Py.exec_modify, checkLength]
    simp
    funext i
    fin_cases i <;> rfl
  · refine ⟨?_, ?_, rfl, ?_, ?_⟩
    · show 0 < s.dt
      rw [h2]; norm_num
    · show 0 < s.intDt
      rw [h3]; norm_num
    · intro k
      show 0 < s.alphaY k ∧ 0 < s.betaY k
      rw [h11, h12]
      norm_num
    · intro k
      show Spec.Stable .euler s.dt s.intDt s.executionTime (s.alphaY k) (s.betaY k)
      rw [h1, h3, h11, h12]
      exact .euler (.inl rfl) (by norm_num) (by norm_num)

end Verif
