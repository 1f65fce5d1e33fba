import Verif.Spec.StateFollowing
import Verif.Spec.Execution
import Verif.Lemmas.Dual
import Verif.Props.Convergence

/-!
# C57: the state-following DMP is attracted by a convex combination of its via points
-/

namespace Verif

open scoped BigOperators
open Filter Topology

namespace StateFollowingForcing
variable {d n : ℕ}

theorem sum_rbf_pos (ft : StateFollowingForcing d n) (hn : 0 < n) (z : ℝ) : 0 < ∑ j, ft.rbf Real.exp z j :=
  Finset.sum_pos (fun _ _ => Real.exp_pos _) ⟨⟨0, hn⟩, Finset.mem_univ _⟩

theorem call_convex (ft : StateFollowingForcing d n) (hn : 0 < n) (t : ℝ) : Spec.ConvexWeights (ft.call t) := by
  refine ⟨fun i => div_pos (Real.exp_pos _) (ft.sum_rbf_pos hn _), ?_⟩
  unfold call
  simp only
  rw [← Finset.sum_div, div_self (ft.sum_rbf_pos hn _).ne']

theorem create_pos {goalT startT overlap alphaZ : ℝ} {g : ℕ → ℝ} {ft : StateFollowingForcing d n}
    (h : create d n goalT startT overlap alphaZ g = .ok ft) : 0 < n := by
  unfold create at h
  split_ifs at h with h0
  omega

/-- Weights in the limit of phase zero. -/
noncomputable def limitWeights (ft : StateFollowingForcing d n) (i : Fin n) : ℝ :=
  ft.rbf Real.exp 0 i / ∑ j, ft.rbf Real.exp 0 j

theorem call_tendsto (ft : StateFollowingForcing d n) (hn : 0 < n) (hα : 0 < ft.alphaZ) (hT : ft.startT < ft.goalT)
    (i : Fin n) : Tendsto (fun t => ft.call t i) atTop (𝓝 (ft.limitWeights i)) := by
  have hz : Tendsto (fun t => phase t ft.alphaZ ft.goalT ft.startT) atTop (𝓝 0) := by
    unfold phase
    refine Real.tendsto_exp_atBot.comp ?_
    have h : (fun t => -ft.alphaZ * (t - ft.startT) / (ft.goalT - ft.startT)) =
        fun t => -(ft.alphaZ / (ft.goalT - ft.startT)) * (t - ft.startT) := by funext t; ring
    rw [h]
    refine Tendsto.const_mul_atTop_of_neg ?_ (tendsto_atTop_add_const_right _ _ tendsto_id)
    have : 0 < ft.alphaZ / (ft.goalT - ft.startT) := div_pos hα (by linarith)
    linarith
  have hc : ∀ j, Continuous fun z => ft.rbf Real.exp z j := fun j => by unfold rbf; fun_prop
  have h1 : ContinuousAt (fun z => ft.rbf Real.exp z i / ∑ j, ft.rbf Real.exp z j) 0 :=
    (hc i).continuousAt.div (continuous_finsetSum _ fun j _ => hc j).continuousAt (ft.sum_rbf_pos hn 0).ne'
  exact h1.tendsto.comp hz

end StateFollowingForcing

namespace StateFollowingArgs
variable {d n : ℕ}

/-- **C57 (attractor).** Each integration step of a state-following DMP with at least one via point is a semi-implicit
Euler step of a spring-damper system with half the execution time as time constant. Its attractor is a convex combination
of the via points with weights that depend only on the time, plus the coupling terms. -/
theorem C57_attractor (a : StateFollowingArgs d n) (hn : 0 < n) :
    ∃ h : ℝ → Fin n → ℝ, (∀ t, Spec.ConvexWeights (h t)) ∧ ∀ dt t s k,
      (a.body dt t s).2 k = s.2 k + dt * (Spec.attraction (a.alphaY k) (a.betaY k) ((a.goalT - a.startT) / 2)
          (∑ i, h t i * a.ft.viapoints i k) (s.1 k) (s.2 k) + (a.couplings s).2 k / ((a.goalT - a.startT) / 2) ^ 2)
        + (a.couplings s).1 k / ((a.goalT - a.startT) / 2) ∧
      (a.body dt t s).1 k = s.1 k + dt * (a.body dt t s).2 k := by
  refine ⟨a.ft.call, fun t => a.ft.call_convex hn t, fun dt t s k => ⟨?_, rfl⟩⟩
  have hs := (a.ft.call_convex hn t).2
  have e : (1 / 2 : ℝ) * (a.goalT - a.startT) = (a.goalT - a.startT) / 2 := by ring
  unfold body Spec.attraction
  simp only [e]
  set τ := (a.goalT - a.startT) / 2
  have h1 : ∑ i, a.ft.call t i * a.alphaY k * (a.betaY k * (a.ft.viapoints i k - s.1 k) - τ * s.2 k) / τ ^ 2 =
      a.alphaY k * (a.betaY k * (∑ i, a.ft.call t i * a.ft.viapoints i k - s.1 k) - τ * s.2 k) / τ ^ 2 := by
    rw [← Finset.sum_div]
    congr 1
    have : ∀ i, a.ft.call t i * a.alphaY k * (a.betaY k * (a.ft.viapoints i k - s.1 k) - τ * s.2 k) =
        a.alphaY k * a.betaY k * (a.ft.call t i * a.ft.viapoints i k) -
          a.alphaY k * (a.betaY k * s.1 k + τ * s.2 k) * a.ft.call t i := fun i => by ring
    simp only [this]
    rw [Finset.sum_sub_distrib, ← Finset.mul_sum, ← Finset.mul_sum, hs]
    ring
  rw [h1]
  ring

end StateFollowingArgs

/-- **C57 (inside the hull).** A convex combination of via points lies strictly inside their range in each component in
which they are not all equal: the last via point is an attractor at no time if it is extremal. -/
theorem C57_strictly_inside {d n : ℕ} {h : Fin n → ℝ} (hh : Spec.ConvexWeights h) (v : Fin n → Vec d) (k : Fin d)
    {lo hi : ℝ} (hlo : ∀ i, lo ≤ v i k) (hhi : ∀ i, v i k ≤ hi) :
    lo ≤ ∑ i, h i * v i k ∧ ∑ i, h i * v i k ≤ hi ∧
      ((∃ i, v i k ≠ lo) → lo < ∑ i, h i * v i k) ∧ ((∃ i, v i k ≠ hi) → ∑ i, h i * v i k < hi) := by
  obtain ⟨hp, hs⟩ := hh
  have e1 : lo = ∑ i, h i * lo := by rw [← Finset.sum_mul, hs, one_mul]
  have e2 : hi = ∑ i, h i * hi := by rw [← Finset.sum_mul, hs, one_mul]
  refine ⟨?_, ?_, ?_, ?_⟩
  · conv_lhs => rw [e1]
    exact Finset.sum_le_sum fun i _ => mul_le_mul_of_nonneg_left (hlo i) (hp i).le
  · conv_rhs => rw [e2]
    exact Finset.sum_le_sum fun i _ => mul_le_mul_of_nonneg_left (hhi i) (hp i).le
  · rintro ⟨i, hi'⟩
    conv_lhs => rw [e1]
    exact Finset.sum_lt_sum (fun i _ => mul_le_mul_of_nonneg_left (hlo i) (hp i).le)
      ⟨i, Finset.mem_univ _, mul_lt_mul_of_pos_left (lt_of_le_of_ne (hlo i) (Ne.symm hi')) (hp i)⟩
  · rintro ⟨i, hi'⟩
    conv_rhs => rw [e2]
    exact Finset.sum_lt_sum (fun i _ => mul_le_mul_of_nonneg_left (hhi i) (hp i).le)
      ⟨i, Finset.mem_univ _, mul_lt_mul_of_pos_left (lt_of_le_of_ne (hhi i) hi') (hp i)⟩

example : Spec.ConvexWeights (n := 2) ![1 / 4, 3 / 4] := by
  constructor
  · intro i; fin_cases i <;> simp
  · norm_num [Fin.sum_univ_two]

namespace StateFollowingDMP
variable {d n : ℕ}

theorem exec_step (c : Option (Coupling d)) (y yd : Vec d) (s : StateFollowingDMP d n) :
    (step c y yd).exec s = match (s.args c).step s.t (s.t + s.dt) (y, yd) with
      | .error e => (.error e, { s with lastT := some s.t, t := s.t + s.dt, currentY := y, currentYd := yd })
      | .ok r => (.ok r, { s with lastT := some s.t, t := s.t + s.dt, currentY := r.1, currentYd := r.2 }) := by
  unfold step
  simp only [Py.exec_bind, Py.exec_get, Py.exec_modify, Py.exec_lift]
  cases (s.args c).step s.t (s.t + s.dt) (y, yd) <;> rfl

theorem create_eq {executionTime dt intDt : ℝ} {α β : ArrayLike} {g : ℕ → ℝ} {s : StateFollowingDMP d n}
    (h : create d n executionTime dt intDt α β g = .ok s) :
    0 < n ∧ 0 < executionTime ∧ ∃ α' β', ensure1dArray α d = .ok α' ∧ ensure1dArray β d = .ok β' ∧
      s = { Movement.init d d with
        executionTime := executionTime, dt := dt, intDt := intDt, alphaY := α', betaY := β'
        ft :=
          { goalT := executionTime, startT := 0, alphaZ := -Real.log (1 / 100), viapoints := fun _ => 0
            centers := fun i => StateFollowingForcing.initCenter n executionTime 0 (-Real.log (1 / 100)) i
            widths := fun i => StateFollowingForcing.initWidth n executionTime 0 (-Real.log (1 / 100))
              (-Real.log (1 / 10)) g i } } := by
  unfold create canonicalSystemAlpha StateFollowingForcing.create at h
  by_cases h1 : executionTime ≤ 0
  · simp [h1, Bind.bind, Except.bind] at h
  · rw [if_neg (by norm_num), if_neg h1] at h
    simp only [Bind.bind, Except.bind] at h
    cases hα : ensure1dArray α d with
    | error e => rw [hα] at h; cases h
    | ok α' =>
      cases hβ : ensure1dArray β d with
      | error e => rw [hα, hβ] at h; cases h
      | ok β' =>
        rw [hα, hβ] at h
        simp only at h
        by_cases hn : n = 0
        · rw [if_pos hn] at h; cases h
        · rw [if_neg hn, if_neg h1, if_neg (by norm_num)] at h
          simp only [Pure.pure, Except.pure, Except.ok.injEq] at h
          exact ⟨by omega, by simpa using h1, α', β', rfl, rfl, h.symm⟩

theorem create_ok (d : ℕ) {n : ℕ} (hn : 0 < n) {executionTime : ℝ} (hτ : 0 < executionTime) (dt intDt α β : ℝ)
    (g : ℕ → ℝ) : ∃ s : StateFollowingDMP d n, create d n executionTime dt intDt (.scalar α) (.scalar β) g = .ok s ∧
      (∀ k, s.alphaY k = α) ∧ ∀ k, s.betaY k = β := by
  have e : ∀ x : ℝ, ensure1dArray (.scalar x) d = .ok fun _ => x := by
    intro x; simp [ensure1dArray, checkLength]
  cases h : create d n executionTime dt intDt (.scalar α) (.scalar β) g with
  | error err =>
    unfold create canonicalSystemAlpha StateFollowingForcing.create at h
    have hn0 : n ≠ 0 := by omega
    have h10 : ¬(1 / 10 : ℝ) ≤ 0 := by norm_num
    have h100 : ¬(1 / 100 : ℝ) ≤ 0 := by norm_num
    simp only [e, hn0, not_le.2 hτ, h10, h100, if_false, Bind.bind, Except.bind] at h
    cases h
  | ok s =>
    obtain ⟨-, -, α', β', h1, h2, h3⟩ := create_eq h
    rw [e] at h1 h2
    cases h1; cases h2
    exact ⟨s, rfl, fun k => by rw [h3], fun k => by rw [h3]⟩

theorem step_one (a a' : StateFollowingArgs d 1) (ha : a' = { a with ft := a'.ft })
    (h : a'.ft.viapoints = a.ft.viapoints) : a'.step = a.step := by
  have e : ∀ (ft : StateFollowingForcing d 1) t, ft.call t = fun _ => 1 := by
    intro ft t
    funext i
    unfold StateFollowingForcing.call
    simp only
    rw [Fin.sum_univ_one, Subsingleton.elim i 0, div_self]
    exact (Real.exp_pos _).ne'
  have hb : a'.body = a.body := by
    rw [ha]
    unfold StateFollowingArgs.body StateFollowingArgs.couplings
    simp only [e, h]
  funext lastT t s
  unfold StateFollowingArgs.step
  rw [hb, ha]

theorem openLoop_one (a a' : StateFollowingArgs d 1) (ha : a' = { a with ft := a'.ft })
    (h : a'.ft.viapoints = a.ft.viapoints) : a'.openLoop = a.openLoop := by
  have hs := step_one a a' ha h
  funext dt runT
  unfold StateFollowingArgs.openLoop StateFollowingArgs.openLoopBody
  rw [hs, ha]

/-- **C57 (one via point).** With one via point the object that the constructor returns contains an uninitialised number.
No result of `step` or `open_loop` depends on it. -/
theorem C57_uninitialised_width {executionTime dt intDt : ℝ} {α β : ArrayLike} {g g' : ℕ → ℝ}
    {s s' : StateFollowingDMP d 1} (h : create d 1 executionTime dt intDt α β g = .ok s)
    (h' : create d 1 executionTime dt intDt α β g' = .ok s') (v : Fin 1 → Vec d) (m : Movement d d)
    (c : Option (Coupling d)) :
    (∀ y yd, ((step c y yd).exec { s with ft := { s.ft with viapoints := v }, toMovement := m }).1 =
      ((step c y yd).exec { s' with ft := { s'.ft with viapoints := v }, toMovement := m }).1) ∧
    ∀ runT, ({ s with ft := { s.ft with viapoints := v }, toMovement := m } : StateFollowingDMP d 1).openLoop runT c =
      ({ s' with ft := { s'.ft with viapoints := v }, toMovement := m } : StateFollowingDMP d 1).openLoop runT c := by
  obtain ⟨-, -, α1, β1, e1, e2, rfl⟩ := create_eq h
  obtain ⟨-, -, α2, β2, e3, e4, rfl⟩ := create_eq h'
  rw [e1] at e3
  rw [e2] at e4
  cases e3; cases e4
  constructor
  · intro y yd
    rw [exec_step, exec_step]
    have hs := step_one (args { Movement.init d d with
        toMovement := m, executionTime := executionTime, dt := dt, intDt := intDt, alphaY := α1, betaY := β1
        ft :=
          { goalT := executionTime, startT := 0, alphaZ := -Real.log (1 / 100), viapoints := v
            centers := fun i => StateFollowingForcing.initCenter 1 executionTime 0 (-Real.log (1 / 100)) i
            widths := fun i => StateFollowingForcing.initWidth 1 executionTime 0 (-Real.log (1 / 100))
              (-Real.log (1 / 10)) g i } } c) (args { Movement.init d d with
        toMovement := m, executionTime := executionTime, dt := dt, intDt := intDt, alphaY := α1, betaY := β1
        ft :=
          { goalT := executionTime, startT := 0, alphaZ := -Real.log (1 / 100), viapoints := v
            centers := fun i => StateFollowingForcing.initCenter 1 executionTime 0 (-Real.log (1 / 100)) i
            widths := fun i => StateFollowingForcing.initWidth 1 executionTime 0 (-Real.log (1 / 100))
              (-Real.log (1 / 10)) g' i } } c) rfl rfl
    simp only [hs]
    generalize StateFollowingArgs.step _ _ _ _ = r
    cases r <;> rfl
  · intro runT
    unfold openLoop
    rw [openLoop_one]
    · rfl
    · rfl

/-- **C57 (finding: uninitialised memory and underflow).** The previous theorem needs an exponential function without
underflow. With one that returns 0 for all arguments below some bound, as floating point numbers do, there are contents of
the uninitialised memory for which all activations of a single via point vanish at each time after the start, and their
normalisation is 0/0. -/
theorem C57_uninitialised_underflow (ex : ℝ → ℝ) {b : ℝ} (hex : ∀ x ≤ b, ex x = 0) {executionTime dt intDt : ℝ}
    (hτ : 0 < executionTime) (α β : ℝ) {t : ℝ} (ht : 0 < t) :
    ∃ (g : ℕ → ℝ) (s : StateFollowingDMP d 1),
      create d 1 executionTime dt intDt (.scalar α) (.scalar β) g = .ok s ∧
      ∀ t' ≥ t, ∑ i, s.ft.rbf ex (phase t' s.ft.alphaZ s.ft.goalT s.ft.startT) i = 0 := by
  have hlog : 0 < -Real.log (1 / 100) := by
    have := Real.log_neg (by norm_num : (0 : ℝ) < 1 / 100) (by norm_num)
    linarith
  set α0 := -Real.log (1 / 100) with hα0
  have hph : ∀ t' ≥ t, phase t' α0 executionTime 0 ≤ phase t α0 executionTime 0 := by
    intro t' ht'
    unfold phase
    rw [Real.exp_le_exp, sub_zero, sub_zero, sub_zero]
    apply div_le_div_of_nonneg_right _ hτ.le
    nlinarith
  have hph1 : phase t α0 executionTime 0 < 1 := by
    unfold phase
    rw [← Real.exp_zero, Real.exp_lt_exp, sub_zero, sub_zero, div_neg_iff]
    right; exact ⟨by nlinarith, hτ⟩
  set q := (1 - phase t α0 executionTime 0) ^ 2 with hq
  have hq0 : 0 < q := by have : 0 < 1 - phase t α0 executionTime 0 := by linarith
                         positivity
  obtain ⟨s, hs, -⟩ := create_ok d (n := 1) (by norm_num) hτ dt intDt α β (fun _ => |b| / q)
  refine ⟨_, s, hs, fun t' ht' => ?_⟩
  obtain ⟨-, -, α', β', -, -, rfl⟩ := create_eq hs
  rw [Fin.sum_univ_one]
  apply hex
  simp only [StateFollowingForcing.initWidth, if_true, StateFollowingForcing.initCenter, Fin.val_zero]
  have hz : phase 0 (-Real.log (1 / 100)) executionTime 0 = 1 := by unfold phase; simp
  rw [hz, ← hα0]
  have h1 := hph t' ht'
  have h2 : q ≤ (phase t' α0 executionTime 0 - 1) ^ 2 := by rw [hq]; nlinarith
  have h3 : |b| / q * q ≤ |b| / q * (phase t' α0 executionTime 0 - 1) ^ 2 :=
    mul_le_mul_of_nonneg_left h2 (div_nonneg (abs_nonneg _) hq0.le)
  rw [div_mul_cancel₀ _ hq0.ne'] at h3
  have := neg_abs_le b
  linarith

/-- **C57 (goal ignored, finding).** Neither `step` nor `open_loop` depends on the goal. -/
theorem C57_goal_ignored (s : StateFollowingDMP d n) (c : Option (Coupling d)) (g gd gdd : Vec d) :
    (∀ y yd, ((step c y yd).exec { s with goalY := g, goalYd := gd, goalYdd := gdd }).1 = ((step c y yd).exec s).1) ∧
      ∀ runT, ({ s with goalY := g, goalYd := gd, goalYdd := gdd } : StateFollowingDMP d n).openLoop runT c =
        s.openLoop runT c := by
  constructor
  · intro y yd
    rw [exec_step, exec_step]
    have : ∀ x y : ℝ, (({ s with goalY := g, goalYd := gd, goalYdd := gdd } : StateFollowingDMP d n).args c).step x y =
        (s.args c).step x y := fun _ _ => rfl
    simp only [this]
    cases (s.args c).step s.t (s.t + s.dt) (y, yd) <;> rfl
  · intro runT
    rfl

/-- **C57 (equilibrium).** If all via points are equal, an object at rest there stays there: `step` returns the same state
and `open_loop` starting there returns this position in all rows. -/
theorem C57_equilibrium (s : StateFollowingDMP d n) (v : Vec d) (hv : ∀ i, s.ft.viapoints i = v) :
    (∀ r s', (step none v 0).exec s = (.ok r, s') → r = (v, 0)) ∧
      ∀ runT T Y, s.startY = v → s.openLoop runT none = .ok (T, Y) → ∀ y ∈ Y, y = v := by
  have hb : ∀ (a : StateFollowingArgs d n), (∀ i, a.ft.viapoints i = v) → a.coupling = none → a.precomputed = none →
      ∀ dt t, a.body dt t (v, 0) = (v, 0) := by
    intro a ha h1 h2 dt t
    unfold StateFollowingArgs.body StateFollowingArgs.couplings
    simp only [h1, h2, ha]
    ext k <;> simp
  have hs : ∀ (a : StateFollowingArgs d n), (∀ i, a.ft.viapoints i = v) → a.coupling = none → a.precomputed = none →
      ∀ lastT t r, a.step lastT t (v, 0) = .ok r → r = (v, 0) := by
    intro a ha h1 h2 lastT t r h
    unfold StateFollowingArgs.step at h
    split_ifs at h
    · cases h; rfl
    · exact intLoop_fixed (hb a ha h1 h2) h
  constructor
  · intro r s' h
    rw [exec_step] at h
    cases hr : (s.args none).step s.t (s.t + s.dt) (v, 0) with
    | error e => rw [hr] at h; cases h
    | ok r' =>
      rw [hr] at h
      simp only [Prod.mk.injEq, Except.ok.injEq] at h
      rw [← h.1]
      exact hs _ hv rfl rfl _ _ _ hr
  · intro runT T Y hst h
    unfold openLoop StateFollowingArgs.openLoop at h
    set a : StateFollowingArgs d n := { s.args none with goalYd := 0, goalYdd := 0, startYd := 0, startYdd := 0 } with ha
    set l0 : StateFollowingArgs.Locals d := { t := a.startT, s := (a.startY, 0), T := [a.startT], Y := [a.startY] } with hl
    rcases hw : (Py.while (fun l : StateFollowingArgs.Locals d => l.t < runT.getD a.goalT) (a.openLoopBody s.dt) ()).exec l0
      with ⟨r, l⟩
    simp only [hw] at h
    cases r with
    | error e => cases h
    | ok u =>
      simp only [Except.map, Except.ok.injEq, Prod.mk.injEq] at h
      rw [← h.2]
      have hinv := Py.while_inv (P := fun (_ : Unit) (l : StateFollowingArgs.Locals d) => l.s = (v, 0) ∧ ∀ y ∈ l.Y, y = v)
        (by
          rintro _ l _ l' ⟨h1, h2⟩ hb
          unfold StateFollowingArgs.openLoopBody at hb
          simp only [Py.exec_bind, Py.exec_get, Py.exec_modify, Py.exec_lift] at hb
          cases hr : a.step l.t (l.t + s.dt) l.s with
          | error e => rw [hr] at hb; cases hb
          | ok r =>
            rw [hr] at hb
            simp only [Prod.mk.injEq, true_and] at hb
            rw [← hb]
            have : r = (v, 0) := hs a hv rfl rfl _ _ _ (h1 ▸ hr)
            refine ⟨this, fun y hy => ?_⟩
            simp only [List.mem_append, List.mem_singleton] at hy
            rcases hy with hy | hy
            · exact h2 y hy
            · rw [hy, this])
        (x := ()) (s := l0) ⟨by rw [hl]; simp [ha, args, hst], by rw [hl]; simp [ha, args, hst]⟩ hw
      exact hinv.2

/-- **C57 (limit).** Executed step by step with sufficiently small integration steps, a state-following DMP converges from
every state. The limit is a fixed convex combination of the via points, with weights that depend neither on the via points
nor on the initial state. By `C57_strictly_inside` it is not the last via point if this one is extremal. -/
theorem C57_limit {executionTime dt intDt : ℝ} {α β : ArrayLike} {g : ℕ → ℝ} {s0 : StateFollowingDMP d n}
    (h : create d n executionTime dt intDt α β g = .ok s0) (hdt : 0 < dt)
    (hgain : ∀ k, 0 < s0.alphaY k ∧ 0 < s0.betaY k)
    (hst : ∀ k, Spec.Stable .euler dt intDt (executionTime / 2) (s0.alphaY k) (s0.betaY k)) :
    ∃ w : Fin n → ℝ, Spec.ConvexWeights w ∧
      ∀ (v : Fin n → Vec d) (m : Movement d d), 0 ≤ m.t → ∀ (obj : ℕ → StateFollowingDMP d n) (fb out : ℕ → Vec d × Vec d),
        obj 0 = { s0 with ft := { s0.ft with viapoints := v }, toMovement := m } → Spec.Run (step none) obj fb out →
        (∀ i, fb (i + 1) = out i) → Tendsto out atTop (𝓝 (fun k => ∑ i, w i * v i k, 0)) := by
  obtain ⟨hn, hτ0, α', β', hα', hβ', hs0⟩ := create_eq h
  have hlog : 0 < -Real.log (1 / 100) := by
    have := Real.log_neg (by norm_num : (0 : ℝ) < 1 / 100) (by norm_num)
    linarith
  refine ⟨s0.ft.limitWeights, ?_, ?_⟩
  · refine ⟨fun i => div_pos (Real.exp_pos _) (s0.ft.sum_rbf_pos hn _), ?_⟩
    unfold StateFollowingForcing.limitWeights
    rw [← Finset.sum_div, div_self (s0.ft.sum_rbf_pos hn _).ne']
  intro v m hm obj fb out h0 hrun hfb
  set a : StateFollowingArgs d n := (obj 0).args none with ha
  have hobj : ∀ i : ℕ, ∃ lt y yd, obj i = { obj 0 with lastT := lt, t := m.t + i * dt, currentY := y, currentYd := yd } := by
    intro i
    induction i with
    | zero => exact ⟨m.lastT, m.currentY, m.currentYd, by rw [h0]; simp⟩
    | succ i ih =>
      obtain ⟨lt, y, yd, hi⟩ := ih
      have h1 := hrun i
      rw [exec_step] at h1
      cases hr : ((obj i).args none).step (obj i).t ((obj i).t + (obj i).dt) ((fb i).1, (fb i).2) with
      | error e => rw [hr] at h1; cases h1
      | ok r =>
        rw [hr] at h1
        refine ⟨some (obj i).t, r.1, r.2, (Prod.mk.inj h1).2.symm.trans ?_⟩
        have e1 : (obj i).t + (obj i).dt = m.t + (i + 1 : ℕ) * dt := by
          have : (obj i).dt = dt := by rw [hi, h0, hs0]
          rw [this, hi]; push_cast; ring
        rw [e1, hi]
  have hx : ∀ i : ℕ, a.step (m.t + i * dt) (m.t + (i + 1) * dt) (fb i) = .ok (fb (i + 1)) := by
    intro i
    obtain ⟨lt, y, yd, hi⟩ := hobj i
    have h1 := hrun i
    rw [exec_step] at h1
    have e1 : (obj i).t = m.t + i * dt := by rw [hi]
    have e2 : (obj i).t + (obj i).dt = m.t + (i + 1) * dt := by
      have : (obj i).dt = dt := by rw [hi, h0, hs0]
      rw [e1, this]; ring
    have e3 : (obj i).args none = a := by rw [ha, hi]; rfl
    rw [e2, e1, e3] at h1
    cases hr : a.step (m.t + i * dt) (m.t + (i + 1) * dt) ((fb i).1, (fb i).2) with
    | error e => rw [hr] at h1; cases h1
    | ok r =>
      rw [hr] at h1
      rw [hfb i]
      have := (Prod.mk.inj h1).1
      rw [← this]
  suffices hlim : Tendsto fb atTop (𝓝 (fun k => ∑ i, s0.ft.limitWeights i * v i k, 0)) by
    have e : out = fun i => fb (i + 1) := by funext i; rw [hfb]
    rw [e]
    exact (tendsto_add_atTop_iff_nat 1).2 hlim
  have haT : a.goalT = executionTime ∧ a.startT = 0 ∧ a.alphaY = s0.alphaY ∧ a.betaY = s0.betaY ∧ a.intDt = intDt ∧
      a.ft = { s0.ft with viapoints := v } := by
    rw [ha, h0, hs0]; exact ⟨rfl, rfl, rfl, rfl, rfl, rfl⟩
  obtain ⟨g1, g2, g3, g4, g5, g6⟩ := haT
  apply tendsto_of_coordinates
  intro k
  obtain ⟨hα, hβ⟩ := hgain k
  set τ := executionTime / 2 with hτdef
  have hτ : 0 < τ := by positivity
  set A := ∑ i, s0.ft.limitWeights i * v i k with hA
  set kk := s0.alphaY k * s0.betaY k / τ ^ 2 with hkk
  set cc := s0.alphaY k / τ with hcc
  have hk : 0 < kk := by positivity
  have hc : 0 < cc := by positivity
  let u : ℝ → ℝ := fun t => kk * (∑ i, s0.ft.call t i * v i k - A)
  have hu : Tendsto u atTop (𝓝 0) := by
    have h1 : Tendsto (fun t => ∑ i, s0.ft.call t i * v i k) atTop (𝓝 A) := by
      refine tendsto_finsetSum _ fun i _ => Tendsto.mul_const _ ?_
      refine s0.ft.call_tendsto hn ?_ ?_ i
      · rw [hs0]; exact hlog
      · rw [hs0]; exact hτ0
    have := (h1.sub_const A).const_mul kk
    simpa [u] using this
  have hbody : ∀ dt t (s : Vec d × Vec d), ((a.body dt t s).1 k - A, (a.body dt t s).2 k) =
      sdStep kk cc dt (u t) (s.1 k - A, s.2 k) := by
    intro dt t s
    have hs1 : ∑ i, s0.ft.call t i = 1 := (s0.ft.call_convex hn t).2
    have hcoup : a.couplings s = (0, 0) := rfl
    have hcall : a.ft.call t = s0.ft.call t := by rw [g6]; rfl
    have hvia : a.ft.viapoints = v := by rw [g6]
    have e : (1 / 2 : ℝ) * (a.goalT - a.startT) = τ := by rw [g1, g2, hτdef]; ring
    have h1 : ∑ i, s0.ft.call t i * s0.alphaY k * (s0.betaY k * (v i k - s.1 k) - τ * s.2 k) / τ ^ 2 =
        -kk * (s.1 k - A) - cc * s.2 k + u t := by
      have : ∀ i, s0.ft.call t i * s0.alphaY k * (s0.betaY k * (v i k - s.1 k) - τ * s.2 k) / τ ^ 2 =
          kk * (s0.ft.call t i * v i k) - (kk * s.1 k + cc * s.2 k) * s0.ft.call t i := fun i => by
        rw [hkk, hcc]; field_simp; ring
      simp only [this]
      rw [Finset.sum_sub_distrib, ← Finset.mul_sum, ← Finset.mul_sum, hs1]
      simp only [u]
      ring
    unfold StateFollowingArgs.body
    simp only [hcoup, hcall, hvia, e, g3, g4, h1, Pi.zero_apply, zero_div, add_zero, sdStep]
    ext
    · simp only; ring
    · simp only
  have hfold : ∀ (L : List (ℝ × ℝ)) (s : Vec d × Vec d),
      ((L.foldl (fun s p => a.body p.1 p.2 s) s).1 k - A, (L.foldl (fun s p => a.body p.1 p.2 s) s).2 k) =
        L.foldl (fun s p => sdStep kk cc p.1 (u p.2) s) (s.1 k - A, s.2 k) := by
    intro L
    induction L with
    | nil => intro s; rfl
    | cons p L ih => intro s; rw [List.foldl_cons, List.foldl_cons, ih, hbody]
  have hrec : ∀ (hint : 0 < intDt) (i : ℕ), ((fb (i + 1)).1 k - A, (fb (i + 1)).2 k) =
      (subSteps intDt (m.t + (i + 1) * dt) (m.t + i * dt)).foldl (fun s p => sdStep kk cc p.1 (u p.2) s)
        ((fb i).1 k - A, (fb i).2 k) := by
    intro hint i
    have h1 := hx i
    unfold StateFollowingArgs.step at h1
    have hpos : 0 < ((i : ℝ) + 1) * dt := by positivity
    rw [if_neg (by rw [g1, g2]; exact not_le.2 hτ0), if_neg (by rw [g2]; linarith), g5, intLoop_eq _ hint] at h1
    injection h1 with h1
    rw [← h1]
    exact hfold _ _
  rcases hst k with ⟨-, hint, h⟩ | ⟨-, hint, q, hq, hq', h⟩ | ⟨hsf, h1, h2⟩
  · refine sd_tendsto_robust (t0 := m.t) (x := fun i => ((fb i).1 k - A, (fb i).2 k)) hk hc hint ?_ hdt hu (hrec hint)
    have e1 : 2 * intDt * (2 * kk + cc ^ 2) * (kk + cc ^ 2) =
        (2 * intDt * (s0.alphaY k + 2 * s0.betaY k) * (s0.alphaY k + s0.betaY k)) * (s0.alphaY k ^ 2 / τ ^ 4) := by
      rw [hkk, hcc]; field_simp; ring
    have e2 : kk * cc = s0.betaY k * τ * (s0.alphaY k ^ 2 / τ ^ 4) := by
      rw [hkk, hcc]; field_simp
    rw [e1, e2]
    exact mul_le_mul_of_nonneg_right h (by positivity)
  · refine sd_tendsto_sharp (t0 := m.t) (x := fun i => ((fb i).1 k - A, (fb i).2 k)) hk hc hint ?_ hq hq' hu (hrec hint)
    have e1 : intDt ^ 2 * kk + 2 * (intDt * cc) =
        (intDt ^ 2 * (s0.alphaY k * s0.betaY k) + 2 * (intDt * s0.alphaY k * τ)) / τ ^ 2 := by
      rw [hkk, hcc]; field_simp
    rw [e1, div_lt_iff₀ (by positivity)]
    exact h
  · rcases hsf with hsf | hsf <;> cases hsf

/-- The defaults (`alpha_y = 25`, `beta_y = 6.25`, `dt = 0.01`, `int_dt = 0.001`) satisfy the conditions for an execution
time of one second. -/
example : ∃ s0 : StateFollowingDMP 2 10,
    create 2 10 1 (1 / 100) (1 / 1000) (.scalar 25) (.scalar (25 / 4)) (fun _ => 0) = .ok s0 ∧
      (∀ k, 0 < s0.alphaY k ∧ 0 < s0.betaY k) ∧
      ∀ k, Spec.Stable .euler (1 / 100) (1 / 1000) (1 / 2) (s0.alphaY k) (s0.betaY k) := by
  obtain ⟨s, h1, h2, h3⟩ := create_ok 2 (n := 10) (by norm_num) (executionTime := 1) one_pos (1 / 100) (1 / 1000) 25
    (25 / 4) (fun _ => 0)
  refine ⟨s, h1, fun k => by rw [h2, h3]; norm_num, fun k => ?_⟩
  rw [h2, h3]
  refine .eulerMultiple (.inl rfl) (by norm_num) 10 (by norm_num) (by norm_num) ?_
  norm_num

end StateFollowingDMP
end Verif
