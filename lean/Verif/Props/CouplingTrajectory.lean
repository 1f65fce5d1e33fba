import Verif.Spec.CouplingTrajectory
import Verif.Props.DualClass

/-! # A coupling term that follows a trajectory and the time of the DMP (C64) -/

namespace Verif
open Spec
variable {m : ℕ}

/-- Number of entries of a strictly increasing sequence below `x`. -/
theorem searchsorted_eq {n : ℕ} {T : Fin (n + 2) → ℝ} {x : ℝ} {k : ℕ} (hk : k ≤ n + 2)
    (hlo : ∀ j : Fin (n + 2), (j : ℕ) < k → T j < x) (hhi : ∀ j : Fin (n + 2), k ≤ (j : ℕ) → x ≤ T j) :
    (Finset.univ.filter fun j => T j < x).card = k := by
  have : (Finset.univ.filter fun j => T j < x) = Finset.univ.filter fun j : Fin (n + 2) => (j : ℕ) < k := by
    ext j
    simp only [Finset.mem_filter, Finset.mem_univ, true_and]
    constructor
    · intro h
      by_contra hc
      exact absurd h (not_lt.2 (hhi j (by omega)))
    · exact hlo j
  rw [this, Fin.card_filter_val_lt]
  omega

/-- The value of `interp1d` is on the line through a neighbouring pair. -/
theorem interp1d_line {n : ℕ} {T d : Fin (n + 2) → ℝ} (hT : StrictMono T) (i : Fin (n + 1)) {x : ℝ}
    (hlo : T i.castSucc ≤ x ∨ i = 0) (hhi : x ≤ T i.succ ∨ i = Fin.last n) :
    interp1d T d x = (d i.succ - d i.castSucc) / (T i.succ - T i.castSucc) * (x - T i.castSucc) + d i.castSucc := by
  have hne : ∀ j : Fin (n + 1), T j.succ - T j.castSucc ≠ 0 := fun j => by
    have := hT (Fin.castSucc_lt_succ (i := j)); exact ne_of_gt (by linarith)
  by_cases heq : x = T i.castSucc ∧ 0 < (i : ℕ)
  · obtain ⟨heq, hi⟩ := heq
    have hc : (Finset.univ.filter fun j => T j < x).card = i := by
      refine searchsorted_eq (by omega) (fun j hj => ?_) fun j hj => ?_
      · rw [heq]; exact hT (by rw [Fin.lt_def]; simpa using hj)
      · rw [heq]; exact hT.monotone (by rw [Fin.le_def]; simpa using hj)
    unfold interp1d
    simp only [hc]
    have h1 : max 1 (min (n + 1) (i : ℕ)) = i := by omega
    simp only [h1]
    have e1 : (⟨(i : ℕ), by omega⟩ : Fin (n + 2)) = i.castSucc := rfl
    obtain ⟨j, hj⟩ : ∃ j : Fin (n + 1), (j : ℕ) = i - 1 := ⟨⟨i - 1, by omega⟩, rfl⟩
    have e2 : (⟨(i : ℕ) - 1, by omega⟩ : Fin (n + 2)) = j.castSucc := by ext; simp [hj]
    have e3 : i.castSucc = j.succ := by ext; simp [hj]; omega
    rw [e1, e2, heq]
    rw [e3]
    have := hne j
    field_simp
    ring
  · have hc : max 1 (min (n + 1) (Finset.univ.filter fun j => T j < x).card) = i + 1 := by
      set q := (Finset.univ.filter fun j => T j < x).card with hq
      have hle : (i : ℕ) = 0 ∨ i + 1 ≤ q := by
        rcases hlo with h | h
        · rcases Nat.eq_zero_or_pos (i : ℕ) with h0 | h0
          · exact .inl h0
          right
          have hlt : T i.castSucc < x := lt_of_le_of_ne h fun hc => heq ⟨hc.symm, h0⟩
          have hsub : (Finset.univ.filter fun j : Fin (n + 2) => (j : ℕ) < i + 1) ⊆
              Finset.univ.filter fun j => T j < x := by
            intro j
            simp only [Finset.mem_filter, Finset.mem_univ, true_and]
            intro hj
            exact lt_of_le_of_lt (hT.monotone (by rw [Fin.le_def]; simp; omega)) hlt
          have := Finset.card_le_card hsub
          rw [Fin.card_filter_val_lt] at this
          omega
        · left; simp [h]
      have hge : (i : ℕ) = n ∨ q ≤ i + 1 := by
        rcases hhi with h | h
        · right
          have hsub : (Finset.univ.filter fun j => T j < x) ⊆
              (Finset.univ.filter fun j : Fin (n + 2) => (j : ℕ) < i + 1) := by
            intro j
            simp only [Finset.mem_filter, Finset.mem_univ, true_and]
            intro hj
            have := hT.lt_iff_lt.1 (lt_of_lt_of_le hj h)
            rw [Fin.lt_def] at this
            simpa using this
          have := Finset.card_le_card hsub
          rw [Fin.card_filter_val_lt] at this
          omega
        · left; simp [h]
      have : (i : ℕ) < n + 1 := i.2
      omega
    unfold interp1d
    simp only [hc]
    rfl

/-- scipy's `interp1d` is the piecewise linear interpolation. -/
theorem interp1d_isInterpolation {n : ℕ} {T d : Fin (n + 2) → ℝ} (hT : StrictMono T) :
    IsInterpolation T d (interp1d T d) := by
  intro i l h0 h1
  have hlt := hT (Fin.castSucc_lt_succ (i := i))
  rw [interp1d_line hT i]
  · have : T i.succ - T i.castSucc ≠ 0 := ne_of_gt (by linarith)
    field_simp
    ring
  · rcases h0 with h | h
    · left; nlinarith
    · exact .inr h
  · rcases h1 with h | h
    · left; nlinarith
    · exact .inr h

namespace TrajectoryCoupling

theorem valueAt_eq (ops : QuatOps) (c : TrajectoryCoupling) (f : ℝ → Vec 3 × Vec 4) (τ : ℝ) :
    c.valueAt ops f τ = couplingTowards ops c f τ := rfl

theorem exec_coupling {ops : QuatOps} {c : TrajectoryCoupling} {f : ℝ → Vec 3 × Vec 4} {t : ℝ}
    (h : c.learned = some (f, t)) (y : Vec 14) (yd : Vec 12) :
    (coupling ops y yd).exec c = (.ok (couplingTowards ops c f t y yd), { c with learned := some (f, t + c.dt) }) := by
  unfold coupling
  simp only [Py.exec_bind, Py.exec_get, h, Py.exec_modify, Py.exec_pure]
  rfl

end TrajectoryCoupling

/-- Results of `n` calls of `coupling` with the arguments `ys i`, `yds i`. -/
noncomputable def TrajectoryCoupling.calls (ops : QuatOps) (ys : ℕ → Vec 14) (yds : ℕ → Vec 12) :
    ℕ → Py TrajectoryCoupling (List (Vec 12 × Vec 12))
  | 0 => Pure.pure []
  | n + 1 => do
    let r ← TrajectoryCoupling.calls ops ys yds n
    let x ← coupling ops (ys n) (yds n)
    return r ++ [x]

/-- C64. After `imitate` the `N`-th call of `coupling` (counted from 0) couples towards the relative pose demonstrated at
time `N * dt`, whatever the states are that are passed and at whatever times the calls are made. -/
theorem C64_calls {n : ℕ} (T : Fin (n + 2) → ℝ) (hT : StrictMono T) (Y : Fin (n + 2) → Vec 14) (c : TrajectoryCoupling)
    (ops : QuatOps) :
    ∃ c' f, (TrajectoryCoupling.imitate T Y).exec c = (.ok (), c') ∧ InterpolatesRelativePose T Y f ∧
      ∀ (ys : ℕ → Vec 14) (yds : ℕ → Vec 12) (N : ℕ),
        ((TrajectoryCoupling.calls ops ys yds N).exec c').1 =
          .ok ((List.range N).map fun i : ℕ => couplingTowards ops c f (i * c.dt) (ys i) (yds i)) := by
  set f : ℝ → Vec 3 × Vec 4 := fun t =>
    (fun d => interp1d T (fun i => (right2leftPq (Y i)).1 d) t, fun d => interp1d T (fun i => (right2leftPq (Y i)).2 d) t)
    with hf
  refine ⟨{ c with learned := some (f, 0) }, f, rfl,
    ⟨fun d => interp1d_isInterpolation hT, fun d => interp1d_isInterpolation hT⟩, ?_⟩
  intro ys yds N
  suffices H : ∀ N : ℕ, (TrajectoryCoupling.calls ops ys yds N).exec { c with learned := some (f, 0) } =
      (.ok ((List.range N).map fun i : ℕ => couplingTowards ops c f (i * c.dt) (ys i) (yds i)),
        { c with learned := some (f, N * c.dt) }) by
    exact congrArg Prod.fst (H N)
  intro N
  induction N with
  | zero => simp [TrajectoryCoupling.calls]
  | succ k ih =>
    simp only [TrajectoryCoupling.calls, Py.exec_bind, ih]
    rw [TrajectoryCoupling.exec_coupling rfl]
    simp only [Py.exec_pure, List.range_succ, List.map_append, List.map_cons, List.map_nil]
    congr 4
    push_cast
    ring

/-- Before `imitate` an `AttributeError` is raised. -/
theorem C64_not_learned (c : TrajectoryCoupling) (h : c.learned = none) (ops : QuatOps) (y : Vec 14) (yd : Vec 12) :
    (TrajectoryCoupling.coupling ops y yd).exec c = (.error .attributeError, c) := by
  unfold TrajectoryCoupling.coupling
  simp only [Py.exec_bind, Py.exec_get, h]
  rfl

/-! ## Time of the DMP -/

/-- The clock in a fold over the sub-steps. -/
theorem foldl_clock {σ : Type} (upd : ℝ → ℝ → ℝ → σ → σ) (d : ℝ) : ∀ (l : List (ℝ × ℝ)) (x : σ) (τ : ℝ),
    (l.foldl (fun (x : σ × ℝ) p => (upd x.2 p.1 p.2 x.1, x.2 + d)) (x, τ)).2 = τ + l.length * d := by
  intro l
  induction l with
  | nil => intro x τ; simp
  | cons p l ih =>
    intro x τ
    simp only [List.foldl_cons, ih, List.length_cons]
    push_cast; ring

theorem subSteps_length (intDt t lastT : ℝ) : (subSteps intDt t lastT).length = nSub intDt t lastT := by
  simp [subSteps]

/-- The loop with the clock, if the clock shows the time of the DMP and ticks with the sub-steps, is the loop in which
the time of the DMP is used. -/
theorem intLoop_synchronised {σ : Type} (upd : ℝ → ℝ → ℝ → σ → σ) {intDt t : ℝ} (hd : 0 < intDt) (lastT : ℝ) (s : σ) :
    (intLoop intDt t (fun dt t (x : σ × ℝ) => (upd x.2 dt t x.1, x.2 + intDt)) lastT (s, lastT)).map Prod.fst =
      intLoop intDt t (fun dt t x => upd (t - dt) dt t x) lastT s := by
  suffices H : ∀ (n : ℕ) (lastT : ℝ) (s : σ), nSub intDt t lastT = n →
      (intLoop intDt t (fun dt t (x : σ × ℝ) => (upd x.2 dt t x.1, x.2 + intDt)) lastT (s, lastT)).map Prod.fst =
      intLoop intDt t (fun dt t x => upd (t - dt) dt t x) lastT s from H _ lastT s rfl
  intro n
  induction n with
  | zero =>
    intro lastT s hn
    have h := (nSub_zero hd).1 hn
    rw [intLoop_done _ h, intLoop_done _ h]; rfl
  | succ k ih =>
    intro lastT s hn
    have h : lastT < t := by
      by_contra hc
      rw [(nSub_zero hd).2 (by linarith)] at hn; omega
    rw [intLoop_step _ h, intLoop_step _ h]
    by_cases h2 : t - lastT < intDt
    · simp only [h2, if_true]
      rw [intLoop_done _ (by linarith), intLoop_done _ (by linarith)]
      simp [Except.map]
    · simp only [h2, if_false]
      have := nSub_succ (t := t) hd (not_lt.1 h2)
      rw [show lastT + intDt - intDt = lastT by ring]
      exact ih (lastT + intDt) _ (by omega)

namespace DualStepFunction

/-- A step of the DMP advances the clock once per sub-step. -/
theorem runLearned_clock (sf : DualStepFunction) (ops : QuatOps) (a : DualStepArgs m) (c : TrajectoryCoupling)
    (f : ℝ → Vec 3 × Vec 4) (clock lastT t : ℝ) (s : Vec 14 × Vec 12) (hd : 0 < a.intDt) :
    ∃ r, sf.runLearned ops a c f clock lastT t s = .ok (r, clock + nSub a.intDt t lastT * c.dt) := by
  cases sf with
  | python ops =>
    simp only [runLearned, DualStepArgs.stepPyTrajectory]
    rw [intLoop_eq _ hd]
    have := foldl_clock (fun τ dt t x => { a with coupling := some (c.valueAt ops f τ) }.bodyPy ops dt t x) c.dt
      (subSteps a.intDt t lastT) (if t ≤ a.startT then (a.startY, a.startYd) else s, ((0 : Vec 12), (0 : Vec 12))) clock
    rw [subSteps_length] at this
    exact ⟨_, congrArg Except.ok (Prod.ext rfl this)⟩
  | cython =>
    simp only [runLearned, DualStepArgs.stepCyTrajectory]
    rw [intLoop_eq _ hd]
    have := foldl_clock (fun τ dt t x => { a with coupling := some (c.valueAt ops f τ) }.bodyCy dt t x) c.dt
      (subSteps a.intDt t lastT) (if t ≤ a.startT then (a.startY, a.startYd) else s) clock
    rw [subSteps_length] at this
    exact ⟨_, congrArg Except.ok (Prod.ext rfl this)⟩

/-- A step with a clock that shows the time of the DMP and ticks with its sub-steps. -/
theorem runLearned_synchronised (sf : DualStepFunction) (ops : QuatOps) (a : DualStepArgs m) (c : TrajectoryCoupling)
    (f : ℝ → Vec 3 × Vec 4) (lastT t : ℝ) (s : Vec 14 × Vec 12) (hd : 0 < a.intDt) (hc : c.dt = a.intDt) :
    (sf.runLearned ops a c f lastT lastT t s).map Prod.fst = synchronisedStep sf ops a c f lastT t s := by
  cases sf with
  | python ops =>
    simp only [runLearned, DualStepArgs.stepPyTrajectory, synchronisedStep, hc]
    refine Eq.trans ?_ (congrArg (Except.map Prod.fst) (intLoop_synchronised
      (fun τ dt t x => { a with coupling := some (couplingTowards ops c f τ) }.bodyPy ops dt t x) hd lastT _))
    simp only [TrajectoryCoupling.valueAt_eq]
    generalize intLoop _ _ _ _ _ = w
    cases w <;> rfl
  | cython =>
    simp only [runLearned, DualStepArgs.stepCyTrajectory, synchronisedStep, hc]
    exact intLoop_synchronised
      (fun τ dt t x => { a with coupling := some (couplingTowards ops c f τ) }.bodyCy dt t x) hd lastT _

end DualStepFunction

namespace DualCartesianDMP

theorem exec_stepTrajectory (ops : QuatOps) (sf : DualStepFunction) (y : Vec 14) (yd : Vec 12)
    (s : DualCartesianDMP m) (c : TrajectoryCoupling) : (stepTrajectory ops sf y yd).exec (s, c) =
      match sf.runTrajectory ops (s.stepArgs none (trackingError ops s.reference y)) c s.t (s.t + s.dt) (y, yd) with
      | .ok r => (.ok r.1, (s.stepped r.1.1 r.1.2, r.2))
      | .error e => (.error e, (s.stepped y yd, c)) := by
  unfold stepTrajectory
  simp only [Py.exec_bind, Py.exec_modify, Py.exec_get, Py.exec_lift, Py.exec_pure]
  cases hi : s.initialized with
  | true =>
    simp only [reference, hi, if_true, Option.getD_some]
    have e : ∀ c e, stepArgs { s with
      lastT := some s.t, t := s.t + s.dt, currentY := y, currentYd := yd, initialized := true } c e =
      s.stepArgs c e := fun _ _ => rfl
    rw [← e]
    cases sf.runTrajectory _ _ _ _ _ _ with
    | ok r => simp [stepped]
    | error e => simp [stepped]
  | false =>
    simp only [reference, hi, Bool.false_eq_true, if_false, Option.getD_some]
    have e : ∀ c e, stepArgs { s with
      lastT := some s.t, t := s.t + s.dt, currentY := y, currentYd := yd, initialized := true } c e =
      s.stepArgs c e := fun _ _ => rfl
    rw [← e]
    cases sf.runTrajectory _ _ _ _ _ _ with
    | ok r => simp [stepped]
    | error e => simp [stepped]

/-- `n` steps of the DMP with the arguments `ys i`, `yds i`. -/
noncomputable def stepsTrajectory (ops : QuatOps) (sf : DualStepFunction) (ys : ℕ → Vec 14) (yds : ℕ → Vec 12) :
    ℕ → Py (DualCartesianDMP m × TrajectoryCoupling) Unit
  | 0 => Pure.pure ()
  | n + 1 => do
    stepsTrajectory ops sf ys yds n
    let _ ← stepTrajectory ops sf (ys n) (yds n)

/-- The clocks of DMP and coupling object after `n` steps. -/
theorem exec_stepsTrajectory (ops : QuatOps) (sf : DualStepFunction) (ys : ℕ → Vec 14) (yds : ℕ → Vec 12)
    (s : DualCartesianDMP m) (c : TrajectoryCoupling) (f : ℝ → Vec 3 × Vec 4) (clock : ℝ)
    (hc : c.learned = some (f, clock)) (hd : 0 < s.intDt) : ∀ n : ℕ,
    ∃ s' : DualCartesianDMP m, (stepsTrajectory ops sf ys yds n).exec (s, c) =
      (.ok (), (s', { c with learned := some (f, clock + n * (⌈s.dt / s.intDt⌉₊ * c.dt)) })) ∧
      SameConfiguration s s' ∧ s'.t = s.t + n * s.dt := by
  intro n
  induction n with
  | zero => exact ⟨s, by simp [stepsTrajectory, ← hc], rfl, by simp⟩
  | succ n ih =>
    obtain ⟨s', h1, h2, h3⟩ := ih
    have hdt : s'.dt = s.dt := by rw [h2]
    have hint : s'.intDt = s.intDt := by rw [h2]
    simp only [stepsTrajectory, Py.exec_bind, h1, exec_stepTrajectory, DualStepFunction.runTrajectory]
    obtain ⟨r, hr⟩ := DualStepFunction.runLearned_clock sf ops
      (s'.stepArgs none (trackingError ops s'.reference (ys n)))
      { c with learned := some (f, clock + n * (⌈s.dt / s.intDt⌉₊ * c.dt)) } f
      (clock + n * (⌈s.dt / s.intDt⌉₊ * c.dt)) s'.t (s'.t + s'.dt) (ys n, yds n) (by simpa [stepArgs, hint] using hd)
    rw [hr]
    refine ⟨s'.stepped r.1 r.2, ?_, h2.trans (same_stepped _ _ _), ?_⟩
    · simp only [Except.map, Py.exec_pure]
      congr 5
      have : nSub s'.intDt (s'.t + s'.dt) s'.t = ⌈s.dt / s.intDt⌉₊ := by
        unfold nSub; rw [hdt, hint]; congr 2; ring
      simp only [stepArgs, this]
      push_cast; ring
    · simp only [stepped, h3, hdt]; push_cast; ring

end DualCartesianDMP

/-- C64. `n` steps of a `DualCartesianDMP` (arguments arbitrary) with a coupling object advance the DMP's time by
`n * dmp.dt` and the clock of the coupling object by `n * ⌈dmp.dt / dmp.int_dt⌉ * coupling.dt`. -/
theorem C64_clocks (ops : QuatOps) (sf : DualStepFunction) (ys : ℕ → Vec 14) (yds : ℕ → Vec 12)
    (s : DualCartesianDMP m) (c : TrajectoryCoupling) (f : ℝ → Vec 3 × Vec 4) (clock : ℝ)
    (hc : c.learned = some (f, clock)) (hd : 0 < s.intDt) (n : ℕ) :
    ∃ s' c', (DualCartesianDMP.stepsTrajectory ops sf ys yds n).exec (s, c) = (.ok (), (s', c')) ∧
      s'.t = s.t + n * s.dt ∧ c'.learned = some (f, clock + n * ⌈s.dt / s.intDt⌉₊ * c.dt) := by
  obtain ⟨s', h1, -, h3⟩ := DualCartesianDMP.exec_stepsTrajectory ops sf ys yds s c f clock hc hd n
  exact ⟨s', _, h1, h3, by simp only; congr 2; ring⟩

/-- C64, what holds: if the coupling object is constructed with `dt` equal to the DMP's `int_dt`, the DMP's `dt` is a
multiple of it and both clocks show the same time at the beginning, then in every step of the DMP (after any number `n` of
steps with any arguments) the coupling is the one of the demonstration at the time of the DMP.
For other values of `dt` and for a second execution the claim is false, see below. -/
theorem C64_synchronised (ops : QuatOps) (sf : DualStepFunction) (ys : ℕ → Vec 14) (yds : ℕ → Vec 12)
    (s : DualCartesianDMP m) (c : TrajectoryCoupling) (f : ℝ → Vec 3 × Vec 4)
    (hc : c.learned = some (f, s.t)) (hd : 0 < s.intDt) (hcdt : c.dt = s.intDt) (k : ℕ) (hk : s.dt = k * s.intDt)
    (n : ℕ) : ∃ s' c', (DualCartesianDMP.stepsTrajectory ops sf ys yds n).exec (s, c) = (.ok (), (s', c')) ∧
      c'.learned = some (f, s'.t) ∧ ∀ y yd,
        ((DualCartesianDMP.stepTrajectory ops sf y yd).exec (s', c')).1 =
          synchronisedStep sf ops (s'.stepArgs none (DualCartesianDMP.trackingError ops s'.reference y)) c f
            s'.t (s'.t + s'.dt) (y, yd) := by
  obtain ⟨s', h1, h2, h3⟩ := DualCartesianDMP.exec_stepsTrajectory ops sf ys yds s c f s.t hc hd n
  have hint : s'.intDt = s.intDt := by rw [h2]
  have hceil : ⌈s.dt / s.intDt⌉₊ = k := by
    rw [hk, mul_div_assoc, div_self hd.ne', mul_one, Nat.ceil_natCast]
  have hclock : s.t + n * (⌈s.dt / s.intDt⌉₊ * c.dt) = s'.t := by rw [h3, hceil, hcdt, hk]
  rw [hclock] at h1
  refine ⟨s', _, h1, rfl, fun y yd => ?_⟩
  rw [DualCartesianDMP.exec_stepTrajectory]
  simp only [DualStepFunction.runTrajectory]
  have hs := DualStepFunction.runLearned_synchronised sf ops
    (s'.stepArgs none (DualCartesianDMP.trackingError ops s'.reference y)) { c with learned := some (f, s'.t) } f
    s'.t (s'.t + s'.dt) (y, yd) (by simpa [DualCartesianDMP.stepArgs, hint] using hd)
    (by simpa [DualCartesianDMP.stepArgs, hint] using hcdt)
  have hsame : synchronisedStep sf ops (s'.stepArgs none (DualCartesianDMP.trackingError ops s'.reference y))
      { c with learned := some (f, s'.t) } f s'.t (s'.t + s'.dt) (y, yd) =
    synchronisedStep sf ops (s'.stepArgs none (DualCartesianDMP.trackingError ops s'.reference y)) c f s'.t
      (s'.t + s'.dt) (y, yd) := rfl
  rw [← hsame, ← hs]
  generalize DualStepFunction.runLearned _ _ _ _ _ _ _ _ _ = w
  cases w <;> rfl

/-- C64, violation: with the `dt` of the DMP as `dt` of the coupling object (as in
`examples/external_dependencies/plot_imitate_panel_rh5.py`) and a smaller integration step `int_dt`, the coupling object
runs through the demonstration at least twice as fast as the DMP. -/
theorem C64_runs_ahead (ops : QuatOps) (sf : DualStepFunction) (ys : ℕ → Vec 14) (yds : ℕ → Vec 12)
    (s : DualCartesianDMP m) (c : TrajectoryCoupling) (f : ℝ → Vec 3 × Vec 4)
    (hc : c.learned = some (f, s.t)) (hd : 0 < s.intDt) (hlt : s.intDt < s.dt) (hcdt : c.dt = s.dt) (n : ℕ) :
    ∃ s' c' clock, (DualCartesianDMP.stepsTrajectory ops sf ys yds n).exec (s, c) = (.ok (), (s', c')) ∧
      c'.learned = some (f, clock) ∧ 2 * (s'.t - s.t) ≤ clock - s.t := by
  obtain ⟨s', c', h1, h2, h3⟩ := C64_clocks ops sf ys yds s c f s.t hc hd n
  refine ⟨s', c', _, h1, h3, ?_⟩
  have hceil : 2 ≤ ⌈s.dt / s.intDt⌉₊ := by
    have h1 : 1 < s.dt / s.intDt := by rwa [one_lt_div hd]
    have h2 : (1 : ℝ) < (⌈s.dt / s.intDt⌉₊ : ℝ) := lt_of_lt_of_le h1 (Nat.le_ceil _)
    exact_mod_cast h2
  have hceil' : (2 : ℝ) ≤ (⌈s.dt / s.intDt⌉₊ : ℝ) := by exact_mod_cast hceil
  rw [h2, hcdt]
  have hpos : 0 ≤ (n : ℝ) * s.dt := mul_nonneg (Nat.cast_nonneg _) (hd.trans hlt).le
  nlinarith

/-- Demonstration: both end effectors have the orientation of the base frame, the right one moves along the first
axis. -/
noncomputable def movingRight (t : ℝ) : Vec 14 :=
  joinState (fun arm => if arm = 0 then 0 else ![t, 0, 0]) fun _ => ![1, 0, 0, 0]

theorem matrixFromQuaternion_one : matrixFromQuaternion ![1, 0, 0, 0] = ![![1, 0, 0], ![0, 1, 0], ![0, 0, 1]] := by
  have : normQuat ![1, 0, 0, 0] = ![1, 0, 0, 0] := normQuat_of_unit (by simp [UnitQuat])
  simp [matrixFromQuaternion, this]

theorem right2left_movingRight (t : ℝ) : (right2leftPq (movingRight t)).1 = ![t, 0, 0] := by
  simp only [right2leftPq, movingRight, armPos_joinState, armRot_joinState, transformFromPq, Transform.invert,
    Transform.concat, matrixFromQuaternion_one]
  ext i
  fin_cases i <;> simp [matVec]

/-- A coupling object with `dt = 1`, without offset, that adapts the right arm. -/
def rightFollower : TrajectoryCoupling :=
  { offset := (0, 0), lf := ![0, 1], dt := 1, couplePosition := true, coupleOrientation := false, k := 1, c1 := 1,
    c2 := 30, learned := none }

theorem rightFollower_velocity (ops : QuatOps) (f : ℝ → Vec 3 × Vec 4) (τ t : ℝ) (yd : Vec 12) :
    (couplingTowards ops rightFollower f τ (movingRight t) yd).1 6 = (f τ).1 0 - t := by
  have h6 : ∀ a b c d : Vec 3, hstack4 a b c d 6 = c 0 := fun a b c d => rfl
  simp only [couplingTowards, DualPoseCoupling.coupling, h6, rightFollower, right2left_movingRight]
  simp [movingRight, transformFromPq, matrixFromQuaternion_one, matVec]

/-- C64, violation: a second execution of a DMP that passes the same states gets other coupling terms, since nothing but
`imitate` resets the clock of the coupling object. Here an execution has one step: the first call pulls the right end
effector to where the demonstration starts, the second one (first call of the second execution) to where it ends. -/
theorem C64_second_execution (ops : QuatOps) : ∃ c' : TrajectoryCoupling,
    (TrajectoryCoupling.imitate ![0, 1] ![movingRight 0, movingRight 1]).exec rightFollower = (.ok (), c') ∧
      ∃ r₁ r₂, ((TrajectoryCoupling.calls ops (fun _ => movingRight 0) (fun _ => 0) 2).exec c').1 = .ok [r₁, r₂] ∧
        r₁.1 6 = 0 ∧ r₂.1 6 = 1 := by
  have hT : StrictMono (![0, 1] : Fin 2 → ℝ) := by
    intro i j hij
    fin_cases i <;> fin_cases j <;> simp at hij ⊢
  obtain ⟨c', f, h1, ⟨h2, -⟩, h3⟩ := C64_calls ![0, 1] hT ![movingRight 0, movingRight 1] rightFollower ops
  refine ⟨c', h1, _, _, h3 (fun _ => movingRight 0) (fun _ => 0) 2, ?_, ?_⟩
  · have := h2 0 0 0 (.inr rfl) (.inr rfl)
    simp [right2left_movingRight] at this
    simp [rightFollower_velocity, this]
  · have := h2 0 0 1 (.inr rfl) (.inr rfl)
    simp [right2left_movingRight] at this
    rw [rightFollower_velocity]
    simp [rightFollower, this]

/-- The hypotheses of `C64_synchronised` are met by a new DMP with `dt = 0.01`, `int_dt = 0.001` and a
coupling object with `dt = 0.001`, those of `C64_runs_ahead` if the coupling object has `dt = 0.01`. -/
example (ft : ForcingTerm 12 5) : ∃ s : DualCartesianDMP 5, ∃ c : TrajectoryCoupling, ∃ c' : TrajectoryCoupling,
    s.t = 0 ∧ 0 < s.intDt ∧ s.intDt < s.dt ∧ s.dt = (10 : ℕ) * s.intDt ∧
    c.learned = some (fun _ => (0, 0), s.t) ∧ c.dt = s.intDt ∧
    c'.learned = some (fun _ => (0, 0), s.t) ∧ c'.dt = s.dt := by
  refine ⟨{ Movement.init 14 12 with
    executionTime := 1, dt := 1 / 100, intDt := 1 / 1000, pGain := 0, smooth := false, ft := ft, alphaY := 0, betaY := 0,
    initialized := false }, { rightFollower with dt := 1 / 1000, learned := some (fun _ => (0, 0), 0) },
    { rightFollower with dt := 1 / 100, learned := some (fun _ => (0, 0), 0) }, ?_⟩
  simp only [Movement.init]
  norm_num

end Verif
