import Verif.Model.StateSpaceDistribution
import Verif.Props.DualImitate

/-! # Distribution of DMP parameters and its propagation to state space (C54) -/

namespace Verif
open Spec StateSpace
variable {m : ℕ}

/-! ## Layout of parameter vectors -/

/-- **C54.** Splitting a parameter vector gives back the weights, the start and the goal that were stacked. -/
theorem C54_split_stack (w : List ℝ) (hw : w.length = 2 * 6 * m) (s g : Vec 14) (e : ℝ) :
    split m (stack w s g e) = .ok (w, List.ofFn s, List.ofFn g) := by
  unfold split stack
  rw [if_neg (by simp [hw])]
  simp only [Except.ok.injEq, Prod.mk.injEq]
  refine ⟨?_, ?_, ?_⟩
  · rw [List.append_assoc, List.append_assoc, ← hw, List.take_left']
    rfl
  · rw [List.append_assoc, List.append_assoc, ← hw, List.drop_left' rfl]
    exact List.take_left' (by simp)
  · rw [List.append_assoc, List.drop_left' (by simp [hw])]
    exact List.take_left' (by simp)

/-- **C54.** The vectors have one more entry, the execution time, at the end. -/
theorem C54_execution_time_entry (w : List ℝ) (hw : w.length = 2 * 6 * m) (s g : Vec 14) (e : ℝ) :
    (stack w s g e).length = 2 * 6 * m + 2 * 14 + 1 ∧ (stack w s g e).getLast? = some e := by
  unfold stack
  simp [hw]

/-- **C54.** The execution time of a sampled parameter vector is ignored: only the first `12 m + 28` entries influence the
trajectory. -/
theorem C54_execution_time_ignored (ops : QuatOps) (name : String) (τ dt intDt : ℝ) (p q q' : List ℝ)
    (hp : p.length = 2 * 6 * m + 2 * 14) :
    trajectory ops name m τ dt intDt (p ++ q) = trajectory ops name m τ dt intDt (p ++ q') := by
  have h : ∀ q, split m (p ++ q) = split m p := by
    intro q
    unfold split
    rw [if_neg (by simp [hp]), if_neg (by simp [hp])]
    simp only [Except.ok.injEq, Prod.mk.injEq]
    refine ⟨?_, ?_, ?_⟩
    · rw [List.take_append_of_le_length (by omega)]
    · rw [List.drop_append_of_le_length (by omega), List.take_append_of_le_length (by simp [hp])]
    · rw [List.drop_append_of_le_length (by omega), List.take_append_of_le_length (by simp [hp])]
  unfold trajectory configured
  rw [h q, h q']

/-! ## Sampled parameters and learned DMPs -/

theorem StateSpace.DualCartesianDMP.create_scalar {τ dt intDt pGain : ℝ} {smooth : Bool} {α β : ℝ} {s : DualCartesianDMP m} :
    DualCartesianDMP.create m τ dt intDt pGain smooth (.scalar α) (.scalar β) = .ok s ↔
      ∃ ft, DMP.initForcingTerm 12 m τ = .ok ft ∧ s = { Movement.init 14 12 with
        executionTime := τ, dt := dt, intDt := intDt, pGain := pGain, smooth := smooth, ft := ft
        alphaY := fun _ => α, betaY := fun _ => β, initialized := false } := by
  unfold DualCartesianDMP.create
  rw [show DualCartesianDMP.initForcingTerm m τ = DMP.initForcingTerm 12 m τ from rfl]
  cases DMP.initForcingTerm 12 m τ with
  | error e => simp [bind, Except.bind]
  | ok ft =>
    simp [bind, Except.bind, C59_ensure_1d_array, Pure.pure, Except.pure, eq_comm]

/-- **C54.** Let `dmp` be the DMP learned from a demonstration. Its parameter vector, used as sigma point, is turned into a
DMP that is equal to `dmp` but for the `dt` of the argument and the execution time, which is replaced by the mean execution
time `τ` (as by assignment to `execution_time_`). -/
theorem C54_sample_is_demonstration {ops : QuatOps} {qgrad : ∀ n, (Fin (n + 2) → Vec 4) → Fin (n + 2) → Vec 3}
    {intDt : ℝ} {x : DualDemo} {dmp : DualCartesianDMP m} (h : learnDmp ops qgrad m intDt x = .ok dmp)
    {τ : ℝ} (hτ : 0 < τ) (dt e : ℝ) :
    ∃ dmp', (DualCartesianDMP.setExecutionTime τ).exec dmp = (.ok (), dmp') ∧
      configured m τ dt intDt (stack dmp.getWeights (x.Y 0) (x.Y (Fin.last _)) e) = .ok { dmp' with dt := dt } := by
  unfold learnDmp at h
  cases hc : DualCartesianDMP.create m (x.T (Fin.last _)) x.dt intDt 0 false (.scalar 25) (.scalar (25 / 4)) with
  | error e => rw [hc] at h; cases h
  | ok s0 =>
    rw [hc] at h
    simp only [bind, Except.bind] at h
    by_cases hT : x.T 0 < x.T (Fin.last _)
    · have hs0 : s0.Reachable := .create hc
      obtain ⟨w, hw, -⟩ := C28_dual_imitate hs0 ops (qgrad x.n) x.T x.Y le_rfl hT false
      rw [hw] at h
      simp only [Except.ok.injEq] at h
      subst h
      obtain ⟨ft0, -, rfl⟩ := StateSpace.DualCartesianDMP.create_scalar.1 hc
      obtain ⟨ft, hft⟩ := (DMP.initForcingTerm_isOk_iff (d := 12) (m := m) τ).2 ⟨hs0.valid.two, hτ⟩
      refine ⟨_, by rw [DualCartesianDMP.exec_setExecutionTime, hft], ?_⟩
      unfold configured
      rw [C54_split_stack _ (by simp [DualCartesianDMP.getWeights])]
      simp only [bind, Except.bind]
      rw [(StateSpace.DualCartesianDMP.create_scalar (m := m)).2 ⟨ft, hft, rfl⟩]
      unfold setParameters
      simp only [Py.exec_bind, DualCartesianDMP.exec_configure]
      rw [C25_configure_sets _ _ (by simp [AllOk, FieldOk])]
      simp only [newValue_ofFn, DualCartesianDMP.exec_setWeights]
      have hr : DMP.reshapeWeights 12 m (DualCartesianDMP.getWeights (m := m)
          { { Movement.init 14 12 with startY := x.Y 0, goalY := x.Y (Fin.last _) } with
            executionTime := x.T (Fin.last _), dt := x.dt, intDt := intDt, pGain := 0, smooth := false
            ft := { ft0 with weights := w }, alphaY := fun _ => 25, betaY := fun _ => 25 / 4, initialized := false }) =
          .ok w := by
        have := C22_dual_get_set (m := m) { { Movement.init 14 12 with startY := x.Y 0, goalY := x.Y (Fin.last _) } with
            executionTime := x.T (Fin.last _), dt := x.dt, intDt := intDt, pGain := 0, smooth := false
            ft := { ft0 with weights := w }, alphaY := fun _ => 25, betaY := fun _ => 25 / 4, initialized := false }
        rw [DualCartesianDMP.exec_setWeights] at this
        split at this
        · rename_i w' hw'
          rw [hw']
          simp only [Prod.mk.injEq, true_and, DualCartesianDMP.mk.injEq, ForcingTerm.mk.injEq] at this
          rw [this.1.1]
        · simp at this
      rw [hr]
      have hn : ∀ {p : ℕ} (o : Vec p), newValue none o = o := fun o => rfl
      simp only [hn, Option.getD_none]
    · rw [C28_dual_raises _ _ _ _ _ _ _ (.inr (not_lt.1 hT))] at h
      cases h

/-- **C54.** In particular, if the mean execution time is the duration of the demonstration, the trajectory of the sigma
point is the `open_loop` trajectory of the learned DMP with the requested `dt`. -/
theorem C54_same_duration {ops : QuatOps} {qgrad : ∀ n, (Fin (n + 2) → Vec 4) → Fin (n + 2) → Vec 3}
    {intDt : ℝ} {x : DualDemo} {dmp : DualCartesianDMP m} (h : learnDmp ops qgrad m intDt x = .ok dmp)
    (name : String) (dt e : ℝ) :
    trajectory ops name m (x.T (Fin.last _)) dt intDt (stack dmp.getWeights (x.Y 0) (x.Y (Fin.last _)) e) =
      ((DualCartesianDMP.openLoop ops none none name).exec { dmp with dt := dt }).1.map
        fun r => r.2.flatMap fun y => List.ofFn y := by
  have h' := h
  unfold learnDmp at h
  cases hc : DualCartesianDMP.create m (x.T (Fin.last _)) x.dt intDt 0 false (.scalar 25) (.scalar (25 / 4)) with
  | error e => rw [hc] at h; cases h
  | ok s0 =>
    rw [hc] at h
    simp only [bind, Except.bind] at h
    by_cases hT : x.T 0 < x.T (Fin.last _)
    · have hs0 : s0.Reachable := .create hc
      obtain ⟨w, hw, -⟩ := C28_dual_imitate hs0 ops (qgrad x.n) x.T x.Y le_rfl hT false
      rw [hw] at h
      simp only [Except.ok.injEq] at h
      obtain ⟨ft, hft, rfl⟩ := StateSpace.DualCartesianDMP.create_scalar.1 hc
      have hpos : 0 < x.T (Fin.last _) :=
        ((DMP.initForcingTerm_isOk_iff (d := 12) (m := m) (x.T (Fin.last _))).1 ⟨ft, hft⟩).2
      obtain ⟨dmp', h1, h2⟩ := C54_sample_is_demonstration h' hpos dt e
      rw [← h, DualCartesianDMP.exec_setExecutionTime, hft] at h1
      simp only [Prod.mk.injEq, true_and] at h1
      unfold trajectory
      rw [h2, ← h1, ← h]
      simp only [bind, Except.bind, DualCartesianDMP.exec_openLoop, Option.getD_some, Option.getD_none]
      cases DualStepFunction.lookup ops name with
      | error e => rfl
      | ok sf =>
        simp only
        generalize DualCartesianDMP.loop _ _ _ _ _ = l
        rcases l with ⟨_ | _, _⟩ <;> rfl
    · rw [C28_dual_raises _ _ _ _ _ _ _ (.inr (not_lt.1 hT))] at h
      cases h

/-! ## The trajectories can be stacked, short time steps are skipped -/

theorem StateSpace.configured_eq (τ dt intDt : ℝ) {p : List ℝ} (hp : 2 * 6 * m + 2 * 14 ≤ p.length) :
    ∃ (w : Fin 12 → Fin m → ℝ) (s g : Vec 14), configured m τ dt intDt p =
      (DMP.initForcingTerm 12 m τ).map fun ft => { { Movement.init 14 12 with startY := s, goalY := g } with
        executionTime := τ, dt := dt, intDt := intDt, pGain := 0, smooth := false, ft := { ft with weights := w }
        alphaY := fun _ => 25, betaY := fun _ => 25 / 4, initialized := false } := by
  have hw : (p.take (2 * 6 * m)).length = 12 * m := by rw [List.length_take]; omega
  obtain ⟨w, hr⟩ : ∃ w, DMP.reshapeWeights 12 m (p.take (2 * 6 * m)) = .ok w := by
    unfold DMP.reshapeWeights
    rw [dif_pos hw]
    exact ⟨_, rfl⟩
  refine ⟨w, fun i => ((p.drop (2 * 6 * m)).take 14).getD i.val 0,
    fun i => ((p.drop (2 * 6 * m + 14)).take 14).getD i.val 0, ?_⟩
  unfold configured split
  rw [if_neg (by omega)]
  simp only [bind, Except.bind]
  cases hft : DMP.initForcingTerm 12 m τ with
  | error e =>
    have : DualCartesianDMP.create m τ dt intDt 0 false (.scalar 25) (.scalar (25 / 4)) = .error e := by
      unfold DualCartesianDMP.create
      rw [show DualCartesianDMP.initForcingTerm m τ = DMP.initForcingTerm 12 m τ from rfl, hft]
      rfl
    rw [this]
    rfl
  | ok ft =>
    rw [(StateSpace.DualCartesianDMP.create_scalar (m := m)).2 ⟨ft, hft, rfl⟩]
    simp only
    unfold setParameters
    simp only [Py.exec_bind, DualCartesianDMP.exec_configure]
    rw [C25_configure_sets _ _ (by simp [AllOk, FieldOk]; omega)]
    simp only [DualCartesianDMP.exec_setWeights, hr]
    rfl

/-- Two calls of a step function with the same times and sub-step length both succeed or both fail. -/
theorem DualStepFunction.run_lockstep (sf : DualStepFunction) (a a' : DualStepArgs m) (h : a.intDt = a'.intDt)
    (lastT t : ℝ) (x x' : Vec 14 × Vec 12) :
    (∃ r r', sf.run a lastT t x = .ok r ∧ sf.run a' lastT t x' = .ok r') ∨
      ∃ e, sf.run a lastT t x = .error e ∧ sf.run a' lastT t x' = .error e := by
  cases sf with
  | python ops =>
    simp only [DualStepFunction.run, DualStepArgs.stepPy, h]
    rcases intLoop_rel (upd := a.bodyPy ops) (upd' := a'.bodyPy ops) (fun _ _ => True) (intDt := a'.intDt) (t := t)
      (fun _ _ _ _ _ => trivial) (lastT := lastT) (s := (if t ≤ a.startT then (a.startY, a.startYd) else x, (0, 0)))
      (s' := (if t ≤ a'.startT then (a'.startY, a'.startYd) else x', (0, 0))) trivial with ⟨h1, h2⟩ | ⟨r, r', h1, h2, -⟩
    · right; exact ⟨_, by rw [h1]; rfl, by rw [h2]; rfl⟩
    · left; exact ⟨r.1, r'.1, by rw [h1]; rfl, by rw [h2]; rfl⟩
  | cython =>
    simp only [DualStepFunction.run, DualStepArgs.stepCy, h]
    rcases intLoop_rel (upd := a.bodyCy) (upd' := a'.bodyCy) (fun _ _ => True) (intDt := a'.intDt) (t := t)
      (fun _ _ _ _ _ => trivial) (lastT := lastT) (s := (if t ≤ a.startT then (a.startY, a.startYd) else x))
      (s' := (if t ≤ a'.startT then (a'.startY, a'.startYd) else x')) trivial with ⟨h1, h2⟩ | ⟨r, r', h1, h2, -⟩
    · right; exact ⟨_, h1, h2⟩
    · left; exact ⟨r, r', h1, h2⟩

/-- **C54.** The trajectories of any two parameter vectors have the same length (or the same exception is raised for
both). -/
theorem C54_same_length (ops : QuatOps) (name : String) (τ dt intDt : ℝ) {p p' : List ℝ}
    (hp : 2 * 6 * m + 2 * 14 ≤ p.length) (hp' : 2 * 6 * m + 2 * 14 ≤ p'.length) :
    (∃ r r', trajectory ops name m τ dt intDt p = .ok r ∧ trajectory ops name m τ dt intDt p' = .ok r' ∧
      r.length = r'.length) ∨
    ∃ e, trajectory ops name m τ dt intDt p = .error e ∧ trajectory ops name m τ dt intDt p' = .error e := by
  unfold trajectory
  obtain ⟨w, s, g, h⟩ := StateSpace.configured_eq τ dt intDt hp
  obtain ⟨w', s', g', h'⟩ := StateSpace.configured_eq τ dt intDt hp'
  rw [h, h']
  cases DMP.initForcingTerm 12 m τ with
  | error e => right; exact ⟨e, rfl, rfl⟩
  | ok ft =>
  simp only [Except.map, bind, Except.bind, DualCartesianDMP.exec_openLoop, Option.getD_some]
  cases DualStepFunction.lookup ops name with
  | error e => right; exact ⟨e, rfl, rfl⟩
  | ok sf =>
  simp only
  generalize hd : ({ { Movement.init 14 12 with startY := s, goalY := g } with
        executionTime := τ, dt := dt, intDt := intDt, pGain := 0, smooth := false, ft := { ft with weights := w }
        alphaY := fun _ => 25, betaY := fun _ => 25 / 4, initialized := false } : DualCartesianDMP m) = d
  generalize hd' : ({ { Movement.init 14 12 with startY := s', goalY := g' } with
        executionTime := τ, dt := dt, intDt := intDt, pGain := 0, smooth := false, ft := { ft with weights := w' }
        alphaY := fun _ => 25, betaY := fun _ => 25 / 4, initialized := false } : DualCartesianDMP m) = d'
  rcases DualCartesianDMP.loop_rel (ops := ops) (ops' := ops) (c := none) (c' := none) (sf := sf) (sf' := sf)
      (runT := τ) (s := d) (s' := d')
      (fun x s1 x' s1' => s1.t = s1'.t ∧ s1.dt = s1'.dt ∧ s1.intDt = s1'.intDt ∧ x.Y.length = x'.Y.length)
      (fun _ _ => True)
      (fun _ _ _ _ h => h.1)
      (by
        rintro x s1 x' s1' ⟨h1, h2, h3, h4⟩
        rw [h1, h2]
        rcases sf.run_lockstep (s1.stepArgs none (DualCartesianDMP.trackingError ops s1.reference x.y))
          (s1'.stepArgs none (DualCartesianDMP.trackingError ops s1'.reference x'.y)) h3 s1'.t (s1'.t + s1'.dt)
          (x.y, x.yd) (x'.y, x'.yd) with ⟨r, r', e1, e2⟩ | ⟨e, e1, e2⟩
        · left
          refine ⟨r, r', e1, e2, ?_, h2, h3, by simp [h4]⟩
          show s1.t + s1.dt = s1'.t + s1'.dt
          rw [h1, h2]
        · right; exact ⟨e, e1, e2, trivial⟩)
      (fun _ _ _ _ _ => trivial) (by rw [← hd, ← hd']; exact ⟨rfl, rfl, rfl, rfl⟩) with
      ⟨y, t, y', t', h1, h2, -, -, -, h3⟩ | ⟨e, t, t', h1, h2, -⟩
  · left
    rw [h1, h2]
    exact ⟨_, _, rfl, rfl, by simp [List.length_flatMap, h3]⟩
  · right
    rw [h1, h2]
    exact ⟨_, rfl, rfl⟩

theorem StateSpace.mapM_cases {α β : Type} (f : α → Except PyErr β) (R : β → β → Prop) (x : α) (xs : List α)
    (h : ∀ y ∈ x :: xs, ∀ z ∈ x :: xs, (∃ r r', f y = .ok r ∧ f z = .ok r' ∧ R r r') ∨
      ∃ e, f y = .error e ∧ f z = .error e) :
    (∃ r rs, f x = .ok r ∧ (x :: xs).mapM f = .ok (r :: rs) ∧ rs.length = xs.length ∧ ∀ r' ∈ rs, R r r') ∨
      ∃ e, f x = .error e ∧ (x :: xs).mapM f = .error e := by
  cases hx : f x with
  | error e => right; exact ⟨e, rfl, by simp [List.mapM_cons, hx, bind, Except.bind]⟩
  | ok r =>
    left
    suffices ∃ rs, xs.mapM f = .ok rs ∧ rs.length = xs.length ∧ ∀ r' ∈ rs, R r r' by
      obtain ⟨rs, h1, h2, h3⟩ := this
      exact ⟨r, rs, rfl, by simp [List.mapM_cons, hx, h1, bind, Except.bind, Pure.pure, Except.pure], h2, h3⟩
    have h' : ∀ z ∈ xs, ∃ r', f z = .ok r' ∧ R r r' := by
      intro z hz
      rcases h x (by simp) z (by simp [hz]) with ⟨r1, r', h1, h2, h3⟩ | ⟨e, h1, h2⟩
      · rw [hx] at h1; cases h1; exact ⟨r', h2, h3⟩
      · rw [hx] at h1; cases h1
    clear h
    induction xs with
    | nil => exact ⟨[], rfl, rfl, by simp⟩
    | cons z zs ih =>
      obtain ⟨r', h1, h2⟩ := h' z (by simp)
      obtain ⟨rs, h3, h4, h5⟩ := ih (fun y hy => h' y (by simp [hy]))
      refine ⟨r' :: rs, by simp [List.mapM_cons, h1, h3, bind, Except.bind, Pure.pure, Except.pure], by simp [h4], ?_⟩
      intro q hq
      rcases List.mem_cons.1 hq with rfl | hq
      · exact h2
      · exact h5 q hq

/-- **C54.** For one or more sigma points of sufficient length the result has one row for each sigma point, and all rows
have the same length, unless the same exception is raised as for the first of them. -/
theorem C54_propagate (ops : QuatOps) (name : String) (τ dt intDt : ℝ) (p : List ℝ) (ps : List (List ℝ))
    (hp : ∀ q ∈ p :: ps, 2 * 6 * m + 2 * 14 ≤ q.length) :
    (∃ r rs, trajectory ops name m τ dt intDt p = .ok r ∧ propagate ops name m τ dt intDt (p :: ps) = .ok (r :: rs) ∧
      rs.length = ps.length ∧ ∀ q ∈ rs, q.length = r.length) ∨
    ∃ e, trajectory ops name m τ dt intDt p = .error e ∧ propagate ops name m τ dt intDt (p :: ps) = .error e := by
  unfold propagate
  rcases StateSpace.mapM_cases (trajectory ops name m τ dt intDt) (fun r r' => r'.length = r.length) p ps (by
    intro y hy z hz
    rcases C54_same_length ops name τ dt intDt (hp y hy) (hp z hz) with ⟨r, r', h1, h2, h3⟩ | h
    · exact .inl ⟨r, r', h1, h2, h3.symm⟩
    · exact .inr h) with ⟨r, rs, h1, h2, h3, h4⟩ | ⟨e, h1, h2⟩
  · left
    refine ⟨r, rs, h1, ?_, h3, h4⟩
    rw [h2]
    simp only [bind, Except.bind, vstack]
    rw [if_pos h4]
  · right
    refine ⟨e, h1, ?_⟩
    rw [h2]
    rfl

/-- **C54.** Demonstrations with a mean time step below 5 ms have no influence on the distribution. -/
theorem C54_fast_demonstrations_ignored (env : Env) (a : Args) :
    compute env a = compute env { a with dataset := a.dataset.filter fun x => ¬ x.dt < 5 / 1000 } := by
  have h : ∀ l : List DualDemo, collect env.ops env.qgrad a.nWeightsPerDim a.intDt l =
      collect env.ops env.qgrad a.nWeightsPerDim a.intDt (l.filter fun x => ¬ x.dt < 5 / 1000) := by
    intro l
    induction l with
    | nil => rfl
    | cons x l ih =>
      by_cases hx : x.dt < 5 / 1000
      · rw [List.filter_cons_of_neg (by simpa using hx), collect, if_pos hx, ih]
      · rw [List.filter_cons_of_pos (by simpa using hx), collect, if_neg hx, collect, if_neg hx, ih]
  unfold compute estimateParameters
  rw [h]

/-- **C54.** If there are no other demonstrations, a ValueError is raised. -/
theorem C54_only_fast_demonstrations (env : Env) (a : Args) (h : ∀ x ∈ a.dataset, x.dt < 5 / 1000) :
    compute env a = .error .valueError := by
  rw [C54_fast_demonstrations_ignored, List.filter_eq_nil_iff.2 (by simpa using h)]
  unfold compute estimateParameters collect
  rfl

/-! ## The cache file -/

theorem StateSpace.trajectory_ne_nil {ops : QuatOps} {name : String} {τ dt intDt : ℝ} {p r : List ℝ}
    (h : trajectory ops name m τ dt intDt p = .ok r) : r ≠ [] := by
  unfold trajectory at h
  cases hc : configured m τ dt intDt p with
  | error e => rw [hc] at h; cases h
  | ok d =>
  rw [hc] at h
  simp only [bind, Except.bind, DualCartesianDMP.exec_openLoop, Option.getD_some] at h
  cases hl : DualStepFunction.lookup ops name with
  | error e => rw [hl] at h; cases h
  | ok sf =>
  rw [hl] at h
  simp only at h
  rcases DualCartesianDMP.loop_rel (ops := ops) (ops' := ops) (c := none) (c' := none) (sf := sf) (sf' := sf)
      (runT := τ) (s := d) (s' := d) (fun x s1 x' s1' => x = x' ∧ s1 = s1' ∧ x.Y ≠ []) (fun _ _ => True)
      (by rintro x s1 x' s1' ⟨rfl, rfl, -⟩; rfl)
      (by
        rintro x s1 x' s1' ⟨rfl, rfl, h1⟩
        cases sf.run (s1.stepArgs none (DualCartesianDMP.trackingError ops s1.reference x.y)) s1.t (s1.t + s1.dt)
          (x.y, x.yd) with
        | ok r => left; exact ⟨r, r, rfl, rfl, rfl, rfl, by simp⟩
        | error e => right; exact ⟨e, rfl, rfl, trivial⟩)
      (fun _ _ _ _ _ => trivial) ⟨rfl, rfl, by simp⟩ with
      ⟨y, t, y', t', h1, -, -, -, h2⟩ | ⟨e, t, t', h1, -, -⟩
  · rw [h1] at h
    simp only [Pure.pure, Except.pure, Except.ok.injEq] at h
    obtain ⟨y0, ys, hy⟩ := List.exists_cons_of_ne_nil h2
    rw [← h, hy]
    simp
  · rw [h1] at h; cases h

theorem StateSpace.mapM_mem {α β : Type} {f : α → Except PyErr β} {xs : List α} {rs : List β}
    (h : xs.mapM f = .ok rs) : ∀ r ∈ rs, ∃ x ∈ xs, f x = .ok r := by
  induction xs generalizing rs with
  | nil => cases h; simp
  | cons x xs ih =>
    simp only [List.mapM_cons, bind, Except.bind] at h
    cases hx : f x with
    | error e => rw [hx] at h; cases h
    | ok r =>
      rw [hx] at h
      simp only at h
      cases hxs : xs.mapM f with
      | error e => rw [hxs] at h; cases h
      | ok rs' =>
        rw [hxs] at h
        cases h
        intro q hq
        rcases List.mem_cons.1 hq with rfl | hq
        · exact ⟨x, by simp, hx⟩
        · obtain ⟨y, hy, h'⟩ := ih hxs q hq
          exact ⟨y, by simp [hy], h'⟩

/-- Computed trajectories are a matrix with at least one row and one column. -/
theorem StateSpace.compute_shape {env : Env} {a : Args} {rows : List (List ℝ)} (h : compute env a = .ok rows) :
    rows ≠ [] ∧ ∃ n, 0 < n ∧ ∀ r ∈ rows, r.length = n := by
  unfold compute at h
  cases he : estimateParameters env.ops env.qgrad a.nWeightsPerDim a.intDt a.dataset with
  | error e => rw [he] at h; cases h
  | ok q =>
    rw [he] at h
    simp only [bind, Except.bind, propagate] at h
    split at h
    · cases h
    · rename_i rs hrs
      cases rs with
      | nil => simp [vstack] at h
      | cons r rs =>
        unfold vstack at h
        simp only at h
        split_ifs at h with hlen
        cases h
        refine ⟨by simp, r.length, ?_, ?_⟩
        · obtain ⟨x, -, hx⟩ := StateSpace.mapM_mem hrs r (by simp)
          exact List.length_pos_iff.2 (StateSpace.trajectory_ne_nil hx)
        · intro r' hr'
          rcases List.mem_cons.1 hr' with rfl | hr'
          · rfl
          · exact hlen r' hr'

theorem StateSpace.linesFrom_numbers (line xs : List ℝ) (ts : List Token) :
    linesFrom line (xs.map .number ++ ts) = linesFrom (line ++ xs) ts := by
  induction xs generalizing line with
  | nil => simp
  | cons x xs ih => simp [linesFrom, ih]

theorem StateSpace.linesFrom_saveText (rows : List (List ℝ)) (ts : List Token) :
    linesFrom [] (saveText rows ++ ts) = rows ++ linesFrom [] ts := by
  induction rows with
  | nil => rfl
  | cons row rows ih =>
    have : saveText (row :: rows) ++ ts = row.map .number ++ (.newline :: (saveText rows ++ ts)) := by
      simp [saveText]
    rw [this, StateSpace.linesFrom_numbers, List.nil_append]
    simp [linesFrom, ih]

/-- The file contains `rows` and the first numbers `part` of another row. -/
theorem StateSpace.loadText_eq {rows : List (List ℝ)} (h : ∀ r ∈ rows, r ≠ []) (part : List ℝ) :
    loadText (saveText rows ++ part.map .number) =
      match rows ++ (if part = [] then [] else [part]) with
      | [] => .ok []
      | row :: rows => if ∀ r ∈ rows, r.length = row.length then .ok (row :: rows) else .error .valueError := by
  have e : (linesFrom [] (saveText rows ++ part.map .number)).filter (· ≠ []) =
      rows ++ (if part = [] then [] else [part]) := by
    rw [StateSpace.linesFrom_saveText]
    have := StateSpace.linesFrom_numbers [] part []
    simp only [List.append_nil, List.nil_append] at this
    rw [this, List.filter_append, List.filter_eq_self.2 (by simpa using h)]
    by_cases hp : part = [] <;> simp [linesFrom, hp]
  unfold loadText
  rw [e]
  rfl

/-- File after the first `n` effects of a call, i.e. if the program is killed at that point. -/
noncomputable def StateSpace.fileAfter (env : Env) (a : Args) (n : ℕ) (file : Option (List Token)) :
    Option (List Token) :=
  ((cachedTrajectories env a file).2.take n).foldl CacheOp.apply file

theorem StateSpace.foldl_write (text ts : List Token) :
    (ts.map CacheOp.write).foldl CacheOp.apply (some text) = some (text ++ ts) := by
  induction ts generalizing text with
  | nil => simp
  | cons t ts ih => simp [CacheOp.apply, ih]

theorem StateSpace.fileAfter_none {env : Env} {a : Args} {rows : List (List ℝ)} (h : compute env a = .ok rows) (n : ℕ) :
    fileAfter env a n none = if n = 0 then none else some ((saveText rows).take (n - 1)) := by
  unfold fileAfter cachedTrajectories
  rw [h]
  cases n with
  | zero => rfl
  | succ n =>
    simp only [List.take_succ_cons, List.foldl_cons, CacheOp.apply, ← List.map_take]
    rw [StateSpace.foldl_write]
    simp

/-- **C54.** A call that is not interrupted saves its trajectories, and every later call loads exactly them, whatever its
arguments are (another data set, number of weights, `dt`, ...). -/
theorem C54_cache {env : Env} {a : Args} {rows : List (List ℝ)} (h : compute env a = .ok rows) :
    ∃ n, ∀ k, n ≤ k → ∀ env' a', (cachedTrajectories env a none).1 = .ok rows ∧
      cachedTrajectories env' a' (fileAfter env a k none) = (.ok rows, []) := by
  refine ⟨(saveText rows).length + 1, fun k hk env' a' => ⟨by simp [cachedTrajectories, h], ?_⟩⟩
  obtain ⟨h0, n, hn, hw⟩ := StateSpace.compute_shape h
  rw [StateSpace.fileAfter_none h, if_neg (by omega), List.take_of_length_le (by omega)]
  unfold cachedTrajectories
  have := StateSpace.loadText_eq (rows := rows) (fun r hr h => by have := hw r hr; rw [h] at this; simp at this; omega) []
  simp only [List.map_nil, List.append_nil, if_pos] at this
  simp only
  rw [this]
  obtain ⟨r, rs, rfl⟩ := List.exists_cons_of_ne_nil h0
  simp only
  rw [if_pos (fun q hq => by rw [hw q (by simp [hq]), hw r (by simp)])]

/-- **C54.** A program that is killed leaves no file or a file with `k` complete rows and the first `j` numbers of the next
one. -/
theorem C54_crash_points {env : Env} {a : Args} {rows : List (List ℝ)} (h : compute env a = .ok rows) (n : ℕ) :
    fileAfter env a n none = none ∨ ∃ k j, k ≤ rows.length ∧
      fileAfter env a n none = some (saveText (rows.take k) ++ ((rows.getD k []).take j).map .number) := by
  rw [StateSpace.fileAfter_none h]
  by_cases hn : n = 0
  · left; rw [if_pos hn]
  · right
    rw [if_neg hn]
    generalize n - 1 = n
    clear hn h
    induction rows generalizing n with
    | nil => exact ⟨0, 0, by simp, by simp [saveText]⟩
    | cons row rows ih =>
      have e : saveText (row :: rows) = row.map .number ++ (.newline :: saveText rows) := by simp [saveText]
      by_cases hl : n ≤ row.length
      · refine ⟨0, n, by simp, ?_⟩
        rw [e, List.take_append_of_le_length (by simpa using hl)]
        simp [saveText]
      · obtain ⟨k, j, hk, hf⟩ := ih (n - row.length - 1)
        refine ⟨k + 1, j, by simpa using hk, ?_⟩
        rw [e, List.take_append, List.take_of_length_le (by simp; omega), List.length_map,
          show n - row.length = n - row.length - 1 + 1 by omega, List.take_succ_cons]
        simp only [Option.some.injEq] at hf
        rw [hf]
        simp [saveText]

/-- **C54 (finding).** If the program is killed between two rows, every later call accepts the rows that were written as
the complete set of trajectories. -/
theorem C54_truncated_accepted_finding {env : Env} {a : Args} {rows : List (List ℝ)} (h : compute env a = .ok rows)
    (k : ℕ) : (∃ n, fileAfter env a n none = some (saveText (rows.take k))) ∧
      ∀ env' a', cachedTrajectories env' a' (some (saveText (rows.take k))) = (.ok (rows.take k), []) := by
  constructor
  · refine ⟨(saveText (rows.take k)).length + 1, ?_⟩
    rw [StateSpace.fileAfter_none h, if_neg (by omega)]
    have : saveText rows = saveText (rows.take k) ++ saveText (rows.drop k) := by
      conv_lhs => rw [← List.take_append_drop k rows]
      exact List.flatMap_append
    rw [this, Nat.add_sub_cancel, List.take_left' rfl]
  · intro env' a'
    obtain ⟨h0, n, hn, hw⟩ := StateSpace.compute_shape h
    have hw' : ∀ r ∈ rows.take k, r.length = n := fun r hr => hw r (List.mem_of_mem_take hr)
    have := StateSpace.loadText_eq (rows := rows.take k)
      (fun r hr h => by have := hw' r hr; rw [h] at this; simp at this; omega) []
    simp only [List.map_nil, List.append_nil, if_pos] at this
    unfold cachedTrajectories
    simp only
    rw [this]
    cases hr : rows.take k with
    | nil => rfl
    | cons r rs =>
      rw [hr] at hw'
      simp only
      rw [if_pos (fun q hq => by rw [hw' q (by simp [hq]), hw' r (by simp)])]

/-- **C54 (finding).** If it is killed within a row (but the first), every later call raises a ValueError, whatever its
arguments are: the file is never replaced. -/
theorem C54_truncated_raises_finding {env : Env} {a : Args} {rows : List (List ℝ)} (h : compute env a = .ok rows)
    {k j : ℕ} (hk : 0 < k) (hkr : k < rows.length) (hj : 0 < j) (hjr : j < (rows.getD k []).length) :
    (∃ n, fileAfter env a n none = some (saveText (rows.take k) ++ ((rows.getD k []).take j).map .number)) ∧
    ∀ env' a', cachedTrajectories env' a' (some (saveText (rows.take k) ++ ((rows.getD k []).take j).map .number)) =
      (.error .valueError, []) := by
  obtain ⟨h0, w, hw0, hw⟩ := StateSpace.compute_shape h
  have hrow : rows.getD k [] = rows[k] := by simp [hkr]
  constructor
  · refine ⟨(saveText (rows.take k)).length + j + 1, ?_⟩
    rw [StateSpace.fileAfter_none h, if_neg (by omega)]
    have e : saveText rows = saveText (rows.take k) ++
        ((rows.getD k []).map .number ++ (.newline :: saveText (rows.drop (k + 1)))) := by
      have e1 : saveText rows = saveText (rows.take k) ++ saveText (rows.drop k) := by
        conv_lhs => rw [← List.take_append_drop k rows]
        exact List.flatMap_append
      rw [hrow, e1, List.drop_eq_getElem_cons hkr]
      congr 1
      simp only [saveText, List.flatMap_cons, List.append_assoc, List.singleton_append]
    rw [e, Nat.add_sub_cancel, List.take_length_add_append, List.take_append_of_le_length (by simp; simp at hjr; omega),
      List.map_take]
  · intro env' a'
    have hw' : ∀ r ∈ rows.take k, r.length = w := fun r hr => hw r (List.mem_of_mem_take hr)
    have := StateSpace.loadText_eq (rows := rows.take k)
      (fun r hr h => by have := hw' r hr; rw [h] at this; simp at this; omega) ((rows.getD k []).take j)
    unfold cachedTrajectories
    simp only
    rw [this, if_neg (by
      intro h
      have := congrArg List.length h
      simp only [List.length_take, List.length_nil] at this
      omega)]
    have hne : rows.take k ≠ [] := by
      intro h
      have := congrArg List.length h
      simp only [List.length_take, List.length_nil] at this
      omega
    obtain ⟨r, rs, hr⟩ := List.exists_cons_of_ne_nil hne
    rw [hr]
    simp only [List.cons_append]
    rw [if_neg]
    intro hall
    have h1 := hall ((rows.getD k []).take j) (by simp)
    have h2 : r.length = w := hw' r (by rw [hr]; simp)
    have h3 : (rows.getD k []).length = w := by rw [hrow]; exact hw _ (List.getElem_mem hkr)
    rw [List.length_take] at h1
    omega

/-- Sigma points as required by the theorems above: a fixed list of parameter vectors of zeros. -/
noncomputable def StateSpace.exampleEnv (ops : QuatOps) : Env where
  ops := ops
  qgrad _ _ _ := 0
  stepFunction := "cython"
  sigma _ _ _ := List.replicate 3 (List.replicate (2 * 6 * 10 + 2 * 14) 0)

/-- A demonstration with two samples that lasts one second. -/
noncomputable def StateSpace.exampleDemo : DualDemo where
  n := 0
  T i := i.val
  Y _ := fun _ => 0

/-- The hypotheses of the theorems above are met: three trajectories with 28 numbers each are computed. -/
example (ops : QuatOps) : ∃ rows, compute (exampleEnv ops) ⟨[exampleDemo], 10, 1, 0, 1, 1⟩ = .ok rows ∧
    rows.length = 3 ∧ ∀ r ∈ rows, r.length = 28 := by
  have hdt : exampleDemo.dt = 1 := by simp [exampleDemo, DualDemo.dt]; rfl
  have hlast : exampleDemo.T (Fin.last _) = 1 := by simp [exampleDemo]
  obtain ⟨s0, hs0, -⟩ := DualCartesianDMP.create_ok 10 (by norm_num) one_pos 1 1 0 false 25 (25 / 4)
  obtain ⟨w, hw, -⟩ := C28_dual_imitate (DualCartesianDMP.Reachable.create hs0) ops (fun _ _ => 0) exampleDemo.T
    exampleDemo.Y le_rfl (by simp [exampleDemo]) false
  have hlearn : ∃ d, learnDmp ops (fun _ _ _ => 0) 10 1 exampleDemo = .ok d := by
    unfold learnDmp
    rw [hdt, hlast, hs0]
    simp only [bind, Except.bind]
    have : (DualCartesianDMP.imitate ops ((fun _ _ _ => 0 : ∀ n, (Fin (n + 2) → Vec 4) → Fin (n + 2) → Vec 3)
      exampleDemo.n) exampleDemo.T exampleDemo.Y 0 false).exec s0 = _ := hw
    rw [this]
    exact ⟨_, rfl⟩
  obtain ⟨d, hd⟩ := hlearn
  have hest : ∃ samples, estimateParameters ops (fun _ _ _ => 0) 10 1 [exampleDemo] = .ok (samples, 1) := by
    unfold estimateParameters collect collect
    rw [hdt, if_neg (by norm_num), hd, hlast]
    refine ⟨[stack d.getWeights (exampleDemo.Y 0) (exampleDemo.Y (Fin.last _)) 1], ?_⟩
    simp only [bind, Except.bind, Pure.pure, Except.pure]
    rw [if_neg (by simp)]
    simp
  obtain ⟨samples, hs⟩ := hest
  have htraj : ∃ r : List ℝ, trajectory ops "cython" 10 1 1 1 (List.replicate (2 * 6 * 10 + 2 * 14) 0) = .ok r ∧
      r.length = 28 := by
    obtain ⟨w, s, g, h⟩ := StateSpace.configured_eq (m := 10) 1 1 1
      (p := List.replicate (2 * 6 * 10 + 2 * 14) 0) (by simp)
    obtain ⟨ft, hft⟩ := (DMP.initForcingTerm_isOk_iff (d := 12) (m := 10) 1).2 ⟨by norm_num, one_pos⟩
    unfold trajectory
    rw [h, hft]
    simp only [Except.map, bind, Except.bind]
    rw [DualCartesianDMP.openLoop_single (sf := .cython) _ _ rfl one_pos le_rfl le_rfl]
    exact ⟨_, rfl, by simp⟩
  obtain ⟨r, hr, hlen⟩ := htraj
  refine ⟨[r, r, r], ?_, rfl, by simp [hlen]⟩
  unfold compute
  rw [show estimateParameters (exampleEnv ops).ops (exampleEnv ops).qgrad 10 1 [exampleDemo] = .ok (samples, 1) from hs]
  simp only [bind, Except.bind]
  show propagate ops "cython" 10 1 1 1 (List.replicate 3 (List.replicate (2 * 6 * 10 + 2 * 14) 0)) = _
  unfold propagate
  generalize List.replicate (2 * 6 * 10 + 2 * 14) (0 : ℝ) = v at hr
  simp [List.replicate, List.mapM_cons, hr, bind, Except.bind, Pure.pure, Except.pure, vstack]

end Verif
