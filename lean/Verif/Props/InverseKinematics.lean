import Verif.Props.PoseDist
import Mathlib.Data.List.Basic

/-!
# C49, C50, C66: inverse kinematics with restarts, search intervals and trajectories
-/

namespace Verif
open Matrix

variable {n : ℕ}

theorem argmin_spec {l : List ℝ} (hl : l ≠ []) :
    ∃ h : argmin l < l.length, (∀ e ∈ l, l[argmin l] ≤ e) ∧ ∀ k (hk : k < argmin l), l[argmin l] < l[k] := by
  have hex : ∃ e ∈ l, ∀ e' ∈ l, e ≤ e' := by
    obtain ⟨m, hm, hmin⟩ := Finset.exists_min_image l.toFinset id (by
      obtain ⟨x, hx⟩ := List.exists_mem_of_ne_nil l hl
      exact ⟨x, List.mem_toFinset.mpr hx⟩)
    exact ⟨m, List.mem_toFinset.mp hm, fun e he => hmin e (List.mem_toFinset.mpr he)⟩
  have hlt : argmin l < l.length := by
    unfold argmin
    rw [List.findIdx_lt_length]
    obtain ⟨e, he, hmin⟩ := hex
    exact ⟨e, he, decide_eq_true hmin⟩
  have hmin : ∀ e ∈ l, l[argmin l] ≤ e := by
    have := List.findIdx_getElem (p := fun e => decide (∀ e' ∈ l, e ≤ e')) (xs := l) (w := hlt)
    exact of_decide_eq_true this
  refine ⟨hlt, hmin, fun k hk => ?_⟩
  have hnot := List.not_of_lt_findIdx (p := fun e => decide (∀ e' ∈ l, e ≤ e')) (xs := l) hk
  have hnot := of_decide_eq_false hnot
  push Not at hnot
  obtain ⟨e', he', hlt'⟩ := hnot
  exact lt_of_le_of_lt (hmin e' he') hlt'

/-- Outcome of `Q[np.argmin(errors)]` for the first `K` attempts. -/
theorem pick_spec (x : ℕ → Vec n) (e : ℕ → ℝ) {K : ℕ} (hK : 1 ≤ K) :
    ∃ i < K, pick ((List.range K).map x) ((List.range K).map e) = .ok (x i) ∧ (∀ k < K, e i ≤ e k) ∧
      ∀ k < i, e i < e k := by
  obtain ⟨h, hmin, hfirst⟩ := argmin_spec (l := (List.range K).map e) (by
    intro h; have := congrArg List.length h; simp at this; omega)
  have hi : argmin ((List.range K).map e) < K := by simpa using h
  refine ⟨argmin ((List.range K).map e), hi, ?_, ?_, ?_⟩
  · unfold pick
    rw [List.getElem?_eq_getElem (by simpa using hi)]
    simp
  · intro k hk
    have := hmin (e k) (List.mem_map.mpr ⟨k, List.mem_range.mpr hk, rfl⟩)
    simpa using this
  · intro k hk
    have := hfirst k hk
    simpa using this

section Restarts
variable (c : Chain n) (tm : TransformManager) (minimize : Minimizer n) (desired : Mat4) (args : IKArgs)

/-- The pose error as a function of the joint angles. -/
noncomputable def Chain.objective (q : Vec n) : Except PyErr ℝ :=
  ((c.eePoseError q desired args.orientationWeight args.positionWeight).exec tm).1

theorem exec_inverse (initial : Vec n) (bounds : Option (Fin n → ℝ × ℝ)) (w : IKWorld n) :
    (c.inverse tm minimize desired initial bounds args).exec w =
      (minimize args.solver (c.objective tm desired args) initial (bounds.getD c.jointLimits),
        { w with calls := w.calls ++ [(args.solver, initial, bounds.getD c.jointLimits)] }) := rfl

theorem exec_sample (bounds : Option (Fin n → ℝ × ℝ)) (w : IKWorld n) :
    (c.sampleJointsUniform bounds).exec w =
      (.ok (fun i => w.rand w.drawn i * (((bounds.getD c.jointLimits) i).2 - ((bounds.getD c.jointLimits) i).1)
        + ((bounds.getD c.jointLimits) i).1), { w with drawn := w.drawn + 1 }) := rfl

/-- A random sample in bounds. -/
noncomputable def sampleIn (bounds : Fin n → ℝ × ℝ) (r : Vec n) : Vec n :=
  fun i => r i * ((bounds i).2 - (bounds i).1) + (bounds i).1

theorem exec_restartLoop (tolerance : ℝ) (rand : ℕ → Vec n) (d0 : ℕ) (calls0 : List (String × Vec n × (Fin n → ℝ × ℝ)))
    (x : ℕ → Vec n) (e : ℕ → ℝ)
    (hx : ∀ k, minimize args.solver (c.objective tm desired args) (sampleIn c.jointLimits (rand (d0 + k))) c.jointLimits
      = .ok (x k, e k)) (k : ℕ) :
    ∀ m, ∃ K, m ≤ K ∧ K ≤ m + k ∧ (0 < k → m < K) ∧
      (c.restartLoop tm minimize desired tolerance args k ((List.range m).map x) ((List.range m).map e)).exec
        ⟨rand, d0 + m, calls0 ++ (List.range m).map fun i =>
          (args.solver, sampleIn c.jointLimits (rand (d0 + i)), c.jointLimits)⟩
        = (.ok ((List.range K).map x, (List.range K).map e),
          ⟨rand, d0 + K, calls0 ++ (List.range K).map fun i =>
            (args.solver, sampleIn c.jointLimits (rand (d0 + i)), c.jointLimits)⟩) ∧
      (∀ j, m ≤ j → j + 1 < K → tolerance < e j) ∧ (K < m + k → e (K - 1) ≤ tolerance) := by
  induction k with
  | zero =>
    intro m
    refine ⟨m, le_rfl, by omega, by omega, ?_, fun j h1 h2 => by omega, fun h => by omega⟩
    unfold Chain.restartLoop
    rfl
  | succ k ih =>
    intro m
    have happ : ∀ {α : Type} (f : ℕ → α), (List.range m).map f ++ [f m] = (List.range (m + 1)).map f := by
      intro α f; rw [List.range_succ, List.map_append]; rfl
    have hstep : (c.restartLoop tm minimize desired tolerance args (k + 1) ((List.range m).map x)
          ((List.range m).map e)).exec
        ⟨rand, d0 + m, calls0 ++ (List.range m).map fun i =>
          (args.solver, sampleIn c.jointLimits (rand (d0 + i)), c.jointLimits)⟩ =
        (if e m ≤ tolerance then Pure.pure ((List.range (m + 1)).map x, (List.range (m + 1)).map e)
          else c.restartLoop tm minimize desired tolerance args k ((List.range (m + 1)).map x)
            ((List.range (m + 1)).map e) : Py (IKWorld n) _).exec
        ⟨rand, d0 + (m + 1), calls0 ++ (List.range (m + 1)).map fun i =>
          (args.solver, sampleIn c.jointLimits (rand (d0 + i)), c.jointLimits)⟩ := by
      rw [Chain.restartLoop, Py.exec_bind, exec_sample]
      simp only
      rw [Py.exec_bind, exec_inverse]
      simp only [Option.getD_none]
      have hm := hx m
      unfold sampleIn at hm ⊢
      rw [hm]
      simp only
      rw [happ x, happ e, List.append_assoc,
        happ (fun i => (args.solver, (fun i_1 => rand (d0 + i) i_1 * ((c.jointLimits i_1).2 - (c.jointLimits i_1).1)
          + (c.jointLimits i_1).1 : Vec n), c.jointLimits))]
      rfl
    rw [hstep]
    by_cases he : e m ≤ tolerance
    · rw [if_pos he]
      exact ⟨m + 1, by omega, by omega, by omega, rfl, fun j h1 h2 => by omega, fun _ => by simpa using he⟩
    · rw [if_neg he]
      obtain ⟨K, h1, h2, -, h4, h5, h6⟩ := ih (m + 1)
      refine ⟨K, by omega, by omega, fun _ => by omega, h4, ?_, fun h => h6 (by omega)⟩
      intro j hj hjK
      rcases Nat.lt_or_ge m j with h | h
      · exact h5 j (by omega) hjK
      · have : j = m := by omega
        rw [this]; exact not_le.mp he

/-- C49: if every minimisation that could be started returns, then `inverse_with_random_restarts` starts
`K ≤ n_restarts` of them from random samples within the joint limits, never one after a success, and returns the
first solution with the smallest error. `n_restarts = 0` raises AssertionError before anything happens. -/
theorem C49_random_restarts (nRestarts : ℕ) (tolerance : ℝ) (w : IKWorld n) (x : ℕ → Vec n) (e : ℕ → ℝ)
    (hx : ∀ k, minimize args.solver (c.objective tm desired args) (sampleIn c.jointLimits (w.rand (w.drawn + k)))
      c.jointLimits = .ok (x k, e k)) :
    (nRestarts = 0 → (c.inverseWithRandomRestarts tm minimize desired nRestarts tolerance args).exec w
      = (.error .assertionError, w)) ∧
    (1 ≤ nRestarts → ∃ K i, Spec.BestOf nRestarts tolerance e K i ∧
      (c.inverseWithRandomRestarts tm minimize desired nRestarts tolerance args).exec w =
        (.ok (x i), { w with
          drawn := w.drawn + K
          calls := w.calls ++ (List.range K).map fun k =>
            (args.solver, sampleIn c.jointLimits (w.rand (w.drawn + k)), c.jointLimits) })) := by
  constructor
  · rintro rfl
    unfold Chain.inverseWithRandomRestarts
    rfl
  · intro h1
    obtain ⟨K, -, hKN, hK0, hexec, hno, hstop⟩ :=
      exec_restartLoop c tm minimize desired args tolerance w.rand w.drawn w.calls x e hx nRestarts 0
    have hK : 1 ≤ K := hK0 h1
    obtain ⟨i, hi, hpick, hmin, hfirst⟩ := pick_spec x e hK
    refine ⟨K, i, ⟨⟨hK, by omega⟩, fun k hk => hno k (by omega) hk, fun h => hstop (by omega), hi, hmin, hfirst⟩, ?_⟩
    unfold Chain.inverseWithRandomRestarts
    simp only [if_neg (not_not.mpr h1)]
    simp only [List.range_zero, List.map_nil, List.append_nil, Nat.add_zero] at hexec
    change ((c.restartLoop tm minimize desired tolerance args nRestarts [] [] >>= _ : Py (IKWorld n) _)).exec w = _
    rw [Py.exec_bind, hexec]
    simp only [Py.exec_lift, hpick]

/-- C49: if one of the first `n_restarts` attempts is successful, then the first successful one is returned, and no
further attempt is made. -/
theorem C49_success {N : ℕ} {tolerance : ℝ} {e : ℕ → ℝ} {K i : ℕ} (h : Spec.BestOf N tolerance e K i)
    (hex : ∃ k < N, e k ≤ tolerance) :
    e i ≤ tolerance ∧ K = i + 1 ∧ ∀ k < i, tolerance < e k := by
  have hlast : e (K - 1) ≤ tolerance := by
    rcases Nat.lt_or_ge K N with hK | hK
    · exact h.stop hK
    · obtain ⟨k, hk, he⟩ := hex
      have hKN : K = N := le_antisymm h.attempts.2 hK
      rcases Nat.lt_or_ge (k + 1) K with h' | h'
      · exact absurd (h.no_early_success k h') (not_lt.mpr he)
      · have : k = K - 1 := by omega
        rwa [← this]
  have hi := h.smallest (K - 1) (by have := h.attempts.1; omega)
  have hle : e i ≤ tolerance := le_trans hi hlast
  have hiK : K = i + 1 := by
    rcases Nat.lt_or_ge (i + 1) K with h' | h'
    · exact absurd (h.no_early_success i h') (not_lt.mpr hle)
    · have := h.made; omega
  exact ⟨hle, hiK, fun k hk => h.no_early_success k (by omega)⟩

/-- A search that meets the description: three failures, then a success. -/
example : Spec.BestOf 10 (1 / 1000) (fun k => if k = 3 then 0 else 1) 4 3 := by
  refine ⟨by norm_num, ?_, ?_, by norm_num, ?_, ?_⟩
  · intro k hk; have : k ≠ 3 := by omega
    norm_num [this]
  · intro _; norm_num
  · intro k hk; simp only [if_true]; split_ifs <;> norm_num
  · intro k hk; have : k ≠ 3 := by omega
    norm_num [this]

/-- Initial guess `k` of the local search: the previous joint angles, then random samples. -/
noncomputable def localGuess (q0 : Vec n) (interval : ℝ) (rand : ℕ → Vec n) (d0 : ℕ) : ℕ → Vec n
  | 0 => q0
  | k + 1 => sampleIn (fun i => (q0 i - interval, q0 i + interval)) (rand (d0 + k))

theorem exec_localRestartLoop (tolerance : ℝ) (q0 : Vec n) (interval : ℝ) (rand : ℕ → Vec n) (d0 : ℕ)
    (calls0 : List (String × Vec n × (Fin n → ℝ × ℝ))) (x : ℕ → Vec n) (e : ℕ → ℝ)
    (hx : ∀ k, minimize args.solver (c.objective tm desired args) (localGuess q0 interval rand d0 k) c.jointLimits
      = .ok (x k, e k)) (k : ℕ) :
    ∀ m, ∃ K D, m ≤ K ∧ K ≤ m + k ∧ (0 < k → m < K) ∧
      (c.localRestartLoop tm minimize desired (fun i => (q0 i - interval, q0 i + interval)) tolerance args k
          (localGuess q0 interval rand d0 m) ((List.range m).map x) ((List.range m).map e)).exec
        ⟨rand, d0 + m, calls0 ++ (List.range m).map fun i =>
          (args.solver, localGuess q0 interval rand d0 i, c.jointLimits)⟩
        = (.ok ((List.range K).map x, (List.range K).map e),
          ⟨rand, D, calls0 ++ (List.range K).map fun i =>
            (args.solver, localGuess q0 interval rand d0 i, c.jointLimits)⟩) ∧
      (∀ j, m ≤ j → j + 1 < K → tolerance < e j) ∧ (K < m + k → e (K - 1) ≤ tolerance) := by
  induction k with
  | zero =>
    intro m
    refine ⟨m, d0 + m, le_rfl, by omega, by omega, ?_, fun j h1 h2 => by omega, fun h => by omega⟩
    unfold Chain.localRestartLoop
    rfl
  | succ k ih =>
    intro m
    have happ : ∀ {α : Type} (f : ℕ → α), (List.range m).map f ++ [f m] = (List.range (m + 1)).map f := by
      intro α f; rw [List.range_succ, List.map_append]; rfl
    by_cases he : e m ≤ tolerance
    · refine ⟨m + 1, d0 + m, by omega, by omega, by omega, ?_, fun j h1 h2 => by omega,
        fun _ => by simpa using he⟩
      rw [Chain.localRestartLoop, Py.exec_bind, exec_inverse]
      simp only [Option.getD_none, hx m]
      rw [happ x, happ e, List.append_assoc,
        happ (fun i => (args.solver, localGuess q0 interval rand d0 i, c.jointLimits)), if_pos he]
      rfl
    · have hstep : (c.localRestartLoop tm minimize desired (fun i => (q0 i - interval, q0 i + interval)) tolerance args
            (k + 1) (localGuess q0 interval rand d0 m) ((List.range m).map x) ((List.range m).map e)).exec
          ⟨rand, d0 + m, calls0 ++ (List.range m).map fun i =>
            (args.solver, localGuess q0 interval rand d0 i, c.jointLimits)⟩ =
          (c.localRestartLoop tm minimize desired (fun i => (q0 i - interval, q0 i + interval)) tolerance args k
            (localGuess q0 interval rand d0 (m + 1)) ((List.range (m + 1)).map x) ((List.range (m + 1)).map e)).exec
          ⟨rand, d0 + (m + 1), calls0 ++ (List.range (m + 1)).map fun i =>
            (args.solver, localGuess q0 interval rand d0 i, c.jointLimits)⟩ := by
        rw [Chain.localRestartLoop, Py.exec_bind, exec_inverse]
        simp only [Option.getD_none, hx m]
        rw [happ x, happ e, List.append_assoc,
          happ (fun i => (args.solver, localGuess q0 interval rand d0 i, c.jointLimits)), if_neg he]
        rw [Py.exec_bind, exec_sample]
        rfl
      rw [hstep]
      obtain ⟨K, D, h1, h2, -, h4, h5, h6⟩ := ih (m + 1)
      refine ⟨K, D, by omega, by omega, fun _ => by omega, h4, ?_, fun h => h6 (by omega)⟩
      intro j hj hjK
      rcases Nat.lt_or_ge m j with h | h
      · exact h5 j (by omega) hjK
      · have : j = m := by omega
        rw [this]; exact not_le.mp he

/-- C49: the same for `local_inverse_with_random_restarts`, whose first attempt starts from the given joint
angles. -/
theorem C49_local_random_restarts (q0 : Vec n) (interval : ℝ) (nRestarts : ℕ) (tolerance : ℝ) (w : IKWorld n)
    (x : ℕ → Vec n) (e : ℕ → ℝ)
    (hx : ∀ k, minimize args.solver (c.objective tm desired args) (localGuess q0 interval w.rand w.drawn k)
      c.jointLimits = .ok (x k, e k)) :
    (nRestarts = 0 → (c.localInverseWithRandomRestarts tm minimize desired q0 interval nRestarts tolerance args).exec w
      = (.error .assertionError, w)) ∧
    (1 ≤ nRestarts → ∃ K i D, Spec.BestOf nRestarts tolerance e K i ∧
      (c.localInverseWithRandomRestarts tm minimize desired q0 interval nRestarts tolerance args).exec w =
        (.ok (x i), { w with
          drawn := D
          calls := w.calls ++ (List.range K).map fun k =>
            (args.solver, localGuess q0 interval w.rand w.drawn k, c.jointLimits) })) := by
  constructor
  · rintro rfl
    unfold Chain.localInverseWithRandomRestarts
    rfl
  · intro h1
    obtain ⟨K, D, -, hKN, hK0, hexec, hno, hstop⟩ :=
      exec_localRestartLoop c tm minimize desired args tolerance q0 interval w.rand w.drawn w.calls x e hx nRestarts 0
    have hK : 1 ≤ K := hK0 h1
    obtain ⟨i, hi, hpick, hmin, hfirst⟩ := pick_spec x e hK
    refine ⟨K, i, D, ⟨⟨hK, by omega⟩, fun k hk => hno k (by omega) hk, fun h => hstop (by omega), hi, hmin, hfirst⟩, ?_⟩
    unfold Chain.localInverseWithRandomRestarts
    simp only [if_neg (not_not.mpr h1)]
    simp only [List.range_zero, List.map_nil, List.append_nil, Nat.add_zero] at hexec
    change ((c.localRestartLoop tm minimize desired (fun i => (q0 i - interval, q0 i + interval)) tolerance args
      nRestarts q0 [] [] >>= _ : Py (IKWorld n) _)).exec w = _
    rw [show localGuess q0 interval w.rand w.drawn 0 = q0 from rfl] at hexec
    rw [Py.exec_bind, hexec]
    simp only [Py.exec_lift, hpick]

end Restarts

end Verif
