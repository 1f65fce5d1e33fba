import Verif.Props.Promp
import Mathlib.Analysis.SpecialFunctions.ExpDeriv
import Mathlib.Analysis.Calculus.Deriv.Mul
import Mathlib.Analysis.Calculus.Deriv.Pow
import Mathlib.Analysis.Calculus.Deriv.Inv
import Mathlib.Analysis.Calculus.Deriv.Add

/-! # Velocities of ProMPs and effects of queries on their arguments (C45, C46) -/

namespace Verif
open Matrix ProMP

variable {d w n : ℕ}

/-- Derivative of the unnormalised basis function. -/
theorem rbf_hasDerivAt (hw : 0 < w) (s : ℝ) (a : Fin w) :
    HasDerivAt (fun s => Spec.rbf w s a) ((Spec.centre w a - s) / rbfH w (7 / 10) * Spec.rbf w s a) s := by
  have hH : rbfH w (7 / 10) ≠ 0 := by
    unfold rbfH
    have hl : Real.log (7 / 10) < 0 := Real.log_neg (by norm_num) (by norm_num)
    have hw' : (w : ℝ) ≠ 0 := by exact_mod_cast hw.ne'
    have : 8 * (w : ℝ) ^ 2 * Real.log (7 / 10) ≠ 0 := mul_ne_zero (by positivity) hl.ne
    exact div_ne_zero (by norm_num) this
  have h1 : HasDerivAt (fun s : ℝ => -(s - Spec.centre w a) ^ 2 / (2 * rbfH w (7 / 10)))
      ((Spec.centre w a - s) / rbfH w (7 / 10)) s := by
    have h2 := ((((hasDerivAt_id s).sub_const (Spec.centre w a)).fun_pow 2).fun_neg).div_const (2 * rbfH w (7 / 10))
    refine h2.congr_deriv ?_
    simp only [id, Nat.cast_ofNat, Nat.add_one_sub_one, pow_one, mul_one]
    field_simp
    ring
  have h3 := h1.exp
  have e : (fun s => Spec.rbf w s a) = fun s => Real.exp (-(s - Spec.centre w a) ^ 2 / (2 * rbfH w (7 / 10))) := by
    funext s
    unfold Spec.rbf
    rw [rbfH_eq]
  rw [e]
  convert h3 using 1
  rw [mul_comm]
  congr 1
  exact congrFun e s

/-- Closed form of the derivative of the activation. -/
noncomputable def activationDeriv (w : ℕ) (s : ℝ) (a : Fin w) : ℝ :=
  ((Spec.centre w a - s) / rbfH w (7 / 10) * Spec.rbf w s a * (∑ b, Spec.rbf w s b) -
    Spec.rbf w s a * ∑ b, (Spec.centre w b - s) / rbfH w (7 / 10) * Spec.rbf w s b) / (∑ b, Spec.rbf w s b) ^ 2

theorem activation_hasDerivAt (hw : 0 < w) (s : ℝ) (a : Fin w) :
    HasDerivAt (fun s => Spec.activation w s a) (activationDeriv w s a) s := by
  have h1 := rbf_hasDerivAt hw s a
  have h2 : HasDerivAt (fun s => ∑ b, Spec.rbf w s b)
      (∑ b, (Spec.centre w b - s) / rbfH w (7 / 10) * Spec.rbf w s b) s :=
    HasDerivAt.fun_sum fun b _ => rbf_hasDerivAt hw s b
  exact h1.fun_div h2 (rbf_sum_pos hw s).ne'

theorem position_hasDerivAt (hw : 0 < w) (W : Vec (d * w)) (s : ℝ) (k : Fin d) :
    HasDerivAt (fun s => Spec.prompPosition W s k) (∑ a, activationDeriv w s a * W (Spec.flat k a)) s :=
  HasDerivAt.fun_sum fun a _ => (activation_hasDerivAt hw s a).mul_const _

/-- Closed form of `mean_velocities`. -/
theorem exec_meanVelocities {p : ProMP d w} (hp : p.centers = linspace01 w) {T : Vec n} {m : ℝ}
    (hm : Spec.IsLargest T m) (h0 : 0 < m) :
    p.meanVelocities.exec (.float T) =
      (.ok (Matrix.of fun i k => ∑ a, activationDeriv w (T i / m) a * p.weightMean (Spec.flat k a)),
        .float fun i => T i / m) := by
  have hm' := largest_div hm h0
  have key : (p.rbfsDerivative1dSequence (n := n)).exec (.float T) =
      (.ok (Matrix.of fun a i => activationDeriv w (T i / m) a), .float fun i => T i / m) := by
    unfold rbfsDerivative1dSequence rbfs1dSequence
    rw [Py.exec_bind, Py.exec_bind, exec_normalizeTimes hm]
    dsimp only
    rw [Py.exec_pure]
    dsimp only
    rw [Py.exec_bind, exec_normalizeTimes hm']
    simp only [Py.exec_pure, Prod.mk.injEq, Except.ok.injEq, div_one, and_true]
    ext a i
    simp only [of_apply, gauss_eq hp, hp]
    rfl
  unfold meanVelocities rbfsDerivativeNdSequence
  rw [Py.exec_bind, Py.exec_bind, key]
  simp only [Py.exec_pure, Prod.mk.injEq, Except.ok.injEq, and_true]
  ext i k
  simp only [transpose_apply, reshape2, of_apply]
  rw [ndBlockDiagonal_transpose_mulVec]
  rfl

/-- **C45.** `mean_velocities` is the exact derivative of the mean trajectory with respect to normalised time
(time divided by the largest query time). -/
theorem C45_normalised_velocity {p : ProMP d w} (hp : Spec.Reachable p) (hw : 0 < w) (T : Vec n) {m : ℝ}
    (hm : Spec.IsLargest T m) (h0 : 0 < m) :
    ∃ Yd T', p.meanVelocities.exec (.float T) = (.ok Yd, T') ∧
      ∀ i k, HasDerivAt (fun s => Spec.prompPosition p.weightMean s k) (Yd i k) (T i / m) :=
  ⟨_, _, exec_meanVelocities hp.centers hm h0, fun _ k => position_hasDerivAt hw _ _ k⟩

/-- Moving one entry of the query that is not the largest keeps the largest entry. -/
theorem largest_update {T : Vec n} {m : ℝ} (hm : Spec.IsLargest T m) {i : Fin n} (hi : T i < m) {s : ℝ} (hs : s < m) :
    Spec.IsLargest (Function.update T i s) m := by
  obtain ⟨⟨j, hj⟩, hle⟩ := hm
  have hne : j ≠ i := fun h => by rw [h] at hj; exact hi.ne hj
  refine ⟨⟨j, by rw [Function.update_of_ne hne, hj]⟩, fun k => ?_⟩
  by_cases hk : k = i
  · rw [hk, Function.update_self]
    exact hs.le
  · rw [Function.update_of_ne hk]
    exact hle k

/-- Row `i` of the mean trajectory when entry `i` of the query is replaced by `s`. -/
noncomputable def meanAt (p : ProMP d w) (T : Vec n) (i : Fin n) (k : Fin d) (s : ℝ) : ℝ :=
  match (p.meanTrajectory.exec (.float (Function.update T i s))).1 with
  | .ok Y => Y i k
  | .error _ => 0

/-- **C45, finding.** As function of the query time itself the mean trajectory has the derivative
`mean_velocities / max(T)`: `mean_velocities` is not the velocity unless the largest query time is 1 or the
velocity is zero. -/
theorem C45_real_velocity {p : ProMP d w} (hp : Spec.Reachable p) (hw : 0 < w) (T : Vec n) {m : ℝ}
    (hm : Spec.IsLargest T m) (h0 : 0 < m) {i : Fin n} (hi : T i < m) (k : Fin d) :
    ∃ Yd T', p.meanVelocities.exec (.float T) = (.ok Yd, T') ∧
      HasDerivAt (meanAt p T i k) (Yd i k / m) (T i) ∧
      (HasDerivAt (meanAt p T i k) (Yd i k) (T i) ↔ m = 1 ∨ Yd i k = 0) := by
  refine ⟨_, _, exec_meanVelocities hp.centers hm h0, ?_⟩
  rw [of_apply]
  set v := ∑ a, activationDeriv w (T i / m) a * p.weightMean (Spec.flat k a) with hv
  have hd : HasDerivAt (meanAt p T i k) (v / m) (T i) := by
    have h1 : HasDerivAt (fun s => Spec.prompPosition p.weightMean (s / m) k) (v / m) (T i) := by
      have h2 := position_hasDerivAt hw p.weightMean (T i / m) k
      have h3 := HasDerivAt.comp (T i) h2 ((hasDerivAt_id (T i)).div_const m)
      refine h3.congr_deriv ?_
      rw [hv]
      ring
    refine h1.congr_of_eventuallyEq ?_
    filter_upwards [gt_mem_nhds hi] with s hs
    unfold meanAt meanTrajectory
    rw [exec_trajectoryFromWeights hp.centers (largest_update hm hi hs)]
    simp only [of_apply, Function.update_self]
  refine ⟨hd, fun h => ?_, fun h => ?_⟩
  · have e := h.unique hd
    by_cases hz : v = 0
    · exact .inr hz
    · left
      rw [eq_div_iff h0.ne'] at e
      exact mul_left_cancel₀ hz (by rw [e, mul_one])
  · rcases h with h | h
    · rw [h, div_one] at hd
      exact hd
    · rw [h, zero_div] at hd
      rw [h]
      exact hd

example : Spec.Reachable (ProMP.init 2 5) ∧ Spec.IsLargest ![(0 : ℝ), 1, 2] 2 ∧ ![(0 : ℝ), 1, 2] 1 < 2 :=
  ⟨.init, ⟨⟨2, rfl⟩, fun i => by fin_cases i <;> norm_num⟩, by norm_num⟩

/-! ## Effects on the caller's array -/

/-- **C46, finding.** Queries change the array of times that the caller passed: afterwards it is divided by its
largest entry. It is unchanged exactly if the largest entry is 1. -/
theorem C46_query_modifies_times {p : ProMP d w} (hp : Spec.Reachable p) (T : Vec n) {m : ℝ}
    (hm : Spec.IsLargest T m) (h0 : 0 < m) :
    (∃ Y, p.meanTrajectory.exec (.float T) = (.ok Y, .float fun i => T i / m)) ∧
      (∃ C, p.covTrajectory.exec (.float T) = (.ok C, .float fun i => T i / m)) ∧
      (∃ V, p.varTrajectory.exec (.float T) = (.ok V, .float fun i => T i / m)) ∧
      (∃ Yd, p.meanVelocities.exec (.float T) = (.ok Yd, .float fun i => T i / m)) ∧
      ((fun i => T i / m) = T ↔ m = 1) := by
  refine ⟨⟨_, exec_trajectoryFromWeights hp.centers hm _⟩, ⟨_, exec_covTrajectory hp.centers hm⟩,
    ⟨_, exec_varTrajectory hp.centers hm⟩, ⟨_, exec_meanVelocities hp.centers hm h0⟩, fun h => ?_, fun h => ?_⟩
  · obtain ⟨i, hi⟩ := hm.1
    have := congrFun h i
    simp only [hi, div_self h0.ne'] at this
    exact this.symm
  · funext i
    rw [h, div_one]

/-- **C46.** A second query with the modified array returns the same result and does not modify it further. -/
theorem C46_second_query {p : ProMP d w} (hp : Spec.Reachable p) (T : Vec n) {m : ℝ}
    (hm : Spec.IsLargest T m) (h0 : 0 < m) :
    ∃ Y T', p.meanTrajectory.exec (.float T) = (.ok Y, T') ∧ p.meanTrajectory.exec T' = (.ok Y, T') := by
  refine ⟨_, _, exec_trajectoryFromWeights hp.centers hm _, ?_⟩
  unfold meanTrajectory
  rw [exec_trajectoryFromWeights hp.centers (largest_div hm h0)]
  simp only [div_one]

/-- **C46.** Query times do not have a unit: scaling all of them changes no result. -/
theorem C46_scale_invariant {p : ProMP d w} (hp : Spec.Reachable p) (T : Vec n) {m : ℝ} (hm : Spec.IsLargest T m)
    {c : ℝ} (hc : 0 < c) :
    ∃ Y T', p.meanTrajectory.exec (.float T) = (.ok Y, T') ∧
      p.meanTrajectory.exec (.float fun i => c * T i) = (.ok Y, T') := by
  refine ⟨_, _, exec_trajectoryFromWeights hp.centers hm _, ?_⟩
  have hm' : Spec.IsLargest (fun i => c * T i) (c * m) := by
    obtain ⟨⟨i, hi⟩, h⟩ := hm
    exact ⟨⟨i, by simp only [hi]⟩, fun j => mul_le_mul_of_nonneg_left (h j) hc.le⟩
  unfold meanTrajectory
  rw [exec_trajectoryFromWeights hp.centers hm']
  simp only [mul_div_mul_left _ _ hc.ne']

/-- **C46, finding.** Integer times are refused: the division in place raises TypeError. An empty array raises
ValueError. -/
theorem C46_errors {p : ProMP d w} :
    (∀ (n : ℕ) (T : Fin n → ℤ), 0 < n → p.meanTrajectory.exec (.int T) = (.error .typeError, .int T)) ∧
      ∀ T : Vec 0, p.meanTrajectory.exec (.float T) = (.error .valueError, .float T) := by
  constructor
  · intro n T hn
    obtain ⟨m, hm⟩ := exists_largest hn (fun i => (T i : ℝ))
    unfold meanTrajectory trajectoryFromWeights rbfsNdSequence rbfs1dSequence normalizeTimes
    simp only [Py.exec_bind, Py.exec_get, Py.exec_lift, npMax_ok.2 hm, Py.exec_throw]
  · intro T
    unfold meanTrajectory trajectoryFromWeights rbfsNdSequence rbfs1dSequence normalizeTimes
    simp only [Py.exec_bind, Py.exec_get, Py.exec_lift, npMax_empty]

/-- **C46.** Samples: every sampled trajectory is the trajectory of its weights at the normalised times,
although the array of times is divided again for every sample. -/
theorem C46_samples {p : ProMP d w} (hp : Spec.Reachable p) {m : ℝ} (h0 : 0 < m) :
    ∀ (samples : List (Vec (d * w))) (T : Vec n), Spec.IsLargest T m →
      ∃ Ys T', (p.sampleTrajectories samples).exec (.float T) = (.ok Ys, T') ∧
        Ys = samples.map fun W => Matrix.of fun i k => Spec.prompPosition W (T i / m) k := by
  have aux : ∀ (samples : List (Vec (d * w))) (T : Vec n), Spec.IsLargest T 1 →
      (p.sampleTrajectories samples).exec (.float T) =
        (.ok (samples.map fun W => Matrix.of fun i k => Spec.prompPosition W (T i) k), .float T) := by
    intro samples
    induction samples with
    | nil => intro T hm; rfl
    | cons W rest ih =>
      intro T hm
      unfold sampleTrajectories
      rw [Py.exec_bind, exec_trajectoryFromWeights hp.centers hm]
      simp only [div_one]
      rw [Py.exec_bind, ih T hm]
      rfl
  intro samples T hm
  cases samples with
  | nil => exact ⟨_, _, rfl, rfl⟩
  | cons W rest =>
    unfold sampleTrajectories
    rw [Py.exec_bind, exec_trajectoryFromWeights hp.centers hm]
    simp only
    rw [Py.exec_bind, aux rest _ (largest_div hm h0)]
    exact ⟨_, _, rfl, rfl⟩

end Verif
