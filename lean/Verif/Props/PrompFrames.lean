import Verif.Lemmas.PrompFrames

/-! # ProMPs do not depend on the unit of time and on the choice of the axes (C116) -/

namespace Verif
open Matrix ProMP

variable {d w n : ℕ}

/-! ## Unit of time -/

theorem largest_scale {T : Vec n} {m c : ℝ} (hm : Spec.IsLargest T m) (hc : 0 < c) :
    Spec.IsLargest (fun i => c * T i) (c * m) := by
  obtain ⟨⟨i, hi⟩, h⟩ := hm
  exact ⟨⟨i, congrArg (c * ·) hi⟩, fun j => mul_le_mul_of_nonneg_left (h j) hc.le⟩

theorem normalizeTimes_scale {T : Vec n} {m c : ℝ} (hm : Spec.IsLargest T m) (hc : 0 < c) :
    (normalizeTimes (n := n)).exec (.float fun i => c * T i) = (normalizeTimes (n := n)).exec (.float T) := by
  rw [exec_normalizeTimes (largest_scale hm hc), exec_normalizeTimes hm]
  simp only [mul_div_mul_left _ _ hc.ne']

theorem rbfsNdSequence_scale (p : ProMP d w) {T : Vec n} {m c : ℝ} (hm : Spec.IsLargest T m) (hc : 0 < c) :
    (p.rbfsNdSequence (n := n)).exec (.float fun i => c * T i) = (p.rbfsNdSequence (n := n)).exec (.float T) := by
  unfold rbfsNdSequence rbfs1dSequence
  rw [Py.exec_bind, Py.exec_bind, normalizeTimes_scale hm hc, ← Py.exec_bind, ← Py.exec_bind]

theorem rbfsDerivativeNdSequence_scale (p : ProMP d w) {T : Vec n} {m c : ℝ} (hm : Spec.IsLargest T m) (hc : 0 < c) :
    (p.rbfsDerivativeNdSequence (n := n)).exec (.float fun i => c * T i) =
      (p.rbfsDerivativeNdSequence (n := n)).exec (.float T) := by
  unfold rbfsDerivativeNdSequence rbfsDerivative1dSequence rbfs1dSequence
  rw [Py.exec_bind, Py.exec_bind, Py.exec_bind, normalizeTimes_scale hm hc, ← Py.exec_bind, ← Py.exec_bind, ← Py.exec_bind]

/-- **C116.** Positions, covariances, velocities and fitted weights do not depend on the unit of time: if all query times
are multiplied by the same positive factor, every method returns the same and leaves the same array behind. (In
particular velocities are per duration of the movement, not per unit of the query times.) -/
theorem C116_unit_of_time (p : ProMP d w) {T : Vec n} {m : ℝ} (hm : Spec.IsLargest T m) (_h0 : m ≠ 0) {c : ℝ} (hc : 0 < c)
    (W : Vec (d * w)) (Y : Matrix (Fin n) (Fin d) ℝ) (lmbda : ℝ) :
    (p.trajectoryFromWeights W).exec (.float fun i => c * T i) = (p.trajectoryFromWeights W).exec (.float T) ∧
      p.meanTrajectory.exec (.float fun i => c * T i) = p.meanTrajectory.exec (.float T) ∧
      p.covTrajectory.exec (.float fun i => c * T i) = p.covTrajectory.exec (.float T) ∧
      p.varTrajectory.exec (.float fun i => c * T i) = p.varTrajectory.exec (.float T) ∧
      p.meanVelocities.exec (.float fun i => c * T i) = p.meanVelocities.exec (.float T) ∧
      p.covVelocities.exec (.float fun i => c * T i) = p.covVelocities.exec (.float T) ∧
      p.varVelocities.exec (.float fun i => c * T i) = p.varVelocities.exec (.float T) ∧
      (p.weights Y lmbda).exec (.float fun i => c * T i) = (p.weights Y lmbda).exec (.float T) := by
  have h1 := rbfsNdSequence_scale p hm hc
  have h2 := rbfsDerivativeNdSequence_scale p hm hc
  refine ⟨?_, ?_, ?_, ?_, ?_, ?_, ?_, ?_⟩
  · unfold trajectoryFromWeights
    rw [Py.exec_bind, h1, ← Py.exec_bind]
  · unfold meanTrajectory trajectoryFromWeights
    rw [Py.exec_bind, h1, ← Py.exec_bind]
  · unfold covTrajectory
    rw [Py.exec_bind, h1, ← Py.exec_bind]
  · unfold varTrajectory covTrajectory
    rw [Py.exec_bind, Py.exec_bind, h1, ← Py.exec_bind, ← Py.exec_bind]
  · unfold meanVelocities
    rw [Py.exec_bind, h2, ← Py.exec_bind]
  · unfold covVelocities
    rw [Py.exec_bind, h2, ← Py.exec_bind]
  · unfold varVelocities covVelocities
    rw [Py.exec_bind, Py.exec_bind, h2, ← Py.exec_bind, ← Py.exec_bind]
  · unfold weights
    rw [Py.exec_bind, h1, ← Py.exec_bind]

/-- The hypotheses can be met: seconds and milliseconds. -/
example : Spec.IsLargest ![(0 : ℝ), 1, 2] 2 ∧ (2 : ℝ) ≠ 0 ∧ (0 : ℝ) < 1000 :=
  ⟨⟨⟨2, rfl⟩, fun i => by fin_cases i <;> norm_num⟩, by norm_num, by norm_num⟩

/-- **C116.** Conditioning does not depend on the unit of time: only `t / t_max` matters. -/
theorem C116_condition_unit_of_time (p : ProMP d w) (y : Vec d) (c : YCov d) (t tMax : ℝ) {u : ℝ} (hu : 0 < u) :
    (ProMP.conditionPosition y c (u * t) (u * tMax)).exec p = (ProMP.conditionPosition y c t tMax).exec p := by
  have h : p.rbfs1dPoint (u * t) (u * tMax) = p.rbfs1dPoint t tMax := by
    unfold rbfs1dPoint
    by_cases h0 : tMax = 0
    · rw [if_pos h0, if_pos (by rw [h0, mul_zero])]
    · rw [if_neg h0, if_neg (mul_ne_zero hu.ne' h0), mul_div_mul_left _ _ hu.ne']
  unfold ProMP.conditionPosition
  rw [Py.exec_bind, Py.exec_get, Py.exec_bind, Py.exec_get]
  dsimp only
  rw [Py.exec_bind, h, ← Py.exec_bind]

/-! ## Axes -/

/-- **C116.** A primitive whose weights are mapped has mapped trajectories: positions, velocities and their covariances are
those of the original primitive in the new coordinates, for every linear map of the space of positions. -/
theorem C116_trajectories {A : Matrix (Fin d) (Fin d) ℝ} {p p' : ProMP d w} (hp : Spec.Reachable p)
    (hp' : Spec.Reachable p') (h : Spec.PrompMapped A p p') {T : Vec n} {m : ℝ} (hm : Spec.IsLargest T m) (h0 : 0 < m) :
    ∃ Y Y' C C' V V' CV CV' T₁ T₂, p.meanTrajectory.exec (.float T) = (.ok Y, T₁) ∧
      p'.meanTrajectory.exec (.float T) = (.ok Y', T₁) ∧ p.covTrajectory.exec (.float T) = (.ok C, T₁) ∧
      p'.covTrajectory.exec (.float T) = (.ok C', T₁) ∧ p.meanVelocities.exec (.float T) = (.ok V, T₂) ∧
      p'.meanVelocities.exec (.float T) = (.ok V', T₂) ∧ p.covVelocities.exec (.float T) = (.ok CV, T₂) ∧
      p'.covVelocities.exec (.float T) = (.ok CV', T₂) ∧
      Spec.RowsMapped A Y Y' ∧ Spec.CovMapped A C C' ∧ Spec.RowsMapped A V V' ∧ Spec.CovMapped A CV CV' := by
  obtain ⟨D, T₂, hD, hD'⟩ : ∃ (D : Matrix (Fin w) (Fin n) ℝ) (T₂ : TimeArray n),
      (p.rbfsDerivativeNdSequence (n := n)).exec (.float T) = (.ok (ndBlockDiagonal D d), T₂) ∧
      (p'.rbfsDerivativeNdSequence (n := n)).exec (.float T) = (.ok (ndBlockDiagonal D d), T₂) := by
    have hprog : p'.rbfsDerivativeNdSequence (n := n) = p.rbfsDerivativeNdSequence := by
      unfold rbfsDerivativeNdSequence rbfsDerivative1dSequence rbfs1dSequence gauss
      rw [hp.centers, hp'.centers]
    rw [hprog]
    have key : ∃ (D : Matrix (Fin w) (Fin n) ℝ) (T₂ : TimeArray n),
        (p.rbfsDerivative1dSequence (n := n)).exec (.float T) = (.ok D, T₂) := by
      unfold rbfsDerivative1dSequence rbfs1dSequence
      rw [Py.exec_bind, Py.exec_bind, exec_normalizeTimes hm]
      dsimp only
      rw [Py.exec_pure]
      dsimp only
      rw [Py.exec_bind, exec_normalizeTimes (largest_div hm h0)]
      exact ⟨_, _, rfl⟩
    obtain ⟨D, T₂, hD⟩ := key
    have h2 : (p.rbfsDerivativeNdSequence (n := n)).exec (.float T) = (.ok (ndBlockDiagonal D d), T₂) := by
      unfold rbfsDerivativeNdSequence
      rw [Py.exec_bind, hD]
      rfl
    exact ⟨D, T₂, h2, h2⟩
  have hmean := weightsMapped_iff.1 h.mean
  have hcov := covMapped_iff.1 h.cov
  have rows : ∀ P : Matrix (Fin w) (Fin n) ℝ, Spec.RowsMapped A (reshape2 ((ndBlockDiagonal P d)ᵀ *ᵥ p.weightMean))ᵀ
      (reshape2 ((ndBlockDiagonal P d)ᵀ *ᵥ p'.weightMean))ᵀ := fun P => by
    rw [hmean, mulVec_mulVec, axes_comm_transpose, ← mulVec_mulVec]
    exact reshape_mapped A _
  have covs : ∀ P : Matrix (Fin w) (Fin n) ℝ, Spec.CovMapped A ((ndBlockDiagonal P d)ᵀ * p.weightCov * ndBlockDiagonal P d)
      ((ndBlockDiagonal P d)ᵀ * p'.weightCov * ndBlockDiagonal P d) := fun P => by
    rw [covMapped_iff, hcov]
    have e1 := axes_comm_transpose A P
    have e2 : (axesMap w A)ᵀ * ndBlockDiagonal P d = ndBlockDiagonal P d * (axesMap n A)ᵀ := by
      have := congrArg transpose e1
      rwa [transpose_mul, transpose_mul, transpose_transpose] at this
    calc (ndBlockDiagonal P d)ᵀ * (axesMap w A * p.weightCov * (axesMap w A)ᵀ) * ndBlockDiagonal P d
        = ((ndBlockDiagonal P d)ᵀ * axesMap w A) * p.weightCov * ((axesMap w A)ᵀ * ndBlockDiagonal P d) := by
          simp only [Matrix.mul_assoc]
      _ = _ := by
          rw [e1, e2]
          simp only [Matrix.mul_assoc]
  set P : Matrix (Fin w) (Fin n) ℝ := Matrix.of fun a i => Spec.activation w (T i / m) a
  refine ⟨_, _, _, _, _, _, _, _, .float fun i => T i / m, T₂, ?_, ?_, ?_, ?_, ?_, ?_, ?_, ?_, rows P, covs P, rows D, covs D⟩
  rotate_left 4
  · unfold meanVelocities
    rw [Py.exec_bind, hD]
    rfl
  · unfold meanVelocities
    rw [Py.exec_bind, hD']
    rfl
  · unfold covVelocities
    rw [Py.exec_bind, hD]
    rfl
  · unfold covVelocities
    rw [Py.exec_bind, hD']
    rfl
  rotate_left 2
  · exact exec_covTrajectory hp.centers hm
  · exact exec_covTrajectory hp'.centers hm
  · unfold meanTrajectory trajectoryFromWeights
    rw [Py.exec_bind, exec_rbfsNdSequence hp.centers hm]
    rfl
  · unfold meanTrajectory trajectoryFromWeights
    rw [Py.exec_bind, exec_rbfsNdSequence hp'.centers hm]
    rfl

/-- **C116.** Fitting weights to a trajectory (`weights`, ridge regression) commutes with every linear map of the space of
positions. -/
theorem C116_weights {A : Matrix (Fin d) (Fin d) ℝ} {p : ProMP d w} (hp : Spec.Reachable p) {T : Vec n} {m : ℝ}
    (hm : Spec.IsLargest T m) (_h0 : m ≠ 0) {Y Y' : Matrix (Fin n) (Fin d) ℝ} (hY : Spec.RowsMapped A Y Y') (lmbda : ℝ) :
    ∃ W W' T', (p.weights Y lmbda).exec (.float T) = (.ok W, T') ∧ (p.weights Y' lmbda).exec (.float T) = (.ok W', T') ∧
      Spec.WeightsMapped A W W' := by
  have hex : ∀ Z : Matrix (Fin n) (Fin d) ℝ, (p.weights Z lmbda).exec (.float T) =
      (.ok ((pinv ((ndBlockDiagonal (Matrix.of fun a i => Spec.activation w (T i / m) a) d)ᵀᵀ *
        (ndBlockDiagonal (Matrix.of fun a i => Spec.activation w (T i / m) a) d)ᵀ + lmbda • 1) *
        (ndBlockDiagonal (Matrix.of fun a i => Spec.activation w (T i / m) a) d)ᵀᵀ) *ᵥ ravel2 Zᵀ),
        .float fun i => T i / m) := fun Z => by
    unfold weights
    rw [Py.exec_bind, exec_rbfsNdSequence hp.centers hm]
    rfl
  refine ⟨_, _, _, hex Y, hex Y', ?_⟩
  rw [weightsMapped_iff, ravel_mapped hY]
  set P : Matrix (Fin w) (Fin n) ℝ := Matrix.of fun a i => Spec.activation w (T i / m) a
  have hM : (ndBlockDiagonal P d)ᵀᵀ * (ndBlockDiagonal P d)ᵀ + lmbda • 1 = blk 1 (P * Pᵀ + lmbda • 1) := by
    rw [transpose_transpose, ndBlockDiagonal_blk, blk_transpose, blk_mul, ← blk_add, ← blk_smul, blk_one, transpose_one,
      Matrix.mul_one]
  have hsym : (P * Pᵀ + lmbda • (1 : Matrix (Fin w) (Fin w) ℝ))ᵀ = P * Pᵀ + lmbda • 1 := by
    rw [transpose_add, transpose_mul, transpose_transpose, transpose_smul, transpose_one]
  have hB := isPinv_pinv hsym
  have hB' : IsPinv (blk (1 : Matrix (Fin d) (Fin d) ℝ) (P * Pᵀ + lmbda • 1))
      (blk (1 : Matrix (Fin d) (Fin d) ℝ) (pinv (P * Pᵀ + lmbda • 1))) := by
    constructor
    · rw [blk_mul, blk_mul, hB.aba, Matrix.one_mul, Matrix.one_mul]
    · rw [blk_mul, blk_mul, hB.bab, Matrix.one_mul, Matrix.one_mul]
    · rw [blk_mul, blk_transpose, hB.symm_ab, Matrix.one_mul, transpose_one]
    · rw [blk_mul, blk_transpose, hB.symm_ba, Matrix.one_mul, transpose_one]
  rw [hM, pinv_eq (by rw [blk_transpose, hsym, transpose_one]) hB', transpose_transpose, ndBlockDiagonal_blk, blk_mul,
    mulVec_mulVec, mulVec_mulVec, blk_mul, blk_mul, Matrix.mul_one, Matrix.one_mul, Matrix.one_mul, Matrix.mul_one,
    Matrix.mul_one]

theorem condition_mapped {A : Matrix (Fin d) (Fin d) ℝ} (hA : A.det ≠ 0) {p p' : ProMP d w} (hp : Spec.Reachable p)
    (hp' : Spec.Reachable p') (h : Spec.PrompMapped A p p') {y y' : Vec d} (hy : ∀ k, y' k = ∑ l, A k l * y l)
    {c c' : YCov d} (hb : c'.broadcast = A * c.broadcast * Aᵀ) (t tMax : ℝ) :
    (∃ q q', (ProMP.conditionPosition y c t tMax).exec p = (.ok q, p) ∧
        (ProMP.conditionPosition y' c' t tMax).exec p' = (.ok q', p') ∧ Spec.PrompMapped A q q') ∨
      ∃ e, (ProMP.conditionPosition y c t tMax).exec p = (.error e, p) ∧
        (ProMP.conditionPosition y' c' t tMax).exec p' = (.error e, p') := by
  by_cases h0 : tMax = 0
  · subst h0
    exact .inr ⟨_, exec_condition_zero p y c t, exec_condition_zero p' y' c' t⟩
  have hy' : y' = A *ᵥ y := funext hy
  have hmean := weightsMapped_iff.1 h.mean
  have hcov := covMapped_iff.1 h.cov
  set P := psi d w (t / tMax) with hP
  set L := axesMap w A with hL
  have e1 : Pᵀ * L = A * Pᵀ := psi_lift A _
  have e2 : Lᵀ * P = P * Aᵀ := by
    have := congrArg transpose e1
    rwa [transpose_mul, transpose_mul, transpose_transpose] at this
  have hM : c'.broadcast + Pᵀ * p'.weightCov * P = A * (c.broadcast + Pᵀ * p.weightCov * P) * Aᵀ := by
    rw [hb, hcov, Matrix.mul_add, Matrix.add_mul]
    congr 1
    calc Pᵀ * (L * p.weightCov * Lᵀ) * P = (Pᵀ * L) * p.weightCov * (Lᵀ * P) := by simp only [Matrix.mul_assoc]
      _ = _ := by
        rw [e1, e2]
        simp only [Matrix.mul_assoc]
  have hAu : IsUnit A.det := isUnit_iff_ne_zero.2 hA
  have hAu' : IsUnit Aᵀ.det := by rwa [det_transpose]
  rw [exec_condition hp.centers y c h0, exec_condition hp'.centers y' c' h0]
  have hdet : (c'.broadcast + Pᵀ * p'.weightCov * P).det = 0 ↔ (c.broadcast + Pᵀ * p.weightCov * P).det = 0 := by
    rw [hM, det_mul, det_mul, det_transpose, mul_eq_zero, mul_eq_zero]
    simp [hA]
  by_cases hd : (c.broadcast + Pᵀ * p.weightCov * P).det = 0
  · rw [if_pos hd, if_pos (hdet.2 hd)]
    exact .inr ⟨_, rfl, rfl⟩
  · rw [if_neg hd, if_neg (fun x => hd (hdet.1 x))]
    refine .inl ⟨_, _, rfl, rfl, ?_⟩
    have hgain : p'.gain c'.broadcast (t / tMax) = L * p.gain c.broadcast (t / tMax) * A⁻¹ := by
      unfold gain
      rw [← hP, hM, Matrix.mul_inv_rev, Matrix.mul_inv_rev, hcov]
      calc L * p.weightCov * Lᵀ * P * (Aᵀ⁻¹ * ((c.broadcast + Pᵀ * p.weightCov * P)⁻¹ * A⁻¹))
          = L * p.weightCov * (Lᵀ * P) * Aᵀ⁻¹ * (c.broadcast + Pᵀ * p.weightCov * P)⁻¹ * A⁻¹ := by
            simp only [Matrix.mul_assoc]
        _ = L * p.weightCov * P * (Aᵀ * Aᵀ⁻¹) * (c.broadcast + Pᵀ * p.weightCov * P)⁻¹ * A⁻¹ := by
            rw [e2]
            simp only [Matrix.mul_assoc]
        _ = _ := by
            rw [Matrix.mul_nonsing_inv _ hAu', Matrix.mul_one]
            simp only [Matrix.mul_assoc]
    refine ⟨weightsMapped_iff.2 ?_, covMapped_iff.2 ?_, rfl⟩
    · show p'.weightMean + p'.gain c'.broadcast (t / tMax) *ᵥ (y' - Pᵀ *ᵥ p'.weightMean) =
        L *ᵥ (p.weightMean + p.gain c.broadcast (t / tMax) *ᵥ (y - Pᵀ *ᵥ p.weightMean))
      have h1 : Pᵀ *ᵥ (L *ᵥ p.weightMean) = A *ᵥ (Pᵀ *ᵥ p.weightMean) := by
        rw [mulVec_mulVec, e1, ← mulVec_mulVec]
      have h2 : ∀ x : Vec d, (L * p.gain c.broadcast (t / tMax) * A⁻¹) *ᵥ (A *ᵥ x) = L *ᵥ (p.gain c.broadcast (t / tMax) *ᵥ x) := by
        intro x
        rw [mulVec_mulVec, Matrix.mul_assoc _ A⁻¹ A, Matrix.nonsing_inv_mul _ hAu, Matrix.mul_one, mulVec_mulVec]
      rw [hgain, hmean, hy', h1, ← mulVec_sub, h2, mulVec_add]
    · show p'.weightCov - p'.gain c'.broadcast (t / tMax) * Pᵀ * p'.weightCov =
        L * (p.weightCov - p.gain c.broadcast (t / tMax) * Pᵀ * p.weightCov) * Lᵀ
      rw [hgain, hcov, Matrix.mul_sub, Matrix.sub_mul]
      congr 1
      calc L * p.gain c.broadcast (t / tMax) * A⁻¹ * Pᵀ * (L * p.weightCov * Lᵀ)
          = L * p.gain c.broadcast (t / tMax) * A⁻¹ * (Pᵀ * L) * p.weightCov * Lᵀ := by simp only [Matrix.mul_assoc]
        _ = L * p.gain c.broadcast (t / tMax) * (A⁻¹ * A) * Pᵀ * p.weightCov * Lᵀ := by
            rw [e1]
            simp only [Matrix.mul_assoc]
        _ = _ := by
            rw [Matrix.nonsing_inv_mul _ hAu, Matrix.mul_one]
            simp only [Matrix.mul_assoc]

/-- **C116.** Conditioning commutes with every invertible linear map of the space of positions: if the position and its
covariance (none, or a matrix) are mapped, so is the result; and conditioning fails in the new coordinates if and only
if it fails in the old ones. -/
theorem C116_condition {A : Matrix (Fin d) (Fin d) ℝ} (hA : A.det ≠ 0) {p p' : ProMP d w} (hp : Spec.Reachable p)
    (hp' : Spec.Reachable p') (h : Spec.PrompMapped A p p') {y y' : Vec d} (hy : ∀ k, y' k = ∑ l, A k l * y l)
    {c c' : YCov d} (hc : (c = .none ∧ c' = .none) ∨ ∃ R, c = .full R ∧ c' = .full (A * R * Aᵀ)) (t tMax : ℝ) :
    (∃ q q', (ProMP.conditionPosition y c t tMax).exec p = (.ok q, p) ∧
        (ProMP.conditionPosition y' c' t tMax).exec p' = (.ok q', p') ∧ Spec.PrompMapped A q q') ∨
      ∃ e, (ProMP.conditionPosition y c t tMax).exec p = (.error e, p) ∧
        (ProMP.conditionPosition y' c' t tMax).exec p' = (.error e, p') := by
  refine condition_mapped hA hp hp' h hy ?_ t tMax
  rcases hc with ⟨rfl, rfl⟩ | ⟨R, rfl, rfl⟩
  · show (0 : Matrix (Fin d) (Fin d) ℝ) = A * 0 * Aᵀ
    rw [Matrix.mul_zero, Matrix.zero_mul]
  · rfl

/-- **C116.** The same for via points (`via_points` without covariances), one after the other. -/
theorem C116_via_points {A : Matrix (Fin d) (Fin d) ℝ} (hA : A.det ≠ 0) {p p' : ProMP d w} (hp : Spec.Reachable p)
    (hp' : Spec.Reachable p') (h : Spec.PrompMapped A p p') {points points' : List (ℝ × Vec d)}
    (hpts : List.Forall₂ (fun x x' => x'.1 = x.1 ∧ ∀ k, x'.2 k = ∑ l, A k l * x.2 l) points points') :
    (∃ q q', p.viaPoints points = .ok q ∧ p'.viaPoints points' = .ok q' ∧ Spec.PrompMapped A q q') ∨
      ∃ e, p.viaPoints points = .error e ∧ p'.viaPoints points' = .error e := by
  unfold viaPoints
  induction hpts generalizing p p' with
  | nil => exact .inl ⟨p, p', rfl, rfl, h⟩
  | @cons x x' l l' h1 h2 ih =>
    obtain ⟨t, y⟩ := x
    obtain ⟨t', y'⟩ := x'
    obtain ⟨ht, hy⟩ := h1
    dsimp only at ht hy
    subst ht
    rw [List.map_cons, List.map_cons, viaPointsLoop, viaPointsLoop]
    have hb : (YCov.row (0 : Vec d)).broadcast = A * (YCov.row (0 : Vec d)).broadcast * Aᵀ := by
      have : (YCov.row (0 : Vec d)).broadcast = 0 := rfl
      rw [this, Matrix.mul_zero, Matrix.zero_mul]
    rcases condition_mapped hA hp hp' h hy hb t' 1 with ⟨q, q', hq, hq', hm⟩ | ⟨e, he, he'⟩
    · dsimp only
      rw [hq, hq']
      exact ih (.condition hp hq) (.condition hp' hq') hm
    · dsimp only
      rw [he, he']
      exact .inr ⟨e, rfl, rfl⟩

/-- The hypotheses can be met: other units and skewed axes; every ProMP has an image. -/
example (p : ProMP 2 5) (hp : Spec.Reachable p) : (!![(1000 : ℝ), 0; 1, 3]).det ≠ 0 ∧ ∃ p', Spec.Reachable p' ∧
    Spec.PrompMapped !![(1000 : ℝ), 0; 1, 3] p p' := by
  refine ⟨by simp [det_fin_two], p.fromWeightDistribution (axesMap 5 !![(1000 : ℝ), 0; 1, 3] *ᵥ p.weightMean)
    (axesMap 5 !![(1000 : ℝ), 0; 1, 3] * p.weightCov * (axesMap 5 !![(1000 : ℝ), 0; 1, 3])ᵀ), .fromWeightDistribution hp _ _,
    weightsMapped_iff.2 rfl, covMapped_iff.2 rfl, rfl⟩

/-- **C116.** A new ProMP is the same in all orthonormal coordinates. -/
theorem C116_new {A : Matrix (Fin d) (Fin d) ℝ} (hA : Spec.Orthonormal A) :
    Spec.PrompMapped A (ProMP.init d w) (ProMP.init d w) := by
  refine ⟨weightsMapped_iff.2 ?_, covMapped_iff.2 ?_, rfl⟩
  · exact (mulVec_zero _).symm
  · show (1 : Matrix (Fin (d * w)) (Fin (d * w)) ℝ) = axesMap w A * 1 * (axesMap w A)ᵀ
    rw [Matrix.mul_one, mul_eq_one_comm.1 (axes_orthonormal hA)]

theorem emTerms_mapped {A : Matrix (Fin d) (Fin d) ℝ} (hA : Spec.Orthonormal A) {p p' : ProMP d w}
    (hp : p.centers = linspace01 w) (hp' : p'.centers = linspace01 w) {demo demo' : PrompDemo d}
    (h : Spec.DemoMapped A demo demo') (hv : Spec.ValidDemo demo) :
    demo'.n = demo.n ∧ ∃ e e', ((p.emTerms demo.Y).exec demo.T).1 = .ok e ∧ ((p'.emTerms demo'.Y).exec demo'.T).1 = .ok e' ∧
      TermsMapped (axesMap w A) e e' := by
  obtain ⟨n, T, Y, Y', c, hc, rfl, rfl, hY⟩ := h
  obtain ⟨T', m, hT, hm, h0⟩ := hv
  obtain rfl : T = T' := by
    injection hT
  refine ⟨rfl, ?_⟩
  dsimp only
  unfold emTerms
  rw [Py.exec_bind, exec_rbfsNdSequence hp hm, Py.exec_bind, rbfsNdSequence_scale p' hm hc, exec_rbfsNdSequence hp' hm]
  refine ⟨_, _, rfl, rfl, ?_⟩
  have hR : ndBlockDiagonal (hPartial n) d *ᵥ ravel2 Y'ᵀ = axesMap n A *ᵥ (ndBlockDiagonal (hPartial n) d *ᵥ ravel2 Yᵀ) := by
    rw [ravel_mapped hY, mulVec_mulVec, ← axes_comm, ← mulVec_mulVec]
  rw [hR]
  set P : Matrix (Fin w) (Fin n) ℝ := Matrix.of fun a i => Spec.activation w (T i / m) a
  have hn := axes_orthonormal (r := n) hA
  have hU := axes_orthonormal (r := w) hA
  have e : (ndBlockDiagonal P d * (ndBlockDiagonal (hPartial n) d)ᵀ) * axesMap n A =
      axesMap w A * (ndBlockDiagonal P d * (ndBlockDiagonal (hPartial n) d)ᵀ) := by
    rw [Matrix.mul_assoc, axes_comm_transpose, ← Matrix.mul_assoc, ← axes_comm, Matrix.mul_assoc]
  constructor
  · exact dot_map hn _ _
  · show (ndBlockDiagonal P d * (ndBlockDiagonal (hPartial n) d)ᵀ) *ᵥ (axesMap n A *ᵥ _) = _
    rw [mulVec_mulVec, e, ← mulVec_mulVec]
  · show (ndBlockDiagonal P d * (ndBlockDiagonal (hPartial n) d)ᵀ) * (ndBlockDiagonal P d * (ndBlockDiagonal (hPartial n) d)ᵀ)ᵀ =
      axesMap w A * ((ndBlockDiagonal P d * (ndBlockDiagonal (hPartial n) d)ᵀ) *
        (ndBlockDiagonal P d * (ndBlockDiagonal (hPartial n) d)ᵀ)ᵀ) * (axesMap w A)ᵀ
    set Q := ndBlockDiagonal P d * (ndBlockDiagonal (hPartial n) d)ᵀ
    have hn' : axesMap n A * (axesMap n A)ᵀ = 1 := mul_eq_one_comm.1 hn
    calc Q * Qᵀ = Q * (axesMap n A * (axesMap n A)ᵀ) * Qᵀ := by rw [hn', Matrix.mul_one]
      _ = (Q * axesMap n A) * (Q * axesMap n A)ᵀ := by
        rw [transpose_mul Q (axesMap n A)]
        simp only [Matrix.mul_assoc]
      _ = _ := by
        rw [e, transpose_mul (axesMap w A) Q]
        simp only [Matrix.mul_assoc]

theorem emTermsAll_mapped {A : Matrix (Fin d) (Fin d) ℝ} (hA : Spec.Orthonormal A) {p p' : ProMP d w}
    (hp : p.centers = linspace01 w) (hp' : p'.centers = linspace01 w) {demos demos' : List (PrompDemo d)}
    (h : List.Forall₂ (Spec.DemoMapped A) demos demos') (hv : ∀ demo ∈ demos, Spec.ValidDemo demo) :
    (demos'.map fun x => x.n).sum = (demos.map fun x => x.n).sum ∧
      ∃ es es', p.emTermsAll demos = .ok es ∧ p'.emTermsAll demos' = .ok es' ∧
        List.Forall₂ (TermsMapped (axesMap w A)) es es' := by
  induction h with
  | nil => exact ⟨rfl, [], [], rfl, rfl, .nil⟩
  | @cons a b l l' h1 h2 ih =>
    obtain ⟨hn, es, es', he, he', hf⟩ := ih fun x hx => hv x (List.mem_cons_of_mem _ hx)
    obtain ⟨hn1, e, e', h3, h4, h5⟩ := emTerms_mapped (w := w) hA hp hp' h1 (hv a List.mem_cons_self)
    refine ⟨by rw [List.map_cons, List.map_cons, List.sum_cons, List.sum_cons, hn, hn1], e :: es, e' :: es', ?_, ?_, .cons h5 hf⟩
    · unfold emTermsAll
      rw [h3, he]
      rfl
    · unfold emTermsAll
      rw [h4, he']
      rfl

/-- **C116.** Learning from demonstrations does not depend on the choice of the axes and on the units of time: if every
demonstration is rotated (mirrored, has its axes permuted) by the same map and has its times multiplied by a factor of
its own, `imitate` learns the rotated distribution of weights and the same noise variance. -/
theorem C116_imitate {A : Matrix (Fin d) (Fin d) ℝ} (hA : Spec.Orthonormal A) {p p' : ProMP d w} (hp : Spec.Reachable p)
    (hp' : Spec.Reachable p') (h : Spec.PrompMapped A p p') {demos demos' : List (PrompDemo d)}
    (hd : List.Forall₂ (Spec.DemoMapped A) demos demos') (hv : ∀ demo ∈ demos, Spec.ValidDemo demo) (nIter : ℕ)
    (minDelta : ℝ) :
    ∃ q q', (ProMP.imitate demos nIter minDelta).exec p = (.ok (), q) ∧
      (ProMP.imitate demos' nIter minDelta).exec p' = (.ok (), q') ∧ Spec.PrompMapped A q q' := by
  obtain ⟨hn, es, es', he, he', hf⟩ := emTermsAll_mapped (w := w) hA hp.centers hp'.centers hd hv
  have h0 : StateMapped (axesMap w A) ⟨p.weightMean, p.weightCov, 1⟩ ⟨p'.weightMean, p'.weightCov, 1⟩ :=
    ⟨weightsMapped_iff.1 h.mean, covMapped_iff.1 h.cov, rfl⟩
  have h1 := emLoop_mapped (axes_orthonormal hA) hf d (demos.map fun x => x.n).sum minDelta nIter h0
  obtain ⟨s, hs⟩ : ∃ s, emLoop d ((demos.map fun x => x.n).sum) es minDelta nIter ⟨p.weightMean, p.weightCov, 1⟩ = s :=
    ⟨_, rfl⟩
  obtain ⟨s', hs'⟩ : ∃ s, emLoop d ((demos'.map fun x => x.n).sum) es' minDelta nIter ⟨p'.weightMean, p'.weightCov, 1⟩ = s :=
    ⟨_, rfl⟩
  refine ⟨_, _, exec_imitate he nIter minDelta hs, exec_imitate he' nIter minDelta hs', ?_⟩
  rw [hn] at hs'
  rw [hs, hs'] at h1
  exact ⟨weightsMapped_iff.2 h1.mean, covMapped_iff.2 h1.cov, congrArg some h1.variance⟩

/-- The hypotheses can be met: a new ProMP and two demonstrations, whose axes are swapped; one demonstration is given in
milliseconds. -/
example : Spec.Orthonormal !![(0 : ℝ), 1; 1, 0] ∧ Spec.PrompMapped !![(0 : ℝ), 1; 1, 0] (ProMP.init 2 5) (ProMP.init 2 5) ∧
    List.Forall₂ (Spec.DemoMapped !![(0 : ℝ), 1; 1, 0])
      [⟨3, .float ![0, 1, 2], !![1, 2; 3, 4; 5, 6]⟩, ⟨2, .float ![0, 1], !![1, 2; 3, 5]⟩]
      [⟨3, .float fun i => 1000 * ![0, 1, 2] i, !![2, 1; 4, 3; 6, 5]⟩, ⟨2, .float fun i => 1 * ![0, 1] i, !![2, 1; 5, 3]⟩] := by
  have h : Spec.Orthonormal !![(0 : ℝ), 1; 1, 0] := by
    intro k l
    fin_cases k <;> fin_cases l <;> simp [Fin.sum_univ_two]
  refine ⟨h, C116_new h, .cons ⟨3, _, _, _, 1000, by norm_num, rfl, rfl, ?_⟩ (.cons ⟨2, _, _, _, 1, one_pos, rfl, rfl, ?_⟩ .nil)⟩
  · intro i k
    fin_cases i <;> fin_cases k <;> simp [Fin.sum_univ_two]
  · intro i k
    fin_cases i <;> fin_cases k <;> simp [Fin.sum_univ_two]

/-- **C116 (finding).** Units of positions matter: after one iteration with one demonstration, starting from a new ProMP,
the covariance of the weights is the same for all demonstrated positions, for example for a movement in metres and for the
same movement in millimetres. (The distribution from which learning starts has variance 1 in whatever unit is used.) -/
theorem C116_finding_units_of_positions (hd : 0 < d) (hw : 0 < w) {T : Vec n} {m : ℝ} (hm : Spec.IsLargest T m) (h0 : 0 < m)
    (Y Y' : Matrix (Fin n) (Fin d) ℝ) (minDelta : ℝ) :
    ∃ q q', (ProMP.imitate [⟨n, .float T, Y⟩] 1 minDelta).exec (ProMP.init d w) = (.ok (), q) ∧
      (ProMP.imitate [⟨n, .float T, Y'⟩] 1 minDelta).exec (ProMP.init d w) = (.ok (), q') ∧
      q.weightCov = q'.weightCov ∧ q.weightCov.PosDef := by
  have hv : ∀ Z : Matrix (Fin n) (Fin d) ℝ, Spec.ValidDemo (⟨n, .float T, Z⟩ : PrompDemo d) := fun Z => ⟨T, m, rfl, hm, h0⟩
  have hone : ∀ (dd nS : ℕ) (e : EMTerms (d * w)) (s : EMState (d * w)),
      (emLoop dd nS [e] minDelta 1 s).cov = (emExpectation s e).cov := by
    intro dd nS e s
    have h1 : emLoop dd nS [e] minDelta 1 s = emStep dd nS [e] s := by
      unfold emLoop
      dsimp only
      split
      · rfl
      · rfl
    rw [h1]
    unfold emStep emMaximization
    simp
  have hterms : ∀ Z : Matrix (Fin n) (Fin d) ℝ, ∃ e : EMTerms (d * w),
      (ProMP.init d w).emTermsAll [⟨n, .float T, Z⟩] = .ok [e] ∧
        e.PhiHTHPhiT = (ndBlockDiagonal (Matrix.of fun a i => Spec.activation w (T i / m) a) d *
          (ndBlockDiagonal (hPartial n) d)ᵀ) * (ndBlockDiagonal (Matrix.of fun a i => Spec.activation w (T i / m) a) d *
          (ndBlockDiagonal (hPartial n) d)ᵀ)ᵀ := by
    intro Z
    have h1 : ∃ e T', ((ProMP.init d w).emTerms Z).exec (.float T) = (.ok e, T') ∧
        e.PhiHTHPhiT = (ndBlockDiagonal (Matrix.of fun a i => Spec.activation w (T i / m) a) d *
          (ndBlockDiagonal (hPartial n) d)ᵀ) * (ndBlockDiagonal (Matrix.of fun a i => Spec.activation w (T i / m) a) d *
          (ndBlockDiagonal (hPartial n) d)ᵀ)ᵀ := by
      unfold emTerms
      rw [Py.exec_bind, exec_rbfsNdSequence (p := ProMP.init d w) rfl hm]
      exact ⟨_, _, rfl, rfl⟩
    obtain ⟨e, T', he, hG⟩ := h1
    refine ⟨e, ?_, hG⟩
    unfold emTermsAll
    rw [he]
    rfl
  obtain ⟨e, he, hG⟩ := hterms Y
  obtain ⟨e', he', hG'⟩ := hterms Y'
  obtain ⟨q, hq, hpd⟩ := C47_positive_definite (p := ProMP.init d w) .init hd hw PosDef.one (demos := [⟨n, .float T, Y⟩])
    (List.cons_ne_nil _ _) (fun x hx => by rw [List.mem_singleton.1 hx]; exact hv Y) 1 minDelta
  refine ⟨q, _, hq, exec_imitate he' 1 minDelta rfl, ?_, hpd⟩
  have h2 := exec_imitate he 1 minDelta rfl
  rw [hq] at h2
  have h3 : q = _ := (Prod.mk.inj h2).2
  rw [h3]
  show (emLoop _ _ [e] minDelta 1 _).cov = (emLoop _ _ [e'] minDelta 1 _).cov
  rw [hone, hone]
  unfold emExpectation
  rw [hG, hG']

end Verif
