import Verif.Lemmas.PrompCondition
import Mathlib.LinearAlgebra.Matrix.Notation
import Mathlib.Tactic.NormNum

/-! # Properties of ProMPs: trajectories, covariances, conditioning (C41-C44) -/

namespace Verif
open Matrix ProMP

variable {d w n : ℕ}

/-! ## Trajectories -/

/-- **C44.** `mean_trajectory` is the trajectory of the mean weights, evaluated at times relative to the
largest query time. -/
theorem C44_mean {p : ProMP d w} (hp : Spec.Reachable p) (T : Vec n) {m : ℝ} (hm : Spec.IsLargest T m)
    (_h0 : m ≠ 0) :
    ∃ Y T', p.meanTrajectory.exec (.float T) = (.ok Y, T') ∧
      ∀ i k, Y i k = Spec.prompPosition p.weightMean (T i / m) k :=
  ⟨_, _, exec_trajectoryFromWeights hp.centers hm _, fun _ _ => rfl⟩

/-- The hypotheses can be met. -/
example : Spec.Reachable (ProMP.init 2 5) ∧ Spec.IsLargest ![(0 : ℝ), 1, 2] 2 ∧ (2 : ℝ) ≠ 0 :=
  ⟨.init, ⟨⟨2, rfl⟩, fun i => by fin_cases i <;> norm_num⟩, by norm_num⟩

/-- **C44.** Dimensions are separate: if two ProMPs agree in the weights of dimension `k`, their mean
trajectories agree in dimension `k`, whatever the weights of the other dimensions are. -/
theorem C44_dimensions_separate {p q : ProMP d w} (hp : Spec.Reachable p) (hq : Spec.Reachable q) (k : Fin d)
    (hk : ∀ a : Fin w, p.weightMean (Spec.flat k a) = q.weightMean (Spec.flat k a)) (T : Vec n) (hn : 0 < n) :
    ∃ Y Z T', p.meanTrajectory.exec (.float T) = (.ok Y, T') ∧ q.meanTrajectory.exec (.float T) = (.ok Z, T') ∧
      ∀ i, Y i k = Z i k := by
  obtain ⟨m, hm⟩ := exists_largest hn T
  refine ⟨_, _, _, exec_trajectoryFromWeights hp.centers hm _, exec_trajectoryFromWeights hq.centers hm _, fun i => ?_⟩
  simp only [of_apply, Spec.prompPosition, hk]

/-- **C44.** Every position of the mean trajectory lies between any bounds of the weights of its
dimension. -/
theorem C44_between_weights {p : ProMP d w} (hp : Spec.Reachable p) (hw : 0 < w) (T : Vec n) {m : ℝ}
    (hm : Spec.IsLargest T m) (_h0 : m ≠ 0) (k : Fin d) {lo hi : ℝ}
    (hlo : ∀ a : Fin w, lo ≤ p.weightMean (Spec.flat k a)) (hhi : ∀ a : Fin w, p.weightMean (Spec.flat k a) ≤ hi) :
    ∃ Y T', p.meanTrajectory.exec (.float T) = (.ok Y, T') ∧ ∀ i, lo ≤ Y i k ∧ Y i k ≤ hi := by
  refine ⟨_, _, exec_trajectoryFromWeights hp.centers hm _, fun i => ?_⟩
  have h1 := activation_sum hw (T i / m)
  have h2 : ∀ c : ℝ, ∑ a, Spec.activation w (T i / m) a * c = c := fun c => by rw [← Finset.sum_mul, h1, one_mul]
  constructor
  · calc lo = ∑ a, Spec.activation w (T i / m) a * lo := (h2 lo).symm
      _ ≤ _ := Finset.sum_le_sum fun a _ => mul_le_mul_of_nonneg_left (hlo a) (activation_pos hw _ a).le
  · calc _ ≤ ∑ a, Spec.activation w (T i / m) a * hi :=
          Finset.sum_le_sum fun a _ => mul_le_mul_of_nonneg_left (hhi a) (activation_pos hw _ a).le
      _ = hi := h2 hi

/-- **C44.** `cov_trajectory` contains the covariances of all pairs of positions, and it is symmetric
positive semidefinite if the covariance of the weights is. `var_trajectory` is its diagonal, arranged with one
row per time and one column per dimension. -/
theorem C44_covariance {p : ProMP d w} (hp : Spec.Reachable p) (hC : p.weightCov.PosSemidef) (T : Vec n) {m : ℝ}
    (hm : Spec.IsLargest T m) (_h0 : m ≠ 0) :
    ∃ C V T', p.covTrajectory.exec (.float T) = (.ok C, T') ∧ p.varTrajectory.exec (.float T) = (.ok V, T') ∧
      C.PosSemidef ∧
      (∀ k i l j, C (Spec.flat k i) (Spec.flat l j) = Spec.covariance p.weightCov (T i / m) k (T j / m) l) ∧
      ∀ i k, V i k = C (Spec.flat k i) (Spec.flat k i) ∧ 0 ≤ V i k := by
  have hpsd := posSemidef_conj' hC (ndBlockDiagonal (Matrix.of fun a i => Spec.activation w (T i / m) a) d)
  refine ⟨_, _, _, exec_covTrajectory hp.centers hm, exec_varTrajectory hp.centers hm, hpsd,
    fun k i l j => block_psi T m p.weightCov k l i j, fun i k => ?_⟩
  have h := hpsd.diag_nonneg (i := Spec.flat k i)
  have e := block_psi T m p.weightCov k k i i
  unfold Spec.flat at h ⊢
  rw [e] at h ⊢
  rw [of_apply, max_eq_left h]
  exact ⟨rfl, h⟩

example : ((ProMP.init 2 5).weightCov).PosSemidef := PosSemidef.one

/-- **C44.** The covariance of velocities is also symmetric positive semidefinite, and `var_velocities` is its
diagonal. -/
theorem C44_velocity_covariance {p : ProMP d w} (hC : p.weightCov.PosSemidef) (T : Vec n) (hn : 0 < n) :
    ∃ C V T', p.covVelocities.exec (.float T) = (.ok C, T') ∧ p.varVelocities.exec (.float T) = (.ok V, T') ∧
      C.PosSemidef ∧ ∀ i k, V i k = C (Spec.flat k i) (Spec.flat k i) ∧ 0 ≤ V i k := by
  obtain ⟨m, hm⟩ := exists_largest hn T
  have key : ∃ Phi T', (p.rbfsDerivativeNdSequence (n := n)).exec (.float T) = (.ok Phi, T') := by
    obtain ⟨m', hm'⟩ := exists_largest hn (fun i => T i / m)
    unfold rbfsDerivativeNdSequence rbfsDerivative1dSequence rbfs1dSequence
    rw [Py.exec_bind, Py.exec_bind, Py.exec_bind, exec_normalizeTimes hm]
    dsimp only
    rw [Py.exec_pure]
    dsimp only
    rw [Py.exec_bind, exec_normalizeTimes hm']
    exact ⟨_, _, rfl⟩
  obtain ⟨Phi, T', hPhi⟩ := key
  have hcov : p.covVelocities.exec (.float T) = (.ok (Phiᵀ * p.weightCov * Phi), T') := by
    unfold covVelocities
    rw [Py.exec_bind, hPhi]
    rfl
  have hpsd := posSemidef_conj' hC Phi
  refine ⟨_, _, T', hcov, by unfold varVelocities; rw [Py.exec_bind, hcov]; rfl, hpsd, fun i k => ?_⟩
  have h := hpsd.diag_nonneg (i := Spec.flat k i)
  refine ⟨max_eq_left h, ?_⟩
  exact le_max_right _ _

/-! ## Conditioning -/

theorem conditioned_passes {p q p' : ProMP d w} (hp : Spec.Reachable p) {y : Vec d} {c : YCov d}
    (hc : c.broadcast = 0) {t tMax : ℝ}
    (h : (ProMP.conditionPosition y c t tMax).exec p = (.ok q, p')) :
    (psi d w (t / tMax))ᵀ *ᵥ q.weightMean = y ∧ (psi d w (t / tMax))ᵀ * q.weightCov = 0 ∧
      q.weightCov * psi d w (t / tMax) = 0 := by
  obtain ⟨h0, hd, rfl, _⟩ := condition_ok hp.centers h
  rw [hc] at hd ⊢
  rw [zero_add] at hd
  exact ⟨conditioned_mean hd y, conditioned_cov hd y, conditioned_cov_right hd y⟩

theorem passesThrough_of {q : ProMP d w} (hq : Spec.Reachable q) {s : ℝ} {y : Vec d}
    (h1 : (psi d w s)ᵀ *ᵥ q.weightMean = y) (h2 : (psi d w s)ᵀ * q.weightCov = 0)
    (h3 : q.weightCov * psi d w s = 0) : Spec.PassesThrough q s y := by
  intro n T m hm h0 i hi
  refine ⟨_, _, _, _, exec_trajectoryFromWeights hq.centers hm _, exec_varTrajectory hq.centers hm,
    exec_covTrajectory hq.centers hm, fun k => ⟨?_, ?_, fun x => ?_⟩⟩
  · rw [of_apply, hi, ← psi_transpose_mulVec, h1]
  · rw [of_apply, hi, ← psi_quadratic, h2, Matrix.zero_mul]
    simp
  · obtain ⟨⟨l, j⟩, rfl⟩ := finProdFinEquiv.surjective x
    unfold Spec.flat
    rw [block_psi, block_psi, hi, ← psi_quadratic, ← psi_quadratic, h2, Matrix.zero_mul, Matrix.mul_assoc, h3,
      Matrix.mul_zero]
    exact ⟨rfl, rfl⟩

/-- **C41.** Conditioning without observation noise: the new ProMP passes exactly through the requested position
at the requested time, with zero variance; the ProMP that was conditioned is not changed. -/
theorem C41_condition_exact {p q p' : ProMP d w} (hp : Spec.Reachable p) {y : Vec d} {t tMax : ℝ}
    (h : (ProMP.conditionPosition y .none t tMax).exec p = (.ok q, p')) :
    Spec.PassesThrough q (t / tMax) y ∧ p' = p := by
  obtain ⟨h1, h2, h3⟩ := conditioned_passes hp (c := .none) rfl h
  exact ⟨passesThrough_of (.condition hp h) h1 h2 h3, (condition_ok hp.centers h).2.2.2⟩

/-- **C41.** Conditioning succeeds for every position and every time if the covariance of the weights is
positive definite, the covariance of the position is positive semidefinite and `t_max` is not zero. -/
theorem C41_succeeds {p : ProMP d w} (hp : Spec.Reachable p) (hw : 0 < w) (hC : p.weightCov.PosDef) (y : Vec d)
    {c : YCov d} (hc : c = .none ∨ ∃ R, c = .full R ∧ R.PosSemidef) (t : ℝ) {tMax : ℝ} (h0 : tMax ≠ 0) :
    ∃ q, (ProMP.conditionPosition y c t tMax).exec p = (.ok q, p) := by
  have hR : c.broadcast.PosSemidef := by
    rcases hc with rfl | ⟨R, rfl, hR⟩
    · exact PosSemidef.zero
    · exact hR
  have hpd := innovation_posDef hw hC (t / tMax) hR
  rw [exec_condition hp.centers y c h0, if_neg hpd.det_pos.ne']
  exact ⟨_, rfl⟩

/-- A new ProMP can be conditioned on every position at every time, so that the hypothesis of
`C41_condition_exact` can be met. -/
example (y : Vec 2) (t : ℝ) :
    ∃ q, (ProMP.conditionPosition y .none t 2).exec (ProMP.init 2 5) = (.ok q, ProMP.init 2 5) :=
  C41_succeeds .init (by norm_num) PosDef.one y (.inl rfl) t (by norm_num)

/-- **C41.** The two failures: a zero duration, and a covariance that leaves no freedom at that time. In both
cases the ProMP is not changed. -/
theorem C41_fails {p : ProMP d w} (hp : Spec.Reachable p) (y : Vec d) (t : ℝ) :
    (ProMP.conditionPosition y .none t 0).exec p = (.error .zeroDivisionError, p) ∧
      ∀ tMax : ℝ, tMax ≠ 0 → 0 < d →
        (∀ k l, Spec.covariance p.weightCov (t / tMax) k (t / tMax) l = 0) →
        (ProMP.conditionPosition y .none t tMax).exec p = (.error .linAlgError, p) := by
  refine ⟨exec_condition_zero p y .none t, fun tMax h0 hd hz => ?_⟩
  rw [exec_condition hp.centers y .none h0, if_pos]
  have e : (psi d w (t / tMax))ᵀ * p.weightCov * psi d w (t / tMax) = 0 := by
    ext k l
    rw [psi_quadratic, hz]
    rfl
  rw [e]
  show ((0 : Matrix (Fin d) (Fin d) ℝ) + 0).det = 0
  rw [add_zero]
  have : Nonempty (Fin d) := ⟨⟨0, hd⟩⟩
  exact det_zero

/-- **C42.** Conditioning keeps a valid covariance and never increases uncertainty: the new covariance is
symmetric positive semidefinite, the difference to the old one is too, and no variance along the trajectory
grows at any time. -/
theorem C42_condition_covariance {p q p' : ProMP d w} (hp : Spec.Reachable p) (hC : p.weightCov.PosSemidef)
    {y : Vec d} {c : YCov d} (hc : c = .none ∨ ∃ R, c = .full R ∧ R.PosSemidef) {t tMax : ℝ}
    (h : (ProMP.conditionPosition y c t tMax).exec p = (.ok q, p')) :
    q.weightCov.PosSemidef ∧ (p.weightCov - q.weightCov).PosSemidef ∧
      ∀ (n : ℕ) (T : Vec n) (m : ℝ), Spec.IsLargest T m → m ≠ 0 →
        ∃ V V' T', p.varTrajectory.exec (.float T) = (.ok V, T') ∧ q.varTrajectory.exec (.float T) = (.ok V', T') ∧
          ∀ i k, V' i k ≤ V i k := by
  have hR : c.broadcast.PosSemidef := by
    rcases hc with rfl | ⟨R, rfl, hR⟩
    · exact PosSemidef.zero
    · exact hR
  have hq : Spec.Reachable q := .condition hp h
  obtain ⟨h0, hd, hqe, -⟩ := condition_ok hp.centers h
  have h1 : q.weightCov.PosSemidef := hqe ▸ conditioned_posSemidef hC hR hd y
  have h2 : (p.weightCov - q.weightCov).PosSemidef := hqe ▸ conditioned_le hC hR _ y
  refine ⟨h1, h2, fun n T m hm hm0 => ⟨_, _, _, exec_varTrajectory hp.centers hm, exec_varTrajectory hq.centers hm, fun i k => ?_⟩⟩
  simp only [of_apply]
  apply max_le_max_right
  have h3 := (posSemidef_conj' h2 (psi d w (T i / m))).diag_nonneg (i := k)
  rw [Matrix.mul_sub, Matrix.sub_mul, Matrix.sub_apply, psi_quadratic, psi_quadratic] at h3
  linarith

/-- The hypotheses can be met: a new ProMP, conditioned with a diagonal covariance. -/
example (y : Vec 2) (t : ℝ) :
    ∃ q, (ProMP.conditionPosition y (.full (diagonal ![1, 2])) t 1).exec (ProMP.init 2 5) = (.ok q, ProMP.init 2 5) := by
  refine C41_succeeds .init (by norm_num) PosDef.one y (.inr ⟨_, rfl, ?_⟩) t one_ne_zero
  apply PosSemidef.diagonal
  intro i
  fin_cases i <;> norm_num

/-- **C42.** Conditioning with a positive definite covariance `R` of the position is Bayes' rule for Gaussian
distributions: the precision (inverse covariance) of the weights grows by the precision of the position,
mapped to the weights, and the precision-weighted means add up. `Psi` is the matrix of activations: positions
at time `t` are `Psiᵀ` times the weights. -/
theorem C42_bayes {p : ProMP d w} (hp : Spec.Reachable p) (hw : 0 < w) (hC : p.weightCov.PosDef) (y : Vec d)
    {R : Matrix (Fin d) (Fin d) ℝ} (hR : R.PosDef) (t : ℝ) {tMax : ℝ} (h0 : tMax ≠ 0) :
    ∃ q, (ProMP.conditionPosition y (.full R) t tMax).exec p = (.ok q, p) ∧ q.weightCov.PosDef ∧
      ∃ Psi : Matrix (Fin (d * w)) (Fin d) ℝ,
        (∀ W : Vec (d * w), Psiᵀ *ᵥ W = Spec.prompPosition W (t / tMax)) ∧
        q.weightCov⁻¹ = p.weightCov⁻¹ + Psi * R⁻¹ * Psiᵀ ∧
        q.weightCov⁻¹ *ᵥ q.weightMean = p.weightCov⁻¹ *ᵥ p.weightMean + (Psi * R⁻¹) *ᵥ y := by
  obtain ⟨q, hq⟩ := C41_succeeds hp hw hC y (.inr ⟨R, rfl, hR.posSemidef⟩) t h0
  obtain ⟨-, hd, hqe, -⟩ := condition_ok hp.centers hq
  have hqe : q = p.conditioned y R (t / tMax) := hqe
  have hd : IsUnit (R + (psi d w (t / tMax))ᵀ * p.weightCov * psi d w (t / tMax)).det := hd
  set P := psi d w (t / tMax) with hP
  set G := p.gain R (t / tMax) with hG
  set C := p.weightCov with hCd
  have hCu : IsUnit C.det := (isUnit_iff_isUnit_det _).1 hC.isUnit
  have hRu : IsUnit R.det := (isUnit_iff_isUnit_det _).1 hR.isUnit
  have hM : G * (R + Pᵀ * C * P) = C * P := by
    rw [hG]
    unfold gain
    rw [Matrix.mul_assoc, Matrix.nonsing_inv_mul _ hd, Matrix.mul_one]
  have hqc : q.weightCov = C - G * Pᵀ * C := by rw [hqe]; rfl
  have hqm : q.weightMean = p.weightMean + G *ᵥ (y - Pᵀ *ᵥ p.weightMean) := by rw [hqe]; rfl
  have hinv : q.weightCov * (C⁻¹ + P * R⁻¹ * Pᵀ) = 1 := by
    have e1 : C * P - G * Pᵀ * C * P = G * R := by
      rw [← hM, Matrix.mul_add]
      simp only [Matrix.mul_assoc]
      abel
    rw [hqc]
    calc (C - G * Pᵀ * C) * (C⁻¹ + P * R⁻¹ * Pᵀ)
        = C * C⁻¹ - G * Pᵀ * (C * C⁻¹) + (C * P - G * Pᵀ * C * P) * R⁻¹ * Pᵀ := by
          simp only [Matrix.mul_add, Matrix.sub_mul, Matrix.mul_assoc]
      _ = 1 := by
          rw [e1, Matrix.mul_nonsing_inv _ hCu, Matrix.mul_one, Matrix.mul_assoc G R, Matrix.mul_nonsing_inv _ hRu,
            Matrix.mul_one]
          abel
  have hprec : q.weightCov⁻¹ = C⁻¹ + P * R⁻¹ * Pᵀ := Matrix.inv_eq_right_inv hinv
  have hpd : (C⁻¹ + P * R⁻¹ * Pᵀ).PosDef := hC.inv.add_posSemidef (posSemidef_conj hR.inv.posSemidef P)
  refine ⟨q, hq, ?_, P, fun W => psi_transpose_mulVec _ W, hprec, ?_⟩
  · have := hpd.inv
    rwa [← hprec, Matrix.nonsing_inv_nonsing_inv] at this
    rw [isUnit_iff_ne_zero]
    intro hz
    have := congrArg det hinv
    rw [det_mul, hz, zero_mul, det_one] at this
    exact zero_ne_one this
  · rw [hprec, hqm]
    have e2 : (C⁻¹ + P * R⁻¹ * Pᵀ) * G = P * R⁻¹ := by
      have : G = C * P * (R + Pᵀ * C * P)⁻¹ := rfl
      rw [this]
      calc (C⁻¹ + P * R⁻¹ * Pᵀ) * (C * P * (R + Pᵀ * C * P)⁻¹)
          = ((C⁻¹ * C) * P + P * R⁻¹ * (Pᵀ * C * P)) * (R + Pᵀ * C * P)⁻¹ := by
            simp only [Matrix.add_mul, Matrix.mul_assoc]
        _ = (P * (R⁻¹ * R) + P * R⁻¹ * (Pᵀ * C * P)) * (R + Pᵀ * C * P)⁻¹ := by
            rw [Matrix.nonsing_inv_mul _ hCu, Matrix.nonsing_inv_mul _ hRu, Matrix.one_mul, Matrix.mul_one]
        _ = P * R⁻¹ * ((R + Pᵀ * C * P) * (R + Pᵀ * C * P)⁻¹) := by
            simp only [Matrix.add_mul, Matrix.mul_add, Matrix.mul_assoc]
        _ = P * R⁻¹ := by rw [Matrix.mul_nonsing_inv _ hd, Matrix.mul_one]
    rw [mulVec_add, mulVec_mulVec, e2, mulVec_sub, mulVec_mulVec, add_mulVec]
    abel

/-- **C42.** The order of two noisy positions does not matter. -/
theorem C42_order {p : ProMP d w} (hp : Spec.Reachable p) (hw : 0 < w) (hC : p.weightCov.PosDef) (y y' : Vec d)
    {R R' : Matrix (Fin d) (Fin d) ℝ} (hR : R.PosDef) (hR' : R'.PosDef) (t t' : ℝ) {tMax tMax' : ℝ} (h0 : tMax ≠ 0)
    (h0' : tMax' ≠ 0) :
    ∃ q₁ q₂ q, (ProMP.conditionPosition y (.full R) t tMax).exec p = (.ok q₁, p) ∧
      (ProMP.conditionPosition y' (.full R') t' tMax').exec q₁ = (.ok q, q₁) ∧
      (ProMP.conditionPosition y' (.full R') t' tMax').exec p = (.ok q₂, p) ∧
      (ProMP.conditionPosition y (.full R) t tMax).exec q₂ = (.ok q, q₂) := by
  obtain ⟨q₁, h1, hC1, P, hP, e1, m1⟩ := C42_bayes hp hw hC y hR t h0
  obtain ⟨q₂, h2, hC2, P', hP', e2, m2⟩ := C42_bayes hp hw hC y' hR' t' h0'
  obtain ⟨q, h3, hC3, P₂, hP₂, e3, m3⟩ := C42_bayes (.condition hp h1) hw hC1 y' hR' t' h0'
  obtain ⟨r, h4, hC4, P₃, hP₃, e4, m4⟩ := C42_bayes (.condition hp h2) hw hC2 y hR t h0
  refine ⟨q₁, q₂, q, h1, h3, h2, ?_⟩
  have uniq : ∀ {A B : Matrix (Fin (d * w)) (Fin d) ℝ}, (∀ W, Aᵀ *ᵥ W = Bᵀ *ᵥ W) → A = B := fun h =>
    transpose_injective (ext_of_mulVec_single fun i => h _)
  have u1 : P₂ = P' := uniq fun W => (hP₂ W).trans (hP' W).symm
  have u2 : P₃ = P := uniq fun W => (hP₃ W).trans (hP W).symm
  subst u1 u2
  have hprec : q.weightCov⁻¹ = r.weightCov⁻¹ := by
    rw [e3, e4, e1, e2]
    abel
  have hcov : q.weightCov = r.weightCov := by
    have := congrArg (·⁻¹) hprec
    beta_reduce at this
    rwa [nonsing_inv_nonsing_inv _ ((isUnit_iff_isUnit_det _).1 hC3.isUnit),
      nonsing_inv_nonsing_inv _ ((isUnit_iff_isUnit_det _).1 hC4.isUnit)] at this
  have hmean : q.weightMean = r.weightMean := by
    have : q.weightCov⁻¹ *ᵥ q.weightMean = q.weightCov⁻¹ *ᵥ r.weightMean := by
      rw [m3, hprec, m4, m1, m2]
      abel
    have h := congrArg (q.weightCov *ᵥ ·) this
    simp only [mulVec_mulVec] at h
    rwa [Matrix.mul_nonsing_inv _ ((isUnit_iff_isUnit_det _).1 hC3.isUnit), one_mulVec, one_mulVec] at h
  have : q = r := by
    have hq := (condition_ok (Spec.Reachable.condition hp h1).centers h3).2.2.1
    have hr := (condition_ok (Spec.Reachable.condition hp h2).centers h4).2.2.1
    have c1 : q.centers = r.centers := by rw [hq, hr]; rfl
    have c2 : q.variance = r.variance := by rw [hq, hr]; rfl
    exact ProMP.ext hmean hcov c1 c2
  rw [this]
  exact h4

example : (1 : Matrix (Fin (2 * 5)) (Fin (2 * 5)) ℝ).PosDef ∧ (diagonal ![(1 : ℝ), 2]).PosDef := by
  refine ⟨PosDef.one, PosDef.diagonal fun i => ?_⟩
  fin_cases i <;> norm_num

end Verif
