import Verif.Spec.PrompSamples
import Verif.Props.Promp
import Verif.Props.PrompVelocity
import Mathlib.Probability.StrongLaw
import Mathlib.Probability.Independence.InfinitePi

/-! # C119: sampled trajectories -/

namespace Verif
open Spec Matrix ProMP MeasureTheory ProbabilityTheory Filter Topology
variable {d w n : ℕ} {Ω ι : Type} [MeasurableSpace Ω] {P : Measure Ω}

section Gaussian
variable {κ η : Type} [Fintype κ] [DecidableEq κ] [Fintype η] [DecidableEq η]

/-- A linear map of a normally distributed vector is normally distributed. -/
theorem normal_mulVec (A : Matrix η κ ℝ) {mean : κ → ℝ} {C : Matrix κ κ ℝ} (hC : C.PosSemidef) {X : Ω → κ → ℝ}
    (h : NormallyDistributed P X mean C) :
    NormallyDistributed P (fun ω => A *ᵥ X ω) (A *ᵥ mean) (A * C * Aᵀ) := by
  have hC' : (A * C * Aᵀ).PosSemidef := by
    have := hC.mul_mul_conjTranspose_same A
    rwa [conjTranspose_eq_transpose_of_trivial] at this
  have hm : Measurable fun x : EuclideanSpace ℝ κ => WithLp.toLp 2 (A *ᵥ WithLp.ofLp x) := by
    have : (fun x : EuclideanSpace ℝ κ => WithLp.toLp 2 (A *ᵥ WithLp.ofLp x)) = ⇑(toEuclideanLin A) := by
      funext x; rfl
    rw [this]
    exact (LinearMap.continuous_of_finiteDimensional _).measurable
  have key : HasLaw (fun x : EuclideanSpace ℝ κ => WithLp.toLp 2 (A *ᵥ WithLp.ofLp x))
      (multivariateGaussian (WithLp.toLp 2 (A *ᵥ mean)) (A * C * Aᵀ)) (multivariateGaussian (WithLp.toLp 2 mean) C) := by
    refine ⟨hm.aemeasurable, ?_⟩
    have : IsFiniteMeasure ((multivariateGaussian (WithLp.toLp 2 mean) C).map
      fun x : EuclideanSpace ℝ κ => WithLp.toLp 2 (A *ᵥ WithLp.ofLp x)) := Measure.isFiniteMeasure_map _ _
    refine Measure.ext_of_charFun (funext fun x => ?_)
    have h1 : charFun ((multivariateGaussian (WithLp.toLp 2 mean) C).map
        fun x : EuclideanSpace ℝ κ => WithLp.toLp 2 (A *ᵥ WithLp.ofLp x)) x =
        charFun (multivariateGaussian (WithLp.toLp 2 mean) C) (WithLp.toLp 2 (Aᵀ *ᵥ WithLp.ofLp x)) := by
      rw [charFun_apply, charFun_apply, integral_map hm.aemeasurable (by fun_prop)]
      refine integral_congr_ae (ae_of_all _ fun y => ?_)
      simp only [PiLp.inner_apply, RCLike.inner_apply, conj_trivial]
      congr 3
      have : x.ofLp ⬝ᵥ (A *ᵥ y.ofLp) = (Aᵀ *ᵥ x.ofLp) ⬝ᵥ y.ofLp := by
        rw [dotProduct_mulVec, mulVec_transpose]
      simpa [dotProduct] using this
    rw [h1, charFun_multivariateGaussian hC, charFun_multivariateGaussian hC']
    congr 2
    · congr 1
      simp only [PiLp.inner_apply, RCLike.inner_apply, conj_trivial]
      have : mean ⬝ᵥ (Aᵀ *ᵥ x.ofLp) = (A *ᵥ mean) ⬝ᵥ x.ofLp := by
        rw [dotProduct_mulVec, vecMul_transpose]
      simpa [dotProduct] using congrArg (fun r : ℝ => (r : ℂ)) this
    · congr 2
      simp only
      rw [← mulVec_mulVec, ← mulVec_mulVec, dotProduct_mulVec x.ofLp A, mulVec_transpose]
  exact key.comp h

/-- One component of a normally distributed vector. -/
theorem normal_apply {mean : κ → ℝ} {C : Matrix κ κ ℝ} (hC : C.PosSemidef) {X : Ω → κ → ℝ}
    (h : NormallyDistributed P X mean C) (x : κ) :
    HasLaw (fun ω => X ω x) (gaussianReal (mean x) (C x x).toNNReal) P :=
  (measurePreserving_eval_multivariateGaussian hC).hasLaw.comp h

end Gaussian

/-- Matrix that maps weights to all positions. -/
noncomputable def positionsOfWeights (d w : ℕ) (T : Vec n) (t : ℝ) : Matrix (Fin (d * n)) (Fin (d * w)) ℝ :=
  (ndBlockDiagonal (Matrix.of fun a i => activation w (T i / t) a) d)ᵀ

theorem allPositions_prompPosition (W : Vec (d * w)) (T : Vec n) (t : ℝ) :
    allPositions (Matrix.of fun i k => prompPosition W (T i / t) k) = positionsOfWeights d w T t *ᵥ W := by
  funext x
  obtain ⟨⟨k, i⟩, rfl⟩ := finProdFinEquiv.surjective x
  simp only [allPositions, Equiv.symm_apply_apply, of_apply, positionsOfWeights]
  rw [ndBlockDiagonal_transpose_mulVec]
  rfl

theorem samples_positions {mean : Vec (d * w)} {C : Matrix (Fin (d * w)) (Fin (d * w)) ℝ} (hC : C.PosSemidef) (T : Vec n)
    (t : ℝ) {samples : ι → Ω → Vec (d * w)} (hs : MultivariateNormalSamples P samples mean C) :
    MultivariateNormalSamples P
      (fun j ω => allPositions (Matrix.of fun i k => prompPosition (samples j ω) (T i / t) k))
      (allPositions (Matrix.of fun i k => prompPosition mean (T i / t) k))
      (positionsOfWeights d w T t * C * (positionsOfWeights d w T t)ᵀ) := by
  simp only [allPositions_prompPosition]
  refine ⟨fun j => normal_mulVec _ hC (hs.normal j), ?_⟩
  refine hs.independent.comp (fun _ W => positionsOfWeights d w T t *ᵥ W) fun _ => ?_
  exact (LinearMap.continuous_of_finiteDimensional (mulVecLin (positionsOfWeights d w T t))).measurable

/-- **C119 (distribution).** The trajectories that `sample_trajectories` returns are independent and normally distributed
with the mean `mean_trajectory` and the covariance `cov_trajectory`. -/
theorem C119_distribution {p : ProMP d w} (hp : Reachable p) (hC : p.weightCov.PosSemidef) {T : Vec n} {t : ℝ}
    (ht : IsLargest T t) (h0 : 0 < t) {N : ℕ} {samples : Fin N → Ω → Vec (d * w)}
    (hs : MultivariateNormalSamples P samples p.weightMean p.weightCov) :
    ∃ (Y : Fin N → Ω → Matrix (Fin n) (Fin d) ℝ) (M : Matrix (Fin n) (Fin d) ℝ) (C : Matrix (Fin (d * n)) (Fin (d * n)) ℝ),
      (∀ ω, ((p.sampleTrajectories (List.ofFn fun j => samples j ω)).exec (.float T)).1 = .ok (List.ofFn fun j => Y j ω)) ∧
      (p.meanTrajectory.exec (.float T)).1 = .ok M ∧ (p.covTrajectory.exec (.float T)).1 = .ok C ∧
      MultivariateNormalSamples P (fun j ω => allPositions (Y j ω)) (allPositions M) C := by
  refine ⟨fun j ω => Matrix.of fun i k => prompPosition (samples j ω) (T i / t) k, _, _, fun ω => ?_,
    congrArg Prod.fst (exec_trajectoryFromWeights hp.centers ht _), congrArg Prod.fst (exec_covTrajectory hp.centers ht),
    ?_⟩
  · obtain ⟨Ys, T', h1, rfl⟩ := C46_samples hp h0 (List.ofFn fun j => samples j ω) T ht
    rw [h1, List.map_ofFn]
    rfl
  · exact samples_positions hC T t hs

/-- **C119 (one position).** At each time, each position of each sampled trajectory is normally distributed with the mean
and the variance that `mean_trajectory` and `var_trajectory` return. -/
theorem C119_positions {p : ProMP d w} (hp : Reachable p) (hC : p.weightCov.PosSemidef) {T : Vec n} {t : ℝ}
    (ht : IsLargest T t) (h0 : 0 < t) {N : ℕ} {samples : Fin N → Ω → Vec (d * w)}
    (hs : MultivariateNormalSamples P samples p.weightMean p.weightCov) :
    ∃ (Y : Fin N → Ω → Matrix (Fin n) (Fin d) ℝ) (M V : Matrix (Fin n) (Fin d) ℝ),
      (∀ ω, ((p.sampleTrajectories (List.ofFn fun j => samples j ω)).exec (.float T)).1 = .ok (List.ofFn fun j => Y j ω)) ∧
      (p.meanTrajectory.exec (.float T)).1 = .ok M ∧ (p.varTrajectory.exec (.float T)).1 = .ok V ∧
      ∀ j i k, HasLaw (fun ω => Y j ω i k) (gaussianReal (M i k) (V i k).toNNReal) P := by
  obtain ⟨Y, M, C, h1, h2, h3, h4⟩ := C119_distribution hp hC ht h0 hs
  obtain ⟨C', V, T', h5, h6, h7, -, h8⟩ := C44_covariance hp hC T ht h0.ne'
  rw [h5] at h3
  obtain rfl : C' = C := by simpa using h3
  refine ⟨Y, M, V, h1, h2, by rw [h6], fun j i k => ?_⟩
  have h := normal_apply h7 (h4.normal j) (flat k i)
  rw [(h8 i k).1]
  simpa [allPositions, flat] using h

/-- **C119 (conditioning).** After conditioning on a position without noise, the sampled trajectories pass exactly through
it, with probability 1. -/
theorem C119_conditioned {p q p' : ProMP d w} (hp : Reachable p) (hC : p.weightCov.PosSemidef) {y : Vec d} {s tMax : ℝ}
    (hq : (ProMP.conditionPosition y .none s tMax).exec p = (.ok q, p')) {T : Vec n} {t : ℝ} (ht : IsLargest T t)
    (h0 : 0 < t) {N : ℕ} {samples : Fin N → Ω → Vec (d * w)}
    (hs : MultivariateNormalSamples P samples q.weightMean q.weightCov) (i : Fin n) (hi : T i / t = s / tMax) :
    ∃ Y : Fin N → Ω → Matrix (Fin n) (Fin d) ℝ,
      (∀ ω, ((q.sampleTrajectories (List.ofFn fun j => samples j ω)).exec (.float T)).1 = .ok (List.ofFn fun j => Y j ω)) ∧
      ∀ᵐ ω ∂P, ∀ j k, Y j ω i k = y k := by
  have hqC : q.weightCov.PosSemidef := (C42_condition_covariance hp hC (.inl rfl) hq).1
  obtain ⟨Y, M, V, h1, h2, h3, h4⟩ := C119_positions (.condition hp hq) hqC ht h0 hs
  obtain ⟨M', V', C', T', e1, e2, -, e4⟩ := (C41_condition_exact hp hq).1 n T t ht h0.ne' i hi
  rw [e1] at h2
  rw [e2] at h3
  obtain rfl : M' = M := by simpa using h2
  obtain rfl : V' = V := by simpa using h3
  refine ⟨Y, h1, ?_⟩
  rw [ae_all_iff]
  intro j
  rw [ae_all_iff]
  intro k
  have h := h4 j i k
  rw [(e4 k).1, (e4 k).2.1, Real.toNNReal_zero, gaussianReal_zero_var] at h
  exact h.ae_eq_of_dirac

/-- **C119 (average).** The average of sampled trajectories converges to `mean_trajectory` with the number of samples, with
probability 1. -/
theorem C119_average {p : ProMP d w} (hp : Reachable p) (hC : p.weightCov.PosSemidef) {T : Vec n} {t : ℝ}
    (ht : IsLargest T t) (h0 : 0 < t) {samples : ℕ → Ω → Vec (d * w)}
    (hs : MultivariateNormalSamples P samples p.weightMean p.weightCov) :
    ∃ (Y : ℕ → Ω → Matrix (Fin n) (Fin d) ℝ) (M : Matrix (Fin n) (Fin d) ℝ),
      (∀ N ω, ((p.sampleTrajectories ((List.range N).map fun j => samples j ω)).exec (.float T)).1 =
        .ok ((List.range N).map fun j => Y j ω)) ∧
      (p.meanTrajectory.exec (.float T)).1 = .ok M ∧
      ∀ᵐ ω ∂P, ∀ i k, Tendsto (fun N : ℕ => (∑ j ∈ Finset.range N, Y j ω i k) / N) atTop (𝓝 (M i k)) := by
  refine ⟨fun j ω => Matrix.of fun i k => prompPosition (samples j ω) (T i / t) k, _, fun N ω => ?_,
    congrArg Prod.fst (exec_trajectoryFromWeights hp.centers ht _), ?_⟩
  · obtain ⟨Ys, T', h1, rfl⟩ := C46_samples hp h0 ((List.range N).map fun j => samples j ω) T ht
    rw [h1, List.map_map]
    rfl
  have h := samples_positions hC T t hs
  have hC' : (positionsOfWeights d w T t * p.weightCov * (positionsOfWeights d w T t)ᵀ).PosSemidef := by
    have := hC.mul_mul_conjTranspose_same (positionsOfWeights d w T t)
    rwa [conjTranspose_eq_transpose_of_trivial] at this
  rw [ae_all_iff]
  intro i
  rw [ae_all_iff]
  intro k
  have hl := fun j => normal_apply hC' (h.normal j) (flat k i)
  simp only [allPositions, flat, Equiv.symm_apply_apply, of_apply] at hl
  have hint : ∀ j, Integrable (fun ω => prompPosition (samples j ω) (T i / t) k) P := fun j => by
    have h1 : Integrable id (P.map fun ω => prompPosition (samples j ω) (T i / t) k) := by
      rw [(hl j).map_eq]
      exact IsGaussian.integrable_id
    exact (integrable_map_measure h1.aestronglyMeasurable (hl j).aemeasurable).1 h1
  have hE : ∫ ω, prompPosition (samples 0 ω) (T i / t) k ∂P = prompPosition p.weightMean (T i / t) k := by
    rw [(hl 0).integral_eq, integral_id_gaussianReal]
  have hind : iIndepFun (fun j ω => prompPosition (samples j ω) (T i / t) k) P := by
    refine hs.independent.comp (fun _ W => prompPosition W (T i / t) k) fun _ => ?_
    unfold prompPosition
    fun_prop
  have key := strong_law_ae_real (μ := P) (fun j ω => prompPosition (samples j ω) (T i / t) k) (hint 0)
    (fun a b hab => hind.indepFun hab)
    (fun j => ⟨(hl j).aemeasurable, (hl 0).aemeasurable, by rw [(hl j).map_eq, (hl 0).map_eq]⟩)
  rw [hE] at key
  exact key

/-- Independent, normally distributed samples exist for every mean and covariance. -/
theorem samples_exist (ι : Type) {κ : Type} [Fintype κ] [DecidableEq κ] (mean : κ → ℝ) (C : Matrix κ κ ℝ) :
    ∃ (P : Measure (ι → EuclideanSpace ℝ κ)) (samples : ι → (ι → EuclideanSpace ℝ κ) → κ → ℝ),
      IsProbabilityMeasure P ∧ MultivariateNormalSamples P samples mean C := by
  refine ⟨Measure.infinitePi fun _ => multivariateGaussian (WithLp.toLp 2 mean) C, fun j ω => (ω j).ofLp, inferInstance,
    fun j => ?_, ?_⟩
  · exact (measurePreserving_eval_infinitePi (fun _ => multivariateGaussian (WithLp.toLp 2 mean) C) j).hasLaw
  · exact iIndepFun_infinitePi (X := fun _ (x : EuclideanSpace ℝ κ) => x.ofLp) fun _ => by fun_prop

/-- A new ProMP with two dimensions: its weights are independent and standard normal, so the samples are trajectories
with the mean 0 and the variance of `var_trajectory`. -/
example : ∃ (P : Measure (ℕ → EuclideanSpace ℝ (Fin (2 * 5)))) (samples : ℕ → (ℕ → EuclideanSpace ℝ (Fin (2 * 5))) → Vec (2 * 5))
    (Y : ℕ → (ℕ → EuclideanSpace ℝ (Fin (2 * 5))) → Matrix (Fin 3) (Fin 2) ℝ), IsProbabilityMeasure P ∧
      MultivariateNormalSamples P samples (ProMP.init 2 5).weightMean (ProMP.init 2 5).weightCov ∧
      (∀ N ω, (((ProMP.init 2 5).sampleTrajectories ((List.range N).map fun j => samples j ω)).exec (.float ![0, 1, 2])).1 =
        .ok ((List.range N).map fun j => Y j ω)) ∧
      ∀ᵐ ω ∂P, ∀ i k, Tendsto (fun N : ℕ => (∑ j ∈ Finset.range N, Y j ω i k) / N) atTop (𝓝 0) := by
  obtain ⟨P, samples, h1, h2⟩ := samples_exist ℕ (ProMP.init 2 5).weightMean (ProMP.init 2 5).weightCov
  have ht : IsLargest (![0, 1, 2] : Vec 3) 2 := ⟨⟨2, rfl⟩, fun i => by fin_cases i <;> norm_num⟩
  obtain ⟨Y, M, h3, h4, h5⟩ := C119_average (p := ProMP.init 2 5) .init PosSemidef.one ht two_pos h2
  refine ⟨P, samples, Y, h1, h2, h3, ?_⟩
  have hM : M = 0 := by
    unfold meanTrajectory at h4
    rw [congrArg Prod.fst (exec_trajectoryFromWeights (Reachable.init (d := 2) (w := 5)).centers ht _)] at h4
    simp only [Except.ok.injEq] at h4
    rw [← h4]
    ext i k
    simp [prompPosition, ProMP.init]
  simpa [hM] using h5

/-- A new ProMP conditioned on a position in the middle of the movement, with ten samples. -/
example (y : Vec 2) : ∃ (q : ProMP 2 5) (P : Measure (Fin 10 → EuclideanSpace ℝ (Fin (2 * 5))))
    (samples : Fin 10 → (Fin 10 → EuclideanSpace ℝ (Fin (2 * 5))) → Vec (2 * 5))
    (Y : Fin 10 → (Fin 10 → EuclideanSpace ℝ (Fin (2 * 5))) → Matrix (Fin 3) (Fin 2) ℝ), IsProbabilityMeasure P ∧
      MultivariateNormalSamples P samples q.weightMean q.weightCov ∧
      (ProMP.conditionPosition y .none 1 2).exec (ProMP.init 2 5) = (.ok q, ProMP.init 2 5) ∧
      (∀ ω, ((q.sampleTrajectories (List.ofFn fun j => samples j ω)).exec (.float ![0, 1, 2])).1 =
        .ok (List.ofFn fun j => Y j ω)) ∧
      ∀ᵐ ω ∂P, ∀ j k, Y j ω 1 k = y k := by
  obtain ⟨q, hq⟩ := C41_succeeds (p := ProMP.init 2 5) .init (by norm_num) PosDef.one y (c := .none) (.inl rfl) 1
    (tMax := 2) (by norm_num)
  obtain ⟨P, samples, h1, h2⟩ := samples_exist (Fin 10) q.weightMean q.weightCov
  have ht : IsLargest (![0, 1, 2] : Vec 3) 2 := ⟨⟨2, rfl⟩, fun i => by fin_cases i <;> norm_num⟩
  obtain ⟨Y, h3, h4⟩ := C119_conditioned .init PosSemidef.one hq ht two_pos h2 1 (by norm_num)
  exact ⟨q, P, samples, Y, h1, h2, hq, h3, h4⟩

end Verif
