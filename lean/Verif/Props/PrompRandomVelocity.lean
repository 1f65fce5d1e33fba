import Verif.Props.PrompSamples
import Verif.Props.PrompVelocity

/-! # C119: velocities of random trajectories -/

namespace Verif
open Spec Matrix ProMP MeasureTheory ProbabilityTheory
variable {d w n : ℕ} {Ω : Type} [MeasurableSpace Ω] {P : Measure Ω}

/-- Matrix that maps weights to all velocities. -/
noncomputable def velocitiesOfWeights (d w : ℕ) (T : Vec n) (t : ℝ) : Matrix (Fin (d * n)) (Fin (d * w)) ℝ :=
  (ndBlockDiagonal (Matrix.of fun a i => activationDeriv w (T i / t) a) d)ᵀ

theorem allPositions_velocity (W : Vec (d * w)) (T : Vec n) (t : ℝ) :
    allPositions (Matrix.of fun i k => ∑ a, activationDeriv w (T i / t) a * W (flat k a)) = velocitiesOfWeights d w T t *ᵥ W := by
  funext x
  obtain ⟨⟨k, i⟩, rfl⟩ := finProdFinEquiv.surjective x
  simp only [allPositions, Equiv.symm_apply_apply, of_apply, velocitiesOfWeights]
  rw [ndBlockDiagonal_transpose_mulVec]
  rfl

/-- Closed form of `cov_velocities`. -/
theorem exec_covVelocities {p : ProMP d w} (hp : p.centers = linspace01 w) {T : Vec n} {m : ℝ}
    (hm : IsLargest T m) (h0 : 0 < m) :
    p.covVelocities.exec (.float T) =
      (.ok (velocitiesOfWeights d w T m * p.weightCov * (velocitiesOfWeights d w T m)ᵀ), .float fun i => T i / m) := by
  have hm' := largest_div hm h0
  have key : (p.rbfsDerivative1dSequence (n := n)).exec (.float T) =
      (.ok (Matrix.of fun a i => activationDeriv w (T i / m) a), .float fun i => T i / m) := by
    unfold rbfsDerivative1dSequence rbfs1dSequence
    rw [Py.exec_bind, Py.exec_bind, exec_normalizeTimes hm]
    dsimp only
    rw [Py.exec_pure]
    dsimp only
    rw [Py.exec_bind, exec_normalizeTimes hm']
    simp only [Py.exec_pure, Prod.mk.injEq, Except.ok.injEq, div_one, and_true]
    ext a i
    simp only [of_apply, gauss_eq hp, hp]
    rfl
  unfold covVelocities rbfsDerivativeNdSequence
  rw [Py.exec_bind, Py.exec_bind, key]
  simp only [Py.exec_pure, Prod.mk.injEq, Except.ok.injEq, and_true, velocitiesOfWeights, transpose_transpose]

/-- **C119 (velocities).** The weights of a ProMP are drawn from its distribution. The velocities (derivatives with respect to
normalised time, i.e. time divided by the largest query time) of the resulting trajectory are normally distributed with the mean
`mean_velocities` and the covariance `cov_velocities`, and each velocity has the variance of `var_velocities`. -/
theorem C119_velocities {p : ProMP d w} (hp : Reachable p) (hw : 0 < w) (hC : p.weightCov.PosSemidef) {T : Vec n} {t : ℝ}
    (ht : IsLargest T t) (h0 : 0 < t) {weights : Ω → Vec (d * w)} (hW : NormallyDistributed P weights p.weightMean p.weightCov)
    {velocity : Ω → Matrix (Fin n) (Fin d) ℝ}
    (hv : ∀ ω i k, HasDerivAt (fun s => prompPosition (weights ω) s k) (velocity ω i k) (T i / t)) :
    ∃ M C V, (p.meanVelocities.exec (.float T)).1 = .ok M ∧ (p.covVelocities.exec (.float T)).1 = .ok C ∧
      (p.varVelocities.exec (.float T)).1 = .ok V ∧
      NormallyDistributed P (fun ω => allPositions (velocity ω)) (allPositions M) C ∧
      ∀ i k, HasLaw (fun ω => velocity ω i k) (gaussianReal (M i k) (V i k).toNNReal) P := by
  have hn : 0 < n := by
    obtain ⟨⟨i, -⟩, -⟩ := ht
    exact i.pos
  obtain ⟨C, V, T', h1, h2, h3, h4⟩ := C44_velocity_covariance (p := p) hC T hn
  have e := exec_covVelocities hp.centers ht h0
  rw [h1] at e
  obtain rfl : C = velocitiesOfWeights d w T t * p.weightCov * (velocitiesOfWeights d w T t)ᵀ := by
    injection e with e _
    injection e with e
  have ev : (fun ω => allPositions (velocity ω)) = fun ω => velocitiesOfWeights d w T t *ᵥ weights ω := by
    funext ω
    rw [← allPositions_velocity]
    congr 1
    ext i k
    exact (hv ω i k).unique (position_hasDerivAt hw (weights ω) _ k)
  have hN : NormallyDistributed P (fun ω => allPositions (velocity ω))
      (allPositions (Matrix.of fun i k => ∑ a, activationDeriv w (T i / t) a * p.weightMean (flat k a)))
      (velocitiesOfWeights d w T t * p.weightCov * (velocitiesOfWeights d w T t)ᵀ) := by
    rw [ev, allPositions_velocity]
    exact normal_mulVec _ hC hW
  refine ⟨_, _, V, congrArg Prod.fst (exec_meanVelocities hp.centers ht h0), by rw [h1], by rw [h2], hN, fun i k => ?_⟩
  have h := normal_apply h3 hN (flat k i)
  rw [(h4 i k).1]
  simpa [allPositions, flat] using h

/-- Random weights of a new ProMP with two dimensions; the velocity exists. -/
example : ∃ (P : Measure (Unit → EuclideanSpace ℝ (Fin (2 * 5)))) (weights : (Unit → EuclideanSpace ℝ (Fin (2 * 5))) → Vec (2 * 5))
    (velocity : (Unit → EuclideanSpace ℝ (Fin (2 * 5))) → Matrix (Fin 3) (Fin 2) ℝ) (C : Matrix (Fin (2 * 3)) (Fin (2 * 3)) ℝ),
      IsProbabilityMeasure P ∧ NormallyDistributed P weights (ProMP.init 2 5).weightMean (ProMP.init 2 5).weightCov ∧
      (∀ ω i k, HasDerivAt (fun s => prompPosition (weights ω) s k) (velocity ω i k) ((![0, 1, 2] : Vec 3) i / 2)) ∧
      ((ProMP.init 2 5).covVelocities.exec (.float ![0, 1, 2])).1 = .ok C ∧
      NormallyDistributed P (fun ω => allPositions (velocity ω)) 0 C := by
  obtain ⟨P, samples, h1, h2⟩ := samples_exist Unit (ProMP.init 2 5).weightMean (ProMP.init 2 5).weightCov
  have ht : IsLargest (![0, 1, 2] : Vec 3) 2 := ⟨⟨2, rfl⟩, fun i => by fin_cases i <;> norm_num⟩
  have hv : ∀ ω i k, HasDerivAt (fun s => prompPosition (samples () ω) s k)
      ((Matrix.of fun (i : Fin 3) (k : Fin 2) => ∑ a, activationDeriv 5 ((![0, 1, 2] : Vec 3) i / 2) a * samples () ω (flat k a)) i k)
      ((![0, 1, 2] : Vec 3) i / 2) := fun ω i k => position_hasDerivAt (by norm_num) _ _ k
  obtain ⟨M, C, V, e1, e2, e3, h3, -⟩ := C119_velocities (p := ProMP.init 2 5) .init (by norm_num) PosSemidef.one ht two_pos (h2.normal ()) hv
  have hM : allPositions M = 0 := by
    rw [congrArg Prod.fst (exec_meanVelocities (Reachable.init (d := 2) (w := 5)).centers ht two_pos)] at e1
    simp only [Except.ok.injEq] at e1
    rw [← e1]
    funext x
    simp [allPositions, ProMP.init]
  rw [hM] at h3
  exact ⟨P, samples (), _, C, h1, h2.normal (), hv, e2, h3⟩

end Verif
