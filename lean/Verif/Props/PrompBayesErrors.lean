import Verif.Props.PrompBayesSequence
import Mathlib.LinearAlgebra.Matrix.ToLinearEquiv
import Mathlib.Data.Matrix.ColumnRowPartitioned

/-! # C121: when conditioning is impossible -/

namespace Verif
open Spec Matrix ProMP MeasureTheory ProbabilityTheory
variable {d w : ℕ} {Ω : Type} [MeasurableSpace Ω] {P : Measure Ω}

section Gaussian
variable {κ η : Type} [Fintype κ] [DecidableEq κ] [Fintype η] [DecidableEq η]

/-- Distribution of a linear observation with independent noise. -/
theorem normal_observation [IsProbabilityMeasure P] {mean : κ → ℝ} {C : Matrix κ κ ℝ} {R : Matrix η η ℝ} (hC : C.PosSemidef)
    (hR : R.PosSemidef) {X : Ω → κ → ℝ} {E : Ω → η → ℝ} (hX : NormallyDistributed P X mean C)
    (hE : NormallyDistributed P E 0 R) (hind : IndepFun X E P) (A : Matrix η κ ℝ) :
    NormallyDistributed P (fun ω => A *ᵥ X ω + E ω) (A *ᵥ mean) (A * C * Aᵀ + R) := by
  have hXE : NormallyDistributed P (fun ω => Sum.elim (X ω) (E ω)) (Sum.elim mean 0) (fromBlocks C 0 0 R) := by
    have hi : IndepFun (fun ω => WithLp.toLp 2 (X ω)) (fun ω => WithLp.toLp 2 (E ω)) P :=
      hind.comp (φ := fun x => WithLp.toLp 2 x) (ψ := fun x => WithLp.toLp 2 x) (PiLp.continuous_toLp 2 _).measurable
        (PiLp.continuous_toLp 2 _).measurable
    have h := (indepFun_iff_map_prod_eq_prod_map_map hX.aemeasurable hE.aemeasurable).1 hi
    rw [hX.map_eq, hE.map_eq] at h
    refine ⟨measurable_stackE.comp_aemeasurable (hX.aemeasurable.prodMk hE.aemeasurable), ?_⟩
    rw [← gaussian_prod hC hR, ← h, AEMeasurable.map_map_of_aemeasurable measurable_stackE.aemeasurable
      (hX.aemeasurable.prodMk hE.aemeasurable)]
    rfl
  have h := normal_mulVec (fromCols A 1) (posSemidef_diag hC hR) hXE
  have e : ∀ (x : κ → ℝ) (y : η → ℝ), fromCols A 1 *ᵥ Sum.elim x y = A *ᵥ x + y := by
    intro x y
    rw [fromCols_mulVec]
    simp
  have ec : fromCols A 1 * fromBlocks C 0 0 R * (fromCols A 1)ᵀ = A * C * Aᵀ + R := by
    rw [fromCols_mul_fromBlocks, transpose_fromCols, fromCols_mul_fromRows]
    simp
  simp only [e] at h
  rw [ec, add_zero] at h
  exact h

/-- A linear combination of a normally distributed vector is constant if and only if its variance is zero. -/
theorem normal_constant_iff [IsProbabilityMeasure P] {mean : κ → ℝ} {C : Matrix κ κ ℝ} (hC : C.PosSemidef) {X : Ω → κ → ℝ}
    (hX : NormallyDistributed P X mean C) (v : κ → ℝ) : (∃ c, ∀ᵐ ω ∂P, v ⬝ᵥ X ω = c) ↔ v ⬝ᵥ (C *ᵥ v) = 0 := by
  let B : Matrix Unit κ ℝ := Matrix.of fun _ => v
  have hB : (B * C * Bᵀ).PosSemidef := by
    have := hC.mul_mul_conjTranspose_same B
    rwa [conjTranspose_eq_transpose_of_trivial] at this
  have hl := normal_apply hB (normal_mulVec B hC hX) ()
  have e1 : (fun ω => (B *ᵥ X ω) ()) = fun ω => v ⬝ᵥ X ω := rfl
  have e2 : (B * C * Bᵀ) () () = v ⬝ᵥ (C *ᵥ v) := by
    rw [Matrix.mul_assoc]
    rfl
  have hnn : 0 ≤ v ⬝ᵥ (C *ᵥ v) := by
    have := hC.dotProduct_mulVec_nonneg v
    rwa [star_trivial] at this
  rw [e1, e2] at hl
  constructor
  · rintro ⟨c, hc⟩
    have h1 := hl.variance_eq
    have h2 : ProbabilityTheory.variance (fun _ : Ω => c) P = 0 := by simp [ProbabilityTheory.variance, evariance]
    rw [variance_id_gaussianReal, variance_congr hc, h2, Real.coe_toNNReal _ hnn] at h1
    exact h1.symm
  · intro h
    rw [h, Real.toNNReal_zero, gaussianReal_zero_var] at hl
    refine ⟨(B *ᵥ mean) (), (hl.ae_iff (p := fun x => x = (B *ᵥ mean) ()) ?_).2 ?_⟩
    · exact measurableSet_setOfPred.1 (measurableSet_singleton _)
    · rw [ae_dirac_eq]
      rfl

end Gaussian

/-- **C121 (errors).** In the situation of `C121_bayes`, `condition_position` raises LinAlgError if and only if some linear combination
of the coordinates of the observation is already certain: it has one value with probability 1. Otherwise it succeeds. -/
theorem C121_errors [IsProbabilityMeasure P] {p : ProMP d w} (hp : Reachable p) (hC : p.weightCov.PosSemidef) {c : YCov d}
    (hc : c = .none ∨ ∃ R, c = .full R ∧ R.PosSemidef) {t tMax : ℝ} (h0 : tMax ≠ 0) {weights : Ω → Vec (d * w)} {noise : Ω → Vec d}
    (hw : NormallyDistributed P weights p.weightMean p.weightCov) (hn : NormallyDistributed P noise 0 (noiseCov c))
    (hind : IndepFun weights noise P) (y : Vec d) :
    (((ProMP.conditionPosition y c t tMax).exec p).1 = .error .linAlgError ↔
      ∃ v : Vec d, v ≠ 0 ∧ ∃ value, ∀ᵐ ω ∂P, v ⬝ᵥ (prompPosition (weights ω) (t / tMax) + noise ω) = value) ∧
    (((ProMP.conditionPosition y c t tMax).exec p).1 = .error .linAlgError ∨
      ∃ q, ((ProMP.conditionPosition y c t tMax).exec p).1 = .ok q) := by
  have hR : c.broadcast.PosSemidef := by
    rcases hc with rfl | ⟨R, rfl, hR⟩
    · exact PosSemidef.zero
    · exact hR
  have hb : noiseCov c = c.broadcast := by
    rcases hc with rfl | ⟨R, rfl, hR⟩ <;> rfl
  rw [hb] at hn
  have hobs : (fun ω => prompPosition (weights ω) (t / tMax) + noise ω) =
      fun ω => (psi d w (t / tMax))ᵀ *ᵥ weights ω + noise ω := by
    funext ω
    rw [psi_transpose_mulVec]
  have hY := normal_observation hC hR hw hn hind (psi d w (t / tMax))ᵀ
  rw [← hobs, transpose_transpose, add_comm] at hY
  have hS : (c.broadcast + (psi d w (t / tMax))ᵀ * p.weightCov * psi d w (t / tMax)).PosSemidef :=
    hR.add (posSemidef_conj' hC _)
  rw [exec_condition hp.centers y c h0]
  dsimp only
  have key : (c.broadcast + (psi d w (t / tMax))ᵀ * p.weightCov * psi d w (t / tMax)).det = 0 ↔
      ∃ v : Vec d, v ≠ 0 ∧ ∃ value, ∀ᵐ ω ∂P, v ⬝ᵥ (prompPosition (weights ω) (t / tMax) + noise ω) = value := by
    rw [← exists_mulVec_eq_zero_iff]
    refine exists_congr fun v => and_congr_right fun _ => ?_
    refine Iff.trans ?_ (normal_constant_iff hS hY v).symm
    exact ⟨fun h => by rw [h, dotProduct_zero], fun h => mulVec_eq_zero_of_form hS h⟩
  rw [← key]
  by_cases hd : (c.broadcast + (psi d w (t / tMax))ᵀ * p.weightCov * psi d w (t / tMax)).det = 0
  · simp [hd]
  · simp [hd]

/-- No linear combination of the coordinates of a position of a new ProMP is certain (without noise), and conditioning succeeds. -/
example : ∃ (Ω : Type) (_ : MeasurableSpace Ω) (P : Measure Ω) (weights : Ω → Vec (2 * 5)) (noise : Ω → Vec 2),
    IsProbabilityMeasure P ∧ NormallyDistributed P weights (ProMP.init 2 5).weightMean (ProMP.init 2 5).weightCov ∧
      NormallyDistributed P noise 0 (noiseCov .none) ∧ IndepFun weights noise P ∧
      ¬∃ v : Vec 2, v ≠ 0 ∧ ∃ value, ∀ᵐ ω ∂P, v ⬝ᵥ (prompPosition (weights ω) (1 / 2) + noise ω) = value := by
  let P : Measure (EuclideanSpace ℝ (Fin (2 * 5)) × EuclideanSpace ℝ (Fin 2)) :=
    (multivariateGaussian (WithLp.toLp 2 (ProMP.init 2 5).weightMean) (ProMP.init 2 5).weightCov).prod
      (multivariateGaussian (WithLp.toLp 2 0) 0)
  have hP : IsProbabilityMeasure P := inferInstanceAs (IsProbabilityMeasure (Measure.prod _ _))
  have hw : NormallyDistributed P (fun ω => ω.1.ofLp) (ProMP.init 2 5).weightMean (ProMP.init 2 5).weightCov :=
    ⟨measurable_fst.aemeasurable, (measurePreserving_fst (μ := multivariateGaussian _ _) (ν := multivariateGaussian _ _)).map_eq⟩
  have hn : NormallyDistributed P (fun ω => ω.2.ofLp) 0 (noiseCov (.none : YCov 2)) :=
    ⟨measurable_snd.aemeasurable, (measurePreserving_snd (μ := multivariateGaussian _ _) (ν := multivariateGaussian _ _)).map_eq⟩
  have hi : IndepFun (fun ω : EuclideanSpace ℝ (Fin (2 * 5)) × EuclideanSpace ℝ (Fin 2) => ω.1.ofLp) (fun ω => ω.2.ofLp) P :=
    indepFun_prod (X := fun x : EuclideanSpace ℝ (Fin (2 * 5)) => x.ofLp) (Y := fun x : EuclideanSpace ℝ (Fin 2) => x.ofLp)
      (PiLp.continuous_ofLp 2 _).measurable (PiLp.continuous_ofLp 2 _).measurable
  refine ⟨_, inferInstance, P, _, _, hP, hw, hn, hi, fun h => ?_⟩
  have := (C121_errors .init PosDef.one.posSemidef (.inl rfl) two_ne_zero hw hn hi 0).1.2 h
  obtain ⟨q, hq⟩ := C41_succeeds (p := ProMP.init 2 5) .init (by norm_num) PosDef.one 0 (c := .none) (.inl rfl) 1
    (tMax := 2) (by norm_num)
  rw [hq] at this
  cases this

end Verif
