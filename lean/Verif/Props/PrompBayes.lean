import Verif.Spec.PrompBayes
import Verif.Props.PrompSamples

/-! # C121: the conditioned ProMP is the conditional distribution -/

namespace Verif
open Spec Matrix ProMP MeasureTheory ProbabilityTheory
variable {d w : ℕ} {Ω : Type} [MeasurableSpace Ω] {P : Measure Ω}

section Gaussian
variable {κ η : Type} [Fintype κ] [DecidableEq κ] [Fintype η] [DecidableEq η]

/-- Two vectors as one. -/
def stackE (z : EuclideanSpace ℝ κ × EuclideanSpace ℝ η) : EuclideanSpace ℝ (κ ⊕ η) :=
  WithLp.toLp 2 (Sum.elim z.1.ofLp z.2.ofLp)

/-- One vector as two. -/
def unstackE (x : EuclideanSpace ℝ (κ ⊕ η)) : EuclideanSpace ℝ κ × EuclideanSpace ℝ η :=
  (WithLp.toLp 2 (x.ofLp ∘ Sum.inl), WithLp.toLp 2 (x.ofLp ∘ Sum.inr))

theorem unstackE_stackE (z : EuclideanSpace ℝ κ × EuclideanSpace ℝ η) : unstackE (stackE z) = z := rfl

theorem measurable_stackE : Measurable (stackE (κ := κ) (η := η)) := by
  refine (PiLp.continuous_toLp 2 _).measurable.comp (measurable_pi_iff.2 fun i => ?_)
  cases i with
  | inl i => exact ((measurable_pi_apply i).comp (PiLp.continuous_ofLp 2 _).measurable).comp measurable_fst
  | inr i => exact ((measurable_pi_apply i).comp (PiLp.continuous_ofLp 2 _).measurable).comp measurable_snd

theorem measurable_unstackE : Measurable (unstackE (κ := κ) (η := η)) := by
  refine Measurable.prodMk ?_ ?_
  · refine (PiLp.continuous_toLp 2 _).measurable.comp (measurable_pi_iff.2 fun i => ?_)
    exact (measurable_pi_apply _).comp (PiLp.continuous_ofLp 2 _).measurable
  · refine (PiLp.continuous_toLp 2 _).measurable.comp (measurable_pi_iff.2 fun i => ?_)
    exact (measurable_pi_apply _).comp (PiLp.continuous_ofLp 2 _).measurable

theorem posSemidef_diag {C : Matrix κ κ ℝ} {R : Matrix η η ℝ} (hC : C.PosSemidef) (hR : R.PosSemidef) :
    (fromBlocks C 0 0 R).PosSemidef := by
  refine .of_dotProduct_mulVec_nonneg ?_ fun x => ?_
  · rw [IsHermitian, fromBlocks_conjTranspose, hC.isHermitian, hR.isHermitian, conjTranspose_zero, conjTranspose_zero]
  · obtain ⟨u, v, rfl⟩ : ∃ u v, x = Sum.elim u v := ⟨x ∘ Sum.inl, x ∘ Sum.inr, (Sum.elim_comp_inl_inr x).symm⟩
    have h1 := hC.dotProduct_mulVec_nonneg u
    have h2 := hR.dotProduct_mulVec_nonneg v
    rw [star_trivial] at h1 h2 ⊢
    rw [fromBlocks_mulVec]
    simp only [Sum.elim_comp_inl, Sum.elim_comp_inr, sumElim_dotProduct_sumElim, zero_mulVec, add_zero, zero_add]
    exact add_nonneg h1 h2

/-- Independent normally distributed vectors are one normally distributed vector. -/
theorem gaussian_prod {mean : κ → ℝ} {mean' : η → ℝ} {C : Matrix κ κ ℝ} {R : Matrix η η ℝ} (hC : C.PosSemidef) (hR : R.PosSemidef) :
    ((multivariateGaussian (WithLp.toLp 2 mean) C).prod (multivariateGaussian (WithLp.toLp 2 mean') R)).map stackE =
      multivariateGaussian (WithLp.toLp 2 (Sum.elim mean mean')) (fromBlocks C 0 0 R) := by
  have : IsFiniteMeasure (((multivariateGaussian (WithLp.toLp 2 mean) C).prod
    (multivariateGaussian (WithLp.toLp 2 mean') R)).map stackE) := Measure.isFiniteMeasure_map _ _
  refine Measure.ext_of_charFun (funext fun x => ?_)
  obtain ⟨u, v, rfl⟩ : ∃ u v, x = stackE (u, v) :=
    ⟨(unstackE x).1, (unstackE x).2, by
      ext i; cases i <;> rfl⟩
  have hin : ∀ (a u : EuclideanSpace ℝ κ) (b v : EuclideanSpace ℝ η),
      inner ℝ (stackE (a, b)) (stackE (u, v)) = inner ℝ a u + inner ℝ b v := by
    intro a u b v
    simp only [PiLp.inner_apply, Fintype.sum_sum_type]
    rfl
  rw [charFun_apply, integral_map measurable_stackE.aemeasurable (by fun_prop)]
  have e : ∀ z : EuclideanSpace ℝ κ × EuclideanSpace ℝ η,
      Complex.exp (((inner ℝ (stackE z) (stackE (u, v)) : ℝ) : ℂ) * Complex.I) =
        Complex.exp (((inner ℝ z.1 u : ℝ) : ℂ) * Complex.I) * Complex.exp (((inner ℝ z.2 v : ℝ) : ℂ) * Complex.I) := by
    rintro ⟨a, b⟩
    rw [hin, ← Complex.exp_add]
    push_cast
    ring_nf
  simp only [e]
  rw [integral_prod_mul (fun a => Complex.exp (((inner ℝ a u : ℝ) : ℂ) * Complex.I))
    (fun b => Complex.exp (((inner ℝ b v : ℝ) : ℂ) * Complex.I)), ← charFun_apply, ← charFun_apply,
    charFun_multivariateGaussian hC, charFun_multivariateGaussian hR, charFun_multivariateGaussian (posSemidef_diag hC hR),
    ← Complex.exp_add]
  have h1 : inner ℝ (stackE (u, v)) (WithLp.toLp 2 (Sum.elim mean mean')) =
      inner ℝ u (WithLp.toLp 2 mean) + inner ℝ v (WithLp.toLp 2 mean') := hin u (WithLp.toLp 2 mean) v (WithLp.toLp 2 mean')
  have h2 : (stackE (u, v)).ofLp ⬝ᵥ (fromBlocks C 0 0 R *ᵥ (stackE (u, v)).ofLp) =
      u.ofLp ⬝ᵥ (C *ᵥ u.ofLp) + v.ofLp ⬝ᵥ (R *ᵥ v.ofLp) := by
    show Sum.elim u.ofLp v.ofLp ⬝ᵥ (fromBlocks C 0 0 R *ᵥ Sum.elim u.ofLp v.ofLp) = _
    rw [fromBlocks_mulVec]
    simp only [Sum.elim_comp_inl, Sum.elim_comp_inr, sumElim_dotProduct_sumElim, zero_mulVec, add_zero, zero_add]
  rw [h1, h2]
  congr 1
  push_cast
  ring

/-- A normal distribution with another mean. -/
theorem gaussian_shift (a m : EuclideanSpace ℝ κ) (C : Matrix κ κ ℝ) :
    multivariateGaussian (a + m) C = (multivariateGaussian m C).map fun x => a + x := by
  rw [multivariateGaussian, multivariateGaussian, Measure.map_map (measurable_const_add a) (by fun_prop)]
  congr 1
  funext x
  exact add_assoc _ _ _

/-- Conditional distributions of normally distributed vectors: `X` and the noise `E` are independent, `Y = A X + E` is observed and
`K` solves `K (A C Aᵀ + R) = C Aᵀ`. -/
theorem normal_given [IsProbabilityMeasure P] {mean : κ → ℝ} {C : Matrix κ κ ℝ} {R : Matrix η η ℝ} (hC : C.PosSemidef)
    (hR : R.PosSemidef) {X : Ω → κ → ℝ} {E : Ω → η → ℝ} (hX : NormallyDistributed P X mean C)
    (hE : NormallyDistributed P E 0 R) (hind : IndepFun X E P) (A : Matrix η κ ℝ) {K : Matrix κ η ℝ}
    (hK : K * (A * C * Aᵀ + R) = C * Aᵀ) {C' : Matrix κ κ ℝ} (hC' : C'.PosSemidef)
    (hJ : (1 - K * A) * C * (1 - K * A)ᵀ + K * R * Kᵀ = C') :
    NormallyDistributedGiven P X (fun ω => A *ᵥ X ω + E ω) (fun y => mean + K *ᵥ (y - A *ᵥ mean)) fun _ => C' := by
  have hS : (A * C * Aᵀ + R).PosSemidef := by
    have := hC.mul_mul_conjTranspose_same A
    rw [conjTranspose_eq_transpose_of_trivial] at this
    exact this.add hR
  -- `X` and the noise as one vector
  have hXE : NormallyDistributed P (fun ω => Sum.elim (X ω) (E ω)) (Sum.elim mean 0) (fromBlocks C 0 0 R) := by
    have hi : IndepFun (fun ω => WithLp.toLp 2 (X ω)) (fun ω => WithLp.toLp 2 (E ω)) P :=
      hind.comp (φ := fun x => WithLp.toLp 2 x) (ψ := fun x => WithLp.toLp 2 x) (PiLp.continuous_toLp 2 _).measurable
        (PiLp.continuous_toLp 2 _).measurable
    have h := (indepFun_iff_map_prod_eq_prod_map_map hX.aemeasurable hE.aemeasurable).1 hi
    rw [hX.map_eq, hE.map_eq] at h
    refine ⟨measurable_stackE.comp_aemeasurable (hX.aemeasurable.prodMk hE.aemeasurable), ?_⟩
    rw [← gaussian_prod hC hR, ← h, AEMeasurable.map_map_of_aemeasurable measurable_stackE.aemeasurable
      (hX.aemeasurable.prodMk hE.aemeasurable)]
    rfl
  -- the rest of `X` and the observation as one vector
  have hVY := normal_mulVec (fromBlocks (1 - K * A) (-K) A 1) (posSemidef_diag hC hR) hXE
  have ev : ∀ (x : κ → ℝ) (e : η → ℝ), fromBlocks (1 - K * A) (-K) A 1 *ᵥ Sum.elim x e =
      Sum.elim (x - K *ᵥ (A *ᵥ x + e)) (A *ᵥ x + e) := by
    intro x e
    rw [fromBlocks_mulVec]
    simp only [Sum.elim_comp_inl, Sum.elim_comp_inr, one_mulVec, sub_mulVec, neg_mulVec, ← mulVec_mulVec, mulVec_add]
    congr 1
    abel
  have ec : fromBlocks (1 - K * A) (-K) A 1 * fromBlocks C 0 0 R * (fromBlocks (1 - K * A) (-K) A 1)ᵀ =
      fromBlocks C' 0 0 (A * C * Aᵀ + R) := by
    have t1 : Cᵀ = C := by
      have := hC.isHermitian; rwa [IsHermitian, conjTranspose_eq_transpose_of_trivial] at this
    have t2 : Rᵀ = R := by
      have := hR.isHermitian; rwa [IsHermitian, conjTranspose_eq_transpose_of_trivial] at this
    have z : (1 - K * A) * C * Aᵀ - K * R = 0 := by
      have : (1 - K * A) * C * Aᵀ - K * R = C * Aᵀ - K * (A * C * Aᵀ + R) := by
        simp only [Matrix.sub_mul, Matrix.one_mul, Matrix.mul_add, Matrix.mul_assoc]; abel
      rw [this, hK, sub_self]
    have z' : A * C * (1 - K * A)ᵀ - R * Kᵀ = 0 := by
      have := congrArg transpose z
      simpa only [transpose_sub, transpose_mul, transpose_transpose, t1, t2, transpose_zero, Matrix.mul_assoc] using this
    rw [fromBlocks_transpose, fromBlocks_multiply, fromBlocks_multiply]
    simp only [Matrix.mul_zero, add_zero, zero_add, transpose_one, Matrix.mul_one, Matrix.one_mul, transpose_neg, Matrix.neg_mul,
      Matrix.mul_neg, neg_neg]
    rw [← sub_eq_add_neg, ← sub_eq_add_neg, z, z', hJ]
  simp only [ev] at hVY
  rw [ec] at hVY
  rw [add_zero] at hVY
  have hVm : AEMeasurable (fun ω => stackE (WithLp.toLp 2 (X ω - K *ᵥ (A *ᵥ X ω + E ω)), WithLp.toLp 2 (A *ᵥ X ω + E ω))) P :=
    hVY.aemeasurable
  have hlaw : P.map (fun ω => (WithLp.toLp 2 (X ω - K *ᵥ (A *ᵥ X ω + E ω)), WithLp.toLp 2 (A *ᵥ X ω + E ω))) =
      (multivariateGaussian (WithLp.toLp 2 (mean - K *ᵥ (A *ᵥ mean))) C').prod
        (multivariateGaussian (WithLp.toLp 2 (A *ᵥ mean)) (A * C * Aᵀ + R)) := by
    have h := hVY.map_eq
    rw [← gaussian_prod hC' hS] at h
    have h := congrArg (Measure.map unstackE) h
    rw [Measure.map_map measurable_unstackE measurable_stackE, AEMeasurable.map_map_of_aemeasurable measurable_unstackE.aemeasurable
      hVY.aemeasurable] at h
    have i : (unstackE ∘ stackE : EuclideanSpace ℝ κ × EuclideanSpace ℝ η → _) = id := rfl
    rw [i, Measure.map_id] at h
    exact h
  have hpm : AEMeasurable (fun ω => (WithLp.toLp 2 (X ω - K *ᵥ (A *ᵥ X ω + E ω)), WithLp.toLp 2 (A *ᵥ X ω + E ω))) P :=
    measurable_unstackE.comp_aemeasurable hVm
  have hYm : AEMeasurable (fun ω => WithLp.toLp 2 (A *ᵥ X ω + E ω)) P := measurable_snd.comp_aemeasurable hpm
  have hY : P.map (fun ω => WithLp.toLp 2 (A *ᵥ X ω + E ω)) = multivariateGaussian (WithLp.toLp 2 (A *ᵥ mean)) (A * C * Aᵀ + R) := by
    have h := congrArg (Measure.map Prod.snd) hlaw
    rw [AEMeasurable.map_map_of_aemeasurable measurable_snd.aemeasurable hpm, Measure.map_snd_prod, measure_univ, one_smul] at h
    exact h
  intro S B hS' hB
  have mo : Measurable fun x : EuclideanSpace ℝ κ => x.ofLp := (PiLp.continuous_ofLp 2 _).measurable
  have mo' : Measurable fun x : EuclideanSpace ℝ η => x.ofLp := (PiLp.continuous_ofLp 2 _).measurable
  have mS : MeasurableSet {x : EuclideanSpace ℝ κ | x.ofLp ∈ S} := mo hS'
  have mB : MeasurableSet {y : EuclideanSpace ℝ η | y.ofLp ∈ B} := mo' hB
  have mK : Measurable fun y : η → ℝ => K *ᵥ y := (LinearMap.continuous_of_finiteDimensional (mulVecLin K)).measurable
  -- the events in terms of the rest of `X` and the observation
  let T : Set (EuclideanSpace ℝ κ × EuclideanSpace ℝ η) := {z | z.1.ofLp + K *ᵥ z.2.ofLp ∈ S ∧ z.2.ofLp ∈ B}
  have hT : MeasurableSet T :=
    (((mo.comp measurable_fst).add (mK.comp (mo'.comp measurable_snd))) hS').inter ((mo'.comp measurable_snd) hB)
  have e1 : P {ω | X ω ∈ S ∧ A *ᵥ X ω + E ω ∈ B} =
      P.map (fun ω => (WithLp.toLp 2 (X ω - K *ᵥ (A *ᵥ X ω + E ω)), WithLp.toLp 2 (A *ᵥ X ω + E ω))) T := by
    rw [Measure.map_apply_of_aemeasurable hpm hT]
    congr 1
    ext ω
    simp only [T, Set.mem_preimage, Set.mem_setOf_eq, sub_add_cancel]
  have e2 : ∀ y : EuclideanSpace ℝ η, multivariateGaussian (WithLp.toLp 2 (mean + K *ᵥ (y.ofLp - A *ᵥ mean))) C' {x | x.ofLp ∈ S} =
      multivariateGaussian (WithLp.toLp 2 (mean - K *ᵥ (A *ᵥ mean))) C' {x | x.ofLp + K *ᵥ y.ofLp ∈ S} := by
    intro y
    have : (WithLp.toLp 2 (mean + K *ᵥ (y.ofLp - A *ᵥ mean)) : EuclideanSpace ℝ κ) =
        WithLp.toLp 2 (K *ᵥ y.ofLp) + WithLp.toLp 2 (mean - K *ᵥ (A *ᵥ mean)) := by
      rw [← WithLp.toLp_add, mulVec_sub]
      congr 1
      abel
    rw [this, gaussian_shift, Measure.map_apply (measurable_const_add _) mS]
    congr 1
    ext x
    simp only [Set.mem_preimage, Set.mem_setOf_eq, WithLp.ofLp_add, add_comm]
  have hmeas : Measurable fun y : EuclideanSpace ℝ η =>
      multivariateGaussian (WithLp.toLp 2 (mean - K *ᵥ (A *ᵥ mean))) C' {x | x.ofLp + K *ᵥ y.ofLp ∈ S} :=
    measurable_measure_prodMk_right (s := {z : EuclideanSpace ℝ κ × EuclideanSpace ℝ η | z.1.ofLp + K *ᵥ z.2.ofLp ∈ S})
      (((mo.comp measurable_fst).add (mK.comp (mo'.comp measurable_snd))) hS')
  have e3 : ∫⁻ ω in {ω | A *ᵥ X ω + E ω ∈ B}, multivariateGaussian (WithLp.toLp 2 (mean + K *ᵥ ((A *ᵥ X ω + E ω) - A *ᵥ mean))) C'
      {x | x.ofLp ∈ S} ∂P = ∫⁻ y in {y | y.ofLp ∈ B}, multivariateGaussian (WithLp.toLp 2 (mean - K *ᵥ (A *ᵥ mean))) C'
        {x | x.ofLp + K *ᵥ y.ofLp ∈ S} ∂(P.map (fun ω => WithLp.toLp 2 (A *ᵥ X ω + E ω))) := by
    rw [← lintegral_indicator mB, lintegral_map' ((hmeas.indicator mB).aemeasurable) hYm]
    have hn : NullMeasurableSet {ω | A *ᵥ X ω + E ω ∈ B} P := hYm.nullMeasurableSet_preimage mB
    rw [← lintegral_indicator₀ hn]
    refine lintegral_congr fun ω => ?_
    by_cases hω : A *ᵥ X ω + E ω ∈ B
    · rw [Set.indicator_of_mem (by exact hω), Set.indicator_of_mem (by exact hω)]
      exact e2 (WithLp.toLp 2 (A *ᵥ X ω + E ω))
    · rw [Set.indicator_of_notMem (by exact hω), Set.indicator_of_notMem (by exact hω)]
  rw [e1, hlaw, Measure.prod_apply_symm hT]
  show _ = ∫⁻ ω in {ω | A *ᵥ X ω + E ω ∈ B}, multivariateGaussian (WithLp.toLp 2 (mean + K *ᵥ ((A *ᵥ X ω + E ω) - A *ᵥ mean))) C'
    {x | x.ofLp ∈ S} ∂P
  rw [e3, hY, ← lintegral_indicator mB]
  refine lintegral_congr fun y => ?_
  by_cases hy : y.ofLp ∈ B
  · rw [Set.indicator_of_mem (by exact hy)]
    congr 1
    ext x
    simp [T, hy]
  · rw [Set.indicator_of_notMem (by exact hy)]
    have : (fun x => (x, y)) ⁻¹' T = ∅ := by
      ext x
      simp [T, hy]
    rw [this, measure_empty]

end Gaussian

/-- **C121 (Bayes).** The weights of a ProMP are drawn from its distribution and the position at time `t` is observed with independent,
normally distributed noise with covariance `y_cov` (no noise without `y_cov`). The distribution of the weights given the observation is
the distribution of the ProMP that `condition_position` returns for the observed position. -/
theorem C121_bayes [IsProbabilityMeasure P] {p : ProMP d w} (hp : Reachable p) (hC : p.weightCov.PosSemidef) {c : YCov d}
    (hc : c = .none ∨ ∃ R, c = .full R ∧ R.PosSemidef) {t tMax : ℝ} {q : Vec d → ProMP d w}
    (hq : ∀ y, ((ProMP.conditionPosition y c t tMax).exec p).1 = .ok (q y)) {weights : Ω → Vec (d * w)} {noise : Ω → Vec d}
    (hw : NormallyDistributed P weights p.weightMean p.weightCov) (hn : NormallyDistributed P noise 0 (noiseCov c))
    (hind : IndepFun weights noise P) :
    NormallyDistributedGiven P weights (fun ω => prompPosition (weights ω) (t / tMax) + noise ω) (fun y => (q y).weightMean)
      fun y => (q y).weightCov := by
  have hR : c.broadcast.PosSemidef := by
    rcases hc with rfl | ⟨R, rfl, hR⟩
    · exact PosSemidef.zero
    · exact hR
  have hb : noiseCov c = c.broadcast := by
    rcases hc with rfl | ⟨R, rfl, hR⟩ <;> rfl
  have key : ∀ y, IsUnit (c.broadcast + (psi d w (t / tMax))ᵀ * p.weightCov * psi d w (t / tMax)).det ∧
      q y = p.conditioned y c.broadcast (t / tMax) := by
    intro y
    have h : (ProMP.conditionPosition y c t tMax).exec p = (.ok (q y), ((ProMP.conditionPosition y c t tMax).exec p).2) :=
      Prod.ext (hq y) rfl
    obtain ⟨-, h2, h3, -⟩ := condition_ok hp.centers h
    exact ⟨h2, h3⟩
  have hd := (key 0).1
  have hqe : q = fun y => p.conditioned y c.broadcast (t / tMax) := funext fun y => (key y).2
  have hobs : (fun ω => prompPosition (weights ω) (t / tMax) + noise ω) =
      fun ω => (psi d w (t / tMax))ᵀ *ᵥ weights ω + noise ω := by
    funext ω
    rw [psi_transpose_mulVec]
  rw [hb] at hn
  have hK : p.gain c.broadcast (t / tMax) *
      ((psi d w (t / tMax))ᵀ * p.weightCov * (psi d w (t / tMax))ᵀᵀ + c.broadcast) = p.weightCov * (psi d w (t / tMax))ᵀᵀ := by
    rw [transpose_transpose, add_comm]
    exact nonsing_inv_mul_cancel_right _ _ hd
  have := normal_given hC hR hw hn hind (psi d w (t / tMax))ᵀ hK (C' := (p.conditioned 0 c.broadcast (t / tMax)).weightCov)
    (conditioned_posSemidef hC hR hd 0) (conditioned_joseph hd 0).symm
  rw [hobs, hqe]
  exact this

/-- Random weights and noise with these distributions exist and a new ProMP can be conditioned on every position. -/
example : ∃ (Ω : Type) (_ : MeasurableSpace Ω) (P : Measure Ω) (weights : Ω → Vec (2 * 5)) (noise : Ω → Vec 2) (q : Vec 2 → ProMP 2 5),
    IsProbabilityMeasure P ∧ (∀ y, ((ProMP.conditionPosition y (.full 1) 1 2).exec (ProMP.init 2 5)).1 = .ok (q y)) ∧
      NormallyDistributedGiven P weights (fun ω => prompPosition (weights ω) (1 / 2) + noise ω) (fun y => (q y).weightMean)
        fun y => (q y).weightCov := by
  have hs : ∀ y, ∃ q, (ProMP.conditionPosition y (.full 1) 1 2).exec (ProMP.init 2 5) = (.ok q, ProMP.init 2 5) := fun y =>
    C41_succeeds .init (by norm_num) PosDef.one y (.inr ⟨1, rfl, PosDef.one.posSemidef⟩) 1 two_ne_zero
  choose q hq using hs
  let P : Measure (EuclideanSpace ℝ (Fin (2 * 5)) × EuclideanSpace ℝ (Fin 2)) :=
    (multivariateGaussian (WithLp.toLp 2 (ProMP.init 2 5).weightMean) (ProMP.init 2 5).weightCov).prod
      (multivariateGaussian (WithLp.toLp 2 0) 1)
  have hP : IsProbabilityMeasure P := inferInstanceAs (IsProbabilityMeasure (Measure.prod _ _))
  refine ⟨_, inferInstance, P, fun ω => ω.1.ofLp, fun ω => ω.2.ofLp, q, hP, fun y => by rw [hq y],
    C121_bayes .init PosDef.one.posSemidef (.inr ⟨1, rfl, PosDef.one.posSemidef⟩) (fun y => by rw [hq y]) ?_ ?_ ?_⟩
  · exact ⟨measurable_fst.aemeasurable, (measurePreserving_fst (μ := multivariateGaussian _ _) (ν := multivariateGaussian _ _)).map_eq⟩
  · exact ⟨measurable_snd.aemeasurable, (measurePreserving_snd (μ := multivariateGaussian _ _) (ν := multivariateGaussian _ _)).map_eq⟩
  · exact indepFun_prod (X := fun x : EuclideanSpace ℝ (Fin (2 * 5)) => x.ofLp) (Y := fun x : EuclideanSpace ℝ (Fin 2) => x.ofLp)
      (PiLp.continuous_ofLp 2 _).measurable (PiLp.continuous_ofLp 2 _).measurable

end Verif
