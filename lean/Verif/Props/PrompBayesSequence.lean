import Verif.Props.PrompBayes
import Verif.Props.PrompConditions
import Verif.Props.PrompRandomVelocity

/-! # C121: several observations -/

namespace Verif
open Spec Matrix ProMP MeasureTheory ProbabilityTheory
variable {d w : ℕ} {Ω : Type} [MeasurableSpace Ω] {P : Measure Ω}

section Gaussian
variable {κ η 𝓗 𝓗' : Type} [Fintype κ] [DecidableEq κ] [Fintype η] [DecidableEq η] [MeasurableSpace 𝓗] [MeasurableSpace 𝓗']

/-- What remains of `x` after `A x + e` was observed, and the observation. -/
def innovate (A : Matrix η κ ℝ) (K : Matrix κ η ℝ) (z : EuclideanSpace ℝ κ × EuclideanSpace ℝ η) :
    EuclideanSpace ℝ κ × EuclideanSpace ℝ η :=
  (WithLp.toLp 2 (z.1.ofLp - K *ᵥ (A *ᵥ z.1.ofLp + z.2.ofLp)), WithLp.toLp 2 (A *ᵥ z.1.ofLp + z.2.ofLp))

theorem innovate_preserving {C C' : Matrix κ κ ℝ} {R : Matrix η η ℝ} (hC : C.PosSemidef) (hR : R.PosSemidef) {A : Matrix η κ ℝ}
    {K : Matrix κ η ℝ} (hK : K * (A * C * Aᵀ + R) = C * Aᵀ) (hC' : C'.PosSemidef)
    (hJ : (1 - K * A) * C * (1 - K * A)ᵀ + K * R * Kᵀ = C') :
    MeasurePreserving (innovate A K) ((multivariateGaussian 0 C).prod (multivariateGaussian 0 R))
      ((multivariateGaussian 0 C').prod (multivariateGaussian 0 (A * C * Aᵀ + R))) := by
  have hS : (A * C * Aᵀ + R).PosSemidef := by
    have := hC.mul_mul_conjTranspose_same A
    rw [conjTranspose_eq_transpose_of_trivial] at this
    exact this.add hR
  have g0 : ∀ {C : Matrix κ κ ℝ} {R : Matrix η η ℝ}, C.PosSemidef → R.PosSemidef →
      ((multivariateGaussian 0 C).prod (multivariateGaussian 0 R)).map stackE = multivariateGaussian (0 : EuclideanSpace ℝ (κ ⊕ η))
        (fromBlocks C 0 0 R) := by
    intro C R hC hR
    have h := gaussian_prod (mean := (0 : κ → ℝ)) (mean' := (0 : η → ℝ)) hC hR
    have e : Sum.elim (0 : κ → ℝ) (0 : η → ℝ) = 0 := by ext i; cases i <;> rfl
    rw [e, WithLp.toLp_zero, WithLp.toLp_zero, WithLp.toLp_zero] at h
    exact h
  have hid : NormallyDistributed (multivariateGaussian (0 : EuclideanSpace ℝ (κ ⊕ η)) (fromBlocks C 0 0 R)) (fun x => x.ofLp) 0
      (fromBlocks C 0 0 R) := by
    rw [NormallyDistributed, WithLp.toLp_zero]
    exact HasLaw.id
  have h2 := normal_mulVec (fromBlocks (1 - K * A) (-K) A 1) (posSemidef_diag hC hR) hid
  have ec : fromBlocks (1 - K * A) (-K) A 1 * fromBlocks C 0 0 R * (fromBlocks (1 - K * A) (-K) A 1)ᵀ =
      fromBlocks C' 0 0 (A * C * Aᵀ + R) := by
    have t1 : Cᵀ = C := by
      have := hC.isHermitian; rwa [IsHermitian, conjTranspose_eq_transpose_of_trivial] at this
    have t2 : Rᵀ = R := by
      have := hR.isHermitian; rwa [IsHermitian, conjTranspose_eq_transpose_of_trivial] at this
    have z : (1 - K * A) * C * Aᵀ - K * R = 0 := by
      have : (1 - K * A) * C * Aᵀ - K * R = C * Aᵀ - K * (A * C * Aᵀ + R) := by
        simp only [Matrix.sub_mul, Matrix.one_mul, Matrix.mul_add, Matrix.mul_assoc]; abel
      rw [this, hK, sub_self]
    have z' : A * C * (1 - K * A)ᵀ - R * Kᵀ = 0 := by
      have := congrArg transpose z
      simpa only [transpose_sub, transpose_mul, transpose_transpose, t1, t2, transpose_zero, Matrix.mul_assoc] using this
    rw [fromBlocks_transpose, fromBlocks_multiply, fromBlocks_multiply]
    simp only [Matrix.mul_zero, add_zero, zero_add, transpose_one, Matrix.mul_one, Matrix.one_mul, transpose_neg, Matrix.neg_mul,
      Matrix.mul_neg, neg_neg]
    rw [← sub_eq_add_neg, ← sub_eq_add_neg, z, z', hJ]
  rw [ec, mulVec_zero, NormallyDistributed, WithLp.toLp_zero] at h2
  have h3 : HasLaw (stackE (κ := κ) (η := η)) (multivariateGaussian (0 : EuclideanSpace ℝ (κ ⊕ η)) (fromBlocks C 0 0 R))
      ((multivariateGaussian 0 C).prod (multivariateGaussian 0 R)) := ⟨measurable_stackE.aemeasurable, g0 hC hR⟩
  have h4 : HasLaw (unstackE (κ := κ) (η := η)) ((multivariateGaussian 0 C').prod (multivariateGaussian 0 (A * C * Aᵀ + R)))
      (multivariateGaussian (0 : EuclideanSpace ℝ (κ ⊕ η)) (fromBlocks C' 0 0 (A * C * Aᵀ + R))) := by
    refine ⟨measurable_unstackE.aemeasurable, ?_⟩
    rw [← g0 hC' hS, Measure.map_map measurable_unstackE measurable_stackE]
    exact Measure.map_id
  have h5 := h4.comp (h2.comp h3)
  have e : (unstackE ∘ (fun x : EuclideanSpace ℝ (κ ⊕ η) => WithLp.toLp 2 (fromBlocks (1 - K * A) (-K) A 1 *ᵥ x.ofLp)) ∘ stackE) =
      innovate A K := by
    funext z
    have ev : fromBlocks (1 - K * A) (-K) A 1 *ᵥ Sum.elim z.1.ofLp z.2.ofLp =
        Sum.elim (z.1.ofLp - K *ᵥ (A *ᵥ z.1.ofLp + z.2.ofLp)) (A *ᵥ z.1.ofLp + z.2.ofLp) := by
      rw [fromBlocks_mulVec]
      simp only [Sum.elim_comp_inl, Sum.elim_comp_inr, one_mulVec, sub_mulVec, neg_mulVec, ← mulVec_mulVec, mulVec_add]
      congr 1
      abel
    show unstackE (WithLp.toLp 2 (fromBlocks (1 - K * A) (-K) A 1 *ᵥ Sum.elim z.1.ofLp z.2.ofLp)) = _
    rw [ev]
    rfl
  rw [e] at h5
  refine ⟨?_, h5.map_eq⟩
  rw [← e]
  refine measurable_unstackE.comp (Measurable.comp ?_ measurable_stackE)
  exact (LinearMap.continuous_of_finiteDimensional (toEuclideanLin (fromBlocks (1 - K * A) (-K) A 1))).measurable

/-- `X` is `m (H ω)` plus a normally distributed vector that is independent of `H`. -/
structure Decoupled (P : Measure Ω) (X : Ω → κ → ℝ) (H : Ω → 𝓗) (m : 𝓗 → κ → ℝ) (C : Matrix κ κ ℝ) : Prop where
  mean : Measurable m
  history : AEMeasurable H P
  law : HasLaw (fun ω => ((WithLp.toLp 2 (X ω - m (H ω)) : EuclideanSpace ℝ κ), H ω)) ((multivariateGaussian 0 C).prod (P.map H)) P

theorem measurable_mulVec' {κ η : Type} [Fintype κ] [Fintype η] (K : Matrix κ η ℝ) : Measurable fun y : η → ℝ => K *ᵥ y :=
  (LinearMap.continuous_of_finiteDimensional (mulVecLin K)).measurable

theorem Decoupled.step [IsProbabilityMeasure P] {X : Ω → κ → ℝ} {H : Ω → 𝓗} {m : 𝓗 → κ → ℝ} {C C' : Matrix κ κ ℝ}
    (h : Decoupled P X H m C) {R : Matrix η η ℝ} (hC : C.PosSemidef) (hR : R.PosSemidef) {E : Ω → η → ℝ}
    (hE : NormallyDistributed P E 0 R) (hX : AEMeasurable X P) (hind : IndepFun (fun ω => (X ω, H ω)) E P) {A : Matrix η κ ℝ}
    {K : Matrix κ η ℝ} (hK : K * (A * C * Aᵀ + R) = C * Aᵀ) (hC' : C'.PosSemidef)
    (hJ : (1 - K * A) * C * (1 - K * A)ᵀ + K * R * Kᵀ = C') :
    Decoupled P X (fun ω => (H ω, A *ᵥ X ω + E ω)) (fun z => m z.1 + K *ᵥ (z.2 - A *ᵥ m z.1)) C' := by
  have mt : ∀ {ι : Type} [Fintype ι], Measurable fun x : ι → ℝ => (WithLp.toLp 2 x : EuclideanSpace ℝ ι) :=
    fun {ι} _ => (PiLp.continuous_toLp 2 _).measurable
  have mo : ∀ {ι : Type} [Fintype ι], Measurable fun x : EuclideanSpace ℝ ι => x.ofLp :=
    fun {ι} _ => (PiLp.continuous_ofLp 2 _).measurable
  have hHp : IsProbabilityMeasure (P.map H) := Measure.isProbabilityMeasure_map h.history
  have hEm : AEMeasurable E P := mo.comp_aemeasurable hE.aemeasurable
  have L0 : HasLaw (fun ω => (((WithLp.toLp 2 (X ω - m (H ω)) : EuclideanSpace ℝ κ), H ω), (WithLp.toLp 2 (E ω) : EuclideanSpace ℝ η)))
      (((multivariateGaussian 0 C).prod (P.map H)).prod (multivariateGaussian 0 R)) P := by
    have hi : IndepFun (fun ω => ((WithLp.toLp 2 (X ω - m (H ω)) : EuclideanSpace ℝ κ), H ω))
        (fun ω => (WithLp.toLp 2 (E ω) : EuclideanSpace ℝ η)) P :=
      hind.comp (φ := fun z => ((WithLp.toLp 2 (z.1 - m z.2) : EuclideanSpace ℝ κ), z.2)) (ψ := fun e => WithLp.toLp 2 e)
        ((mt.comp (measurable_fst.sub (h.mean.comp measurable_snd))).prodMk measurable_snd) mt
    have := (indepFun_iff_map_prod_eq_prod_map_map h.law.aemeasurable hE.aemeasurable).1 hi
    rw [h.law.map_eq, hE.map_eq, WithLp.toLp_zero] at this
    exact ⟨h.law.aemeasurable.prodMk hE.aemeasurable, this⟩
  -- `((v, h), e) ↦ (v, (h, e)) ↦ (v, (e, h)) ↦ ((v, e), h)`
  have g1 := measurePreserving_prodAssoc (multivariateGaussian (0 : EuclideanSpace ℝ κ) C) (P.map H)
    (multivariateGaussian (0 : EuclideanSpace ℝ η) R)
  have g2 := (MeasurePreserving.id (multivariateGaussian (0 : EuclideanSpace ℝ κ) C)).prod
    (Measure.measurePreserving_swap (μ := P.map H) (ν := multivariateGaussian (0 : EuclideanSpace ℝ η) R))
  have g3 := (measurePreserving_prodAssoc (multivariateGaussian (0 : EuclideanSpace ℝ κ) C)
    (multivariateGaussian (0 : EuclideanSpace ℝ η) R) (P.map H)).symm
  have g4 := (innovate_preserving hC hR hK hC' hJ).prod (MeasurePreserving.id (P.map H))
  have g5 := measurePreserving_prodAssoc (multivariateGaussian (0 : EuclideanSpace ℝ κ) C')
    (multivariateGaussian (0 : EuclideanSpace ℝ η) (A * C * Aᵀ + R)) (P.map H)
  have g6 := (MeasurePreserving.id (multivariateGaussian (0 : EuclideanSpace ℝ κ) C')).prod
    (Measure.measurePreserving_swap (μ := multivariateGaussian (0 : EuclideanSpace ℝ η) (A * C * Aᵀ + R)) (ν := P.map H))
  let φ : 𝓗 × EuclideanSpace ℝ η → 𝓗 × (η → ℝ) := fun z => (z.1, z.2.ofLp + A *ᵥ m z.1)
  have hφ : Measurable φ :=
    measurable_fst.prodMk ((mo.comp measurable_snd).add ((measurable_mulVec' A).comp (h.mean.comp measurable_fst)))
  have g7 : MeasurePreserving φ ((P.map H).prod (multivariateGaussian 0 (A * C * Aᵀ + R)))
    (((P.map H).prod (multivariateGaussian 0 (A * C * Aᵀ + R))).map φ) := ⟨hφ, rfl⟩
  have hφp : IsProbabilityMeasure (((P.map H).prod (multivariateGaussian 0 (A * C * Aᵀ + R))).map φ) :=
    Measure.isProbabilityMeasure_map hφ.aemeasurable
  have g8 := (MeasurePreserving.id (multivariateGaussian (0 : EuclideanSpace ℝ κ) C')).prod g7
  have L1 := (g8.comp (g6.comp (g5.comp (g4.comp (g3.comp (g2.comp g1)))))).hasLaw.comp L0
  have L2 : HasLaw (fun ω => ((WithLp.toLp 2 (X ω - (m (H ω) + K *ᵥ ((A *ᵥ X ω + E ω) - A *ᵥ m (H ω)))) : EuclideanSpace ℝ κ),
      (H ω, A *ᵥ X ω + E ω))) ((multivariateGaussian 0 C').prod
        (((P.map H).prod (multivariateGaussian 0 (A * C * Aᵀ + R))).map φ)) P := by
    refine L1.congr (ae_of_all _ fun ω => ?_)
    show _ = ((WithLp.toLp 2 (X ω - m (H ω) - K *ᵥ (A *ᵥ (X ω - m (H ω)) + E ω)) : EuclideanSpace ℝ κ),
      (H ω, A *ᵥ (X ω - m (H ω)) + E ω + A *ᵥ m (H ω)))
    have e1 : A *ᵥ (X ω - m (H ω)) + E ω + A *ᵥ m (H ω) = A *ᵥ X ω + E ω := by rw [mulVec_sub]; abel
    have e2 : A *ᵥ (X ω - m (H ω)) + E ω = A *ᵥ X ω + E ω - A *ᵥ m (H ω) := by rw [mulVec_sub]; abel
    rw [e1, e2, sub_sub]
  have hmarg : P.map (fun ω => (H ω, A *ᵥ X ω + E ω)) = ((P.map H).prod (multivariateGaussian 0 (A * C * Aᵀ + R))).map φ :=
    (measurePreserving_snd.hasLaw.comp L2).map_eq
  refine ⟨?_, h.history.prodMk (((measurable_mulVec' A).comp_aemeasurable hX).add hEm), ?_⟩
  · have m1 : Measurable fun z : 𝓗 × (η → ℝ) => m z.1 := h.mean.comp measurable_fst
    exact m1.add ((measurable_mulVec' K).comp (measurable_snd.sub ((measurable_mulVec' A).comp m1)))
  · rw [hmarg]
    exact L2

/-- The same history in another form. -/
theorem Decoupled.map {X : Ω → κ → ℝ} {H : Ω → 𝓗} {m : 𝓗 → κ → ℝ} {C : Matrix κ κ ℝ} [SFinite (P.map H)]
    (h : Decoupled P X H m C) {f : 𝓗 → 𝓗'} (hf : Measurable f) {g : 𝓗' → 𝓗} (hg : Measurable g) (hgf : ∀ x, g (f x) = x) :
    Decoupled P X (fun ω => f (H ω)) (fun y => m (g y)) C := by
  have e : P.map (fun ω => f (H ω)) = (P.map H).map f :=
    (AEMeasurable.map_map_of_aemeasurable hf.aemeasurable h.history).symm
  refine ⟨h.mean.comp hg, hf.comp_aemeasurable h.history, ?_⟩
  have : SFinite ((P.map H).map f) := inferInstance
  have hp : MeasurePreserving f (P.map H) ((P.map H).map f) := ⟨hf, rfl⟩
  have L := ((MeasurePreserving.id (multivariateGaussian (0 : EuclideanSpace ℝ κ) C)).prod hp).hasLaw.comp h.law
  rw [e]
  refine L.congr (ae_of_all _ fun ω => ?_)
  simp only [hgf]
  rfl

theorem Decoupled.given [IsProbabilityMeasure P] {X : Ω → κ → ℝ} {H : Ω → 𝓗} {m : 𝓗 → κ → ℝ} {C : Matrix κ κ ℝ}
    (h : Decoupled P X H m C) : NormallyDistributedGiven P X H m fun _ => C := by
  intro S B hS hB
  have mo : Measurable fun x : EuclideanSpace ℝ κ => x.ofLp := (PiLp.continuous_ofLp 2 _).measurable
  have mS : MeasurableSet {x : EuclideanSpace ℝ κ | x.ofLp ∈ S} := mo hS
  let T : Set (EuclideanSpace ℝ κ × 𝓗) := {z | z.1.ofLp + m z.2 ∈ S ∧ z.2 ∈ B}
  have hsum : Measurable fun z : EuclideanSpace ℝ κ × 𝓗 => z.1.ofLp + m z.2 :=
    (mo.comp measurable_fst).add (h.mean.comp measurable_snd)
  have hT : MeasurableSet T := (hsum hS).inter (measurable_snd hB)
  have hp : IsProbabilityMeasure (P.map H) := Measure.isProbabilityMeasure_map h.history
  have e1 : P {ω | X ω ∈ S ∧ H ω ∈ B} =
      P.map (fun ω => ((WithLp.toLp 2 (X ω - m (H ω)) : EuclideanSpace ℝ κ), H ω)) T := by
    rw [Measure.map_apply_of_aemeasurable h.law.aemeasurable hT]
    congr 1
    ext ω
    simp only [T, Set.mem_preimage, Set.mem_setOf_eq, sub_add_cancel]
  have e2 : ∀ y : 𝓗, multivariateGaussian (WithLp.toLp 2 (m y)) C {x | x.ofLp ∈ S} =
      multivariateGaussian 0 C {x | x.ofLp + m y ∈ S} := by
    intro y
    rw [← add_zero (WithLp.toLp 2 (m y)), gaussian_shift, Measure.map_apply (measurable_const_add _) mS]
    congr 1
    ext x
    simp only [Set.mem_preimage, Set.mem_setOf_eq, WithLp.ofLp_add, add_comm]
  have hmeas : Measurable fun y : 𝓗 => multivariateGaussian 0 C {x | x.ofLp + m y ∈ S} :=
    measurable_measure_prodMk_right (s := {z : EuclideanSpace ℝ κ × 𝓗 | z.1.ofLp + m z.2 ∈ S}) (hsum hS)
  have e3 : ∫⁻ ω in {ω | H ω ∈ B}, multivariateGaussian (WithLp.toLp 2 (m (H ω))) C {x | x.ofLp ∈ S} ∂P =
      ∫⁻ y in B, multivariateGaussian 0 C {x | x.ofLp + m y ∈ S} ∂(P.map H) := by
    rw [← lintegral_indicator hB, lintegral_map' ((hmeas.indicator hB).aemeasurable) h.history]
    have hn : NullMeasurableSet {ω | H ω ∈ B} P := h.history.nullMeasurableSet_preimage hB
    rw [← lintegral_indicator₀ hn]
    refine lintegral_congr fun ω => ?_
    by_cases hω : H ω ∈ B
    · rw [Set.indicator_of_mem (by exact hω), Set.indicator_of_mem (by exact hω)]
      exact e2 (H ω)
    · rw [Set.indicator_of_notMem (by exact hω), Set.indicator_of_notMem (by exact hω)]
  rw [e1, h.law.map_eq, Measure.prod_apply_symm hT, e3, ← lintegral_indicator hB]
  refine lintegral_congr fun y => ?_
  by_cases hy : y ∈ B
  · rw [Set.indicator_of_mem hy]
    congr 1
    ext x
    simp [T, hy]
  · rw [Set.indicator_of_notMem hy]
    have : (fun x => (x, y)) ⁻¹' T = ∅ := by
      ext x
      simp [T, hy]
    rw [this, measure_empty]

end Gaussian

theorem conditionAll_append {p : ProMP d w} (l l' : List (Condition d)) :
    conditionAll p (l ++ l') = match conditionAll p l with
      | .ok q => conditionAll q l'
      | .error e => .error e := by
  induction l generalizing p with
  | nil => rfl
  | cons c l ih =>
    rw [List.cons_append, conditionAll, conditionAll]
    split
    · exact ih
    · rfl

/-- Positions that are observed in the first `n` observations. -/
noncomputable def observed (weights : Ω → Vec (d * w)) (noise : ℕ → Ω → Vec d) (s : ℕ → ℝ) (n : ℕ) (ω : Ω) : Fin n → Vec d :=
  fun i => prompPosition (weights ω) (s i) + noise i ω

theorem measurable_snoc (n : ℕ) : Measurable fun z : (Fin n → Vec d) × Vec d => (Fin.snoc z.1 z.2 : Fin (n + 1) → Vec d) := by
  refine measurable_pi_iff.2 fun i => ?_
  induction i using Fin.lastCases with
  | last => simpa only [Fin.snoc_last] using measurable_snd
  | cast i =>
    simp only [Fin.snoc_castSucc]
    exact (measurable_pi_apply i).comp measurable_fst

theorem decoupled_conditionAll [IsProbabilityMeasure P] {p : ProMP d w} (hp : p.centers = linspace01 w) (hC : p.weightCov.PosSemidef)
    {cov : ℕ → YCov d} {t tMax : ℕ → ℝ} {weights : Ω → Vec (d * w)} {noise : ℕ → Ω → Vec d}
    (hw : NormallyDistributed P weights p.weightMean p.weightCov) : ∀ (n : ℕ),
    (∀ i < n, cov i = .none ∨ ∃ R, cov i = .full R ∧ R.PosSemidef) →
    (∀ i < n, NormallyDistributed P (noise i) 0 (noiseCov (cov i))) →
    (∀ i < n, IndepFun (fun ω => (weights ω, fun j : Fin i => noise j ω)) (noise i) P) →
    ∀ {q : (Fin n → Vec d) → ProMP d w},
    (∀ y, conditionAll p (List.ofFn fun i : Fin n => ⟨y i, cov i, t i, tMax i⟩) = .ok (q y)) →
    ∃ C : Matrix _ _ ℝ, C.PosSemidef ∧ (∀ y, (q y).weightCov = C ∧ (q y).centers = linspace01 w) ∧
      Decoupled P weights (observed weights noise (fun i => t i / tMax i) n) (fun y => (q y).weightMean) C := by
  have mo : ∀ {ι : Type} [Fintype ι], Measurable fun x : EuclideanSpace ℝ ι => x.ofLp :=
    fun {ι} _ => (PiLp.continuous_ofLp 2 _).measurable
  have hwm : AEMeasurable weights P := mo.comp_aemeasurable hw.aemeasurable
  intro n
  induction n with
  | zero =>
    intro _ _ _ q hq
    have e : ∀ y, q y = p := fun y => by
      have := hq y
      rw [List.ofFn_zero, conditionAll] at this
      injection this with this
      exact this.symm
    have ho : observed weights noise (fun i => t i / tMax i) 0 = fun _ => (Fin.elim0 : Fin 0 → Vec d) := by
      funext ω i
      exact i.elim0
    refine ⟨p.weightCov, hC, fun y => by rw [e y]; exact ⟨rfl, hp⟩, ?_⟩
    simp only [e]
    rw [ho]
    have hl : HasLaw (fun ω => (WithLp.toLp 2 (weights ω - p.weightMean) : EuclideanSpace ℝ (Fin (d * w))))
        (multivariateGaussian 0 p.weightCov) P := by
      have h1 := (⟨(measurable_const_add (WithLp.toLp 2 (-p.weightMean) : EuclideanSpace ℝ (Fin (d * w)))).aemeasurable,
        (gaussian_shift _ _ _).symm⟩ : HasLaw _ _ _).comp hw
      have z : (WithLp.toLp 2 (-p.weightMean) + WithLp.toLp 2 p.weightMean : EuclideanSpace ℝ (Fin (d * w))) = 0 := by
        rw [← WithLp.toLp_add, neg_add_cancel, WithLp.toLp_zero]
      rw [z] at h1
      refine h1.congr (ae_of_all _ fun ω => ?_)
      show _ = (WithLp.toLp 2 (-p.weightMean) + WithLp.toLp 2 (weights ω) : EuclideanSpace ℝ (Fin (d * w)))
      rw [← WithLp.toLp_add, neg_add_eq_sub]
    refine ⟨measurable_const, aemeasurable_const, hl.aemeasurable.prodMk aemeasurable_const, ?_⟩
    rw [(indepFun_iff_map_prod_eq_prod_map_map hl.aemeasurable aemeasurable_const).1 (indepFun_const_right _ _), hl.map_eq]
  | succ n ih =>
    intro hc hn hind q hq
    have split : ∀ y : Fin (n + 1) → Vec d, (List.ofFn fun i : Fin (n + 1) => (⟨y i, cov i, t i, tMax i⟩ : Condition d)) =
        (List.ofFn fun i : Fin n => ⟨Fin.init y i, cov i, t i, tMax i⟩) ++ [⟨y (Fin.last n), cov n, t n, tMax n⟩] := by
      intro y
      rw [List.ofFn_succ', List.concat_eq_append]
      rfl
    have ex : ∀ y : Fin n → Vec d, ∃ r, conditionAll p (List.ofFn fun i : Fin n => ⟨y i, cov i, t i, tMax i⟩) = .ok r := by
      intro y
      have := hq (Fin.snoc y 0)
      rw [split, conditionAll_append, Fin.init_snoc] at this
      cases h : conditionAll p (List.ofFn fun i : Fin n => (⟨y i, cov i, t i, tMax i⟩ : Condition d)) with
      | ok r => exact ⟨r, rfl⟩
      | error e => rw [h] at this; cases this
    choose r hr using ex
    obtain ⟨C, hCp, hrC, hD⟩ := ih (fun i hi => hc i (by omega)) (fun i hi => hn i (by omega)) (fun i hi => hind i (by omega)) hr
    have hR : (cov n).broadcast.PosSemidef := by
      rcases hc n (by omega) with h | ⟨R, h, hR⟩
      · rw [h]; exact PosSemidef.zero
      · rw [h]; exact hR
    have hb : noiseCov (cov n) = (cov n).broadcast := by
      rcases hc n (by omega) with h | ⟨R, h, hR⟩ <;> rw [h] <;> rfl
    have key : ∀ y : Fin (n + 1) → Vec d,
        IsUnit ((cov n).broadcast + (psi d w (t n / tMax n))ᵀ * (r (Fin.init y)).weightCov * psi d w (t n / tMax n)).det ∧
        q y = (r (Fin.init y)).conditioned (y (Fin.last n)) (cov n).broadcast (t n / tMax n) := by
      intro y
      have h := hq y
      rw [split, conditionAll_append, hr] at h
      simp only [conditionAll] at h
      have h1 : ((ProMP.conditionPosition (y (Fin.last n)) (cov n) (t n) (tMax n)).exec (r (Fin.init y))).1 = .ok (q y) := by
        cases h2 : ((ProMP.conditionPosition (y (Fin.last n)) (cov n) (t n) (tMax n)).exec (r (Fin.init y))).1 with
        | ok x => rw [h2] at h; exact h
        | error e => rw [h2] at h; cases h
      obtain ⟨-, h2, h3, -⟩ := condition_ok (hrC _).2 (Prod.ext h1 rfl :
        (ProMP.conditionPosition (y (Fin.last n)) (cov n) (t n) (tMax n)).exec (r (Fin.init y)) = (.ok (q y), _))
      exact ⟨h2, h3⟩
    set A := (psi d w (t n / tMax n))ᵀ with hA
    have hd : IsUnit ((cov n).broadcast + A * C * Aᵀ).det := by
      have := (key fun _ => 0).1
      rw [(hrC _).1] at this
      rwa [hA, transpose_transpose]
    set K := C * Aᵀ * ((cov n).broadcast + A * C * Aᵀ)⁻¹ with hK
    have hg : ∀ y, (r y).gain (cov n).broadcast (t n / tMax n) = K := by
      intro y
      rw [gain, (hrC y).1, hK, hA, transpose_transpose]
    have hKe : K * (A * C * Aᵀ + (cov n).broadcast) = C * Aᵀ := by
      rw [add_comm, hK]
      exact nonsing_inv_mul_cancel_right _ _ hd
    have hJ := conditioned_joseph (p := r fun _ => 0) (R := (cov n).broadcast) (s := t n / tMax n)
      (by rw [(hrC _).1]; rwa [hA, transpose_transpose] at hd) 0
    have hC' := conditioned_posSemidef (p := r fun _ => 0) (R := (cov n).broadcast) (s := t n / tMax n)
      (by rw [(hrC _).1]; exact hCp) hR (by rw [(hrC _).1]; rwa [hA, transpose_transpose] at hd) 0
    rw [hg, (hrC _).1, ← hA] at hJ
    have hcov : ∀ y, (q y).weightCov = ((r fun _ => 0).conditioned 0 (cov n).broadcast (t n / tMax n)).weightCov := by
      intro y
      rw [(key y).2]
      show (r _).weightCov - (r _).gain _ _ * _ * (r _).weightCov = (r _).weightCov - (r _).gain _ _ * _ * (r _).weightCov
      rw [hg, hg, (hrC _).1, (hrC _).1]
    have hobs : ∀ s ω, prompPosition (weights ω) s = (psi d w s)ᵀ *ᵥ weights ω := fun s ω => by rw [psi_transpose_mulVec]
    have hin : IndepFun (fun ω => (weights ω, observed weights noise (fun i => t i / tMax i) n ω)) (noise n) P := by
      have m1 : Measurable fun z : Vec (d * w) × (Fin n → Vec d) =>
          (z.1, fun i : Fin n => (psi d w (t i / tMax i))ᵀ *ᵥ z.1 + z.2 i) :=
        measurable_fst.prodMk (measurable_pi_iff.2 fun i => ((measurable_mulVec' _).comp measurable_fst).add
          ((measurable_pi_apply i).comp measurable_snd))
      have := (hind n (by omega)).comp m1 measurable_id
      have e : (fun ω => (weights ω, observed weights noise (fun i => t i / tMax i) n ω)) =
          (fun z : Vec (d * w) × (Fin n → Vec d) => (z.1, fun i : Fin n => (psi d w (t i / tMax i))ᵀ *ᵥ z.1 + z.2 i)) ∘
            fun ω => (weights ω, fun j : Fin n => noise j ω) := by
        funext ω
        refine Prod.ext rfl ?_
        funext i
        exact congrArg (· + noise i ω) (hobs _ ω)
      rw [e]
      exact this
    have hnn := hn n (by omega)
    rw [hb] at hnn
    have hs := hD.step hCp hR hnn hwm hin hKe hC' hJ.symm
    have hHp : IsProbabilityMeasure (P.map fun ω => (observed weights noise (fun i => t i / tMax i) n ω, A *ᵥ weights ω + noise n ω)) :=
      Measure.isProbabilityMeasure_map hs.history
    have hm := hs.map (measurable_snoc n) (g := fun y => (Fin.init y, y (Fin.last n)))
      ((measurable_pi_iff.2 fun i => measurable_pi_apply _).prodMk (measurable_pi_apply _))
      (fun z => by simp only [Fin.init_snoc, Fin.snoc_last])
    refine ⟨_, hC', fun y => ⟨hcov y, by rw [(key y).2]; rfl⟩, ?_⟩
    have e1 : (fun y => (q y).weightMean) = fun y => (r (Fin.init y)).weightMean +
        K *ᵥ (y (Fin.last n) - A *ᵥ (r (Fin.init y)).weightMean) := by
      funext y
      rw [(key y).2]
      show _ + (r _).gain _ _ *ᵥ _ = _
      rw [hg]
    have e2 : observed weights noise (fun i => t i / tMax i) (n + 1) = fun ω =>
        (Fin.snoc (observed weights noise (fun i => t i / tMax i) n ω) (A *ᵥ weights ω + noise n ω) : Fin (n + 1) → Vec d) := by
      funext ω i
      induction i using Fin.lastCases with
      | last => rw [Fin.snoc_last, hA, ← hobs]; rfl
      | cast i => rw [Fin.snoc_castSucc]; rfl
    rw [e1, e2]
    exact hm

/-- **C121 (Bayes, several observations).** The weights of a ProMP are drawn from its distribution and the positions at `n` times are
observed, each with normally distributed noise with covariance `y_cov` (or without noise) that is independent of the weights and of the
noise of the observations before. The distribution of the weights given all observations is the distribution of the ProMP that is
obtained by calling `condition_position` for one observed position after the other. -/
theorem C121_bayes_sequence [IsProbabilityMeasure P] {p : ProMP d w} (hp : Reachable p) (hC : p.weightCov.PosSemidef) {n : ℕ}
    {cov : ℕ → YCov d} (hc : ∀ i < n, cov i = .none ∨ ∃ R, cov i = .full R ∧ R.PosSemidef) {t tMax : ℕ → ℝ}
    {q : (Fin n → Vec d) → ProMP d w}
    (hq : ∀ y, conditionAll p (List.ofFn fun i : Fin n => ⟨y i, cov i, t i, tMax i⟩) = .ok (q y))
    {weights : Ω → Vec (d * w)} {noise : ℕ → Ω → Vec d}
    (hw : NormallyDistributed P weights p.weightMean p.weightCov)
    (hn : ∀ i < n, NormallyDistributed P (noise i) 0 (noiseCov (cov i)))
    (hind : ∀ i < n, IndepFun (fun ω => (weights ω, fun j : Fin i => noise j ω)) (noise i) P) :
    NormallyDistributedGiven P weights (fun ω (i : Fin n) => prompPosition (weights ω) (t i / tMax i) + noise i ω)
      (fun y => (q y).weightMean) fun y => (q y).weightCov := by
  obtain ⟨C, -, h, hD⟩ := decoupled_conditionAll hp.centers hC hw n hc hn hind hq
  have e : (fun y => (q y).weightCov) = fun _ => C := funext fun y => (h y).1
  rw [e]
  exact hD.given

theorem given_mulVec {κ η 𝓗 : Type} [Fintype κ] [DecidableEq κ] [Fintype η] [DecidableEq η] [MeasurableSpace 𝓗] {X : Ω → κ → ℝ}
    {H : Ω → 𝓗} {m : 𝓗 → κ → ℝ} {C : 𝓗 → Matrix κ κ ℝ} (hC : ∀ y, (C y).PosSemidef) (h : NormallyDistributedGiven P X H m C)
    (B : Matrix η κ ℝ) : NormallyDistributedGiven P (fun ω => B *ᵥ X ω) H (fun y => B *ᵥ m y) fun y => B * C y * Bᵀ := by
  intro S T hS hT
  have h1 := h _ T (measurable_mulVec' B hS) hT
  refine h1.trans ?_
  refine lintegral_congr fun ω => ?_
  have hid : NormallyDistributed (multivariateGaussian (WithLp.toLp 2 (m (H ω))) (C (H ω))) (fun x => x.ofLp) (m (H ω)) (C (H ω)) :=
    HasLaw.id
  have h2 := normal_mulVec B (hC (H ω)) hid
  have mS : MeasurableSet {x : EuclideanSpace ℝ η | x.ofLp ∈ S} := (PiLp.continuous_ofLp 2 _).measurable hS
  rw [← h2.map_eq, Measure.map_apply_of_aemeasurable h2.aemeasurable mS]
  rfl

/-- **C121 (trajectories given observations).** In the situation of `C121_bayes_sequence`, `mean_trajectory` and `cov_trajectory` of the
conditioned ProMP are mean and covariance of the conditional distribution of the trajectory given all observations, which is normal. -/
theorem C121_bayes_trajectory [IsProbabilityMeasure P] {p : ProMP d w} (hp : Reachable p) (hC : p.weightCov.PosSemidef) {n : ℕ}
    {cov : ℕ → YCov d} (hc : ∀ i < n, cov i = .none ∨ ∃ R, cov i = .full R ∧ R.PosSemidef) {t tMax : ℕ → ℝ}
    {q : (Fin n → Vec d) → ProMP d w}
    (hq : ∀ y, conditionAll p (List.ofFn fun i : Fin n => ⟨y i, cov i, t i, tMax i⟩) = .ok (q y))
    {weights : Ω → Vec (d * w)} {noise : ℕ → Ω → Vec d}
    (hw : NormallyDistributed P weights p.weightMean p.weightCov)
    (hn : ∀ i < n, NormallyDistributed P (noise i) 0 (noiseCov (cov i)))
    (hind : ∀ i < n, IndepFun (fun ω => (weights ω, fun j : Fin i => noise j ω)) (noise i) P)
    {k : ℕ} {T : Vec k} {last : ℝ} (hT : IsLargest T last) :
    ∃ (M : (Fin n → Vec d) → Matrix (Fin k) (Fin d) ℝ) (C : (Fin n → Vec d) → Matrix (Fin (d * k)) (Fin (d * k)) ℝ),
      (∀ y, ((q y).meanTrajectory.exec (.float T)).1 = .ok (M y) ∧ ((q y).covTrajectory.exec (.float T)).1 = .ok (C y)) ∧
      NormallyDistributedGiven P
        (fun ω => allPositions (Matrix.of fun j l => prompPosition (weights ω) (T j / last) l))
        (fun ω (i : Fin n) => prompPosition (weights ω) (t i / tMax i) + noise i ω) (fun y => allPositions (M y)) C := by
  obtain ⟨C, hCp, h, -⟩ := decoupled_conditionAll hp.centers hC hw n hc hn hind hq
  have hg := C121_bayes_sequence hp hC hc hq hw hn hind
  refine ⟨_, _, fun y => ⟨congrArg Prod.fst (exec_trajectoryFromWeights (h y).2 hT _),
    congrArg Prod.fst (exec_covTrajectory (h y).2 hT)⟩, ?_⟩
  have := given_mulVec (fun y => by rw [(h y).1]; exact hCp) hg (positionsOfWeights d w T last)
  simp only [← allPositions_prompPosition] at this
  exact this

/-- **C121 (velocities given observations).** In the situation of `C121_bayes_sequence`, `mean_velocities` and `cov_velocities` of the
conditioned ProMP are mean and covariance of the conditional distribution of the velocities (with respect to time divided by the largest
query time) given all observed positions, which is normal. -/
theorem C121_bayes_velocities [IsProbabilityMeasure P] {p : ProMP d w} (hp : Reachable p) (hpos : 0 < w) (hC : p.weightCov.PosSemidef)
    {n : ℕ} {cov : ℕ → YCov d} (hc : ∀ i < n, cov i = .none ∨ ∃ R, cov i = .full R ∧ R.PosSemidef) {t tMax : ℕ → ℝ}
    {q : (Fin n → Vec d) → ProMP d w}
    (hq : ∀ y, conditionAll p (List.ofFn fun i : Fin n => ⟨y i, cov i, t i, tMax i⟩) = .ok (q y))
    {weights : Ω → Vec (d * w)} {noise : ℕ → Ω → Vec d}
    (hw : NormallyDistributed P weights p.weightMean p.weightCov)
    (hn : ∀ i < n, NormallyDistributed P (noise i) 0 (noiseCov (cov i)))
    (hind : ∀ i < n, IndepFun (fun ω => (weights ω, fun j : Fin i => noise j ω)) (noise i) P)
    {k : ℕ} {T : Vec k} {last : ℝ} (hT : IsLargest T last) (h0 : 0 < last) {velocity : Ω → Matrix (Fin k) (Fin d) ℝ}
    (hv : ∀ ω j l, HasDerivAt (fun s => prompPosition (weights ω) s l) (velocity ω j l) (T j / last)) :
    ∃ (M : (Fin n → Vec d) → Matrix (Fin k) (Fin d) ℝ) (C : (Fin n → Vec d) → Matrix (Fin (d * k)) (Fin (d * k)) ℝ),
      (∀ y, ((q y).meanVelocities.exec (.float T)).1 = .ok (M y) ∧ ((q y).covVelocities.exec (.float T)).1 = .ok (C y)) ∧
      NormallyDistributedGiven P (fun ω => allPositions (velocity ω))
        (fun ω (i : Fin n) => prompPosition (weights ω) (t i / tMax i) + noise i ω) (fun y => allPositions (M y)) C := by
  obtain ⟨C, hCp, h, -⟩ := decoupled_conditionAll hp.centers hC hw n hc hn hind hq
  have hg := C121_bayes_sequence hp hC hc hq hw hn hind
  refine ⟨_, _, fun y => ⟨congrArg Prod.fst (exec_meanVelocities (h y).2 hT h0),
    congrArg Prod.fst (exec_covVelocities (h y).2 hT h0)⟩, ?_⟩
  have ev : (fun ω => allPositions (velocity ω)) = fun ω => velocitiesOfWeights d w T last *ᵥ weights ω := by
    funext ω
    rw [← allPositions_velocity]
    congr 1
    ext j l
    exact (hv ω j l).unique (position_hasDerivAt hpos (weights ω) _ l)
  have := given_mulVec (fun y => by rw [(h y).1]; exact hCp) hg (velocitiesOfWeights d w T last)
  rw [ev]
  simp only [allPositions_velocity]
  exact this

/-- Weights of a new ProMP, two observations with noise, and the conditioned ProMPs. -/
theorem observations_exist : ∃ (Ω : Type) (_ : MeasurableSpace Ω) (P : Measure Ω) (weights : Ω → Vec (2 * 5)) (noise : ℕ → Ω → Vec 2)
    (q : (Fin 2 → Vec 2) → ProMP 2 5), IsProbabilityMeasure P ∧
      (∀ y, conditionAll (ProMP.init 2 5) (List.ofFn fun i : Fin 2 => ⟨y i, .full 1, (i : ℕ), 2⟩) = .ok (q y)) ∧
      NormallyDistributed P weights (ProMP.init 2 5).weightMean (ProMP.init 2 5).weightCov ∧
      (∀ i < 2, NormallyDistributed P (noise i) 0 (noiseCov (.full 1))) ∧
      ∀ i < 2, IndepFun (fun ω => (weights ω, fun j : Fin i => noise j ω)) (noise i) P := by
  have hs : ∀ y : Fin 2 → Vec 2, ∃ q,
      conditionAll (ProMP.init 2 5) (List.ofFn fun i : Fin 2 => ⟨y i, .full 1, (i : ℕ), 2⟩) = .ok q := by
    intro y
    obtain ⟨q₁, e1, pd1, -⟩ := C42_bayes (.init : Reachable (ProMP.init 2 5)) (by norm_num) PosDef.one (y 0) PosDef.one
      ((0 : ℕ) : ℝ) (two_ne_zero : (2 : ℝ) ≠ 0)
    obtain ⟨q₂, e2, -⟩ := C42_bayes (.condition .init e1) (by norm_num) pd1 (y 1) PosDef.one ((1 : ℕ) : ℝ)
      (two_ne_zero : (2 : ℝ) ≠ 0)
    refine ⟨q₂, ?_⟩
    rw [List.ofFn_succ, List.ofFn_succ, List.ofFn_zero, conditionAll]
    have e1' : ((ProMP.conditionPosition (y 0) (.full 1) (((0 : Fin 2) : ℕ) : ℝ) 2).exec (ProMP.init 2 5)).1 = .ok q₁ := congrArg Prod.fst e1
    rw [e1']
    show conditionAll q₁ [_] = _
    rw [conditionAll]
    have e2' : ((ProMP.conditionPosition (y 1) (.full 1) (((1 : Fin 2) : ℕ) : ℝ) 2).exec q₁).1 = .ok q₂ := congrArg Prod.fst e2
    have s1 : Fin.succ (0 : Fin 1) = (1 : Fin 2) := rfl
    simp only [s1]
    rw [e2']
    rfl
  choose q hq using hs
  let μ : Measure (EuclideanSpace ℝ (Fin (2 * 5)) × EuclideanSpace ℝ (Fin 2)) :=
    (multivariateGaussian (WithLp.toLp 2 (ProMP.init 2 5).weightMean) (ProMP.init 2 5).weightCov).prod
      (multivariateGaussian (WithLp.toLp 2 0) 1)
  have hμ : IsProbabilityMeasure μ := inferInstanceAs (IsProbabilityMeasure (Measure.prod _ _))
  let ν : Measure (EuclideanSpace ℝ (Fin 2)) := multivariateGaussian (WithLp.toLp 2 0) 1
  have hν : IsProbabilityMeasure ν := inferInstanceAs (IsProbabilityMeasure (multivariateGaussian _ _))
  have hP : IsProbabilityMeasure (μ.prod ν) := inferInstance
  have mo : ∀ {ι : Type} [Fintype ι], Measurable fun x : EuclideanSpace ℝ ι => x.ofLp :=
    fun {ι} _ => (PiLp.continuous_ofLp 2 _).measurable
  have hf : MeasurePreserving Prod.fst (μ.prod ν) μ := measurePreserving_fst
  let weights : (EuclideanSpace ℝ (Fin (2 * 5)) × EuclideanSpace ℝ (Fin 2)) × EuclideanSpace ℝ (Fin 2) → Vec (2 * 5) :=
    fun ω => ω.1.1.ofLp
  let noise : ℕ → (EuclideanSpace ℝ (Fin (2 * 5)) × EuclideanSpace ℝ (Fin 2)) × EuclideanSpace ℝ (Fin 2) → Vec 2 :=
    fun i ω => if i = 0 then ω.1.2.ofLp else ω.2.ofLp
  refine ⟨_, inferInstance, μ.prod ν, weights, noise, q, hP, hq, ?_, ?_, ?_⟩
  · exact (measurePreserving_fst (μ := multivariateGaussian _ _) (ν := multivariateGaussian _ _)).hasLaw.comp hf.hasLaw
  · intro i hi
    have : i = 0 ∨ i = 1 := by omega
    rcases this with rfl | rfl
    · exact (measurePreserving_snd (μ := multivariateGaussian _ _) (ν := multivariateGaussian _ _)).hasLaw.comp hf.hasLaw
    · exact (measurePreserving_snd (μ := μ) (ν := ν)).hasLaw
  · intro i hi
    have : i = 0 ∨ i = 1 := by omega
    rcases this with rfl | rfl
    · have hi : IndepFun (fun ω : EuclideanSpace ℝ (Fin (2 * 5)) × EuclideanSpace ℝ (Fin 2) =>
          (ω.1.ofLp, (fun j => j.elim0 : Fin 0 → Vec 2))) (fun ω => ω.2.ofLp) μ :=
        indepFun_prod (X := fun x : EuclideanSpace ℝ (Fin (2 * 5)) => (x.ofLp, (fun j => j.elim0 : Fin 0 → Vec 2)))
          (Y := fun x : EuclideanSpace ℝ (Fin 2) => x.ofLp) (mo.prodMk measurable_const) mo
      have mX : Measurable fun ω : EuclideanSpace ℝ (Fin (2 * 5)) × EuclideanSpace ℝ (Fin 2) =>
          (ω.1.ofLp, (fun j => j.elim0 : Fin 0 → Vec 2)) := (mo.comp measurable_fst).prodMk measurable_const
      have mY : Measurable fun ω : EuclideanSpace ℝ (Fin (2 * 5)) × EuclideanSpace ℝ (Fin 2) => ω.2.ofLp := mo.comp measurable_snd
      have e : (fun ω => (weights ω, fun j : Fin 0 => noise j ω)) =
          (fun ω : EuclideanSpace ℝ (Fin (2 * 5)) × EuclideanSpace ℝ (Fin 2) =>
            (ω.1.ofLp, (fun j => j.elim0 : Fin 0 → Vec 2))) ∘ Prod.fst := by
        funext ω
        exact Prod.ext rfl (funext fun j => j.elim0)
      rw [e, indepFun_iff_measure_inter_preimage_eq_mul]
      intro S T hS hT
      have h1 := hf.measure_preimage (mX hS).nullMeasurableSet
      have h2 := hf.measure_preimage (mY hT).nullMeasurableSet
      have h3 := hf.measure_preimage ((mX hS).inter (mY hT)).nullMeasurableSet
      have h4 := hi.measure_inter_preimage_eq_mul _ _ hS hT
      rw [← h1, ← h2, ← h3] at h4
      exact h4
    · exact indepFun_prod (X := fun x : EuclideanSpace ℝ (Fin (2 * 5)) × EuclideanSpace ℝ (Fin 2) =>
          (x.1.ofLp, fun _ : Fin 1 => x.2.ofLp)) (Y := fun x : EuclideanSpace ℝ (Fin 2) => x.ofLp)
          ((mo.comp measurable_fst).prodMk (measurable_pi_iff.2 fun _ => mo.comp measurable_snd)) mo |>.congr
          (ae_of_all _ fun ω => Prod.ext rfl (funext fun j => by simp [noise])) (ae_of_all _ fun ω => rfl)

/-- Two observations with noise at the start and in the middle of the movement: distribution of the weights and of the trajectory. -/
example : ∃ (Ω : Type) (_ : MeasurableSpace Ω) (P : Measure Ω) (weights : Ω → Vec (2 * 5)) (noise : ℕ → Ω → Vec 2)
    (q : (Fin 2 → Vec 2) → ProMP 2 5) (M : (Fin 2 → Vec 2) → Matrix (Fin 3) (Fin 2) ℝ)
    (C : (Fin 2 → Vec 2) → Matrix (Fin (2 * 3)) (Fin (2 * 3)) ℝ), IsProbabilityMeasure P ∧
      (∀ y, conditionAll (ProMP.init 2 5) (List.ofFn fun i : Fin 2 => ⟨y i, .full 1, (i : ℕ), 2⟩) = .ok (q y)) ∧
      NormallyDistributedGiven P weights (fun ω (i : Fin 2) => prompPosition (weights ω) ((i : ℕ) / 2) + noise i ω)
        (fun y => (q y).weightMean) (fun y => (q y).weightCov) ∧
      (∀ y, ((q y).meanTrajectory.exec (.float ![0, 1, 2])).1 = .ok (M y) ∧
        ((q y).covTrajectory.exec (.float ![0, 1, 2])).1 = .ok (C y)) ∧
      NormallyDistributedGiven P (fun ω => allPositions (Matrix.of fun j l => prompPosition (weights ω) ((![0, 1, 2] : Vec 3) j / 2) l))
        (fun ω (i : Fin 2) => prompPosition (weights ω) ((i : ℕ) / 2) + noise i ω) (fun y => allPositions (M y)) C := by
  obtain ⟨Ω, mΩ, P, weights, noise, q, hP, hq, hw, hn, hind⟩ := observations_exist
  have hT : IsLargest (![0, 1, 2] : Vec 3) 2 := ⟨⟨2, rfl⟩, fun i => by fin_cases i <;> norm_num⟩
  have hc : ∀ i < 2, (fun _ : ℕ => (YCov.full 1 : YCov 2)) i = .none ∨ ∃ R, (fun _ : ℕ => (YCov.full 1 : YCov 2)) i = .full R ∧
      R.PosSemidef := fun i _ => .inr ⟨1, rfl, PosDef.one.posSemidef⟩
  obtain ⟨M, C, h1, h2⟩ := C121_bayes_trajectory (cov := fun _ => .full 1) (t := fun i => i) (tMax := fun _ => 2) .init
    PosDef.one.posSemidef hc hq hw hn hind hT
  exact ⟨Ω, mΩ, P, weights, noise, q, M, C, hP, hq, C121_bayes_sequence (cov := fun _ => .full 1) (t := fun i => i)
    (tMax := fun _ => 2) .init PosDef.one.posSemidef hc hq hw hn hind, h1, h2⟩

/-- The same for the velocities. -/
example : ∃ (Ω : Type) (_ : MeasurableSpace Ω) (P : Measure Ω) (weights : Ω → Vec (2 * 5)) (noise : ℕ → Ω → Vec 2)
    (q : (Fin 2 → Vec 2) → ProMP 2 5) (velocity : Ω → Matrix (Fin 3) (Fin 2) ℝ) (M : (Fin 2 → Vec 2) → Matrix (Fin 3) (Fin 2) ℝ)
    (C : (Fin 2 → Vec 2) → Matrix (Fin (2 * 3)) (Fin (2 * 3)) ℝ), IsProbabilityMeasure P ∧
      (∀ ω j l, HasDerivAt (fun s => prompPosition (weights ω) s l) (velocity ω j l) ((![0, 1, 2] : Vec 3) j / 2)) ∧
      (∀ y, ((q y).meanVelocities.exec (.float ![0, 1, 2])).1 = .ok (M y) ∧
        ((q y).covVelocities.exec (.float ![0, 1, 2])).1 = .ok (C y)) ∧
      NormallyDistributedGiven P (fun ω => allPositions (velocity ω))
        (fun ω (i : Fin 2) => prompPosition (weights ω) ((i : ℕ) / 2) + noise i ω) (fun y => allPositions (M y)) C := by
  obtain ⟨Ω, mΩ, P, weights, noise, q, hP, hq, hw, hn, hind⟩ := observations_exist
  have hT : IsLargest (![0, 1, 2] : Vec 3) 2 := ⟨⟨2, rfl⟩, fun i => by fin_cases i <;> norm_num⟩
  have hv : ∀ ω j l, HasDerivAt (fun s => prompPosition (weights ω) s l)
      ((Matrix.of fun (j : Fin 3) (l : Fin 2) => ∑ a, activationDeriv 5 ((![0, 1, 2] : Vec 3) j / 2) a * weights ω (flat l a)) j l)
      ((![0, 1, 2] : Vec 3) j / 2) := fun ω j l => position_hasDerivAt (by norm_num) _ _ l
  obtain ⟨M, C, h1, h2⟩ := C121_bayes_velocities (cov := fun _ => .full 1) (t := fun i => i) (tMax := fun _ => 2) .init (by norm_num)
    PosDef.one.posSemidef (fun i _ => .inr ⟨1, rfl, PosDef.one.posSemidef⟩) hq hw hn hind hT two_pos hv
  exact ⟨Ω, mΩ, P, weights, noise, q, _, M, C, hP, hv, h1, h2⟩

end Verif
