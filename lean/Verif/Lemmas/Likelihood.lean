import Verif.Props.PrompEMSteps
import Verif.Spec.Likelihood
import Mathlib.LinearAlgebra.Matrix.SchurComplement
import Mathlib.Analysis.SpecialFunctions.Log.Basic
import Mathlib.Analysis.Matrix.Order

/-! # Normal distributions and expectation maximization -/

set_option linter.unusedSectionVars false

namespace Verif
open Matrix Spec

variable {ι κ : Type} [Fintype ι] [DecidableEq ι] [Fintype κ] [DecidableEq κ]

/-! ## Logarithms of determinants -/

theorem PosDef.log_det {A : Matrix ι ι ℝ} (hA : A.PosDef) : Real.log A.det = ∑ i, Real.log (hA.isHermitian.eigenvalues i) := by
  rw [hA.isHermitian.det_eq_prod_eigenvalues, Real.log_prod]
  · rfl
  · intro i _
    exact (hA.eigenvalues_pos i).ne'

theorem PosDef.log_det_le {A : Matrix ι ι ℝ} (hA : A.PosDef) : Real.log A.det ≤ A.trace - Fintype.card ι := by
  have ht : A.trace = ∑ i, hA.isHermitian.eigenvalues i := hA.isHermitian.trace_eq_sum_eigenvalues
  rw [PosDef.log_det hA, ht]
  have : ((Fintype.card ι : ℕ) : ℝ) = ∑ _i : ι, (1 : ℝ) := by simp
  rw [this, ← Finset.sum_sub_distrib]
  exact Finset.sum_le_sum fun i _ => Real.log_le_sub_one_of_pos (hA.eigenvalues_pos i)

theorem PosDef.eq_one_of_log_det {A : Matrix ι ι ℝ} (hA : A.PosDef)
    (h : A.trace - Fintype.card ι ≤ Real.log A.det) : A = 1 := by
  have ht : A.trace = ∑ i, hA.isHermitian.eigenvalues i := hA.isHermitian.trace_eq_sum_eigenvalues
  have hc : ((Fintype.card ι : ℕ) : ℝ) = ∑ _i : ι, (1 : ℝ) := by simp
  rw [PosDef.log_det hA, ht, hc, ← Finset.sum_sub_distrib] at h
  have he : ∀ i, hA.isHermitian.eigenvalues i = 1 := by
    intro i
    by_contra hne
    have : ∑ i, Real.log (hA.isHermitian.eigenvalues i) < ∑ i, (hA.isHermitian.eigenvalues i - 1) :=
      Finset.sum_lt_sum (fun i _ => Real.log_le_sub_one_of_pos (hA.eigenvalues_pos i))
        ⟨i, Finset.mem_univ i, Real.log_lt_sub_one_of_pos (hA.eigenvalues_pos i) hne⟩
    exact absurd h (not_le.2 this)
  have hs := hA.isHermitian.spectral_theorem
  have hd : (diagonal ((RCLike.ofReal : ℝ → ℝ) ∘ hA.isHermitian.eigenvalues) : Matrix ι ι ℝ) = 1 := by
    rw [← diagonal_one]
    congr 1
    funext i
    simp [he i]
  rw [hd, map_one] at hs
  exact hs

open scoped MatrixOrder in
theorem exists_transpose_mul_self {A : Matrix ι ι ℝ} (hA : A.PosSemidef) : ∃ B : Matrix ι ι ℝ, A = Bᵀ * B := by
  obtain ⟨B, hB⟩ := CStarAlgebra.nonneg_iff_eq_star_mul_self.mp hA.nonneg
  exact ⟨B, by rw [hB, star_eq_conjTranspose, conjTranspose_eq_transpose_of_trivial]⟩

/-- Relative form: for positive definite `C` and `C'`, with equality only for `C' = C`. -/
theorem PosDef.log_det_rel {C C' : Matrix ι ι ℝ} (hC : C.PosDef) (hC' : C'.PosDef) :
    Real.log C'.det - Real.log C.det ≤ (C⁻¹ * C').trace - Fintype.card ι ∧
      ((C⁻¹ * C').trace - Fintype.card ι ≤ Real.log C'.det - Real.log C.det → C' = C) := by
  obtain ⟨B, hB⟩ := exists_transpose_mul_self hC.inv.posSemidef
  have hCd : 0 < C.det := hC.det_pos
  have hBd : B.det * B.det = C.det⁻¹ := by
    have := congrArg Matrix.det hB
    rw [det_nonsing_inv, det_mul, det_transpose] at this
    rw [← this, Ring.inverse_eq_inv']
  have hBu : IsUnit B.det := by
    rw [isUnit_iff_ne_zero]
    intro h0
    rw [h0, zero_mul] at hBd
    exact (inv_ne_zero hCd.ne') hBd.symm
  have hX : (B * C' * Bᵀ).PosDef := by
    have := hC'.mul_mul_conjTranspose_same (B := B) (by
      rw [vecMul_injective_iff_isUnit]
      exact (isUnit_iff_isUnit_det _).2 hBu)
    rwa [conjTranspose_eq_transpose_of_trivial] at this
  have htr : (B * C' * Bᵀ).trace = (C⁻¹ * C').trace := by
    rw [hB, Matrix.trace_mul_comm, Matrix.mul_assoc]
  have hdet : Real.log (B * C' * Bᵀ).det = Real.log C'.det - Real.log C.det := by
    rw [det_mul, det_mul, det_transpose, show B.det * C'.det * B.det = C'.det * C.det⁻¹ by rw [← hBd]; ring,
      Real.log_mul hC'.det_pos.ne' (inv_ne_zero hCd.ne'), Real.log_inv]
    ring
  rw [← htr, ← hdet]
  refine ⟨PosDef.log_det_le hX, fun h => ?_⟩
  have h1 := PosDef.eq_one_of_log_det hX h
  -- `B C' Bᵀ = 1`
  have h2 : C' = B⁻¹ * (Bᵀ)⁻¹ := by
    have : B⁻¹ * (B * C' * Bᵀ) * (Bᵀ)⁻¹ = C' := by
      rw [Matrix.mul_assoc B, nonsing_inv_mul_cancel_left _ _ hBu, mul_nonsing_inv_cancel_right]
      rwa [det_transpose]
    rw [← this, h1, Matrix.mul_one]
  rw [h2, ← Matrix.mul_inv_rev, ← hB, nonsing_inv_nonsing_inv]
  exact isUnit_iff_ne_zero.2 hCd.ne'

/-! ## Linear regression with normally distributed weights -/

/-- Squared deviations and prior. -/
noncomputable def regObj (L : Matrix ι κ ℝ) (R : κ → ℝ) (μ : ι → ℝ) (C : Matrix ι ι ℝ) (v : ℝ) (m : ι → ℝ) : ℝ :=
  (R - Lᵀ *ᵥ m) ⬝ᵥ (R - Lᵀ *ᵥ m) / v + (m - μ) ⬝ᵥ (C⁻¹ *ᵥ (m - μ))

theorem posDef_transpose {C : Matrix ι ι ℝ} (h : C.PosDef) : Cᵀ = C := by
  have := h.isHermitian
  rwa [IsHermitian, conjTranspose_eq_transpose_of_trivial] at this

theorem posDef_isUnit {C : Matrix ι ι ℝ} (h : C.PosDef) : IsUnit C.det := isUnit_iff_ne_zero.2 h.det_pos.ne'

theorem regression_posDef (L : Matrix ι κ ℝ) {C : Matrix ι ι ℝ} (hC : C.PosDef) {v : ℝ} (hv : 0 < v) :
    ((1 / v) • (L * Lᵀ) + C⁻¹).PosDef := by
  refine PosDef.posSemidef_add (PosSemidef.smul ?_ (one_div_pos.2 hv).le) hC.inv
  have := posSemidef_self_mul_conjTranspose L
  rwa [conjTranspose_eq_transpose_of_trivial] at this

theorem regression_det (L : Matrix ι κ ℝ) {C : Matrix ι ι ℝ} (hC : C.PosDef) {v : ℝ} (hv : 0 < v) :
    Real.log (Lᵀ * C * L + v • 1).det =
      Fintype.card κ * Real.log v + Real.log C.det + Real.log ((1 / v) • (L * Lᵀ) + C⁻¹).det := by
  have hQ := regression_posDef L hC hv
  have e1 : Lᵀ * C * L + v • (1 : Matrix κ κ ℝ) = v • (1 + ((1 / v) • Lᵀ) * (C * L)) := by
    rw [smul_add, smul_mul, smul_smul, mul_one_div_cancel hv.ne', one_smul, add_comm, Matrix.mul_assoc]
  have e2 : 1 + C * L * ((1 / v) • Lᵀ) = C * ((1 / v) • (L * Lᵀ) + C⁻¹) := by
    rw [Matrix.mul_add, mul_nonsing_inv _ (posDef_isUnit hC), add_comm, Matrix.mul_smul, Matrix.mul_smul, Matrix.mul_assoc]
  rw [e1, det_smul, det_one_add_mul_comm, e2, det_mul, Real.log_mul (pow_pos hv _).ne'
    (mul_pos hC.det_pos hQ.det_pos).ne', Real.log_mul hC.det_pos.ne' hQ.det_pos.ne', Real.log_pow]
  ring

/-- The quadratic form of the marginal distribution is the smallest value of the objective. -/
theorem regression_form (L : Matrix ι κ ℝ) (R : κ → ℝ) (μ : ι → ℝ) {C : Matrix ι ι ℝ} (hC : C.PosDef) {v : ℝ} (hv : 0 < v)
    {m : ι → ℝ} (hm : (1 / v) • (L *ᵥ (R - Lᵀ *ᵥ m)) = C⁻¹ *ᵥ (m - μ)) :
    (R - Lᵀ *ᵥ μ) ⬝ᵥ ((Lᵀ * C * L + v • 1)⁻¹ *ᵥ (R - Lᵀ *ᵥ μ)) = regObj L R μ C v m := by
  set S := Lᵀ * C * L + v • (1 : Matrix κ κ ℝ) with hS
  have hSd : S.PosDef := by
    rw [hS]
    refine PosDef.posSemidef_add ?_ (PosDef.one.smul hv)
    have := hC.posSemidef.conjTranspose_mul_mul_same L
    rwa [conjTranspose_eq_transpose_of_trivial] at this
  set u := R - Lᵀ *ᵥ m with hu
  have hr : R - Lᵀ *ᵥ μ = u + Lᵀ *ᵥ (m - μ) := by
    rw [hu, mulVec_sub]
    abel
  have h1 : S *ᵥ ((1 / v) • u) = R - Lᵀ *ᵥ μ := by
    rw [hS, add_mulVec, smul_mulVec, one_mulVec, smul_smul, mul_one_div_cancel hv.ne', one_smul, ← mulVec_mulVec,
      ← mulVec_mulVec, mulVec_smul, hm, mulVec_mulVec _ C, mul_nonsing_inv _ (posDef_isUnit hC), one_mulVec, hr, add_comm]
  have h2 : S⁻¹ *ᵥ (R - Lᵀ *ᵥ μ) = (1 / v) • u := by
    rw [← h1, mulVec_mulVec, nonsing_inv_mul _ (posDef_isUnit hSd), one_mulVec]
  rw [h2, hr, add_dotProduct, dotProduct_smul, dotProduct_smul]
  have h3 : (Lᵀ *ᵥ (m - μ)) ⬝ᵥ u = (m - μ) ⬝ᵥ (L *ᵥ u) := by
    rw [dotProduct_mulVec (m - μ), ← mulVec_transpose]
  rw [h3, ← dotProduct_smul (1 / v) (m - μ), hm]
  unfold regObj
  rw [smul_eq_mul]
  ring

theorem posDef_symm {A : Matrix ι ι ℝ} (hA : A.PosDef) (u v : ι → ℝ) : u ⬝ᵥ (A *ᵥ v) = v ⬝ᵥ (A *ᵥ u) := by
  rw [dotProduct_mulVec, ← mulVec_transpose, posDef_transpose hA, dotProduct_comm]

/-- Expansion of the objective. -/
theorem regObj_add (L : Matrix ι κ ℝ) (R : κ → ℝ) (μ : ι → ℝ) {C : Matrix ι ι ℝ} (hC : C.PosDef) (v : ℝ)
    (m z : ι → ℝ) :
    regObj L R μ C v (m + z) = regObj L R μ C v m
      - 2 * (z ⬝ᵥ ((1 / v) • (L *ᵥ (R - Lᵀ *ᵥ m)) - C⁻¹ *ᵥ (m - μ)))
      + z ⬝ᵥ (((1 / v) • (L * Lᵀ) + C⁻¹) *ᵥ z) := by
  have a1 : z ⬝ᵥ (L *ᵥ (R - Lᵀ *ᵥ m)) = (Lᵀ *ᵥ z) ⬝ᵥ (R - Lᵀ *ᵥ m) := by
    rw [dotProduct_mulVec, ← mulVec_transpose]
  have a2 : z ⬝ᵥ ((L * Lᵀ) *ᵥ z) = (Lᵀ *ᵥ z) ⬝ᵥ (Lᵀ *ᵥ z) := by
    rw [← mulVec_mulVec, dotProduct_mulVec, ← mulVec_transpose]
  unfold regObj
  rw [add_mulVec, dotProduct_add, smul_mulVec, dotProduct_smul, a2, dotProduct_sub z, dotProduct_smul, a1,
    mulVec_add, show R - (Lᵀ *ᵥ m + Lᵀ *ᵥ z) = (R - Lᵀ *ᵥ m) - Lᵀ *ᵥ z by abel,
    show m + z - μ = (m - μ) + z by abel, mulVec_add, sub_dotProduct, dotProduct_sub _ (R - Lᵀ *ᵥ m),
    dotProduct_sub _ (R - Lᵀ *ᵥ m), add_dotProduct, dotProduct_add, dotProduct_add, posDef_symm hC.inv (m - μ) z,
    dotProduct_comm (R - Lᵀ *ᵥ m) (Lᵀ *ᵥ z), smul_eq_mul, smul_eq_mul]
  ring

theorem exists_regression_mean (L : Matrix ι κ ℝ) (R : κ → ℝ) (μ : ι → ℝ) {C : Matrix ι ι ℝ} (hC : C.PosDef) {v : ℝ}
    (hv : 0 < v) : ∃ m, (1 / v) • (L *ᵥ (R - Lᵀ *ᵥ m)) = C⁻¹ *ᵥ (m - μ) := by
  have hQ := regression_posDef L hC hv
  refine ⟨((1 / v) • (L * Lᵀ) + C⁻¹)⁻¹ *ᵥ ((1 / v) • (L *ᵥ R) + C⁻¹ *ᵥ μ), ?_⟩
  set m := ((1 / v) • (L * Lᵀ) + C⁻¹)⁻¹ *ᵥ ((1 / v) • (L *ᵥ R) + C⁻¹ *ᵥ μ) with hm
  have h : ((1 / v) • (L * Lᵀ) + C⁻¹) *ᵥ m = (1 / v) • (L *ᵥ R) + C⁻¹ *ᵥ μ := by
    rw [hm, mulVec_mulVec, mul_nonsing_inv _ (posDef_isUnit hQ), one_mulVec]
  rw [add_mulVec, smul_mulVec] at h
  rw [mulVec_sub, mulVec_sub, mulVec_mulVec, smul_sub, sub_eq_sub_iff_add_eq_add, ← h, add_comm]

/-- Twice the negative logarithm of the marginal density. -/
noncomputable def regLik (L : Matrix ι κ ℝ) (R : κ → ℝ) (μ : ι → ℝ) (C : Matrix ι ι ℝ) (v : ℝ) : ℝ :=
  Real.log (Lᵀ * C * L + v • 1).det + (R - Lᵀ *ᵥ μ) ⬝ᵥ ((Lᵀ * C * L + v • 1)⁻¹ *ᵥ (R - Lᵀ *ᵥ μ))

/-- Upper bound that expectation maximization minimises; `m` and `P` are the mean and covariance of the weights of the
demonstration. -/
noncomputable def regBound (L : Matrix ι κ ℝ) (R : κ → ℝ) (m : ι → ℝ) (P : Matrix ι ι ℝ) (μ : ι → ℝ) (C : Matrix ι ι ℝ)
    (v : ℝ) : ℝ :=
  (Fintype.card κ * Real.log v + ((R - Lᵀ *ᵥ m) ⬝ᵥ (R - Lᵀ *ᵥ m) + (L * Lᵀ * P).trace) / v)
    + (Real.log C.det + (m - μ) ⬝ᵥ (C⁻¹ *ᵥ (m - μ)) + (C⁻¹ * P).trace) - (Real.log P.det + Fintype.card ι)

theorem trace_regression (L : Matrix ι κ ℝ) (P C : Matrix ι ι ℝ) (v : ℝ) :
    (((1 / v) • (L * Lᵀ) + C⁻¹) * P).trace = (L * Lᵀ * P).trace / v + (C⁻¹ * P).trace := by
  rw [Matrix.add_mul, trace_add, smul_mul, trace_smul, smul_eq_mul]
  ring

theorem regLik_le (L : Matrix ι κ ℝ) (R : κ → ℝ) (m : ι → ℝ) {P : Matrix ι ι ℝ} (hP : P.PosDef) (μ : ι → ℝ)
    {C : Matrix ι ι ℝ} (hC : C.PosDef) {v : ℝ} (hv : 0 < v) : regLik L R μ C v ≤ regBound L R m P μ C v := by
  have hQ := regression_posDef L hC hv
  obtain ⟨m', hm'⟩ := exists_regression_mean L R μ hC hv
  have h1 := regression_form L R μ hC hv hm'
  have h2 := regObj_add L R μ hC v m' (m - m')
  rw [hm', sub_self, dotProduct_zero, mul_zero, sub_zero, add_sub_cancel] at h2
  have h3 := hQ.posSemidef.dotProduct_mulVec_nonneg (m - m')
  rw [star_trivial] at h3
  have h4 := (PosDef.log_det_rel hP.inv hQ).1
  rw [nonsing_inv_nonsing_inv _ (posDef_isUnit hP), Matrix.trace_mul_comm, trace_regression, det_nonsing_inv,
    Ring.inverse_eq_inv', Real.log_inv] at h4
  unfold regLik regBound
  rw [h1, regression_det L hC hv]
  have h5 : regObj L R μ C v m = (R - Lᵀ *ᵥ m) ⬝ᵥ (R - Lᵀ *ᵥ m) / v + (m - μ) ⬝ᵥ (C⁻¹ *ᵥ (m - μ)) := rfl
  rw [add_div]
  linarith

theorem regLik_eq (L : Matrix ι κ ℝ) (R : κ → ℝ) {m : ι → ℝ} {P : Matrix ι ι ℝ} (hP : P.PosDef) (μ : ι → ℝ)
    {C : Matrix ι ι ℝ} (hC : C.PosDef) {v : ℝ} (hv : 0 < v) (hm : (1 / v) • (L *ᵥ (R - Lᵀ *ᵥ m)) = C⁻¹ *ᵥ (m - μ))
    (hPQ : P⁻¹ = (1 / v) • (L * Lᵀ) + C⁻¹) : regLik L R μ C v = regBound L R m P μ C v := by
  have h1 := regression_form L R μ hC hv hm
  have h4 := trace_regression L P C v
  rw [← hPQ, nonsing_inv_mul _ (posDef_isUnit hP), trace_one] at h4
  unfold regLik regBound
  rw [h1, regression_det L hC hv, ← hPQ, det_nonsing_inv, Ring.inverse_eq_inv', Real.log_inv]
  have h5 : regObj L R μ C v m = (R - Lᵀ *ᵥ m) ⬝ᵥ (R - Lᵀ *ᵥ m) / v + (m - μ) ⬝ᵥ (C⁻¹ *ᵥ (m - μ)) := rfl
  rw [add_div]
  linarith

/-- A Gaussian whose density is proportional to the posterior density is the posterior. -/
theorem regression_posterior (L : Matrix ι κ ℝ) (R : κ → ℝ) {m : ι → ℝ} {P : Matrix ι ι ℝ} (hP : P.PosDef) (μ : ι → ℝ)
    {C : Matrix ι ι ℝ} (hC : C.PosDef) {v : ℝ} (hv : 0 < v)
    (h : ∀ z, regObj L R μ C v (m + z) = regObj L R μ C v m + z ⬝ᵥ (P⁻¹ *ᵥ z)) :
    (1 / v) • (L *ᵥ (R - Lᵀ *ᵥ m)) = C⁻¹ *ᵥ (m - μ) ∧ P⁻¹ = (1 / v) • (L * Lᵀ) + C⁻¹ := by
  set g := (1 / v) • (L *ᵥ (R - Lᵀ *ᵥ m)) - C⁻¹ *ᵥ (m - μ) with hg
  set Q := (1 / v) • (L * Lᵀ) + C⁻¹ with hQd
  have hQ : Q.PosDef := regression_posDef L hC hv
  have key : ∀ z, -2 * (z ⬝ᵥ g) + z ⬝ᵥ (Q *ᵥ z) = z ⬝ᵥ (P⁻¹ *ᵥ z) := by
    intro z
    have := h z
    rw [regObj_add L R μ hC v m z] at this
    linarith
  have hlin : ∀ z, z ⬝ᵥ g = 0 := by
    intro z
    have h1 := key z
    have h2 := key (-z)
    rw [neg_dotProduct, mulVec_neg, neg_dotProduct_neg, mulVec_neg, neg_dotProduct_neg] at h2
    linarith
  have hquad : ∀ z, z ⬝ᵥ (Q *ᵥ z) = z ⬝ᵥ (P⁻¹ *ᵥ z) := by
    intro z
    have h1 := key z
    rw [hlin] at h1
    linarith
  refine ⟨sub_eq_zero.1 (dotProduct_self_eq_zero.1 (hlin g)), ?_⟩
  have hbil : ∀ x y, x ⬝ᵥ (Q *ᵥ y) = x ⬝ᵥ (P⁻¹ *ᵥ y) := by
    intro x y
    have h1 := hquad (x + y)
    rw [mulVec_add, mulVec_add, add_dotProduct, add_dotProduct, dotProduct_add, dotProduct_add, dotProduct_add,
      dotProduct_add, posDef_symm hQ y x, posDef_symm hP.inv y x, hquad x, hquad y] at h1
    linarith
  ext i j
  have := hbil (Pi.single i 1) (Pi.single j 1)
  rw [mulVec_single_one, mulVec_single_one, single_one_dotProduct, single_one_dotProduct] at this
  exact this.symm

/-! ## Averages -/

theorem quad_average {A : Matrix ι ι ℝ} (hA : A.PosDef) (μ' μ : ι → ℝ) {γ : Type} (f : γ → ι → ℝ) : ∀ l : List γ,
    (l.map fun q => (f q - μ) ⬝ᵥ (A *ᵥ (f q - μ))).sum = (l.map fun q => (f q - μ') ⬝ᵥ (A *ᵥ (f q - μ'))).sum
      + 2 * (((l.map f).sum - (l.length : ℝ) • μ') ⬝ᵥ (A *ᵥ (μ' - μ)))
      + l.length * ((μ' - μ) ⬝ᵥ (A *ᵥ (μ' - μ)))
  | [] => by simp
  | x :: l => by
    have ih := quad_average hA μ' μ f l
    have e : f x - μ = (f x - μ') + (μ' - μ) := by abel
    have h : (f x - μ) ⬝ᵥ (A *ᵥ (f x - μ)) = (f x - μ') ⬝ᵥ (A *ᵥ (f x - μ'))
        + 2 * ((f x - μ') ⬝ᵥ (A *ᵥ (μ' - μ))) + (μ' - μ) ⬝ᵥ (A *ᵥ (μ' - μ)) := by
      rw [e, mulVec_add, add_dotProduct, dotProduct_add, dotProduct_add, posDef_symm hA (μ' - μ) (f x - μ')]
      ring
    have e2 : ((x :: l).map f).sum - ((x :: l).length : ℝ) • μ' = (f x - μ') + ((l.map f).sum - (l.length : ℝ) • μ') := by
      simp only [List.map_cons, List.sum_cons, List.length_cons, Nat.cast_add, Nat.cast_one, add_smul, one_smul]
      abel
    rw [e2, add_dotProduct]
    simp only [List.map_cons, List.sum_cons, List.length_cons, Nat.cast_add, Nat.cast_one]
    rw [ih, h]
    ring

theorem trace_mul_list_sum (A : Matrix ι ι ℝ) {γ : Type} (f : γ → Matrix ι ι ℝ) : ∀ l : List γ,
    (A * (l.map f).sum).trace = (l.map fun q => (A * f q).trace).sum
  | [] => by simp
  | x :: l => by
    simp only [List.map_cons, List.sum_cons, Matrix.mul_add, trace_add, trace_mul_list_sum A f l]

theorem trace_mul_vecMulVec (A : Matrix ι ι ℝ) (x : ι → ℝ) : (A * vecMulVec x x).trace = x ⬝ᵥ (A *ᵥ x) := by
  rw [mul_vecMulVec, trace_vecMulVec, dotProduct_comm]

/-- The averages minimise the second term of the bound, and are the only minimum. -/
theorem average_minimises {γ : Type} (m : γ → ι → ℝ) (P : γ → Matrix ι ι ℝ) (l : List γ) (hl : l ≠ []) {μ μ' : ι → ℝ}
    {C C' : Matrix ι ι ℝ} (hC : C.PosDef) (hC' : C'.PosDef) (hμ' : μ' = (1 / (l.length : ℝ)) • (l.map m).sum)
    (hc : C' = (1 / (l.length : ℝ)) • ((l.map fun q => vecMulVec (m q - μ') (m q - μ')).sum + (l.map P).sum)) :
    (l.map fun q => Real.log C'.det + (m q - μ') ⬝ᵥ (C'⁻¹ *ᵥ (m q - μ')) + (C'⁻¹ * P q).trace).sum ≤
      (l.map fun q => Real.log C.det + (m q - μ) ⬝ᵥ (C⁻¹ *ᵥ (m q - μ)) + (C⁻¹ * P q).trace).sum ∧
    ((l.map fun q => Real.log C.det + (m q - μ) ⬝ᵥ (C⁻¹ *ᵥ (m q - μ)) + (C⁻¹ * P q).trace).sum ≤
      (l.map fun q => Real.log C'.det + (m q - μ') ⬝ᵥ (C'⁻¹ *ᵥ (m q - μ')) + (C'⁻¹ * P q).trace).sum →
      μ' = μ ∧ C' = C) := by
  have hM : (0 : ℝ) < l.length := by exact_mod_cast List.length_pos_iff.2 hl
  have hsum : (l.map m).sum - (l.length : ℝ) • μ' = 0 := by
    rw [hμ', smul_smul, mul_one_div_cancel hM.ne', one_smul, sub_self]
  have hsumC : (l.length : ℝ) • C' = (l.map fun q => vecMulVec (m q - μ') (m q - μ')).sum + (l.map P).sum := by
    conv_lhs => rw [hc]
    rw [smul_smul, mul_one_div_cancel hM.ne', one_smul]
  have key : ∀ {B : Matrix ι ι ℝ} (_ : B.PosDef) (ν : ι → ℝ),
      (l.map fun q => Real.log B.det + (m q - ν) ⬝ᵥ (B⁻¹ *ᵥ (m q - ν)) + (B⁻¹ * P q).trace).sum =
        l.length * (Real.log B.det + (B⁻¹ * C').trace + (μ' - ν) ⬝ᵥ (B⁻¹ *ᵥ (μ' - ν))) := by
    intro B hB ν
    have h1 := quad_average hB.inv μ' ν m l
    rw [hsum, zero_dotProduct, mul_zero, add_zero] at h1
    have h2 : (l.length : ℝ) * (B⁻¹ * C').trace =
        (l.map fun q => (m q - μ') ⬝ᵥ (B⁻¹ *ᵥ (m q - μ'))).sum + (l.map fun q => (B⁻¹ * P q).trace).sum := by
      rw [← smul_eq_mul, ← trace_smul, ← Matrix.mul_smul, hsumC, Matrix.mul_add, trace_add, trace_mul_list_sum,
        trace_mul_list_sum]
      simp only [trace_mul_vecMulVec]
    rw [List.sum_map_add, List.sum_map_add, h1, mul_add, mul_add, h2]
    simp only [List.map_const', List.sum_replicate, nsmul_eq_mul]
    ring
  rw [key hC' μ', key hC μ, nonsing_inv_mul _ (posDef_isUnit hC'), trace_one, sub_self, zero_dotProduct, add_zero]
  have h3 := PosDef.log_det_rel hC hC'
  have h4 := hC.inv.posSemidef.dotProduct_mulVec_nonneg (μ' - μ)
  rw [star_trivial] at h4
  refine ⟨mul_le_mul_of_nonneg_left (by linarith) hM.le, fun h => ?_⟩
  have h5 := le_of_mul_le_mul_left h hM
  have h6 : (μ' - μ) ⬝ᵥ (C⁻¹ *ᵥ (μ' - μ)) = 0 := by linarith [h3.1]
  refine ⟨?_, h3.2 (by linarith)⟩
  by_contra hne
  have h7 := hC.inv.dotProduct_mulVec_pos (x := μ' - μ) (sub_ne_zero.2 hne)
  rw [star_trivial] at h7
  linarith

/-- The average squared deviation minimises the first term of the bound. -/
theorem variance_minimises {N : ℕ} (hN : 0 < N) {E v : ℝ} (hv : 0 < v) (hE : 0 < E) :
    N * Real.log (E / N) + E / (E / N) ≤ N * Real.log v + E / v := by
  have hN' : (0 : ℝ) < N := by exact_mod_cast hN
  have h := Real.log_le_sub_one_of_pos (x := E / N / v) (by positivity)
  rw [Real.log_div (by positivity) hv.ne'] at h
  have h2 : E / (E / N) = N := by field_simp
  rw [h2]
  have h3 : E / v = N * (E / N / v) := by field_simp
  rw [h3]
  nlinarith [mul_le_mul_of_nonneg_left h hN'.le]

/-! ## Demonstrations -/

variable {d w : ℕ}

/-- Features of a demonstration as a matrix. -/
noncomputable def featureMatrix (d w : ℕ) (e : Demo d) : Matrix (Fin (d * w)) (Fin d × Fin e.n) ℝ := fun a x => feature e a x

/-- Filtered positions of a demonstration. -/
noncomputable def filteredDemo (e : Demo d) : Fin d × Fin e.n → ℝ := fun x => filtered (fun i => e.y i x.1) x.2

theorem filtered_sub {n : ℕ} (a b : Fin n → ℝ) (i : Fin n) :
    filtered (fun i => a i - b i) i = filtered a i - filtered b i := by
  unfold filtered
  split_ifs <;> ring

theorem filtered_smul {n : ℕ} (c : ℝ) (b : Fin n → ℝ) (i : Fin n) :
    filtered (fun i => c * b i) i = c * filtered b i := by
  unfold filtered
  split_ifs <;> ring

theorem filtered_sum {n : ℕ} {α : Type} (t : Finset α) (f : α → Fin n → ℝ) (i : Fin n) :
    filtered (fun i => ∑ a ∈ t, f a i) i = ∑ a ∈ t, filtered (f a) i := by
  unfold filtered
  split_ifs
  · rw [Finset.sum_sub_distrib, Finset.mul_sum]
  · rw [mul_zero, sub_zero]
    simp

theorem prompPosition_sum (W : Fin (d * w) → ℝ) (s : ℝ) (k : Fin d) :
    prompPosition W s k = ∑ a, W a * prompPosition (w := w) (Pi.single a 1) s k := by
  unfold prompPosition
  simp_rw [Finset.mul_sum]
  rw [Finset.sum_comm]
  apply Finset.sum_congr rfl
  intro b _
  rw [Finset.sum_eq_single (flat k b)]
  · rw [Pi.single_eq_same]
    ring
  · intro a _ ha
    rw [Pi.single_eq_of_ne (Ne.symm ha)]
    ring
  · simp

theorem deviation_eq (e : Demo d) (W : Fin (d * w) → ℝ) :
    deviation e W = filteredDemo e - (featureMatrix d w e)ᵀ *ᵥ W := by
  funext x
  obtain ⟨k, i⟩ := x
  unfold deviation filteredDemo
  rw [filtered_sub]
  simp only [Pi.sub_apply]
  congr 1
  show filtered (fun i => prompPosition W (e.s i) k) i = ∑ a, featureMatrix d w e a (k, i) * W a
  simp_rw [prompPosition_sum W]
  rw [filtered_sum]
  apply Finset.sum_congr rfl
  intro a _
  rw [filtered_smul, mul_comm]
  rfl

theorem misfit_dot (e : Demo d) (W : Fin (d * w) → ℝ) :
    Spec.misfit e W = (filteredDemo e - (featureMatrix d w e)ᵀ *ᵥ W) ⬝ᵥ (filteredDemo e - (featureMatrix d w e)ᵀ *ᵥ W) := by
  rw [← deviation_eq]
  unfold Spec.misfit dotProduct
  rw [Fintype.sum_prod_type]
  simp only [pow_two]
  rfl

theorem spread_trace (e : Demo d) (C : Matrix (Fin (d * w)) (Fin (d * w)) ℝ) :
    spread e C = (featureMatrix d w e * (featureMatrix d w e)ᵀ * C).trace := by
  rw [Matrix.trace_mul_comm]
  unfold spread trace
  apply Finset.sum_congr rfl
  intro x _
  rw [diag_apply, Matrix.mul_apply]
  apply Finset.sum_congr rfl
  intro y _
  congr 1
  rw [Matrix.mul_apply, Fintype.sum_prod_type]
  apply Finset.sum_congr rfl
  intro k _
  apply Finset.sum_congr rfl
  intro i _
  rw [mul_comm]
  rfl

theorem outputCov_eq (e : Demo d) (C : Matrix (Fin (d * w)) (Fin (d * w)) ℝ) (v : ℝ) :
    outputCov e C v = (featureMatrix d w e)ᵀ * C * featureMatrix d w e + v • 1 := by
  ext x y
  unfold outputCov
  rw [Matrix.add_apply, Matrix.smul_apply, one_apply, smul_eq_mul, mul_ite, mul_one, mul_zero, Matrix.mul_apply]
  congr 1
  rw [Finset.sum_comm]
  apply Finset.sum_congr rfl
  intro b _
  rw [Matrix.mul_apply, Finset.sum_mul]
  rfl

theorem logLikelihood_eq (demos : List (Demo d)) (μ : Fin (d * w) → ℝ) (C : Matrix (Fin (d * w)) (Fin (d * w)) ℝ)
    (v : ℝ) : logLikelihood demos μ C v =
      -((demos.map fun e => (Fintype.card (Fin d × Fin e.n) : ℝ) * Real.log (2 * Real.pi)).sum
        + (demos.map fun e => regLik (featureMatrix d w e) (filteredDemo e) μ C v).sum) / 2 := by
  unfold logLikelihood
  rw [← List.sum_map_add]
  induction demos with
  | nil => simp
  | cons e es ih =>
    simp only [List.map_cons, List.sum_cons, ih]
    have : logDensity (outputCov e C v) (deviation e μ) =
      -((Fintype.card (Fin d × Fin e.n) : ℝ) * Real.log (2 * Real.pi)
        + regLik (featureMatrix d w e) (filteredDemo e) μ C v) / 2 := by
      unfold logDensity regLik
      rw [outputCov_eq, deviation_eq]
      ring
    rw [this]
    ring

theorem objective_eq (p : EMState (d * w)) (e : Demo d) (W : Fin (d * w) → ℝ) :
    objective p e W = regObj (featureMatrix d w e) (filteredDemo e) p.mean p.cov p.variance W := by
  unfold objective regObj
  rw [misfit_dot]

/-- Bound for all demonstrations. -/
noncomputable def totalBound (l : List (Demo d × EMPosterior (d * w))) (μ : Fin (d * w) → ℝ)
    (C : Matrix (Fin (d * w)) (Fin (d * w)) ℝ) (v : ℝ) : ℝ :=
  (((l.map fun x => x.1.n).sum * d : ℕ) * Real.log v + (l.map fun x => misfit x.1 x.2.mean + spread x.1 x.2.cov).sum / v)
    + (l.map fun x => Real.log C.det + (x.2.mean - μ) ⬝ᵥ (C⁻¹ *ᵥ (x.2.mean - μ)) + (C⁻¹ * x.2.cov).trace).sum
    - (l.map fun x => Real.log x.2.cov.det + Fintype.card (Fin (d * w))).sum

theorem totalBound_eq (l : List (Demo d × EMPosterior (d * w))) (μ : Fin (d * w) → ℝ)
    (C : Matrix (Fin (d * w)) (Fin (d * w)) ℝ) (v : ℝ) : totalBound l μ C v =
      (l.map fun x => regBound (featureMatrix d w x.1) (filteredDemo x.1) x.2.mean x.2.cov μ C v).sum := by
  unfold totalBound
  induction l with
  | nil => simp
  | cons x l ih =>
    simp only [List.map_cons, List.sum_cons]
    rw [← ih]
    unfold regBound
    rw [misfit_dot, spread_trace, Fintype.card_prod, Fintype.card_fin d, Fintype.card_fin x.1.n]
    push_cast
    ring

end Verif
