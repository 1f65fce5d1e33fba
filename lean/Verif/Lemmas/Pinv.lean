import Verif.Model.Imitate
import Mathlib.Analysis.Matrix.Spectrum
import Mathlib.Analysis.Matrix.PosDef

/-! # Moore-Penrose inverse of symmetric matrices and ridge regression -/

namespace Verif
open Matrix

variable {m n d : ℕ}

/-- Every symmetric real matrix has a Moore-Penrose inverse. -/
theorem exists_isPinv {A : Matrix (Fin n) (Fin n) ℝ} (hA : Aᵀ = A) : ∃ B, IsPinv A B := by
  have hH : A.IsHermitian := by
    unfold Matrix.IsHermitian
    rw [conjTranspose_eq_transpose_of_trivial]; exact hA
  have hs := hH.spectral_theorem
  rw [Unitary.conjStarAlgAut_apply] at hs
  set U : Matrix (Fin n) (Fin n) ℝ := (hH.eigenvectorUnitary : Matrix (Fin n) (Fin n) ℝ) with hU
  set D : Fin n → ℝ := (RCLike.ofReal ∘ hH.eigenvalues : Fin n → ℝ) with hD
  have hUU : star U * U = 1 := Unitary.coe_star_mul_self hH.eigenvectorUnitary
  have hT : star U = Uᵀ := by
    rw [Matrix.star_eq_conjTranspose, conjTranspose_eq_transpose_of_trivial]
  rw [hT] at hUU
  have hs' : A = U * diagonal D * Uᵀ := by
    rw [← hT]; exact hs
  have key : ∀ E F : Fin n → ℝ, (U * diagonal E * Uᵀ) * (U * diagonal F * Uᵀ) = U * diagonal (E * F) * Uᵀ := by
    intro E F
    calc (U * diagonal E * Uᵀ) * (U * diagonal F * Uᵀ) = U * diagonal E * (Uᵀ * U) * diagonal F * Uᵀ := by
          simp only [Matrix.mul_assoc]
      _ = U * (diagonal E * diagonal F) * Uᵀ := by rw [hUU, Matrix.mul_one, Matrix.mul_assoc U]
      _ = _ := by rw [diagonal_mul_diagonal]; rfl
  have hsym : ∀ E : Fin n → ℝ, (U * diagonal E * Uᵀ)ᵀ = U * diagonal E * Uᵀ := by
    intro E
    simp [transpose_mul, Matrix.mul_assoc]
  refine ⟨U * diagonal D⁻¹ * Uᵀ, ?_, ?_, ?_, ?_⟩
  · rw [hs', key, key]
    congr 3
    funext i
    simp [mul_inv_mul_cancel]
  · rw [hs', key, key]
    congr 3
    funext i
    by_cases h : D i = 0 <;> simp [h]
  · rw [hs', key, hsym]
  · rw [hs', key, hsym]

/-- The Moore-Penrose inverse is unique. -/
theorem IsPinv.unique {A B C : Matrix (Fin n) (Fin n) ℝ} (hB : IsPinv A B) (hC : IsPinv A C) : B = C := by
  have h1 : A * B = A * C := by
    calc A * B = (A * C * A) * B := by rw [hC.aba]
      _ = (A * C) * (A * B) := by rw [Matrix.mul_assoc]
      _ = (A * C)ᵀ * (A * B)ᵀ := by rw [hC.symm_ab, hB.symm_ab]
      _ = ((A * B) * (A * C))ᵀ := (transpose_mul _ _).symm
      _ = ((A * B * A) * C)ᵀ := by rw [Matrix.mul_assoc (A * B)]
      _ = A * C := by rw [hB.aba, hC.symm_ab]
  have h2 : B * A = C * A := by
    calc B * A = B * (A * C * A) := by rw [hC.aba]
      _ = (B * A) * (C * A) := by simp only [Matrix.mul_assoc]
      _ = (B * A)ᵀ * (C * A)ᵀ := by rw [hC.symm_ba, hB.symm_ba]
      _ = ((C * A) * (B * A))ᵀ := (transpose_mul _ _).symm
      _ = (C * (A * B * A))ᵀ := by simp only [Matrix.mul_assoc]
      _ = C * A := by rw [hB.aba, hC.symm_ba]
  calc B = B * A * B := hB.bab.symm
    _ = C * A * B := by rw [h2]
    _ = C * (A * B) := by rw [Matrix.mul_assoc]
    _ = C * A * C := by rw [h1, Matrix.mul_assoc]
    _ = C := hC.bab

theorem isPinv_pinv {A : Matrix (Fin n) (Fin n) ℝ} (hA : Aᵀ = A) : IsPinv A (pinv A) := by
  unfold pinv
  rw [dif_pos (exists_isPinv hA)]
  exact (exists_isPinv hA).choose_spec

theorem pinv_eq {A B : Matrix (Fin n) (Fin n) ℝ} (hA : Aᵀ = A) (hB : IsPinv A B) : pinv A = B :=
  (isPinv_pinv hA).unique hB

/-- For an invertible symmetric matrix the pseudo inverse is the inverse. -/
theorem pinv_eq_inv {A : Matrix (Fin n) (Fin n) ℝ} (hA : Aᵀ = A) (hdet : IsUnit A.det) : pinv A = A⁻¹ := by
  apply pinv_eq hA
  have h1 : A * A⁻¹ = 1 := mul_nonsing_inv A hdet
  have h2 : A⁻¹ * A = 1 := nonsing_inv_mul A hdet
  constructor
  · rw [h1, Matrix.one_mul]
  · rw [h2, Matrix.one_mul]
  · rw [h1, transpose_one]
  · rw [h2, transpose_one]

theorem ridge_symm (X : Matrix (Fin m) (Fin n) ℝ) (reg : ℝ) :
    (X * Xᵀ + reg • (1 : Matrix (Fin m) (Fin m) ℝ))ᵀ = X * Xᵀ + reg • 1 := by
  simp [transpose_mul]

theorem trace_mul_transpose_nonneg (B : Matrix (Fin m) (Fin n) ℝ) : 0 ≤ (B * Bᵀ).trace := by
  simp only [trace, diag, mul_apply, transpose_apply]
  exact Finset.sum_nonneg fun i _ => Finset.sum_nonneg fun j _ => mul_self_nonneg _

theorem eq_zero_of_trace_mul_transpose {B : Matrix (Fin m) (Fin n) ℝ} (h : (B * Bᵀ).trace = 0) : B = 0 := by
  simp only [trace, diag, mul_apply, transpose_apply] at h
  ext i j
  have h1 := (Finset.sum_eq_zero_iff_of_nonneg
    (fun i _ => Finset.sum_nonneg fun j _ => mul_self_nonneg (B i j))).1 h i (Finset.mem_univ i)
  have h2 := (Finset.sum_eq_zero_iff_of_nonneg (fun j _ => mul_self_nonneg (B i j))).1 h1 j (Finset.mem_univ j)
  exact mul_self_eq_zero.1 h2

/-- The projection onto the range of the regularised Gram matrix fixes the features. -/
theorem ridge_proj (X : Matrix (Fin m) (Fin n) ℝ) {reg : ℝ} (hreg : 0 ≤ reg) :
    (X * Xᵀ + reg • 1) * pinv (X * Xᵀ + reg • 1) * X = X := by
  set A := X * Xᵀ + reg • (1 : Matrix (Fin m) (Fin m) ℝ) with hA
  have hp := isPinv_pinv (ridge_symm X reg)
  rw [← hA] at hp
  set Q := 1 - A * pinv A with hQ
  have hQA : Q * A = 0 := by rw [hQ, Matrix.sub_mul, Matrix.one_mul, hp.aba, sub_self]
  have h0 : (Q * X) * (Q * X)ᵀ + reg • (Q * Qᵀ) = 0 := by
    have : Q * A * Qᵀ = 0 := by rw [hQA, Matrix.zero_mul]
    rw [hA, Matrix.mul_add, Matrix.add_mul] at this
    simpa [transpose_mul, Matrix.mul_assoc] using this
  have htr := congrArg trace h0
  rw [trace_add, trace_smul, trace_zero, smul_eq_mul] at htr
  have h1 := trace_mul_transpose_nonneg (Q * X)
  have h2 := mul_nonneg hreg (trace_mul_transpose_nonneg Q)
  have hz := eq_zero_of_trace_mul_transpose (B := Q * X) (by linarith)
  rw [hQ, Matrix.sub_mul, Matrix.one_mul, sub_eq_zero] at hz
  exact hz.symm

/-- Normal equations. -/
theorem ridge_normal (X : Matrix (Fin m) (Fin n) ℝ) (F : Matrix (Fin n) (Fin d) ℝ) {reg : ℝ} (hreg : 0 ≤ reg) :
    (X * Xᵀ + reg • 1) * (ridgeRegression X F reg)ᵀ = X * F := by
  unfold ridgeRegression
  rw [transpose_transpose, ← Matrix.mul_assoc, ← Matrix.mul_assoc, ridge_proj X hreg]

/-- Scaling the targets scales the weights. -/
theorem ridge_smul (X : Matrix (Fin m) (Fin n) ℝ) (F : Matrix (Fin n) (Fin d) ℝ) (reg c : ℝ) :
    ridgeRegression X (c • F) reg = c • ridgeRegression X F reg := by
  unfold ridgeRegression
  rw [Matrix.mul_smul, transpose_smul]

theorem ridge_add (X : Matrix (Fin m) (Fin n) ℝ) (F G : Matrix (Fin n) (Fin d) ℝ) (reg : ℝ) :
    ridgeRegression X (F + G) reg = ridgeRegression X F reg + ridgeRegression X G reg := by
  unfold ridgeRegression
  rw [Matrix.mul_add, transpose_add]

theorem ridge_zero (X : Matrix (Fin m) (Fin n) ℝ) (reg : ℝ) :
    ridgeRegression X (0 : Matrix (Fin n) (Fin d) ℝ) reg = 0 := by
  unfold ridgeRegression
  rw [Matrix.mul_zero, transpose_zero]

/-- Quadratic expansion of the regularised loss of one output around a solution of the normal equations. -/
theorem ridge_expand (X : Matrix (Fin m) (Fin n) ℝ) (f : Fin n → ℝ) (reg : ℝ) (w v : Fin m → ℝ)
    (h : (X * Xᵀ + reg • (1 : Matrix (Fin m) (Fin m) ℝ)) *ᵥ w = X *ᵥ f) :
    (f - Xᵀ *ᵥ v) ⬝ᵥ (f - Xᵀ *ᵥ v) + reg * (v ⬝ᵥ v) =
      ((f - Xᵀ *ᵥ w) ⬝ᵥ (f - Xᵀ *ᵥ w) + reg * (w ⬝ᵥ w)) +
        ((Xᵀ *ᵥ (v - w)) ⬝ᵥ (Xᵀ *ᵥ (v - w)) + reg * ((v - w) ⬝ᵥ (v - w))) := by
  set δ := v - w with hδ
  have hv : v = w + δ := by rw [hδ]; abel
  have hcross : (f - Xᵀ *ᵥ w) ⬝ᵥ (Xᵀ *ᵥ δ) = reg * (w ⬝ᵥ δ) := by
    have h1 : (f - Xᵀ *ᵥ w) ⬝ᵥ (Xᵀ *ᵥ δ) = (X *ᵥ (f - Xᵀ *ᵥ w)) ⬝ᵥ δ := by
      rw [dotProduct_mulVec, vecMul_transpose]
    rw [h1, mulVec_sub, ← h, mulVec_mulVec, add_mulVec, add_sub_cancel_left, smul_mulVec, one_mulVec,
      smul_dotProduct, smul_eq_mul]
  rw [hv, mulVec_add]
  have e : f - (Xᵀ *ᵥ w + Xᵀ *ᵥ δ) = (f - Xᵀ *ᵥ w) - Xᵀ *ᵥ δ := by abel
  rw [e]
  generalize f - Xᵀ *ᵥ w = r at hcross ⊢
  generalize Xᵀ *ᵥ δ = q at hcross ⊢
  rw [sub_dotProduct, dotProduct_sub, dotProduct_sub, add_dotProduct, dotProduct_add, dotProduct_add,
    dotProduct_comm q r, dotProduct_comm δ w, hcross]
  ring

end Verif
