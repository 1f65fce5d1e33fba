import Verif.Model.Toy
import Verif.Lemmas.Pinv
import Mathlib.Analysis.Matrix.LDL
import Mathlib.LinearAlgebra.Matrix.Block
import Mathlib.Tactic.Linarith
import Mathlib.Tactic.FieldSimp
import Mathlib.Tactic.Ring
import Mathlib.Tactic.Positivity

/-! # Lemmas about the finite difference matrix and Cholesky factors -/

namespace Verif
open Matrix

/-- Closed form of the finite difference matrix. -/
theorem createFiniteDifferencesMatrix1d_apply (n : ℕ) (dt : ℝ) (i : Fin (n + 2)) (j : Fin n) :
    createFiniteDifferencesMatrix1d n dt i j =
      (if i.val = j.val then 1 else if i.val = j.val + 1 then -2 else if i.val = j.val + 2 then 1 else 0) / dt ^ 2 := by
  unfold createFiniteDifferencesMatrix1d
  simp only [of_apply]
  congr 1
  split_ifs <;> first | omega | norm_num

/-- A matrix with injective `mulVec` has a positive definite Gram matrix. -/
theorem gram_posDef {m n : ℕ} (A : Matrix (Fin m) (Fin n) ℝ) (hA : ∀ x, A *ᵥ x = 0 → x = 0) :
    (Aᵀ * A).PosDef := by
  refine Matrix.PosDef.of_dotProduct_mulVec_pos ?_ ?_
  · simp [IsHermitian, conjTranspose_mul]
  · intro x hx
    have h : star x ⬝ᵥ (Aᵀ * A) *ᵥ x = (A *ᵥ x) ⬝ᵥ (A *ᵥ x) := by
      rw [← mulVec_mulVec, dotProduct_mulVec, vecMul_transpose]; simp
    rw [h]
    have hne : A *ᵥ x ≠ 0 := fun h0 => hx (hA x h0)
    obtain ⟨i, hi⟩ := Function.ne_iff.mp hne
    refine Finset.sum_pos' (fun i _ => mul_self_nonneg _) ⟨i, Finset.mem_univ _, ?_⟩
    exact mul_self_pos.mpr hi

theorem finiteDifferences_injective (n : ℕ) {dt : ℝ} (hdt : dt ≠ 0) (x : Fin n → ℝ)
    (hx : createFiniteDifferencesMatrix1d n dt *ᵥ x = 0) : x = 0 := by
  have key : ∀ k : ℕ, ∀ hk : k < n, x ⟨k, hk⟩ = 0 := by
    intro k
    induction k using Nat.strong_induction_on with
    | _ k ih =>
      intro hk
      have hrow := congrFun hx ⟨k, by omega⟩
      simp only [mulVec, dotProduct, Pi.zero_apply] at hrow
      rw [Finset.sum_eq_single ⟨k, hk⟩] at hrow
      · rw [createFiniteDifferencesMatrix1d_apply] at hrow
        simp only [if_true] at hrow
        have : (1 : ℝ) / dt ^ 2 ≠ 0 := by positivity
        exact (mul_eq_zero.mp hrow).resolve_left this
      · intro b _ hb
        rcases lt_or_ge b.val k with h | h
        · rw [show x b = 0 from ih b.val h b.isLt, mul_zero]
        · have hbk : b.val ≠ k := fun h => hb (Fin.ext h)
          rw [createFiniteDifferencesMatrix1d_apply]
          simp only
          rw [if_neg (by omega), if_neg (by omega), if_neg (by omega)]
          simp
      · intro h; exact absurd (Finset.mem_univ _) h
  funext k
  exact key k.val k.isLt

theorem exists_isCholesky {n : ℕ} {S : Matrix (Fin n) (Fin n) ℝ} (hS : S.PosDef) :
    ∃ L, IsCholesky L S := by
  obtain ⟨P, hP⟩ : ∃ P, LDL.lower hS = P := ⟨_, rfl⟩
  obtain ⟨D, hD⟩ : ∃ D, LDL.diagEntries hS = D := ⟨_, rfl⟩
  have hdec : P * diagonal D * Pᴴ = S := by
    have := LDL.lower_conj_diag hS
    rwa [hP, LDL.diag, hD] at this
  have hPlow : ∀ i j, i < j → P i j = 0 := by
    intro i j hij
    have hT : BlockTriangular (LDL.lowerInv hS) OrderDual.toDual := by
      intro a b hab
      exact LDL.lowerInv_triangular hS hab
    have := blockTriangular_inv_of_blockTriangular hT
    rw [← hP, LDL.lower]
    exact this hij
  have hPdet : P.det ≠ 0 := by
    rw [← hP, LDL.lower, det_nonsing_inv]
    have := (Matrix.isUnit_det_of_invertible (LDL.lowerInv hS))
    simpa using this.ne_zero
  have hPdiag : ∀ i, P i i ≠ 0 := by
    intro i h0
    apply hPdet
    have hT : BlockTriangular P OrderDual.toDual := fun a b hab => hPlow a b hab
    rw [det_of_lowerTriangular P hT]
    exact Finset.prod_eq_zero (Finset.mem_univ i) h0
  have hDpos : ∀ i, 0 < D i := by
    intro i
    have hinv : D i = star (star (LDL.lowerInv hS i)) ⬝ᵥ S *ᵥ star (LDL.lowerInv hS i) := by
      rw [← hD, LDL.diagEntries]
      simp [EuclideanSpace.inner_toLp_toLp, dotProduct_comm]
    rw [hinv]
    refine hS.dotProduct_mulVec_pos ?_
    intro h0
    have hz : LDL.lowerInv hS i = 0 := by simpa using h0
    have := (Matrix.isUnit_det_of_invertible (LDL.lowerInv hS)).ne_zero
    exact this (det_eq_zero_of_row_eq_zero i (fun j => congrFun hz j))
  refine ⟨Matrix.of fun i j => P i j * (Real.sqrt (D j) * (if 0 < P j j then 1 else -1)), ?_, ?_, ?_⟩
  · intro i j hij; simp [hPlow i j hij]
  · intro i
    simp only [of_apply]
    have hs := Real.sqrt_pos.mpr (hDpos i)
    split_ifs with h
    · positivity
    · have : P i i < 0 := lt_of_le_of_ne (not_lt.mp h) (hPdiag i)
      nlinarith [mul_pos hs (neg_pos.mpr this)]
  · rw [← hdec]
    ext i j
    rw [mul_apply, mul_apply]
    simp only [transpose_apply, of_apply, mul_diagonal, conjTranspose_apply, star_trivial]
    refine Finset.sum_congr rfl fun k _ => ?_
    have hs := Real.mul_self_sqrt (hDpos k).le
    have h1 : (if 0 < P k k then (1 : ℝ) else -1) * (if 0 < P k k then (1 : ℝ) else -1) = 1 := by
      split_ifs <;> norm_num
    calc _ = P i k * (Real.sqrt (D k) * Real.sqrt (D k)) * P j k *
          ((if 0 < P k k then (1 : ℝ) else -1) * (if 0 < P k k then (1 : ℝ) else -1)) := by ring
      _ = _ := by rw [hs, h1, mul_one]

/-- Cholesky factors are unique. -/
theorem IsCholesky.unique {n : ℕ} {L M S : Matrix (Fin n) (Fin n) ℝ} (hL : IsCholesky L S) (hM : IsCholesky M S) :
    L = M := by
  -- columns up to `j` agree, by induction on `j`; within a column by the order of the rows
  have hsum : ∀ i j : Fin n, ∑ k, L i k * L j k = ∑ k, M i k * M j k := by
    intro i j
    have h := congrFun (congrFun (hL.mul_transpose.trans hM.mul_transpose.symm) i) j
    simpa [mul_apply] using h
  have key : ∀ j : ℕ, ∀ hj : j < n, ∀ i : Fin n, L i ⟨j, hj⟩ = M i ⟨j, hj⟩ := by
    intro j
    induction j using Nat.strong_induction_on with
    | _ j ih =>
      intro hj
      set J : Fin n := ⟨j, hj⟩ with hJ
      have red : ∀ i : Fin n, L i J * L J J = M i J * M J J := by
        intro i
        have h := hsum i J
        rw [← Finset.add_sum_erase _ _ (Finset.mem_univ J),
          ← Finset.add_sum_erase Finset.univ (fun k => M i k * M J k) (Finset.mem_univ J)] at h
        have hrest : ∑ k ∈ Finset.univ.erase J, L i k * L J k = ∑ k ∈ Finset.univ.erase J, M i k * M J k := by
          refine Finset.sum_congr rfl fun k hk => ?_
          have hkJ := Finset.ne_of_mem_erase hk
          rcases lt_or_gt_of_ne hkJ with h | h
          · have e1 := ih k.val h k.isLt i
            have e2 := ih k.val h k.isLt J
            rw [show L i k = M i k from e1, show L J k = M J k from e2]
          · rw [hL.lower J k h, hM.lower J k h, mul_zero, mul_zero]
        linarith
      have hd : L J J = M J J := by
        have h := red J
        have h1 := hL.diag_pos J
        have h2 := hM.diag_pos J
        nlinarith
      intro i
      have h := red i
      rw [hd] at h
      exact mul_right_cancel₀ (hM.diag_pos J).ne' h
  ext i j
  exact key j.val j.isLt i

end Verif
