import Verif.Model.Kinematics
import Verif.Spec.Kinematics
import Verif.Lemmas.Py
import Mathlib.Tactic.Linarith
import Mathlib.Tactic.FieldSimp
import Mathlib.Tactic.Ring
import Mathlib.Tactic.Positivity
import Mathlib.Tactic.LinearCombination
import Mathlib.Tactic.FinCases
import Mathlib.LinearAlgebra.Matrix.Adjugate

/-! # Lemmas about rigid transforms and transform managers -/

namespace Verif
open Matrix

section Rotations

theorem ext3 {R S : Matrix (Fin 3) (Fin 3) ℝ} (h : ∀ i j, R i j = S i j) : R = S := by ext i j; exact h i j

theorem pose_mul (R S : Matrix (Fin 3) (Fin 3) ℝ) (p q : Vec 3) :
    Spec.pose R p * Spec.pose S q = Spec.pose (R * S) (R *ᵥ q + p) := by
  ext i j
  fin_cases i <;> fin_cases j <;>
    simp [Spec.pose, mul_apply, Fin.sum_univ_succ, mulVec, dotProduct] <;> ring

theorem pose_one : Spec.pose 1 0 = 1 := by
  ext i j
  fin_cases i <;> fin_cases j <;> simp [Spec.pose]

theorem pose_injective {R S : Matrix (Fin 3) (Fin 3) ℝ} {p q : Vec 3} (h : Spec.pose R p = Spec.pose S q) :
    R = S ∧ p = q := by
  have e : ∀ i j, Spec.pose R p i j = Spec.pose S q i j := fun i j => by rw [h]
  constructor
  · ext i j
    fin_cases i <;> fin_cases j
    · simpa [Spec.pose] using e 0 0
    · simpa [Spec.pose] using e 0 1
    · simpa [Spec.pose] using e 0 2
    · simpa [Spec.pose] using e 1 0
    · simpa [Spec.pose] using e 1 1
    · simpa [Spec.pose] using e 1 2
    · simpa [Spec.pose] using e 2 0
    · simpa [Spec.pose] using e 2 1
    · simpa [Spec.pose] using e 2 2
  · funext i
    fin_cases i
    · simpa [Spec.pose] using e 0 3
    · simpa [Spec.pose] using e 1 3
    · simpa [Spec.pose] using e 2 3

theorem Spec.IsRotation.one : Spec.IsRotation 1 := ⟨by simp, by simp⟩

theorem Spec.IsRotation.mul {R S : Matrix (Fin 3) (Fin 3) ℝ} (hR : Spec.IsRotation R) (hS : Spec.IsRotation S) :
    Spec.IsRotation (R * S) := by
  refine ⟨?_, by rw [det_mul, hR.2, hS.2, mul_one]⟩
  calc (R * S)ᵀ * (R * S) = Sᵀ * (Rᵀ * R) * S := by simp only [transpose_mul, Matrix.mul_assoc]
    _ = 1 := by rw [hR.1, Matrix.mul_one, hS.1]

theorem Spec.IsRotation.mul_transpose {R : Matrix (Fin 3) (Fin 3) ℝ} (hR : Spec.IsRotation R) : R * Rᵀ = 1 :=
  mul_eq_one_comm.mp hR.1

theorem Spec.IsRotation.transpose {R : Matrix (Fin 3) (Fin 3) ℝ} (hR : Spec.IsRotation R) : Spec.IsRotation Rᵀ :=
  ⟨by rw [transpose_transpose]; exact hR.mul_transpose, by rw [det_transpose]; exact hR.2⟩

theorem isRigid_one : Spec.IsRigid 1 := ⟨1, 0, Spec.IsRotation.one, pose_one.symm⟩

theorem Spec.IsRigid.mul {M N : Mat4} (hM : Spec.IsRigid M) (hN : Spec.IsRigid N) : Spec.IsRigid (M * N) := by
  obtain ⟨R, p, hR, rfl⟩ := hM
  obtain ⟨S, q, hS, rfl⟩ := hN
  exact ⟨R * S, R *ᵥ q + p, hR.mul hS, pose_mul R S p q⟩

theorem invertTransform_pose (R : Matrix (Fin 3) (Fin 3) ℝ) (p : Vec 3) :
    invertTransform (Spec.pose R p) = Spec.pose Rᵀ (-(Rᵀ *ᵥ p)) := by
  ext i j
  fin_cases i <;> fin_cases j <;>
    simp [invertTransform, Spec.pose, Fin.sum_univ_succ, mulVec, dotProduct]

theorem Spec.IsRigid.invert {M : Mat4} (hM : Spec.IsRigid M) :
    Spec.IsRigid (invertTransform M) ∧ invertTransform M * M = 1 ∧ M * invertTransform M = 1 := by
  obtain ⟨R, p, hR, rfl⟩ := hM
  rw [invertTransform_pose]
  have h1 : Spec.pose Rᵀ (-(Rᵀ *ᵥ p)) * Spec.pose R p = 1 := by
    rw [pose_mul, hR.1, add_neg_cancel, pose_one]
  exact ⟨⟨_, _, hR.transpose, rfl⟩, h1, mul_eq_one_comm.mp h1⟩

/-- The six equations of `RᵀR = 1` and the cofactor equations. -/
theorem Spec.IsRotation.entries {R : Matrix (Fin 3) (Fin 3) ℝ} (hR : Spec.IsRotation R) :
    (∀ i j, R 0 i * R 0 j + R 1 i * R 1 j + R 2 i * R 2 j = if i = j then 1 else 0) := by
  intro i j
  have h := congrFun (congrFun hR.1 i) j
  rw [mul_apply, Fin.sum_univ_three] at h
  simpa [one_apply] using h

theorem Spec.IsRotation.adjugate {R : Matrix (Fin 3) (Fin 3) ℝ} (hR : Spec.IsRotation R) : R.adjugate = Rᵀ := by
  have h : Rᵀ * (R * R.adjugate) = Rᵀ := by rw [mul_adjugate, hR.2, one_smul, Matrix.mul_one]
  rwa [← Matrix.mul_assoc, hR.1, Matrix.one_mul] at h

theorem Spec.IsRotation.cofactors {R : Matrix (Fin 3) (Fin 3) ℝ} (hR : Spec.IsRotation R) :
    R 0 0 = R 1 1 * R 2 2 - R 1 2 * R 2 1 ∧ R 1 1 = R 0 0 * R 2 2 - R 0 2 * R 2 0 ∧
      R 2 2 = R 0 0 * R 1 1 - R 0 1 * R 1 0 := by
  have h := hR.adjugate
  rw [adjugate_fin_three] at h
  refine ⟨?_, ?_, ?_⟩
  · simpa using (congrFun (congrFun h 0) 0).symm
  · simpa using (congrFun (congrFun h 1) 1).symm
  · simpa using (congrFun (congrFun h 2) 2).symm

end Rotations

end Verif
