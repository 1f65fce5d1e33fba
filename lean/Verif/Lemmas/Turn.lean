import Verif.Lemmas.OrientationMovement
import Mathlib.Analysis.SpecialFunctions.Exponential

/-! # Rotations about a fixed axis -/

namespace Verif
open Spec Quaternion Set

/-- The orientation `p` turned by the rotation vector `φ a`. -/
noncomputable def turn (a : Vec 3) (p : Vec 4) (φ : ℝ) : Vec 4 :=
  ![(rot (φ • a) * quat p).re, (rot (φ • a) * quat p).imI, (rot (φ • a) * quat p).imJ, (rot (φ • a) * quat p).imK]

@[simp] theorem quat_turn (a : Vec 3) (p : Vec 4) (φ : ℝ) : quat (turn a p φ) = rot (φ • a) * quat p := by
  unfold turn quat; ext <;> simp

theorem rot_smul (a : Vec 3) (x : ℝ) : rot (x • a) = NormedSpace.exp (x • ((1 / 2 : ℝ) • Spec.pure a)) := by
  unfold rot
  congr 1
  ext <;> simp <;> ring

theorem rot_zero : rot 0 = 1 := by
  have : Spec.pure 0 = 0 := by ext <;> simp
  unfold rot; rw [this]; simp

theorem turn_zero (a : Vec 3) (p : Vec 4) : turn a p 0 = p := by
  have h : quat (turn a p 0) = quat p := by rw [quat_turn, zero_smul, rot_zero, one_mul]
  funext k
  have h1 := congrArg (fun q => q.re) h
  have h2 := congrArg (fun q => q.imI) h
  have h3 := congrArg (fun q => q.imJ) h
  have h4 := congrArg (fun q => q.imK) h
  fin_cases k
  · exact h1
  · exact h2
  · exact h3
  · exact h4

theorem unit_turn (a : Vec 3) {p : Vec 4} (hp : UnitQuat p) (φ : ℝ) : UnitQuat (turn a p φ) := by
  rw [isUnit_iff_normSq, quat_turn, map_mul, normSq_eq_norm_mul_self, norm_rot, (isUnit_iff_normSq p).1 hp]
  norm_num

theorem turn_velocity (a : Vec 3) (p : Vec 4) {φ : ℝ → ℝ} {φ' t : ℝ} {S : Set ℝ} (h : HasDerivWithinAt φ φ' S t) :
    HasDerivWithinAt (fun t => quat (turn a p (φ t))) ((1 / 2 : ℝ) • (Spec.pure (φ' • a) * quat (turn a p (φ t)))) S t := by
  have h1 := (hasDerivAt_exp_smul_const' (𝕂 := ℝ) ((1 / 2 : ℝ) • Spec.pure a) (φ t)).scomp_hasDerivWithinAt t h
  have h2 := h1.mul_const (quat p)
  have e : (fun t => quat (turn a p (φ t))) = fun t =>
      ((fun u : ℝ => NormedSpace.exp (u • ((1 / 2 : ℝ) • Spec.pure a))) ∘ φ) t * quat p := by
    funext t; rw [quat_turn, rot_smul]; rfl
  rw [e]
  refine h2.congr_deriv ?_
  rw [quat_turn, rot_smul]
  have e2 : Spec.pure (φ' • a) = φ' • Spec.pure a := by ext <;> simp
  rw [e2]
  simp only [smul_mul_assoc, mul_assoc]
  rw [smul_comm]

/-- Turning about a fixed axis is a movement. -/
theorem turn_movement (a : Vec 3) {p : Vec 4} (hp : UnitQuat p) {t₀ t₁ : ℝ} {φ φ' φ'' : ℝ → ℝ}
    (h1 : ∀ t ∈ Icc t₀ t₁, HasDerivWithinAt φ (φ' t) (Icc t₀ t₁) t)
    (h2 : ∀ t ∈ Icc t₀ t₁, HasDerivWithinAt φ' (φ'' t) (Icc t₀ t₁) t) (h3 : ContinuousOn φ'' (Icc t₀ t₁)) :
    OrientationMovement t₀ t₁ (fun t => turn a p (φ t)) (fun t => φ' t • a) (fun t => φ'' t • a) where
  unit := fun t _ => unit_turn a hp (φ t)
  velocity := fun t ht => turn_velocity a p (h1 t ht)
  acceleration := fun t ht k => (h2 t ht).mul_const (a k)
  continuous := fun _ => h3.mul continuousOn_const

theorem turn_remaining {a : Vec 3} {g p : Vec 4} (h : quat g * star (quat p) = rot a ∨ quat g * star (quat p) = -rot a) (φ : ℝ) :
    quat g * star (quat (turn a p φ)) = rot ((1 - φ) • a) ∨ quat g * star (quat (turn a p φ)) = -rot ((1 - φ) • a) := by
  have e : rot ((1 - φ) • a) = rot a * star (rot (φ • a)) := by
    have h1 := exp_add_axis a 1 (-φ)
    rw [one_smul, ← star_exp_axis, ← sub_eq_add_neg] at h1
    exact h1
  rw [quat_turn, StarMul.star_mul, ← mul_assoc, e]
  rcases h with h | h
  · left; rw [h]
  · right; rw [h, neg_mul]

/-- Length of the rotation vector between two orientations. -/
theorem Spec.IsRotationTo.angle {g q : Vec 4} {a : Vec 3} (h : IsRotationTo g q a) : rotationAngle g q = length a := by
  have h0 := length_nonneg a
  have hs := h.short
  have e : ∑ i, g i * q i = (quat g * star (quat q)).re := by
    rw [inner_of_mul_star]
  have hc : 0 ≤ Real.cos (length a / 2) := Real.cos_nonneg_of_mem_Icc ⟨by linarith, by linarith⟩
  have hr : (rot a).re = Real.cos (length a / 2) := by unfold rot; rw [exp_half]
  unfold rotationAngle
  rw [e]
  rcases h.rotation with h | h
  · rw [h, hr, abs_of_nonneg hc, Real.arccos_cos (by linarith) (by linarith)]; ring
  · rw [h, Quaternion.re_neg, hr, abs_neg, abs_of_nonneg hc, Real.arccos_cos (by linarith) (by linarith)]; ring

/-- Rotation vectors of less than half a turn are unique. -/
theorem Spec.IsRotationTo.unique {g q : Vec 4} {a b : Vec 3} (hg : UnitQuat g) (ha : IsRotationTo g q a) (hb : IsRotationTo g q b)
    (h : length a < Real.pi) : b = a := by
  have h1 := ha.close hg hb (c := Real.cos (length a / 2))
    (Real.cos_pos_of_mem_Ioo ⟨by linarith [length_nonneg a, Real.pi_pos], by linarith⟩) le_rfl
  rw [sub_self, norm_zero, mul_zero] at h1
  exact sub_eq_zero.1 (length_eq_zero.1 (le_antisymm h1 (length_nonneg _)))

end Verif
