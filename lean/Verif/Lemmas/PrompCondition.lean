import Verif.Lemmas.Promp
import Mathlib.LinearAlgebra.Matrix.PosDef
import Mathlib.Tactic.Abel
import Mathlib.Analysis.Matrix.Order
import Mathlib.Tactic.Linarith

/-! # Helper lemmas about conditioning of ProMPs -/

namespace Verif
open Matrix

namespace ProMP
variable {d w n : ℕ}

/-- Activations at normalised time `s`, one column per dimension. -/
noncomputable def psi (d w : ℕ) (s : ℝ) : Matrix (Fin (d * w)) (Fin d) ℝ :=
  Matrix.of fun x l => if x.divNat = l then Spec.activation w s x.modNat else 0

theorem psi_flat (s : ℝ) (k l : Fin d) (a : Fin w) :
    psi d w s (finProdFinEquiv (k, a)) l = if k = l then Spec.activation w s a else 0 := by
  have h : (finProdFinEquiv.symm (finProdFinEquiv (k, a))) = (k, a) := Equiv.symm_apply_apply _ _
  have h1 : (finProdFinEquiv (k, a)).divNat = k := congrArg Prod.fst h
  have h2 : (finProdFinEquiv (k, a)).modNat = a := congrArg Prod.snd h
  simp only [psi, of_apply, h1, h2]

theorem psi_transpose_mulVec (s : ℝ) (W : Vec (d * w)) : (psi d w s)ᵀ *ᵥ W = Spec.prompPosition W s := by
  funext k
  rw [mulVec, dotProduct, sum_flat, Finset.sum_eq_single k]
  · simp only [transpose_apply, psi_flat, if_true]
    rfl
  · intro l _ hl
    simp only [transpose_apply, psi_flat, if_neg hl, zero_mul, Finset.sum_const_zero]
  · simp

theorem psi_quadratic (s s' : ℝ) (C : Matrix (Fin (d * w)) (Fin (d * w)) ℝ) (k l : Fin d) :
    ((psi d w s)ᵀ * C * psi d w s') k l = Spec.covariance C s k s' l := by
  rw [Matrix.mul_apply, sum_flat, Finset.sum_eq_single l]
  · unfold Spec.covariance
    rw [Finset.sum_comm]
    apply Finset.sum_congr rfl
    intro b _
    rw [psi_flat, if_pos rfl, ← Finset.sum_mul]
    congr 1
    exact congrFun (psi_transpose_mulVec s (fun x => C x (finProdFinEquiv (l, b)))) k
  · intro k' _ hk
    apply Finset.sum_eq_zero
    intro b _
    rw [psi_flat, if_neg hk, mul_zero]
  · simp

theorem psi_eq (d : ℕ) (s : ℝ) (phi : Vec w) (hphi : phi = Spec.activation w s) :
    (ndBlockDiagonal (Matrix.of fun a (_ : Fin 1) => phi a) d).submatrix id (Fin.cast (by simp)) = psi d w s := by
  ext x l
  obtain ⟨⟨k, a⟩, rfl⟩ := finProdFinEquiv.surjective x
  have hl : (Fin.cast (by simp) l : Fin (d * 1)) = finProdFinEquiv (l, (0 : Fin 1)) := by
    apply Fin.ext
    simp [finProdFinEquiv]
  rw [submatrix_apply, hl, psi_flat]
  simp only [id, ndBlockDiagonal_apply, of_apply, hphi]

/-- Kalman gain of the conditioning. -/
noncomputable def gain (p : ProMP d w) (R : Matrix (Fin d) (Fin d) ℝ) (s : ℝ) : Matrix (Fin (d * w)) (Fin d) ℝ :=
  p.weightCov * psi d w s * (R + (psi d w s)ᵀ * p.weightCov * psi d w s)⁻¹

/-- The conditioned ProMP. -/
noncomputable def conditioned (p : ProMP d w) (y : Vec d) (R : Matrix (Fin d) (Fin d) ℝ) (s : ℝ) : ProMP d w where
  weightMean := p.weightMean + p.gain R s *ᵥ (y - (psi d w s)ᵀ *ᵥ p.weightMean)
  weightCov := p.weightCov - p.gain R s * (psi d w s)ᵀ * p.weightCov
  centers := linspace01 w
  variance := none

theorem rbfs1dPoint_eq {p : ProMP d w} (hp : p.centers = linspace01 w) {t tMax : ℝ} (h0 : tMax ≠ 0) :
    p.rbfs1dPoint t tMax = .ok (Spec.activation w (t / tMax)) := by
  unfold rbfs1dPoint
  rw [if_neg h0]
  simp only [gauss_eq hp]
  rfl

theorem exec_condition_zero (p : ProMP d w) (y : Vec d) (c : YCov d) (t : ℝ) :
    (conditionPosition y c t 0).exec p = (.error .zeroDivisionError, p) := by
  unfold conditionPosition
  rw [Py.exec_bind, Py.exec_get]
  dsimp only
  rw [Py.exec_bind, Py.exec_lift]
  unfold rbfs1dPoint
  rw [if_pos rfl]

open Classical in
theorem exec_condition {p : ProMP d w} (hp : p.centers = linspace01 w) (y : Vec d) (c : YCov d) {t tMax : ℝ}
    (h0 : tMax ≠ 0) :
    (conditionPosition y c t tMax).exec p =
      (if (c.broadcast + (psi d w (t / tMax))ᵀ * p.weightCov * psi d w (t / tMax)).det = 0 then
        .error .linAlgError else .ok (p.conditioned y c.broadcast (t / tMax)), p) := by
  unfold conditionPosition
  rw [Py.exec_bind, Py.exec_get]
  dsimp only
  rw [Py.exec_bind, Py.exec_lift, rbfs1dPoint_eq hp h0]
  dsimp only
  rw [psi_eq d (t / tMax) _ rfl, Py.exec_bind, Py.exec_lift]
  unfold npInv
  by_cases hd : (c.broadcast + (psi d w (t / tMax))ᵀ * p.weightCov * psi d w (t / tMax)).det = 0
  · rw [if_pos hd, if_pos hd]
  · rw [if_neg hd, if_neg hd]
    rfl

/-- A successful conditioning step. -/
theorem condition_ok {p q p' : ProMP d w} (hp : p.centers = linspace01 w) {y : Vec d} {c : YCov d} {t tMax : ℝ}
    (h : (conditionPosition y c t tMax).exec p = (.ok q, p')) :
    tMax ≠ 0 ∧ IsUnit (c.broadcast + (psi d w (t / tMax))ᵀ * p.weightCov * psi d w (t / tMax)).det ∧
      q = p.conditioned y c.broadcast (t / tMax) ∧ p' = p := by
  by_cases h0 : tMax = 0
  · subst h0
    rw [exec_condition_zero] at h
    cases h
  · rw [exec_condition hp y c h0] at h
    injection h with h1 h2
    split at h1
    · cases h1
    · rename_i hd
      injection h1 with h1
      exact ⟨h0, isUnit_iff_ne_zero.2 hd, h1.symm, h2.symm⟩

theorem _root_.Verif.Spec.Reachable.centers {p : ProMP d w} (h : Spec.Reachable p) : p.centers = linspace01 w := by
  induction h with
  | init => rfl
  | fromWeightDistribution h mean cov ih => exact ih
  | condition h hq ih =>
    rw [(condition_ok ih hq).2.2.1]
    rfl
  | @imitate p h demos nIter minDelta ih =>
    unfold ProMP.imitate
    rw [Py.exec_bind, Py.exec_modify]
    dsimp only
    rw [Py.exec_bind, Py.exec_get]
    dsimp only
    rw [Py.exec_bind, Py.exec_lift]
    cases emTermsAll { p with variance := some 1 } demos with
    | error e => exact ih
    | ok es => exact ih

/-- With noise-free conditioning the innovation matrix cancels the gain. -/
theorem psi_gain {p : ProMP d w} {s : ℝ} (hd : IsUnit ((psi d w s)ᵀ * p.weightCov * psi d w s).det) :
    (psi d w s)ᵀ * p.gain 0 s = 1 := by
  unfold gain
  rw [zero_add, ← Matrix.mul_assoc, ← Matrix.mul_assoc, Matrix.mul_nonsing_inv _ hd]

theorem conditioned_mean {p : ProMP d w} {s : ℝ} (hd : IsUnit ((psi d w s)ᵀ * p.weightCov * psi d w s).det) (y : Vec d) :
    (psi d w s)ᵀ *ᵥ (p.conditioned y 0 s).weightMean = y := by
  show (psi d w s)ᵀ *ᵥ (p.weightMean + p.gain 0 s *ᵥ (y - (psi d w s)ᵀ *ᵥ p.weightMean)) = y
  rw [mulVec_add, mulVec_mulVec, psi_gain hd, one_mulVec]
  abel

theorem conditioned_cov {p : ProMP d w} {s : ℝ} (hd : IsUnit ((psi d w s)ᵀ * p.weightCov * psi d w s).det) (y : Vec d) :
    (psi d w s)ᵀ * (p.conditioned y 0 s).weightCov = 0 := by
  show (psi d w s)ᵀ * (p.weightCov - p.gain 0 s * (psi d w s)ᵀ * p.weightCov) = 0
  rw [Matrix.mul_sub, ← Matrix.mul_assoc, ← Matrix.mul_assoc, psi_gain hd, Matrix.one_mul, sub_self]

/-- Joseph form of the conditioned covariance. -/
theorem conditioned_joseph {p : ProMP d w} {R : Matrix (Fin d) (Fin d) ℝ} {s : ℝ}
    (hd : IsUnit (R + (psi d w s)ᵀ * p.weightCov * psi d w s).det) (y : Vec d) :
    (p.conditioned y R s).weightCov =
      (1 - p.gain R s * (psi d w s)ᵀ) * p.weightCov * (1 - p.gain R s * (psi d w s)ᵀ)ᵀ +
        p.gain R s * R * (p.gain R s)ᵀ := by
  show p.weightCov - p.gain R s * (psi d w s)ᵀ * p.weightCov = _
  set G := p.gain R s with hG
  set P := psi d w s with hP
  set C := p.weightCov with hCdef
  have hM : G * (R + Pᵀ * C * P) = C * P := by
    rw [hG]
    unfold gain
    rw [Matrix.mul_assoc, Matrix.nonsing_inv_mul _ hd, Matrix.mul_one]
  have e : (1 - G * Pᵀ)ᵀ = 1 - P * Gᵀ := by
    rw [transpose_sub, transpose_one, transpose_mul, transpose_transpose]
  rw [e]
  have h2 : G * R * Gᵀ + G * Pᵀ * C * P * Gᵀ = C * P * Gᵀ := by
    rw [← hM]
    simp only [Matrix.mul_add, Matrix.add_mul, Matrix.mul_assoc]
  have h3 : (1 - G * Pᵀ) * C * (1 - P * Gᵀ) = C - G * Pᵀ * C - C * P * Gᵀ + G * Pᵀ * C * P * Gᵀ := by
    simp only [Matrix.sub_mul, Matrix.mul_sub, Matrix.one_mul, Matrix.mul_one, Matrix.mul_assoc]
    abel
  rw [h3, ← h2]
  abel

theorem gain_transpose {p : ProMP d w} (hC : p.weightCovᵀ = p.weightCov) {R : Matrix (Fin d) (Fin d) ℝ}
    (hR : Rᵀ = R) (s : ℝ) :
    (p.gain R s)ᵀ = (R + (psi d w s)ᵀ * p.weightCov * psi d w s)⁻¹ * (psi d w s)ᵀ * p.weightCov := by
  unfold gain
  rw [transpose_mul, transpose_nonsing_inv, transpose_add, transpose_mul, transpose_mul, transpose_mul,
    transpose_transpose, hC, hR]
  simp only [Matrix.mul_assoc]

theorem posSemidef_transpose {m : ℕ} {C : Matrix (Fin m) (Fin m) ℝ} (h : C.PosSemidef) : Cᵀ = C := by
  have := h.isHermitian
  unfold Matrix.IsHermitian at this
  rwa [conjTranspose_eq_transpose_of_trivial] at this

theorem posSemidef_conj {m m' : ℕ} {C : Matrix (Fin m) (Fin m) ℝ} (h : C.PosSemidef) (B : Matrix (Fin m') (Fin m) ℝ) :
    (B * C * Bᵀ).PosSemidef := by
  have := h.mul_mul_conjTranspose_same B
  rwa [conjTranspose_eq_transpose_of_trivial] at this

theorem posSemidef_conj' {m m' : ℕ} {C : Matrix (Fin m) (Fin m) ℝ} (h : C.PosSemidef) (B : Matrix (Fin m) (Fin m') ℝ) :
    (Bᵀ * C * B).PosSemidef := by
  have := posSemidef_conj h Bᵀ
  rwa [transpose_transpose] at this

/-- A symmetric positive semidefinite quadratic form that vanishes at `x` maps `x` to zero. -/
theorem mulVec_eq_zero_of_form {m : ℕ} {C : Matrix (Fin m) (Fin m) ℝ} (h : C.PosSemidef) {x : Fin m → ℝ}
    (hx : x ⬝ᵥ (C *ᵥ x) = 0) : C *ᵥ x = 0 := by
  have := (h.dotProduct_mulVec_zero_iff x).1
  rw [star_trivial] at this
  exact this hx

theorem conditioned_posSemidef {p : ProMP d w} (hC : p.weightCov.PosSemidef) {R : Matrix (Fin d) (Fin d) ℝ}
    (hR : R.PosSemidef) {s : ℝ} (hd : IsUnit (R + (psi d w s)ᵀ * p.weightCov * psi d w s).det) (y : Vec d) :
    (p.conditioned y R s).weightCov.PosSemidef := by
  rw [conditioned_joseph hd]
  exact (posSemidef_conj hC _).add (posSemidef_conj hR _)

theorem conditioned_le {p : ProMP d w} (hC : p.weightCov.PosSemidef) {R : Matrix (Fin d) (Fin d) ℝ}
    (hR : R.PosSemidef) (s : ℝ) (y : Vec d) :
    (p.weightCov - (p.conditioned y R s).weightCov).PosSemidef := by
  have e : p.weightCov - (p.conditioned y R s).weightCov =
      (p.weightCov * psi d w s) * (R + (psi d w s)ᵀ * p.weightCov * psi d w s)⁻¹ * (p.weightCov * psi d w s)ᵀ := by
    show p.weightCov - (p.weightCov - p.gain R s * (psi d w s)ᵀ * p.weightCov) = _
    rw [sub_sub_cancel, transpose_mul, posSemidef_transpose hC]
    unfold gain
    simp only [Matrix.mul_assoc]
  rw [e]
  apply posSemidef_conj
  exact (hR.add (posSemidef_conj' hC _)).inv

theorem conditioned_cov_right {p : ProMP d w} {s : ℝ}
    (hd : IsUnit ((psi d w s)ᵀ * p.weightCov * psi d w s).det) (y : Vec d) :
    (p.conditioned y 0 s).weightCov * psi d w s = 0 := by
  show (p.weightCov - p.gain 0 s * (psi d w s)ᵀ * p.weightCov) * psi d w s = 0
  unfold gain
  rw [zero_add, Matrix.sub_mul]
  have e : p.weightCov * psi d w s * ((psi d w s)ᵀ * p.weightCov * psi d w s)⁻¹ * (psi d w s)ᵀ * p.weightCov * psi d w s =
      p.weightCov * psi d w s *
        (((psi d w s)ᵀ * p.weightCov * psi d w s)⁻¹ * ((psi d w s)ᵀ * p.weightCov * psi d w s)) := by
    simp only [Matrix.mul_assoc]
  rw [e, Matrix.nonsing_inv_mul _ hd, Matrix.mul_one, sub_self]

theorem activation_pos (hw : 0 < w) (s : ℝ) (a : Fin w) : 0 < Spec.activation w s a :=
  div_pos (rbf_pos s a) (rbf_sum_pos hw s)

theorem activation_sum (hw : 0 < w) (s : ℝ) : ∑ a, Spec.activation w s a = 1 := by
  unfold Spec.activation
  rw [← Finset.sum_div, div_self (rbf_sum_pos hw s).ne']

theorem psi_mulVec_flat (s : ℝ) (x : Vec d) (k : Fin d) (a : Fin w) :
    (psi d w s *ᵥ x) (finProdFinEquiv (k, a)) = Spec.activation w s a * x k := by
  rw [mulVec, dotProduct, Finset.sum_eq_single k]
  · rw [psi_flat, if_pos rfl]
  · intro l _ hl
    rw [psi_flat, if_neg (Ne.symm hl), zero_mul]
  · simp

theorem psi_mulVec_ne (hw : 0 < w) (s : ℝ) {x : Vec d} (hx : x ≠ 0) : psi d w s *ᵥ x ≠ 0 := by
  intro h
  apply hx
  funext k
  have := congrFun h (finProdFinEquiv (k, (⟨0, hw⟩ : Fin w)))
  rw [psi_mulVec_flat] at this
  have h2 := (activation_pos hw s ⟨0, hw⟩).ne'
  simpa [h2] using this

/-- The innovation matrix is positive definite. -/
theorem innovation_posDef (hw : 0 < w) {C : Matrix (Fin (d * w)) (Fin (d * w)) ℝ} (hC : C.PosDef) (s : ℝ)
    {R : Matrix (Fin d) (Fin d) ℝ} (hR : R.PosSemidef) : (R + (psi d w s)ᵀ * C * psi d w s).PosDef := by
  apply PosDef.posSemidef_add hR
  have := hC.conjTranspose_mul_mul_same (B := psi d w s) ?_
  · rwa [conjTranspose_eq_transpose_of_trivial] at this
  · intro x y hxy
    by_contra hne
    apply psi_mulVec_ne hw s (sub_ne_zero.2 hne)
    rw [mulVec_sub]
    exact sub_eq_zero.2 hxy

/-- Column and row of `cov_trajectory`. -/
theorem block_psi (T : Vec n) (m : ℝ) (C : Matrix (Fin (d * w)) (Fin (d * w)) ℝ) (k l : Fin d) (i j : Fin n) :
    ((ndBlockDiagonal (Matrix.of fun a i => Spec.activation w (T i / m) a) d)ᵀ * C *
        ndBlockDiagonal (Matrix.of fun a i => Spec.activation w (T i / m) a) d)
      (finProdFinEquiv (k, i)) (finProdFinEquiv (l, j)) = Spec.covariance C (T i / m) k (T j / m) l := by
  rw [block_quadratic]
  rfl

end ProMP

end Verif
