import Verif.Props.Obstacle
import Verif.Props.DualClass

/-! # C38: spring-like coupling of two participants -/

namespace Verif
open Spec Quaternion

/-! ## Positions -/

/-- **C38 (1D).** Leader factor 0: no coupling; equal factors: opposite couplings; desired displacement attained
(`y[1] = y[0] + desired_distance`): no coupling. -/
theorem C38_pos1d (desired : ℝ) (lf : Vec 2) (k c1 c2 : ℝ) (y yd : Vec 2) :
    let c := couplingPos1d desired lf k c1 c2 y yd
    (∀ i, lf i = 0 → c.1 i = 0 ∧ c.2 i = 0) ∧
      (lf 0 = lf 1 → c.1 0 = -c.1 1 ∧ c.2 0 = -c.2 1) ∧
      (y 1 = y 0 + desired → c = (0, 0)) := by
  refine ⟨fun i hi => ?_, fun h => ?_, fun h => ?_⟩
  · fin_cases i <;> simp_all [couplingPos1d]
  · simp [couplingPos1d, h]
  · refine Prod.ext ?_ ?_ <;> funext i <;> fin_cases i <;> simp [couplingPos1d, h]

/-- **C38 (1D, restoring).** With non-negative gains the velocity coupling does not increase the deviation from the desired
displacement: its rate of change is `-c1 * k * (lf[0] + lf[1])` times the deviation. -/
theorem C38_pos1d_restoring (desired : ℝ) (lf : Vec 2) (k c1 c2 : ℝ) (y yd : Vec 2) :
    let c := couplingPos1d desired lf k c1 c2 y yd
    c.1 1 - c.1 0 = -(c1 * k * (lf 0 + lf 1)) * (y 1 - y 0 - desired) ∧
      c.2 1 - c.2 0 = -(c2 * (c1 * k * (lf 0 + lf 1))) * (y 1 - y 0 - desired) := by
  constructor <;> simp [couplingPos1d] <;> ring

/-- **C38 (3D).** -/
theorem C38_pos3d (desired : Vec 3) (lf : Vec 2) (k c1 c2 : ℝ) (y yd : Vec (3 + 3)) :
    let c := couplingPos3d desired lf k c1 c2 y yd
    (lf 0 = 0 → ∀ i, linear c.1 i = 0 ∧ linear c.2 i = 0) ∧
      (lf 1 = 0 → ∀ i, angular c.1 i = 0 ∧ angular c.2 i = 0) ∧
      (lf 0 = lf 1 → ∀ i, linear c.1 i = -angular c.1 i ∧ linear c.2 i = -angular c.2 i) ∧
      ((∀ i, angular y i = linear y i + desired i) → c = (0, 0)) := by
  simp only [linear_eq, angular_eq, couplingPos3d, sliceTo_hstack, sliceFrom_hstack]
  refine ⟨fun h i => by simp [h], fun h i => by simp [h], fun h i => by simp [h], fun h => ?_⟩
  have e : ∀ i, -desired i - (sliceTo y i - sliceFrom y i) = 0 := fun i => by rw [h i]; ring
  simp only [e, mul_zero, zero_mul, neg_zero]
  refine Prod.ext ?_ ?_ <;> funext i <;> refine Fin.addCases (fun j => ?_) (fun j => ?_) i <;>
    simp [hstack, Fin.append_right, -Fin.natAdd_eq_addNat]

/-- **C38 (3D, restoring).** -/
theorem C38_pos3d_restoring (desired : Vec 3) (lf : Vec 2) (k c1 c2 : ℝ) (y yd : Vec (3 + 3)) :
    let c := couplingPos3d desired lf k c1 c2 y yd
    ∀ i, angular c.1 i - linear c.1 i = -(c1 * k * (lf 0 + lf 1)) * (angular y i - linear y i - desired i) ∧
      angular c.2 i - linear c.2 i = -(c2 * k * (lf 0 + lf 1)) * (angular y i - linear y i - desired i) := by
  intro c i
  simp only [c, linear_eq, angular_eq, couplingPos3d, sliceTo_hstack, sliceFrom_hstack]
  constructor <;> ring

/-! ## Distance of two arms -/

/-- **C38 (distance).** The coupling is defined unless the positions of the arms coincide (nan in the code). Leader factor 0:
no coupling; equal factors: opposite couplings; distance attained: no coupling; orientations are never coupled. -/
theorem C38_dual_distance (desired : ℝ) (lf : Vec 2) (k c1 c2 : ℝ) (y : Vec 14) :
    (couplingDualDistance desired lf k c1 c2 y = none ↔ armPosition 0 y = armPosition 1 y) ∧
      ∀ c, couplingDualDistance desired lf k c1 c2 y = some c →
        (∀ arm, lf arm = 0 → armLinear arm c.1 = 0 ∧ armLinear arm c.2 = 0) ∧
        (lf 0 = lf 1 → armLinear 0 c.1 = -armLinear 1 c.1 ∧ armLinear 0 c.2 = -armLinear 1 c.2) ∧
        (∀ arm, armAngular arm c.1 = 0 ∧ armAngular arm c.2 = 0) ∧
        (len (fun i => armPosition 0 y i - armPosition 1 y i) = |desired| → c = (0, 0)) := by
  simp only [armPosition_eq, armLinear_eq, armAngular_eq]
  constructor
  · unfold couplingDualDistance
    simp only [norm3_eq_length, length_eq_zero]
    constructor
    · intro h
      by_contra hne
      rw [if_neg] at h
      · cases h
      · intro hz
        exact hne (funext fun i => by have := congrFun hz i; simp only [Pi.zero_apply] at this; linarith)
    · intro h
      rw [if_pos]
      funext i; simp [h]
  · intro c hc
    unfold couplingDualDistance at hc
    simp only at hc
    split at hc
    · cases hc
    rename_i hn
    simp only [Option.some.injEq] at hc
    subst hc
    simp only [hstack4, armLin_joinVel, armAng_joinVel]
    refine ⟨fun arm h => ?_, fun h => ?_, fun arm => ?_, fun h => ?_⟩
    · fin_cases arm
      · have h' : lf 0 = 0 := h
        constructor <;> funext i <;> simp [h']
      · have h' : lf 1 = 0 := h
        constructor <;> funext i <;> simp [h']
    · constructor <;> funext i <;> simp [h]
    · fin_cases arm <;> exact ⟨rfl, rfl⟩
    · rw [← norm3_eq_len] at h
      have e : ∀ i, |desired| * (armPos 0 y i - armPos 1 y i) / norm3 (fun i => armPos 0 y i - armPos 1 y i) -
          (armPos 0 y i - armPos 1 y i) = 0 := by
        intro i
        rw [← h, mul_div_assoc, mul_div_cancel₀ _ hn, sub_self]
      simp only [e, mul_zero, zero_mul, neg_zero]
      refine Prod.ext ?_ ?_ <;> funext i <;> fin_cases i <;> simp [joinVel]

/-- **C38 (distance, restoring).** The velocity coupling changes the displacement `e` of the arms along `e`, by
`c1 * k * (lf[0] + lf[1]) * (|desired| - |e|)` times the unit vector of `e`. -/
theorem C38_dual_distance_restoring (desired : ℝ) (lf : Vec 2) (k c1 c2 : ℝ) (y : Vec 14) {c : Vec 12 × Vec 12}
    (hc : couplingDualDistance desired lf k c1 c2 y = some c) :
    let e : Vec 3 := fun i => armPosition 0 y i - armPosition 1 y i
    0 < len e ∧ ∀ i, armLinear 0 c.1 i - armLinear 1 c.1 i =
      c1 * k * (lf 0 + lf 1) * (|desired| - len e) * (e i / len e) := by
  simp only [armPosition_eq, armLinear_eq]
  unfold couplingDualDistance at hc
  simp only at hc
  split at hc
  · cases hc
  rename_i hn
  simp only [Option.some.injEq] at hc
  subst hc
  rw [norm3_eq_len] at hn
  refine ⟨lt_of_le_of_ne (len_nonneg _) (Ne.symm hn), fun i => ?_⟩
  simp only [hstack4, armLin_joinVel, norm3_eq_len, Matrix.cons_val_zero, Matrix.cons_val_one]
  field_simp
  ring

/-! ## Relative pose of two arms -/

theorem matVec_quat {q : Vec 4} (hq : UnitQuat q) (v : Vec 3) :
    Spec.pure (matVec (matrixFromQuaternion q) v) = quat q * Spec.pure v * star (quat q) := by
  have h : q 0 ^ 2 + q 1 ^ 2 + q 2 ^ 2 + q 3 ^ 2 = 1 := hq
  simp only [matrixFromQuaternion, normQuat_of_unit hq]
  ext
  · simp; ring
  · simp [matVec]; linear_combination (-v 0) * h
  · simp [matVec]; linear_combination (-v 1) * h
  · simp [matVec]; linear_combination (-v 2) * h

theorem pure_injective {a b : Vec 3} (h : Spec.pure a = Spec.pure b) : a = b := by
  have h1 := congrArg QuaternionAlgebra.imI h
  have h2 := congrArg QuaternionAlgebra.imJ h
  have h3 := congrArg QuaternionAlgebra.imK h
  simp only [pure_imI, pure_imJ, pure_imK] at h1 h2 h3
  funext i; fin_cases i <;> assumption

theorem matrix_ext {A B : Fin 3 → Fin 3 → ℝ} (h : ∀ v, matVec A v = matVec B v) : A = B := by
  funext i j
  have := congrFun (h (fun l => if l = j then 1 else 0)) i
  fin_cases j <;> simpa [matVec] using this

theorem matVec_matMul (A B : Fin 3 → Fin 3 → ℝ) (v : Vec 3) : matVec (matMul A B) v = matVec A (matVec B v) := by
  funext i; simp only [matVec, matMul]; ring

theorem matrix_transpose {q : Vec 4} (hq : UnitQuat q) :
    (fun i j => matrixFromQuaternion q j i) = matrixFromQuaternion (qConjCy q) := by
  funext i j
  simp only [matrixFromQuaternion, normQuat_of_unit hq, normQuat_of_unit (isUnit_qConj hq)]
  fin_cases i <;> fin_cases j <;> simp [qConjCy, sub_eq_add_neg]

theorem star_mul_self_unit {q : Vec 4} (hq : UnitQuat q) : star (quat q) * quat q = 1 ∧ quat q * star (quat q) = 1 := by
  have h := (isUnit_iff_normSq q).1 hq
  constructor
  · rw [Quaternion.star_mul_self, h]; rfl
  · rw [Quaternion.self_mul_star, h]; rfl

theorem matVec_transpose {q : Vec 4} (hq : UnitQuat q) (v : Vec 3) :
    matVec (fun i j => matrixFromQuaternion q j i) (matVec (matrixFromQuaternion q) v) = v := by
  apply pure_injective
  rw [matrix_transpose hq, matVec_quat (isUnit_qConj hq), matVec_quat hq, quat_qConj, star_star]
  obtain ⟨h1, h2⟩ := star_mul_self_unit hq
  calc star (quat q) * (quat q * Spec.pure v * star (quat q)) * quat q
      = (star (quat q) * quat q) * Spec.pure v * (star (quat q) * quat q) := by simp only [mul_assoc]
    _ = Spec.pure v := by rw [h1, one_mul, mul_one]

theorem matVec_transpose' {q : Vec 4} (hq : UnitQuat q) (v : Vec 3) :
    matVec (matrixFromQuaternion q) (matVec (fun i j => matrixFromQuaternion q j i) v) = v := by
  apply pure_injective
  rw [matVec_quat hq, matrix_transpose hq, matVec_quat (isUnit_qConj hq), quat_qConj, star_star]
  obtain ⟨h1, h2⟩ := star_mul_self_unit hq
  calc quat q * (star (quat q) * Spec.pure v * quat q) * star (quat q)
      = (quat q * star (quat q)) * Spec.pure v * (quat q * star (quat q)) := by simp only [mul_assoc]
    _ = Spec.pure v := by rw [h2, one_mul, mul_one]

/-- Quaternions that rotate alike have the same matrix. -/
theorem matrix_of_product {p q r : Vec 4} (hp : UnitQuat p) (hq : UnitQuat q) (hr : UnitQuat r)
    (h : quat r = quat p * quat q ∨ quat r = -(quat p * quat q)) :
    matrixFromQuaternion r = matMul (matrixFromQuaternion p) (matrixFromQuaternion q) := by
  apply matrix_ext
  intro v
  apply pure_injective
  rw [matVec_matMul, matVec_quat hr, matVec_quat hp, matVec_quat hq]
  rcases h with h | h
  · rw [h, star_mul]; simp only [mul_assoc]
  · rw [h, star_neg, star_mul]; simp only [mul_assoc, neg_mul, mul_neg, neg_neg]

theorem root_four (t : ℝ) : √((2 * t) ^ 2) = 2 * |t| := by
  rw [Real.sqrt_sq_eq_abs, abs_mul]; norm_num

theorem sign_smul {t : ℝ} (ht : t ≠ 0) (v : Vec 4) : (|t| / t) • v = v ∨ (|t| / t) • v = -v := by
  rcases abs_choice t with h | h
  · left; rw [h, div_self ht, one_smul]
  · right; rw [h, neg_div, div_self ht, neg_one_smul]

theorem abs_mul_abs_div {t : ℝ} (ht : t ≠ 0) (a : ℝ) : 1 / 2 / (2 * |t|) * (4 * (a * t)) = |t| / t * a := by
  have h : |t| ≠ 0 := abs_ne_zero.2 ht
  have h2 : |t| * |t| = t * t := abs_mul_abs_self t
  field_simp
  linear_combination (-4 * a) * h2

theorem quaternionFromMatrix_entries (R : Fin 3 → Fin 3 → ℝ) (w x y z : ℝ) (h : w ^ 2 + x ^ 2 + y ^ 2 + z ^ 2 = 1)
    (e00 : R 0 0 = 1 - 2 * (y ^ 2 + z ^ 2)) (e01 : R 0 1 = 2 * (x * y - z * w)) (e02 : R 0 2 = 2 * (x * z + y * w))
    (e10 : R 1 0 = 2 * (x * y + z * w)) (e11 : R 1 1 = 1 - 2 * (x ^ 2 + z ^ 2)) (e12 : R 1 2 = 2 * (y * z - x * w))
    (e20 : R 2 0 = 2 * (x * z - y * w)) (e21 : R 2 1 = 2 * (y * z + x * w)) (e22 : R 2 2 = 1 - 2 * (x ^ 2 + y ^ 2)) :
    ∃ t : ℝ, t ≠ 0 ∧ quaternionFromMatrix R = (|t| / t) • ![w, x, y, z] := by
  have half : ∀ t : ℝ, t ≠ 0 → 1 / 2 * (2 * |t|) = |t| / t * t := by
    intro t ht; field_simp
  simp only [quaternionFromMatrix]
  by_cases h1 : 0 < R 0 0 + R 1 1 + R 2 2
  · rw [if_pos h1]
    rw [e00, e11, e22] at h1
    have hne : w ≠ 0 := by rintro rfl; nlinarith
    refine ⟨w, hne, ?_⟩
    simp only [e00, e01, e02, e10, e11, e12, e20, e21, e22]
    rw [show 1 + (1 - 2 * (y ^ 2 + z ^ 2) + (1 - 2 * (x ^ 2 + z ^ 2)) + (1 - 2 * (x ^ 2 + y ^ 2))) = (2 * w) ^ 2 by
      linear_combination (-4) * h, root_four]
    funext i
    fin_cases i <;> simp only [Fin.zero_eta, Fin.mk_one, Fin.reduceFinMk, Matrix.cons_val_zero, Matrix.cons_val_one,
      Matrix.cons_val, Pi.smul_apply, smul_eq_mul]
    · exact half w hne
    · rw [← abs_mul_abs_div hne x]; ring
    · rw [← abs_mul_abs_div hne y]; ring
    · rw [← abs_mul_abs_div hne z]; ring
  rw [if_neg h1]
  rw [e00, e11, e22] at h1
  by_cases h2 : R 1 1 < R 0 0 ∧ R 2 2 < R 0 0
  · rw [if_pos h2]
    rw [e00, e11, e22] at h2
    have hne : x ≠ 0 := by rintro rfl; nlinarith [sq_nonneg y, sq_nonneg z, h2.1, h2.2]
    refine ⟨x, hne, ?_⟩
    simp only [e00, e01, e02, e10, e11, e12, e20, e21, e22]
    rw [show 1 + (1 - 2 * (y ^ 2 + z ^ 2)) - (1 - 2 * (x ^ 2 + z ^ 2)) - (1 - 2 * (x ^ 2 + y ^ 2)) = (2 * x) ^ 2 by
      linear_combination (0) * h, root_four]
    funext i
    fin_cases i <;> simp only [Fin.zero_eta, Fin.mk_one, Fin.reduceFinMk, Matrix.cons_val_zero, Matrix.cons_val_one,
      Matrix.cons_val, Pi.smul_apply, smul_eq_mul]
    · rw [← abs_mul_abs_div hne w]; ring
    · exact half x hne
    · rw [← abs_mul_abs_div hne y]; ring
    · rw [← abs_mul_abs_div hne z]; ring
  rw [if_neg h2]
  rw [e00, e11, e22] at h2
  by_cases h3 : R 2 2 < R 1 1
  · rw [if_pos h3]
    rw [e11, e22] at h3
    have hne : y ≠ 0 := by rintro rfl; nlinarith [sq_nonneg z]
    refine ⟨y, hne, ?_⟩
    simp only [e00, e01, e02, e10, e11, e12, e20, e21, e22]
    rw [show 1 + (1 - 2 * (x ^ 2 + z ^ 2)) - (1 - 2 * (y ^ 2 + z ^ 2)) - (1 - 2 * (x ^ 2 + y ^ 2)) = (2 * y) ^ 2 by
      linear_combination (0) * h, root_four]
    funext i
    fin_cases i <;> simp only [Fin.zero_eta, Fin.mk_one, Fin.reduceFinMk, Matrix.cons_val_zero, Matrix.cons_val_one,
      Matrix.cons_val, Pi.smul_apply, smul_eq_mul]
    · rw [← abs_mul_abs_div hne w]; ring
    · rw [← abs_mul_abs_div hne x]; ring
    · exact half y hne
    · rw [← abs_mul_abs_div hne z]; ring
  · rw [if_neg h3]
    rw [e11, e22] at h3
    have hne : z ≠ 0 := by
      rintro rfl
      have hy : y ^ 2 = 0 := by nlinarith [sq_nonneg y]
      apply h2
      have hx : 0 < x ^ 2 := by nlinarith
      constructor <;> nlinarith
    refine ⟨z, hne, ?_⟩
    simp only [e00, e01, e02, e10, e11, e12, e20, e21, e22]
    rw [show 1 + (1 - 2 * (x ^ 2 + y ^ 2)) - (1 - 2 * (y ^ 2 + z ^ 2)) - (1 - 2 * (x ^ 2 + z ^ 2)) = (2 * z) ^ 2 by
      linear_combination (0) * h, root_four]
    funext i
    fin_cases i <;> simp only [Fin.zero_eta, Fin.mk_one, Fin.reduceFinMk, Matrix.cons_val_zero, Matrix.cons_val_one,
      Matrix.cons_val, Pi.smul_apply, smul_eq_mul]
    · rw [← abs_mul_abs_div hne w]; ring
    · rw [← abs_mul_abs_div hne x]; ring
    · rw [← abs_mul_abs_div hne y]; ring
    · exact half z hne

/-- `quaternion_from_matrix` inverts `matrix_from_quaternion` up to the sign. -/
theorem quaternionFromMatrix_matrix {q : Vec 4} (hq : UnitQuat q) :
    quaternionFromMatrix (matrixFromQuaternion q) = q ∨ quaternionFromMatrix (matrixFromQuaternion q) = -q := by
  have e : q = ![q 0, q 1, q 2, q 3] := by funext i; fin_cases i <;> rfl
  have hn := normQuat_of_unit hq
  obtain ⟨t, ht, h⟩ := quaternionFromMatrix_entries (matrixFromQuaternion q) (q 0) (q 1) (q 2) (q 3) hq
    (by simp [matrixFromQuaternion, hn]) (by simp [matrixFromQuaternion, hn]) (by simp [matrixFromQuaternion, hn])
    (by simp [matrixFromQuaternion, hn]) (by simp [matrixFromQuaternion, hn]) (by simp [matrixFromQuaternion, hn])
    (by simp [matrixFromQuaternion, hn]) (by simp [matrixFromQuaternion, hn]) (by simp [matrixFromQuaternion, hn])
  rw [h, ← e]
  exact sign_smul ht q

theorem isUnit_neg {q : Vec 4} (hq : UnitQuat q) : UnitQuat (-q) := by
  simpa [UnitQuat] using hq

theorem isUnit_quaternionFromMatrix {q : Vec 4} (hq : UnitQuat q) :
    UnitQuat (quaternionFromMatrix (matrixFromQuaternion q)) := by
  rcases quaternionFromMatrix_matrix hq with h | h <;> rw [h]
  · exact hq
  · exact isUnit_neg hq

theorem matVec_smul (A : Fin 3 → Fin 3 → ℝ) (a : ℝ) (v : Vec 3) : matVec A (fun i => a * v i) = fun i => a * matVec A v i := by
  funext i; simp only [matVec]; ring

theorem matVec_sub (A : Fin 3 → Fin 3 → ℝ) (u v : Vec 3) :
    matVec A (fun i => u i - v i) = fun i => matVec A u i - matVec A v i := by
  funext i; simp only [matVec]; ring

/-- The relative pose computed by the coupling term. -/
theorem right2left_pos {y : Vec 14} :
    (right2leftPq y).1 = matVec (fun i j => matrixFromQuaternion (armRot 0 y) j i)
      (fun i => armPos 1 y i - armPos 0 y i) := by
  rw [matVec_sub]
  funext i
  simp only [right2leftPq, Transform.concat, Transform.invert, transformFromPq]
  ring

/-- Orientation part of the relative pose: `conj(left) * right` up to the sign. -/
theorem right2left_rot {y : Vec 14} (hl : UnitQuat (armRot 0 y)) (hr : UnitQuat (armRot 1 y)) :
    UnitQuat (right2leftPq y).2 ∧
      (right2leftPq y).2 = quaternionFromMatrix (matrixFromQuaternion (hamilton (qConjCy (armRot 0 y)) (armRot 1 y))) ∧
      (quat (right2leftPq y).2 = star (quat (armRot 0 y)) * quat (armRot 1 y) ∨
        quat (right2leftPq y).2 = -(star (quat (armRot 0 y)) * quat (armRot 1 y))) := by
  have hc := isUnit_qConj hl
  have hp := isUnit_hamilton hc hr
  have e : (right2leftPq y).2 = quaternionFromMatrix (matrixFromQuaternion
      (hamilton (qConjCy (armRot 0 y)) (armRot 1 y))) := by
    simp only [right2leftPq, Transform.concat, Transform.invert, transformFromPq]
    rw [matrix_transpose hl, matrix_of_product hc hr hp (.inl (quat_hamilton _ _))]
  refine ⟨e ▸ isUnit_quaternionFromMatrix hp, e, ?_⟩
  rw [e]
  rcases quaternionFromMatrix_matrix hp with h | h <;> rw [h]
  · left; rw [quat_hamilton, quat_qConj]
  · right
    rw [← quat_qConj, ← quat_hamilton]
    ext <;> simp

/-- **C38 (pose).** An arm with leader factor 0 receives no coupling. -/
theorem C38_dual_pose_leader (ops : QuatOps) (a : DualPoseCoupling) (y : Vec 14) (yd : Vec 12) {arm : Fin 2}
    (h : a.lf arm = 0) :
    let c := a.coupling ops y yd
    armLinear arm c.1 = 0 ∧ armAngular arm c.1 = 0 ∧ armLinear arm c.2 = 0 ∧ armAngular arm c.2 = 0 := by
  simp only [DualPoseCoupling.coupling, hstack4, armLinear_eq, armAngular_eq, armLin_joinVel, armAng_joinVel]
  have z : (fun _ : Fin 3 => (0 : ℝ)) = 0 := rfl
  fin_cases arm
  · have h' : a.lf 0 = 0 := h
    simp [h', z]
  · have h' : a.lf 1 = 0 := h
    simp [h', z]

/-- **C38 (pose).** Equal factors give opposite velocity couplings; the acceleration couplings are opposite apart from the
damping of both velocities. Orientation and position are coupled only if selected. -/
theorem C38_dual_pose_opposite (ops : QuatOps) (a : DualPoseCoupling) (y : Vec 14) (yd : Vec 12)
    (h : a.lf 0 = a.lf 1) :
    let c := a.coupling ops y yd
    armLinear 0 c.1 = -armLinear 1 c.1 ∧ armAngular 0 c.1 = -armAngular 1 c.1 ∧
      (∀ i, armLinear 0 c.2 i + armLinear 1 c.2 i = if a.couplePosition then
        -(a.lf 0 * (2 * √(a.k * a.c2)) * (armLinear 0 yd i + armLinear 1 yd i)) else 0) ∧
      ∀ i, armAngular 0 c.2 i + armAngular 1 c.2 i = if a.coupleOrientation then
        -(a.lf 0 * (2 * √(a.k * a.c2)) * (armAngular 0 yd i + armAngular 1 yd i)) else 0 := by
  simp only [DualPoseCoupling.coupling, hstack4, armLinear_eq, armAngular_eq, armLin_joinVel, armAng_joinVel]
  have hneg : ∀ (A : Fin 3 → Fin 3 → ℝ) (v : Vec 3) i,
      matVec A (fun j => -a.k * v j) i = -matVec A (fun j => a.k * v j) i := by
    intro A v i; simp only [matVec]; ring
  refine ⟨?_, ?_, fun i => ?_, fun i => ?_⟩
  · cases a.couplePosition
    · simp
    · funext i
      simp only [Matrix.cons_val_zero, Matrix.cons_val_one, if_true, Pi.neg_apply, hneg, h]
      ring
  · cases a.coupleOrientation
    · simp
    · funext i
      simp only [Matrix.cons_val_zero, Matrix.cons_val_one, if_true, Pi.neg_apply, hneg, h]
      ring
  · cases a.couplePosition
    · simp
    · simp only [Matrix.cons_val_zero, Matrix.cons_val_one, if_true, hneg, h]
      ring
  · cases a.coupleOrientation
    · simp
    · simp only [Matrix.cons_val_zero, Matrix.cons_val_one, if_true, hneg, h]
      ring

/-- **C38 (pose).** When the arms are in the desired formation (right arm at pose `(p, q)` in the frame of the left arm),
there is no velocity coupling and the acceleration coupling only damps; at rest it vanishes too. -/
theorem C38_dual_pose_formation {ops : QuatOps} {eps : ℝ} (hops : LawfulQuatOps ops eps) (heps : 0 < eps)
    (a : DualPoseCoupling) {p : Vec 3} {q : Vec 4} (hq : UnitQuat q) (hd : a.desired = transformFromPq p q)
    {y : Vec 14} (hy : ∀ arm, UnitQuat (armOrientation arm y)) (hf : InFormation p q y) (yd : Vec 12) :
    let c := a.coupling ops y yd
    c.1 = 0 ∧ (∀ arm i, armLinear arm c.2 i = if a.couplePosition then
          -(a.lf arm * (2 * √(a.k * a.c2)) * armLinear arm yd i) else 0) ∧
      (∀ arm i, armAngular arm c.2 i = if a.coupleOrientation then
          -(a.lf arm * (2 * √(a.k * a.c2)) * armAngular arm yd i) else 0) ∧
      (yd = 0 → c.2 = 0) := by
  simp only [armOrientation_eq] at hy
  obtain ⟨hp, hr⟩ := hf
  simp only [armOrientation_eq, armPosition_eq] at hp hr
  -- position
  have hpos : (right2leftPq y).1 = p := by
    rw [right2left_pos]
    have : (fun i => armPos 1 y i - armPos 0 y i) = matVec (matrixFromQuaternion (armRot 0 y)) p := by
      apply pure_injective
      rw [matVec_quat (hy 0)]
      have e : Spec.pure (fun i => armPos 1 y i - armPos 0 y i) = Spec.pure (armPos 1 y) - Spec.pure (armPos 0 y) := by
        ext <;> simp
      rw [e, hp]; abel
    rw [this, matVec_transpose (hy 0)]
  -- orientation
  have hR : matrixFromQuaternion (hamilton (qConjCy (armRot 0 y)) (armRot 1 y)) = matrixFromQuaternion q := by
    rw [matrix_of_product (isUnit_qConj (hy 0)) (hy 1) (isUnit_hamilton (isUnit_qConj (hy 0)) (hy 1))
      (.inl (quat_hamilton _ _)), matrix_of_product (hy 0) hq (hy 1) hr, ← matrix_transpose (hy 0)]
    apply matrix_ext
    intro v
    rw [matVec_matMul, matVec_matMul, matVec_transpose (hy 0)]
  have hrot : (right2leftPq y).2 = quaternionFromMatrix (matrixFromQuaternion q) := by
    rw [(right2left_rot (hy 0) (hy 1)).2.1, hR]
  have hlog : ops.log (ops.mul (quaternionFromMatrix (matrixFromQuaternion q))
      (ops.conj (quaternionFromMatrix (matrixFromQuaternion q)))) = 0 :=
    log_mul_conj_self hops hops heps (isUnit_quaternionFromMatrix hq)
  have hz : ∀ (A : Fin 3 → Fin 3 → ℝ), matVec A (fun _ => 0) = 0 := by
    intro A; funext i; simp [matVec]
  have hL : ∀ arm i, armLinear arm (a.coupling ops y yd).2 i = if a.couplePosition then
          -(a.lf arm * (2 * √(a.k * a.c2)) * armLinear arm yd i) else 0 := by
    intro arm i
    simp only [DualPoseCoupling.coupling, hstack4, armLinear_eq, armLin_joinVel, hd, transformFromPq, hpos, sub_self,
      mul_zero, hz]
    fin_cases arm
    · cases a.couplePosition
      · simp
      · simp; ring
    · cases a.couplePosition
      · simp
      · simp; ring
  have hA : ∀ arm i, armAngular arm (a.coupling ops y yd).2 i = if a.coupleOrientation then
          -(a.lf arm * (2 * √(a.k * a.c2)) * armAngular arm yd i) else 0 := by
    intro arm i
    simp only [DualPoseCoupling.coupling, hstack4, armAngular_eq, armAng_joinVel, hd, transformFromPq, hrot, hlog,
      Pi.zero_apply, mul_zero, hz]
    fin_cases arm
    · cases a.coupleOrientation
      · simp
      · simp; ring
    · cases a.coupleOrientation
      · simp
      · simp; ring
  refine ⟨?_, hL, hA, ?_⟩
  · apply vel_ext
    · intro arm
      simp only [DualPoseCoupling.coupling, hstack4, armLin_joinVel, hd, transformFromPq, hpos, sub_self,
        mul_zero, hz, Pi.zero_apply]
      fin_cases arm <;> cases a.couplePosition <;> rfl
    · intro arm
      simp only [DualPoseCoupling.coupling, hstack4, armAng_joinVel, hd, transformFromPq, hrot, hlog,
        Pi.zero_apply, mul_zero, hz]
      fin_cases arm <;> cases a.coupleOrientation <;> rfl
  · rintro rfl
    apply vel_ext
    · intro arm
      funext i
      rw [← armLinear_eq, hL]
      cases a.couplePosition <;> simp [armLinear_eq, armLin]
    · intro arm
      funext i
      rw [← armAngular_eq, hA]
      cases a.coupleOrientation <;> simp [armAngular_eq, armAng]

/-- **C38 (pose, restoring).** The velocity coupling of the positions reduces the deviation
`e = left + R_left p - right` from the desired position at the rate `c1 * k * (lf[0] + lf[1])`. -/
theorem C38_dual_pose_restoring {ops : QuatOps} (a : DualPoseCoupling) (hc : a.couplePosition = true)
    {y : Vec 14} (hy : UnitQuat (armOrientation 0 y)) (yd : Vec 12) :
    ∃ e : Vec 3, Spec.pure e = Spec.pure (armPosition 0 y) +
        quat (armOrientation 0 y) * Spec.pure a.desired.p * star (quat (armOrientation 0 y)) -
        Spec.pure (armPosition 1 y) ∧
      ∀ i, armLinear 1 (a.coupling ops y yd).1 i - armLinear 0 (a.coupling ops y yd).1 i =
        a.c1 * a.k * (a.lf 0 + a.lf 1) * e i := by
  simp only [armOrientation_eq, armPosition_eq, armLinear_eq] at *
  refine ⟨fun i => armPos 0 y i + matVec (matrixFromQuaternion (armRot 0 y)) a.desired.p i - armPos 1 y i, ?_, ?_⟩
  · rw [← matVec_quat hy]
    ext <;> simp
  · intro i
    simp only [DualPoseCoupling.coupling, hstack4, armLin_joinVel, hc, if_true, transformFromPq, right2left_pos,
      Matrix.cons_val_zero, Matrix.cons_val_one]
    rw [matVec_smul, matVec_smul, matVec_sub, matVec_transpose' hy]
    ring

/-- **C38 (pose, orientation).** The rotational coupling of the right arm is the rotation to the desired orientation: with
`lf[1] * c1 * k = 1`, rotating the right arm by it yields the desired orientation relative to the left arm (unless the
deviation is below the threshold `eps` of the logarithm). -/
theorem C38_dual_pose_orientation {ops : QuatOps} {eps : ℝ} (hops : LawfulQuatOps ops eps)
    (a : DualPoseCoupling) (hc : a.coupleOrientation = true) (hg : a.lf 1 * a.c1 * a.k = 1) {p : Vec 3} {q : Vec 4}
    (hq : UnitQuat q) (hd : a.desired = transformFromPq p q) {y : Vec 14}
    (hy : ∀ arm, UnitQuat (armOrientation arm y)) (yd : Vec 12)
    (hlarge : ∀ r, (quat r = quat q * star (star (quat (armOrientation 0 y)) * quat (armOrientation 1 y)) ∨
      quat r = -(quat q * star (star (quat (armOrientation 0 y)) * quat (armOrientation 1 y)))) →
        eps ≤ √(r 1 ^ 2 + r 2 ^ 2 + r 3 ^ 2)) :
    let right := quat (ops.mul (ops.exp (armAngular 1 (a.coupling ops y yd).1)) (armOrientation 1 y))
    right = quat (armOrientation 0 y) * quat q ∨ right = -(quat (armOrientation 0 y) * quat q) := by
  simp only [armOrientation_eq, armAngular_eq] at *
  obtain ⟨hu, -, hrel⟩ := right2left_rot (hy 0) (hy 1)
  set qa := (right2leftPq y).2 with hqa
  set qd := quaternionFromMatrix (matrixFromQuaternion q) with hqd
  have hqdu : UnitQuat qd := isUnit_quaternionFromMatrix hq
  have hqds : quat qd = quat q ∨ quat qd = -quat q := by
    rcases quaternionFromMatrix_matrix hq with h | h
    · left; rw [hqd, h]
    · right; rw [hqd, h]; ext <;> simp
  have hconj := hops.conj qa hu
  have hcu := LawfulQuatOps.unit_conj hops hu
  have hmul := hops.mul qd _ hqdu hcu
  rw [hconj] at hmul
  have hmu := LawfulQuatOps.unit_mul hops hqdu hcu
  have hcase : quat (ops.mul qd (ops.conj qa)) = quat q * star (star (quat (armRot 0 y)) * quat (armRot 1 y)) ∨
      quat (ops.mul qd (ops.conj qa)) = -(quat q * star (star (quat (armRot 0 y)) * quat (armRot 1 y))) := by
    rw [hmul]
    rcases hqds with h1 | h1 <;> rcases hrel with h2 | h2 <;> rw [h1, h2]
    · left; rfl
    · right; rw [star_neg, mul_neg]
    · right; rw [neg_mul]
    · left; rw [star_neg, mul_neg, neg_mul, neg_neg]
  have hlog := (hops.log _ hmu (hlarge _ hcase)).2
  have hC : armAng 1 (a.coupling ops y yd).1 = matVec (matrixFromQuaternion (armRot 0 y))
      (ops.log (ops.mul qd (ops.conj qa))) := by
    simp only [DualPoseCoupling.coupling, hstack4, armAng_joinVel, hc, if_true, hd, transformFromPq,
      Matrix.cons_val_one, ← hqa, ← hqd]
    rw [matVec_smul]
    funext i
    simp only [Matrix.cons_val_zero]
    rw [← mul_assoc, hg, one_mul]
  obtain ⟨s1, s2⟩ := star_mul_self_unit (hy 0)
  obtain ⟨r1, r2⟩ := star_mul_self_unit (hy 1)
  have hexp : quat (ops.exp (armAng 1 (a.coupling ops y yd).1)) = quat (armRot 0 y) *
      NormedSpace.exp ((1 / 2 : ℝ) • Spec.pure (ops.log (ops.mul qd (ops.conj qa)))) * star (quat (armRot 0 y)) := by
    rw [hops.exp, hC, matVec_quat (hy 0)]
    have hne : quat (armRot 0 y) ≠ 0 := by
      intro h0; rw [h0] at s2; simp at s2
    have hinv : star (quat (armRot 0 y)) = (quat (armRot 0 y))⁻¹ := eq_inv_of_mul_eq_one_right s2
    letI : NormedAlgebra ℚ ℍ[ℝ] := NormedAlgebra.restrictScalars ℚ ℝ ℍ[ℝ]
    rw [hinv, ← NormedSpace.exp_conj _ _ hne, mul_smul_comm, smul_mul_assoc]
  have hexpu : UnitQuat (ops.exp (armAng 1 (a.coupling ops y yd).1)) := LawfulQuatOps.unit_exp hops _
  rw [hops.mul _ _ hexpu (hy 1), hexp]
  have hfin : ∀ E : ℍ[ℝ], (E = quat q * star (star (quat (armRot 0 y)) * quat (armRot 1 y)) ∨
      E = -(quat q * star (star (quat (armRot 0 y)) * quat (armRot 1 y)))) →
      quat (armRot 0 y) * E * star (quat (armRot 0 y)) * quat (armRot 1 y) = quat (armRot 0 y) * quat q ∨
      quat (armRot 0 y) * E * star (quat (armRot 0 y)) * quat (armRot 1 y) = -(quat (armRot 0 y) * quat q) := by
    intro E hE
    have hbase : quat (armRot 0 y) * (quat q * star (star (quat (armRot 0 y)) * quat (armRot 1 y))) *
        star (quat (armRot 0 y)) * quat (armRot 1 y) = quat (armRot 0 y) * quat q := by
      rw [star_mul, star_star]
      calc _ = quat (armRot 0 y) * quat q * (star (quat (armRot 1 y)) * (quat (armRot 0 y) * star (quat (armRot 0 y))) *
            quat (armRot 1 y)) := by simp only [mul_assoc]
        _ = _ := by rw [s2, mul_one, r1, mul_one]
    rcases hE with rfl | rfl
    · exact .inl hbase
    · right; rw [← hbase]; simp only [mul_neg, neg_mul]
  apply hfin
  rcases hlog with h | h <;> rcases hcase with h' | h' <;> rw [h, h']
  · exact .inl rfl
  · exact .inr rfl
  · exact .inr rfl
  · left; rw [neg_neg]

/-- A formation with different orientations in which both arms are coupled: right arm one unit in front of the left arm,
turned by 180 degrees. -/
example : ∃ (p : Vec 3) (q : Vec 4) (y : Vec 14), UnitQuat q ∧ (∀ arm, UnitQuat (armOrientation arm y)) ∧
    InFormation p q y ∧ armOrientation 0 y ≠ armOrientation 1 y ∧ armPosition 0 y ≠ armPosition 1 y := by
  refine ⟨![1, 0, 0], ![0, 0, 0, 1], joinState ![0, ![-1, 0, 0]] ![![0, 0, 0, 1], ![1, 0, 0, 0]], ?_, ?_, ?_, ?_, ?_⟩
  · simp [UnitQuat]
  · intro arm
    simp only [armOrientation_eq, armRot_joinState]
    fin_cases arm <;> simp [UnitQuat]
  · simp only [InFormation, armOrientation_eq, armRot_joinState, armPosition_eq, armPos_joinState]
    constructor
    · ext <;> simp
    · right; ext <;> simp
  · simp only [armOrientation_eq, armRot_joinState]
    intro h; simpa using congrFun h 0
  · simp only [armPosition_eq, armPos_joinState]
    intro h; simpa using congrFun h 0

end Verif
