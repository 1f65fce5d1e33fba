import Verif.Spec.Quat
import Mathlib.Tactic.Linarith
import Mathlib.Tactic.FieldSimp
import Mathlib.Tactic.Ring
import Mathlib.Tactic.Positivity
import Mathlib.Tactic.NormNum
import Mathlib.Tactic.LinearCombination

/-! # Helper lemmas about quaternions -/

namespace Verif
open Quaternion Spec

@[simp] theorem quat_re (q : Vec 4) : (quat q).re = q 0 := rfl
@[simp] theorem quat_imI (q : Vec 4) : (quat q).imI = q 1 := rfl
@[simp] theorem quat_imJ (q : Vec 4) : (quat q).imJ = q 2 := rfl
@[simp] theorem quat_imK (q : Vec 4) : (quat q).imK = q 3 := rfl
@[simp] theorem pure_re (a : Vec 3) : (Spec.pure a).re = 0 := rfl
@[simp] theorem pure_imI (a : Vec 3) : (Spec.pure a).imI = a 0 := rfl
@[simp] theorem pure_imJ (a : Vec 3) : (Spec.pure a).imJ = a 1 := rfl
@[simp] theorem pure_imK (a : Vec 3) : (Spec.pure a).imK = a 2 := rfl

theorem Spec.quat_injective {p q : Vec 4} (h : quat p = quat q) : p = q := by
  have h0 := congrArg QuaternionAlgebra.re h
  have h1 := congrArg QuaternionAlgebra.imI h
  have h2 := congrArg QuaternionAlgebra.imJ h
  have h3 := congrArg QuaternionAlgebra.imK h
  simp only [quat] at h0 h1 h2 h3
  funext i
  fin_cases i
  · exact h0
  · exact h1
  · exact h2
  · exact h3

theorem quat_hamilton (p q : Vec 4) : quat (hamilton p q) = quat p * quat q := by
  ext <;> simp [hamilton] <;> ring

theorem quat_qConj (q : Vec 4) : quat (qConjCy q) = star (quat q) := by
  ext <;> simp [qConjCy]

theorem normSq_quat (q : Vec 4) : normSq (quat q) = q 0 ^ 2 + q 1 ^ 2 + q 2 ^ 2 + q 3 ^ 2 := by
  rw [normSq_def']; rfl

theorem isUnit_iff_normSq (q : Vec 4) : UnitQuat q ↔ normSq (quat q) = 1 := by
  rw [normSq_quat, UnitQuat]

theorem norm4_eq_one {q : Vec 4} (h : UnitQuat q) : norm4 q = 1 := by
  unfold norm4
  rw [show q 0 * q 0 + q 1 * q 1 + q 2 * q 2 + q 3 * q 3 = 1 by rw [← h]; ring, Real.sqrt_one]

theorem isUnit_hamilton {p q : Vec 4} (hp : UnitQuat p) (hq : UnitQuat q) : UnitQuat (hamilton p q) := by
  rw [isUnit_iff_normSq] at *
  rw [quat_hamilton, map_mul, hp, hq, one_mul]

theorem isUnit_qConj {q : Vec 4} (hq : UnitQuat q) : UnitQuat (qConjCy q) := by
  rw [isUnit_iff_normSq] at *
  rw [quat_qConj, normSq_star, hq]

theorem concat_of_unit {p q : Vec 4} (hp : UnitQuat p) (hq : UnitQuat q) :
    concatenateQuaternionsCy p q = hamilton p q := by
  funext i
  rw [concatenateQuaternionsCy, norm4_eq_one (isUnit_hamilton hp hq), div_one]

theorem normQuat_of_unit {q : Vec 4} (h : UnitQuat q) : normQuat q = q := by
  unfold normQuat
  rw [norm4_eq_one h]
  simp

theorem norm4_pos {q : Vec 4} (h : q ≠ 0) : 0 < norm4 q := by
  unfold norm4
  apply Real.sqrt_pos.2
  by_contra hn
  apply h
  have h0 : q 0 * q 0 = 0 := by nlinarith [mul_self_nonneg (q 0), mul_self_nonneg (q 1), mul_self_nonneg (q 2), mul_self_nonneg (q 3)]
  have h1 : q 1 * q 1 = 0 := by nlinarith [mul_self_nonneg (q 0), mul_self_nonneg (q 1), mul_self_nonneg (q 2), mul_self_nonneg (q 3)]
  have h2 : q 2 * q 2 = 0 := by nlinarith [mul_self_nonneg (q 0), mul_self_nonneg (q 1), mul_self_nonneg (q 2), mul_self_nonneg (q 3)]
  have h3 : q 3 * q 3 = 0 := by nlinarith [mul_self_nonneg (q 0), mul_self_nonneg (q 1), mul_self_nonneg (q 2), mul_self_nonneg (q 3)]
  funext i
  fin_cases i
  · exact mul_self_eq_zero.1 h0
  · exact mul_self_eq_zero.1 h1
  · exact mul_self_eq_zero.1 h2
  · exact mul_self_eq_zero.1 h3

/-- The normalised product of non-zero quaternions is a unit quaternion. -/
theorem isUnit_concat {p q : Vec 4} (hp : p ≠ 0) (hq : q ≠ 0) : UnitQuat (concatenateQuaternionsCy p q) := by
  have hpq : hamilton p q ≠ 0 := by
    intro h
    have h1 : quat p * quat q = 0 := by rw [← quat_hamilton, h]; ext <;> simp
    have h0 : quat (0 : Vec 4) = 0 := by ext <;> simp
    rcases mul_eq_zero.1 h1 with h2 | h2
    · exact hp (quat_injective (h2.trans h0.symm))
    · exact hq (quat_injective (h2.trans h0.symm))
  have hn := norm4_pos hpq
  have hn2 : norm4 (hamilton p q) ^ 2 = hamilton p q 0 ^ 2 + hamilton p q 1 ^ 2 + hamilton p q 2 ^ 2 + hamilton p q 3 ^ 2 := by
    have h0 : 0 ≤ hamilton p q 0 * hamilton p q 0 + hamilton p q 1 * hamilton p q 1 + hamilton p q 2 * hamilton p q 2 +
        hamilton p q 3 * hamilton p q 3 :=
      add_nonneg (add_nonneg (add_nonneg (mul_self_nonneg _) (mul_self_nonneg _)) (mul_self_nonneg _)) (mul_self_nonneg _)
    unfold norm4
    rw [Real.sq_sqrt h0]
    ring
  show (hamilton p q 0 / norm4 (hamilton p q)) ^ 2 + (hamilton p q 1 / norm4 (hamilton p q)) ^ 2 +
    (hamilton p q 2 / norm4 (hamilton p q)) ^ 2 + (hamilton p q 3 / norm4 (hamilton p q)) ^ 2 = 1
  rw [div_pow, div_pow, div_pow, div_pow, ← add_div, ← add_div, ← add_div, ← hn2, div_self (by positivity)]

theorem UnitQuat.ne_zero {q : Vec 4} (h : UnitQuat q) : q ≠ 0 := by
  rintro rfl
  simp [UnitQuat] at h

theorem norm_pure (a : Vec 3) : ‖Spec.pure a‖ = length a := by
  have h : ‖Spec.pure a‖ ^ 2 = length a ^ 2 := by
    rw [sq, ← normSq_eq_norm_mul_self, normSq_def', length, Real.sq_sqrt (by positivity)]
    simp
  exact (pow_left_inj₀ (norm_nonneg _) (Real.sqrt_nonneg _) two_ne_zero).1 h

theorem norm3_eq_length (a : Vec 3) : norm3 a = length a := by
  unfold norm3 length
  congr 1; ring

theorem length_eq_zero {a : Vec 3} : length a = 0 ↔ a = 0 := by
  constructor
  · intro h
    rw [← norm_pure, norm_eq_zero] at h
    have h1 := congrArg QuaternionAlgebra.imI h
    have h2 := congrArg QuaternionAlgebra.imJ h
    have h3 := congrArg QuaternionAlgebra.imK h
    simp only [Spec.pure] at h1 h2 h3
    funext i
    fin_cases i
    · exact h1
    · exact h2
    · exact h3
  · rintro rfl
    simp [length]

/-- Exponential of a rotation vector. -/
theorem exp_half (a : Vec 3) : NormedSpace.exp ((1 / 2 : ℝ) • Spec.pure a) =
    ⟨Real.cos (length a / 2), Real.sin (length a / 2) * (a 0 / length a), Real.sin (length a / 2) * (a 1 / length a),
      Real.sin (length a / 2) * (a 2 / length a)⟩ := by
  rw [exp_of_re_eq_zero _ (by simp)]
  have hn : ‖(1 / 2 : ℝ) • Spec.pure a‖ = length a / 2 := by
    rw [norm_smul, norm_pure, Real.norm_eq_abs, abs_of_pos (by norm_num)]; ring
  rw [hn]
  by_cases h : length a = 0
  · rw [h]
    have := length_eq_zero.1 h
    subst this
    ext <;> simp
  · ext <;> simp <;> field_simp

theorem quat_exp (a : Vec 3) : quat (quaternionFromCompactAxisAngleCy a) = NormedSpace.exp ((1 / 2 : ℝ) • Spec.pure a) := by
  rw [exp_half]
  unfold quaternionFromCompactAxisAngleCy
  simp only [norm3_eq_length]
  split_ifs with h
  · have := length_eq_zero.1 h
    subst this
    rw [h]
    ext <;> simp
  · ext <;> simp

theorem isUnit_exp (a : Vec 3) : UnitQuat (quaternionFromCompactAxisAngleCy a) := by
  rw [isUnit_iff_normSq, quat_exp, normSq_exp]
  simp

/-- Exponential of a multiple of a unit vector. -/
theorem exp_axis {u : Vec 3} (hu : length u = 1) (θ : ℝ) : NormedSpace.exp ((1 / 2 : ℝ) • Spec.pure (θ • u)) =
    ⟨Real.cos (θ / 2), Real.sin (θ / 2) * u 0, Real.sin (θ / 2) * u 1, Real.sin (θ / 2) * u 2⟩ := by
  have hl : length (θ • u) = |θ| := by
    rw [← norm_pure]
    have : Spec.pure (θ • u) = θ • Spec.pure u := by ext <;> simp
    rw [this, norm_smul, norm_pure, hu, mul_one, Real.norm_eq_abs]
  rw [exp_half, hl]
  rcases lt_trichotomy θ 0 with h | h | h
  · rw [abs_of_neg h, show -θ / 2 = -(θ / 2) by ring, Real.cos_neg, Real.sin_neg]
    have e : ∀ x : ℝ, -Real.sin (θ / 2) * (θ * x / -θ) = Real.sin (θ / 2) * x := fun x => by
      have := h.ne
      field_simp
    simp only [Pi.smul_apply, smul_eq_mul, e]
    rfl
  · subst h
    ext <;> simp
  · rw [abs_of_pos h]
    have e : ∀ x : ℝ, Real.sin (θ / 2) * (θ * x / θ) = Real.sin (θ / 2) * x := fun x => by
      have := h.ne'
      field_simp
    simp only [Pi.smul_apply, smul_eq_mul, e]
    rfl

theorem length_smul_axis {u : Vec 3} (hu : length u = 1) (θ : ℝ) : length (θ • u) = |θ| := by
  rw [← norm_pure]
  have : Spec.pure (θ • u) = θ • Spec.pure u := by ext <;> simp
  rw [this, norm_smul, norm_pure, hu, mul_one, Real.norm_eq_abs]

/-- Axis of a unit quaternion. -/
noncomputable def axisOf (q : Vec 4) : Vec 3 :=
  let p := √(q 1 ^ 2 + q 2 ^ 2 + q 3 ^ 2)
  ![q 1 / p, q 2 / p, q 3 / p]

/-- Length of the vector part. -/
noncomputable def vecLen (q : Vec 4) : ℝ := √(q 1 ^ 2 + q 2 ^ 2 + q 3 ^ 2)

theorem length_axisOf {q : Vec 4} (h : 0 < vecLen q) : length (axisOf q) = 1 := by
  have h2 : vecLen q ^ 2 = q 1 ^ 2 + q 2 ^ 2 + q 3 ^ 2 := by
    unfold vecLen; exact Real.sq_sqrt (by positivity)
  have e : axisOf q = ![q 1 / vecLen q, q 2 / vecLen q, q 3 / vecLen q] := rfl
  rw [e]
  unfold length
  simp only [Matrix.cons_val_zero, Matrix.cons_val_one, Matrix.cons_val]
  rw [show (q 1 / vecLen q) ^ 2 + (q 2 / vecLen q) ^ 2 + (q 3 / vecLen q) ^ 2 =
    (q 1 ^ 2 + q 2 ^ 2 + q 3 ^ 2) / vecLen q ^ 2 by field_simp, ← h2, div_self (by positivity), Real.sqrt_one]

theorem sin_arccos_unit {q : Vec 4} (h : UnitQuat q) : Real.sin (Real.arccos (q 0)) = vecLen q := by
  rw [Real.sin_arccos, vecLen]
  congr 1
  unfold UnitQuat at h
  linarith

theorem unit_abs_le {q : Vec 4} (h : UnitQuat q) : -1 ≤ q 0 ∧ q 0 ≤ 1 := by
  unfold UnitQuat at h
  constructor <;> nlinarith [sq_nonneg (q 1), sq_nonneg (q 2), sq_nonneg (q 3)]

/-- A rotation by `2 arccos w` around the axis of `q` is `q`. -/
theorem exp_angle {q : Vec 4} (h : UnitQuat q) (hv : 0 < vecLen q) :
    NormedSpace.exp ((1 / 2 : ℝ) • Spec.pure ((2 * Real.arccos (q 0)) • axisOf q)) = quat q := by
  rw [exp_axis (length_axisOf hv), show 2 * Real.arccos (q 0) / 2 = Real.arccos (q 0) by ring, sin_arccos_unit h,
    Real.cos_arccos (unit_abs_le h).1 (unit_abs_le h).2]
  have e : axisOf q = ![q 1 / vecLen q, q 2 / vecLen q, q 3 / vecLen q] := rfl
  rw [e]
  ext <;> simp <;> field_simp

theorem exp_angle_neg {q : Vec 4} (h : UnitQuat q) (hv : 0 < vecLen q) :
    NormedSpace.exp ((1 / 2 : ℝ) • Spec.pure ((2 * Real.arccos (q 0) - 2 * Real.pi) • axisOf q)) = -quat q := by
  rw [exp_axis (length_axisOf hv), show (2 * Real.arccos (q 0) - 2 * Real.pi) / 2 = Real.arccos (q 0) - Real.pi by ring,
    Real.sin_sub_pi, Real.cos_sub_pi, sin_arccos_unit h, Real.cos_arccos (unit_abs_le h).1 (unit_abs_le h).2]
  have e : axisOf q = ![q 1 / vecLen q, q 2 / vecLen q, q 3 / vecLen q] := rfl
  rw [e]
  ext <;> simp <;> field_simp

/-- Rotation angle chosen by `dmp_fast.pyx`. -/
theorem fmod_arccos (w : ℝ) : fmod (2 * Real.arccos w + Real.pi) (2 * Real.pi) - Real.pi =
    if 0 < w then 2 * Real.arccos w else 2 * Real.arccos w - 2 * Real.pi := by
  have hπ := Real.pi_pos
  unfold fmod
  split_ifs with h
  · have h1 : Real.arccos w < Real.pi / 2 := Real.arccos_lt_pi_div_two.2 h
    have h0 := Real.arccos_nonneg w
    have : ⌊(2 * Real.arccos w + Real.pi) / (2 * Real.pi)⌋ = 0 := by
      rw [Int.floor_eq_iff]
      constructor
      · push_cast; positivity
      · rw [div_lt_iff₀ (by positivity)]; push_cast; linarith
    rw [this]; push_cast; ring
  · have h1 : Real.pi / 2 ≤ Real.arccos w := by
      by_contra hn
      exact h (Real.arccos_lt_pi_div_two.1 (not_le.1 hn))
    have h0 := Real.arccos_le_pi w
    have : ⌊(2 * Real.arccos w + Real.pi) / (2 * Real.pi)⌋ = 1 := by
      rw [Int.floor_eq_iff]
      constructor
      · rw [le_div_iff₀ (by positivity)]; push_cast; linarith
      · rw [div_lt_iff₀ (by positivity)]; push_cast; linarith
    rw [this]; push_cast; ring

/-- Rotation angle chosen by pytransform3d. -/
theorem normAngle_arccos (w : ℝ) : normAngle (2 * Real.arccos w) =
    if 0 ≤ w then 2 * Real.arccos w else 2 * Real.arccos w - 2 * Real.pi := by
  have hπ := Real.pi_pos
  unfold normAngle
  have e : 2 * Real.arccos w / (2 * Real.pi) = Real.arccos w / Real.pi := by field_simp
  rw [e]
  split_ifs with h
  · have h1 : Real.arccos w ≤ Real.pi / 2 := Real.arccos_le_pi_div_two.2 h
    have h0 := Real.arccos_nonneg w
    have : ⌈Real.arccos w / Real.pi - 1 / 2⌉ = 0 := by
      rw [Int.ceil_eq_iff]
      constructor
      · have : 0 ≤ Real.arccos w / Real.pi := by positivity
        push_cast; linarith
      · have : Real.arccos w / Real.pi ≤ 1 / 2 := by rw [div_le_iff₀ hπ]; linarith
        push_cast; linarith
    rw [this]; push_cast; ring
  · have h1 : Real.pi / 2 < Real.arccos w := by
      by_contra hn
      exact h (Real.arccos_le_pi_div_two.1 (not_lt.1 hn))
    have h0 := Real.arccos_le_pi w
    have : ⌈Real.arccos w / Real.pi - 1 / 2⌉ = 1 := by
      rw [Int.ceil_eq_iff]
      constructor
      · have : 1 / 2 < Real.arccos w / Real.pi := by rw [lt_div_iff₀ hπ]; linarith
        push_cast; linarith
      · have : Real.arccos w / Real.pi ≤ 1 := by rw [div_le_iff₀ hπ]; linarith
        push_cast; linarith
    rw [this]; push_cast; ring

theorem vecLen_lt_iff (q : Vec 4) : q 1 * q 1 + q 2 * q 2 + q 3 * q 3 < 1 / 10 ^ 32 ↔ vecLen q < 1 / 10 ^ 16 := by
  unfold vecLen
  rw [Real.sqrt_lt' (by norm_num), show q 1 * q 1 + q 2 * q 2 + q 3 * q 3 = q 1 ^ 2 + q 2 ^ 2 + q 3 ^ 2 by ring,
    show ((1 : ℝ) / 10 ^ 16) ^ 2 = 1 / 10 ^ 32 by norm_num]

/-- Closed form of the Cython logarithm on unit quaternions. -/
theorem logCy_eq {q : Vec 4} (h : UnitQuat q) : compactAxisAngleFromQuaternionCy q =
    if vecLen q < 1 / 10 ^ 16 then 0
    else (if 0 < q 0 then 2 * Real.arccos (q 0) else 2 * Real.arccos (q 0) - 2 * Real.pi) • axisOf q := by
  unfold compactAxisAngleFromQuaternionCy
  simp only [vecLen_lt_iff]
  split_ifs with h1 h2
  · rfl
  all_goals
    have hn : √(q 0 * q 0 + (q 1 * q 1 + q 2 * q 2 + q 3 * q 3)) = 1 := by
      rw [show q 0 * q 0 + (q 1 * q 1 + q 2 * q 2 + q 3 * q 3) = 1 by unfold UnitQuat at h; linarith, Real.sqrt_one]
    have hp : √(q 1 * q 1 + q 2 * q 2 + q 3 * q 3) = vecLen q := by unfold vecLen; congr 1; ring
    have e : axisOf q = ![q 1 / vecLen q, q 2 / vecLen q, q 3 / vecLen q] := rfl
    simp only [hn, hp, div_one, fmod_arccos, e]
  · rw [if_pos h2]
    funext i
    fin_cases i <;> simp [div_div_eq_mul_div] <;> ring
  · rw [if_neg h2]
    funext i
    fin_cases i <;> simp [div_div_eq_mul_div] <;> ring

/-- Closed form of pytransform3d's logarithm on unit quaternions. -/
theorem logPy_eq {eps : ℝ} {q : Vec 4} (h : UnitQuat q) : logPy eps q =
    if vecLen q < eps then 0
    else (if 0 ≤ q 0 then 2 * Real.arccos (q 0) else 2 * Real.arccos (q 0) - 2 * Real.pi) • axisOf q := by
  unfold logPy
  have hp : norm3 ![q 1, q 2, q 3] = vecLen q := by
    unfold norm3 vecLen; simp; congr 1; ring
  have e : axisOf q = ![q 1 / vecLen q, q 2 / vecLen q, q 3 / vecLen q] := rfl
  simp only [normQuat_of_unit h, hp, normAngle_arccos, e]
  split_ifs
  · rfl
  · funext i
    fin_cases i <;> simp <;> ring
  · funext i
    fin_cases i <;> simp <;> ring

theorem angle_le_pi {w : ℝ} : (0 ≤ w → |2 * Real.arccos w| ≤ Real.pi) ∧
    (w ≤ 0 → |2 * Real.arccos w - 2 * Real.pi| ≤ Real.pi) := by
  have h0 := Real.arccos_nonneg w
  have h1 := Real.arccos_le_pi w
  have hπ := Real.pi_pos
  constructor
  · intro h
    have := Real.arccos_le_pi_div_two.2 h
    rw [abs_of_nonneg (by linarith)]; linarith
  · intro h
    have : Real.pi / 2 ≤ Real.arccos w := by
      by_contra hn
      exact absurd (Real.arccos_lt_pi_div_two.1 (not_le.1 hn)) (not_lt.2 h)
    rw [abs_le]; constructor <;> linarith

theorem lawful_cython : LawfulQuatOps QuatOps.cython (1 / 10 ^ 16) where
  mul p q hp hq := by
    show quat (concatenateQuaternionsCy p q) = _
    rw [concat_of_unit hp hq, quat_hamilton]
  conj q _ := quat_qConj q
  exp a := quat_exp a
  log_small q h hv := by
    show compactAxisAngleFromQuaternionCy q = 0
    rw [logCy_eq h, if_pos (show vecLen q < _ from hv)]
  log q h hv := by
    show length (compactAxisAngleFromQuaternionCy q) ≤ _ ∧ (_ = _ ∨ _ = _)
    have hv' : 0 < vecLen q := lt_of_lt_of_le (by norm_num) hv
    rw [show QuatOps.cython.log q = compactAxisAngleFromQuaternionCy q from rfl, logCy_eq h, if_neg (not_lt.2 (show _ ≤ vecLen q from hv))]
    split_ifs with hw
    · refine ⟨?_, .inl (exp_angle h hv')⟩
      rw [length_smul_axis (length_axisOf hv')]
      exact angle_le_pi.1 hw.le
    · refine ⟨?_, .inr (exp_angle_neg h hv')⟩
      rw [length_smul_axis (length_axisOf hv')]
      exact angle_le_pi.2 (not_lt.1 hw)

theorem lawful_python {eps : ℝ} (heps : 0 < eps) : LawfulQuatOps (QuatOps.python eps) eps where
  mul p q _ _ := quat_hamilton p q
  conj q h := by
    show quat (qConjCy (normQuat q)) = _
    rw [normQuat_of_unit h, quat_qConj]
  exp a := quat_exp a
  log_small q h hv := by
    show logPy eps q = 0
    rw [logPy_eq h, if_pos (show vecLen q < _ from hv)]
  log q h hv := by
    have hv' : 0 < vecLen q := lt_of_lt_of_le heps hv
    rw [show (QuatOps.python eps).log q = logPy eps q from rfl, logPy_eq h, if_neg (not_lt.2 (show _ ≤ vecLen q from hv))]
    split_ifs with hw
    · refine ⟨?_, .inl (exp_angle h hv')⟩
      rw [length_smul_axis (length_axisOf hv')]
      exact angle_le_pi.1 hw
    · refine ⟨?_, .inr (exp_angle_neg h hv')⟩
      rw [length_smul_axis (length_axisOf hv')]
      exact angle_le_pi.2 (not_le.1 hw).le

end Verif
