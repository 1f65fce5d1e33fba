import Verif.Lemmas.Quat
import Mathlib.Analysis.SpecialFunctions.Trigonometric.Bounds
import Mathlib.Tactic.Module

/-! # C32: quaternion functions -/

namespace Verif
open Quaternion Spec

/-- **C32 (product).** `concatenate_quaternions` and `q_conj` of `dmp_fast.pyx` are product and conjugate of
quaternions; `concatenate_quaternions` normalises its result whatever the lengths of its non-zero arguments. -/
theorem C32_concatenate (p q : Vec 4) :
    (UnitQuat p → UnitQuat q → quat (concatenateQuaternionsCy p q) = quat p * quat q) ∧
    (p ≠ 0 → q ≠ 0 → UnitQuat (concatenateQuaternionsCy p q) ∧
      ∃ c : ℝ, 0 < c ∧ quat (concatenateQuaternionsCy p q) = c • (quat p * quat q)) ∧
    quat (qConjCy q) = star (quat q) := by
  refine ⟨fun hp hq => lawful_cython.mul p q hp hq, fun hp hq => ⟨isUnit_concat hp hq, ?_⟩, quat_qConj q⟩
  have hpq : hamilton p q ≠ 0 := by
    intro h
    have h1 : quat p * quat q = 0 := by rw [← quat_hamilton, h]; ext <;> simp
    have h0 : quat (0 : Vec 4) = 0 := by ext <;> simp
    rcases mul_eq_zero.1 h1 with h2 | h2
    · exact hp (quat_injective (h2.trans h0.symm))
    · exact hq (quat_injective (h2.trans h0.symm))
  refine ⟨(norm4 (hamilton p q))⁻¹, inv_pos.2 (norm4_pos hpq), ?_⟩
  rw [← quat_hamilton]
  ext <;> simp [concatenateQuaternionsCy, div_eq_inv_mul]

/-- A unit quaternion that is not the identity (rotation by 90 degrees about x would need a root; this one is exact). -/
example : UnitQuat ![3 / 5, 4 / 5, 0, 0] := by
  have e2 : (![3 / 5, 4 / 5, 0, 0] : Vec 4) 2 = 0 := rfl
  have e3 : (![3 / 5, 4 / 5, 0, 0] : Vec 4) 3 = 0 := rfl
  unfold UnitQuat; rw [e2, e3]; norm_num

/-- **C32 (exponential).** `quaternion_from_compact_axis_angle a` is the exponential of half the rotation vector, a unit
quaternion for every `a`. -/
theorem C32_exp (a : Vec 3) :
    quat (quaternionFromCompactAxisAngleCy a) = NormedSpace.exp ((1 / 2 : ℝ) • Spec.pure a) ∧
      UnitQuat (quaternionFromCompactAxisAngleCy a) :=
  ⟨quat_exp a, isUnit_exp a⟩

/-- **C32 (logarithm).** For every unit quaternion the compact axis-angle vector has length at most `π`, and mapping it
back gives `q` or `-q`; if the vector part is shorter than `10⁻¹⁶` the result is 0 (and `q` or `-q` is within `10⁻¹⁶` of
the identity). -/
theorem C32_log (q : Vec 4) (hq : UnitQuat q) :
    length (compactAxisAngleFromQuaternionCy q) ≤ Real.pi ∧
    (1 / 10 ^ 16 ≤ √(q 1 ^ 2 + q 2 ^ 2 + q 3 ^ 2) →
      quaternionFromCompactAxisAngleCy (compactAxisAngleFromQuaternionCy q) = q ∨
      quaternionFromCompactAxisAngleCy (compactAxisAngleFromQuaternionCy q) = -q) ∧
    (√(q 1 ^ 2 + q 2 ^ 2 + q 3 ^ 2) < 1 / 10 ^ 16 →
      compactAxisAngleFromQuaternionCy q = 0 ∧ 1 - |q 0| ≤ 1 / 10 ^ 32) := by
  by_cases hv : √(q 1 ^ 2 + q 2 ^ 2 + q 3 ^ 2) < 1 / 10 ^ 16
  · have h0 : compactAxisAngleFromQuaternionCy q = 0 := lawful_cython.log_small q hq hv
    refine ⟨?_, fun h => absurd hv (not_lt.2 h), fun _ => ⟨h0, ?_⟩⟩
    · rw [h0, length_eq_zero.2 rfl]; exact Real.pi_pos.le
    · have h1 := Real.lt_sq_of_sqrt_lt hv
      unfold UnitQuat at hq
      have h2 : |q 0| ≤ 1 := abs_le.2 (unit_abs_le hq)
      have h3 : |q 0| ^ 2 = q 0 ^ 2 := sq_abs _
      have h4 : ((1 : ℝ) / 10 ^ 16) ^ 2 = 1 / 10 ^ 32 := by norm_num
      nlinarith [abs_nonneg (q 0)]
  · have h := lawful_cython.log q hq (not_lt.1 hv)
    refine ⟨h.1, fun _ => ?_, fun h => absurd h hv⟩
    have hneg : quat (-q) = -quat q := by ext <;> simp
    rcases h.2 with h2 | h2
    · exact .inl (quat_injective ((quat_exp _).trans h2))
    · exact .inr (quat_injective (((quat_exp _).trans h2).trans hneg.symm))

/-- **C32 (double cover).** `q` and `-q` (the same rotation) have the same compact axis-angle vector unless the rotation
angle is exactly 180 degrees, in which case the vectors are opposite. -/
theorem C32_antipodal (q : Vec 4) (hq : UnitQuat q) :
    (q 0 ≠ 0 → compactAxisAngleFromQuaternionCy (-q) = compactAxisAngleFromQuaternionCy q) ∧
    (q 0 = 0 → compactAxisAngleFromQuaternionCy (-q) = -compactAxisAngleFromQuaternionCy q ∧
      length (compactAxisAngleFromQuaternionCy q) = Real.pi) := by
  have hq' : UnitQuat (-q) := by unfold UnitQuat at *; simpa using hq
  have hvl : vecLen (-q) = vecLen q := by unfold vecLen; simp
  have hax : axisOf (-q) = -axisOf q := by
    have e : ∀ x : Vec 4, axisOf x = ![x 1 / vecLen x, x 2 / vecLen x, x 3 / vecLen x] := fun _ => rfl
    rw [e, e, hvl]
    funext i
    fin_cases i <;> simp [neg_div]
  have hac : Real.arccos ((-q) 0) = Real.pi - Real.arccos (q 0) := by
    show Real.arccos (-(q 0)) = _
    exact Real.arccos_neg _
  rw [logCy_eq hq, logCy_eq hq', hvl, hax, hac]
  have hn : (-q) 0 = -(q 0) := rfl
  rw [hn]
  constructor
  · intro h
    split_ifs with h1 h2 h3 h3
    · rfl
    · linarith
    · module
    · module
    · exfalso; apply h; linarith
  · intro h
    have hv : vecLen q = 1 := by
      unfold vecLen
      unfold UnitQuat at hq
      rw [show q 1 ^ 2 + q 2 ^ 2 + q 3 ^ 2 = 1 by rw [h] at hq; linarith, Real.sqrt_one]
    rw [hv, h]
    norm_num
    refine ⟨?_, ?_⟩
    · congr 1; ring
    · have e : ((2 : ℝ) * (Real.pi / 2) - 2 * Real.pi) = -Real.pi := by ring
      rw [e, length_smul_axis (length_axisOf (by rw [hv]; norm_num)), abs_neg, abs_of_pos Real.pi_pos]

/-- **C32 (exp then log).** For rotation vectors shorter than `π` that are not tiny, the logarithm inverts the
exponential; at length exactly `π` it returns the opposite vector (the same rotation). -/
theorem C32_log_exp (a : Vec 3) (ha : 1 / 10 ^ 16 ≤ Real.sin (length a / 2)) :
    (length a < Real.pi → compactAxisAngleFromQuaternionCy (quaternionFromCompactAxisAngleCy a) = a) ∧
    (length a = Real.pi → compactAxisAngleFromQuaternionCy (quaternionFromCompactAxisAngleCy a) = -a) := by
  have hs : 0 < Real.sin (length a / 2) := lt_of_lt_of_le (by norm_num) ha
  have hl : 0 < length a := by
    rcases (Real.sqrt_nonneg (a 0 ^ 2 + a 1 ^ 2 + a 2 ^ 2)).lt_or_eq with h | h
    · exact h
    · have : length a = 0 := h.symm
      rw [this] at hs; simp at hs
  have hq := isUnit_exp a
  set q := quaternionFromCompactAxisAngleCy a with hqdef
  have e : q = ![Real.cos (length a / 2), Real.sin (length a / 2) * (a 0 / length a),
      Real.sin (length a / 2) * (a 1 / length a), Real.sin (length a / 2) * (a 2 / length a)] := by
    apply quat_injective
    rw [hqdef, quat_exp, exp_half]
    ext <;> simp
  have e0 : q 0 = Real.cos (length a / 2) := by rw [e]; rfl
  have e1 : q 1 = Real.sin (length a / 2) * (a 0 / length a) := by rw [e]; rfl
  have e2 : q 2 = Real.sin (length a / 2) * (a 1 / length a) := by rw [e]; rfl
  have e3 : q 3 = Real.sin (length a / 2) * (a 2 / length a) := by rw [e]; rfl
  have hlsq : a 0 ^ 2 + a 1 ^ 2 + a 2 ^ 2 = length a ^ 2 := by
    unfold length; rw [Real.sq_sqrt (by positivity)]
  have hv : vecLen q = Real.sin (length a / 2) := by
    unfold vecLen
    rw [e1, e2, e3]
    rw [show (Real.sin (length a / 2) * (a 0 / length a)) ^ 2 + (Real.sin (length a / 2) * (a 1 / length a)) ^ 2 +
      (Real.sin (length a / 2) * (a 2 / length a)) ^ 2 =
      Real.sin (length a / 2) ^ 2 * ((a 0 ^ 2 + a 1 ^ 2 + a 2 ^ 2) / length a ^ 2) by field_simp, hlsq,
      div_self (by positivity), mul_one, Real.sqrt_sq hs.le]
  have hax : ∀ θ : ℝ, θ • axisOf q = (θ / length a) • a := by
    intro θ
    have ea : axisOf q = ![q 1 / vecLen q, q 2 / vecLen q, q 3 / vecLen q] := rfl
    rw [ea, hv, e1, e2, e3]
    funext i
    fin_cases i <;> simp <;> field_simp
  rw [logCy_eq hq, hv, if_neg (not_lt.2 ha), hax, e0]
  constructor
  · intro hlt
    have hc : 0 < Real.cos (length a / 2) := Real.cos_pos_of_mem_Ioo ⟨by linarith, by linarith⟩
    rw [if_pos hc, Real.arccos_cos (by linarith) (by linarith), show 2 * (length a / 2) / length a = 1 by field_simp, one_smul]
  · intro heq
    rw [heq, Real.cos_pi_div_two, if_neg (lt_irrefl _), Real.arccos_zero,
      show (2 * (Real.pi / 2) - 2 * Real.pi) / Real.pi = -1 by field_simp; ring, neg_one_smul]

/-- The hypothesis of `C32_log_exp` is met by all rotation vectors with length in `[10⁻¹⁵, π]`, for example. -/
example (a : Vec 3) (h1 : 1 / 10 ^ 15 ≤ length a) (h2 : length a ≤ Real.pi) :
    1 / 10 ^ 16 ≤ Real.sin (length a / 2) := by
  have h := Real.mul_le_sin (x := length a / 2) (by linarith [show (0 : ℝ) < 1 / 10 ^ 15 by norm_num]) (by linarith)
  refine le_trans ?_ h
  have hπ : 2 / 4 ≤ 2 / Real.pi := div_le_div_of_nonneg_left (by norm_num) Real.pi_pos Real.pi_le_four
  calc (1 : ℝ) / 10 ^ 16 ≤ 2 / 4 * (1 / 10 ^ 15 / 2) := by norm_num
    _ ≤ 2 / Real.pi * (length a / 2) := by gcongr

/-- Rotation of a vector by a matrix. -/
def Spec.matVec (R : Fin 3 → Fin 3 → ℝ) (v : Vec 3) : Vec 3 := fun i => R i 0 * v 0 + R i 1 * v 1 + R i 2 * v 2

/-- **C32 (matrix).** `matrix_from_compact_axis_angle` is the rotation `v ↦ q v q*` of the corresponding quaternion. -/
theorem C32_matrix (r v : Vec 3) :
    Spec.pure (Spec.matVec (matrixFromCompactAxisAngleCy r) v) =
      quat (quaternionFromCompactAxisAngleCy r) * Spec.pure v * star (quat (quaternionFromCompactAxisAngleCy r)) := by
  have hlsq : r 0 ^ 2 + r 1 ^ 2 + r 2 ^ 2 = length r ^ 2 := by
    unfold length; rw [Real.sq_sqrt (by positivity)]
  unfold matrixFromCompactAxisAngleCy quaternionFromCompactAxisAngleCy
  simp only [norm3_eq_length]
  split_ifs with h
  · ext <;> simp [Spec.matVec]
  · have hc : Real.cos (length r) = 2 * Real.cos (length r / 2) ^ 2 - 1 := by
      rw [← Real.cos_two_mul]; congr 1; ring
    have hs : Real.sin (length r) = 2 * Real.sin (length r / 2) * Real.cos (length r / 2) := by
      rw [← Real.sin_two_mul]; congr 1; ring
    have h1 := Real.sin_sq_add_cos_sq (length r / 2)
    have hu : (r 0 / length r) ^ 2 + (r 1 / length r) ^ 2 + (r 2 / length r) ^ 2 = 1 := by
      rw [show (r 0 / length r) ^ 2 + (r 1 / length r) ^ 2 + (r 2 / length r) ^ 2 =
        (r 0 ^ 2 + r 1 ^ 2 + r 2 ^ 2) / length r ^ 2 by field_simp, hlsq, div_self (by positivity)]
    rw [hc, hs]
    generalize r 0 / length r = x at *
    generalize r 1 / length r = y at *
    generalize r 2 / length r = z at *
    generalize Real.cos (length r / 2) = c at *
    generalize Real.sin (length r / 2) = s at *
    ext
    · simp; ring
    · simp [Spec.matVec]
      linear_combination ((1 - 2 * x ^ 2) * v 0 - 2 * x * y * v 1 - 2 * x * z * v 2) * h1 + s ^ 2 * v 0 * hu
    · simp [Spec.matVec]
      linear_combination ((1 - 2 * y ^ 2) * v 1 - 2 * x * y * v 0 - 2 * y * z * v 2) * h1 + s ^ 2 * v 1 * hu
    · simp [Spec.matVec]
      linear_combination ((1 - 2 * z ^ 2) * v 2 - 2 * x * z * v 0 - 2 * y * z * v 1) * h1 + s ^ 2 * v 2 * hu

end Verif
