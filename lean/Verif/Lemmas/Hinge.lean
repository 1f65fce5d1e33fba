import Verif.Lemmas.Geodesic
import Mathlib.Analysis.Calculus.Deriv.MeanValue
import Mathlib.Analysis.Convex.SpecificFunctions.Deriv

/-! # The angle between two rotations is at most the distance of their rotation vectors -/

namespace Verif
open Spec Quaternion

/-- `sin x / x` is antitone on `(0, π]`. -/
theorem sinc_anti {x y : ℝ} (hx : 0 < x) (hxy : x ≤ y) (hy : y ≤ Real.pi) : Real.sin y / y * x ≤ Real.sin x := by
  have hy0 : 0 < y := by linarith
  have h := strictConcaveOn_sin_Icc.concaveOn.2 (show y ∈ Set.Icc 0 Real.pi from ⟨hy0.le, hy⟩)
    (show (0 : ℝ) ∈ Set.Icc 0 Real.pi from ⟨le_rfl, Real.pi_pos.le⟩)
    (show 0 ≤ x / y by positivity) (show 0 ≤ 1 - x / y by rw [sub_nonneg, div_le_one hy0]; exact hxy) (by ring)
  simp only [smul_eq_mul, Real.sin_zero, mul_zero, add_zero] at h
  rw [div_mul_cancel₀ _ hy0.ne'] at h
  calc Real.sin y / y * x = x / y * Real.sin y := by ring
    _ ≤ _ := h

/-- Tangents of `w ↦ cos √w` lie below the cosine. -/
theorem cos_ge_tangent {r s : ℝ} (hr : 0 < r) (hrπ : r ≤ Real.pi) (hs : 0 ≤ s) :
    Real.cos r - Real.sin r / r / 2 * (s ^ 2 - r ^ 2) ≤ Real.cos s := by
  set k := Real.sin r / r with hk
  have hk0 : 0 ≤ k := div_nonneg (Real.sin_nonneg_of_nonneg_of_le_pi hr.le hrπ) hr.le
  let G : ℝ → ℝ := fun s => Real.cos s + k / 2 * s ^ 2
  have hG : ∀ x, HasDerivAt G (-Real.sin x + k * x) x := by
    intro x
    have h1 := (Real.hasDerivAt_cos x).add (((hasDerivAt_id x).pow 2).const_mul (k / 2))
    have e : -Real.sin x + k / 2 * ((2 : ℕ) * id x ^ (2 - 1) * 1) = -Real.sin x + k * x := by
      push_cast
      simp only [id]
      ring
    rw [e] at h1
    exact h1
  have hcont : Continuous G := continuous_iff_continuousAt.2 fun x => (hG x).continuousAt
  have hbelow : ∀ s, 0 ≤ s → s ≤ Real.pi → G r ≤ G s := by
    intro s hs hsπ
    rcases le_total s r with h | h
    · have : AntitoneOn G (Set.Icc 0 r) := by
        apply antitoneOn_of_deriv_nonpos (convex_Icc 0 r) hcont.continuousOn
        · intro x _; exact (hG x).differentiableAt.differentiableWithinAt
        · intro x hx
          rw [interior_Icc] at hx
          rw [(hG x).deriv]
          have := sinc_anti hx.1 hx.2.le hrπ
          rw [← hk] at this
          linarith
      exact this ⟨hs, h⟩ ⟨hr.le, le_rfl⟩ h
    · have : MonotoneOn G (Set.Icc r Real.pi) := by
        apply monotoneOn_of_deriv_nonneg (convex_Icc r Real.pi) hcont.continuousOn
        · intro x _; exact (hG x).differentiableAt.differentiableWithinAt
        · intro x hx
          rw [interior_Icc] at hx
          rw [(hG x).deriv]
          have hx0 : 0 < x := hr.trans hx.1
          have := sinc_anti hr hx.1.le hx.2.le
          have h2 : Real.sin x / x ≤ k := by
            rw [hk, le_div_iff₀ hr]; exact this
          rw [div_le_iff₀ hx0] at h2
          linarith
      exact this ⟨le_rfl, hrπ⟩ ⟨h, hsπ⟩ h
  have hfin : G r ≤ G s := by
    rcases le_total s Real.pi with h | h
    · exact hbelow s hs h
    · refine (hbelow Real.pi Real.pi_pos.le le_rfl).trans ?_
      show Real.cos Real.pi + k / 2 * Real.pi ^ 2 ≤ Real.cos s + k / 2 * s ^ 2
      rw [Real.cos_pi]
      have h1 := Real.neg_one_le_cos s
      have h2 : Real.pi ^ 2 ≤ s ^ 2 := by
        have := Real.pi_pos
        nlinarith
      have := mul_le_mul_of_nonneg_left h2 (show 0 ≤ k / 2 by positivity)
      linarith
  have : Real.cos r + k / 2 * r ^ 2 ≤ Real.cos s + k / 2 * s ^ 2 := hfin
  linarith [show k / 2 * (s ^ 2 - r ^ 2) = k / 2 * s ^ 2 - k / 2 * r ^ 2 by ring]

/-- Inner product of rotation vectors. -/
def rdot3 (a b : Vec 3) : ℝ := a 0 * b 0 + a 1 * b 1 + a 2 * b 2

/-- Squared length. -/
def rsq3 (a : Vec 3) : ℝ := a 0 ^ 2 + a 1 ^ 2 + a 2 ^ 2

theorem rsq3_nonneg (a : Vec 3) : 0 ≤ rsq3 a := by unfold rsq3; positivity

theorem length_sq (a : Vec 3) : length a ^ 2 = rsq3 a := by
  unfold length; rw [Real.sq_sqrt (by positivity)]; rfl

theorem length_nonneg (a : Vec 3) : 0 ≤ length a := Real.sqrt_nonneg _

theorem rdot3_sq_le (a b : Vec 3) : rdot3 a b ^ 2 ≤ rsq3 a * rsq3 b := by
  unfold rdot3 rsq3
  nlinarith [sq_nonneg (a 0 * b 1 - a 1 * b 0), sq_nonneg (a 0 * b 2 - a 2 * b 0), sq_nonneg (a 1 * b 2 - a 2 * b 1)]

theorem abs_rdot3_le (a b : Vec 3) : |rdot3 a b| ≤ length a * length b := by
  apply abs_le_of_sq_le_sq _ (mul_nonneg (length_nonneg _) (length_nonneg _))
  rw [mul_pow, length_sq, length_sq]
  exact rdot3_sq_le a b

/-- Real part of the product of two rotations. -/
theorem re_exp_mul_star_exp (a b : Vec 3) :
    (NormedSpace.exp ((1 / 2 : ℝ) • Spec.pure a) * star (NormedSpace.exp ((1 / 2 : ℝ) • Spec.pure b))).re =
      Real.cos (length a / 2) * Real.cos (length b / 2) +
        Real.sin (length a / 2) * Real.sin (length b / 2) * (rdot3 a b / (length a * length b)) := by
  rw [Quaternion.re_mul]
  rw [Quaternion.re_star, Quaternion.imI_star, Quaternion.imJ_star, Quaternion.imK_star, exp_half, exp_half]
  have e : rdot3 a b / (length a * length b) = a 0 / length a * (b 0 / length b) + a 1 / length a * (b 1 / length b) +
      a 2 / length a * (b 2 / length b) := by
    unfold rdot3
    rw [div_mul_div_comm, div_mul_div_comm, div_mul_div_comm, add_div, add_div]
  rw [e]
  ring

/-- The exponential does not increase distances. -/
theorem arccos_le_length_sub (a b : Vec 3) :
    Real.arccos ((NormedSpace.exp ((1 / 2 : ℝ) • Spec.pure a) *
      star (NormedSpace.exp ((1 / 2 : ℝ) • Spec.pure b))).re) ≤ length (a - b) / 2 := by
  have hr0 := length_nonneg (a - b)
  rcases hr0.eq_or_lt with h0 | h0
  · have hab : a = b := sub_eq_zero.1 (length_eq_zero.1 h0.symm)
    subst hab
    rw [← h0, Quaternion.self_mul_star, Quaternion.normSq_exp]
    simp
  rcases le_or_gt (length (a - b) / 2) Real.pi with hπ | hπ
  swap
  · exact (Real.arccos_le_pi _).trans hπ.le
  rw [re_exp_mul_star_exp]
  set r := length (a - b) / 2 with hr
  set p := length a / 2 with hp
  set q := length b / 2 with hq
  set c := rdot3 a b / (length a * length b) with hc
  have hp0 : 0 ≤ p := div_nonneg (length_nonneg a) (by norm_num)
  have hq0 : 0 ≤ q := div_nonneg (length_nonneg b) (by norm_num)
  have hcc : length a * length b * c = rdot3 a b := by
    by_cases h : length a * length b = 0
    · rw [h, zero_mul]
      have := abs_rdot3_le a b
      rw [h] at this
      exact (abs_nonpos_iff.1 this).symm
    · rw [hc, mul_div_cancel₀ _ h]
  have hc1 : |c| ≤ 1 := by
    rw [hc, abs_div, abs_of_nonneg (mul_nonneg (length_nonneg a) (length_nonneg b))]
    exact div_le_one_of_le₀ (abs_rdot3_le a b) (mul_nonneg (length_nonneg a) (length_nonneg b))
  obtain ⟨hcl, hcu⟩ := abs_le.1 hc1
  have hw : r ^ 2 = (1 + c) / 2 * |p - q| ^ 2 + (1 - c) / 2 * (p + q) ^ 2 := by
    rw [sq_abs]
    have e1 : r ^ 2 = (rsq3 a + rsq3 b - 2 * rdot3 a b) / 4 := by
      rw [hr, div_pow, length_sq]
      unfold rsq3 rdot3
      simp only [Pi.sub_apply]
      ring
    rw [e1, ← hcc, ← length_sq, ← length_sq, hp, hq]
    ring
  have hr1 : 0 < r := by rw [hr]; linarith
  have h1 := cos_ge_tangent hr1 hπ (abs_nonneg (p - q))
  have h2 := cos_ge_tangent hr1 hπ (add_nonneg hp0 hq0)
  rw [Real.cos_abs, Real.cos_sub] at h1
  rw [Real.cos_add] at h2
  have h3 := mul_le_mul_of_nonneg_left h1 (show 0 ≤ (1 + c) / 2 by linarith)
  have h4 := mul_le_mul_of_nonneg_left h2 (show 0 ≤ (1 - c) / 2 by linarith)
  have hfin : Real.cos r ≤ Real.cos p * Real.cos q + Real.sin p * Real.sin q * c := by
    have e : (1 + c) / 2 * (Real.cos r - Real.sin r / r / 2 * (|p - q| ^ 2 - r ^ 2)) +
        (1 - c) / 2 * (Real.cos r - Real.sin r / r / 2 * ((p + q) ^ 2 - r ^ 2)) = Real.cos r := by
      have : (1 + c) / 2 * |p - q| ^ 2 + (1 - c) / 2 * (p + q) ^ 2 - r ^ 2 = 0 := by rw [← hw]; ring
      linear_combination (-(Real.sin r / r / 2)) * this
    have e2 : (1 + c) / 2 * (Real.cos p * Real.cos q + Real.sin p * Real.sin q) +
        (1 - c) / 2 * (Real.cos p * Real.cos q - Real.sin p * Real.sin q) =
        Real.cos p * Real.cos q + Real.sin p * Real.sin q * c := by ring
    linarith
  calc Real.arccos _ ≤ Real.arccos (Real.cos r) := Real.arccos_le_arccos hfin
    _ = r := Real.arccos_cos hr1.le hπ

/-- Angle to the goal after a rotation. -/
theorem rotationAngle_step_le {g q q' : Vec 4} {a b : Vec 3}
    (ha : quat g * star (quat q) = NormedSpace.exp ((1 / 2 : ℝ) • Spec.pure a) ∨
      quat g * star (quat q) = -NormedSpace.exp ((1 / 2 : ℝ) • Spec.pure a))
    (hq : quat q' = NormedSpace.exp ((1 / 2 : ℝ) • Spec.pure b) * quat q) :
    rotationAngle g q' ≤ length (a - b) := by
  have h := arccos_le_length_sub a b
  set X := (NormedSpace.exp ((1 / 2 : ℝ) • Spec.pure a) *
    star (NormedSpace.exp ((1 / 2 : ℝ) • Spec.pure b))).re with hX
  have he : |∑ i, g i * q' i| = |X| := by
    rw [← inner_of_mul_star, hq, StarMul.star_mul, ← mul_assoc]
    rcases ha with ha | ha
    · rw [ha]
    · rw [ha, neg_mul, Quaternion.re_neg, abs_neg]
  unfold rotationAngle
  rw [he]
  have := Real.arccos_le_arccos (le_abs_self X)
  linarith

end Verif
