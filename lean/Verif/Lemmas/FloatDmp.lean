import Verif.Lemmas.FloatCall

/-!
# Rounding errors of the acceleration of a DMP
-/

namespace Verif
open Spec

variable {rnd : ℝ → ℝ}

/-- Error of `alpha * (beta * (g - y) - tau * v - sigma) + f`. -/
theorem dmp_force {u w : ℝ} (hr : Rounds u w rnd) (hu : 0 ≤ u) (hu1 : u ≤ 1 / 1000) (hw : 0 ≤ w) {α β τ : ℝ} (hα : 0 < α)
    (hβ : 0 < β) (hτ : 0 < τ) (g y v σ f : ℝ) :
    |rnd (rnd (α * rnd (rnd (rnd (β * rnd (g - y)) - rnd (τ * v)) - σ)) + f) - (α * (β * (g - y) - τ * v - σ) + f)| ≤
      13 / 2 * u * (α * (β * |y - g| + τ * |v| + |σ|)) + u * |f| + 3 / 2 * (α * (β + 4) + 2) * w := by
  have small : ∀ z : ℝ, 0 ≤ z → u * z ≤ z / 1000 := fun z hz => by
    have := mul_le_mul_of_nonneg_right hu1 hz
    linarith
  have h1 : |β * rnd (g - y) - β * (g - y)| ≤ u * (β * |y - g|) + β * w := by
    have := hr (g - y)
    rw [abs_sub_comm g y] at this
    rw [← mul_sub, abs_mul, abs_of_pos hβ]
    exact (mul_le_mul_of_nonneg_left this hβ.le).trans (by linarith)
  have h2 := hr.abs_le hu h1
  rw [abs_mul, abs_of_pos hβ, abs_sub_comm g y] at h2
  have h3 := hr (τ * v)
  rw [abs_mul, abs_of_pos hτ] at h3
  generalize hq2 : rnd (β * rnd (g - y)) = q2 at *
  generalize hq3 : rnd (τ * v) = q3 at *
  have hB : 0 ≤ β * |y - g| := by positivity
  have hV : 0 ≤ τ * |v| := by positivity
  have hS : 0 ≤ |σ| := abs_nonneg _
  have hF : 0 ≤ |f| := abs_nonneg _
  have hb1 : |β * (g - y) - τ * v| ≤ β * |y - g| + τ * |v| := by
    refine (abs_sub _ _).trans ?_
    rw [abs_mul, abs_mul, abs_of_pos hβ, abs_of_pos hτ, abs_sub_comm g y]
  have hb2 : |β * (g - y) - τ * v - σ| ≤ β * |y - g| + τ * |v| + |σ| := (abs_sub _ _).trans (by linarith)
  have hb3 : |α * (β * (g - y) - τ * v - σ)| ≤ α * (β * |y - g| + τ * |v| + |σ|) := by
    rw [abs_mul, abs_of_pos hα]
    exact mul_le_mul_of_nonneg_left hb2 hα.le
  have hb4 : |α * (β * (g - y) - τ * v - σ) + f| ≤ α * (β * |y - g| + τ * |v| + |σ|) + |f| :=
    (abs_add_le _ _).trans (by linarith)
  have hβw : 0 ≤ β * w := by positivity
  have h4 : |q2 - q3 - (β * (g - y) - τ * v)| ≤
      (1 + u) * (u * (β * |y - g|) + β * w) + u * (β * |y - g|) + w + (u * (τ * |v|) + w) := by
    have e : q2 - q3 - (β * (g - y) - τ * v) = (q2 - β * (g - y)) - (q3 - τ * v) := by ring
    rw [e]
    exact (abs_sub _ _).trans (add_le_add h2 h3)
  generalize hBB : β * |y - g| = B at *
  generalize hVV : τ * |v| = V at *
  generalize hWW : β * w = W at *
  generalize hx : β * (g - y) - τ * v = x at *
  have u1 : 0 ≤ u * B := by positivity
  have u2 : 0 ≤ u * V := by positivity
  have u3 : 0 ≤ u * |σ| := by positivity
  have u4 : 0 ≤ u * W := by positivity
  have u5 : 0 ≤ u * w := by positivity
  have s1 := small _ u1
  have s2 := small _ u2
  have s3 := small _ u3
  have s4 := small _ hβw
  have s5 := small _ hw
  have h4' : |q2 - q3 - x| ≤ 201 / 100 * (u * B) + u * V + 101 / 100 * W + 2 * w := by
    refine h4.trans ?_
    linarith
  have h5 := hr.abs_le hu h4'
  generalize rnd (q2 - q3) = q4 at *
  have h5' : |q4 - x| ≤ 302 / 100 * (u * B) + 202 / 100 * (u * V) + 102 / 100 * W + 302 / 100 * w := by
    refine h5.trans ?_
    have := mul_le_mul_of_nonneg_left hb1 hu
    linarith
  have h6 : |q4 - σ - (x - σ)| ≤ 302 / 100 * (u * B) + 202 / 100 * (u * V) + 102 / 100 * W + 302 / 100 * w := by
    rw [sub_sub_sub_cancel_right]; exact h5'
  have h7 := hr.abs_le hu h6
  generalize rnd (q4 - σ) = q5 at *
  have h7' : |q5 - (x - σ)| ≤ 41 / 10 * (u * (B + V + |σ|)) + 103 / 100 * W + 403 / 100 * w := by
    refine h7.trans ?_
    have := mul_le_mul_of_nonneg_left hb2 hu
    linarith
  have h8 : |α * q5 - α * (x - σ)| ≤ 41 / 10 * (u * (α * (B + V + |σ|))) + 103 / 100 * (α * (W + 4 * w)) := by
    rw [← mul_sub, abs_mul, abs_of_pos hα]
    have := mul_le_mul_of_nonneg_left h7' hα.le
    have hαw : 0 ≤ α * w := by positivity
    linarith
  have h9 := hr.abs_le hu h8
  generalize rnd (α * q5) = q6 at *
  have hM : 0 ≤ α * (B + V + |σ|) := by positivity
  have hZ : 0 ≤ α * (W + 4 * w) := by positivity
  have eZ : 3 / 2 * (α * (β + 4) + 2) * w = 3 / 2 * (α * (W + 4 * w)) + 3 * w := by rw [← hWW]; ring
  rw [eZ]
  generalize α * (B + V + |σ|) = M at *
  generalize α * (W + 4 * w) = Z at *
  have u6 : 0 ≤ u * M := by positivity
  have s6 := small _ u6
  have s7 := small _ hZ
  have h9' : |q6 - α * (x - σ)| ≤ 52 / 10 * (u * M) + 104 / 100 * Z + w := by
    refine h9.trans ?_
    have := mul_le_mul_of_nonneg_left hb3 hu
    linarith
  have h10 : |q6 + f - (α * (x - σ) + f)| ≤ 52 / 10 * (u * M) + 104 / 100 * Z + w := by
    rw [add_sub_add_right_eq_sub]; exact h9'
  have h11 := hr.abs_le hu h10
  refine h11.trans ?_
  have := mul_le_mul_of_nonneg_left hb4 hu
  linarith

/-- Error of a division by `execution_time ** 2`. -/
theorem rounded_div {u w : ℝ} (hr : Rounds u w rnd) (hu : 0 ≤ u) (hu1 : u ≤ 1 / 1000) {sq T2 q A e M : ℝ} (hT : 0 < T2)
    (hsq : |sq - T2| ≤ 2 * u * T2) (hq : |q - A| ≤ e) (hA : |A| ≤ M) :
    |rnd (q / sq) - A / T2| ≤ 101 / 100 * (e / T2) + 31 / 10 * u * (M / T2) + w := by
  have he : 0 ≤ e := (abs_nonneg _).trans hq
  have hM : 0 ≤ M := (abs_nonneg _).trans hA
  have h2 := abs_le.1 hsq
  have huT : u * T2 ≤ T2 / 1000 := by
    have := mul_le_mul_of_nonneg_right hu1 hT.le
    linarith
  have hsq0 : 499 / 500 * T2 ≤ sq := by linarith
  have hsqp : 0 < sq := by linarith
  have h1 : |q / sq - A / T2| ≤ 500 / 499 * (e / T2) + 500 / 499 * (2 * u * (M / T2)) := by
    have e1 : q / sq - A / T2 = (q - A) / sq + A * (T2 - sq) / (sq * T2) := by field_simp; ring
    rw [e1]
    refine (abs_add_le _ _).trans (add_le_add ?_ ?_)
    · rw [abs_div, abs_of_pos hsqp, div_le_iff₀ hsqp]
      refine hq.trans ?_
      have : e = 500 / 499 * (e / T2) * (499 / 500 * T2) := by field_simp
      calc e = 500 / 499 * (e / T2) * (499 / 500 * T2) := this
        _ ≤ _ := mul_le_mul_of_nonneg_left hsq0 (by positivity)
    · rw [abs_div, abs_of_pos (mul_pos hsqp hT), div_le_iff₀ (mul_pos hsqp hT), abs_mul, abs_sub_comm]
      calc |A| * |sq - T2| ≤ M * (2 * u * T2) := mul_le_mul hA hsq (abs_nonneg _) hM
        _ = 500 / 499 * (2 * u * (M / T2)) * ((499 / 500 * T2) * T2) := by field_simp
        _ ≤ _ := mul_le_mul_of_nonneg_left (mul_le_mul_of_nonneg_right hsq0 hT.le) (by positivity)
  have h3 := hr.abs_le hu h1
  refine h3.trans ?_
  have h4 : |A / T2| ≤ M / T2 := by
    rw [abs_div, abs_of_pos hT]
    exact div_le_div_of_nonneg_right hA hT.le
  have h5 := mul_le_mul_of_nonneg_left h4 hu
  have p1 : 0 ≤ e / T2 := by positivity
  have p2 : 0 ≤ u * (M / T2) := by positivity
  have s1 := mul_le_mul_of_nonneg_right hu1 p1
  have s2 := mul_le_mul_of_nonneg_right hu1 p2
  generalize e / T2 = E at *
  generalize M / T2 = Q at *
  linarith

/-- Error of the computed acceleration of a DMP. -/
theorem dmp_acceleration {u w : ℝ} (hr : Rounds u w rnd) (hu : 0 ≤ u) (hu1 : u ≤ 1 / 1000) (hw : 0 ≤ w) {α β τ : ℝ} (hα : 0 < α)
    (hβ : 0 < β) (hτ : 0 < τ) {sq : ℝ} (hsq : |sq - τ ^ 2| ≤ 2 * u * τ ^ 2) (g y v σ f : ℝ) :
    |rnd (rnd (rnd (α * rnd (rnd (rnd (β * rnd (g - y)) - rnd (τ * v)) - σ)) + f) / sq) -
        (-(α * β / τ ^ 2) * (y - g) - α / τ * v + (f - α * σ) / τ ^ 2)| ≤
      10 * u * (α * β / τ ^ 2 * |y - g| + α / τ * |v|) +
        (10 * u * ((|f| + α * |σ|) / τ ^ 2) + (2 * (α * (β + 4) + 2) / τ ^ 2 + 1) * w) := by
  have hT : 0 < τ ^ 2 := by positivity
  have h1 := dmp_force hr hu hu1 hw hα hβ hτ g y v σ f
  have hA : |α * (β * (g - y) - τ * v - σ) + f| ≤ α * (β * |y - g| + τ * |v| + |σ|) + |f| := by
    refine (abs_add_le _ _).trans (add_le_add ?_ le_rfl)
    rw [abs_mul, abs_of_pos hα]
    refine mul_le_mul_of_nonneg_left ?_ hα.le
    refine (abs_sub _ _).trans (add_le_add ?_ le_rfl)
    refine (abs_sub _ _).trans ?_
    rw [abs_mul, abs_mul, abs_of_pos hβ, abs_of_pos hτ, abs_sub_comm g y]
  have h2 := rounded_div hr hu hu1 hT hsq h1 hA
  have e1 : (α * (β * (g - y) - τ * v - σ) + f) / τ ^ 2 =
      -(α * β / τ ^ 2) * (y - g) - α / τ * v + (f - α * σ) / τ ^ 2 := by field_simp; ring
  rw [e1] at h2
  refine h2.trans ?_
  have e2 : α * β / τ ^ 2 * |y - g| + α / τ * |v| = α * (β * |y - g| + τ * |v|) / τ ^ 2 := by field_simp
  rw [e2]
  have e3 : (13 / 2 * u * (α * (β * |y - g| + τ * |v| + |σ|)) + u * |f| + 3 / 2 * (α * (β + 4) + 2) * w) / τ ^ 2 =
      13 / 2 * (u * (α * (β * |y - g| + τ * |v|) / τ ^ 2)) + 13 / 2 * (u * (α * |σ| / τ ^ 2)) + u * (|f| / τ ^ 2) +
        3 / 2 * ((α * (β + 4) + 2) / τ ^ 2 * w) := by field_simp
  have e4 : (α * (β * |y - g| + τ * |v| + |σ|) + |f|) / τ ^ 2 =
      α * (β * |y - g| + τ * |v|) / τ ^ 2 + α * |σ| / τ ^ 2 + |f| / τ ^ 2 := by field_simp
  have e5 : (|f| + α * |σ|) / τ ^ 2 = |f| / τ ^ 2 + α * |σ| / τ ^ 2 := by field_simp
  have e6 : 2 * (α * (β + 4) + 2) / τ ^ 2 = 2 * ((α * (β + 4) + 2) / τ ^ 2) := by field_simp
  rw [e3, e4, e5, e6]
  have p1 : 0 ≤ u * (α * (β * |y - g| + τ * |v|) / τ ^ 2) := by positivity
  have p2 : 0 ≤ u * (α * |σ| / τ ^ 2) := by positivity
  have p3 : 0 ≤ u * (|f| / τ ^ 2) := by positivity
  have p4 : 0 ≤ (α * (β + 4) + 2) / τ ^ 2 * w := by positivity
  generalize α * (β * |y - g| + τ * |v|) / τ ^ 2 = M at *
  generalize α * |σ| / τ ^ 2 = S at *
  generalize |f| / τ ^ 2 = F at *
  generalize (α * (β + 4) + 2) / τ ^ 2 = Z at *
  linarith

end Verif
