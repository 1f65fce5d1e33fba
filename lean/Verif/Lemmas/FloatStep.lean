import Verif.Lemmas.Stability
import Verif.Lemmas.Float
import Mathlib.Analysis.Real.Sqrt
import Mathlib.Algebra.Order.Round
import Mathlib.Tactic.LinearCombination

/-!
# Rounding errors of one integration step of a spring-damper system
-/

namespace Verif
open Spec

/-- `rnd` has a relative error of `u`, up to an absolute error of `w` for very small numbers. -/
def Rounds (u w : ℝ) (rnd : ℝ → ℝ) : Prop := ∀ x, |rnd x - x| ≤ u * |x| + w

theorem Spec.IsRounding.rounds {rnd : ℝ → ℝ} (h : IsRounding rnd) : Rounds ((2 : ℝ) ^ (-53 : ℤ)) ((2 : ℝ) ^ (-1074 : ℤ)) rnd := by
  intro x
  set δ : ℝ := (2 : ℝ) ^ (-1074 : ℤ) with hδ
  have hδ0 : 0 < δ := by positivity
  set k := round (x / δ) with hk
  have h1 : |x / δ - k| ≤ 1 / 2 := abs_sub_round _
  have h2 : |x - k * δ| ≤ δ / 2 := by
    have e : x - k * δ = (x / δ - k) * δ := by field_simp
    rw [e, abs_mul, abs_of_pos hδ0]
    nlinarith
  obtain ⟨y, hy, hyb⟩ := exists_isDouble_near (x := k * δ) ⟨k, rfl⟩
  have h3 := h.nearest x y hy
  have h4 : |y - x| ≤ |y - k * δ| + |k * δ - x| := abs_sub_le _ _ _
  rw [abs_sub_comm (k * δ) x] at h4
  have h5 : |(k : ℝ) * δ| ≤ |x| + δ / 2 := by
    have := abs_sub_abs_le_abs_sub ((k : ℝ) * δ) x
    rw [abs_sub_comm] at this
    linarith
  have h6 : (2 : ℝ) ^ (-53 : ℤ) ≤ 1 / 2 := by norm_num
  have h7 : (0 : ℝ) ≤ (2 : ℝ) ^ (-53 : ℤ) := by positivity
  generalize (2 : ℝ) ^ (-53 : ℤ) = u at *
  have h8 : u * |(k : ℝ) * δ| ≤ u * (|x| + δ / 2) := mul_le_mul_of_nonneg_left h5 h7
  nlinarith

/-! ## The norm that belongs to a form -/

/-- The square root of a positive definite form. -/
noncomputable def qn (A B C : ℝ) (x : ℝ × ℝ) : ℝ := √(qf A B C x)

theorem qn_nonneg (A B C : ℝ) (x : ℝ × ℝ) : 0 ≤ qn A B C x := Real.sqrt_nonneg _

theorem qn_sq {A B C : ℝ} (hA : 0 < A) (hd : B ^ 2 < 4 * A * C) (x : ℝ × ℝ) : qn A B C x ^ 2 = qf A B C x :=
  Real.sq_sqrt (qf_nonneg hA hd x)

theorem qn_add {A B C : ℝ} (hA : 0 < A) (hd : B ^ 2 < 4 * A * C) (x y : ℝ × ℝ) : qn A B C (x + y) ≤ qn A B C x + qn A B C y := by
  have h1 := qn_sq hA hd x
  have h2 := qn_sq hA hd y
  have h3 := qn_sq hA hd (x + y)
  have n1 := qn_nonneg A B C x
  have n2 := qn_nonneg A B C y
  apply abs_le_of_sq_le_sq' _ (by positivity) |>.2
  set b := A * x.1 * y.1 + B / 2 * (x.1 * y.2 + x.2 * y.1) + C * x.2 * y.2 with hb
  have e1 : qf A B C (x + y) = qf A B C x + qf A B C y + 2 * b := by
    simp only [qf, Prod.fst_add, Prod.snd_add, hb]; ring
  have e2 : b ^ 2 ≤ (qn A B C x * qn A B C y) ^ 2 := by
    rw [mul_pow, h1, h2]
    have : qf A B C x * qf A B C y - b ^ 2 = (4 * A * C - B ^ 2) / 4 * (x.1 * y.2 - x.2 * y.1) ^ 2 := by
      simp only [qf, hb]; ring
    have : 0 ≤ (4 * A * C - B ^ 2) / 4 * (x.1 * y.2 - x.2 * y.1) ^ 2 :=
      mul_nonneg (by linarith) (sq_nonneg _)
    linarith
  have e3 : b ≤ qn A B C x * qn A B C y := abs_le_of_sq_le_sq' e2 (by positivity) |>.2
  rw [h3, e1]
  nlinarith

section
variable {k c s : ℝ}

/-- The norm used for a spring with stiffness `k` and damping `c`. -/
noncomputable def sdNorm (k c : ℝ) (x : ℝ × ℝ) : ℝ := qn (k + c ^ 2 / 2) c 1 x

theorem sdNorm_nonneg (x : ℝ × ℝ) : 0 ≤ sdNorm k c x := Real.sqrt_nonneg _

variable (hk : 0 < k) (hc : 0 < c) (hs0 : 0 < s) (hs : s ^ 2 = k + c ^ 2 / 2)
include hk hc

theorem sdNorm_sq (x : ℝ × ℝ) : sdNorm k c x ^ 2 = qf (k + c ^ 2 / 2) c 1 x :=
  qn_sq (by positivity) (by nlinarith [sq_nonneg c]) x

theorem sdNorm_add (x y : ℝ × ℝ) : sdNorm k c (x + y) ≤ sdNorm k c x + sdNorm k c y :=
  qn_add (by positivity) (by nlinarith [sq_nonneg c]) x y

include hs0 hs

theorem sdNorm_le (x : ℝ × ℝ) : sdNorm k c x ≤ s * |x.1| + |x.2| := by
  refine abs_le_of_sq_le_sq' ?_ (by positivity) |>.2
  rw [sdNorm_sq hk hc]
  have hcs : c ≤ 2 * s := by nlinarith
  have h1 : x.1 * x.2 ≤ |x.1| * |x.2| := by rw [← abs_mul]; exact le_abs_self _
  have h2 : (s * |x.1| + |x.2|) ^ 2 = (k + c ^ 2 / 2) * x.1 ^ 2 + 2 * s * (|x.1| * |x.2|) + x.2 ^ 2 := by
    rw [← hs, ← sq_abs x.1, ← sq_abs x.2]; ring
  rw [h2]
  simp only [qf]
  have h3 : c * (x.1 * x.2) ≤ c * (|x.1| * |x.2|) := mul_le_mul_of_nonneg_left h1 hc.le
  have h4 : c * (|x.1| * |x.2|) ≤ 2 * s * (|x.1| * |x.2|) := mul_le_mul_of_nonneg_right hcs (by positivity)
  linarith

omit hs0 in
theorem abs_fst_le (x : ℝ × ℝ) : s * |x.1| ≤ 71 / 50 * sdNorm k c x := by
  refine abs_le_of_sq_le_sq' ?_ (mul_nonneg (by norm_num) (sdNorm_nonneg x)) |>.2
  rw [mul_pow, mul_pow, sdNorm_sq hk hc, sq_abs, hs]
  have : (k + c ^ 2 / 2) * x.1 ^ 2 ≤ 2 * qf (k + c ^ 2 / 2) c 1 x := by
    have : 2 * qf (k + c ^ 2 / 2) c 1 x - (k + c ^ 2 / 2) * x.1 ^ 2 = k * x.1 ^ 2 + (c * x.1 + 2 * x.2) ^ 2 / 2 := by
      simp only [qf]; ring
    have : 0 ≤ k * x.1 ^ 2 + (c * x.1 + 2 * x.2) ^ 2 / 2 := by positivity
    linarith
  have h2 := qf_nonneg (A := k + c ^ 2 / 2) (B := c) (C := 1) (by positivity) (by nlinarith [sq_nonneg c]) x
  linarith

omit hs0 hs in
theorem abs_snd_le (x : ℝ × ℝ) : |x.2| ≤ 71 / 50 * sdNorm k c x := by
  refine abs_le_of_sq_le_sq' ?_ (mul_nonneg (by norm_num) (sdNorm_nonneg x)) |>.2
  rw [mul_pow, sdNorm_sq hk hc, sq_abs]
  have : x.2 ^ 2 ≤ 2 * qf (k + c ^ 2 / 2) c 1 x := by
    have : 2 * qf (k + c ^ 2 / 2) c 1 x - x.2 ^ 2 = 2 * k * x.1 ^ 2 + (c * x.1 + x.2) ^ 2 := by
      simp only [qf]; ring
    have : 0 ≤ 2 * k * x.1 ^ 2 + (c * x.1 + x.2) ^ 2 := by positivity
    linarith
  have h2 := qf_nonneg (A := k + c ^ 2 / 2) (B := c) (C := 1) (by positivity) (by nlinarith [sq_nonneg c]) x
  linarith

/-- Bound of the forces. -/
theorem force_le (x : ℝ × ℝ) : k * |x.1| + c * |x.2| ≤ 18 / 5 * s * sdNorm k c x := by
  have h1 := abs_fst_le hk hc hs x
  have h2 := abs_snd_le hk hc x
  have hks : k ≤ s ^ 2 := by rw [hs]; nlinarith [sq_nonneg c]
  have hcs : c ≤ 71 / 50 * s := by
    refine abs_le_of_sq_le_sq' ?_ (by positivity) |>.2
    rw [mul_pow, hs]; nlinarith [sq_nonneg c]
  have h3 : k * |x.1| ≤ s ^ 2 * |x.1| := mul_le_mul_of_nonneg_right hks (abs_nonneg _)
  have h4 : s ^ 2 * |x.1| ≤ s * (71 / 50 * sdNorm k c x) := by
    have := mul_le_mul_of_nonneg_left h1 hs0.le
    calc _ = s * (s * |x.1|) := by ring
      _ ≤ _ := this
  have h5 : c * |x.2| ≤ 71 / 50 * s * (71 / 50 * sdNorm k c x) :=
    mul_le_mul hcs h2 (abs_nonneg _) (by positivity)
  have h6 := mul_nonneg hs0.le (sdNorm_nonneg (k := k) (c := c) x)
  linarith

omit hs0 in
theorem step_small {h : ℝ} (hs0 : 0 < s) (hcond : 4 * (h * (k + c ^ 2 / 2)) * (k + c ^ 2) ≤ k * c) :
    h * s ≤ 9 / 25 := by
  have hcs : c ≤ 71 / 50 * s := by
    refine abs_le_of_sq_le_sq' ?_ (by positivity) |>.2
    rw [mul_pow, hs]; nlinarith [sq_nonneg c]
  rw [← hs] at hcond
  have h1 : 4 * (h * s ^ 2) * (k + c ^ 2) ≤ (k + c ^ 2) * (71 / 50 * s) := by
    refine hcond.trans (mul_le_mul ?_ hcs hc.le (by positivity))
    nlinarith [sq_nonneg c]
  have h2 : 4 * (h * s ^ 2) ≤ 71 / 50 * s := by
    have hp : 0 < k + c ^ 2 := by positivity
    by_contra hcon
    push Not at hcon
    have := mul_lt_mul_of_pos_left hcon hp
    linarith
  have h3 : 4 * (h * s) ≤ 71 / 50 := by
    by_contra hcon
    push Not at hcon
    have := mul_lt_mul_of_pos_right hcon hs0
    nlinarith
  linarith

omit hs0 hs

/-- The rate with which the norm decays. -/
noncomputable def sdRate (k c : ℝ) : ℝ := k * c / (8 * (k + c ^ 2))

theorem sdRate_pos : 0 < sdRate k c := by unfold sdRate; positivity

theorem sdNorm_step {h : ℝ} (hh : 0 < h) (hcond : 4 * (h * (k + c ^ 2 / 2)) * (k + c ^ 2) ≤ k * c) (x : ℝ × ℝ) :
    sdNorm k c (sdStep k c h 0 x) ≤ (1 - sdRate k c * h) * sdNorm k c x := by
  have h1 := sdStep_homogeneous hk hc hh hcond x.1 x.2
  have hη := sdRate_pos hk hc
  have hsmall : sdRate k c * h ≤ 1 := by
    unfold sdRate
    rw [div_mul_eq_mul_div, div_le_one (by positivity)]
    have h4 : 4 * (h * (c ^ 2 / 2)) * k ≤ k * c := by
      refine le_trans ?_ hcond
      have : 0 ≤ 4 * (h * k) * (k + c ^ 2) + 4 * (h * (c ^ 2 / 2)) * c ^ 2 := by positivity
      nlinarith
    have h5 : 2 * (h * c) ≤ 1 := by
      by_contra hcon
      push Not at hcon
      have := mul_lt_mul_of_pos_left hcon (show 0 < k * c by positivity)
      nlinarith
    have h6 : k * c * h ≤ k := by nlinarith
    nlinarith [sq_nonneg c]
  refine abs_le_of_sq_le_sq' ?_ (mul_nonneg (by linarith) (sdNorm_nonneg x)) |>.2
  rw [mul_pow, sdNorm_sq hk hc, sdNorm_sq hk hc]
  have h2 := qf_nonneg (A := k + c ^ 2 / 2) (B := c) (C := 1) (by positivity) (by nlinarith [sq_nonneg c]) x
  refine h1.trans (mul_le_mul_of_nonneg_right ?_ h2)
  have : 0 ≤ (sdRate k c * h) ^ 2 := sq_nonneg _
  show 1 - 2 * sdRate k c * h ≤ _
  nlinarith

end

/-! ## One rounded step -/

theorem Rounds.abs_le {u w : ℝ} {rnd : ℝ → ℝ} (hr : Rounds u w rnd) (hu : 0 ≤ u) {x x' E : ℝ} (h : |x' - x| ≤ E) :
    |rnd x' - x| ≤ (1 + u) * E + u * |x| + w := by
  have h1 := hr x'
  have h2 : |rnd x' - x| ≤ |rnd x' - x'| + |x' - x| := abs_sub_le _ _ _
  have h3 : |x'| ≤ |x| + E := by
    have := abs_sub_abs_le_abs_sub x' x
    linarith
  have h4 := mul_le_mul_of_nonneg_left h3 hu
  linarith

/-- Summary of the errors of `rounded_step`. -/
theorem error_sum {u N X F G w s h g x1 EB EV EQ EY : ℝ} (hu : 0 ≤ u) (hu1 : u ≤ 1 / 1000) (hN0 : 0 ≤ N) (hF0 : 0 ≤ F) (hG0 : 0 ≤ G)
    (hw : 0 ≤ w) (hs0 : 0 ≤ s) (hh : 0 ≤ h) (hX0 : 0 ≤ X) (hg : 0 ≤ g) (hhs : h * s ≤ 9 / 25)
    (hX : X ≤ 13 / 10 * N) (hx1 : s * x1 ≤ 71 / 50 * N) (hEB0 : 0 ≤ EB) (hEV0 : 0 ≤ EV) (hEQ0 : 0 ≤ EQ)
    (hEB : EB = (1 + u) * (4 * u * X + G) + u * (X + F) + w)
    (hEV : EV = (1 + u) * EB + u * (71 / 50 * N + 13 / 10 * N + F) + w)
    (hEQ : EQ = (1 + u) * (h * EV) + u * (h * (71 / 50 * N + 13 / 10 * N + F)) + w)
    (hEY : EY = (1 + u) * EQ + u * (g + x1 + h * (71 / 50 * N + 13 / 10 * N + F)) + w) :
    s * EY + EV ≤ 19 * (u * N) + 2 * G + 4 * (u * F) + u * (s * g) + 4 * (1 + s) * w := by
  have uN0 : 0 ≤ u * N := by positivity
  have uF0 : 0 ≤ u * F := by positivity
  have small : ∀ z : ℝ, 0 ≤ z → u * z ≤ z / 1000 := fun z hz => by
    have := mul_le_mul_of_nonneg_right hu1 hz
    linarith
  have r1 : EB ≤ 33 / 5 * (u * N) + 101 / 100 * G + u * F + w := by
    have a1 := small (u * X) (by positivity)
    have a2 := small G hG0
    have a3 := mul_le_mul_of_nonneg_left hX hu
    have e : EB = 5 * (u * X) + 4 * (u * (u * X)) + G + u * G + u * F + w := by rw [hEB]; ring
    rw [e]
    linarith
  have r2 : EV ≤ 47 / 5 * (u * N) + 51 / 50 * G + 201 / 100 * (u * F) + 201 / 100 * w := by
    have a1 := small EB hEB0
    have e : EV = EB + u * EB + 68 / 25 * (u * N) + u * F + w := by rw [hEV]; ring
    rw [e]
    linarith
  have hT0 : 0 ≤ u * (71 / 50 * N + 13 / 10 * N + F) := by positivity
  have eT : u * (71 / 50 * N + 13 / 10 * N + F) = 68 / 25 * (u * N) + u * F := by ring
  have a6 : s * (u * (h * (71 / 50 * N + 13 / 10 * N + F))) ≤ 9 / 25 * (68 / 25 * (u * N) + u * F) := by
    rw [← eT]
    have := mul_le_mul_of_nonneg_right hhs hT0
    calc _ = h * s * (u * (71 / 50 * N + 13 / 10 * N + F)) := by ring
      _ ≤ _ := this
  have r3 : s * EQ ≤ 37 / 100 * EV + 9 / 25 * (68 / 25 * (u * N) + u * F) + s * w := by
    have a5 := mul_le_mul_of_nonneg_right hhs hEV0
    have a1 := small (h * s * EV) (by positivity)
    have e : s * EQ = h * s * EV + u * (h * s * EV) + s * (u * (h * (71 / 50 * N + 13 / 10 * N + F))) + s * w := by rw [hEQ]; ring
    rw [e]
    linarith
  have r4 : s * EY ≤ 1001 / 1000 * (s * EQ) + u * (s * g) + 71 / 50 * (u * N) + 9 / 25 * (68 / 25 * (u * N) + u * F) + s * w := by
    have a1 := small (s * EQ) (by positivity)
    have a7 := mul_le_mul_of_nonneg_left hx1 hu
    have e : s * EY = s * EQ + u * (s * EQ) + u * (s * g) + u * (s * x1) + s * (u * (h * (71 / 50 * N + 13 / 10 * N + F))) + s * w := by
      rw [hEY]; ring
    rw [e]
    linarith
  have hsw : 0 ≤ s * w := by positivity
  have hsg : 0 ≤ u * (s * g) := by positivity
  linarith

/-- Velocity and position that are computed from a computed acceleration `a`, whose error is at most `4 * u` times the forces of the
spring and the damper and `E`: the norm decays up to rounding errors. `g` is the goal, `x` the difference to the goal and the
velocity, `f` an additional acceleration. -/
theorem rounded_step {u w : ℝ} {rnd : ℝ → ℝ} (hr : Rounds u w rnd) (hu : 0 ≤ u) (hu1 : u ≤ 1 / 1000) (hw : 0 ≤ w) {k c s h : ℝ}
    (hk : 0 < k) (hc : 0 < c) (hs0 : 0 < s) (hs : s ^ 2 = k + c ^ 2 / 2) (hh : 0 < h)
    (hcond : 4 * (h * (k + c ^ 2 / 2)) * (k + c ^ 2) ≤ k * c) {g f a E : ℝ} (x : ℝ × ℝ) (hE : 0 ≤ E)
    (ha : |a - (-k * x.1 - c * x.2 + f)| ≤ 4 * u * (k * |x.1| + c * |x.2|) + E) :
    sdNorm k c (rnd (g + x.1 + rnd (h * rnd (x.2 + rnd (h * a)))) - g, rnd (x.2 + rnd (h * a))) ≤
      (1 - sdRate k c * h + 20 * u) * sdNorm k c x + h * (3 / 2 * |f| + 2 * E) + u * (s * |g|) + 4 * (1 + s) * w := by
  set N := sdNorm k c x with hN
  have hN0 : 0 ≤ N := sdNorm_nonneg x
  set P := k * |x.1| + c * |x.2| with hP
  have hP0 : 0 ≤ P := by positivity
  have hhs := step_small hk hc hs hs0 hcond
  have hfN : P ≤ 18 / 5 * s * N := force_le hk hc hs0 hs x
  have h1 := abs_fst_le hk hc hs x
  have h2 := abs_snd_le hk hc x
  rw [← hN] at h1 h2
  have hhP : h * P ≤ 13 / 10 * N := by
    have a1 := mul_le_mul_of_nonneg_left hfN hh.le
    have a2 := mul_le_mul_of_nonneg_right hhs hN0
    nlinarith
  have hf0 := abs_nonneg f
  set F := h * |f| with hF
  have hF0 : 0 ≤ F := by positivity
  set A := -k * x.1 - c * x.2 + f with hA
  have hAabs : |A| ≤ P + |f| := by
    have e1 : |A| ≤ |-k * x.1 - c * x.2| + |f| := abs_add_le _ _
    have e2 : |-k * x.1 - c * x.2| ≤ |-k * x.1| + |c * x.2| := abs_sub _ _
    rw [abs_mul, abs_mul, abs_neg, abs_of_pos hk, abs_of_pos hc] at e2
    linarith
  have hhA : |h * A| ≤ h * P + F := by
    rw [abs_mul, abs_of_pos hh, hF, ← mul_add]
    exact mul_le_mul_of_nonneg_left hAabs hh.le
  -- h * a
  have b0 : |h * a - h * A| ≤ 4 * u * (h * P) + h * E := by
    rw [← mul_sub, abs_mul, abs_of_pos hh]
    have := mul_le_mul_of_nonneg_left ha hh.le
    linarith
  have b1 := hr.abs_le hu b0
  set EB := (1 + u) * (4 * u * (h * P) + h * E) + u * (h * P + F) + w with hEB
  have b2 : |rnd (h * a) - h * A| ≤ EB := b1.trans (by
    have := mul_le_mul_of_nonneg_left hhA hu
    linarith)
  -- velocity
  have v0 : |x.2 + rnd (h * a) - (x.2 + h * A)| ≤ EB := by rw [add_sub_add_left_eq_sub]; exact b2
  have v1 := hr.abs_le hu v0
  have hV : |x.2 + h * A| ≤ 71 / 50 * N + 13 / 10 * N + F := by
    have := abs_add_le x.2 (h * A)
    linarith
  set EV := (1 + u) * EB + u * (71 / 50 * N + 13 / 10 * N + F) + w with hEV
  set v' := rnd (x.2 + rnd (h * a)) with hv'
  have v2 : |v' - (x.2 + h * A)| ≤ EV := v1.trans (by
    have := mul_le_mul_of_nonneg_left hV hu
    linarith)
  -- position
  have p0 : |h * v' - h * (x.2 + h * A)| ≤ h * EV := by
    rw [← mul_sub, abs_mul, abs_of_pos hh]
    exact mul_le_mul_of_nonneg_left v2 hh.le
  have p1 := hr.abs_le hu p0
  have hhV : |h * (x.2 + h * A)| ≤ h * (71 / 50 * N + 13 / 10 * N + F) := by
    rw [abs_mul, abs_of_pos hh]
    exact mul_le_mul_of_nonneg_left hV hh.le
  set EQ := (1 + u) * (h * EV) + u * (h * (71 / 50 * N + 13 / 10 * N + F)) + w with hEQ
  have p2 : |rnd (h * v') - h * (x.2 + h * A)| ≤ EQ := p1.trans (by
    have := mul_le_mul_of_nonneg_left hhV hu
    linarith)
  have y0 : |g + x.1 + rnd (h * v') - (g + x.1 + h * (x.2 + h * A))| ≤ EQ := by rw [add_sub_add_left_eq_sub]; exact p2
  have y1 := hr.abs_le hu y0
  have hY : |g + x.1 + h * (x.2 + h * A)| ≤ |g| + |x.1| + h * (71 / 50 * N + 13 / 10 * N + F) := by
    have e1 := abs_add_le (g + x.1) (h * (x.2 + h * A))
    have e2 := abs_add_le g x.1
    linarith
  set EY := (1 + u) * EQ + u * (|g| + |x.1| + h * (71 / 50 * N + 13 / 10 * N + F)) + w with hEY
  set y' := rnd (g + x.1 + rnd (h * v')) with hy'
  have y2 : |y' - (g + x.1 + h * (x.2 + h * A))| ≤ EY := y1.trans (by
    have := mul_le_mul_of_nonneg_left hY hu
    linarith)
  -- decomposition
  have hsplit : (y' - g, v') = sdStep k c h 0 x + ((h * (h * f), h * f) +
      (y' - (g + x.1 + h * (x.2 + h * A)), v' - (x.2 + h * A))) := by
    unfold sdStep
    ext
    · simp only [Prod.fst_add, hA]; ring
    · simp only [Prod.snd_add, hA]; ring
  have n1 := sdNorm_add hk hc (sdStep k c h 0 x) ((h * (h * f), h * f) +
      (y' - (g + x.1 + h * (x.2 + h * A)), v' - (x.2 + h * A)))
  have n2 := sdNorm_add hk hc (h * (h * f), h * f) (y' - (g + x.1 + h * (x.2 + h * A)), v' - (x.2 + h * A))
  have n3 := sdNorm_step hk hc hh hcond x
  have n4 := sdNorm_le hk hc hs0 hs (h * (h * f), h * f)
  have n5 := sdNorm_le hk hc hs0 hs (y' - (g + x.1 + h * (x.2 + h * A)), v' - (x.2 + h * A))
  simp only at n4 n5
  rw [hsplit]
  rw [← hN] at n3
  have n6 : s * |h * (h * f)| + |h * f| ≤ 34 / 25 * F := by
    rw [abs_mul, abs_mul, abs_of_pos hh]
    have := mul_le_mul_of_nonneg_right hhs hF0
    rw [← hF]
    linarith
  -- bound of the errors
  have hsEY := mul_le_mul_of_nonneg_left y2 hs0.le
  have herr := error_sum hu hu1 hN0 hF0 (show 0 ≤ h * E by positivity) hw hs0.le hh.le (show 0 ≤ h * P by positivity)
    (abs_nonneg g) hhs hhP h1 ((abs_nonneg _).trans b2) ((abs_nonneg _).trans v2) ((abs_nonneg _).trans p2) hEB hEV hEQ hEY
  have e1 : h * (3 / 2 * |f| + 2 * E) = 3 / 2 * F + 2 * (h * E) := by rw [hF]; ring
  have e2 : (1 - sdRate k c * h + 20 * u) * N = (1 - sdRate k c * h) * N + 20 * (u * N) := by ring
  have e3 : u * F ≤ F / 1000 := by
    have := mul_le_mul_of_nonneg_right hu1 hF0
    linarith
  have uN0 : 0 ≤ u * N := by positivity
  rw [e1, e2]
  clear_value EY EQ EV EB
  linarith

end Verif
