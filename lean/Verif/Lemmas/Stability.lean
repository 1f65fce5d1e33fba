import Mathlib.Analysis.SpecificLimits.Basic
import Mathlib.Analysis.SpecialFunctions.Exp
import Mathlib.Tactic.Linarith
import Mathlib.Tactic.FieldSimp
import Mathlib.Tactic.Ring
import Mathlib.Tactic.Positivity
import Mathlib.Tactic.NormNum
import Mathlib.Tactic.LinearCombination

/-!
# Stability of linear recursions with a vanishing input

Quadratic forms of two variables and sequences that contract up to a vanishing input.
-/

namespace Verif
open Filter Topology

/-- A contracting sequence with a vanishing input vanishes. -/
theorem contraction_tendsto {a : ℕ → ℝ} {ρ : ℝ} (hρ0 : 0 ≤ ρ) (hρ : ρ < 1) (ha : ∀ n, 0 ≤ a n)
    (h : ∀ ε > 0, ∃ N, ∀ n ≥ N, a (n + 1) ≤ ρ * a n + ε) : Tendsto a atTop (𝓝 0) := by
  rw [Metric.tendsto_atTop]
  intro ε hε
  have hpos : 0 < (1 - ρ) * (ε / 2) := by have : 0 < 1 - ρ := by linarith
                                          positivity
  obtain ⟨N, hN⟩ := h _ hpos
  have key : ∀ k, a (N + k) ≤ ρ ^ k * a N + ε / 2 := by
    intro k
    induction k with
    | zero => simp; linarith
    | succ k ih =>
      have h1 := hN (N + k) (by omega)
      have h3 := mul_le_mul_of_nonneg_left ih hρ0
      rw [← add_assoc, pow_succ]
      nlinarith
  have hlim : Tendsto (fun k => ρ ^ k * a N) atTop (𝓝 0) := by
    have := (tendsto_pow_atTop_nhds_zero_of_lt_one hρ0 hρ).mul_const (a N)
    simpa using this
  obtain ⟨K, hK⟩ := (Metric.tendsto_atTop.1 hlim) (ε / 2) (by linarith)
  refine ⟨N + K, fun n hn => ?_⟩
  obtain ⟨k, rfl⟩ : ∃ k, n = N + k := ⟨n - N, by omega⟩
  have h1 := hK k (by omega)
  rw [Real.dist_eq, sub_zero] at h1 ⊢
  rw [abs_of_nonneg (ha _)]
  have := key k
  have := lt_of_abs_lt h1
  linarith

/-- A quadratic form of two variables. -/
def qf (A B C : ℝ) (x : ℝ × ℝ) : ℝ := A * x.1 ^ 2 + B * x.1 * x.2 + C * x.2 ^ 2

section
variable {A B C : ℝ}

theorem qf_fst (hd : B ^ 2 < 4 * A * C) (x : ℝ × ℝ) :
    x.1 ^ 2 ≤ 4 * C / (4 * A * C - B ^ 2) * qf A B C x := by
  have hΔ : 0 < 4 * A * C - B ^ 2 := by linarith
  rw [div_mul_eq_mul_div, le_div_iff₀ hΔ]
  unfold qf
  nlinarith [sq_nonneg (B * x.1 + 2 * C * x.2)]

theorem qf_snd (hd : B ^ 2 < 4 * A * C) (x : ℝ × ℝ) :
    x.2 ^ 2 ≤ 4 * A / (4 * A * C - B ^ 2) * qf A B C x := by
  have hΔ : 0 < 4 * A * C - B ^ 2 := by linarith
  rw [div_mul_eq_mul_div, le_div_iff₀ hΔ]
  unfold qf
  nlinarith [sq_nonneg (B * x.2 + 2 * A * x.1)]

theorem qf_nonneg (hA : 0 < A) (hd : B ^ 2 < 4 * A * C) (x : ℝ × ℝ) : 0 ≤ qf A B C x := by
  have h : 4 * A * qf A B C x = (2 * A * x.1 + B * x.2) ^ 2 + (4 * A * C - B ^ 2) * x.2 ^ 2 := by
    unfold qf; ring
  have h2 : 0 ≤ 4 * A * qf A B C x := by
    rw [h]
    have : 0 ≤ 4 * A * C - B ^ 2 := by linarith
    positivity
  exact nonneg_of_mul_nonneg_right h2 (by positivity)

theorem qf_smul (r : ℝ) (x : ℝ × ℝ) : qf A B C (r * x.1, r * x.2) = r ^ 2 * qf A B C x := by
  unfold qf; ring

/-- Young's inequality. -/
theorem qf_young (hA : 0 < A) (hd : B ^ 2 < 4 * A * C) {ε : ℝ} (hε : 0 < ε) (x y : ℝ × ℝ) :
    qf A B C (x.1 + y.1, x.2 + y.2) ≤ (1 + ε) * qf A B C x + (1 + 1 / ε) * qf A B C y := by
  have h := qf_nonneg hA hd (ε * x.1 - y.1, ε * x.2 - y.2)
  have h2 : (1 + ε) * qf A B C x + (1 + 1 / ε) * qf A B C y - qf A B C (x.1 + y.1, x.2 + y.2) =
      1 / ε * qf A B C (ε * x.1 - y.1, ε * x.2 - y.2) := by
    unfold qf; field_simp; ring
  have h3 : 0 ≤ 1 / ε * qf A B C (ε * x.1 - y.1, ε * x.2 - y.2) := by positivity
  linarith

/-- Convexity. -/
theorem qf_convex (hA : 0 < A) (hd : B ^ 2 < 4 * A * C) {r : ℝ} (h0 : 0 ≤ r) (h1 : r ≤ 1) (x y : ℝ × ℝ) :
    qf A B C ((1 - r) * x.1 + r * y.1, (1 - r) * x.2 + r * y.2) ≤ (1 - r) * qf A B C x + r * qf A B C y := by
  have h := qf_nonneg hA hd (x.1 - y.1, x.2 - y.2)
  have h2 : (1 - r) * qf A B C x + r * qf A B C y - qf A B C ((1 - r) * x.1 + r * y.1, (1 - r) * x.2 + r * y.2) =
      r * (1 - r) * qf A B C (x.1 - y.1, x.2 - y.2) := by
    unfold qf; ring
  have h3 : 0 ≤ r * (1 - r) * qf A B C (x.1 - y.1, x.2 - y.2) :=
    mul_nonneg (mul_nonneg h0 (by linarith)) h
  linarith

/-- If a positive definite form of a sequence vanishes, the sequence vanishes. -/
theorem tendsto_of_qf (hd : B ^ 2 < 4 * A * C) {x : ℕ → ℝ × ℝ}
    (h : Tendsto (fun n => qf A B C (x n)) atTop (𝓝 0)) : Tendsto x atTop (𝓝 (0, 0)) := by
  have key : ∀ (f : ℕ → ℝ) (K : ℝ), (∀ n, f n ^ 2 ≤ K * qf A B C (x n)) → Tendsto f atTop (𝓝 0) := by
    intro f K hf
    have h1 : Tendsto (fun n => f n ^ 2) atTop (𝓝 0) := by
      refine squeeze_zero (fun n => sq_nonneg _) hf ?_
      simpa using h.const_mul K
    have h2 := (Real.continuous_sqrt.tendsto 0).comp h1
    rw [Real.sqrt_zero] at h2
    refine squeeze_zero_norm (fun n => ?_) h2
    simp [Real.sqrt_sq_eq_abs]
  rw [nhds_prod_eq]
  exact (key _ _ fun n => qf_fst hd (x n)).prodMk (key _ _ fun n => qf_snd hd (x n))

end

/-- Jury's criterion: a real 2x2 matrix with trace `T` and determinant `D` and `|D| < 1`, `|T| < 1 + D` contracts some
positive definite quadratic form. -/
theorem exists_qf_contraction {m11 m12 m21 m22 : ℝ} (hm : m21 ≠ 0) (hD : |m11 * m22 - m12 * m21| < 1)
    (hT : |m11 + m22| < 1 + (m11 * m22 - m12 * m21)) :
    ∃ A B C ρ : ℝ, 0 < A ∧ 0 < C ∧ B ^ 2 < 4 * A * C ∧ 0 ≤ ρ ∧ ρ < 1 ∧
      ∀ x : ℝ × ℝ, qf A B C (m11 * x.1 + m12 * x.2, m21 * x.1 + m22 * x.2) ≤ ρ * qf A B C x := by
  set D := m11 * m22 - m12 * m21 with hDdef
  set T := m11 + m22 with hTdef
  -- choose `r < 1` such that the scaled matrix still satisfies the criterion
  have hev : ∀ᶠ r in 𝓝[<] (1 : ℝ), |D| < r ^ 2 ∧ |T| * r < r ^ 2 + D ∧ 0 < r ∧ r < 1 := by
    have c1 : Continuous fun r : ℝ => r ^ 2 := by fun_prop
    have c2 : Continuous fun r : ℝ => r ^ 2 + D - |T| * r := by fun_prop
    have e1 : ∀ᶠ r in 𝓝 (1 : ℝ), |D| < r ^ 2 := c1.continuousAt.eventually_const_lt (by simpa using hD)
    have e2 : ∀ᶠ r in 𝓝 (1 : ℝ), 0 < r ^ 2 + D - |T| * r := c2.continuousAt.eventually_const_lt (by simp; linarith)
    have e3 : ∀ᶠ r in 𝓝 (1 : ℝ), 0 < r := eventually_gt_nhds one_pos
    filter_upwards [e1.filter_mono nhdsWithin_le_nhds, e2.filter_mono nhdsWithin_le_nhds,
      e3.filter_mono nhdsWithin_le_nhds, self_mem_nhdsWithin] with r h1 h2 h3 h4
    exact ⟨h1, by linarith, h3, h4⟩
  obtain ⟨r, h1, h2, hr0, hr1⟩ := hev.exists
  have hs : 0 < r ^ 2 + D := lt_of_le_of_lt (by positivity) h2
  have hr2 : 0 < r ^ 2 := by positivity
  -- the form is `(r² + D) (Y² + r² X²) - 2 T r² X Y` with `X = v`, `Y = m21 e + m22 v`
  let S := r ^ 2 + D
  have hTT : (T * r) ^ 2 < S ^ 2 := by
    rw [sq_lt_sq, abs_mul, abs_of_pos hr0, abs_of_pos hs]; exact h2
  let A := S * m21 ^ 2
  let B := 2 * S * m21 * m22 - 2 * T * r ^ 2 * m21
  let C := S * m22 ^ 2 + S * r ^ 2 - 2 * T * r ^ 2 * m22
  have hA : 0 < A := by positivity
  have hdet : 4 * A * C - B ^ 2 = 4 * m21 ^ 2 * r ^ 2 * (S ^ 2 - (T * r) ^ 2) := by
    simp only [A, B, C]; ring
  have hd : B ^ 2 < 4 * A * C := by
    have : 0 < 4 * m21 ^ 2 * r ^ 2 * (S ^ 2 - (T * r) ^ 2) := by
      have : 0 < S ^ 2 - (T * r) ^ 2 := by linarith
      positivity
    linarith
  have hC : 0 < C := by
    have : 0 < A * C := by nlinarith [sq_nonneg B]
    exact (mul_pos_iff_of_pos_left hA).1 this
  refine ⟨A, B, C, r ^ 2, hA, hC, hd, hr2.le, by nlinarith, fun x => ?_⟩
  have hqf : ∀ y : ℝ × ℝ, qf A B C y =
      S * ((m21 * y.1 + m22 * y.2) ^ 2 + r ^ 2 * y.2 ^ 2) - 2 * T * r ^ 2 * y.2 * (m21 * y.1 + m22 * y.2) := by
    intro y; simp only [qf, A, B, C]; ring
  rw [hqf, hqf]
  simp only
  set X := x.2
  set Y := m21 * x.1 + m22 * x.2 with hY
  have hY' : m21 * (m11 * x.1 + m12 * X) + m22 * Y = T * Y - D * X := by
    rw [hY, hDdef, hTdef]; ring
  rw [hY']
  have key : r ^ 2 * (S * (Y ^ 2 + r ^ 2 * X ^ 2) - 2 * T * r ^ 2 * X * Y) -
      (S * ((T * Y - D * X) ^ 2 + r ^ 2 * Y ^ 2) - 2 * T * r ^ 2 * Y * (T * Y - D * X)) =
      (r ^ 2 - D) * (S * X - T * Y) ^ 2 := by
    simp only [S]; ring
  have hD2 : 0 ≤ r ^ 2 - D := by have := le_abs_self D; linarith
  have : 0 ≤ (r ^ 2 - D) * (S * X - T * Y) ^ 2 := by positivity
  linarith

/-- A contraction of a form stays one if an input is added. -/
theorem qf_add_input {A B C ρ : ℝ} (hA : 0 < A) (hd : B ^ 2 < 4 * A * C) (hρ0 : 0 ≤ ρ) (hρ : ρ < 1) :
    ∃ ρ' K : ℝ, 0 ≤ ρ' ∧ ρ' < 1 ∧ 0 ≤ K ∧ ∀ x y z : ℝ × ℝ, qf A B C y ≤ ρ * qf A B C x →
      qf A B C (y.1 + z.1, y.2 + z.2) ≤ ρ' * qf A B C x + K * qf A B C z := by
  have hε : 0 < (1 - ρ) / 2 := by linarith
  refine ⟨(1 + (1 - ρ) / 2) * ρ, 1 + 1 / ((1 - ρ) / 2), by positivity, by nlinarith, by positivity, ?_⟩
  intro x y z h
  refine (qf_young hA hd hε y z).trans ?_
  have := mul_le_mul_of_nonneg_left h (by positivity : 0 ≤ 1 + (1 - ρ) / 2)
  rw [← mul_assoc] at this
  linarith

/-! ## A damped spring integrated by the semi-implicit Euler method -/

/-- One step of length `h`: `v' = v + h (-k e - c v + u)`, `e' = e + h v'`. -/
def sdStep (k c h u : ℝ) (x : ℝ × ℝ) : ℝ × ℝ :=
  (x.1 + h * (x.2 + h * (-k * x.1 - c * x.2 + u)), x.2 + h * (-k * x.1 - c * x.2 + u))

/-- Under the exact stability condition of a constant step size there is a contracted form. -/
theorem sdStep_sharp {k c h : ℝ} (hk : 0 < k) (hc : 0 < c) (hh : 0 < h) (hs : h ^ 2 * k + 2 * (h * c) < 4) :
    ∃ A B C ρ K : ℝ, 0 < A ∧ B ^ 2 < 4 * A * C ∧ 0 ≤ ρ ∧ ρ < 1 ∧ 0 ≤ K ∧
      ∀ (u : ℝ) (x : ℝ × ℝ), qf A B C (sdStep k c h u x) ≤ ρ * qf A B C x + K * u ^ 2 := by
  have hkk : 0 < h ^ 2 * k := by positivity
  have hcc : 0 < h * c := by positivity
  obtain ⟨A, B, C, ρ, hA, hC, hd, hρ0, hρ, hq⟩ := exists_qf_contraction (m11 := 1 - h ^ 2 * k) (m12 := h * (1 - h * c))
    (m21 := -(h * k)) (m22 := 1 - h * c) (by simp; exact ⟨hh.ne', hk.ne'⟩)
    (by
      have : (1 - h ^ 2 * k) * (1 - h * c) - h * (1 - h * c) * -(h * k) = 1 - h * c := by ring
      rw [this, abs_lt]; constructor <;> linarith)
    (by
      have : (1 - h ^ 2 * k) * (1 - h * c) - h * (1 - h * c) * -(h * k) = 1 - h * c := by ring
      rw [this, abs_lt]; constructor <;> linarith)
  obtain ⟨ρ', K, h0, h1, hK, hi⟩ := qf_add_input hA hd hρ0 hρ
  refine ⟨A, B, C, ρ', K * qf A B C (h ^ 2, h), hA, hd, h0, h1, mul_nonneg hK (qf_nonneg hA hd _), fun u x => ?_⟩
  have := hi x _ (h ^ 2 * u, h * u) (hq x)
  have e : qf A B C (h ^ 2 * u, h * u) = u ^ 2 * qf A B C (h ^ 2, h) := by unfold qf; ring
  rw [e] at this
  have e2 : sdStep k c h u x = ((1 - h ^ 2 * k) * x.1 + h * (1 - h * c) * x.2 + h ^ 2 * u,
      -(h * k) * x.1 + (1 - h * c) * x.2 + h * u) := by
    unfold sdStep; ext <;> simp <;> ring
  rw [e2]
  calc _ ≤ _ := this
    _ = _ := by ring

/-- Bound of the second order terms of a step. -/
theorem sdStep_second_order {k c h L : ℝ} (hk : 0 < k) (hc : 0 < c) (hh : 0 < h) (hLdef : L = k + c ^ 2 / 2)
    (hcond : 4 * (h * L) * (k + c ^ 2) ≤ k * c) (e v : ℝ) :
    h * ((k ^ 2 * (h * c + L * h ^ 2 - 1) - k * c ^ 2) * e ^ 2 +
      (L - c ^ 2 + c ^ 3 * h + c ^ 2 * L * h ^ 2 - 2 * c * L * h) * v ^ 2 +
      (2 * k * c * (h * c + L * h ^ 2) - 2 * L * c - 2 * k * L * h) * (e * v)) ≤ c / 2 * (v ^ 2 + k * e ^ 2) := by
  have hL : 0 < L := by rw [hLdef]; positivity
  have hhL : 0 < h * L := by positivity
  have hLc : 4 * (h * L) ≤ c := by
    have h1 : 0 ≤ 4 * (h * L) * c ^ 2 := by positivity
    have : k * (4 * (h * L)) ≤ k * c := by linarith
    exact le_of_mul_le_mul_left this hk
  have hhc : 2 * (h * c) ≤ 1 := by
    have h1 : 0 < h * k := by positivity
    have : c * (2 * (h * c)) ≤ c * 1 := by rw [hLdef] at hLc; linarith
    exact le_of_mul_le_mul_left this hc
  have hLh2 : 8 * (L * h ^ 2) ≤ 1 := by
    have := mul_le_mul_of_nonneg_left hLc hh.le
    linarith
  have hkL : k ≤ L := by rw [hLdef]; have : 0 ≤ c ^ 2 := sq_nonneg c
                         linarith
  generalize hCe' : k ^ 2 * (h * c + L * h ^ 2 - 1) - k * c ^ 2 = Ce
  generalize hCv' : L - c ^ 2 + c ^ 3 * h + c ^ 2 * L * h ^ 2 - 2 * c * L * h = Cv
  generalize hCx' : 2 * k * c * (h * c + L * h ^ 2) - 2 * L * c - 2 * k * L * h = Cx
  have hCe : Ce ≤ 0 := by
    have h1 : 0 ≤ k * c ^ 2 := by positivity
    have h2 : k ^ 2 * (h * c + L * h ^ 2 - 1) ≤ 0 :=
      mul_nonpos_of_nonneg_of_nonpos (sq_nonneg k) (by linarith)
    linarith
  have hCv : Cv ≤ L := by
    have h1 : c ^ 2 * (h * c) ≤ c ^ 2 * 1 := mul_le_mul_of_nonneg_left (by linarith) (by positivity)
    have h2 : c * L * h * (h * c) ≤ c * L * h * 1 := mul_le_mul_of_nonneg_left (by linarith) (by positivity)
    have h3 : 0 ≤ c * L * h := by positivity
    linarith
  have hCx1 : -(5 / 2 * (L * c)) ≤ Cx := by
    have h1 : 0 ≤ 2 * k * c * (h * c + L * h ^ 2) := by positivity
    have h2 := mul_le_mul_of_nonneg_left hLc hk.le
    have h3 := mul_le_mul_of_nonneg_right hkL hc.le
    linarith
  have hCx2 : Cx ≤ 5 / 2 * (L * c) := by
    have h1 : 2 * k * c * (h * c + L * h ^ 2) ≤ 2 * k * c * 1 :=
      mul_le_mul_of_nonneg_left (by linarith) (by positivity)
    have h2 : k * c ≤ L * c := mul_le_mul_of_nonneg_right hkL hc.le
    have h3 : 0 ≤ k * L * h := by positivity
    have h4 : 0 ≤ L * c := by positivity
    linarith
  have hxv : Cx * (e * v) ≤ 5 / 2 * (L * c) * |e * v| := by
    refine (le_abs_self _).trans ?_
    rw [abs_mul]
    exact mul_le_mul_of_nonneg_right (abs_le.2 ⟨hCx1, hCx2⟩) (abs_nonneg _)
  have hamgm : 2 * (k * c * |e * v|) ≤ k ^ 2 * e ^ 2 + c ^ 2 * v ^ 2 := by
    have := sq_nonneg (k * |e| - c * |v|)
    rw [abs_mul, ← sq_abs e, ← sq_abs v]
    linarith
  have h1 : Ce * e ^ 2 ≤ 0 := mul_nonpos_of_nonpos_of_nonneg hCe (sq_nonneg e)
  have h2 : Cv * v ^ 2 ≤ L * v ^ 2 := mul_le_mul_of_nonneg_right hCv (sq_nonneg v)
  have h3 : h * (Ce * e ^ 2 + Cv * v ^ 2 + Cx * (e * v)) ≤ h * (L * v ^ 2 + 5 / 2 * (L * c) * |e * v|) :=
    mul_le_mul_of_nonneg_left (by linarith) hh.le
  refine h3.trans ?_
  have h4 : k * (h * (L * v ^ 2 + 5 / 2 * (L * c) * |e * v|)) ≤
      (h * L) * (k * v ^ 2 + 5 / 4 * (k ^ 2 * e ^ 2 + c ^ 2 * v ^ 2)) := by
    have := mul_le_mul_of_nonneg_left hamgm hhL.le
    linarith
  have h5 : (h * L) * (k * v ^ 2 + 5 / 4 * (k ^ 2 * e ^ 2 + c ^ 2 * v ^ 2)) ≤
      (h * L) * (5 / 4 * (k + c ^ 2) * (v ^ 2 + k * e ^ 2)) := by
    refine mul_le_mul_of_nonneg_left ?_ hhL.le
    have : 0 ≤ k * v ^ 2 := by positivity
    have : 0 ≤ c ^ 2 * (k * e ^ 2) := by positivity
    linarith
  have h6 : (h * L) * (5 / 4 * (k + c ^ 2) * (v ^ 2 + k * e ^ 2)) ≤ k * (c / 2 * (v ^ 2 + k * e ^ 2)) := by
    have h7 : 0 ≤ v ^ 2 + k * e ^ 2 := by positivity
    have h8 := mul_le_mul_of_nonneg_right hcond h7
    have h9 : 0 ≤ k * c * (v ^ 2 + k * e ^ 2) := by positivity
    linarith
  exact le_of_mul_le_mul_left (by linarith) hk

theorem sdStep_energy {k c : ℝ} (hk : 0 < k) (hc : 0 < c) (e v : ℝ) :
    2 * (k * c / (8 * (k + c ^ 2))) * qf (k + c ^ 2 / 2) c 1 (e, v) ≤ c / 2 * (v ^ 2 + k * e ^ 2) := by
  have hkc : 0 < k + c ^ 2 := by positivity
  have h1 : qf (k + c ^ 2 / 2) c 1 (e, v) ≤ 3 / 2 * v ^ 2 + (k + c ^ 2) * e ^ 2 := by
    have := sq_nonneg (c * e - v)
    simp only [qf]; linarith
  have h2 : 2 * (k * c / (8 * (k + c ^ 2))) = k * c / 4 / (k + c ^ 2) := by
    field_simp; norm_num
  rw [h2, div_mul_eq_mul_div, div_le_iff₀ hkc]
  have h3 : k * c / 4 * qf (k + c ^ 2 / 2) c 1 (e, v) ≤ k * c / 4 * (3 / 2 * v ^ 2 + (k + c ^ 2) * e ^ 2) :=
    mul_le_mul_of_nonneg_left h1 (by positivity)
  refine h3.trans ?_
  have : 0 ≤ c * k * v ^ 2 := by positivity
  have : 0 ≤ c * c ^ 2 * v ^ 2 := by positivity
  have : 0 ≤ c * k * (k * e ^ 2) := by positivity
  have : 0 ≤ c * k * c ^ 2 * e ^ 2 := by positivity
  linarith

theorem sdStep_homogeneous {k c h : ℝ} (hk : 0 < k) (hc : 0 < c) (hh : 0 < h)
    (hcond : 4 * (h * (k + c ^ 2 / 2)) * (k + c ^ 2) ≤ k * c) (e v : ℝ) :
    qf (k + c ^ 2 / 2) c 1 (sdStep k c h 0 (e, v)) ≤
      (1 - 2 * (k * c / (8 * (k + c ^ 2))) * h) * qf (k + c ^ 2 / 2) c 1 (e, v) := by
  have hS := sdStep_second_order hk hc hh rfl hcond e v
  have hE := sdStep_energy hk hc e v
  have hid : qf (k + c ^ 2 / 2) c 1 (sdStep k c h 0 (e, v)) =
      qf (k + c ^ 2 / 2) c 1 (e, v) - h * c * (v ^ 2 + k * e ^ 2) +
      h * (h * ((k ^ 2 * (h * c + (k + c ^ 2 / 2) * h ^ 2 - 1) - k * c ^ 2) * e ^ 2 +
      ((k + c ^ 2 / 2) - c ^ 2 + c ^ 3 * h + c ^ 2 * (k + c ^ 2 / 2) * h ^ 2 - 2 * c * (k + c ^ 2 / 2) * h) * v ^ 2 +
      (2 * k * c * (h * c + (k + c ^ 2 / 2) * h ^ 2) - 2 * (k + c ^ 2 / 2) * c - 2 * k * (k + c ^ 2 / 2) * h) * (e * v))) := by
    simp only [qf, sdStep]; ring
  have h1 := mul_le_mul_of_nonneg_left hS hh.le
  have h2 := mul_le_mul_of_nonneg_left hE hh.le
  rw [hid]
  linarith

/-- Under a stronger condition one form is contracted by all smaller steps. -/
theorem sdStep_robust {k c H : ℝ} (hk : 0 < k) (hc : 0 < c)
    (hs : 2 * H * (2 * k + c ^ 2) * (k + c ^ 2) ≤ k * c) :
    ∃ A B C η K : ℝ, 0 < A ∧ B ^ 2 < 4 * A * C ∧ 0 < η ∧ 0 ≤ K ∧
      ∀ (h u : ℝ) (x : ℝ × ℝ), 0 < h → h ≤ H →
        qf A B C (sdStep k c h u x) ≤ (1 - η * h) * qf A B C x + h * (K * u ^ 2) := by
  let L := k + c ^ 2 / 2
  have hL : 0 < L := by positivity
  have hd : c ^ 2 < 4 * L * 1 := by simp only [L]; nlinarith
  let η := k * c / (8 * (k + c ^ 2))
  have hη : 0 < η := by positivity
  have hkc : 0 < k + c ^ 2 := by positivity
  refine ⟨L, c, 1, η, (|H| + 1 / η) * qf L c 1 (|H|, 1), hL, hd, hη,
    mul_nonneg (by positivity) (qf_nonneg hL hd _), ?_⟩
  intro h u x hh hhH
  have hcond : 4 * (h * L) * (k + c ^ 2) ≤ k * c := by
    have : 2 * h * (2 * k + c ^ 2) * (k + c ^ 2) ≤ 2 * H * (2 * k + c ^ 2) * (k + c ^ 2) := by
      have : 0 ≤ (2 * k + c ^ 2) * (k + c ^ 2) := by positivity
      nlinarith
    simp only [L]; linarith
  have hhL : 0 < h * L := by positivity
  have hhom : qf L c 1 (sdStep k c h 0 x) ≤ (1 - 2 * η * h) * qf L c 1 x := by
    obtain ⟨e, v⟩ := x
    exact sdStep_homogeneous hk hc hh hcond e v
  -- input
  have hηh : 0 < η * h := by positivity
  have hy := qf_young hL hd hηh (sdStep k c h 0 x) (h ^ 2 * u, h * u)
  have e2 : sdStep k c h u x = ((sdStep k c h 0 x).1 + h ^ 2 * u, (sdStep k c h 0 x).2 + h * u) := by
    unfold sdStep; ext <;> simp <;> ring
  rw [e2]
  refine hy.trans ?_
  have h1 : (1 + η * h) * qf L c 1 (sdStep k c h 0 x) ≤ (1 + η * h) * ((1 - 2 * η * h) * qf L c 1 x) :=
    mul_le_mul_of_nonneg_left hhom (by positivity)
  have h2 : (1 + η * h) * ((1 - 2 * η * h) * qf L c 1 x) ≤ (1 - η * h) * qf L c 1 x := by
    have := qf_nonneg hL hd x
    have : 0 ≤ (η * h) ^ 2 * qf L c 1 x := by positivity
    nlinarith
  have h3 : (1 + 1 / (η * h)) * qf L c 1 (h ^ 2 * u, h * u) ≤ h * ((|H| + 1 / η) * qf L c 1 (|H|, 1) * u ^ 2) := by
    have e3 : (1 + 1 / (η * h)) * qf L c 1 (h ^ 2 * u, h * u) = h * ((h + 1 / η) * qf L c 1 (h, 1) * u ^ 2) := by
      unfold qf; field_simp
    rw [e3]
    have hH : h ≤ |H| := hhH.trans (le_abs_self H)
    have hq : qf L c 1 (h, 1) ≤ qf L c 1 (|H|, 1) := by
      have : L * h ^ 2 ≤ L * |H| ^ 2 := mul_le_mul_of_nonneg_left (by gcongr) hL.le
      have : c * h ≤ c * |H| := mul_le_mul_of_nonneg_left hH hc.le
      simp only [qf]; nlinarith
    have hq0 := qf_nonneg hL hd (h, 1)
    gcongr
  linarith

/-! ## Sequences of steps -/

theorem sdFold_robust {A B C η K H U k c : ℝ} (hA : 0 < A) (hd : B ^ 2 < 4 * A * C) (hη : 0 < η) (hK : 0 ≤ K)
    (hU : 0 ≤ U) (u : ℝ → ℝ)
    (hstep : ∀ (h u : ℝ) (x : ℝ × ℝ), 0 < h → h ≤ H →
        qf A B C (sdStep k c h u x) ≤ (1 - η * h) * qf A B C x + h * (K * u ^ 2)) :
    ∀ (L : List (ℝ × ℝ)), (∀ p ∈ L, 0 < p.1 ∧ p.1 ≤ H) → (∀ p ∈ L, u p.2 ^ 2 ≤ U) → ∀ x,
      qf A B C (L.foldl (fun s p => sdStep k c p.1 (u p.2) s) x) ≤
        Real.exp (-(η * (L.map Prod.fst).sum)) * qf A B C x + (L.map Prod.fst).sum * (K * U) := by
  intro L
  induction L with
  | nil => intro _ _ x; simp
  | cons p L ih =>
    intro h1 h2 x
    obtain ⟨hp1, hp2⟩ := h1 p (by simp)
    have hrest := ih (fun q hq => h1 q (by simp [hq])) (fun q hq => h2 q (by simp [hq]))
      (sdStep k c p.1 (u p.2) x)
    have hs := hstep p.1 (u p.2) x hp1 hp2
    have hu := h2 p (by simp)
    have hsum : 0 ≤ (L.map Prod.fst).sum :=
      List.sum_nonneg (by
        intro y hy
        obtain ⟨q, hq, rfl⟩ := List.mem_map.1 hy
        exact (h1 q (by simp [hq])).1.le)
    rw [List.foldl_cons, List.map_cons, List.sum_cons]
    refine hrest.trans ?_
    set S := (L.map Prod.fst).sum
    have hq := qf_nonneg hA hd x
    have he : 1 - η * p.1 ≤ Real.exp (-(η * p.1)) := by
      have := Real.add_one_le_exp (-(η * p.1)); linarith
    have h3 : (1 - η * p.1) * qf A B C x ≤ Real.exp (-(η * p.1)) * qf A B C x := mul_le_mul_of_nonneg_right he hq
    have h4 : p.1 * (K * u p.2 ^ 2) ≤ p.1 * (K * U) :=
      mul_le_mul_of_nonneg_left (mul_le_mul_of_nonneg_left hu hK) hp1.le
    have h5 : Real.exp (-(η * S)) ≤ 1 := Real.exp_le_one_iff.2 (by have := mul_nonneg hη.le hsum; linarith)
    have h6 : 0 ≤ p.1 * (K * U) := by positivity
    have h7 : Real.exp (-(η * S)) * qf A B C (sdStep k c p.1 (u p.2) x) ≤
        Real.exp (-(η * S)) * (Real.exp (-(η * p.1)) * qf A B C x + p.1 * (K * U)) :=
      mul_le_mul_of_nonneg_left (by linarith) (Real.exp_pos _).le
    have h8 : Real.exp (-(η * S)) * (p.1 * (K * U)) ≤ 1 * (p.1 * (K * U)) := mul_le_mul_of_nonneg_right h5 h6
    have h9 : Real.exp (-(η * (p.1 + S))) = Real.exp (-(η * S)) * Real.exp (-(η * p.1)) := by
      rw [← Real.exp_add]; congr 1; ring
    rw [h9]
    linarith

theorem sdFold_sharp {A B C ρ K U k c h : ℝ} (hA : 0 < A) (hd : B ^ 2 < 4 * A * C) (hρ0 : 0 ≤ ρ) (hρ : ρ < 1)
    (hK : 0 ≤ K) (hU : 0 ≤ U) (u : ℝ → ℝ)
    (hstep : ∀ (u : ℝ) (x : ℝ × ℝ), qf A B C (sdStep k c h u x) ≤ ρ * qf A B C x + K * u ^ 2) :
    ∀ (L : List (ℝ × ℝ)), (∀ p ∈ L, p.1 = h) → (∀ p ∈ L, u p.2 ^ 2 ≤ U) → ∀ x,
      qf A B C (L.foldl (fun s p => sdStep k c p.1 (u p.2) s) x) ≤
        ρ ^ L.length * qf A B C x + L.length * (K * U) := by
  intro L
  induction L with
  | nil => intro _ _ x; simp
  | cons p L ih =>
    intro h1 h2 x
    have hp1 := h1 p (by simp)
    have hrest := ih (fun q hq => h1 q (by simp [hq])) (fun q hq => h2 q (by simp [hq]))
      (sdStep k c p.1 (u p.2) x)
    have hs := hstep (u p.2) x
    rw [← hp1] at hs
    have hu := h2 p (by simp)
    rw [List.foldl_cons, List.length_cons, pow_succ]
    refine hrest.trans ?_
    have hq := qf_nonneg hA hd x
    have h4 : K * u p.2 ^ 2 ≤ K * U := mul_le_mul_of_nonneg_left hu hK
    have h5 : ρ ^ L.length ≤ 1 := pow_le_one₀ hρ0 hρ.le
    have h6 : 0 ≤ K * U := by positivity
    have h7 : ρ ^ L.length * qf A B C (sdStep k c p.1 (u p.2) x) ≤ ρ ^ L.length * (ρ * qf A B C x + K * U) :=
      mul_le_mul_of_nonneg_left (by linarith) (pow_nonneg hρ0 _)
    have h8 : ρ ^ L.length * (K * U) ≤ 1 * (K * U) := mul_le_mul_of_nonneg_right h5 h6
    push_cast
    linarith

/-! ## A damped spring integrated by the Runge-Kutta method -/

/-- One step of length `h`; the input is `u0`, `u1`, `u2` at the three times of the method. -/
noncomputable def rkStep (k c h u0 u1 u2 : ℝ) (x : ℝ × ℝ) : ℝ × ℝ :=
  let e := x.1
  let v := x.2
  let K0 := -k * e - c * v + u0
  let C1 := v + h / 2 * K0
  let K1 := -k * (e + h / 2 * v) - c * C1 + u1
  let C2 := v + h / 2 * K1
  let K2 := -k * (e + h / 2 * C1) - c * C2 + u1
  let C3 := v + h * K2
  let K3 := -k * (e + h * C2) - c * C3 + u2
  (e + h * (v + h / 6 * (K0 + K1 + K2)), v + h / 6 * (K0 + 2 * K1 + 2 * K2 + K3))

/-- One explicit Euler step. -/
def eeStep (k c h : ℝ) (x : ℝ × ℝ) : ℝ × ℝ := (x.1 + h * x.2, x.2 + h * (-k * x.1 - c * x.2))

/-- The Runge-Kutta step is a convex combination of iterated explicit Euler steps. -/
theorem rkStep_convex (k c h : ℝ) (x : ℝ × ℝ) :
    let W := eeStep k c h
    rkStep k c h 0 0 0 x =
      (3 / 8 * x.1 + 1 / 3 * (W x).1 + 1 / 4 * (W (W x)).1 + 1 / 24 * (W (W (W (W x)))).1,
       3 / 8 * x.2 + 1 / 3 * (W x).2 + 1 / 4 * (W (W x)).2 + 1 / 24 * (W (W (W (W x)))).2) := by
  simp only [rkStep, eeStep]
  ext
  · simp only; ring
  · simp only; ring

theorem rkStep_input (k c h u0 u1 u2 : ℝ) (x : ℝ × ℝ) :
    rkStep k c h u0 u1 u2 x =
      ((rkStep k c h 0 0 0 x).1 + (u0 * (rkStep k c h 1 0 0 (0, 0)).1 + (u1 * (rkStep k c h 0 1 0 (0, 0)).1 +
          u2 * (rkStep k c h 0 0 1 (0, 0)).1)),
       (rkStep k c h 0 0 0 x).2 + (u0 * (rkStep k c h 1 0 0 (0, 0)).2 + (u1 * (rkStep k c h 0 1 0 (0, 0)).2 +
          u2 * (rkStep k c h 0 0 1 (0, 0)).2))) := by
  simp only [rkStep]
  ext
  · simp only; ring
  · simp only; ring

theorem rkStep_stable {k c h : ℝ} (hk : 0 < k) (hc : 0 < c) (hh : 0 < h) (h1 : h * k < c)
    (h2 : 2 * (h * c) < 4 + h ^ 2 * k) :
    ∃ A B C ρ K : ℝ, 0 < A ∧ B ^ 2 < 4 * A * C ∧ 0 ≤ ρ ∧ ρ < 1 ∧ 0 ≤ K ∧
      ∀ (u0 u1 u2 U : ℝ) (x : ℝ × ℝ), u0 ^ 2 ≤ U → u1 ^ 2 ≤ U → u2 ^ 2 ≤ U →
        qf A B C (rkStep k c h u0 u1 u2 x) ≤ ρ * qf A B C x + K * U := by
  have hkk : 0 < h ^ 2 * k := by positivity
  have hcc : 0 < h * c := by positivity
  have hkc : h ^ 2 * k < h * c := by nlinarith
  obtain ⟨A, B, C, ρ, hA, hC, hd, hρ0, hρ, hq⟩ := exists_qf_contraction (m11 := 1) (m12 := h)
    (m21 := -(h * k)) (m22 := 1 - h * c) (by simp; exact ⟨hh.ne', hk.ne'⟩)
    (by rw [abs_lt]; constructor <;> nlinarith)
    (by rw [abs_lt]; constructor <;> nlinarith)
  have hW : ∀ x, qf A B C (eeStep k c h x) ≤ ρ * qf A B C x := by
    intro x
    have : eeStep k c h x = (1 * x.1 + h * x.2, -(h * k) * x.1 + (1 - h * c) * x.2) := by
      unfold eeStep
      ext
      · simp
      · simp only; ring
    rw [this]; exact hq x
  have hn := fun x => qf_nonneg hA hd x
  let ρ1 := 3 / 8 + 5 / 8 * ρ
  have hhom : ∀ x, qf A B C (rkStep k c h 0 0 0 x) ≤ ρ1 * qf A B C x := by
    intro x
    set W := eeStep k c h with hWdef
    have w1 := hW x
    have w2 := hW (W x)
    have w3 := hW (W (W x))
    have w4 := hW (W (W (W x)))
    have n0 := hn x
    have n1 := hn (W x)
    have n2 := hn (W (W x))
    have n3 := hn (W (W (W x)))
    have b1 : qf A B C (W (W x)) ≤ ρ * qf A B C x := w2.trans (by nlinarith)
    have b2 : qf A B C (W (W (W (W x)))) ≤ ρ * qf A B C x := by
      have : qf A B C (W (W (W x))) ≤ ρ * qf A B C x := w3.trans (by nlinarith)
      exact w4.trans (by nlinarith)
    -- nested convex combinations
    let y1 : ℝ × ℝ := ((1 - 1 / 7) * (W (W x)).1 + 1 / 7 * (W (W (W (W x)))).1,
      (1 - 1 / 7) * (W (W x)).2 + 1 / 7 * (W (W (W (W x)))).2)
    let y2 : ℝ × ℝ := ((1 - 7 / 15) * (W x).1 + 7 / 15 * y1.1, (1 - 7 / 15) * (W x).2 + 7 / 15 * y1.2)
    have c1 : qf A B C y1 ≤ ρ * qf A B C x := by
      have := qf_convex hA hd (r := 1 / 7) (by norm_num) (by norm_num) (W (W x)) (W (W (W (W x))))
      refine this.trans ?_
      linarith
    have c2 : qf A B C y2 ≤ ρ * qf A B C x := by
      have := qf_convex hA hd (r := 7 / 15) (by norm_num) (by norm_num) (W x) y1
      refine this.trans ?_
      linarith
    have c3 := qf_convex hA hd (r := 5 / 8) (by norm_num) (by norm_num) x y2
    have e : rkStep k c h 0 0 0 x = ((1 - 5 / 8) * x.1 + 5 / 8 * y2.1, (1 - 5 / 8) * x.2 + 5 / 8 * y2.2) := by
      rw [rkStep_convex]
      ext
      · simp only [y2, y1]; ring
      · simp only [y2, y1]; ring
    rw [e]
    refine c3.trans ?_
    simp only [ρ1]
    linarith
  have hρ1 : ρ1 < 1 := by simp only [ρ1]; linarith
  have hρ10 : 0 ≤ ρ1 := by positivity
  obtain ⟨ρ', K, r0, r1, hK, hi⟩ := qf_add_input hA hd hρ10 hρ1
  set q0 := rkStep k c h 1 0 0 (0, 0) with hq0
  set q1 := rkStep k c h 0 1 0 (0, 0) with hq1
  set q2 := rkStep k c h 0 0 1 (0, 0) with hq2
  refine ⟨A, B, C, ρ', K * (2 * qf A B C q0 + 4 * qf A B C q1 + 4 * qf A B C q2), hA, hd, r0, r1,
    mul_nonneg hK (by linarith [hn q0, hn q1, hn q2]), ?_⟩
  intro u0 u1 u2 U x hu0 hu1 hu2
  rw [rkStep_input]
  refine (hi x _ (u0 * q0.1 + (u1 * q1.1 + u2 * q2.1), u0 * q0.2 + (u1 * q1.2 + u2 * q2.2)) (hhom x)).trans ?_
  have y1 := qf_young hA hd one_pos (u0 * q0.1, u0 * q0.2) (u1 * q1.1 + u2 * q2.1, u1 * q1.2 + u2 * q2.2)
  have y2 := qf_young hA hd one_pos (u1 * q1.1, u1 * q1.2) (u2 * q2.1, u2 * q2.2)
  rw [qf_smul] at y1
  rw [qf_smul, qf_smul] at y2
  have z0 := mul_le_mul_of_nonneg_right hu0 (hn q0)
  have z1 := mul_le_mul_of_nonneg_right hu1 (hn q1)
  have z2 := mul_le_mul_of_nonneg_right hu2 (hn q2)
  have : qf A B C (u0 * q0.1 + (u1 * q1.1 + u2 * q2.1), u0 * q0.2 + (u1 * q1.2 + u2 * q2.2)) ≤
      (2 * qf A B C q0 + 4 * qf A B C q1 + 4 * qf A B C q2) * U := by
    norm_num at y1 y2 ⊢
    linarith
  have := mul_le_mul_of_nonneg_left this hK
  linarith

end Verif
