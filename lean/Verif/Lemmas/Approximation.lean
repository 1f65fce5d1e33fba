import Mathlib.Analysis.SpecialFunctions.Exp
import Mathlib.Topology.UniformSpace.HeineCantor
import Mathlib.Topology.MetricSpace.Pseudo.Basic
import Mathlib.Topology.Order.Compact
import Mathlib.Algebra.BigOperators.Fin
import Mathlib.Analysis.SpecialFunctions.Log.Basic

/-!
# Weighted averages with narrow weights approximate continuous functions
-/

namespace Verif
open Set

/-- A weighted average of values, most of whose weight is on values close to `g`. -/
theorem average_close {m : ℕ} {ψ : Fin m → ℝ} (hψ : ∀ i, 0 ≤ ψ i) {σ : ℝ} (hσ : 0 < σ) (hsum : σ ≤ ∑ i, ψ i) (g : ℝ)
    (gi : Fin m → ℝ) {ω M η : ℝ} (hω : 0 ≤ ω) (hη : 0 ≤ η) (hM : ∀ i, |gi i - g| ≤ M)
    (hnear : ∀ i, |gi i - g| ≤ ω ∨ ψ i ≤ η) :
    |∑ i, gi i * (ψ i / ∑ j, ψ j) - g| ≤ ω + m * η * M / σ := by
  set S := ∑ j, ψ j with hS
  have hS0 : 0 < S := hσ.trans_le hsum
  have e : ∑ i, gi i * (ψ i / S) - g = (∑ i, (gi i - g) * ψ i) / S := by
    rw [eq_div_iff hS0.ne', sub_mul, Finset.sum_mul]
    have h1 : ∀ i, gi i * (ψ i / S) * S = gi i * ψ i := by intro i; field_simp
    simp only [h1, sub_mul, Finset.sum_sub_distrib]
    rw [← Finset.mul_sum]
  have hterm : ∀ i, |(gi i - g) * ψ i| ≤ ω * ψ i + η * M := by
    intro i
    have hM0 : 0 ≤ M := (abs_nonneg _).trans (hM i)
    rw [abs_mul, abs_of_nonneg (hψ i)]
    rcases hnear i with h | h
    · have := mul_le_mul_of_nonneg_right h (hψ i)
      have := mul_nonneg hη hM0
      linarith
    · have h1 := mul_le_mul (hM i) h (hψ i) hM0
      have := mul_nonneg hω (hψ i)
      linarith
  have hnum : |∑ i, (gi i - g) * ψ i| ≤ ω * S + m * η * M := by
    refine (Finset.abs_sum_le_sum_abs _ _).trans ((Finset.sum_le_sum fun i _ => hterm i).trans ?_)
    rw [Finset.sum_add_distrib, ← Finset.mul_sum]
    simp only [Finset.sum_const, Finset.card_univ, Fintype.card_fin, nsmul_eq_mul]
    linarith
  rw [e, abs_div, abs_of_pos hS0, div_le_iff₀ hS0]
  refine hnum.trans ?_
  have hpos : 0 ≤ (m : ℝ) * η * M := by
    rcases Nat.eq_zero_or_pos m with h | h
    · simp [h]
    · have : 0 ≤ M := (abs_nonneg _).trans (hM ⟨0, h⟩)
      positivity
  have h2 : m * η * M ≤ m * η * M / σ * S := by
    rw [div_mul_eq_mul_div, le_div_iff₀ hσ]
    exact mul_le_mul_of_nonneg_left hsum hpos
  linarith

/-- Normalised bell-shaped weights around `m` points of `[0, 1]` whose width shrinks like `1 / m` approximate every continuous
function by the weighted averages of its values at the points. -/
theorem averages_approximate {g : ℝ → ℝ} (hg : ContinuousOn g (Icc 0 1)) {σ A ε : ℝ} (hσ : 0 < σ) (hA : 0 < A) (hε : 0 < ε) :
    ∃ N, ∀ m : ℕ, N ≤ m → ∀ (u : Fin m → ℝ) (ψ : ℝ → Fin m → ℝ), (∀ i, u i ∈ Icc (0 : ℝ) 1) →
      (∀ x ∈ Icc (0 : ℝ) 1, (∀ i, 0 ≤ ψ x i) ∧ σ ≤ ∑ i, ψ x i ∧
        ∀ i, ψ x i ≤ Real.exp (-(A * ((m : ℝ) - 1) ^ 2 * (x - u i) ^ 2))) →
      ∀ x ∈ Icc (0 : ℝ) 1, |∑ i, g (u i) * (ψ x i / ∑ j, ψ x j) - g x| < ε := by
  obtain ⟨B, hB⟩ := isCompact_Icc.exists_bound_of_continuousOn hg
  have hu := isCompact_Icc.uniformContinuousOn_of_continuous hg
  rw [Metric.uniformContinuousOn_iff_le] at hu
  obtain ⟨δ, hδ, hδu⟩ := hu (ε / 2) (by positivity)
  have hB0 : 0 ≤ B := (norm_nonneg _).trans (hB 0 ⟨le_refl _, zero_le_one⟩)
  set M := 2 * B + 1 with hMd
  have hM0 : 0 < M := by positivity
  set K := A * δ ^ 2 with hK
  have hK0 : 0 < K := by positivity
  obtain ⟨N, hN⟩ := exists_nat_gt (4 * M / (K * σ * ε))
  refine ⟨N + 2, ?_⟩
  intro m hm u ψ hui hψ x hx
  obtain ⟨h1, h2, h3⟩ := hψ x hx
  have hm1 : (N : ℝ) + 1 ≤ (m : ℝ) - 1 := by
    have : ((N + 2 : ℕ) : ℝ) ≤ m := by exact_mod_cast hm
    push_cast at this
    linarith
  have hN0 : (0 : ℝ) ≤ N := Nat.cast_nonneg N
  set n : ℝ := (m : ℝ) - 1 with hn
  have hn1 : 1 ≤ n := by linarith
  set η := Real.exp (-(K * n ^ 2)) with hη
  have key := average_close h1 hσ h2 (g x) (fun i => g (u i)) (ω := ε / 2) (M := M) (η := η) (by positivity)
    (Real.exp_pos _).le
    (fun i => by
      have a1 := hB (u i) (hui i)
      have a2 := hB x hx
      rw [Real.norm_eq_abs] at a1 a2
      calc |g (u i) - g x| ≤ |g (u i)| + |g x| := abs_sub _ _
        _ ≤ M := by linarith)
    (fun i => by
      by_cases hd : |u i - x| ≤ δ
      · left
        have := hδu (u i) (hui i) x hx (by rw [Real.dist_eq]; exact hd)
        rwa [Real.dist_eq] at this
      · right
        refine (h3 i).trans (Real.exp_le_exp.2 ?_)
        have h4 : δ ^ 2 ≤ (x - u i) ^ 2 := by
          rw [← sq_abs (x - u i), abs_sub_comm]
          exact pow_le_pow_left₀ hδ.le (not_le.1 hd).le 2
        have h5 : K * n ^ 2 = A * n ^ 2 * δ ^ 2 := by rw [hK]; ring
        rw [h5]
        have := mul_le_mul_of_nonneg_left h4 (show 0 ≤ A * n ^ 2 by positivity)
        linarith)
  refine key.trans_lt ?_
  have hexp : η ≤ 1 / (K * n ^ 2) := by
    rw [hη, Real.exp_neg, ← one_div]
    apply one_div_le_one_div_of_le (by positivity)
    have := Real.add_one_le_exp (K * n ^ 2)
    linarith
  have hmn : (m : ℝ) ≤ 2 * n := by linarith
  have h6 : m * η * M / σ ≤ 2 * M / (K * n * σ) := by
    have e1 : (m : ℝ) * η ≤ 2 * n * (1 / (K * n ^ 2)) := mul_le_mul hmn hexp (Real.exp_pos _).le (by positivity)
    have e2 : 2 * n * (1 / (K * n ^ 2)) = 2 / (K * n) := by field_simp
    rw [e2] at e1
    calc m * η * M / σ ≤ 2 / (K * n) * M / σ := by gcongr
      _ = 2 * M / (K * n * σ) := by field_simp
  have h7 : 2 * M / (K * n * σ) < ε / 2 := by
    rw [div_lt_iff₀ (by positivity)] at hN ⊢
    have : (N : ℝ) < n := by linarith
    have := mul_lt_mul_of_pos_right this (show 0 < K * σ * ε by positivity)
    nlinarith
  linarith

/-- `exp (-α u)` separates points of `[0, 1]`. -/
theorem exp_separates {α a b : ℝ} (hα : 0 < α) (ha : a ≤ 1) (hb : b ≤ 1) :
    (α * Real.exp (-α)) ^ 2 * (a - b) ^ 2 ≤ (Real.exp (-α * a) - Real.exp (-α * b)) ^ 2 := by
  wlog hab : a ≤ b generalizing a b with H
  · have := H hb ha (le_of_not_ge hab)
    calc _ = (α * Real.exp (-α)) ^ 2 * (b - a) ^ 2 := by ring
      _ ≤ _ := this
      _ = _ := by ring
  have h1 : Real.exp (-α * b) * (α * (b - a)) ≤ Real.exp (-α * a) - Real.exp (-α * b) := by
    have e : Real.exp (-α * a) = Real.exp (-α * b) * Real.exp (α * (b - a)) := by rw [← Real.exp_add]; ring_nf
    rw [e]
    have := Real.add_one_le_exp (α * (b - a))
    nlinarith [Real.exp_pos (-α * b)]
  have h2 : Real.exp (-α) ≤ Real.exp (-α * b) := Real.exp_le_exp.2 (by nlinarith)
  have h3 : α * Real.exp (-α) * (b - a) ≤ Real.exp (-α * a) - Real.exp (-α * b) := by
    refine le_trans ?_ h1
    have : 0 ≤ α * (b - a) := mul_nonneg hα.le (by linarith)
    nlinarith
  have h4 : 0 ≤ α * Real.exp (-α) * (b - a) := mul_nonneg (by positivity) (by linarith)
  calc (α * Real.exp (-α)) ^ 2 * (a - b) ^ 2 = (α * Real.exp (-α) * (b - a)) ^ 2 := by ring
    _ ≤ _ := pow_le_pow_left₀ h4 h3 2

/-- `exp (-α u)` is Lipschitz continuous for `u ≥ 0`. -/
theorem exp_lipschitz {α a b : ℝ} (hα : 0 < α) (ha : 0 ≤ a) (hab : a ≤ b) :
    (Real.exp (-α * b) - Real.exp (-α * a)) ^ 2 ≤ (α * (b - a)) ^ 2 := by
  have h1 : Real.exp (-α * a) - Real.exp (-α * b) ≤ α * (b - a) := by
    have e : Real.exp (-α * b) = Real.exp (-α * a) * Real.exp (-(α * (b - a))) := by rw [← Real.exp_add]; ring_nf
    have h2 := Real.add_one_le_exp (-(α * (b - a)))
    have h3 : Real.exp (-α * a) ≤ 1 := Real.exp_le_one_iff.2 (by nlinarith)
    have h4 : 0 ≤ α * (b - a) := mul_nonneg hα.le (by linarith)
    rw [e]
    nlinarith [Real.exp_pos (-α * a)]
  have h0 : 0 ≤ Real.exp (-α * a) - Real.exp (-α * b) := by
    have : Real.exp (-α * b) ≤ Real.exp (-α * a) := Real.exp_le_exp.2 (by nlinarith)
    linarith
  calc _ = (Real.exp (-α * a) - Real.exp (-α * b)) ^ 2 := by ring
    _ ≤ _ := pow_le_pow_left₀ h0 h1 2

end Verif
