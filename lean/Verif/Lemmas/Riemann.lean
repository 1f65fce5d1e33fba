import Mathlib.MeasureTheory.Integral.IntervalIntegral.Basic
import Mathlib.MeasureTheory.Integral.IntervalIntegral.FundThmCalculus
import Mathlib.Topology.ContinuousMap.Compact
import Mathlib.Analysis.Normed.Module.FiniteDimension
import Mathlib.Algebra.Order.Chebyshev

/-!
# Sums over equidistant samples

Riemann sums of Lipschitz continuous functions, and bounds on functions of a finite-dimensional space by their samples.
-/

namespace Verif
open Set MeasureTheory

/-- Left Riemann sum of a Lipschitz continuous function. -/
theorem riemann_sum {G : ℝ → ℝ} {L τ : ℝ} (hτ : 0 < τ) (hG : Continuous G)
    (hL : ∀ x ∈ Icc 0 τ, ∀ y ∈ Icc 0 τ, |G x - G y| ≤ L * |x - y|) {n : ℕ} (hn : 0 < n) :
    |(∫ x in (0 : ℝ)..τ, G x) - τ / n * ∑ j ∈ Finset.range n, G (j * (τ / n))| ≤ L * τ ^ 2 / n := by
  set h := τ / n with hh
  have hn' : (0 : ℝ) < n := by exact_mod_cast hn
  have hpos : 0 < h := div_pos hτ hn'
  have hsum := intervalIntegral.sum_integral_adjacent_intervals (f := G) (μ := volume) (a := fun j : ℕ => (j : ℝ) * h) (n := n)
    (fun k _ => hG.intervalIntegrable _ _)
  have hend : (n : ℝ) * h = τ := by rw [hh]; field_simp
  simp only [Nat.cast_zero, zero_mul, hend] at hsum
  have e : (∫ x in (0 : ℝ)..τ, G x) - h * ∑ j ∈ Finset.range n, G (j * h) =
      ∑ j ∈ Finset.range n, ∫ x in (j : ℝ) * h..((j + 1 : ℕ) : ℝ) * h, (G x - G (j * h)) := by
    rw [← hsum, Finset.mul_sum, ← Finset.sum_sub_distrib]
    refine Finset.sum_congr rfl fun j _ => ?_
    rw [intervalIntegral.integral_sub (hG.intervalIntegrable _ _) intervalIntegrable_const, intervalIntegral.integral_const,
      smul_eq_mul]
    push_cast
    ring
  rw [e]
  have hterm : ∀ j ∈ Finset.range n, |∫ x in (j : ℝ) * h..((j + 1 : ℕ) : ℝ) * h, (G x - G (j * h))| ≤ L * h * h := by
    intro j hj
    have hj' : ((j : ℝ) + 1) ≤ n := by exact_mod_cast Finset.mem_range.1 hj
    have hle : (j : ℝ) * h ≤ ((j + 1 : ℕ) : ℝ) * h := by push_cast; nlinarith
    have hL0 : 0 ≤ L := by
      have := (abs_nonneg _).trans (hL 0 ⟨le_rfl, hτ.le⟩ τ ⟨hτ.le, le_rfl⟩)
      rw [zero_sub, abs_neg, abs_of_pos hτ] at this
      exact nonneg_of_mul_nonneg_left this hτ
    have := intervalIntegral.norm_integral_le_of_norm_le_const (f := fun x => G x - G (j * h)) (C := L * h)
      (a := (j : ℝ) * h) (b := ((j + 1 : ℕ) : ℝ) * h) (by
        intro x hx
        rw [uIoc_of_le hle] at hx
        push_cast at hx
        have h1 : (j : ℝ) * h ∈ Icc 0 τ := ⟨by positivity, by rw [← hend]; nlinarith⟩
        have h2 : x ∈ Icc 0 τ := ⟨by linarith [h1.1, hx.1], by rw [← hend]; nlinarith [hx.2]⟩
        refine (hL x h2 _ h1).trans (mul_le_mul_of_nonneg_left ?_ hL0)
        rw [abs_of_pos (by linarith [hx.1])]
        linarith [hx.2])
    refine this.trans (le_of_eq ?_)
    rw [show ((j + 1 : ℕ) : ℝ) * h - j * h = h by push_cast; ring, abs_of_pos hpos]
  refine (Finset.abs_sum_le_sum_abs _ _).trans ((Finset.sum_le_sum hterm).trans (le_of_eq ?_))
  rw [Finset.sum_const, Finset.card_range, nsmul_eq_mul, hh]
  field_simp

/-- Vectors in the range of a linear map have preimages that are bounded by their size. -/
theorem bounded_preimages {m : ℕ} {F : Type*} [NormedAddCommGroup F] [NormedSpace ℝ F] (A : (Fin m → ℝ) →ₗ[ℝ] F) :
    ∃ C : ℝ, 0 ≤ C ∧ ∀ w, ∃ w', A w' = A w ∧ ‖w'‖ ≤ C * ‖A w‖ := by
  obtain ⟨g, hg⟩ := LinearMap.exists_rightInverse_of_surjective A.rangeRestrict (LinearMap.range_rangeRestrict A)
  let g' := LinearMap.toContinuousLinearMap g
  refine ⟨‖g'‖, g'.opNorm_nonneg, fun w => ⟨g' (A.rangeRestrict w), ?_, g'.le_opNorm _⟩⟩
  have h1 : A.rangeRestrict (g (A.rangeRestrict w)) = A.rangeRestrict w := by
    have := LinearMap.congr_fun hg (A.rangeRestrict w)
    exact this
  exact congrArg Subtype.val h1

/-- Functions of a finite-dimensional space of continuous functions have coefficients that are bounded by their size. -/
theorem bounded_coefficients {m : ℕ} {φ : Fin m → ℝ → ℝ} (hφ : ∀ i, Continuous (φ i)) (τ : ℝ) :
    ∃ C : ℝ, 0 ≤ C ∧ ∀ w : Fin m → ℝ, ∃ w' : Fin m → ℝ,
      (∀ x ∈ Icc 0 τ, ∑ i, w' i * φ i x = ∑ i, w i * φ i x) ∧
      ∀ M, 0 ≤ M → (∀ x ∈ Icc 0 τ, |∑ i, w i * φ i x| ≤ M) → ∀ i, |w' i| ≤ C * M := by
  let f : Fin m → C(Icc (0 : ℝ) τ, ℝ) := fun i => ⟨fun x => φ i x, (hφ i).comp continuous_subtype_val⟩
  let A : (Fin m → ℝ) →ₗ[ℝ] C(Icc (0 : ℝ) τ, ℝ) := Fintype.linearCombination ℝ f
  have hA : ∀ w x, A w x = ∑ i, w i * φ i x := by
    intro w x
    simp [A, f, Fintype.linearCombination_apply, ContinuousMap.sum_apply]
  obtain ⟨C, hC0, hC⟩ := bounded_preimages A
  refine ⟨C, hC0, fun w => ?_⟩
  obtain ⟨w', h2, h3⟩ := hC w
  refine ⟨w', ?_, ?_⟩
  · intro x hx
    have h3 := congrArg (fun F : C(Icc (0 : ℝ) τ, ℝ) => F ⟨x, hx⟩) h2
    simp only [hA] at h3
    exact h3
  · intro M hM h i
    have h1 : ‖A w‖ ≤ M := by
      rw [ContinuousMap.norm_le _ hM]
      intro x
      rw [Real.norm_eq_abs, hA]
      exact h x x.2
    calc |w' i| ≤ ‖w'‖ := by rw [← Real.norm_eq_abs]; exact norm_le_pi_norm w' i
      _ ≤ C * ‖A w‖ := h3
      _ ≤ C * M := mul_le_mul_of_nonneg_left h1 hC0

/-- The samples of a function of a finite-dimensional space bound the function and its Lipschitz constant, if there are enough
of them. -/
theorem samples_bound {m : ℕ} {φ : Fin m → ℝ → ℝ} (hφ : ∀ i, Continuous (φ i)) {τ : ℝ} (hτ : 0 < τ) {L : ℝ} (hL0 : 0 ≤ L)
    (hL : ∀ i, ∀ x ∈ Icc 0 τ, ∀ y ∈ Icc 0 τ, |φ i x - φ i y| ≤ L * |x - y|) :
    ∃ K : ℝ, 0 ≤ K ∧ ∃ n0 : ℕ, ∀ n, n0 ≤ n → 0 < n → ∀ (w : Fin m → ℝ) (B : ℝ), 0 ≤ B →
      τ / n * ∑ j ∈ Finset.range n, (∑ i, w i * φ i (j * (τ / n))) ^ 2 ≤ B ^ 2 →
      ∀ x ∈ Icc 0 τ, ∀ y ∈ Icc 0 τ, |∑ i, w i * φ i x - ∑ i, w i * φ i y| ≤ K * B * |x - y| := by
  obtain ⟨C, hC0, hC⟩ := bounded_coefficients hφ τ
  set Λ := 1 + m * C * L with hΛ
  have hΛ1 : 1 ≤ Λ := by rw [hΛ]; have : 0 ≤ m * C * L := by positivity
                         linarith
  have hΛ0 : 0 < Λ := by linarith
  -- Lipschitz constant in terms of the maximum
  have hlip : ∀ (w : Fin m → ℝ) (M : ℝ), 0 ≤ M → (∀ x ∈ Icc 0 τ, |∑ i, w i * φ i x| ≤ M) → ∀ x ∈ Icc 0 τ, ∀ y ∈ Icc 0 τ,
      |∑ i, w i * φ i x - ∑ i, w i * φ i y| ≤ Λ * M * |x - y| := by
    intro w M hM hw x hx y hy
    obtain ⟨w', h1, h2⟩ := hC w
    rw [← h1 x hx, ← h1 y hy, ← Finset.sum_sub_distrib]
    refine (Finset.abs_sum_le_sum_abs _ _).trans ?_
    have hterm : ∀ i ∈ Finset.univ, |w' i * φ i x - w' i * φ i y| ≤ C * M * (L * |x - y|) := by
      intro i _
      rw [← mul_sub, abs_mul]
      exact mul_le_mul (h2 M hM hw i) (hL i x hx y hy) (abs_nonneg _) (by positivity)
    refine (Finset.sum_le_sum hterm).trans ?_
    rw [Finset.sum_const, Finset.card_univ, Fintype.card_fin, nsmul_eq_mul, hΛ]
    nlinarith [mul_nonneg hM (abs_nonneg (x - y))]
  set ρ := min (1 / (2 * Λ)) (τ / 2) with hρ
  have hρ0 : 0 < ρ := lt_min (by positivity) (by positivity)
  refine ⟨Λ * Real.sqrt (8 / ρ), by positivity, ⌈16 * Λ * τ ^ 2 / ρ⌉₊, ?_⟩
  intro n hn hn0 w B hB hsum x hx y hy
  set g : ℝ → ℝ := fun x => ∑ i, w i * φ i x with hg
  have hgc : Continuous g := by fun_prop
  obtain ⟨x0, hx0, hmax⟩ := isCompact_Icc.exists_isMaxOn (nonempty_Icc.2 hτ.le) (hgc.abs.continuousOn (s := Icc 0 τ))
  set M := |g x0| with hM
  have hM0 : 0 ≤ M := abs_nonneg _
  have hle : ∀ x ∈ Icc 0 τ, |g x| ≤ M := fun x hx => hmax hx
  have hgl := hlip w M hM0 hle
  have hn' : (0 : ℝ) < n := by exact_mod_cast hn0
  -- the integral of the square
  have hint : ρ * (M ^ 2 / 4) ≤ ∫ x in (0 : ℝ)..τ, g x ^ 2 := by
    obtain ⟨a, b, ha, hb, hab, hnear⟩ : ∃ a b, 0 ≤ a ∧ b ≤ τ ∧ b - a = ρ ∧ ∀ x ∈ Icc a b, |x - x0| ≤ ρ := by
      have hρ2 : ρ ≤ τ / 2 := min_le_right _ _
      by_cases hc : x0 ≤ τ / 2
      · exact ⟨x0, x0 + ρ, hx0.1, by linarith, by ring, fun x hx => by
          rw [abs_of_nonneg (by linarith [hx.1])]; linarith [hx.2]⟩
      · exact ⟨x0 - ρ, x0, by linarith, hx0.2, by ring, fun x hx => by
          rw [abs_of_nonpos (by linarith [hx.2])]; linarith [hx.1]⟩
    have hab' : a ≤ b := by linarith
    have hlow : ∀ x ∈ Icc a b, M ^ 2 / 4 ≤ g x ^ 2 := by
      intro x hx
      have hxI : x ∈ Icc 0 τ := ⟨ha.trans hx.1, hx.2.trans hb⟩
      have h1 := hgl x hxI x0 hx0
      have h2 : Λ * M * |x - x0| ≤ M / 2 := by
        have h3 : |x - x0| ≤ 1 / (2 * Λ) := (hnear x hx).trans (min_le_left _ _)
        calc Λ * M * |x - x0| ≤ Λ * M * (1 / (2 * Λ)) := mul_le_mul_of_nonneg_left h3 (by positivity)
          _ = M / 2 := by field_simp
      have h4 : M / 2 ≤ |g x| := by
        have h5 : |g x0| ≤ |g x0 - g x| + |g x| := by
          have := abs_add_le (g x0 - g x) (g x)
          simpa using this
        rw [abs_sub_comm] at h5
        have : |g x - g x0| ≤ M / 2 := h1.trans h2
        linarith
      have := pow_le_pow_left₀ (by positivity) h4 2
      rw [sq_abs] at this
      linarith [show (M / 2) ^ 2 = M ^ 2 / 4 by ring]
    have h1 : ∫ x in a..b, (M ^ 2 / 4) ≤ ∫ x in a..b, g x ^ 2 :=
      intervalIntegral.integral_mono_on hab' intervalIntegrable_const ((hgc.pow 2).intervalIntegrable _ _) hlow
    rw [intervalIntegral.integral_const, hab, smul_eq_mul] at h1
    refine h1.trans ?_
    exact intervalIntegral.integral_mono_interval ha hab' hb (Filter.Eventually.of_forall fun x => sq_nonneg _)
      ((hgc.pow 2).intervalIntegrable _ _)
  have hR := riemann_sum hτ (hgc.pow 2) (L := 2 * Λ * M ^ 2) (by
    intro x hx y hy
    have h1 : g x ^ 2 - g y ^ 2 = (g x - g y) * (g x + g y) := by ring
    show |g x ^ 2 - g y ^ 2| ≤ _
    rw [h1, abs_mul]
    have h2 : |g x + g y| ≤ 2 * M := (abs_add_le _ _).trans (by linarith [hle x hx, hle y hy])
    calc |g x - g y| * |g x + g y| ≤ (Λ * M * |x - y|) * (2 * M) :=
          mul_le_mul (hgl x hx y hy) h2 (abs_nonneg _) (by positivity)
      _ = _ := by ring) hn0
  have hsmall : 2 * Λ * M ^ 2 * τ ^ 2 / n ≤ ρ * M ^ 2 / 8 := by
    have h1 : 16 * Λ * τ ^ 2 / ρ ≤ n := (Nat.le_ceil _).trans (by exact_mod_cast hn)
    rw [div_le_iff₀ hρ0] at h1
    rw [div_le_iff₀ hn']
    nlinarith [sq_nonneg M]
  have hMB : M ^ 2 ≤ 8 / ρ * B ^ 2 := by
    have h1 := (abs_le.1 hR).2
    have h2 : τ / n * ∑ j ∈ Finset.range n, (g ((j : ℝ) * (τ / n))) ^ 2 ≤ B ^ 2 := hsum
    have h3 : ρ * M ^ 2 / 8 ≤ B ^ 2 := by
      simp only [Pi.pow_apply] at h1
      linarith
    rw [div_mul_eq_mul_div, le_div_iff₀ hρ0]
    linarith
  have hM2 : M ≤ Real.sqrt (8 / ρ) * B := by
    have := Real.sqrt_le_sqrt hMB
    rwa [Real.sqrt_sq hM0, Real.sqrt_mul (by positivity), Real.sqrt_sq hB] at this
  refine (hgl x hx y hy).trans (mul_le_mul_of_nonneg_right ?_ (abs_nonneg _))
  calc Λ * M ≤ Λ * (Real.sqrt (8 / ρ) * B) := mul_le_mul_of_nonneg_left hM2 hΛ0.le
    _ = _ := by ring

/-- The integral of a function of a finite-dimensional space is bounded by the mean square of enough samples. -/
theorem integral_le_samples {m : ℕ} {φ : Fin m → ℝ → ℝ} (hφ : ∀ i, Continuous (φ i)) {τ : ℝ} (hτ : 0 < τ) {L : ℝ}
    (hL0 : 0 ≤ L) (hL : ∀ i, ∀ x ∈ Icc 0 τ, ∀ y ∈ Icc 0 τ, |φ i x - φ i y| ≤ L * |x - y|) :
    ∃ n0 : ℕ, ∀ n, n0 ≤ n → 0 < n → ∀ (w : Fin m → ℝ) (B : ℝ), 0 ≤ B →
      τ / n * ∑ j ∈ Finset.range n, (∑ i, w i * φ i (j * (τ / n))) ^ 2 ≤ B ^ 2 →
      ∫ x in (0 : ℝ)..τ, |∑ i, w i * φ i x| ≤ (Real.sqrt τ + 1) * B := by
  obtain ⟨K, hK0, n0, hK⟩ := samples_bound hφ hτ hL0 hL
  refine ⟨max n0 ⌈K * τ ^ 2⌉₊, ?_⟩
  intro n hn hn0 w B hB hsum
  have hn' : (0 : ℝ) < n := by exact_mod_cast hn0
  have hgc : Continuous fun x => |∑ i, w i * φ i x| := by fun_prop
  have hlip := hK n ((le_max_left _ _).trans hn) hn0 w B hB hsum
  have hR := riemann_sum hτ hgc (L := K * B) (fun x hx y hy => (abs_abs_sub_abs_le_abs_sub _ _).trans (hlip x hx y hy)) hn0
  have h1 : K * B * τ ^ 2 / n ≤ B := by
    have : K * τ ^ 2 ≤ n := (Nat.le_ceil _).trans (by exact_mod_cast (le_max_right _ _).trans hn)
    rw [div_le_iff₀ hn']
    nlinarith
  have h2 : τ / n * ∑ j ∈ Finset.range n, |∑ i, w i * φ i (j * (τ / n))| ≤ Real.sqrt τ * B := by
    set S := ∑ j ∈ Finset.range n, |∑ i, w i * φ i (j * (τ / n))| with hS
    have h3 := sq_sum_le_card_mul_sum_sq (s := Finset.range n) (f := fun j : ℕ => |∑ i, w i * φ i (j * (τ / n))|)
    simp only [sq_abs, Finset.card_range] at h3
    rw [← hS] at h3
    have h4 : (τ / n * S) ^ 2 ≤ τ * B ^ 2 := by
      have h5 : (τ / n * S) ^ 2 = τ ^ 2 / n ^ 2 * S ^ 2 := by ring
      rw [h5]
      calc τ ^ 2 / (n : ℝ) ^ 2 * S ^ 2
          ≤ τ ^ 2 / (n : ℝ) ^ 2 * (n * ∑ j ∈ Finset.range n, (∑ i, w i * φ i (j * (τ / n))) ^ 2) :=
            mul_le_mul_of_nonneg_left h3 (by positivity)
        _ = τ * (τ / n * ∑ j ∈ Finset.range n, (∑ i, w i * φ i (j * (τ / n))) ^ 2) := by field_simp
        _ ≤ τ * B ^ 2 := mul_le_mul_of_nonneg_left hsum hτ.le
    have h6 := Real.sqrt_le_sqrt h4
    rw [Real.sqrt_mul hτ.le, Real.sqrt_sq hB, Real.sqrt_sq (by positivity)] at h6
    exact h6
  have h3 := (abs_le.1 hR).2
  linarith

end Verif
