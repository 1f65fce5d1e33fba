import Mathlib.Analysis.SpecialFunctions.Exponential
import Mathlib.Analysis.ODE.ExistUnique
import Mathlib.MeasureTheory.Integral.IntervalIntegral.FundThmCalculus
import Mathlib.Analysis.Calculus.ContDiff.RCLike
import Verif.Lemmas.OneStep

/-! # Damped springs with an input: exact solutions and errors of the integrators -/

namespace Verif
open NormedSpace

/-- `sdField` without input as a continuous linear map. -/
noncomputable def sdLinear (k c : ℝ) : ℝ × ℝ →L[ℝ] ℝ × ℝ :=
  (ContinuousLinearMap.snd ℝ ℝ ℝ).prod
    ((-k) • ContinuousLinearMap.fst ℝ ℝ ℝ - c • ContinuousLinearMap.snd ℝ ℝ ℝ)

theorem sdField_eq_linear (k c : ℝ) (x : ℝ × ℝ) (u : ℝ) : sdField k c x u = sdLinear k c x + (0, u) := by
  ext <;> simp [sdField, sdLinear]

theorem sd_solution_exists (k c : ℝ) {u : ℝ → ℝ} (hu : Continuous u) (t0 : ℝ) (x0 : ℝ × ℝ) :
    ∃ x : ℝ → ℝ × ℝ, x t0 = x0 ∧ ∀ t, HasDerivAt x (sdField k c (x t) (u t)) t := by
  set A := sdLinear k c
  set G : ℝ → ℝ × ℝ →L[ℝ] ℝ × ℝ := fun t => exp (t • A) with hG
  have hGd : ∀ t, HasDerivAt G (A * G t) t := fun t => hasDerivAt_exp_smul_const' A t
  have hGc : Continuous G := continuous_iff_continuousAt.2 fun t => (hGd t).continuousAt
  set b : ℝ → ℝ × ℝ := fun s => G (-(s - t0)) (0, u s) with hb
  have hbc : Continuous b := by
    apply Continuous.clm_apply
    · exact hGc.comp (by fun_prop)
    · exact continuous_const.prodMk hu
  set I : ℝ → ℝ × ℝ := fun t => x0 + ∫ s in t0..t, b s with hI
  have hId : ∀ t, HasDerivAt I (b t) t := by
    intro t
    exact (intervalIntegral.integral_hasDerivAt_right (hbc.intervalIntegrable _ _)
      hbc.aestronglyMeasurable.stronglyMeasurableAtFilter hbc.continuousAt).const_add x0
  refine ⟨fun t => G (t - t0) (I t), ?_, ?_⟩
  · simp [hG, hI]
  · intro t
    have h1 : HasDerivAt (fun t => G (t - t0)) (A * G (t - t0)) t := by
      have := (hGd (t - t0)).comp_sub_const t t0
      exact this
    have h2 := h1.clm_apply (hId t)
    have e : G (t - t0) (b t) = (0, u t) := by
      have hinv : G (t - t0) * G (-(t - t0)) = 1 := by
        simp only [hG]
        have e1 : (-(t - t0)) • A = -((t - t0) • A) := by ext <;> simp <;> ring
        let : NormedAlgebra ℚ (ℝ × ℝ →L[ℝ] ℝ × ℝ) := .restrictScalars ℚ ℝ _
        have h := exp_add_of_commute (Commute.refl ((t - t0) • A)).neg_right
        rw [e1]
        refine h.symm.trans ?_
        rw [add_neg_cancel, exp_zero]
      have := congrArg (fun T : ℝ × ℝ →L[ℝ] ℝ × ℝ => T (0, u t)) hinv
      simpa [hb] using this
    rw [e] at h2
    rw [sdField_eq_linear]
    exact h2

theorem sd_solution_unique {k c : ℝ} {u : ℝ → ℝ} {t0 : ℝ} {x x' : ℝ → ℝ × ℝ}
    (hx : ∀ t, HasDerivAt x (sdField k c (x t) (u t)) t) (hx' : ∀ t, HasDerivAt x' (sdField k c (x' t) (u t)) t)
    (h0 : x t0 = x' t0) : x = x' := by
  refine ODE_solution_unique_univ (v := fun t x => sdField k c x (u t)) (s := fun _ => Set.univ)
    (K := (1 + |k| + |c|).toNNReal) ?_ (fun t => ⟨hx t, trivial⟩) (fun t => ⟨hx' t, trivial⟩) h0
  intro t
  apply LipschitzWith.lipschitzOnWith
  apply LipschitzWith.of_dist_le_mul
  intro y z
  rw [dist_eq_norm, dist_eq_norm, Real.coe_toNNReal _ (by positivity)]
  have := sdField_lip k c y z (u t) (u t)
  simpa using this

/-- Bounds on a compact interval. -/
theorem sd_bounds {k c : ℝ} {u : ℝ → ℝ} (hu : ContDiff ℝ 1 u) {x : ℝ → ℝ × ℝ}
    (hx : ∀ t, HasDerivAt x (sdField k c (x t) (u t)) t) (t0 R : ℝ) :
    ∃ M Lu, 0 ≤ M ∧ 0 ≤ Lu ∧ (∀ t, t0 ≤ t → t ≤ R → ‖sdField k c (x t) (u t)‖ ≤ M) ∧
      ∀ s t, t0 ≤ s → s ≤ t → t ≤ R → |u t - u s| ≤ Lu * (t - s) := by
  have hxc : Continuous x := continuous_iff_continuousAt.2 fun t => (hx t).continuousAt
  have hfc : Continuous fun t => sdField k c (x t) (u t) := by
    unfold sdField
    have := hu.continuous
    fun_prop
  obtain ⟨M, hM⟩ := isCompact_Icc.exists_bound_of_continuousOn (s := Set.Icc t0 R) hfc.continuousOn
  have hdc : Continuous (deriv u) := hu.continuous_deriv le_rfl
  obtain ⟨B, hB⟩ := isCompact_Icc.exists_bound_of_continuousOn (s := Set.Icc t0 R) hdc.continuousOn
  refine ⟨max M 0, max B 0, le_max_right _ _, le_max_right _ _, fun t h1 h2 => (hM t ⟨h1, h2⟩).trans (le_max_left _ _), ?_⟩
  intro s t h1 h2 h3
  have hd : Differentiable ℝ u := hu.differentiable (by norm_num)
  have := Convex.norm_image_sub_le_of_norm_hasDerivWithin_le (f := u) (f' := deriv u) (s := Set.Icc s t) (C := max B 0)
    (fun r _ => (hd r).hasDerivAt.hasDerivWithinAt)
    (fun r hr => (hB r ⟨h1.trans hr.1, hr.2.trans h3⟩).trans (le_max_left _ _)) (convex_Icc s t)
    (Set.left_mem_Icc.2 h2) (Set.right_mem_Icc.2 h2)
  rw [Real.norm_eq_abs, Real.norm_of_nonneg (by linarith)] at this
  exact this

section Errors
variable {k c : ℝ} {u : ℝ → ℝ} {x : ℝ → ℝ × ℝ}

/-- Global error of semi-implicit Euler integration with sub-steps. -/
theorem sd_grid_error (hu : ContDiff ℝ 1 u) (hx : ∀ t, HasDerivAt x (sdField k c (x t) (u t)) t) (t0 R : ℝ) :
    ∃ C, 0 ≤ C ∧ ∀ δ D : ℝ, 0 < δ → 0 < D → ∀ xs : ℕ → ℝ × ℝ, xs 0 = x t0 →
      (∀ i : ℕ, t0 + (i + 1) * D ≤ R → xs (i + 1) = (subSteps δ (t0 + (i + 1) * D) (t0 + i * D)).foldl
        (fun s p => sdStep k c p.1 (u p.2) s) (xs i)) →
      ∀ i : ℕ, t0 + i * D ≤ R → ‖xs i - x (t0 + i * D)‖ ≤ C * min δ D := by
  obtain ⟨M, Lu, hM0, hLu, hM, hLip⟩ := sd_bounds hu hx t0 R
  set cap := |R - t0| with hcap
  have hcap0 : 0 ≤ cap := abs_nonneg _
  set L := (1 + |k| + |c|) * (1 + cap) with hL
  have hL0 : 0 < L := by positivity
  set K := (1 + |k| + |c|) * M + Lu + Lu + (M + Lu * cap) with hK
  have hK0 : 0 ≤ K := by positivity
  refine ⟨Real.exp (L * cap) * (K / L), by positivity, ?_⟩
  intro δ D hδ hD xs h0 hxs i hi
  set H := min δ D with hH
  have hH0 : 0 ≤ H := le_min hδ.le hD.le
  rcases Nat.eq_zero_or_pos i with rfl | hpos
  · rw [h0]; simp only [Nat.cast_zero, zero_mul, add_zero, sub_self, norm_zero]; positivity
  have hDcap : D ≤ cap := by
    have h1 : (1 : ℝ) ≤ i := by exact_mod_cast hpos
    have h2 : D ≤ i * D := by nlinarith
    exact le_trans (by linarith) (le_abs_self _)
  have hHcap : H ≤ cap := (min_le_right _ _).trans hDcap
  have hstab : ∀ h t y y', 0 < h → h ≤ H → t0 ≤ t - h → t ≤ R →
      ‖sdStep k c h (u t) y - sdStep k c h (u t) y'‖ ≤ (1 + L * h) * ‖y - y'‖ := by
    intro h t y y' hh hhH _ _
    exact sdStep_lip hh.le (hhH.trans hHcap) _ _ _
  have hcons : ∀ h t, 0 < h → h ≤ H → t0 ≤ t - h → t ≤ R → ‖sdStep k c h (u t) (x (t - h)) - x t‖ ≤ K * h * H := by
    intro h t hh hhH ht0 ht
    refine (sdStep_consistent hx hM hM0 hLu hLip hh (hhH.trans hHcap) ht0 ht).trans ?_
    exact mul_le_mul_of_nonneg_left hhH (by positivity)
  have hg := grid_error (g := fun i => ‖xs i - x (t0 + i * D)‖ + K * H / L) (t0 := t0) (R := R) (L := L) (D := D)
    (fun i hi' => by
      have hle : t0 + i * D ≤ t0 + (i + 1) * D := by nlinarith
      have := subSteps_error (Φ := fun h t y => sdStep k c h (u t) y) hL0 hH0 hK0 hstab hcons hδ hi' (t0 + i * D)
        (by have : (0 : ℝ) ≤ i * D := by positivity
            linarith) hle
        (by rw [hH, show t0 + (i + 1) * D - (t0 + i * D) = D by ring]) (xs i)
      rw [show t0 + (i + 1) * D - (t0 + i * D) = D by ring] at this
      rw [← hxs i hi'] at this
      push_cast
      exact this) hD.le i hi
  simp only [Nat.cast_zero, zero_mul, add_zero, h0, sub_self, norm_zero, zero_add] at hg
  have h3 : 0 ≤ K * H / L := by positivity
  have h4 : Real.exp (L * (i * D)) ≤ Real.exp (L * cap) := by
    apply Real.exp_le_exp.2
    apply mul_le_mul_of_nonneg_left _ hL0.le
    exact le_trans (by linarith) (le_abs_self _)
  have h5 := mul_le_mul_of_nonneg_right h4 h3
  have e : Real.exp (L * cap) * (K / L) * H = Real.exp (L * cap) * (K * H / L) := by ring
  rw [e]
  linarith

/-- Global error of Runge-Kutta integration with late input. -/
theorem rk_grid_error (hu : ContDiff ℝ 1 u) (hx : ∀ t, HasDerivAt x (sdField k c (x t) (u t)) t) (t0 R : ℝ) :
    ∃ C, 0 ≤ C ∧ ∀ D : ℝ, 0 < D → ∀ xs : ℕ → ℝ × ℝ, xs 0 = x t0 →
      (∀ i : ℕ, t0 + (i + 1) * D ≤ R → xs (i + 1) = rkStep k c D (u (t0 + (i + 1) * D))
        (u (t0 + (i + 1) * D + D / 2)) (u (t0 + (i + 1) * D + D)) (xs i)) →
      ∀ i : ℕ, t0 + i * D ≤ R → ‖xs i - x (t0 + i * D)‖ ≤ C * D := by
  set cap := |R - t0| with hcap
  have hcap0 : 0 ≤ cap := abs_nonneg _
  obtain ⟨M, Lu, hM0, hLu, hM, hLip⟩ := sd_bounds hu hx t0 (R + cap)
  set L := (1 + |k| + |c|) * (1 + cap * (1 + |k| + |c|)) ^ 3 with hL
  have hL0 : 0 < L := by positivity
  obtain ⟨K, hK0, hKc⟩ := rkStep_consistent hx hcap0 hM hM0 hLu hLip
  refine ⟨Real.exp (L * cap) * (K / L), by positivity, ?_⟩
  intro D hD xs h0 hxs i hi
  rcases Nat.eq_zero_or_pos i with rfl | hpos
  · rw [h0]; simp only [Nat.cast_zero, zero_mul, add_zero, sub_self, norm_zero]; positivity
  have hDcap : D ≤ cap := by
    have h1 : (1 : ℝ) ≤ i := by exact_mod_cast hpos
    have h2 : D ≤ i * D := by nlinarith
    exact le_trans (by linarith) (le_abs_self _)
  set Φ : ℝ → ℝ → ℝ × ℝ → ℝ × ℝ := fun h t y => rkStep k c h (u t) (u (t + h / 2)) (u (t + h)) y with hΦ
  have hstab : ∀ h t y y', 0 < h → h ≤ D → t0 ≤ t - h → t ≤ R → ‖Φ h t y - Φ h t y'‖ ≤ (1 + L * h) * ‖y - y'‖ := by
    intro h t y y' hh hhD _ _
    exact rkStep_lip hh.le (hhD.trans hDcap) _ _ _ _ _
  have hcons : ∀ h t, 0 < h → h ≤ D → t0 ≤ t - h → t ≤ R → ‖Φ h t (x (t - h)) - x t‖ ≤ K * h * D := by
    intro h t hh hhD ht0 ht
    refine (hKc h t hh (hhD.trans hDcap) ht0 ht).trans ?_
    exact mul_le_mul_of_nonneg_left hhD (by positivity)
  have hg := grid_error (g := fun i => ‖xs i - x (t0 + i * D)‖ + K * D / L) (t0 := t0) (R := R) (L := L) (D := D)
    (fun i hi' => by
      have h1 : t0 ≤ t0 + (i + 1) * D - D := by
        have : (0 : ℝ) ≤ i * D := by positivity
        linarith
      have := oneStep_error hL0 hD.le hK0 hstab hcons hD le_rfl h1 hi' (xs i)
      rw [show t0 + (i + 1) * D - D = t0 + i * D by ring] at this
      rw [hxs i hi']
      push_cast
      exact this) hD.le i hi
  simp only [Nat.cast_zero, zero_mul, add_zero, h0, sub_self, norm_zero, zero_add] at hg
  have h3 : 0 ≤ K * D / L := by positivity
  have h4 : Real.exp (L * (i * D)) ≤ Real.exp (L * cap) := by
    apply Real.exp_le_exp.2
    apply mul_le_mul_of_nonneg_left _ hL0.le
    exact le_trans (by linarith) (le_abs_self _)
  have h5 := mul_le_mul_of_nonneg_right h4 h3
  have e : Real.exp (L * cap) * (K / L) * D = Real.exp (L * cap) * (K * D / L) := by ring
  rw [e]
  linarith

end Errors
end Verif
