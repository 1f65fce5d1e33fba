import Verif.Lemmas.Stability
import Verif.Lemmas.SubSteps
import Verif.Np

/-! # Convergence of damped springs integrated on a uniform time grid -/

namespace Verif
open Filter Topology

theorem arangeAt_tendsto {dt : ℝ} (hdt : 0 < dt) (t0 : ℝ) : Tendsto (fun i : ℕ => t0 + i * dt) atTop atTop :=
  tendsto_atTop_add_const_left _ _ (tendsto_natCast_atTop_atTop.atTop_mul_const hdt)

theorem input_small {u : ℝ → ℝ} (hu : Tendsto u atTop (𝓝 0)) {δ : ℝ} (hδ : 0 < δ) :
    ∃ R, ∀ t ≥ R, u t ^ 2 ≤ δ := by
  have h2 : Tendsto (fun t => u t ^ 2) atTop (𝓝 0) := by simpa using hu.pow 2
  obtain ⟨R, hR⟩ := eventually_atTop.1 (h2.eventually_lt_const hδ)
  exact ⟨R, fun t ht => (hR t ht).le⟩

/-- All sub-steps end after the beginning of the interval. -/
theorem subSteps_end_ge {h a b : ℝ} (hh : 0 < h) (hab : a ≤ b) : ∀ p ∈ subSteps h b a, a ≤ p.2 := by
  intro p hp
  have hpart := subSteps_isPartition hh a hab
  obtain ⟨i, hi, rfl⟩ := List.mem_iff_getElem.1 hp
  rw [hpart.times i hi]
  have : 0 ≤ (((subSteps h b a).take (i + 1)).map Prod.fst).sum := by
    apply List.sum_nonneg
    intro y hy
    obtain ⟨q, hq, rfl⟩ := List.mem_map.1 hy
    exact (hpart.pos q (List.mem_of_mem_take hq)).1.le
  linarith

/-- If the interval is a multiple of the step size, then all sub-steps have the same length. -/
theorem subSteps_uniform {h a b : ℝ} {n : ℕ} (hh : 0 < h) (hab : b - a = n * h) :
    (subSteps h b a).length = n ∧ ∀ p ∈ subSteps h b a, p.1 = h := by
  have hn : nSub h b a = n := by
    unfold nSub
    rw [hab, mul_div_assoc, div_self hh.ne', mul_one, Nat.ceil_natCast]
  refine ⟨by simp [subSteps, hn], ?_⟩
  intro p hp
  unfold subSteps at hp
  rw [hn] at hp
  obtain ⟨i, hi, rfl⟩ := List.mem_map.1 hp
  rw [List.mem_range] at hi
  split_ifs with h1
  · rfl
  · have : i + 1 = n := by omega
    have h2 : (n : ℝ) = i + 1 := by rw [← this]; push_cast; ring
    simp only
    rw [h2] at hab
    linarith

section
variable {k c H dt t0 : ℝ} {u : ℝ → ℝ} {x : ℕ → ℝ × ℝ}

theorem sd_tendsto_robust (hk : 0 < k) (hc : 0 < c) (hH : 0 < H)
    (hs : 2 * H * (2 * k + c ^ 2) * (k + c ^ 2) ≤ k * c) (hdt : 0 < dt) (hu : Tendsto u atTop (𝓝 0))
    (hx : ∀ i : ℕ, x (i + 1) = (subSteps H (t0 + (i + 1) * dt) (t0 + i * dt)).foldl
      (fun s p => sdStep k c p.1 (u p.2) s) (x i)) : Tendsto x atTop (𝓝 (0, 0)) := by
  obtain ⟨A, B, C, η, K, hA, hd, hη, hK, hstep⟩ := sdStep_robust hk hc hs
  apply tendsto_of_qf hd
  refine contraction_tendsto (ρ := Real.exp (-(η * dt))) (Real.exp_pos _).le
    ((Real.exp_lt_exp.2 (by have := mul_pos hη hdt; linarith : -(η * dt) < 0)).trans_eq Real.exp_zero)
    (fun n => qf_nonneg hA hd _) ?_
  intro ε hε
  have hδ : 0 < ε / (dt * (K + 1)) := by positivity
  obtain ⟨R, hR⟩ := input_small hu hδ
  obtain ⟨N, hN⟩ := eventually_atTop.1 ((arangeAt_tendsto hdt t0).eventually_ge_atTop R)
  refine ⟨N, fun n hn => ?_⟩
  have hle : t0 + n * dt ≤ t0 + (n + 1) * dt := by linarith
  have hpart := subSteps_isPartition hH (t := t0 + (n + 1) * dt) (t0 + n * dt) hle
  have hf := sdFold_robust hA hd hη hK hδ.le u hstep _ hpart.pos
    (fun p hp => hR _ (le_trans (hN n hn) (subSteps_end_ge hH hle p hp))) (x n)
  rw [← hx n, hpart.total] at hf
  have e : t0 + (n + 1) * dt - (t0 + n * dt) = dt := by ring
  rw [e] at hf
  refine hf.trans ?_
  have : dt * (K * (ε / (dt * (K + 1)))) ≤ ε := by
    have : dt * (K * (ε / (dt * (K + 1)))) = ε * (K / (K + 1)) := by field_simp
    rw [this]
    have : K / (K + 1) ≤ 1 := by rw [div_le_one (by linarith)]; linarith
    nlinarith
  linarith

theorem sd_tendsto_sharp (hk : 0 < k) (hc : 0 < c) (hH : 0 < H) (hs : H ^ 2 * k + 2 * (H * c) < 4)
    {n : ℕ} (hn : 0 < n) (hdt : dt = n * H) (hu : Tendsto u atTop (𝓝 0))
    (hx : ∀ i : ℕ, x (i + 1) = (subSteps H (t0 + (i + 1) * dt) (t0 + i * dt)).foldl
      (fun s p => sdStep k c p.1 (u p.2) s) (x i)) : Tendsto x atTop (𝓝 (0, 0)) := by
  have hdt0 : 0 < dt := by rw [hdt]; positivity
  obtain ⟨A, B, C, ρ, K, hA, hd, hρ0, hρ, hK, hstep⟩ := sdStep_sharp hk hc hH hs
  apply tendsto_of_qf hd
  refine contraction_tendsto (ρ := ρ ^ n) (pow_nonneg hρ0 _) (pow_lt_one₀ hρ0 hρ hn.ne')
    (fun n => qf_nonneg hA hd _) ?_
  intro ε hε
  have hδ : 0 < ε / (n * (K + 1)) := by positivity
  obtain ⟨R, hR⟩ := input_small hu hδ
  obtain ⟨N, hN⟩ := eventually_atTop.1 ((arangeAt_tendsto hdt0 t0).eventually_ge_atTop R)
  refine ⟨N, fun i hi => ?_⟩
  have hle : t0 + i * dt ≤ t0 + (i + 1) * dt := by linarith
  obtain ⟨hlen, huni⟩ := subSteps_uniform (h := H) (a := t0 + i * dt) (b := t0 + (i + 1) * dt) (n := n) hH
    (by rw [← hdt]; ring)
  have hf := sdFold_sharp hA hd hρ0 hρ hK hδ.le u hstep _ huni
    (fun p hp => hR _ (le_trans (hN i hi) (subSteps_end_ge hH hle p hp))) (x i)
  rw [← hx i, hlen] at hf
  refine hf.trans ?_
  have : n * (K * (ε / (n * (K + 1)))) ≤ ε := by
    have : n * (K * (ε / (n * (K + 1)))) = ε * (K / (K + 1)) := by field_simp
    rw [this]
    have : K / (K + 1) ≤ 1 := by rw [div_le_one (by linarith)]; linarith
    nlinarith
  linarith

theorem rk_tendsto (hk : 0 < k) (hc : 0 < c) (hdt : 0 < dt) (h1 : dt * k < c) (h2 : 2 * (dt * c) < 4 + dt ^ 2 * k)
    (hu : Tendsto u atTop (𝓝 0))
    (hx : ∀ i : ℕ, x (i + 1) = rkStep k c dt (u (t0 + (i + 1) * dt)) (u (t0 + (i + 1) * dt + dt / 2))
      (u (t0 + (i + 1) * dt + dt)) (x i)) : Tendsto x atTop (𝓝 (0, 0)) := by
  obtain ⟨A, B, C, ρ, K, hA, hd, hρ0, hρ, hK, hstep⟩ := rkStep_stable hk hc hdt h1 h2
  apply tendsto_of_qf hd
  refine contraction_tendsto hρ0 hρ (fun n => qf_nonneg hA hd _) ?_
  intro ε hε
  have hδ : 0 < ε / (K + 1) := by positivity
  obtain ⟨R, hR⟩ := input_small hu hδ
  obtain ⟨N, hN⟩ := eventually_atTop.1 ((arangeAt_tendsto hdt t0).eventually_ge_atTop R)
  refine ⟨N, fun i hi => ?_⟩
  have hr := hN i hi
  have hf := hstep (u (t0 + (i + 1) * dt)) (u (t0 + (i + 1) * dt + dt / 2)) (u (t0 + (i + 1) * dt + dt)) _ (x i)
    (hR _ (by linarith)) (hR _ (by linarith)) (hR _ (by linarith))
  rw [← hx i] at hf
  refine hf.trans ?_
  have : K * (ε / (K + 1)) ≤ ε := by
    have : K * (ε / (K + 1)) = ε * (K / (K + 1)) := by field_simp
    rw [this]
    have : K / (K + 1) ≤ 1 := by rw [div_le_one (by linarith)]; linarith
    nlinarith
  linarith

end

/-- Beyond the stability limit the semi-implicit Euler method has a mode that does not decay. -/
theorem sdStep_unstable {k c h : ℝ} (hs : 4 ≤ h ^ 2 * k + 2 * (h * c)) :
    ∃ l : ℝ, l ≤ -1 ∧ sdStep k c h 0 (l - 1 + h * c, -(h * k)) = (l * (l - 1 + h * c), l * -(h * k)) := by
  let T := 2 - h * c - h ^ 2 * k
  let D := 1 - h * c
  have hdisc : (2 + T) ^ 2 ≤ T ^ 2 - 4 * D := by simp only [T, D]; nlinarith
  have h0 : 0 ≤ T ^ 2 - 4 * D := (sq_nonneg _).trans hdisc
  set r := √(T ^ 2 - 4 * D) with hr
  have hr2 : r ^ 2 = T ^ 2 - 4 * D := Real.sq_sqrt h0
  have hle : 2 + T ≤ r := by
    rw [hr]; exact (le_abs_self _).trans (Real.abs_le_sqrt hdisc)
  refine ⟨(T - r) / 2, by linarith, ?_⟩
  have hroot : ((T - r) / 2) ^ 2 = T * ((T - r) / 2) - D := by
    have : ((T - r) / 2) ^ 2 = (T ^ 2 - 2 * T * r + r ^ 2) / 4 := by ring
    rw [this, hr2]; ring
  generalize (T - r) / 2 = l at hroot ⊢
  simp only [T, D] at hroot
  unfold sdStep
  ext
  · simp only; linear_combination -hroot
  · simp only; ring

end Verif
