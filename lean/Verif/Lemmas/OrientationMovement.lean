import Mathlib.Analysis.Calculus.MeanValue
import Mathlib.Topology.MetricSpace.Basic
import Verif.Lemmas.OrientationError
import Verif.Spec.OrientationMovement

/-! # Integrated orientations follow a movement -/

namespace Verif
open Spec Quaternion Set

/-! ## Uniform bounds of remainders -/

/-- Uniform continuity on a bounded interval. -/
theorem uniform_small {E : Type*} [NormedAddCommGroup E] {f : ℝ → E} {A B : ℝ} (hf : ContinuousOn f (Icc A B)) {η : ℝ}
    (hη : 0 < η) : ∃ H > 0, ∀ s ∈ Icc A B, ∀ t ∈ Icc A B, |t - s| ≤ H → ‖f t - f s‖ ≤ η := by
  have h := (isCompact_Icc.uniformContinuousOn_of_continuous hf)
  rw [Metric.uniformContinuousOn_iff] at h
  obtain ⟨δ, hδ, h⟩ := h η hη
  refine ⟨δ / 2, by positivity, fun s hs t ht hst => ?_⟩
  have := h t ht s hs (by rw [Real.dist_eq]; linarith)
  rw [dist_eq_norm] at this
  exact this.le

/-- Uniform bound of the remainder of the linear approximation. -/
theorem uniform_taylor {E : Type*} [NormedAddCommGroup E] [NormedSpace ℝ E] {f f' : ℝ → E} {A B : ℝ}
    (hf : ∀ t ∈ Icc A B, HasDerivWithinAt f (f' t) (Icc A B) t) (hf' : ContinuousOn f' (Icc A B)) {η : ℝ}
    (hη : 0 < η) : ∃ H > 0, ∀ s t, A ≤ s → s ≤ t → t ≤ B → t - s ≤ H → ‖f t - f s - (t - s) • f' s‖ ≤ η * (t - s) := by
  obtain ⟨H, hH, h⟩ := uniform_small hf' hη
  refine ⟨H, hH, fun s t hs hst ht hle => ?_⟩
  have hsub : Icc s t ⊆ Icc A B := Icc_subset_Icc hs ht
  have key := (convex_Icc s t).norm_image_sub_le_of_norm_hasDerivWithin_le (f := fun x => f x - x • f' s)
    (f' := fun x => f' x - f' s) (C := η) (x := s) (y := t)
    (fun x hx => by
      have h1 := (hf x (hsub hx)).mono hsub
      have h2 := (hasDerivWithinAt_id x (Icc s t)).smul_const (f' s)
      rw [one_smul] at h2
      exact h1.sub h2)
    (fun x hx => h s (hsub (left_mem_Icc.2 hst)) x (hsub hx) (by rw [abs_of_nonneg (by linarith [hx.1])]; linarith [hx.2]))
    (left_mem_Icc.2 hst) (right_mem_Icc.2 hst)
  rw [Real.norm_eq_abs, abs_of_nonneg (by linarith)] at key
  have e : f t - f s - (t - s) • f' s = (f t - t • f' s) - (f s - s • f' s) := by rw [sub_smul]; abel
  rw [e]
  exact key

theorem rot_taylor (a : Vec 3) : ‖rot a - 1 - (1 / 2 : ℝ) • Spec.pure a‖ ≤ length a ^ 2 := by
  have h0 := length_nonneg a
  rcases h0.eq_or_lt with h | h
  · have ha := length_eq_zero.1 h.symm
    subst ha
    have e : rot 0 - 1 - (1 / 2 : ℝ) • Spec.pure 0 = 0 := by
      have : Spec.pure 0 = 0 := by ext <;> simp
      unfold rot; rw [this]; simp
    rw [e, norm_zero]; positivity
  · set r := length a / 2 with hr
    have hr0 : 0 < r := by rw [hr]; positivity
    have e : ‖rot a - 1 - (1 / 2 : ℝ) • Spec.pure a‖ ^ 2 = (1 - Real.cos r) ^ 2 + (r - Real.sin r) ^ 2 := by
      rw [sq ‖_‖, ← normSq_eq_norm_mul_self, normSq_def']
      unfold rot
      rw [exp_half]
      simp only [Quaternion.re_sub, Quaternion.imI_sub, Quaternion.imJ_sub, Quaternion.imK_sub, Quaternion.re_smul, Quaternion.imI_smul,
        Quaternion.imJ_smul, Quaternion.imK_smul, smul_eq_mul, ← hr]
      have h1 : ∀ k, Real.sin r * (a k / length a) - 0 - 1 / 2 * a k = (Real.sin r - r) * (a k / length a) := by
        intro k; rw [hr]; field_simp; ring
      have h2 : (a 0 / length a) ^ 2 + (a 1 / length a) ^ 2 + (a 2 / length a) ^ 2 = 1 := by
        have h3 : rsq3 a = length a ^ 2 := (length_sq a).symm
        unfold rsq3 at h3
        rw [div_pow, div_pow, div_pow, ← add_div, ← add_div, h3, div_self (by positivity)]
      show (Real.cos r - 1 - 1 / 2 * 0) ^ 2 + (Real.sin r * (a 0 / length a) - 0 - 1 / 2 * a 0) ^ 2 +
        (Real.sin r * (a 1 / length a) - 0 - 1 / 2 * a 1) ^ 2 + (Real.sin r * (a 2 / length a) - 0 - 1 / 2 * a 2) ^ 2 = _
      rw [h1, h1, h1]
      linear_combination (Real.sin r - r) ^ 2 * h2
    apply le_of_sq_le_sq _ (by positivity)
    rw [e]
    have hc : 1 - Real.cos r ≤ r ^ 2 / 2 := by linarith [Real.one_sub_sq_div_two_le_cos (x := r)]
    have hc0 : 0 ≤ 1 - Real.cos r := by linarith [Real.cos_le_one r]
    have hs0 : 0 ≤ r - Real.sin r := by linarith [Real.sin_lt hr0]
    have hs : r - Real.sin r ≤ 2 * r ^ 2 := by
      rcases le_or_gt r 1 with h1 | h1
      · have h2 := Real.sin_gt_sub_cube hr0
        have h3 : r ^ 3 ≤ r ^ 2 := by nlinarith [sq_nonneg r]
        nlinarith
      · nlinarith [Real.neg_one_le_sin r]
    have e2 : length a = 2 * r := by rw [hr]; ring
    rw [e2]
    have h1 : (1 - Real.cos r) ^ 2 ≤ (r ^ 2 / 2) ^ 2 := pow_le_pow_left₀ hc0 hc 2
    have h2 : (r - Real.sin r) ^ 2 ≤ (2 * r ^ 2) ^ 2 := pow_le_pow_left₀ hs0 hs 2
    nlinarith [sq_nonneg (r ^ 2)]

theorem length_le_sum (a : Vec 3) : length a ≤ |a 0| + |a 1| + |a 2| := by
  apply le_of_sq_le_sq _ (by positivity)
  rw [length_sq]
  unfold rsq3
  rw [← sq_abs (a 0), ← sq_abs (a 1), ← sq_abs (a 2)]
  nlinarith [mul_nonneg (abs_nonneg (a 0)) (abs_nonneg (a 1)), mul_nonneg (abs_nonneg (a 0)) (abs_nonneg (a 2)),
    mul_nonneg (abs_nonneg (a 1)) (abs_nonneg (a 2))]

theorem length_le_of_coord {a : Vec 3} {η : ℝ} (h : ∀ k, |a k| ≤ η / 3) : length a ≤ η := by
  have := length_le_sum a
  linarith [h 0, h 1, h 2]

/-- Continuity in the Euclidean length. -/
theorem uniform_small_vec {f : ℝ → Vec 3} {A B : ℝ} (hf : ∀ k, ContinuousOn (fun t => f t k) (Icc A B)) {η : ℝ}
    (hη : 0 < η) : ∃ H > 0, ∀ s ∈ Icc A B, ∀ t ∈ Icc A B, |t - s| ≤ H → length (f t - f s) ≤ η := by
  choose H hH h using fun k => uniform_small (hf k) (show 0 < η / 3 by positivity)
  refine ⟨min (H 0) (min (H 1) (H 2)), lt_min (hH 0) (lt_min (hH 1) (hH 2)), fun s hs t ht hst => ?_⟩
  have hle : ∀ k, |t - s| ≤ H k := by
    intro k
    have h1 := min_le_left (H 0) (min (H 1) (H 2))
    have h2 := (min_le_right (H 0) (min (H 1) (H 2))).trans (min_le_left _ _)
    have h3 := (min_le_right (H 0) (min (H 1) (H 2))).trans (min_le_right _ _)
    fin_cases k
    · exact hst.trans h1
    · exact hst.trans h2
    · exact hst.trans h3
  exact length_le_of_coord fun k => h k s hs t ht (hle k)

namespace Spec.OrientationMovement
variable {A B : ℝ} {q : ℝ → Vec 4} {w acc : ℝ → Vec 3}

theorem continuous_quat (h : OrientationMovement A B q w acc) : ContinuousOn (fun t => quat (q t)) (Icc A B) :=
  fun t ht => (h.velocity t ht).continuousWithinAt

theorem continuous_velocity (h : OrientationMovement A B q w acc) (k : Fin 3) :
    ContinuousOn (fun t => w t k) (Icc A B) := fun t ht => (h.acceleration t ht k).continuousWithinAt

theorem continuous_pure {f : ℝ → Vec 3} {S : Set ℝ} (hf : ∀ k, ContinuousOn (fun t => f t k) S) :
    ContinuousOn (fun t => Spec.pure (f t)) S := by
  have e : (fun t => Spec.pure (f t)) = fun t => (f t 0) • Spec.pure ![1, 0, 0] + (f t 1) • Spec.pure ![0, 1, 0] +
      (f t 2) • Spec.pure ![0, 0, 1] := by
    funext t
    ext <;> simp
  rw [e]
  exact (((hf 0).smul continuousOn_const).add ((hf 1).smul continuousOn_const)).add ((hf 2).smul continuousOn_const)

theorem velocity_bounded (h : OrientationMovement A B q w acc) : ∃ W, 0 ≤ W ∧ ∀ t ∈ Icc A B, length (w t) ≤ W := by
  obtain ⟨W, hW⟩ := isCompact_Icc.exists_bound_of_continuousOn (continuous_pure h.continuous_velocity)
  refine ⟨max W 0, le_max_right _ _, fun t ht => ?_⟩
  rw [← norm_pure]
  exact (hW t ht).trans (le_max_left _ _)

/-- Errors of the exact movement in one step. -/
theorem local_error (h : OrientationMovement A B q w acc) {η : ℝ} (hη : 0 < η) :
    ∃ H > 0, ∀ s t, A ≤ s → s ≤ t → t ≤ B → t - s ≤ H →
      length (w s + (t - s) • acc s - w t) ≤ η * (t - s) ∧
      ‖rot ((t - s) • w s) * quat (q s) - quat (q t)‖ ≤ η * (t - s) ∧ length (w t - w s) ≤ η := by
  choose H1 hH1 h1 using fun k => uniform_taylor (fun t ht => h.acceleration t ht k) (h.continuous k)
    (show 0 < η / 3 by positivity)
  have hcont : ContinuousOn (fun t => (1 / 2 : ℝ) • (Spec.pure (w t) * quat (q t))) (Icc A B) :=
    ContinuousOn.const_smul (ContinuousOn.mul (continuous_pure h.continuous_velocity) h.continuous_quat) (1 / 2 : ℝ)
  obtain ⟨H2, hH2, h2⟩ := uniform_taylor h.velocity hcont (half_pos hη)
  obtain ⟨H3, hH3, h3⟩ := uniform_small_vec h.continuous_velocity hη
  obtain ⟨W, hW0, hW⟩ := h.velocity_bounded
  set H4 := η / 2 / (W ^ 2 + 1) with hH4
  have hH40 : 0 < H4 := by rw [hH4]; positivity
  refine ⟨min (min (H1 0) (min (H1 1) (H1 2))) (min H2 (min H3 H4)),
    lt_min (lt_min (hH1 0) (lt_min (hH1 1) (hH1 2))) (lt_min hH2 (lt_min hH3 hH40)), fun s t hs hst ht hle => ?_⟩
  rw [le_min_iff, le_min_iff, le_min_iff, le_min_iff, le_min_iff] at hle
  obtain ⟨⟨l0, l1, l2⟩, l3, l4, l5⟩ := hle
  have hsm : s ∈ Icc A B := ⟨hs, hst.trans ht⟩
  have htm : t ∈ Icc A B := ⟨hs.trans hst, ht⟩
  have hnn : 0 ≤ t - s := by linarith
  refine ⟨?_, ?_, ?_⟩
  · apply length_le_of_coord
    have key : ∀ k, t - s ≤ H1 k → |(w s + (t - s) • acc s - w t) k| ≤ η * (t - s) / 3 := by
      intro k hk
      have h5 := h1 k s t hs hst ht hk
      rw [Real.norm_eq_abs, ← abs_neg] at h5
      have e : (w s + (t - s) • acc s - w t) k = -(w t k - w s k - (t - s) • acc s k) := by
        simp only [Pi.add_apply, Pi.sub_apply, Pi.smul_apply, smul_eq_mul]; ring
      rw [e]
      linarith
    intro k
    fin_cases k
    · exact key 0 l0
    · exact key 1 l1
    · exact key 2 l2
  · have e : rot ((t - s) • w s) * quat (q s) - quat (q t) =
        (rot ((t - s) • w s) - 1 - (1 / 2 : ℝ) • Spec.pure ((t - s) • w s)) * quat (q s) -
          (quat (q t) - quat (q s) - (t - s) • ((1 / 2 : ℝ) • (Spec.pure (w s) * quat (q s)))) := by
      have e2 : Spec.pure ((t - s) • w s) = (t - s) • Spec.pure (w s) := by ext <;> simp
      rw [e2, sub_mul, sub_mul, one_mul, smul_mul_assoc, smul_mul_assoc, smul_comm (1 / 2 : ℝ) (t - s)]
      abel
    rw [e]
    refine (norm_sub_le _ _).trans ?_
    have h5 := h2 s t hs hst ht l3
    have h6 := rot_taylor ((t - s) • w s)
    rw [length_smul, abs_of_nonneg hnn] at h6
    rw [norm_mul, norm_quat (h.unit s hsm), mul_one]
    have h7 : ((t - s) * length (w s)) ^ 2 ≤ η / 2 * (t - s) := by
      have h8 : length (w s) ^ 2 ≤ W ^ 2 := pow_le_pow_left₀ (length_nonneg _) (hW s hsm) 2
      have h9 : (t - s) * (W ^ 2 + 1) ≤ η / 2 := by
        rw [hH4, le_div_iff₀ (by positivity)] at l5; exact l5
      have h10 : (t - s) * length (w s) ^ 2 ≤ η / 2 := by
        have := mul_le_mul_of_nonneg_left h8 hnn
        linarith [show (t - s) * (W ^ 2 + 1) = (t - s) * W ^ 2 + (t - s) by ring]
      have := mul_le_mul_of_nonneg_left h10 hnn
      linarith [show ((t - s) * length (w s)) ^ 2 = (t - s) * ((t - s) * length (w s) ^ 2) by ring]
    linarith
  · exact h3 s hsm t htm (by rw [abs_of_nonneg hnn]; exact l4)

end Spec.OrientationMovement

variable {A B : ℝ} {q : ℝ → Vec 4}

/-- The rotation vectors to a goal that is never opposite to the orientation. -/
theorem exists_rotationTo (hu : ∀ t ∈ Icc A B, UnitQuat (q t)) (hq : ContinuousOn (fun t => quat (q t)) (Icc A B))
    {g : Vec 4} (hg : UnitQuat g)
    (hang : ∀ t ∈ Icc A B, rotationAngle g (q t) < Real.pi) :
    ∃ (a : ℝ → Vec 3) (c : ℝ), 0 < c ∧ (∀ t ∈ Icc A B, IsRotationTo g (q t) (a t)) ∧
      ∀ t ∈ Icc A B, c ≤ Real.cos (length (a t) / 2) := by
  classical
  have hex : ∀ t, ∃ a : Vec 3, t ∈ Icc A B → length a = rotationAngle g (q t) ∧ IsRotationTo g (q t) a := by
    intro t
    by_cases ht : t ∈ Icc A B
    · obtain ⟨a, hl, hr, -⟩ := Verif.exists_rotation lawful_cython (by norm_num) hg (hu t ht)
      exact ⟨a, fun _ => ⟨hl, ⟨by rw [hl]; exact (hang t ht).le, hr⟩⟩⟩
    · exact ⟨0, fun h => absurd h ht⟩
  choose a ha using hex
  have hcos : ∀ t ∈ Icc A B, Real.cos (length (a t) / 2) = |(quat g * star (quat (q t))).re| := by
    intro t ht
    have h1 := (ha t ht).2
    have h0 : 0 ≤ Real.cos (length (a t) / 2) :=
      Real.cos_nonneg_of_mem_Icc ⟨by linarith [length_nonneg (a t), Real.pi_pos], by linarith [h1.short]⟩
    have he : (rot (a t)).re = Real.cos (length (a t) / 2) := by unfold rot; rw [exp_half]
    rcases h1.rotation with h2 | h2
    · rw [h2, he, abs_of_nonneg h0]
    · rw [h2, Quaternion.re_neg, he, abs_neg, abs_of_nonneg h0]
  have hpos : ∀ t ∈ Icc A B, 0 < Real.cos (length (a t) / 2) := by
    intro t ht
    have h1 := (ha t ht).1
    have h2 := hang t ht
    exact Real.cos_pos_of_mem_Ioo ⟨by linarith [length_nonneg (a t), Real.pi_pos], by linarith⟩
  rcases (Icc A B).eq_empty_or_nonempty with he | hne
  · exact ⟨a, 1, one_pos, fun t ht => (ha t ht).2, fun t ht => by rw [he] at ht; exact absurd ht (notMem_empty t)⟩
  · have hcont : ContinuousOn (fun t => |(quat g * star (quat (q t))).re|) (Icc A B) := by
      have h1 : ContinuousOn (fun t => quat g * star (quat (q t))) (Icc A B) :=
        continuousOn_const.mul hq.star
      exact (Quaternion.continuous_re.comp_continuousOn h1).abs
    obtain ⟨t0, ht0, hmin⟩ := isCompact_Icc.exists_isMinOn hne hcont
    refine ⟨a, Real.cos (length (a t0) / 2), hpos t0 ht0, fun t ht => (ha t ht).2, fun t ht => ?_⟩
    rw [hcos t ht, hcos t0 ht0]
    exact hmin ht

theorem continuous_rotationTo (hq : ContinuousOn (fun t => quat (q t)) (Icc A B)) {g : Vec 4} (hg : UnitQuat g) {a : ℝ → Vec 3} {c : ℝ}
    (hc : 0 < c) (ha : ∀ t ∈ Icc A B, IsRotationTo g (q t) (a t)) (hca : ∀ t ∈ Icc A B, c ≤ Real.cos (length (a t) / 2))
    (k : Fin 3) : ContinuousOn (fun t => a t k) (Icc A B) := by
  have hπ := Real.pi_pos
  rw [Metric.continuousOn_iff]
  intro s hs ε hε
  set L := Real.pi + 2 * Real.pi / c with hL
  have hL0 : 0 < L := by rw [hL]; positivity
  obtain ⟨δ, hδ, hd⟩ := (Metric.continuousOn_iff.1 hq) s hs (ε / L) (by positivity)
  refine ⟨δ, hδ, fun t ht hts => ?_⟩
  have h1 := (ha s hs).close hg (ha t ht) hc (hca s hs)
  have h2 := hd t ht hts
  rw [dist_eq_norm, lt_div_iff₀ hL0] at h2
  rw [Real.dist_eq]
  have h3 : |(a t - a s) k| ≤ length (a t - a s) := by
    apply abs_le_of_sq_le_sq _ (length_nonneg _)
    rw [length_sq]
    unfold rsq3
    fin_cases k
    · simp only [Fin.zero_eta]; nlinarith [sq_nonneg ((a t - a s) 1), sq_nonneg ((a t - a s) 2)]
    · simp only [Fin.mk_one]; nlinarith [sq_nonneg ((a t - a s) 0), sq_nonneg ((a t - a s) 2)]
    · simp only [Fin.reduceFinMk]; nlinarith [sq_nonneg ((a t - a s) 0), sq_nonneg ((a t - a s) 1)]
  rw [Pi.sub_apply] at h3
  rw [← hL] at h1
  linarith


end Verif
