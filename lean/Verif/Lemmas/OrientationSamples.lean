import Mathlib.Analysis.Calculus.Deriv.Mul
import Verif.Lemmas.Turn
import Verif.Lemmas.FiniteDifferences
import Verif.Props.CartesianImitate
import Verif.Spec.Frames
import Verif.Spec.Representation

/-! # Angular velocities and accelerations of sampled movements -/

namespace Verif
open Spec Quaternion Set

theorem pure_sub (a b : Vec 3) : Spec.pure (a - b) = Spec.pure a - Spec.pure b := by ext <;> simp

theorem pure_smul (c : ℝ) (a : Vec 3) : Spec.pure (c • a) = c • Spec.pure a := by ext <;> simp

/-- Uniform bound of the remainder of the linear approximation, in both directions. -/
theorem uniform_taylor_both {E : Type*} [NormedAddCommGroup E] [NormedSpace ℝ E] {f f' : ℝ → E} {A B : ℝ}
    (hf : ∀ t ∈ Icc A B, HasDerivWithinAt f (f' t) (Icc A B) t) (hf' : ContinuousOn f' (Icc A B)) {η : ℝ}
    (hη : 0 < η) : ∃ H > 0, ∀ s ∈ Icc A B, ∀ t ∈ Icc A B, |t - s| ≤ H → ‖f t - f s - (t - s) • f' s‖ ≤ η * |t - s| := by
  obtain ⟨H, hH, h⟩ := uniform_small hf' hη
  refine ⟨H, hH, fun s hs t ht hle => ?_⟩
  have hsub : uIcc s t ⊆ Icc A B := uIcc_subset_Icc hs ht
  have key := (convex_uIcc s t).norm_image_sub_le_of_norm_hasDerivWithin_le (f := fun x => f x - x • f' s)
    (f' := fun x => f' x - f' s) (C := η) (x := s) (y := t)
    (fun x hx => by
      have h1 := (hf x (hsub hx)).mono hsub
      have h2 := (hasDerivWithinAt_id x (uIcc s t)).smul_const (f' s)
      rw [one_smul] at h2
      exact h1.sub h2)
    (fun x hx => h s hs x (hsub hx) ((abs_sub_left_of_mem_uIcc hx).trans hle))
    left_mem_uIcc right_mem_uIcc
  rw [Real.norm_eq_abs] at key
  have e : f t - f s - (t - s) • f' s = (f t - t • f' s) - (f s - s • f' s) := by rw [sub_smul]; abel
  rw [e]
  exact key

namespace Spec.OrientationMovement
variable {A B : ℝ} {q : ℝ → Vec 4} {w acc : ℝ → Vec 3}

theorem pure_acceleration (h : OrientationMovement A B q w acc) : ∀ t ∈ Icc A B,
    HasDerivWithinAt (fun t => Spec.pure (w t)) (Spec.pure (acc t)) (Icc A B) t := by
  intro t ht
  have e : ∀ v : Vec 3, Spec.pure v = (v 0) • Spec.pure ![1, 0, 0] + (v 1) • Spec.pure ![0, 1, 0] +
      (v 2) • Spec.pure ![0, 0, 1] := by
    intro v
    ext <;> simp
  rw [e (acc t)]
  have e' : (fun t => Spec.pure (w t)) = fun t => (w t 0) • Spec.pure ![1, 0, 0] + (w t 1) • Spec.pure ![0, 1, 0] +
      (w t 2) • Spec.pure ![0, 0, 1] := funext fun t => e (w t)
  rw [e']
  exact (((h.acceleration t ht 0).smul_const _).add ((h.acceleration t ht 1).smul_const _)).add
    ((h.acceleration t ht 2).smul_const _)

/-- Derivative of the orientation in a frame that rotates with constant velocity. -/
theorem frame_deriv (h : OrientationMovement A B q w acc) {S : Set ℝ} {t σ x : ℝ}
    (hS : ∀ x ∈ S, t + σ * x ∈ Icc A B) (hx : x ∈ S) :
    HasDerivWithinAt (fun x => rot (-(σ * x) • w t) * quat (q (t + σ * x)))
      (σ • ((1 / 2 : ℝ) • (rot (-(σ * x) • w t) * (Spec.pure (w (t + σ * x)) - Spec.pure (w t)) * quat (q (t + σ * x))))) S x := by
  have h0 : HasDerivAt (fun x : ℝ => -(σ * x)) (-σ) x := by
    have := ((hasDerivAt_id x).const_mul σ).neg
    rw [mul_one] at this
    exact this
  have h1 := (hasDerivAt_exp_smul_const (𝕂 := ℝ) ((1 / 2 : ℝ) • Spec.pure (w t)) (-(σ * x))).scomp_hasDerivWithinAt x
    (h0.hasDerivWithinAt (s := S))
  have h2 : HasDerivWithinAt (fun x : ℝ => t + σ * x) σ S x := by
    simpa using (((hasDerivAt_id x).const_mul σ).const_add t).hasDerivWithinAt (s := S)
  have h3 := (h.velocity (t + σ * x) (hS x hx)).scomp x h2 (fun y hy => hS y hy)
  have h4 := h1.mul h3
  have e : (fun x => rot (-(σ * x) • w t) * quat (q (t + σ * x))) = fun x =>
      ((fun u : ℝ => NormedSpace.exp (u • ((1 / 2 : ℝ) • Spec.pure (w t)))) ∘ fun x => -(σ * x)) x *
        ((fun t => quat (q t)) ∘ fun x => t + σ * x) x := by
    funext x
    simp only [Function.comp_apply, rot_smul]
  rw [e]
  refine h4.congr_deriv ?_
  simp only [Function.comp_apply, ← rot_smul]
  simp only [mul_sub, sub_mul, smul_sub, smul_mul_assoc, mul_smul_comm, neg_smul, neg_mul, mul_assoc]
  abel

/-- A bound of the change of the orientation. -/
theorem quat_lipschitz (h : OrientationMovement A B q w acc) {W : ℝ} (hW : ∀ t ∈ Icc A B, length (w t) ≤ W) :
    ∀ s ∈ Icc A B, ∀ t ∈ Icc A B, ‖quat (q t) - quat (q s)‖ ≤ W * |t - s| := by
  intro s hs t ht
  have hW0 : 0 ≤ W := (length_nonneg _).trans (hW s hs)
  have key := (convex_Icc A B).norm_image_sub_le_of_norm_hasDerivWithin_le (f := fun x => quat (q x)) (C := W)
    (fun x hx => h.velocity x hx) (fun x hx => by
      rw [norm_smul, norm_mul, norm_quat (h.unit x hx), norm_pure, mul_one, Real.norm_eq_abs, abs_of_pos (by norm_num)]
      linarith [hW x hx, length_nonneg (w x)]) hs ht
  rwa [Real.norm_eq_abs] at key

/-- Error of the one-sided difference. -/
theorem one_sided (h : OrientationMovement A B q w acc) {L : ℝ}
    (hL : ∀ s ∈ Icc A B, ∀ t ∈ Icc A B, length (w t - w s) ≤ L * |t - s|) :
    ∀ s ∈ Icc A B, ∀ t ∈ Icc A B, ‖rot (-(t - s) • w s) * quat (q t) - quat (q s)‖ ≤ L * |t - s| ^ 2 := by
  intro s hs t ht
  have hL0 : 0 ≤ L * |t - s| := (length_nonneg _).trans (hL s hs t ht)
  have hS : ∀ x ∈ Icc (0 : ℝ) 1, s + (t - s) * x ∈ Icc A B := by
    intro x hx
    have e : s + (t - s) * x = (1 - x) • s + x • t := by simp only [smul_eq_mul]; ring
    rw [e]
    exact (convex_Icc A B) hs ht (by linarith [hx.2]) hx.1 (by ring)
  have key := (convex_Icc (0 : ℝ) 1).norm_image_sub_le_of_norm_hasDerivWithin_le
    (f := fun x => rot (-((t - s) * x) • w s) * quat (q (s + (t - s) * x))) (C := L * |t - s| ^ 2) (x := 0) (y := 1)
    (fun x hx => h.frame_deriv hS hx) (fun x hx => by
      rw [norm_smul, norm_smul, norm_mul, norm_mul, norm_rot, norm_quat (h.unit _ (hS x hx)), ← pure_sub, norm_pure,
        Real.norm_eq_abs, Real.norm_eq_abs, abs_of_pos (by norm_num : (0 : ℝ) < 1 / 2), mul_one, one_mul]
      have h1 := hL s hs _ (hS x hx)
      rw [add_sub_cancel_left, abs_mul, abs_of_nonneg hx.1] at h1
      have h2 : L * (|t - s| * x) ≤ L * |t - s| := by
        have := mul_le_mul_of_nonneg_left hx.2 hL0
        linarith
      have h3 := mul_le_mul_of_nonneg_left (h1.trans h2) (abs_nonneg (t - s))
      have h4 : |t - s| * (1 / 2 * length (w (s + (t - s) * x) - w s)) ≤ |t - s| * (L * |t - s|) := by
        have := mul_nonneg (abs_nonneg (t - s)) (length_nonneg (w (s + (t - s) * x) - w s))
        linarith
      linarith [show |t - s| * (L * |t - s|) = L * |t - s| ^ 2 by ring]) (by simp) (by simp)
  simp only [mul_one, mul_zero, add_zero, neg_zero, zero_smul, rot_zero, one_mul, sub_zero, norm_one, add_sub_cancel] at key
  exact key

/-- Error of the central difference. -/
theorem central (h : OrientationMovement A B q w acc) {η : ℝ} (hη : 0 < η) :
    ∃ H > 0, ∀ t x, 0 ≤ x → x ≤ H → t - x ∈ Icc A B → t + x ∈ Icc A B →
      ‖rot (-x • w t) * quat (q (t + x)) - rot (x • w t) * quat (q (t - x))‖ ≤ η * x ^ 2 := by
  obtain ⟨W, hW0, hW⟩ := h.velocity_bounded
  obtain ⟨K, hK⟩ := isCompact_Icc.exists_bound_of_continuousOn (continuous_pure h.continuous)
  obtain ⟨H, hH, hT⟩ := uniform_taylor_both h.pure_acceleration (continuous_pure h.continuous) (half_pos hη)
  set K' := |K| with hK'
  have hK0 : 0 ≤ K' := abs_nonneg K
  refine ⟨min H (η / (4 * (K' * W + 1))), lt_min hH (by positivity), ?_⟩
  intro t x hx hxH hm hp
  have htm : t ∈ Icc A B := ⟨by linarith [hm.1], by linarith [hp.2]⟩
  rw [le_min_iff] at hxH
  have hKt : ‖Spec.pure (acc t)‖ ≤ K' := (hK t htm).trans (le_abs_self K)
  have hxK : x * (K' * W) ≤ η / 4 := by
    have h1 := hxH.2
    rw [le_div_iff₀ (by positivity)] at h1
    linarith [show x * (4 * (K' * W + 1)) = 4 * (x * (K' * W)) + 4 * x by ring]
  have hS : ∀ σ : ℝ, |σ| = 1 → ∀ y ∈ Icc 0 x, t + σ * y ∈ Icc A B := by
    intro σ hσ y hy
    have h1 : |σ * y| ≤ x := by rw [abs_mul, hσ, one_mul, abs_of_nonneg hy.1]; exact hy.2
    rw [abs_le] at h1
    exact ⟨by linarith [hm.1], by linarith [hp.2]⟩
  -- each half
  have hhalf : ∀ σ : ℝ, |σ| = 1 → ∀ y ∈ Icc 0 x,
      ‖rot (-(σ * y) • w t) * (Spec.pure (w (t + σ * y)) - Spec.pure (w t)) * quat (q (t + σ * y)) -
        (σ * y) • (Spec.pure (acc t) * quat (q t))‖ ≤ η * x := by
    intro σ hσ y hy
    have hmem := hS σ hσ y hy
    have ha : |σ * y| = y := by rw [abs_mul, hσ, one_mul, abs_of_nonneg hy.1]
    have h1 := hT t htm _ hmem (by rw [add_sub_cancel_left, ha]; exact hy.2.trans hxH.1)
    rw [add_sub_cancel_left, ha] at h1
    have h2 := rot_sub_le (-(σ * y) • w t) 0
    rw [sub_zero, rot_zero, length_smul, abs_neg, ha] at h2
    have h3 := h.quat_lipschitz hW t htm _ hmem
    rw [add_sub_cancel_left, ha] at h3
    have e : rot (-(σ * y) • w t) * (Spec.pure (w (t + σ * y)) - Spec.pure (w t)) * quat (q (t + σ * y)) -
        (σ * y) • (Spec.pure (acc t) * quat (q t)) =
        rot (-(σ * y) • w t) * (Spec.pure (w (t + σ * y)) - Spec.pure (w t) - (σ * y) • Spec.pure (acc t)) *
          quat (q (t + σ * y)) + (σ * y) • ((rot (-(σ * y) • w t) - 1) * Spec.pure (acc t) * quat (q (t + σ * y)) +
          Spec.pure (acc t) * (quat (q (t + σ * y)) - quat (q t))) := by
      simp only [mul_sub, sub_mul, smul_add, smul_sub, smul_mul_assoc, mul_smul_comm, mul_assoc, one_mul]
      abel
    rw [e]
    refine (norm_add_le _ _).trans ?_
    rw [norm_mul, norm_mul, norm_rot, norm_quat (h.unit _ hmem), mul_one, one_mul, norm_smul, Real.norm_eq_abs, ha]
    have h4 := norm_add_le ((rot (-(σ * y) • w t) - 1) * Spec.pure (acc t) * quat (q (t + σ * y)))
      (Spec.pure (acc t) * (quat (q (t + σ * y)) - quat (q t)))
    rw [norm_mul, norm_mul, norm_mul, norm_quat (h.unit _ hmem), mul_one] at h4
    have hy0 := hy.1
    have hWt := hW t htm
    have h5 : ‖rot (-(σ * y) • w t) - 1‖ * ‖Spec.pure (acc t)‖ ≤ (y * W) * K' := by
      refine mul_le_mul (h2.trans ?_) hKt (norm_nonneg _) (by positivity)
      have := mul_le_mul_of_nonneg_left hWt hy0
      have := mul_nonneg hy0 (length_nonneg (w t))
      linarith
    have h6 : ‖Spec.pure (acc t)‖ * ‖quat (q (t + σ * y)) - quat (q t)‖ ≤ K' * (W * y) :=
      mul_le_mul hKt h3 (norm_nonneg _) hK0
    have h7 : y * (K' * W) ≤ η / 4 := (mul_le_mul_of_nonneg_right hy.2 (by positivity)).trans hxK
    have h8 := mul_le_mul_of_nonneg_left (h4.trans (show _ ≤ η / 2 by linarith)) hy0
    have h9 := mul_le_mul_of_nonneg_left hy.2 hη.le
    linarith
  have hderiv : ∀ y ∈ Icc 0 x, HasDerivWithinAt (fun y => rot (-(1 * y) • w t) * quat (q (t + 1 * y)) -
      rot (-(-1 * y) • w t) * quat (q (t + -1 * y))) _ (Icc 0 x) y := fun y hy =>
    (h.frame_deriv (hS 1 (by norm_num)) hy).sub (h.frame_deriv (hS (-1) (by norm_num)) hy)
  have key := (convex_Icc 0 x).norm_image_sub_le_of_norm_hasDerivWithin_le (C := η * x) (x := 0) (y := x) hderiv
    (fun y hy => by
      have h1 := hhalf 1 (by norm_num) y hy
      have h2 := hhalf (-1) (by norm_num) y hy
      set P := rot (-(1 * y) • w t) * (Spec.pure (w (t + 1 * y)) - Spec.pure (w t)) * quat (q (t + 1 * y)) with hP
      set Q := rot (-(-1 * y) • w t) * (Spec.pure (w (t + -1 * y)) - Spec.pure (w t)) * quat (q (t + -1 * y)) with hQ
      have e : (1 : ℝ) • ((1 / 2 : ℝ) • P) - (-1 : ℝ) • ((1 / 2 : ℝ) • Q) =
          (1 / 2 : ℝ) • ((P - (1 * y) • (Spec.pure (acc t) * quat (q t))) +
            (Q - (-1 * y) • (Spec.pure (acc t) * quat (q t)))) := by
        module
      rw [e, norm_smul, Real.norm_eq_abs, abs_of_pos (by norm_num : (0 : ℝ) < 1 / 2)]
      have := norm_add_le (P - (1 * y) • (Spec.pure (acc t) * quat (q t))) (Q - (-1 * y) • (Spec.pure (acc t) * quat (q t)))
      linarith) (left_mem_Icc.2 hx) (right_mem_Icc.2 hx)
  simp only [one_mul, mul_zero, add_zero, neg_zero, zero_smul, rot_zero, sub_zero, sub_self, Real.norm_eq_abs, abs_of_nonneg hx,
    neg_mul, neg_neg, ← sub_eq_add_neg] at key
  refine key.trans (le_of_eq ?_)
  ring

end Spec.OrientationMovement

variable {ops : QuatOps} {eps : ℝ}

/-- The rotation vector that the implementation computes between two orientations. -/
theorem diff_turn (hops : LawfulQuatOps ops eps) (heps : 0 < eps) {g p : Vec 4} (hg : UnitQuat g) (hp : UnitQuat p) {a : Vec 3} {φ : ℝ}
    (hφ : |φ| * length a ≤ 2) :
    length (QuatStepArgs.diff ops g p - φ • a) ≤ 4 * eps + 20 * ‖quat p - rot (-φ • a) * quat g‖ := by
  have hπ4 := Real.pi_le_four
  have hr : IsRotationTo g (turn a g (-φ)) (φ • a) := by
    refine ⟨?_, .inl ?_⟩
    · rw [length_smul]; linarith [Real.two_le_pi]
    · rw [quat_turn, StarMul.star_mul, ← mul_assoc]
      have h1 : quat g * star (quat g) = 1 := by
        rw [Quaternion.self_mul_star, (isUnit_iff_normSq g).1 hg]; simp
      rw [h1, one_mul]
      have h2 := star_exp_axis a (-φ)
      rw [neg_neg] at h2
      exact h2
  have hc : (1 / 2 : ℝ) ≤ Real.cos (length (φ • a) / 2) := by
    have h1 := Real.one_sub_sq_div_two_le_cos (x := length (φ • a) / 2)
    have h2 : length (φ • a) ≤ 2 := by rw [length_smul]; exact hφ
    have h3 := length_nonneg (φ • a)
    nlinarith
  have h1 := diff_close hops heps hg hp hr (by norm_num) hc
  rw [quat_turn] at h1
  have h2 := norm_nonneg (quat p - rot (-φ • a) * quat g)
  have e : Real.pi + 2 * Real.pi / (1 / 2) = 5 * Real.pi := by ring
  rw [e] at h1
  have h3 : Real.pi * eps ≤ 4 * eps := mul_le_mul_of_nonneg_right hπ4 heps.le
  have h4 : 5 * Real.pi * ‖quat p - rot (-φ • a) * quat g‖ ≤ 20 * ‖quat p - rot (-φ • a) * quat g‖ :=
    mul_le_mul_of_nonneg_right (by linarith) h2
  linarith

theorem rot_neg_cancel (a : Vec 3) (φ ψ : ℝ) : rot (φ • a) * rot (ψ • a) = rot ((φ + ψ) • a) := (exp_add_axis a φ ψ).symm

/-- Angular velocities computed from equidistant samples. -/
theorem sampled_velocities {τ : ℝ} (hτ : 0 < τ) {q : ℝ → Vec 4} {w acc : ℝ → Vec 3} (h : OrientationMovement 0 τ q w acc) :
    ∃ D > 0, ∀ η > 0, ∃ n0 : ℕ, ∀ n, n0 ≤ n → ∀ (ops : QuatOps) (eps : ℝ), LawfulQuatOps ops eps → 0 < eps →
      (∀ i, length ((1 / (τ / (n + 1))) • quaternionGradient ops (fun i => q (linspaceTimes τ n i)) i - w (linspaceTimes τ n i)) ≤
        D * (τ / (n + 1)) + D * (eps / (τ / (n + 1)))) ∧
      ∀ i : Fin (n + 2), 1 ≤ i.val → i.val ≤ n →
        length ((1 / (τ / (n + 1))) • quaternionGradient ops (fun i => q (linspaceTimes τ n i)) i - w (linspaceTimes τ n i)) ≤
        η * (τ / (n + 1)) + D * (eps / (τ / (n + 1))) := by
  obtain ⟨W, hW0, hW⟩ := h.velocity_bounded
  obtain ⟨K, hK⟩ := isCompact_Icc.exists_bound_of_continuousOn (OrientationMovement.continuous_pure h.continuous)
  have hL : ∀ s ∈ Icc 0 τ, ∀ t ∈ Icc 0 τ, length (w t - w s) ≤ |K| * |t - s| := by
    intro s hs t ht
    have key := (convex_Icc 0 τ).norm_image_sub_le_of_norm_hasDerivWithin_le (f := fun x => Spec.pure (w x)) (C := |K|)
      (fun x hx => h.pure_acceleration x hx) (fun x hx => (hK x hx).trans (le_abs_self K)) hs ht
    rw [← pure_sub, norm_pure, Real.norm_eq_abs] at key
    exact key
  set D := 20 * |K| + 5 with hD
  have hD0 : 0 < D := by positivity
  refine ⟨D, hD0, fun η hη => ?_⟩
  obtain ⟨H, hH0, hH⟩ := h.central (η := min η 1 / 10) (by positivity)
  obtain ⟨n0, hn0⟩ := exists_nat_gt (τ / min H (1 / (W + 1)))
  refine ⟨n0, fun n hn ops eps hops heps => ?_⟩
  have hn1 : (0 : ℝ) < n + 1 := by positivity
  set s := τ / ((n : ℝ) + 1) with hs
  have hs0 : 0 < s := by positivity
  have hsmin : s ≤ min H (1 / (W + 1)) := by
    have hp : 0 < min H (1 / (W + 1)) := lt_min hH0 (by positivity)
    rw [div_lt_iff₀ hp] at hn0
    rw [hs, div_le_iff₀ hn1]
    have : (n0 : ℝ) ≤ n := by exact_mod_cast hn
    nlinarith
  rw [le_min_iff] at hsmin
  have hsW : ∀ t ∈ Icc 0 τ, |s| * length (w t) ≤ 1 := by
    intro t ht
    have h1 := hsmin.2
    rw [le_div_iff₀ (by positivity)] at h1
    rw [abs_of_pos hs0]
    have := mul_le_mul_of_nonneg_left (hW t ht) hs0.le
    linarith
  have hend : ((n : ℝ) + 1) * s = τ := by rw [hs]; field_simp
  have hTv : ∀ i : Fin (n + 2), linspaceTimes τ n i = (i.val : ℝ) * s := fun i => rfl
  have hmem : ∀ j : ℕ, j ≤ n + 1 → (j : ℝ) * s ∈ Icc 0 τ := by
    intro j hj
    refine ⟨by positivity, ?_⟩
    rw [← hend]
    have : (j : ℝ) ≤ n + 1 := by exact_mod_cast hj
    exact mul_le_mul_of_nonneg_right this hs0.le
  have hinner : ∀ i : Fin (n + 2), 1 ≤ i.val → i.val ≤ n →
      length ((1 / s) • quaternionGradient ops (fun i => q (linspaceTimes τ n i)) i - w (linspaceTimes τ n i)) ≤
        min η 1 * s + D * (eps / s) := by
    intro i h1 h2
    have hlt : i.val + 1 < n + 2 := by omega
    have ep : linspaceTimes τ n ⟨i.val + 1, hlt⟩ = linspaceTimes τ n i + s := by
      rw [hTv, hTv]; push_cast; ring
    have em : linspaceTimes τ n ⟨i.val - 1, by omega⟩ = linspaceTimes τ n i - s := by
      rw [hTv, hTv]; simp only; rw [Nat.cast_sub h1]; push_cast; ring
    have mp := hmem (i.val + 1) (by omega)
    have mm := hmem (i.val - 1) (by omega)
    have mi := hmem i.val (by omega)
    rw [← hTv ⟨i.val + 1, hlt⟩, ep] at mp
    rw [← hTv ⟨i.val - 1, by omega⟩, em] at mm
    rw [← hTv i] at mi
    have e : quaternionGradient ops (fun i => q (linspaceTimes τ n i)) i =
        (1 / 2 : ℝ) • QuatStepArgs.diff ops (q (linspaceTimes τ n i + s)) (q (linspaceTimes τ n i - s)) := by
      unfold quaternionGradient
      rw [if_neg (by omega), dif_pos hlt]
      simp only [ep, em]
      funext k
      simp only [Pi.smul_apply, smul_eq_mul]; ring
    rw [e]
    set t := linspaceTimes τ n i with ht
    have h3 := diff_turn hops heps (h.unit _ mp) (h.unit _ mm) (a := w t) (φ := 2 * s) (by
      rw [abs_mul, abs_of_pos (by norm_num : (0 : ℝ) < 2)]; linarith [hsW t mi])
    have h4 := hH t s hs0.le hsmin.1 mm mp
    have h5 : ‖quat (q (t - s)) - rot (-(2 * s) • w t) * quat (q (t + s))‖ ≤ min η 1 / 10 * s ^ 2 := by
      refine le_trans (le_of_eq ?_) h4
      have e2 : rot (-s • w t) * quat (q (t + s)) - rot (s • w t) * quat (q (t - s)) =
          -(rot (s • w t) * (quat (q (t - s)) - rot (-(2 * s) • w t) * quat (q (t + s)))) := by
        rw [mul_sub, ← mul_assoc, rot_neg_cancel, show s + -(2 * s) = -s by ring]
        abel
      rw [e2, norm_neg, norm_mul, norm_rot, one_mul]
    have e3 : (1 / s) • ((1 / 2 : ℝ) • QuatStepArgs.diff ops (q (t + s)) (q (t - s))) - w t =
        (1 / (2 * s)) • (QuatStepArgs.diff ops (q (t + s)) (q (t - s)) - (2 * s) • w t) := by
      funext k
      simp only [Pi.sub_apply, Pi.smul_apply, smul_eq_mul]
      field_simp
    rw [e3, length_smul, abs_of_pos (by positivity)]
    calc 1 / (2 * s) * length (QuatStepArgs.diff ops (q (t + s)) (q (t - s)) - (2 * s) • w t)
        ≤ 1 / (2 * s) * (4 * eps + 20 * (min η 1 / 10 * s ^ 2)) :=
          mul_le_mul_of_nonneg_left (h3.trans (by linarith)) (by positivity)
      _ = min η 1 * s + 2 * (eps / s) := by field_simp; ring
      _ ≤ _ := by
          have : 2 * (eps / s) ≤ D * (eps / s) := mul_le_mul_of_nonneg_right (by rw [hD]; linarith [abs_nonneg K]) (by positivity)
          linarith
  refine ⟨fun i => ?_, fun i h1 h2 => (hinner i h1 h2).trans ?_⟩
  · have hi := i.isLt
    by_cases h0 : i.val = 0
    · have e0 : linspaceTimes τ n i = 0 := by rw [hTv, h0]; simp
      have e1 : linspaceTimes τ n 1 = s := by rw [hTv]; simp
      have e00 : linspaceTimes τ n 0 = 0 := by rw [hTv]; simp
      have m1 := hmem 1 (by omega)
      have m0 := hmem 0 (by omega)
      rw [Nat.cast_one, one_mul] at m1
      rw [Nat.cast_zero, zero_mul] at m0
      have e : quaternionGradient ops (fun i => q (linspaceTimes τ n i)) i = QuatStepArgs.diff ops (q s) (q 0) := by
        unfold quaternionGradient
        rw [if_pos h0]
        simp only [e1, e00]
      rw [e, e0]
      have h3 := diff_turn hops heps (h.unit _ m1) (h.unit _ m0) (a := w 0) (φ := s) (by linarith [hsW 0 m0])
      have h4 := h.one_sided hL 0 m0 s m1
      rw [sub_zero, abs_of_pos hs0, norm_sub_rev] at h4
      have e3 : (1 / s) • QuatStepArgs.diff ops (q s) (q 0) - w 0 = (1 / s) • (QuatStepArgs.diff ops (q s) (q 0) - s • w 0) := by
        funext k
        simp only [Pi.sub_apply, Pi.smul_apply, smul_eq_mul]
        field_simp
      rw [e3, length_smul, abs_of_pos (by positivity)]
      calc _ ≤ 1 / s * (4 * eps + 20 * (|K| * s ^ 2)) := mul_le_mul_of_nonneg_left (h3.trans (by linarith)) (by positivity)
        _ = 20 * |K| * s + 4 * (eps / s) := by field_simp; ring
        _ ≤ _ := by
          have h5 : 4 * (eps / s) ≤ D * (eps / s) := mul_le_mul_of_nonneg_right (by rw [hD]; linarith [abs_nonneg K]) (by positivity)
          have h6 : 20 * |K| * s ≤ D * s := mul_le_mul_of_nonneg_right (by rw [hD]; linarith) hs0.le
          linarith
    · by_cases hl : i.val + 1 < n + 2
      · refine (hinner i (by omega) (by omega)).trans ?_
        have h5 : min η 1 * s ≤ D * s :=
          mul_le_mul_of_nonneg_right ((min_le_right _ _).trans (by rw [hD]; linarith [abs_nonneg K])) hs0.le
        linarith
      · have hie : i.val = n + 1 := by omega
        have e0 : linspaceTimes τ n i = τ := by rw [hTv, hie]; push_cast; exact hend
        have e1 : linspaceTimes τ n ⟨i.val - 1, by omega⟩ = τ - s := by
          rw [hTv, ← hend]; simp only [hie]; push_cast; ring
        have m1 := hmem n (by omega)
        have e2 : (n : ℝ) * s = τ - s := by rw [← hend]; ring
        rw [e2] at m1
        have m0 : τ ∈ Icc 0 τ := ⟨hτ.le, le_rfl⟩
        have e : quaternionGradient ops (fun i => q (linspaceTimes τ n i)) i = QuatStepArgs.diff ops (q τ) (q (τ - s)) := by
          unfold quaternionGradient
          rw [if_neg h0, dif_neg hl]
          simp only [e0, e1]
        rw [e, e0]
        have h3 := diff_turn hops heps (h.unit _ m0) (h.unit _ m1) (a := w τ) (φ := s) (by linarith [hsW τ m0])
        have h4 := h.one_sided hL τ m0 (τ - s) m1
        have e5 : τ - s - τ = -s := by ring
        rw [e5, abs_neg, abs_of_pos hs0, neg_neg] at h4
        have h5 : ‖quat (q (τ - s)) - rot (-s • w τ) * quat (q τ)‖ ≤ |K| * s ^ 2 := by
          refine le_trans (le_of_eq ?_) h4
          have e6 : rot (s • w τ) * quat (q (τ - s)) - quat (q τ) =
              rot (s • w τ) * (quat (q (τ - s)) - rot (-s • w τ) * quat (q τ)) := by
            rw [mul_sub, ← mul_assoc, rot_neg_cancel, add_neg_cancel, zero_smul, rot_zero, one_mul]
          rw [e6, norm_mul, norm_rot, one_mul]
        have e3 : (1 / s) • QuatStepArgs.diff ops (q τ) (q (τ - s)) - w τ =
            (1 / s) • (QuatStepArgs.diff ops (q τ) (q (τ - s)) - s • w τ) := by
          funext k
          simp only [Pi.sub_apply, Pi.smul_apply, smul_eq_mul]
          field_simp
        rw [e3, length_smul, abs_of_pos (by positivity)]
        calc _ ≤ 1 / s * (4 * eps + 20 * (|K| * s ^ 2)) := mul_le_mul_of_nonneg_left (h3.trans (by linarith)) (by positivity)
          _ = 20 * |K| * s + 4 * (eps / s) := by field_simp; ring
          _ ≤ _ := by
            have h5 : 4 * (eps / s) ≤ D * (eps / s) := mul_le_mul_of_nonneg_right (by rw [hD]; linarith [abs_nonneg K]) (by positivity)
            have h6 : 20 * |K| * s ≤ D * s := mul_le_mul_of_nonneg_right (by rw [hD]; linarith) hs0.le
            linarith
  · have h5 : min η 1 * s ≤ η * s := mul_le_mul_of_nonneg_right (min_le_left _ _) hs0.le
    linarith

theorem abs_le_length (a : Vec 3) (k : Fin 3) : |a k| ≤ length a := by
  apply abs_le_of_sq_le_sq _ (length_nonneg _)
  rw [length_sq]
  unfold rsq3
  fin_cases k
  · simp only [Fin.zero_eta]; nlinarith [sq_nonneg (a 1), sq_nonneg (a 2)]
  · simp only [Fin.mk_one]; nlinarith [sq_nonneg (a 0), sq_nonneg (a 2)]
  · simp only [Fin.reduceFinMk]; nlinarith [sq_nonneg (a 0), sq_nonneg (a 1)]

theorem gradient_linspace (τ : ℝ) (n : ℕ) (i : Fin (n + 2)) : gradient (linspaceTimes τ n) i = τ / (n + 1) := by
  have hi := i.isLt
  unfold gradient linspaceTimes
  split_ifs with h1 h2
  · simp
  · simp only [Nat.cast_add, Nat.cast_one]
    rw [Nat.cast_sub (by omega)]
    push_cast
    ring
  · simp only
    rw [Nat.cast_sub (by omega)]
    push_cast
    ring

/-- Angular velocities and accelerations that `imitate` computes from equidistant samples. -/
theorem sampled_motion {τ : ℝ} (hτ : 0 < τ) {q : ℝ → Vec 4} {w acc : ℝ → Vec 3} (h : OrientationMovement 0 τ q w acc) {afv : Bool}
    (hend : afv = true ∨ w τ = 0) :
    ∃ D > 0, ∀ η > 0, ∃ n0 : ℕ, ∀ n, n0 ≤ n → ∀ (ops : QuatOps) (eps : ℝ), LawfulQuatOps ops eps → 0 < eps → ∀ (i : Fin (n + 2)) k,
      |demoRotYd (quaternionGradient ops) (linspaceTimes τ n) (fun i => q (linspaceTimes τ n i)) afv i k -
        w (linspaceTimes τ n i) k| ≤ η + D * (eps * (n + 1) ^ 2) ∧
      |demoRotYdd (quaternionGradient ops) (linspaceTimes τ n) (fun i => q (linspaceTimes τ n i)) afv i k -
        acc (linspaceTimes τ n i) k| ≤ D + D * (eps * (n + 1) ^ 2) ∧
      (2 ≤ i.val → i.val < n →
        |demoRotYdd (quaternionGradient ops) (linspaceTimes τ n) (fun i => q (linspaceTimes τ n i)) afv i k -
          acc (linspaceTimes τ n i) k| ≤ η + D * (eps * (n + 1) ^ 2)) := by
  obtain ⟨D, hD0, hD⟩ := sampled_velocities hτ h
  obtain ⟨K, hK⟩ := isCompact_Icc.exists_bound_of_continuousOn (OrientationMovement.continuous_pure h.continuous)
  have hK' : ∀ t ∈ Icc 0 τ, ∀ k, |acc t k| ≤ |K| := by
    intro t ht k
    have h1 := hK t ht
    rw [norm_pure] at h1
    exact (abs_le_length _ k).trans (h1.trans (le_abs_self K))
  have hlip : ∀ k, ∀ p ∈ Icc 0 τ, ∀ x ∈ Icc 0 τ, |w x k - w p k| ≤ |K| * |x - p| := fun k p hp x hx =>
    mean_value_le (fun t ht => h.acceleration t ht k) hp hx fun t ht _ => hK' t ht k
  set D' := 2 * D / τ ^ 2 + D / τ + 2 * D + 2 * |K| with hD'
  have hD'0 : 0 < D' := by positivity
  refine ⟨D', hD'0, fun η hη => ?_⟩
  choose H hH0 hH using fun k => uniform_taylor_both (fun t ht => h.acceleration t ht k) (h.continuous k)
    (show 0 < η / 2 by positivity)
  obtain ⟨n1, hn1⟩ := hD (η / 2) (by positivity)
  have hHm : 0 < min (H 0) (min (H 1) (H 2)) := lt_min (hH0 0) (lt_min (hH0 1) (hH0 2))
  obtain ⟨n2, hn2⟩ := exists_nat_gt (τ / min (min (H 0) (min (H 1) (H 2))) (η / D))
  refine ⟨max n1 n2, fun n hn ops eps hops heps => ?_⟩
  have hpos1 : (0 : ℝ) < n + 1 := by positivity
  obtain ⟨f1, f2⟩ := hn1 n ((le_max_left _ _).trans hn) ops eps hops heps
  set s := τ / ((n : ℝ) + 1) with hs
  have hs0 : 0 < s := by positivity
  have hsmin : s ≤ min (min (H 0) (min (H 1) (H 2))) (η / D) := by
    have hp : 0 < min (min (H 0) (min (H 1) (H 2))) (η / D) := lt_min hHm (by positivity)
    rw [div_lt_iff₀ hp] at hn2
    rw [hs, div_le_iff₀ hpos1]
    have : (n2 : ℝ) ≤ n := by exact_mod_cast (le_max_right _ _).trans hn
    nlinarith
  rw [le_min_iff, le_min_iff, le_min_iff] at hsmin
  have hsH : ∀ k, s ≤ H k := by
    intro k
    fin_cases k
    · exact hsmin.1.1
    · exact hsmin.1.2.1
    · exact hsmin.1.2.2
  have hsD : D * s ≤ η := by
    have := hsmin.2
    rw [le_div_iff₀ hD0] at this
    linarith
  have hsτ : ((n : ℝ) + 1) * s = τ := by rw [hs]; field_simp
  have hP1 : eps / s = eps * (n + 1) / τ := by rw [hs]; field_simp
  have hP2 : eps / s ^ 2 = eps * (n + 1) ^ 2 / τ ^ 2 := by rw [hs]; field_simp
  have hn1' : ((n : ℝ) + 1) ≤ (n + 1) ^ 2 := by nlinarith [Nat.cast_nonneg (α := ℝ) n]
  have hP0 : 0 ≤ eps * ((n : ℝ) + 1) ^ 2 := by positivity
  have hPD : D * (eps / s) ≤ D / τ * (eps * (n + 1) ^ 2) := by
    rw [hP1]
    have : eps * ((n : ℝ) + 1) ≤ eps * (n + 1) ^ 2 := mul_le_mul_of_nonneg_left hn1' heps.le
    calc D * (eps * (n + 1) / τ) = D / τ * (eps * (n + 1)) := by ring
      _ ≤ _ := mul_le_mul_of_nonneg_left this (by positivity)
  have hPD2 : 2 * D * (eps / s ^ 2) = 2 * D / τ ^ 2 * (eps * (n + 1) ^ 2) := by rw [hP2]; ring
  have hsplit : D' * (eps * ((n : ℝ) + 1) ^ 2) = 2 * D / τ ^ 2 * (eps * (n + 1) ^ 2) + D / τ * (eps * (n + 1) ^ 2) +
      (2 * D + 2 * |K|) * (eps * (n + 1) ^ 2) := by rw [hD']; ring
  have hrest : 0 ≤ (2 * D + 2 * |K|) * (eps * ((n : ℝ) + 1) ^ 2) := by positivity
  have hq2 : 0 ≤ 2 * D / τ ^ 2 * (eps * ((n : ℝ) + 1) ^ 2) := by positivity
  have hq1 : 0 ≤ D / τ * (eps * ((n : ℝ) + 1) ^ 2) := by positivity
  set T := linspaceTimes τ n with hT
  have hTv : ∀ i : Fin (n + 2), T i = (i.val : ℝ) * s := fun i => rfl
  have hmem : ∀ i, T i ∈ Icc 0 τ := by
    intro i
    rw [hTv]
    refine ⟨by positivity, ?_⟩
    rw [← hsτ]
    have : ((i : ℕ) : ℝ) ≤ n + 1 := by exact_mod_cast Nat.lt_succ_iff.1 i.isLt
    exact mul_le_mul_of_nonneg_right this hs0.le
  have hTlast : T (Fin.last (n + 1)) = τ := by rw [hTv, ← hsτ]; push_cast [Fin.val_last]; ring
  set Yd := demoRotYd (quaternionGradient ops) T (fun i => q (T i)) afv with hYd
  -- velocities
  have g0 : ∀ i k, Yd i k = ((1 / s) • quaternionGradient ops (fun i => q (T i)) i) k ∨
      (i = Fin.last (n + 1) ∧ Yd i k = 0 ∧ w τ = 0) := by
    intro i k
    have e : ∀ x : ℝ, x / gradient T i = 1 / s * x := by
      intro x; rw [hT, gradient_linspace, ← hs]; field_simp
    by_cases hi : i = Fin.last (n + 1)
    · have h1 := (C06_demonstrated_rotation (quaternionGradient ops) T (fun i => q (T i)) afv i k).2 hi
      cases afv
      · right
        refine ⟨hi, by rw [hYd, h1.2]; simp, ?_⟩
        rcases hend with hc | hc
        · cases hc
        · exact hc
      · left
        rw [hYd, h1.2, if_pos rfl, e]; rfl
    · left
      rw [hYd, ((C06_demonstrated_rotation (quaternionGradient ops) T (fun i => q (T i)) afv i k).1 hi).1, e]; rfl
  have g1 : ∀ i k, |Yd i k - w (T i) k| ≤ D * s + D * (eps / s) := by
    intro i k
    rcases g0 i k with e | ⟨e1, e2, e3⟩
    · rw [e]
      exact (abs_le_length _ k).trans (f1 i)
    · rw [e2, e1, hTlast, e3]
      simp only [Pi.zero_apply, sub_zero, abs_zero]
      positivity
  have g2 : ∀ i : Fin (n + 2), ∀ k, 1 ≤ i.val → i.val ≤ n → |Yd i k - w (T i) k| ≤ η / 2 * s + D * (eps / s) := by
    intro i k h1 h2
    rcases g0 i k with e | ⟨e1, -, -⟩
    · rw [e]
      exact (abs_le_length _ k).trans (f2 i h1 h2)
    · rw [e1, Fin.val_last] at h2; omega
  intro i k
  refine ⟨?_, ?_, fun hi2 hin => ?_⟩
  · have := g1 i k
    linarith
  · by_cases hi : i = Fin.last (n + 1)
    · rw [((C06_demonstrated_rotation (quaternionGradient ops) T (fun i => q (T i)) afv i k).2 hi).1, zero_sub, abs_neg]
      have h1 := hK' _ (hmem i) k
      have h2 : |K| ≤ D' := by
        have : 0 ≤ 2 * D / τ ^ 2 + D / τ + 2 * D := by positivity
        rw [hD']; linarith [abs_nonneg K]
      have h3 : 0 ≤ D' * (eps * ((n : ℝ) + 1) ^ 2) := by positivity
      linarith
    · rw [((C06_demonstrated_rotation (quaternionGradient ops) T (fun i => q (T i)) afv i k).1 hi).2]
      have hne : i.val + 1 < n + 2 := by
        have h1 := i.isLt
        by_contra hc
        exact hi (Fin.ext (by rw [Fin.val_last]; omega))
      have e : finiteDifference T (fun i => Yd i k) i = (Yd ⟨i.val + 1, hne⟩ k - Yd ⟨i.val - 1, by omega⟩ k) /
          (T ⟨i.val + 1, hne⟩ - T ⟨i.val - 1, by omega⟩) := by
        unfold finiteDifference; simp only; rw [dif_pos hne]
      have hgap : s ≤ T ⟨i.val + 1, hne⟩ - T ⟨i.val - 1, by omega⟩ := by
        rw [hTv, hTv]
        simp only
        have : ((i.val - 1 : ℕ) : ℝ) ≤ i.val := by exact_mod_cast Nat.sub_le _ _
        push_cast
        nlinarith
      set pn := T ⟨i.val + 1, hne⟩ with hpn
      set pp := T ⟨i.val - 1, by omega⟩ with hpp
      have h1 := g1 ⟨i.val + 1, hne⟩ k
      have h2 := g1 ⟨i.val - 1, by omega⟩ k
      rw [← hpn] at h1
      rw [← hpp] at h2
      have h3 := hlip k pp (hmem _) pn (hmem _)
      have hgap0 : 0 < pn - pp := by linarith
      rw [abs_of_pos hgap0] at h3
      have h4 : |Yd ⟨i.val + 1, hne⟩ k - Yd ⟨i.val - 1, by omega⟩ k| ≤ 2 * (D * s + D * (eps / s)) + |K| * (pn - pp) := by
        have e2 : Yd ⟨i.val + 1, hne⟩ k - Yd ⟨i.val - 1, by omega⟩ k = (Yd ⟨i.val + 1, hne⟩ k - w pn k) + (w pn k - w pp k) -
            (Yd ⟨i.val - 1, by omega⟩ k - w pp k) := by ring
        rw [e2]
        refine (abs_sub _ _).trans ?_
        have := abs_add_le (Yd ⟨i.val + 1, hne⟩ k - w pn k) (w pn k - w pp k)
        linarith
      have h5 : |finiteDifference T (fun i => Yd i k) i| ≤ 2 * D + 2 * D * (eps / s ^ 2) + |K| := by
        rw [e, abs_div, abs_of_pos hgap0, div_le_iff₀ hgap0]
        refine h4.trans ?_
        have h6 : 2 * (D * s + D * (eps / s)) = (2 * D + 2 * D * (eps / s ^ 2)) * s := by field_simp
        have h7 := mul_le_mul_of_nonneg_left hgap (show 0 ≤ 2 * D + 2 * D * (eps / s ^ 2) by positivity)
        rw [h6]
        linarith [show (2 * D + 2 * D * (eps / s ^ 2) + |K|) * (pn - pp) =
          (2 * D + 2 * D * (eps / s ^ 2)) * (pn - pp) + |K| * (pn - pp) by ring]
      have h6 := hK' _ (hmem i) k
      have h7 := abs_sub (finiteDifference T (fun i => Yd i k) i) (acc (T i) k)
      have h8 : 2 * D + 2 * |K| ≤ D' := by
        have : 0 ≤ 2 * D / τ ^ 2 + D / τ := by positivity
        rw [hD']; linarith
      linarith
  · have hi : i ≠ Fin.last (n + 1) := by intro e; rw [e, Fin.val_last] at hin; omega
    rw [((C06_demonstrated_rotation (quaternionGradient ops) T (fun i => q (T i)) afv i k).1 hi).2]
    have hne : i.val + 1 < n + 2 := by omega
    have e : finiteDifference T (fun i => Yd i k) i = (Yd ⟨i.val + 1, hne⟩ k - Yd ⟨i.val - 1, by omega⟩ k) /
        (T ⟨i.val + 1, hne⟩ - T ⟨i.val - 1, by omega⟩) := by
      unfold finiteDifference; simp only; rw [dif_pos hne]
    have ep : T ⟨i.val + 1, hne⟩ = T i + s := by rw [hTv, hTv]; push_cast; ring
    have em : T ⟨i.val - 1, by omega⟩ = T i - s := by
      rw [hTv, hTv]; simp only; rw [Nat.cast_sub (by omega)]; push_cast; ring
    have h1 := g2 ⟨i.val + 1, hne⟩ k (by simp) (by simp only; omega)
    have h2 := g2 ⟨i.val - 1, by omega⟩ k (by simp only; omega) (by simp only; omega)
    have mp := hmem ⟨i.val + 1, hne⟩
    have mm := hmem ⟨i.val - 1, by omega⟩
    rw [ep] at h1 mp
    rw [em] at h2 mm
    have h3 := hH k (T i) (hmem i) (T i + s) mp (by rw [add_sub_cancel_left, abs_of_pos hs0]; exact hsH k)
    have h4 := hH k (T i) (hmem i) (T i - s) mm (by rw [sub_sub_cancel_left, abs_neg, abs_of_pos hs0]; exact hsH k)
    rw [add_sub_cancel_left, abs_of_pos hs0, smul_eq_mul, Real.norm_eq_abs] at h3
    rw [sub_sub_cancel_left, abs_neg, abs_of_pos hs0, smul_eq_mul, Real.norm_eq_abs] at h4
    rw [e, ep, em]
    set P := Yd ⟨i.val + 1, hne⟩ k
    set Q := Yd ⟨i.val - 1, by omega⟩ k
    have e2 : (P - Q) / (T i + s - (T i - s)) - acc (T i) k =
        ((P - w (T i + s) k) - (Q - w (T i - s) k) + (w (T i + s) k - w (T i) k - s * acc (T i) k) -
          (w (T i - s) k - w (T i) k - -s * acc (T i) k)) / (2 * s) := by
      rw [show T i + s - (T i - s) = 2 * s by ring]
      field_simp
      ring
    rw [e2, abs_div, abs_of_pos (show 0 < 2 * s by positivity), div_le_iff₀ (by positivity)]
    have h5 := abs_sub ((P - w (T i + s) k) - (Q - w (T i - s) k) + (w (T i + s) k - w (T i) k - s * acc (T i) k))
      (w (T i - s) k - w (T i) k - -s * acc (T i) k)
    have h6 := abs_add_le ((P - w (T i + s) k) - (Q - w (T i - s) k)) (w (T i + s) k - w (T i) k - s * acc (T i) k)
    have h7 := abs_sub (P - w (T i + s) k) (Q - w (T i - s) k)
    have h8 : 2 * D * (eps / s ^ 2) ≤ D' * (eps * ((n : ℝ) + 1) ^ 2) := by linarith
    have h9 : 2 * (D * (eps / s)) = 2 * D * (eps / s ^ 2) * s := by field_simp
    have h10 := mul_le_mul_of_nonneg_right h8 hs0.le
    have h11 : 0 ≤ D' * (eps * ((n : ℝ) + 1) ^ 2) * s := by positivity
    linarith [show (η + D' * (eps * ((n : ℝ) + 1) ^ 2)) * (2 * s) = 2 * (η * s) + 2 * (D' * (eps * ((n : ℝ) + 1) ^ 2) * s) by ring]

end Verif
