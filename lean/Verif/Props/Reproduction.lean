import Verif.Props.Representation
import Verif.Props.Imitate
import Verif.Lemmas.Riemann
import Verif.Lemmas.FiniteDifferences

/-!
# C109: imitated movements are reproduced
-/

namespace Verif
open Spec Set
variable {d m : ℕ}

/-- Two solutions of a linear equation such that the integral of the difference of their inputs is at most `η`. -/
theorem sd_perturbed_integral {κ c τ η : ℝ} {u w b : ℝ → ℝ} {x x' : ℝ → ℝ × ℝ}
    (hx : ∀ t ∈ Icc 0 τ, HasDerivWithinAt x (sdField κ c (x t) (u t)) (Icc 0 τ) t)
    (hx' : ∀ t ∈ Icc 0 τ, HasDerivWithinAt x' (sdField κ c (x' t) (w t)) (Icc 0 τ) t)
    (h0 : x 0 = x' 0) (hb0 : b 0 = 0) (hb : ∀ t ∈ Icc 0 τ, HasDerivWithinAt b (w t - u t) (Icc 0 τ) t)
    (hη : ∀ t ∈ Icc 0 τ, |b t| ≤ η) :
    ∀ t ∈ Icc 0 τ, ‖x' t - x t‖ ≤ η * Real.exp ((1 + |κ| + |c|) * τ) := by
  intro t ht
  have hτ : 0 ≤ τ := ht.1.trans ht.2
  have hη0 : 0 ≤ η := (abs_nonneg _).trans (hη 0 ⟨le_refl _, hτ⟩)
  have hK : ((1 + |κ| + |c|).toNNReal : ℝ) = 1 + |κ| + |c| := Real.coe_toNNReal _ (by positivity)
  have hK0 : 0 < 1 + |κ| + |c| := by positivity
  have hlip : ∀ t, LipschitzWith (1 + |κ| + |c|).toNNReal (fun x => sdField κ c x (u t)) := by
    intro t
    apply LipschitzWith.of_dist_le_mul
    intro y z
    rw [dist_eq_norm, dist_eq_norm, hK]
    have := sdField_lip κ c y z (u t) (u t)
    simpa using this
  have hright : ∀ {f : ℝ → ℝ × ℝ} {f' : ℝ × ℝ} {s : ℝ}, s ∈ Ico 0 τ → HasDerivWithinAt f f' (Icc 0 τ) s →
      HasDerivWithinAt f f' (Ici s) s := by
    intro f f' s hs h
    exact h.mono_of_mem_nhdsWithin (Filter.mem_of_superset (Icc_mem_nhdsGE hs.2) (Icc_subset_Icc_left hs.1))
  have hz : ∀ s ∈ Icc 0 τ, HasDerivWithinAt (fun s => x' s - (0, b s)) (sdField κ c (x' s) (u s)) (Icc 0 τ) s := by
    intro s hs
    have h1 := (hx' s hs).sub (((hasDerivWithinAt_const s (Icc 0 τ) (0 : ℝ)).prodMk (hb s hs)))
    refine h1.congr_deriv ?_
    simp only [sdField, Prod.mk_sub_mk, sub_zero, Prod.mk.injEq, true_and]
    ring
  have key := dist_le_of_approx_trajectories_ODE (v := fun t x => sdField κ c x (u t)) (εf := (1 + |κ| + |c|) * η) (εg := 0)
    (δ := 0) hlip (f := fun s => x' s - (0, b s)) (g := x) (f' := fun t => sdField κ c (x' t) (u t))
    (g' := fun t => sdField κ c (x t) (u t))
    (fun s hs => (hz s hs).continuousWithinAt) (fun s hs => hright hs (hz s ⟨hs.1, hs.2.le⟩))
    (fun s hs => by
      rw [dist_eq_norm]
      have := sdField_lip κ c (x' s) (x' s - (0, b s)) (u s) (u s)
      refine this.trans ?_
      rw [sub_sub_cancel, sub_self, abs_zero, add_zero]
      refine mul_le_mul_of_nonneg_left ?_ hK0.le
      rw [Prod.norm_def, norm_zero, Real.norm_eq_abs, max_eq_right (abs_nonneg _)]
      exact hη s ⟨hs.1, hs.2.le⟩)
    (fun s hs => (hx s hs).continuousWithinAt) (fun s hs => hright hs (hx s ⟨hs.1, hs.2.le⟩))
    (fun s _ => by rw [dist_self])
    (by rw [h0, hb0, dist_eq_norm]; simp) t ht
  rw [dist_eq_norm, hK, gronwallBound_of_K_ne_0 (by positivity)] at key
  have h1 : Real.exp ((1 + |κ| + |c|) * (t - 0)) ≤ Real.exp ((1 + |κ| + |c|) * τ) :=
    Real.exp_le_exp.2 (mul_le_mul_of_nonneg_left (by linarith [ht.2]) (by linarith))
  have h2 : ((1 + |κ| + |c|) * η + 0) / (1 + |κ| + |c|) = η := by rw [add_zero]; field_simp
  rw [h2] at key
  have key' : ‖x' t - (0, b t) - x t‖ ≤ η * (Real.exp ((1 + |κ| + |c|) * (t - 0)) - 1) := by
    have : (0 : ℝ) * Real.exp ((1 + |κ| + |c|) * (t - 0)) + η * (Real.exp ((1 + |κ| + |c|) * (t - 0)) - 1) =
      η * (Real.exp ((1 + |κ| + |c|) * (t - 0)) - 1) := by ring
    exact key.trans (le_of_eq this)
  have h3 : ‖((0 : ℝ), b t)‖ ≤ η := by
    rw [Prod.norm_def, norm_zero, Real.norm_eq_abs, max_eq_right (abs_nonneg _)]
    exact hη t ht
  calc ‖x' t - x t‖ = ‖(x' t - (0, b t) - x t) + (0, b t)‖ := by congr 1; abel
    _ ≤ ‖x' t - (0, b t) - x t‖ + ‖((0 : ℝ), b t)‖ := norm_add_le _ _
    _ ≤ η * (Real.exp ((1 + |κ| + |c|) * (t - 0)) - 1) + η := add_le_add key' h3
    _ = η * Real.exp ((1 + |κ| + |c|) * (t - 0)) := by ring
    _ ≤ _ := mul_le_mul_of_nonneg_left h1 hη0

/-- Number of indices at the ends of a demonstration. -/
theorem card_ends (n : ℕ) : (Finset.univ.filter fun i : Fin (n + 2) => i.val < 2 ∨ n ≤ i.val).card ≤ 4 := by
  have : (Finset.univ.filter fun i : Fin (n + 2) => i.val < 2 ∨ n ≤ i.val).image Fin.val ⊆ {0, 1, n, n + 1} := by
    intro x hx
    simp only [Finset.mem_image, Finset.mem_filter, Finset.mem_univ, true_and] at hx
    obtain ⟨i, hi, rfl⟩ := hx
    simp only [Finset.mem_insert, Finset.mem_singleton]
    have := i.isLt
    omega
  have h := Finset.card_le_card this
  rw [Finset.card_image_of_injective _ Fin.val_injective] at h
  refine h.trans ?_
  exact Finset.card_le_four

/-- Forces determined from samples of a movement: their mean squared error vanishes with the distance of the samples. -/
theorem forces_consistent {τ : ℝ} (hτ : 0 < τ) {y v a : ℝ → Vec d} (h : TwiceDifferentiable τ y v a) {afv : Bool}
    (hend : afv = true ∨ v τ = 0) (α β : Vec d) (smooth : Bool) {η : ℝ} (hη : 0 < η) :
    ∃ n0 : ℕ, ∀ n, n0 ≤ n → ∀ k, τ / (n + 1) * ∑ i, (determineForces (linspaceTimes τ n) (fun i => y (linspaceTimes τ n i)) α β
      (-Real.log (1 / 100)) afv smooth i k - demandedForce α β (y τ) τ smooth y v a (linspaceTimes τ n i) k) ^ 2 ≤ η := by
  classical
  -- bounds on the accelerations
  have hM : ∀ k, ∃ M, ∀ t ∈ Icc 0 τ, |a t k| ≤ M := by
    intro k
    obtain ⟨M, hM⟩ := isCompact_Icc.exists_bound_of_continuousOn (h.continuous k)
    exact ⟨M, fun t ht => hM t ht⟩
  choose M hM using hM
  have hone : ∀ k, ∃ n0 : ℕ, ∀ n, n0 ≤ n → τ / (n + 1) * ∑ i, (determineForces (linspaceTimes τ n)
      (fun i => y (linspaceTimes τ n i)) α β (-Real.log (1 / 100)) afv smooth i k -
        demandedForce α β (y τ) τ smooth y v a (linspaceTimes τ n i) k) ^ 2 ≤ η := by
    intro k
    have hM0 : 0 ≤ M k := (abs_nonneg _).trans (hM k 0 ⟨le_rfl, hτ.le⟩)
    obtain ⟨ω, hω, hωη⟩ : ∃ ω > 0, 16 * τ ^ 5 * ω ^ 2 ≤ η / 2 := by
      refine ⟨min 1 (η / (32 * τ ^ 5)), lt_min one_pos (by positivity), ?_⟩
      have h1 : min 1 (η / (32 * τ ^ 5)) ^ 2 ≤ η / (32 * τ ^ 5) := by
        have h2 : (0 : ℝ) < min 1 (η / (32 * τ ^ 5)) := lt_min one_pos (by positivity)
        calc min 1 (η / (32 * τ ^ 5)) ^ 2 = min 1 (η / (32 * τ ^ 5)) * min 1 (η / (32 * τ ^ 5)) := by ring
          _ ≤ 1 * (η / (32 * τ ^ 5)) := mul_le_mul (min_le_left _ _) (min_le_right _ _) h2.le zero_le_one
          _ = _ := one_mul _
      calc 16 * τ ^ 5 * min 1 (η / (32 * τ ^ 5)) ^ 2 ≤ 16 * τ ^ 5 * (η / (32 * τ ^ 5)) :=
            mul_le_mul_of_nonneg_left h1 (by positivity)
        _ = η / 2 := by field_simp; ring
    have huc := (isCompact_Icc.uniformContinuousOn_of_continuous (h.continuous k))
    rw [Metric.uniformContinuousOn_iff] at huc
    obtain ⟨δ, hδ, huc⟩ := huc ω hω
    -- the remaining terms are at most `D / (n + 1)`
    set D := 128 * τ ^ 5 * M k ^ 2 + 4 * α k ^ 2 * τ ^ 5 * M k ^ 2 with hD
    have hD0 : 0 ≤ D := by positivity
    refine ⟨max (⌈2 * τ / δ⌉₊ ) (⌈2 * D / η⌉₊), fun n hn => ?_⟩
    have hn1 : (0 : ℝ) < n + 1 := by positivity
    set s := τ / ((n : ℝ) + 1) with hs
    have hs0 : 0 < s := by positivity
    have hs2 : 2 * s < δ := by
      have h1 : 2 * τ / δ ≤ n := (Nat.le_ceil _).trans (by exact_mod_cast (le_max_left _ _).trans hn)
      rw [div_le_iff₀ hδ] at h1
      rw [hs, ← mul_div_assoc, div_lt_iff₀ hn1]
      nlinarith
    have hDn : D / (n + 1) ≤ η / 2 := by
      have h1 : 2 * D / η ≤ n := (Nat.le_ceil _).trans (by exact_mod_cast (le_max_right _ _).trans hn)
      rw [div_le_iff₀ hη] at h1
      rw [div_le_iff₀ hn1]
      nlinarith
    set T := linspaceTimes τ n with hT
    set Y : Fin (n + 2) → Vec d := fun i => y (T i) with hY
    have hTlast : T (Fin.last (n + 1)) = τ := by
      simp only [hT, linspaceTimes, Fin.val_last]; push_cast; field_simp
    have hT0 : T 0 = 0 := by simp [hT, linspaceTimes]
    have hYd : ∀ i, demoYd T Y afv i k = finiteDifference T (fun i => y (T i) k) i ∨
        (i = Fin.last (n + 1) ∧ demoYd T Y afv i k = 0 ∧ v τ k = 0) := by
      intro i
      by_cases hi : i = Fin.last (n + 1)
      · have h1 := (C06_demonstrated_motion T Y afv i k).2 hi
        rcases hend with hc | hc
        · left; rw [h1.2, if_pos hc]
        · cases afv
          · right; refine ⟨hi, ?_, by rw [hc]; rfl⟩
            rw [h1.2]; simp
          · left; rw [h1.2, if_pos rfl]
      · left
        exact ((C06_demonstrated_motion T Y afv i k).1 hi).1
    obtain ⟨f1, f2, f3⟩ := finite_differences hτ (fun t ht => h.velocity t ht k) (fun t ht => h.acceleration t ht k) (hM k)
      (T := T) (Yd := fun i => demoYd T Y afv i k) (Ydd := fun i => demoYdd T Y afv i k) (fun i => rfl) hYd
      (fun i hi => ((C06_demonstrated_motion T Y afv i k).1 hi).2) ((C06_demonstrated_motion T Y afv _ k).2 rfl).1
    have hmem : ∀ i, T i ∈ Icc 0 τ := by
      intro i
      simp only [hT, linspaceTimes]
      refine ⟨by positivity, ?_⟩
      have h1 : ((i : ℕ) : ℝ) ≤ n + 1 := by exact_mod_cast Nat.lt_succ_iff.1 i.isLt
      calc ((i : ℕ) : ℝ) * (τ / (n + 1)) ≤ (n + 1) * (τ / (n + 1)) := mul_le_mul_of_nonneg_right h1 hs0.le
        _ = τ := by field_simp
    have hdiff : ∀ i, determineForces T Y α β (-Real.log (1 / 100)) afv smooth i k -
        demandedForce α β (y τ) τ smooth y v a (T i) k =
        τ ^ 2 * (demoYdd T Y afv i k - a (T i) k) + α k * τ * (demoYd T Y afv i k - v (T i) k) := by
      intro i
      simp only [determineForces, demandedForce, phase, hTlast, hT0, sub_zero, hY, mul_div_assoc]
      ring
    have hterm : ∀ i : Fin (n + 2), (determineForces T Y α β (-Real.log (1 / 100)) afv smooth i k -
        demandedForce α β (y τ) τ smooth y v a (T i) k) ^ 2 ≤
        (8 * τ ^ 4 * ω ^ 2 + 2 * α k ^ 2 * τ ^ 2 * (M k * s) ^ 2) +
          (if i.val < 2 ∨ n ≤ i.val then 32 * τ ^ 4 * M k ^ 2 else 0) := by
      intro i
      rw [hdiff]
      have g1 : (demoYd T Y afv i k - v (T i) k) ^ 2 ≤ (M k * s) ^ 2 := by
        rw [← sq_abs]; exact pow_le_pow_left₀ (abs_nonneg _) (f1 i) 2
      have g2 : (demoYdd T Y afv i k - a (T i) k) ^ 2 ≤ 4 * ω ^ 2 + (if i.val < 2 ∨ n ≤ i.val then 16 * M k ^ 2 else 0) := by
        rw [← sq_abs]
        split_ifs with hc
        · have := pow_le_pow_left₀ (abs_nonneg _) (f2 i) 2
          nlinarith [sq_nonneg ω]
        · rw [not_or, not_lt, not_le] at hc
          have := pow_le_pow_left₀ (abs_nonneg _) (f3 i hc.1 (by omega) ω (fun x hx x' hx' hxx => by
            have := huc x hx x' hx' (by rw [Real.dist_eq]; linarith)
            rw [Real.dist_eq] at this
            exact this.le)) 2
          linarith
      have g3 : ∀ p q : ℝ, (p + q) ^ 2 ≤ 2 * p ^ 2 + 2 * q ^ 2 := fun p q => by nlinarith [sq_nonneg (p - q)]
      refine (g3 _ _).trans ?_
      have g4 : (τ ^ 2 * (demoYdd T Y afv i k - a (T i) k)) ^ 2 ≤
          τ ^ 4 * (4 * ω ^ 2 + (if i.val < 2 ∨ n ≤ i.val then 16 * M k ^ 2 else 0)) := by
        rw [mul_pow, ← pow_mul]
        exact mul_le_mul_of_nonneg_left g2 (by positivity)
      have g5 : (α k * τ * (demoYd T Y afv i k - v (T i) k)) ^ 2 ≤ α k ^ 2 * τ ^ 2 * (M k * s) ^ 2 := by
        rw [mul_pow, mul_pow]
        exact mul_le_mul_of_nonneg_left g1 (by positivity)
      split_ifs at g4 ⊢ with hc <;> nlinarith
    have hsum := Finset.sum_le_sum fun i (_ : i ∈ Finset.univ) => hterm i
    rw [Finset.sum_add_distrib, Finset.sum_const, Finset.card_univ, Fintype.card_fin, nsmul_eq_mul,
      ← Finset.sum_filter, Finset.sum_const, nsmul_eq_mul] at hsum
    have hc4 : ((Finset.univ.filter fun i : Fin (n + 2) => i.val < 2 ∨ n ≤ i.val).card : ℝ) ≤ 4 := by
      exact_mod_cast card_ends n
    have hsn : s * ((n + 2 : ℕ) : ℝ) ≤ 2 * τ := by
      rw [hs]; push_cast
      rw [div_mul_eq_mul_div, div_le_iff₀ hn1]
      have : (0 : ℝ) ≤ n := Nat.cast_nonneg n
      nlinarith
    have hs1 : s ^ 2 ≤ τ ^ 2 / (n + 1) := by
      rw [hs, div_pow, sq ((n : ℝ) + 1), ← div_div]
      exact div_le_self (by positivity) (by linarith [Nat.cast_nonneg (α := ℝ) n])
    calc _ ≤ s * (((n + 2 : ℕ) : ℝ) * (8 * τ ^ 4 * ω ^ 2 + 2 * α k ^ 2 * τ ^ 2 * (M k * s) ^ 2) +
          4 * (32 * τ ^ 4 * M k ^ 2)) := by
            refine mul_le_mul_of_nonneg_left (hsum.trans ?_) hs0.le
            have := mul_le_mul_of_nonneg_right hc4 (show 0 ≤ 32 * τ ^ 4 * M k ^ 2 by positivity)
            linarith
      _ = (s * ((n + 2 : ℕ) : ℝ)) * (8 * τ ^ 4 * ω ^ 2 + 2 * α k ^ 2 * τ ^ 2 * M k ^ 2 * s ^ 2) +
          s * (128 * τ ^ 4 * M k ^ 2) := by ring
      _ ≤ (2 * τ) * (8 * τ ^ 4 * ω ^ 2 + 2 * α k ^ 2 * τ ^ 2 * M k ^ 2 * (τ ^ 2 / (n + 1))) + s * (128 * τ ^ 4 * M k ^ 2) := by
            refine add_le_add_left ?_ _
            refine mul_le_mul hsn ?_ (by positivity) (by positivity)
            have := mul_le_mul_of_nonneg_left hs1 (show 0 ≤ 2 * α k ^ 2 * τ ^ 2 * M k ^ 2 by positivity)
            linarith
      _ = 16 * τ ^ 5 * ω ^ 2 + D / (n + 1) := by rw [hs, hD]; field_simp; ring
      _ ≤ η := by linarith
  choose n0 hn0 using hone
  refine ⟨∑ k, n0 k, fun n hn k => hn0 k n ?_⟩
  exact (Finset.single_le_sum (f := n0) (fun _ _ => Nat.zero_le _) (Finset.mem_univ k)).trans hn

/-- Basis functions of the forcing term as functions of time. -/
noncomputable def ForcingTerm.basis (ft : ForcingTerm d m) (i : Fin m) (t : ℝ) : ℝ :=
  ft.phaseAt t * ft.activations (ft.phaseAt t) i

theorem ForcingTerm.call_basis (ft : ForcingTerm d m) (W : Fin d → Fin m → ℝ) (t : ℝ) (k : Fin d) :
    ({ ft with weights := W } : ForcingTerm d m).call t k = ∑ i, W k i * ft.basis i t := by
  show ft.phaseAt t * ∑ i, W k i * ft.activations (ft.phaseAt t) i = _
  rw [Finset.mul_sum]
  refine Finset.sum_congr rfl fun i _ => ?_
  unfold ForcingTerm.basis
  ring

theorem ForcingTerm.basis_contDiff (ft : ForcingTerm d m) (hm : 0 < m) (i : Fin m) : ContDiff ℝ 1 (ft.basis i) := by
  have hph : ContDiff ℝ 1 (fun t => ft.phaseAt t) := by
    unfold ForcingTerm.phaseAt phase
    fun_prop
  have hrbf : ∀ i, ContDiff ℝ 1 (fun t => ft.rbf (ft.phaseAt t) i) := by
    intro i
    unfold ForcingTerm.rbf
    exact Real.contDiff_exp.comp (contDiff_const.mul ((hph.sub contDiff_const).pow 2))
  have hsum : ContDiff ℝ 1 (fun t => ∑ j, ft.rbf (ft.phaseAt t) j) := ContDiff.sum fun j _ => hrbf j
  have hne : ∀ t, ∑ j, ft.rbf (ft.phaseAt t) j ≠ 0 := by
    intro t
    have : Nonempty (Fin m) := ⟨⟨0, hm⟩⟩
    exact (Finset.sum_pos (fun j _ => Real.exp_pos _) Finset.univ_nonempty).ne'
  unfold ForcingTerm.basis ForcingTerm.activations
  exact hph.mul ((hrbf i).div hsum hne)

/-- A common Lipschitz constant of the basis functions. -/
theorem ForcingTerm.basis_lipschitz (ft : ForcingTerm d m) (hm : 0 < m) (τ : ℝ) :
    ∃ L, 0 ≤ L ∧ ∀ i, ∀ x ∈ Icc 0 τ, ∀ y ∈ Icc 0 τ, |ft.basis i x - ft.basis i y| ≤ L * |x - y| := by
  have h : ∀ i, ∃ L, 0 ≤ L ∧ ∀ x ∈ Icc 0 τ, ∀ y ∈ Icc 0 τ, |ft.basis i x - ft.basis i y| ≤ L * |x - y| := by
    intro i
    have hc := ft.basis_contDiff hm i
    have hd : ∀ t ∈ Icc 0 τ, HasDerivWithinAt (ft.basis i) (deriv (ft.basis i) t) (Icc 0 τ) t := fun t _ =>
      ((hc.differentiable one_ne_zero) t).hasDerivAt.hasDerivWithinAt
    obtain ⟨M, hM⟩ := (isCompact_Icc (a := 0) (b := τ)).exists_bound_of_continuousOn
      ((hc.continuous_deriv le_rfl).continuousOn (s := Icc 0 τ))
    refine ⟨|M|, abs_nonneg _, fun x hx y hy => mean_value_le hd hy hx fun t ht _ => (hM t ht).trans (le_abs_self _)⟩
  choose L hL0 hL using h
  refine ⟨∑ i, L i, Finset.sum_nonneg fun i _ => hL0 i, fun i x hx y hy => (hL i x hx y hy).trans ?_⟩
  exact mul_le_mul_of_nonneg_right (Finset.single_le_sum (f := L) (fun i _ => hL0 i) (Finset.mem_univ i)) (abs_nonneg _)

theorem demandedForce_continuous {τ : ℝ} {y v a : ℝ → Vec d} (h : TwiceDifferentiable τ y v a) (α β goal : Vec d)
    (smooth : Bool) (k : Fin d) : ContinuousOn (fun t => demandedForce α β goal τ smooth y v a t k) (Icc 0 τ) := by
  have hy : ContinuousOn (fun t => y t k) (Icc 0 τ) := fun t ht => (h.velocity t ht k).continuousWithinAt
  have hv : ContinuousOn (fun t => v t k) (Icc 0 τ) := fun t ht => (h.acceleration t ht k).continuousWithinAt
  have ha := h.continuous k
  unfold demandedForce
  cases smooth
  · simp only [Bool.false_eq_true, if_false]
    fun_prop
  · simp only [if_true]
    fun_prop

/-- Least squares with the basis functions of the forcing term: the integral of the absolute difference between the learned
function and `f` is at most proportional to the mean squared error `ζ'` of the targets `F`. -/
theorem least_squares_error {τ : ℝ} (hτ : 0 < τ) {f : ℝ → Vec d} (hfc : ∀ k, ContinuousOn (fun t => f t k) (Icc 0 τ))
    {reg : ℝ} (hreg : 0 ≤ reg) :
    ∃ E > 0, ∀ ζ₀ > 0, ∃ N, ∀ m : ℕ, N ≤ m → ∀ ft : ForcingTerm d m, DMP.initForcingTerm d m τ = .ok ft → ∃ n0, ∀ n : ℕ,
      n0 ≤ n → ∀ (F : Fin (n + 2) → Vec d) (w : Fin d → Fin m → ℝ) (ζ : ℝ), ζ₀ ≤ ζ →
      (∀ k, τ / (n + 1) * ∑ i, (F i k - f (linspaceTimes τ n i) k) ^ 2 ≤ ζ ^ 2) →
      (∀ V, regularizedError F (fun W t k => ∑ i, W k i * ft.basis i (linspaceTimes τ n t)) reg w ≤
        regularizedError F (fun W t k => ∑ i, W k i * ft.basis i (linspaceTimes τ n t)) reg V) →
      ∀ k, ∃ r : ℝ → ℝ, Continuous r ∧ (∀ t ∈ Icc 0 τ, r t = ∑ i, w k i * ft.basis i t - f t k) ∧
        ∫ x in (0 : ℝ)..τ, |r x| ≤ E * ζ := by
  classical
  set A := d * (2 + 4 * τ) + 1 with hA
  have hA0 : 0 < A := by positivity
  set E := (Real.sqrt τ + 1) * (2 * Real.sqrt A) + τ with hE
  have hE0 : 0 < E := by positivity
  refine ⟨E, hE0, fun ζ₀ hζ₀ => ?_⟩
  obtain ⟨N, hN⟩ := C108_forces hτ hfc hζ₀
  refine ⟨max N 2, fun m hm ft hft => ?_⟩
  obtain ⟨W, hW⟩ := hN m ((le_max_left _ _).trans hm)
  have hm2 : 2 ≤ m := (le_max_right _ _).trans hm
  obtain ⟨L, hL0, hL⟩ := ft.basis_lipschitz (by omega) τ
  have hbc : ∀ i, Continuous (ft.basis i) := fun i => (ft.basis_contDiff (by omega) i).continuous
  obtain ⟨n1, hn1⟩ := integral_le_samples hbc hτ hL0 hL
  set R := reg * ∑ k, ∑ i, W k i ^ 2 with hR
  have hR0 : 0 ≤ R := mul_nonneg hreg (Finset.sum_nonneg fun k _ => Finset.sum_nonneg fun i _ => sq_nonneg _)
  refine ⟨max n1 ⌈τ * R / ζ₀ ^ 2⌉₊, ?_⟩
  intro n hn F w ζ hle hn2 hopt k
  have hζ0 : 0 < ζ := hζ₀.trans_le hle
  have hna : n1 ≤ n := (le_max_left _ _).trans hn
  have hnc : τ * R / ζ₀ ^ 2 ≤ n := (Nat.le_ceil _).trans (by exact_mod_cast (le_max_right _ _).trans hn)
  have hn' : (0 : ℝ) < n + 1 := by positivity
  set T := linspaceTimes τ n with hT
  set h' := τ / ((n : ℝ) + 1) with hh'
  have hh0 : 0 < h' := by positivity
  have hTlast : T (Fin.last (n + 1)) = τ := by
    simp only [hT, linspaceTimes, Fin.val_last]; push_cast; field_simp
  have hT0 : T 0 = 0 := by simp [hT, linspaceTimes]
  have hmem : ∀ i, T i ∈ Icc 0 τ := by
    intro i
    simp only [hT, linspaceTimes]
    refine ⟨by positivity, ?_⟩
    have h1 : ((i : ℕ) : ℝ) ≤ n + 1 := by exact_mod_cast Nat.lt_succ_iff.1 i.isLt
    calc ((i : ℕ) : ℝ) * (τ / (n + 1)) ≤ (n + 1) * (τ / (n + 1)) := mul_le_mul_of_nonneg_right h1 hh0.le
      _ = τ := by field_simp
  -- the approximating weights
  have hWf : ∀ t ∈ Icc 0 τ, ∀ k, |∑ i, W k i * ft.basis i t - f t k| ≤ ζ := by
    obtain ⟨s0, hs0, e1, -, -, -, -, -, -, -, -, -, e2, -⟩ := DMP.exists_configured (d := d) hm2 hτ 1 1 1 false 0 0 0 0 0 W
    intro t ht k
    have := hW s0 hs0 e1 e2 t ht k
    obtain ⟨ft', g1, g2⟩ := hs0.valid
    rw [e1, hft] at g1
    obtain rfl := Except.ok.inj g1
    rw [g2, e2, ft.call_basis W t k] at this
    exact this.le.trans hle
  -- least squares
  have hls : ∑ t, ∑ k, (F t k - ∑ i, w k i * ft.basis i (T t)) ^ 2 ≤
      ∑ t, ∑ k, (F t k - ∑ i, W k i * ft.basis i (T t)) ^ 2 + R := by
    have h3 := hopt W
    unfold regularizedError at h3
    have h4 : 0 ≤ reg * ∑ k, ∑ i, w k i ^ 2 :=
      mul_nonneg hreg (Finset.sum_nonneg fun k _ => Finset.sum_nonneg fun i _ => sq_nonneg _)
    linarith
  have hsq : ∀ p q : ℝ, (p + q) ^ 2 ≤ 2 * p ^ 2 + 2 * q ^ 2 := fun p q => by nlinarith [sq_nonneg (p - q)]
  have hsn : h' * ((n + 2 : ℕ) : ℝ) ≤ 2 * τ := by
    rw [hh']; push_cast
    rw [div_mul_eq_mul_div, div_le_iff₀ hn']
    have : (0 : ℝ) ≤ n := Nat.cast_nonneg n
    nlinarith
  -- error of the approximating weights
  have hD : ∀ k, h' * ∑ t, (F t k - ∑ i, W k i * ft.basis i (T t)) ^ 2 ≤ (2 + 4 * τ) * ζ ^ 2 := by
    intro k
    have h3 : ∀ t ∈ Finset.univ, (F t k - ∑ i, W k i * ft.basis i (T t)) ^ 2 ≤
        2 * (F t k - f (T t) k) ^ 2 + 2 * ζ ^ 2 := by
      intro t _
      have h4 : (∑ i, W k i * ft.basis i (T t) - f (T t) k) ^ 2 ≤ ζ ^ 2 := by
        rw [← sq_abs]
        exact pow_le_pow_left₀ (abs_nonneg _) (hWf (T t) (hmem t) k) 2
      have h5 := hsq (F t k - f (T t) k)
        (f (T t) k - ∑ i, W k i * ft.basis i (T t))
      rw [sub_add_sub_cancel] at h5
      rw [← neg_sq, neg_sub] at h4
      linarith
    have h4 := Finset.sum_le_sum h3
    rw [Finset.sum_add_distrib, ← Finset.mul_sum, Finset.sum_const, Finset.card_univ, Fintype.card_fin, nsmul_eq_mul] at h4
    have h5 := hn2 k
    have h6 := mul_le_mul_of_nonneg_left h4 hh0.le
    have h7 := mul_le_mul_of_nonneg_right hsn (show 0 ≤ 2 * ζ ^ 2 by positivity)
    calc _ ≤ _ := h6
      _ = 2 * (h' * ∑ t, (F t k - f (T t) k) ^ 2) +
          h' * ((n + 2 : ℕ) : ℝ) * (2 * ζ ^ 2) := by ring
      _ ≤ 2 * ζ ^ 2 + 2 * τ * (2 * ζ ^ 2) := by linarith
      _ = _ := by ring
  have hDall : h' * ∑ t, ∑ k, (F t k - ∑ i, W k i * ft.basis i (T t)) ^ 2 ≤ d * (2 + 4 * τ) * ζ ^ 2 := by
    rw [Finset.sum_comm, Finset.mul_sum]
    refine (Finset.sum_le_sum fun k _ => hD k).trans (le_of_eq ?_)
    rw [Finset.sum_const, Finset.card_univ, Fintype.card_fin, nsmul_eq_mul]
    ring
  have hRn : h' * R ≤ ζ ^ 2 := by
    rw [div_le_iff₀ (by positivity)] at hnc
    rw [hh', div_mul_eq_mul_div, div_le_iff₀ hn']
    have h3 : ζ₀ ^ 2 ≤ ζ ^ 2 := pow_le_pow_left₀ hζ₀.le hle 2
    nlinarith [sq_nonneg ζ, mul_le_mul_of_nonneg_left h3 (Nat.cast_nonneg (α := ℝ) n)]
  have hone : ∀ V : Fin d → Fin m → ℝ, ∑ t, (F t k - ∑ i, V k i * ft.basis i (T t)) ^ 2 ≤
      ∑ t, ∑ k, (F t k - ∑ i, V k i * ft.basis i (T t)) ^ 2 := by
    intro V
    refine Finset.sum_le_sum fun t _ => ?_
    exact Finset.single_le_sum (f := fun k => (F t k - ∑ i, V k i * ft.basis i (T t)) ^ 2) (fun _ _ => sq_nonneg _)
      (Finset.mem_univ k)
  -- difference of the weights
  let g : Fin m → ℝ := fun i => w k i - W k i
  have hg : ∀ t, ∑ i, g i * ft.basis i t = ∑ i, w k i * ft.basis i t - ∑ i, W k i * ft.basis i t := by
    intro t
    simp only [g, sub_mul, Finset.sum_sub_distrib]
  have hgsum : h' * ∑ t, (∑ i, g i * ft.basis i (T t)) ^ 2 ≤ 4 * A * ζ ^ 2 := by
    have h3 : ∀ t ∈ Finset.univ, (∑ i, g i * ft.basis i (T t)) ^ 2 ≤
        2 * (F t k - ∑ i, w k i * ft.basis i (T t)) ^ 2 + 2 * (F t k - ∑ i, W k i * ft.basis i (T t)) ^ 2 := by
      intro t _
      rw [hg]
      nlinarith [sq_nonneg ((F t k - ∑ i, w k i * ft.basis i (T t)) + (F t k - ∑ i, W k i * ft.basis i (T t)))]
    have h4 := Finset.sum_le_sum h3
    rw [Finset.sum_add_distrib, ← Finset.mul_sum, ← Finset.mul_sum] at h4
    have h5 := mul_le_mul_of_nonneg_left h4 hh0.le
    have h6 := mul_le_mul_of_nonneg_left ((hone w).trans hls) hh0.le
    have h7 := mul_le_mul_of_nonneg_left (hone W) hh0.le
    have h8 : A * ζ ^ 2 = d * (2 + 4 * τ) * ζ ^ 2 + ζ ^ 2 := by rw [hA]; ring
    nlinarith [sq_nonneg ζ]
  have hint : ∫ x in (0 : ℝ)..τ, |∑ i, g i * ft.basis i x| ≤ (Real.sqrt τ + 1) * (2 * Real.sqrt A * ζ) := by
    refine hn1 (n + 1) (hna.trans (Nat.le_succ n)) (Nat.succ_pos n) g _ (by positivity) ?_
    have h3 : (2 * Real.sqrt A * ζ) ^ 2 = 4 * A * ζ ^ 2 := by
      rw [mul_pow, mul_pow, Real.sq_sqrt hA0.le]; norm_num
    rw [h3]
    refine le_trans ?_ hgsum
    push_cast
    refine mul_le_mul_of_nonneg_left ?_ hh0.le
    have h4 := Fin.sum_univ_eq_sum_range (fun j : ℕ => (∑ i, g i * ft.basis i ((j : ℝ) * h')) ^ 2) (n + 2)
    rw [Finset.sum_range_succ] at h4
    show _ ≤ ∑ t : Fin (n + 2), (∑ i, g i * ft.basis i (((t : ℕ) : ℝ) * h')) ^ 2
    rw [h4]
    exact le_add_of_nonneg_right (sq_nonneg _)
  -- the integral of the error of the learned forces
  let r : ℝ → ℝ := fun t => ∑ i, w k i * ft.basis i t - f t k
  have hrc : ContinuousOn r (Icc 0 τ) := ContinuousOn.sub (by fun_prop) (hfc k)
  let r' : ℝ → ℝ := IccExtend hτ.le (Icc 0 τ |>.domRestrict r)
  have hr'c : Continuous r' := (continuousOn_iff_continuous_domRestrict.1 hrc).Icc_extend'
  have hr' : ∀ t ∈ Icc 0 τ, r' t = r t := fun t ht => IccExtend_of_mem hτ.le _ ht
  refine ⟨r', hr'c, hr', ?_⟩
  have hgc : Continuous fun x => ∑ i, g i * ft.basis i x := by fun_prop
  have h3 : ∫ x in (0 : ℝ)..τ, |r' x| ≤ ∫ x in (0 : ℝ)..τ, (|∑ i, g i * ft.basis i x| + ζ) := by
    apply intervalIntegral.integral_mono_on hτ.le (hr'c.abs.intervalIntegrable _ _)
      ((hgc.abs.add continuous_const).intervalIntegrable _ _)
    intro x hx
    have e2 : r' x = ∑ i, g i * ft.basis i x + (∑ i, W k i * ft.basis i x - f x k) := by
      rw [hr' x hx, hg]; simp only [r]; ring
    rw [e2]
    have h4 := hWf x hx k
    exact (abs_add_le _ _).trans (add_le_add le_rfl h4)
  rw [intervalIntegral.integral_add (hgc.abs.intervalIntegrable _ _) (continuous_const.intervalIntegrable _ _),
    intervalIntegral.integral_const, smul_eq_mul, sub_zero] at h3
  have h6 : (Real.sqrt τ + 1) * (2 * Real.sqrt A * ζ) + τ * ζ = E * ζ := by rw [hE]; ring
  linarith

/-- Least squares with the basis functions of the forcing term: if the mean squared error of the targets `F` is small enough, the
integral of the difference between the learned function and `f` is at most `η`. -/
theorem least_squares_integral {τ : ℝ} (hτ : 0 < τ) {f : ℝ → Vec d} (hfc : ∀ k, ContinuousOn (fun t => f t k) (Icc 0 τ))
    {reg : ℝ} (hreg : 0 ≤ reg) {η : ℝ} (hη : 0 < η) :
    ∃ ζ > 0, ∃ N, ∀ m : ℕ, N ≤ m → ∀ ft : ForcingTerm d m, DMP.initForcingTerm d m τ = .ok ft → ∃ n0, ∀ n : ℕ, n0 ≤ n →
      ∀ (F : Fin (n + 2) → Vec d) (w : Fin d → Fin m → ℝ),
      (∀ k, τ / (n + 1) * ∑ i, (F i k - f (linspaceTimes τ n i) k) ^ 2 ≤ ζ ^ 2) →
      (∀ V, regularizedError F (fun W t k => ∑ i, W k i * ft.basis i (linspaceTimes τ n t)) reg w ≤
        regularizedError F (fun W t k => ∑ i, W k i * ft.basis i (linspaceTimes τ n t)) reg V) →
      ∀ k, ∃ b : ℝ → ℝ, b 0 = 0 ∧ (∀ t ∈ Icc 0 τ, |b t| ≤ η) ∧ ∀ t ∈ Icc 0 τ,
        HasDerivWithinAt b (∑ i, w k i * ft.basis i t - f t k) (Icc 0 τ) t := by
  obtain ⟨E, hE0, hE⟩ := least_squares_error hτ hfc hreg
  obtain ⟨N, hN⟩ := hE (η / E) (by positivity)
  refine ⟨η / E, by positivity, N, fun m hm ft hft => ?_⟩
  obtain ⟨n0, hn0⟩ := hN m hm ft hft
  refine ⟨n0, fun n hn F w hF hopt k => ?_⟩
  obtain ⟨r, hrc, hr, hint⟩ := hn0 n hn F w (η / E) le_rfl hF hopt k
  refine ⟨fun t => ∫ x in (0 : ℝ)..t, r x, intervalIntegral.integral_same, fun t ht => ?_, fun t ht => ?_⟩
  · have h1 : ∫ x in (0 : ℝ)..t, |r x| ≤ ∫ x in (0 : ℝ)..τ, |r x| :=
      intervalIntegral.integral_mono_interval le_rfl ht.1 ht.2 (Filter.Eventually.of_forall fun x => abs_nonneg _)
        (hrc.abs.intervalIntegrable _ _)
    have h2 : E * (η / E) = η := by field_simp
    exact (intervalIntegral.abs_integral_le_integral_abs ht.1).trans (by linarith)
  · have h3 : HasDerivAt (fun t => ∫ x in (0 : ℝ)..t, r x) (r t) t :=
      intervalIntegral.integral_hasDerivAt_right (hrc.intervalIntegrable _ _)
        hrc.stronglyMeasurable.stronglyMeasurableAtFilter hrc.continuousAt
    rw [← hr t ht]
    exact h3.hasDerivWithinAt

/-- The forces learned by `imitate` from equidistant samples: the integral of their difference to the forces that the movement
demands is at most `η` if there are enough weights and samples. -/
theorem learned_forces {τ : ℝ} (hτ : 0 < τ) {y v a : ℝ → Vec d} (h : TwiceDifferentiable τ y v a) {afv : Bool}
    (hend : afv = true ∨ v τ = 0) (α β : Vec d) (smooth : Bool) {reg : ℝ} (hreg : 0 ≤ reg) {η : ℝ} (hη : 0 < η) :
    ∃ N, ∀ m : ℕ, N ≤ m → ∃ n0, ∀ n : ℕ, n0 ≤ n → ∀ s s' : DMP d m, s.Reachable → s.executionTime = τ → s.alphaY = α →
      s.betaY = β → s.smooth = smooth →
      (DMP.imitate (linspaceTimes τ n) (fun i => y (linspaceTimes τ n i)) reg afv).exec s = (.ok (), s') →
      ∀ k, ∃ b : ℝ → ℝ, b 0 = 0 ∧ (∀ t ∈ Icc 0 τ, |b t| ≤ η) ∧ ∀ t ∈ Icc 0 τ,
        HasDerivWithinAt b (s'.ft.call t k - demandedForce α β (y τ) τ smooth y v a t k) (Icc 0 τ) t := by
  classical
  have hfc := fun k => demandedForce_continuous h α β (y τ) smooth k
  obtain ⟨ζ, hζ0, N, hN⟩ := least_squares_integral hτ hfc hreg hη
  refine ⟨max N 2, fun m hm => ?_⟩
  have hm2 : 2 ≤ m := (le_max_right _ _).trans hm
  obtain ⟨ft, hft⟩ := (DMP.initForcingTerm_isOk_iff (d := d) (m := m) τ).2 ⟨hm2, hτ⟩
  obtain ⟨n1, hn1⟩ := hN m ((le_max_left _ _).trans hm) ft hft
  obtain ⟨n2, hn2⟩ := forces_consistent hτ h hend α β smooth (show 0 < ζ ^ 2 by positivity)
  refine ⟨max n1 n2, ?_⟩
  intro n hn s s' hs hsτ hsα hsβ hsm him k
  have hTlast : linspaceTimes τ n (Fin.last (n + 1)) = τ := by
    simp only [linspaceTimes, Fin.val_last]; push_cast; field_simp
  have hT0 : linspaceTimes τ n 0 = 0 := by simp [linspaceTimes]
  set T := linspaceTimes τ n with hT
  -- the forcing terms of all objects have the same basis functions
  obtain ⟨ft', h1, h2⟩ := hs.valid
  rw [hsτ, hft] at h1
  obtain rfl := Except.ok.inj h1
  have hαz : s.ft.alphaZ = -Real.log (1 / 100) := by
    rw [h2]
    rw [DMP.initForcingTerm_ok_iff] at hft
    obtain ⟨-, -, -, rfl⟩ := create_ok hft
    rfl
  obtain ⟨w, hw⟩ := C28_imitate_configures hs T (fun i => y (T i)) hreg (by rw [hT0, hTlast]; exact hτ) afv
  have hopt := C26_dmp_imitate hs T (fun i => y (T i)) hT0 (by rw [hTlast, hsτ]) afv him
  rw [hw] at him
  obtain rfl := (Prod.mk.inj him).2
  have hft' : ({ s.ft with weights := w } : ForcingTerm d m) = { ft with weights := w } := by rw [h2]
  have hcall : ∀ (V : Fin d → Fin m → ℝ) t k, ({ s.ft with weights := V } : ForcingTerm d m).call t k =
      ∑ i, V k i * ft.basis i t := by
    intro V t k
    rw [h2]
    exact ft.call_basis V t k
  obtain ⟨b, hb0, hb1, hb2⟩ := hn1 n ((le_max_left _ _).trans hn) (determineForces T (fun i => y (T i)) α β
    (-Real.log (1 / 100)) afv smooth) w (hn2 n ((le_max_right _ _).trans hn)) (by
      intro V
      have h3 : regularizedError (determineForces T (fun i => y (T i)) s.alphaY s.betaY s.ft.alphaZ afv s.smooth)
          (fun V t => ({ s.ft with weights := V } : ForcingTerm d m).call (T t)) reg w ≤
        regularizedError (determineForces T (fun i => y (T i)) s.alphaY s.betaY s.ft.alphaZ afv s.smooth)
          (fun V t => ({ s.ft with weights := V } : ForcingTerm d m).call (T t)) reg V := (hopt V).1
      rw [hsα, hsβ, hsm, hαz] at h3
      unfold regularizedError at h3 ⊢
      simp only [hcall] at h3
      exact h3) k
  refine ⟨b, hb0, hb1, fun t ht => ?_⟩
  refine (hb2 t ht).congr_deriv ?_
  show _ = ({ s.ft with weights := w } : ForcingTerm d m).call t k - _
  rw [hcall]

/-- **C109 (differential equation).** A DMP that has imitated sufficiently many equidistant samples of a movement and has enough
weights solves a differential equation whose solution is the movement up to an error of less than `ε`. -/
theorem C109_solution {τ : ℝ} (hτ : 0 < τ) {y v a : ℝ → Vec d} (h : TwiceDifferentiable τ y v a) {afv : Bool}
    (hend : afv = true ∨ v τ = 0) (α β : Vec d) (smooth : Bool) {reg : ℝ} (hreg : 0 ≤ reg) {ε : ℝ} (hε : 0 < ε) :
    ∃ N, ∀ m : ℕ, N ≤ m → ∃ n0, ∀ n : ℕ, n0 ≤ n → ∀ s : DMP d m, s.Reachable → s.executionTime = τ → s.alphaY = α →
      s.betaY = β → s.smooth = smooth →
      ∃ s', (DMP.imitate (linspaceTimes τ n) (fun i => y (linspaceTimes τ n i)) reg afv).exec s = (.ok (), s') ∧
        ∀ y' v', SolvesDmp s' 0 (y 0, v 0) y' v' → ∀ t ∈ Icc 0 τ, ∀ k, |y' t k - y t k| < ε ∧ |v' t k - v t k| < ε := by
  classical
  let K : Fin d → ℝ := fun k => Real.exp ((1 + |α k * β k / τ ^ 2| + |α k / τ|) * τ)
  have hKsum : ∀ k, K k ≤ ∑ k, K k := fun k =>
    Finset.single_le_sum (f := K) (fun _ _ => (Real.exp_pos _).le) (Finset.mem_univ k)
  set C := 1 + ∑ k, K k with hC
  have hC0 : 0 < C := by
    have : 0 ≤ ∑ k, K k := Finset.sum_nonneg fun k _ => (Real.exp_pos _).le
    linarith
  obtain ⟨N, hN⟩ := learned_forces hτ h hend α β smooth hreg (η := τ ^ 2 * (ε / C)) (by positivity)
  refine ⟨N, fun m hm => ?_⟩
  obtain ⟨n0, hn0⟩ := hN m hm
  refine ⟨n0, fun n hn s hs hsτ hsα hsβ hsm => ?_⟩
  have hTlast : linspaceTimes τ n (Fin.last (n + 1)) = τ := by
    simp only [linspaceTimes, Fin.val_last]; push_cast; field_simp
  have hT0 : linspaceTimes τ n 0 = 0 := by simp [linspaceTimes]
  obtain ⟨w, hw⟩ := C28_imitate_configures hs (linspaceTimes τ n) (fun i => y (linspaceTimes τ n i)) hreg
    (by rw [hT0, hTlast]; exact hτ) afv
  refine ⟨_, hw, ?_⟩
  intro y' v' hsol t ht k
  obtain ⟨b, hb0, hbη, hb⟩ := hn0 n hn s _ hs hsτ hsα hsβ hsm hw k
  have hphase : ∀ t, s.ft.phaseAt t = Real.exp (-(-Real.log (1 / 100 : ℝ)) * (t / τ)) := by
    intro t
    obtain ⟨ft0, h0, e1, e2, e3, -, -⟩ := hs.made
    rw [DMP.initForcingTerm_ok_iff] at h0
    obtain ⟨-, -, -, rfl⟩ := create_ok h0
    simp only at e1 e2 e3
    simp only [ForcingTerm.phaseAt, phase, e1, e2, e3, sub_zero, mul_div_assoc, hsτ]
  set f : ℝ → ℝ := fun t => ({ s.ft with weights := w } : ForcingTerm d m).call t k with hf
  set κ := α k * β k / τ ^ 2 with hκ
  set c := α k / τ with hc
  let u : ℝ → ℝ := fun t => (demandedForce α β (y τ) τ smooth y v a t k -
    α k * (if smooth then β k * (y τ k - y 0 k) * s.ft.phaseAt t else 0)) / τ ^ 2
  let w' : ℝ → ℝ := fun t => (f t - α k * (if smooth then β k * (y τ k - y 0 k) * s.ft.phaseAt t else 0)) / τ ^ 2
  have hx : ∀ t ∈ Icc 0 τ, HasDerivWithinAt (fun t => (y t k - y τ k, v t k))
      (sdField κ c (y t k - y τ k, v t k) (u t)) (Icc 0 τ) t := by
    intro t ht
    have h1 := ((h.velocity t ht k).sub_const (y τ k)).prodMk (h.acceleration t ht k)
    have e : a t k = -κ * (y t k - y τ k) - c * v t k + u t := by
      simp only [u, demandedForce, hphase, hκ, hc]
      cases smooth <;> simp <;> field_simp <;> ring
    rw [e] at h1
    exact h1
  have hx' : ∀ t ∈ Icc 0 τ, HasDerivWithinAt (fun t => (y' t k - y τ k, v' t k))
      (sdField κ c (y' t k - y τ k, v' t k) (w' t)) (Icc 0 τ) t := by
    intro t ht
    have h1 := (((hsol.velocity t k).sub_const (y τ k)).prodMk (hsol.acceleration t k)).hasDerivWithinAt (s := Icc 0 τ)
    simp only [hsτ, hsα, hsβ, hsm, hTlast, hT0] at h1
    rw [dmpAcceleration_field _ _ _ _ _ _ _ _ _ hτ.ne'] at h1
    exact h1
  have h0 : (y 0 k - y τ k, v 0 k) = (y' 0 k - y τ k, v' 0 k) := by
    have := hsol.start
    rw [Prod.mk.injEq] at this
    rw [this.1, this.2]
  have key := sd_perturbed_integral (η := ε / C) (b := fun t => b t / τ ^ 2) hx hx' h0 (by simp [hb0]) (fun t ht => by
      refine ((hb t ht).div_const (τ ^ 2)).congr_deriv ?_
      simp only [w', u, hf]
      ring) (fun t ht => by
      rw [abs_div, abs_of_pos (show (0 : ℝ) < τ ^ 2 by positivity), div_le_iff₀ (by positivity)]
      linarith [hbη t ht]) t ht
  have hlt : ε / C * Real.exp ((1 + |κ| + |c|) * τ) < ε := by
    have h1 : Real.exp ((1 + |κ| + |c|) * τ) < C := by have := hKsum k; simp only [K] at this; linarith
    rw [div_mul_eq_mul_div, div_lt_iff₀ hC0]
    exact mul_lt_mul_of_pos_left h1 hε
  have h1 := (norm_fst_le _).trans_lt (key.trans_lt hlt)
  have h2 := (norm_snd_le _).trans_lt (key.trans_lt hlt)
  constructor
  · simpa using h1
  · simpa using h2

/-- **C109.** Let `y` be a twice continuously differentiable movement of duration `τ` that starts at rest and, unless
`allow_final_velocity`, ends at rest. For all gains, with and without smooth scaling, for every regularisation coefficient that
is not negative and every `ε > 0`: a DMP with enough weights that imitates sufficiently many equidistant samples of the movement
reproduces it: for all integrators with sufficiently small steps, `open_loop` returns at each time stamp up to `τ` the position
of the movement up to an error of less than `ε`. -/
theorem C109_imitated_movement {τ : ℝ} (hτ : 0 < τ) {y v a : ℝ → Vec d} (h : TwiceDifferentiable τ y v a) {afv : Bool}
    (hrest : v 0 = 0) (hend : afv = true ∨ v τ = 0) (α β : Vec d) (smooth : Bool) {reg : ℝ} (hreg : 0 ≤ reg) {ε : ℝ}
    (hε : 0 < ε) :
    ∃ N, ∀ m : ℕ, N ≤ m → ∃ n0, ∀ n : ℕ, n0 ≤ n → ∀ s : DMP d m, s.Reachable → s.executionTime = τ → s.alphaY = α →
      s.betaY = β → s.smooth = smooth →
      ∃ s', (DMP.imitate (linspaceTimes τ n) (fun i => y (linspaceTimes τ n i)) reg afv).exec s = (.ok (), s') ∧
      ∃ h > 0, ∀ (name : String) (sf : StepFunction) (dt intDt : ℝ), StepFunction.lookup name = .ok sf → 0 < dt →
        0 < intDt → Spec.largestStep dt intDt sf ≤ h →
        (∀ r : ℝ, 0 ≤ r →
          ∃ T Y, ((DMP.openLoop (some r) none name).exec { s' with dt := dt, intDt := intDt }).1 = .ok (T, Y)) ∧
        ∀ runT T Y, ((DMP.openLoop runT none name).exec { s' with dt := dt, intDt := intDt }).1 = .ok (T, Y) →
          ∀ i (hT : i < T.length) (hY : i < Y.length), T[i] ≤ τ → ∀ k, |Y[i] k - y T[i] k| < ε := by
  obtain ⟨N, hN⟩ := C109_solution hτ h hend α β smooth hreg (half_pos hε)
  refine ⟨N, fun m hm => ?_⟩
  obtain ⟨n0, hn0⟩ := hN m hm
  refine ⟨n0, fun n hn s hs hsτ hsα hsβ hsm => ?_⟩
  obtain ⟨s', him, hclose⟩ := hn0 n hn s hs hsτ hsα hsβ hsm
  refine ⟨s', him, ?_⟩
  have hs' : s'.Reachable := hs.op (.imitate (linspaceTimes τ n) (fun i => y (linspaceTimes τ n i)) reg afv) him
    (by intro τ h; cases h)
  have hstart : s'.startY = y 0 := by
    have hTlast : linspaceTimes τ n (Fin.last (n + 1)) = τ := by
      simp only [linspaceTimes, Fin.val_last]; push_cast; field_simp
    have hT0 : linspaceTimes τ n 0 = 0 := by simp [linspaceTimes]
    obtain ⟨w, hw⟩ := C28_imitate_configures hs (linspaceTimes τ n) (fun i => y (linspaceTimes τ n i)) hreg
      (by rw [hT0, hTlast]; exact hτ) afv
    rw [hw] at him
    rw [← (Prod.mk.inj him).2]
    simp only [hT0]
  obtain ⟨y', v', hsol, -⟩ := C77_solution_exists hs' 0 (y 0, v 0)
  have hclose := hclose y' v' hsol
  obtain ⟨C, hC⟩ := C77_open_loop hs' (y := y') (v := v') (by rw [hstart, ← hrest]; exact hsol) τ
  refine ⟨ε / (2 * (|C| + 1)), by positivity, ?_⟩
  intro name sf dt intDt hname hdt hint hstep
  obtain ⟨hret, hrows⟩ := hC name sf dt intDt hname hdt hint
  refine ⟨hret, ?_⟩
  intro runT T Y hex i hT hY hi k
  have h1 := hrows runT T Y hex i hT hY hi k
  have h2 := small_steps hε (largestStep_nonneg hdt hint sf) hstep
  have hpos : 0 ≤ T[i] := by
    obtain ⟨xs, -, -, -, hr⟩ := openLoop_states (s := { s' with dt := dt, intDt := intDt }) (coupling := none) hname hdt
      (fun i x => run_ok { s'.openLoopArgs none with intDt := intDt } rfl rfl hs'.valid.pos.2 hint sf
        (show (0 : ℝ) + i * dt ≤ 0 + (i + 1) * dt by linarith)
        (show (0 : ℝ) < 0 + (i + 1) * dt by
          have : 0 < ((i : ℝ) + 1) * dt := by positivity
          linarith) x)
    rw [(hr runT T Y hex i hT hY).1]
    show (0 : ℝ) ≤ i * dt
    positivity
  have h3 := (hclose T[i] ⟨hpos, hi⟩ k).1
  calc |Y[i] k - y T[i] k| = |(Y[i] k - y' T[i] k) + (y' T[i] k - y T[i] k)| := by ring_nf
    _ ≤ |Y[i] k - y' T[i] k| + |y' T[i] k - y T[i] k| := abs_add_le _ _
    _ < ε := by linarith

/-- **C109 (step).** The same for movements with any initial velocity, if it is configured as initial velocity of the DMP, and
for positions and velocities returned by calls of `step`. -/
theorem C109_step {τ : ℝ} (hτ : 0 < τ) {y v a : ℝ → Vec d} (h : TwiceDifferentiable τ y v a) {afv : Bool}
    (hend : afv = true ∨ v τ = 0) (α β : Vec d) (smooth : Bool) {reg : ℝ} (hreg : 0 ≤ reg) {ε : ℝ} (hε : 0 < ε) :
    ∃ N, ∀ m : ℕ, N ≤ m → ∃ n0, ∀ n : ℕ, n0 ≤ n → ∀ s : DMP d m, s.Reachable → s.executionTime = τ → s.alphaY = α →
      s.betaY = β → s.smooth = smooth → s.startYd = v 0 → s.t = 0 → s.initialized = false →
      ∃ s', (DMP.imitate (linspaceTimes τ n) (fun i => y (linspaceTimes τ n i)) reg afv).exec s = (.ok (), s') ∧
      ∃ h > 0, ∀ (sf : StepFunction) (dt intDt : ℝ), 0 < dt → 0 < intDt → Spec.largestStep dt intDt sf ≤ h →
        ∀ (obj : ℕ → DMP d m) (fb out : ℕ → Vec d × Vec d), obj 0 = { s' with dt := dt, intDt := intDt } →
          Spec.Run (DMP.step none sf) obj fb out →
          (s.pGain = 0 ∨ (fb 0).1 = y 0 ∧ ∀ i, (fb (i + 1)).1 = (out i).1) →
          ∀ i : ℕ, (i + 1) * dt ≤ τ → ∀ k,
            |(out i).1 k - y ((i + 1) * dt) k| < ε ∧ |(out i).2 k - v ((i + 1) * dt) k| < ε := by
  obtain ⟨N, hN⟩ := C109_solution hτ h hend α β smooth hreg (half_pos hε)
  refine ⟨N, fun m hm => ?_⟩
  obtain ⟨n0, hn0⟩ := hN m hm
  refine ⟨n0, fun n hn s hs hsτ hsα hsβ hsm hsv ht hini => ?_⟩
  obtain ⟨s', him, hclose⟩ := hn0 n hn s hs hsτ hsα hsβ hsm
  refine ⟨s', him, ?_⟩
  have hs' : s'.Reachable := hs.op (.imitate (linspaceTimes τ n) (fun i => y (linspaceTimes τ n i)) reg afv) him
    (by intro τ h; cases h)
  obtain ⟨e1, e2, e3, e4, e5⟩ : s'.startY = y 0 ∧ s'.startYd = v 0 ∧ s'.t = 0 ∧ s'.initialized = false ∧
      s'.pGain = s.pGain := by
    have hTlast : linspaceTimes τ n (Fin.last (n + 1)) = τ := by
      simp only [linspaceTimes, Fin.val_last]; push_cast; field_simp
    have hT0 : linspaceTimes τ n 0 = 0 := by simp [linspaceTimes]
    obtain ⟨w, hw⟩ := C28_imitate_configures hs (linspaceTimes τ n) (fun i => y (linspaceTimes τ n i)) hreg
      (by rw [hT0, hTlast]; exact hτ) afv
    rw [hw] at him
    rw [← (Prod.mk.inj him).2]
    simp only [hT0]
    exact ⟨trivial, hsv, ht, hini, trivial⟩
  obtain ⟨y', v', hsol, -⟩ := C77_solution_exists hs' 0 (y 0, v 0)
  have hclose := hclose y' v' hsol
  obtain ⟨C, hC⟩ := C77_step hs' e3.ge (y := y') (v := v') (by rw [e4, e1, e2, e3]; exact hsol) τ
  refine ⟨ε / (2 * (|C| + 1)), by positivity, ?_⟩
  intro sf dt intDt hdt hint hstep obj fb out ho hrun hfb i hi k
  have h1 := hC sf dt intDt hdt hint obj fb out ho hrun (by rw [e4, e5, e1]; simpa using hfb) i
    (by rw [e3, zero_add]; exact hi) k
  rw [e3, zero_add] at h1
  have h2 := small_steps hε (largestStep_nonneg hdt hint sf) hstep
  have h3 := hclose ((i + 1) * dt) ⟨by positivity, hi⟩ k
  constructor
  · calc |(out i).1 k - y ((i + 1) * dt) k|
        = |((out i).1 k - y' ((i + 1) * dt) k) + (y' ((i + 1) * dt) k - y ((i + 1) * dt) k)| := by ring_nf
      _ ≤ _ := abs_add_le _ _
      _ < ε := by linarith [h1.1, h3.1]
  · calc |(out i).2 k - v ((i + 1) * dt) k|
        = |((out i).2 k - v' ((i + 1) * dt) k) + (v' ((i + 1) * dt) k - v ((i + 1) * dt) k)| := by ring_nf
      _ ≤ _ := abs_add_le _ _
      _ < ε := by linarith [h1.2, h3.2]

/-- A movement that starts and ends at rest: a minimum-jerk movement. -/
example : ∃ v a, TwiceDifferentiable (d := 1) 1 (fun t _ => t ^ 3 * (10 - 15 * t + 6 * t ^ 2)) v a ∧ v 0 = 0 ∧ v 1 = 0 := by
  refine ⟨fun t _ => 30 * t ^ 2 * (1 - t) ^ 2, fun t _ => 60 * t - 180 * t ^ 2 + 120 * t ^ 3, ⟨?_, ?_, ?_⟩, ?_, ?_⟩
  · intro t _ k
    have := ((((hasDerivAt_pow 3 t).const_mul 10).sub ((hasDerivAt_pow 4 t).const_mul 15)).add
      ((hasDerivAt_pow 5 t).const_mul 6)).hasDerivWithinAt (s := Icc 0 1)
    refine (this.congr_deriv (g' := 30 * t ^ 2 * (1 - t) ^ 2) (by norm_num; ring)).congr (fun x _ => ?_) ?_ <;>
      simp <;> ring
  · intro t _ k
    have := ((((hasDerivAt_pow 2 t).const_mul 30).sub ((hasDerivAt_pow 3 t).const_mul 60)).add
      ((hasDerivAt_pow 4 t).const_mul 30)).hasDerivWithinAt (s := Icc 0 1)
    refine (this.congr_deriv (g' := 60 * t - 180 * t ^ 2 + 120 * t ^ 3) (by norm_num; ring)).congr (fun x _ => ?_) ?_ <;>
      simp <;> ring
  · intro k
    fun_prop
  · funext k; simp
  · funext k; simp

end Verif
