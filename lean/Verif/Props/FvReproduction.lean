import Verif.Props.Reproduction
import Verif.Props.FvIntegration

/-!
# C111: a DMP with final velocity reproduces imitated movements, including their final velocity
-/

namespace Verif
open Spec Set
variable {d m n : ℕ}

/-! ## Helper lemmas -/

/-- Backward differences of equidistant samples of a movement that starts at rest. -/
theorem backward_differences {τ : ℝ} (hτ : 0 < τ) {y v a : ℝ → ℝ}
    (hy : ∀ t ∈ Icc 0 τ, HasDerivWithinAt y (v t) (Icc 0 τ) t)
    (hv : ∀ t ∈ Icc 0 τ, HasDerivWithinAt v (a t) (Icc 0 τ) t) (h0 : v 0 = 0) {M : ℝ} (hM : ∀ t ∈ Icc 0 τ, |a t| ≤ M)
    {T Yd Ydd : Fin (n + 2) → ℝ} (hT : ∀ i, T i = i * (τ / (n + 1)))
    (hYd : ∀ i, Yd i = backwardDifference T (fun i => y (T i)) i) (hYdd : ∀ i, Ydd i = backwardDifference T Yd i) :
    (∀ i, |Yd i - v (T i)| ≤ M * (τ / (n + 1))) ∧ (∀ i, |Ydd i - a (T i)| ≤ 4 * M) ∧
    ∀ i : Fin (n + 2), 2 ≤ i.val → ∀ ω,
      (∀ x ∈ Icc 0 τ, ∀ x' ∈ Icc 0 τ, |x - x'| ≤ τ / (n + 1) → |a x - a x'| ≤ ω) → |Ydd i - a (T i)| ≤ 3 * ω := by
  set h := τ / ((n : ℝ) + 1) with hh
  have hpos : 0 < h := by positivity
  have hend : ((n : ℝ) + 1) * h = τ := by rw [hh]; field_simp
  have hmem : ∀ i, T i ∈ Icc 0 τ := by
    intro i
    rw [hT]
    refine ⟨by positivity, ?_⟩
    rw [← hend]
    have : ((i : ℕ) : ℝ) ≤ n + 1 := by exact_mod_cast Nat.lt_succ_iff.1 i.isLt
    exact mul_le_mul_of_nonneg_right this hpos.le
  have hM0 : 0 ≤ M := (abs_nonneg _).trans (hM 0 ⟨le_rfl, hτ.le⟩)
  have hlip : ∀ p ∈ Icc 0 τ, ∀ q ∈ Icc 0 τ, |v q - v p| ≤ M * |q - p| := fun p hp q hq =>
    mean_value_le hv hp hq fun x hx _ => hM x hx
  have hprev : ∀ i : Fin (n + 2), i.val ≠ 0 → T ⟨i.val - 1, by omega⟩ = T i - h := by
    intro i hi
    rw [hT, hT]
    simp only
    rw [Nat.cast_sub (by omega)]
    push_cast
    ring
  have hξ : ∀ i, ∃ ξ ∈ Icc 0 τ, |ξ - T i| ≤ h ∧ Yd i = v ξ := by
    intro i
    rw [hYd]
    unfold backwardDifference
    split_ifs with hi
    · refine ⟨0, ⟨le_rfl, hτ.le⟩, ?_, h0.symm⟩
      rw [hT, hi]
      simpa using hpos.le
    · have e := hprev i hi
      obtain ⟨ξ, hξ, e'⟩ := mean_value hy (hmem ⟨i.val - 1, by omega⟩).1 (show T ⟨i.val - 1, by omega⟩ < T i by
        rw [e]; linarith) (hmem i).2
      refine ⟨ξ, ⟨(hmem ⟨i.val - 1, by omega⟩).1.trans hξ.1.le, hξ.2.le.trans (hmem i).2⟩, ?_, ?_⟩
      · rw [e] at hξ
        rw [abs_le]
        constructor <;> linarith [hξ.1, hξ.2]
      · rw [e', mul_div_cancel_right₀]
        rw [e]
        linarith
  refine ⟨?_, ?_, ?_⟩
  · intro i
    obtain ⟨ξ, h1, h2, e⟩ := hξ i
    rw [e]
    exact (hlip _ (hmem i) _ h1).trans (mul_le_mul_of_nonneg_left h2 hM0)
  · intro i
    have h1 : |Ydd i| ≤ 3 * M := by
      rw [hYdd]
      unfold backwardDifference
      split_ifs with hi
      · rw [abs_zero]; positivity
      · have e := hprev i hi
        obtain ⟨ξ1, hm1, hd1, e1⟩ := hξ ⟨i.val - 1, by omega⟩
        obtain ⟨ξ2, hm2, hd2, e2⟩ := hξ i
        rw [e1, e2, e, sub_sub_cancel, abs_div, abs_of_pos hpos, div_le_iff₀ hpos]
        refine (hlip _ hm1 _ hm2).trans ?_
        rw [e] at hd1
        have : |ξ2 - ξ1| ≤ 3 * h := by
          rw [abs_le] at hd1 hd2 ⊢
          constructor <;> linarith
        calc M * |ξ2 - ξ1| ≤ M * (3 * h) := mul_le_mul_of_nonneg_left this hM0
          _ = _ := by ring
    have := abs_sub (Ydd i) (a (T i))
    linarith [hM _ (hmem i)]
  · intro i hi ω hω
    have e1 := hprev i (by omega)
    have e2 := hprev ⟨i.val - 1, by omega⟩ (by simp only; omega)
    simp only at e2
    rw [e1] at e2
    have hd : Ydd i = (y (T i) - 2 * y (T i - h) + y (T i - h - h)) / h ^ 2 := by
      rw [hYdd]
      unfold backwardDifference
      rw [if_neg (by omega), hYd, hYd]
      unfold backwardDifference
      rw [if_neg (by omega), if_neg (by simp only; omega)]
      simp only
      rw [e2, e1, sub_sub_cancel, sub_sub_cancel]
      generalize y (T i) = p
      generalize y (T i - h) = q
      generalize y (T i - h - h) = r
      field_simp
      ring
    have hT2 : T i - h - h ∈ Icc 0 τ := by rw [← e2]; exact hmem _
    have hT1 : T i - h ∈ Icc 0 τ := by rw [← e1]; exact hmem _
    have key := second_difference hy hv (t := T i - h) (s := h) (ω := ω) hpos hT2.1 (by
      rw [sub_add_cancel]; exact (hmem i).2) (fun x hx hx' => hω x hx _ hT1 hx')
    rw [sub_add_cancel] at key
    have e3 : Ydd i - a (T i - h) =
        (y (T i) - 2 * y (T i - h) + y (T i - h - h) - h ^ 2 * a (T i - h)) / h ^ 2 := by
      rw [hd]; field_simp
    have h4 : |Ydd i - a (T i - h)| ≤ 2 * ω := by
      rw [e3, abs_div, abs_of_pos (show 0 < h ^ 2 by positivity), div_le_iff₀ (by positivity)]
      linarith
    have h5 : |a (T i - h) - a (T i)| ≤ ω := hω _ hT1 _ (hmem i) (by
      rw [sub_sub_cancel_left, abs_neg, abs_of_pos hpos])
    calc |Ydd i - a (T i)| = |(Ydd i - a (T i - h)) + (a (T i - h) - a (T i))| := by ring_nf
      _ ≤ _ := abs_add_le _ _
      _ ≤ 3 * ω := by linarith

/-- Contribution of the polynomial to the forces. -/
noncomputable def fvGoalForce (α β τ : ℝ) (c : Fin 6 → ℝ) (t : ℝ) : ℝ :=
  τ ^ 2 * quinticDD c t + α * (β * quintic c t + τ * quinticD c t)

theorem fvGoalForce_continuous (α β τ : ℝ) (c : Fin 6 → ℝ) : Continuous (fvGoalForce α β τ c) := by
  unfold fvGoalForce quintic quinticD quinticDD
  fun_prop

theorem unit_polynomial {τ : ℝ} (hτ : 0 < τ) (v1 a1 : ℝ) : ∃ c, QuinticBoundary c 0 τ 0 0 0 0 v1 a1 := by
  obtain ⟨c, -, h, -⟩ := C29_solve_constraints (d := 1) hτ.ne 0 0 0 0 (fun _ => v1) (fun _ => a1)
  exact ⟨_, h 0⟩

/-- The forces depend continuously on final velocity and acceleration. -/
theorem fvGoalForce_close {τ : ℝ} (hτ : 0 < τ) (α β : Vec d) :
    ∃ P, 0 ≤ P ∧ ∀ (k : Fin d) (c c' : Fin 6 → ℝ) (y0 v0 a0 y1 v1 a1 v1' a1' : ℝ), QuinticBoundary c 0 τ y0 v0 a0 y1 v1 a1 →
      QuinticBoundary c' 0 τ y0 v0 a0 y1 v1' a1' → ∀ t ∈ Icc 0 τ,
        |fvGoalForce (α k) (β k) τ c' t - fvGoalForce (α k) (β k) τ c t| ≤ P * (|v1' - v1| + |a1' - a1|) := by
  classical
  obtain ⟨B, hB⟩ := unit_polynomial hτ 1 0
  obtain ⟨C, hC⟩ := unit_polynomial hτ 0 1
  have hbd : ∀ (D : Fin 6 → ℝ) (k : Fin d), ∃ P, ∀ t ∈ Icc 0 τ, |fvGoalForce (α k) (β k) τ D t| ≤ P := by
    intro D k
    obtain ⟨P, hP⟩ := isCompact_Icc.exists_bound_of_continuousOn
      ((fvGoalForce_continuous (α k) (β k) τ D).continuousOn (s := Icc 0 τ))
    exact ⟨P, hP⟩
  choose PB hPB using hbd B
  choose PC hPC using hbd C
  have hτm : (0 : ℝ) ∈ Icc 0 τ := ⟨le_rfl, hτ.le⟩
  have hPB0 : ∀ k, 0 ≤ PB k := fun k => (abs_nonneg _).trans (hPB k 0 hτm)
  have hPC0 : ∀ k, 0 ≤ PC k := fun k => (abs_nonneg _).trans (hPC k 0 hτm)
  refine ⟨∑ k, (PB k + PC k), Finset.sum_nonneg fun k _ => add_nonneg (hPB0 k) (hPC0 k), ?_⟩
  intro k c c' y0 v0 a0 y1 v1 a1 v1' a1' hc hc' t ht
  have hk : PB k + PC k ≤ ∑ k, (PB k + PC k) :=
    Finset.single_le_sum (f := fun k => PB k + PC k) (fun k _ => add_nonneg (hPB0 k) (hPC0 k)) (Finset.mem_univ k)
  have e : c' = fun i => c i + (v1' - v1) * B i + (a1' - a1) * C i := by
    obtain ⟨c0, -, -, hu⟩ := C29_solve_constraints (d := 1) hτ.ne (fun _ => y0) (fun _ => v0) (fun _ => a0) (fun _ => y1)
      (fun _ => v1') (fun _ => a1')
    have h1 := hu (fun i _ => c' i) fun _ => hc'
    have h2 := hu (fun i _ => c i + (v1' - v1) * B i + (a1' - a1) * C i) fun _ => by
      obtain ⟨b1, b2, b3, b4, b5, b6⟩ := hB
      obtain ⟨d1, d2, d3, d4, d5, d6⟩ := hC
      obtain ⟨f1, f2, f3, f4, f5, f6⟩ := hc
      constructor
      · linear_combination f1 + (v1' - v1) * b1 + (a1' - a1) * d1
      · linear_combination f2 + (v1' - v1) * b2 + (a1' - a1) * d2
      · linear_combination f3 + (v1' - v1) * b3 + (a1' - a1) * d3
      · linear_combination f4 + (v1' - v1) * b4 + (a1' - a1) * d4
      · linear_combination f5 + (v1' - v1) * b5 + (a1' - a1) * d5
      · linear_combination f6 + (v1' - v1) * b6 + (a1' - a1) * d6
    funext i
    exact congrFun (congrFun (h1.trans h2.symm) i) 0
  have e2 : fvGoalForce (α k) (β k) τ c' t - fvGoalForce (α k) (β k) τ c t =
      (v1' - v1) * fvGoalForce (α k) (β k) τ B t + (a1' - a1) * fvGoalForce (α k) (β k) τ C t := by
    rw [e]
    unfold fvGoalForce quintic quinticD quinticDD
    ring
  rw [e2]
  refine (abs_add_le _ _).trans ?_
  rw [abs_mul, abs_mul]
  have g1 := mul_le_mul_of_nonneg_left ((hPB k t ht).trans (show PB k ≤ ∑ k, (PB k + PC k) by linarith [hPC0 k]))
    (abs_nonneg (v1' - v1))
  have g2 := mul_le_mul_of_nonneg_left ((hPC k t ht).trans (show PC k ≤ ∑ k, (PB k + PC k) by linarith [hPB0 k]))
    (abs_nonneg (a1' - a1))
  linarith

/-- The forces determined from a demonstration, with the coefficients of any polynomial that connects its ends. -/
theorem fvDetermineForces_eq {τ : ℝ} (hτ : 0 < τ) {T : Fin (n + 2) → ℝ} (hT0 : T 0 = 0) (hTl : T (Fin.last (n + 1)) = τ)
    (hle : ∀ i, T i ≤ τ) (Y : Fin (n + 2) → Vec d) (α β : Vec d) {c : Fin 6 → Vec d}
    (hc : ∀ k, QuinticBoundary (fun i => c i k) 0 τ (Y 0 k) 0 0 (Y (Fin.last _) k) (fvYd T Y (Fin.last _) k)
      (fvYdd T Y (Fin.last _) k)) :
    fvDetermineForces T Y α β = .ok fun i k => τ ^ 2 * fvYdd T Y i k + α k * (β k * Y i k + τ * fvYd T Y i k) -
      fvGoalForce (α k) (β k) τ (fun i => c i k) (T i) := by
  obtain ⟨c', hc', -, hu⟩ := C29_solve_constraints (hT0.symm ▸ hTl.symm ▸ hτ.ne : T 0 ≠ T (Fin.last (n + 1))) (Y 0)
    (fvYd T Y 0) (fvYdd T Y 0) (Y (Fin.last _)) (fvYd T Y (Fin.last _)) (fvYdd T Y (Fin.last _))
  have e : c = c' := hu c (by rw [hT0, hTl]; exact hc)
  subst e
  unfold fvDetermineForces
  simp only
  rw [hc', hT0, hTl]
  show Except.ok _ = Except.ok _
  congr 1
  funext i k
  have heps : (0 : ℝ) < 1 / 2 ^ 52 := by positivity
  rw [applyConstraints_before (show T i ≤ τ + 1 / 2 ^ 52 by linarith [hle i])]
  simp only [fvGoalForce, quintic, quinticD, quinticDD, sub_zero]
  ring

/-- Backward differences of samples of a movement: their mean squared error vanishes with the distance of the samples, and those
at the end approach final velocity and acceleration. -/
theorem fv_differences_consistent {τ : ℝ} (hτ : 0 < τ) {y v a : ℝ → Vec d} (h : TwiceDifferentiable τ y v a) (h0 : v 0 = 0)
    (α : Vec d) {η : ℝ} (hη : 0 < η) :
    ∃ n0 : ℕ, ∀ n, n0 ≤ n → ∀ k,
      τ / (n + 1) * ∑ i, (τ ^ 2 * (fvYdd (linspaceTimes τ n) (fun i => y (linspaceTimes τ n i)) i k - a (linspaceTimes τ n i) k) +
        α k * τ * (fvYd (linspaceTimes τ n) (fun i => y (linspaceTimes τ n i)) i k - v (linspaceTimes τ n i) k)) ^ 2 ≤ η ∧
      |fvYd (linspaceTimes τ n) (fun i => y (linspaceTimes τ n i)) (Fin.last _) k - v τ k| ≤ η ∧
      |fvYdd (linspaceTimes τ n) (fun i => y (linspaceTimes τ n i)) (Fin.last _) k - a τ k| ≤ η := by
  classical
  have hM : ∀ k, ∃ M, ∀ t ∈ Icc 0 τ, |a t k| ≤ M := by
    intro k
    obtain ⟨M, hM⟩ := isCompact_Icc.exists_bound_of_continuousOn (h.continuous k)
    exact ⟨M, fun t ht => hM t ht⟩
  choose M hM using hM
  suffices hone : ∀ k, ∃ n0 : ℕ, ∀ n, n0 ≤ n →
      τ / (n + 1) * ∑ i, (τ ^ 2 * (fvYdd (linspaceTimes τ n) (fun i => y (linspaceTimes τ n i)) i k - a (linspaceTimes τ n i) k) +
        α k * τ * (fvYd (linspaceTimes τ n) (fun i => y (linspaceTimes τ n i)) i k - v (linspaceTimes τ n i) k)) ^ 2 ≤ η ∧
      |fvYd (linspaceTimes τ n) (fun i => y (linspaceTimes τ n i)) (Fin.last _) k - v τ k| ≤ η ∧
      |fvYdd (linspaceTimes τ n) (fun i => y (linspaceTimes τ n i)) (Fin.last _) k - a τ k| ≤ η by
    choose n0 hn0 using hone
    refine ⟨∑ k, n0 k, fun n hn k => hn0 k n ?_⟩
    exact (Finset.single_le_sum (f := n0) (fun _ _ => Nat.zero_le _) (Finset.mem_univ k)).trans hn
  intro k
  have hM0 : 0 ≤ M k := (abs_nonneg _).trans (hM k 0 ⟨le_rfl, hτ.le⟩)
  obtain ⟨ω, hω, hωη, hωη'⟩ : ∃ ω > 0, 36 * τ ^ 5 * ω ^ 2 ≤ η / 2 ∧ 3 * ω ≤ η := by
    refine ⟨min (min 1 (η / 3)) (η / (72 * τ ^ 5)), by positivity, ?_, ?_⟩
    · set z := min (min 1 (η / 3)) (η / (72 * τ ^ 5)) with hz
      have hz0 : 0 < z := by positivity
      have h1 : z ≤ 1 := (min_le_left _ _).trans (min_le_left _ _)
      have h2 : z ≤ η / (72 * τ ^ 5) := min_le_right _ _
      calc 36 * τ ^ 5 * z ^ 2 = 36 * τ ^ 5 * (z * z) := by ring
        _ ≤ 36 * τ ^ 5 * (1 * (η / (72 * τ ^ 5))) :=
            mul_le_mul_of_nonneg_left (mul_le_mul h1 h2 hz0.le zero_le_one) (by positivity)
        _ = η / 2 := by field_simp; ring
    · have : min (min 1 (η / 3)) (η / (72 * τ ^ 5)) ≤ η / 3 := (min_le_left _ _).trans (min_le_right _ _)
      linarith
  have huc := (isCompact_Icc.uniformContinuousOn_of_continuous (h.continuous k))
  rw [Metric.uniformContinuousOn_iff] at huc
  obtain ⟨δ, hδ, huc⟩ := huc ω hω
  set D := 64 * τ ^ 5 * M k ^ 2 + 4 * α k ^ 2 * τ ^ 5 * M k ^ 2 + τ * M k with hD
  have hD0 : 0 ≤ D := by positivity
  refine ⟨max (max ⌈τ / δ⌉₊ ⌈2 * D / η⌉₊) 1, fun n hn => ?_⟩
  have hn1 : (0 : ℝ) < n + 1 := by positivity
  have hn2 : 1 ≤ n := (le_max_right _ _).trans hn
  set s := τ / ((n : ℝ) + 1) with hs
  have hs0 : 0 < s := by positivity
  have hsδ : s < δ := by
    have h1 : τ / δ ≤ n := (Nat.le_ceil _).trans (by exact_mod_cast ((le_max_left _ _).trans (le_max_left _ _)).trans hn)
    rw [div_le_iff₀ hδ] at h1
    rw [hs, div_lt_iff₀ hn1]
    nlinarith
  have hDn : D / (n + 1) ≤ η / 2 := by
    have h1 : 2 * D / η ≤ n := (Nat.le_ceil _).trans (by exact_mod_cast ((le_max_right _ _).trans (le_max_left _ _)).trans hn)
    rw [div_le_iff₀ hη] at h1
    rw [div_le_iff₀ hn1]
    nlinarith
  set T := linspaceTimes τ n with hT
  set Y : Fin (n + 2) → Vec d := fun i => y (T i) with hY
  have hTlast : T (Fin.last (n + 1)) = τ := by
    simp only [hT, linspaceTimes, Fin.val_last]; push_cast; field_simp
  obtain ⟨f1, f2, f3⟩ := backward_differences hτ (fun t ht => h.velocity t ht k) (fun t ht => h.acceleration t ht k)
    (by rw [h0]; rfl) (hM k) (T := T) (Yd := fun i => fvYd T Y i k) (Ydd := fun i => fvYdd T Y i k) (fun i => rfl)
    (fun i => rfl) (fun i => rfl)
  have hω' : ∀ x ∈ Icc 0 τ, ∀ x' ∈ Icc 0 τ, |x - x'| ≤ s → |a x k - a x' k| ≤ ω := fun x hx x' hx' hxx => by
    have := huc x hx x' hx' (by rw [Real.dist_eq]; linarith)
    rw [Real.dist_eq] at this
    exact this.le
  have hMs : M k * s ≤ D / (n + 1) := by
    rw [hs, mul_div_assoc', mul_comm (M k) τ]
    refine div_le_div_of_nonneg_right ?_ hn1.le
    have : 0 ≤ 64 * τ ^ 5 * M k ^ 2 + 4 * α k ^ 2 * τ ^ 5 * M k ^ 2 := by positivity
    linarith
  refine ⟨?_, ?_, ?_⟩
  · have hterm : ∀ i : Fin (n + 2), (τ ^ 2 * (fvYdd T Y i k - a (T i) k) + α k * τ * (fvYd T Y i k - v (T i) k)) ^ 2 ≤
        (18 * τ ^ 4 * ω ^ 2 + 2 * α k ^ 2 * τ ^ 2 * (M k * s) ^ 2) + (if i.val < 2 then 32 * τ ^ 4 * M k ^ 2 else 0) := by
      intro i
      have g1 : (fvYd T Y i k - v (T i) k) ^ 2 ≤ (M k * s) ^ 2 := by
        rw [← sq_abs]; exact pow_le_pow_left₀ (abs_nonneg _) (f1 i) 2
      have g2 : (fvYdd T Y i k - a (T i) k) ^ 2 ≤ 9 * ω ^ 2 + (if i.val < 2 then 16 * M k ^ 2 else 0) := by
        rw [← sq_abs]
        split_ifs with hc
        · have := pow_le_pow_left₀ (abs_nonneg _) (f2 i) 2
          nlinarith [sq_nonneg ω]
        · have := pow_le_pow_left₀ (abs_nonneg _) (f3 i (not_lt.1 hc) ω hω') 2
          linarith
      have g3 : ∀ p q : ℝ, (p + q) ^ 2 ≤ 2 * p ^ 2 + 2 * q ^ 2 := fun p q => by nlinarith [sq_nonneg (p - q)]
      refine (g3 _ _).trans ?_
      have g4 : (τ ^ 2 * (fvYdd T Y i k - a (T i) k)) ^ 2 ≤
          τ ^ 4 * (9 * ω ^ 2 + (if i.val < 2 then 16 * M k ^ 2 else 0)) := by
        rw [mul_pow, ← pow_mul]
        exact mul_le_mul_of_nonneg_left g2 (by positivity)
      have g5 : (α k * τ * (fvYd T Y i k - v (T i) k)) ^ 2 ≤ α k ^ 2 * τ ^ 2 * (M k * s) ^ 2 := by
        rw [mul_pow, mul_pow]
        exact mul_le_mul_of_nonneg_left g1 (by positivity)
      split_ifs at g4 ⊢ with hc <;> nlinarith
    have hsum := Finset.sum_le_sum fun i (_ : i ∈ Finset.univ) => hterm i
    rw [Finset.sum_add_distrib, Finset.sum_const, Finset.card_univ, Fintype.card_fin, nsmul_eq_mul,
      ← Finset.sum_filter, Finset.sum_const, nsmul_eq_mul] at hsum
    have hc2 : ((Finset.univ.filter fun i : Fin (n + 2) => i.val < 2).card : ℝ) ≤ 2 := by
      have h1 : (Finset.univ.filter fun i : Fin (n + 2) => i.val < 2).image Fin.val ⊆ {0, 1} := by
        intro x hx
        simp only [Finset.mem_image, Finset.mem_filter, Finset.mem_univ, true_and] at hx
        obtain ⟨i, hi, rfl⟩ := hx
        simp only [Finset.mem_insert, Finset.mem_singleton]
        omega
      have h2 := Finset.card_le_card h1
      rw [Finset.card_image_of_injective _ Fin.val_injective] at h2
      exact_mod_cast h2.trans Finset.card_le_two
    have hsn : s * ((n + 2 : ℕ) : ℝ) ≤ 2 * τ := by
      rw [hs]; push_cast
      rw [div_mul_eq_mul_div, div_le_iff₀ hn1]
      have : (0 : ℝ) ≤ n := Nat.cast_nonneg n
      nlinarith
    have hs1 : s ^ 2 ≤ τ ^ 2 / (n + 1) := by
      rw [hs, div_pow, sq ((n : ℝ) + 1), ← div_div]
      exact div_le_self (by positivity) (by linarith [Nat.cast_nonneg (α := ℝ) n])
    calc _ ≤ s * (((n + 2 : ℕ) : ℝ) * (18 * τ ^ 4 * ω ^ 2 + 2 * α k ^ 2 * τ ^ 2 * (M k * s) ^ 2) +
          2 * (32 * τ ^ 4 * M k ^ 2)) := by
            refine mul_le_mul_of_nonneg_left (hsum.trans ?_) hs0.le
            have := mul_le_mul_of_nonneg_right hc2 (show 0 ≤ 32 * τ ^ 4 * M k ^ 2 by positivity)
            linarith
      _ = (s * ((n + 2 : ℕ) : ℝ)) * (18 * τ ^ 4 * ω ^ 2 + 2 * α k ^ 2 * τ ^ 2 * M k ^ 2 * s ^ 2) +
          s * (64 * τ ^ 4 * M k ^ 2) := by ring
      _ ≤ (2 * τ) * (18 * τ ^ 4 * ω ^ 2 + 2 * α k ^ 2 * τ ^ 2 * M k ^ 2 * (τ ^ 2 / (n + 1))) + s * (64 * τ ^ 4 * M k ^ 2) := by
            refine add_le_add_left ?_ _
            refine mul_le_mul hsn ?_ (by positivity) (by positivity)
            have := mul_le_mul_of_nonneg_left hs1 (show 0 ≤ 2 * α k ^ 2 * τ ^ 2 * M k ^ 2 by positivity)
            linarith
      _ = 36 * τ ^ 5 * ω ^ 2 + (64 * τ ^ 5 * M k ^ 2 + 4 * α k ^ 2 * τ ^ 5 * M k ^ 2) / (n + 1) := by rw [hs]; field_simp; ring
      _ ≤ 36 * τ ^ 5 * ω ^ 2 + D / (n + 1) := by
            refine add_le_add_right (div_le_div_of_nonneg_right ?_ hn1.le) _
            have : 0 ≤ τ * M k := by positivity
            linarith
      _ ≤ η := by linarith
  · have h1 := f1 (Fin.last _)
    rw [hTlast] at h1
    linarith
  · have h1 := f3 (Fin.last _) (by simp only [Fin.val_last]; omega) ω hω'
    rw [hTlast] at h1
    linarith

theorem linspaceTimes_last (τ : ℝ) (n : ℕ) : linspaceTimes τ n (Fin.last (n + 1)) = τ := by
  simp only [linspaceTimes, Fin.val_last]; push_cast; field_simp

theorem linspaceTimes_zero (τ : ℝ) (n : ℕ) : linspaceTimes τ n 0 = 0 := by simp [linspaceTimes]

theorem linspaceTimes_mem {τ : ℝ} (hτ : 0 ≤ τ) (n : ℕ) (i : Fin (n + 2)) : linspaceTimes τ n i ∈ Icc 0 τ := by
  simp only [linspaceTimes]
  refine ⟨by positivity, ?_⟩
  have h1 : ((i : ℕ) : ℝ) ≤ n + 1 := by exact_mod_cast Nat.lt_succ_iff.1 i.isLt
  calc ((i : ℕ) : ℝ) * (τ / (n + 1)) ≤ (n + 1) * (τ / (n + 1)) := mul_le_mul_of_nonneg_right h1 (by positivity)
    _ = τ := by field_simp

/-- Time stamps of an open loop. -/
theorem openLoopWith_times {p v : ℕ} {goalT startT dt : ℝ} {start : Vec p × Vec v} {runT : Option ℝ}
    {step : ℝ → ℝ → Vec p × Vec v → Except PyErr (Vec p × Vec v)} {T : List ℝ} {Y : List (Vec p)}
    (h : openLoopWith goalT startT dt start runT step = .ok (T, Y)) (i : ℕ) (hi : i < T.length) :
    T[i] = startT + i * dt := by
  unfold openLoopWith at h
  simp only [bind, Except.bind] at h
  by_cases h1 : dt = 0
  · rw [if_pos h1] at h; cases h
  rw [if_neg h1] at h
  simp only [Pure.pure, Except.pure] at h
  by_cases h2 : arangeLen startT (runT.getD goalT + dt) dt = 0
  · rw [if_pos h2] at h; cases h
  rw [if_neg h2] at h
  cases hl : loopRows (fun i s => step (arangeAt startT dt i) (arangeAt startT dt (i + 1)) s) Prod.fst
    (arangeLen startT (runT.getD goalT + dt) dt - 1) start 0 with
  | error e => simp [hl] at h
  | ok rows =>
    simp only [hl, Except.ok.injEq, Prod.mk.injEq] at h
    obtain ⟨rfl, -⟩ := h
    simp only [List.getElem_map, List.getElem_range, arangeAt]

/-! ## C26 -/

/-- **C26 (DMP with final velocity).** For a demonstration over the execution time: `imitate` returns, and among all weights that
`set_weights` could set, the learned ones minimise the regularised squared error between the demonstrated forces `F` and the
forces of the object's own forcing term. -/
theorem C26_fv_imitate {s : FvDMP d m} (hs : FvDMP.Reachable s) (T : Fin (n + 2) → ℝ) (Y : Fin (n + 2) → Vec d)
    {reg : ℝ} (hreg : 0 ≤ reg) (h0 : T 0 = 0) (hT : T (Fin.last _) = s.executionTime) :
    ∃ F s', fvDetermineForces T Y s.alphaY s.betaY = .ok F ∧ (FvDMP.imitate T Y reg).exec s = (.ok (), s') ∧
      let error := regularizedError F (fun W t => ({ s'.ft with weights := W } : ForcingTerm d m).call (T t)) reg
      ∀ V, error s'.ft.weights ≤ error V ∧ (0 < reg → error V ≤ error s'.ft.weights → V = s'.ft.weights) := by
  obtain ⟨ft, h1, h2⟩ := hs.valid
  rw [DMP.initForcingTerm_ok_iff] at h1
  obtain ⟨e1, e2, e3, e4, hm, hpos, hov, _⟩ := create_eq h1
  have hc : ForcingTerm.create d m (T (Fin.last (n + 1))) (T 0) s.ft.overlap s.ft.alphaZ = .ok ft := by
    rw [h2, h0, hT, e3, e4]; exact h1
  obtain ⟨c, F, -, hF, -⟩ := C30_forces_invert_acceleration T Y s.alphaY s.betaY (by rw [h0, hT]; exact hpos)
  set w := ridgeRegression (Matrix.of (ft.designMatrix T)) (Matrix.of F) reg with hw
  have hex : (FvDMP.imitate T Y reg).exec s = _ := FvDMP.exec_imitate T Y reg s
  rw [hF, dmpImitateWith_eq hc hreg] at hex
  simp only at hex
  rw [DMP.exec_configure, C25_configure_sets _ _ (by simp [AllOk, FieldOk])] at hex
  refine ⟨F, _, hF, hex, ?_⟩
  intro error V
  have hft : ∀ W : Fin d → Fin m → ℝ, ({ s.ft with weights := W } : ForcingTerm d m) = { ft with weights := W } := by
    intro W; rw [h2]
  have he : error = regularizedError F (fun W t k => ∑ i, W k i * ft.designMatrix T i t) reg := by
    show regularizedError F (fun W t => ({ s.ft with weights := W } : ForcingTerm d m).call (T t)) reg = _
    congr 1
    funext W t k
    rw [hft]
    exact (designMatrix_force ft T (by rw [e2, h0]) (by rw [e1, hT]) W t k).symm
  rw [he]
  exact ⟨C26_ridge_optimal _ _ hreg hw V, fun hpos hV => C26_ridge_unique _ _ hpos hw V hV⟩

/-- The hypotheses are met by a newly constructed object and a demonstration with four samples. -/
example : ∃ s : FvDMP 1 2, FvDMP.Reachable s ∧ ∃ T : Fin 4 → ℝ, T 0 = 0 ∧ T (Fin.last _) = s.executionTime := by
  obtain ⟨s, hs, h1, _⟩ := DMP.create_ok 1 2 le_rfl one_pos (1 / 100) (1 / 1000) 0 false 25 (25 / 4)
  exact ⟨s, .create hs, fun i => i.val / 3, by norm_num, by rw [h1]; norm_num⟩

/-! ## C111 -/

/-- Forces that a DMP with final velocity needs for a movement, if `c` are the coefficients of its polynomial. -/
noncomputable def fvDemandedForce (α β : Vec d) (τ : ℝ) (c : Fin 6 → Vec d) (y v a : ℝ → Vec d) (t : ℝ) (k : Fin d) : ℝ :=
  τ ^ 2 * a t k + α k * (β k * y t k + τ * v t k) - fvGoalForce (α k) (β k) τ (fun i => c i k) t

theorem fvDemandedForce_continuous {τ : ℝ} {y v a : ℝ → Vec d} (h : TwiceDifferentiable τ y v a) (α β : Vec d)
    (c : Fin 6 → Vec d) (k : Fin d) : ContinuousOn (fun t => fvDemandedForce α β τ c y v a t k) (Icc 0 τ) := by
  have hy : ContinuousOn (fun t => y t k) (Icc 0 τ) := fun t ht => (h.velocity t ht k).continuousWithinAt
  have hv : ContinuousOn (fun t => v t k) (Icc 0 τ) := fun t ht => (h.acceleration t ht k).continuousWithinAt
  have ha := h.continuous k
  have hg := (fvGoalForce_continuous (α k) (β k) τ (fun i => c i k)).continuousOn (s := Icc 0 τ)
  unfold fvDemandedForce
  fun_prop

/-- The learned forces: the integral of their difference to the forces that the movement demands is at most `η` if there are
enough weights and samples. -/
theorem fv_learned_forces {τ : ℝ} (hτ : 0 < τ) {y v a : ℝ → Vec d} (h : TwiceDifferentiable τ y v a) (h0 : v 0 = 0)
    (α β : Vec d) {reg : ℝ} (hreg : 0 ≤ reg) {η : ℝ} (hη : 0 < η) :
    ∃ N, ∀ m : ℕ, N ≤ m → ∃ n0, ∀ n : ℕ, n0 ≤ n → ∀ s : FvDMP d m, FvDMP.Reachable s → s.executionTime = τ → s.alphaY = α →
      s.betaY = β → ∃ s' c,
      (FvDMP.imitate (linspaceTimes τ n) (fun i => y (linspaceTimes τ n i)) reg).exec s = (.ok (), s') ∧
      s'.startY = y 0 ∧ s'.startYd = 0 ∧ s'.executionTime = τ ∧ s'.alphaY = α ∧ s'.betaY = β ∧ s'.t = s.t ∧
      s'.initialized = s.initialized ∧ s'.pGain = s.pGain ∧ (∀ k, |s'.goalYd k - v τ k| ≤ η) ∧
      ConnectsStartAndGoal s' c ∧
      ∀ k, ∃ b : ℝ → ℝ, b 0 = 0 ∧ (∀ t ∈ Icc 0 τ, |b t| ≤ η) ∧ ∀ t ∈ Icc 0 τ,
        HasDerivWithinAt b (s'.ft.call t k - fvDemandedForce α β τ c y v a t k) (Icc 0 τ) t := by
  classical
  obtain ⟨c, -, hc, -⟩ := C29_solve_constraints hτ.ne (y 0) 0 0 (y τ) (v τ) (a τ)
  obtain ⟨ζ, hζ, N, hN⟩ := least_squares_integral hτ (f := fun t k => fvDemandedForce α β τ c y v a t k)
    (fun k => fvDemandedForce_continuous h α β c k) hreg (half_pos hη)
  obtain ⟨P, hP0, hP⟩ := fvGoalForce_close hτ α β
  -- accuracy of the differences
  obtain ⟨θ, hθ, hθ1, hθ2, hθ3⟩ : ∃ θ > 0, 2 * θ + 4 * τ * (2 * P * θ) ^ 2 ≤ ζ ^ 2 ∧ 2 * P * θ * τ ≤ η / 2 ∧ θ ≤ η := by
    set K := 2 + 16 * τ * P ^ 2 with hK
    have hK0 : 0 < K := by positivity
    refine ⟨min (min 1 (ζ ^ 2 / K)) (min η (η / (4 * P * τ + 1))), by positivity, ?_, ?_, ?_⟩
    · set z := min (min 1 (ζ ^ 2 / K)) (min η (η / (4 * P * τ + 1)))
      have hz0 : 0 < z := by positivity
      have h1 : z ≤ 1 := (min_le_left _ _).trans (min_le_left _ _)
      have h2 : z ≤ ζ ^ 2 / K := (min_le_left _ _).trans (min_le_right _ _)
      rw [le_div_iff₀ hK0] at h2
      have h3 : z ^ 2 ≤ z := by nlinarith
      have h4 := mul_le_mul_of_nonneg_left h3 (show 0 ≤ 16 * τ * P ^ 2 by positivity)
      calc 2 * z + 4 * τ * (2 * P * z) ^ 2 = 2 * z + 16 * τ * P ^ 2 * z ^ 2 := by ring
        _ ≤ z * K := by rw [hK]; linarith
        _ ≤ _ := h2
    · set z := min (min 1 (ζ ^ 2 / K)) (min η (η / (4 * P * τ + 1)))
      have hz0 : 0 < z := by positivity
      have h2 : z ≤ η / (4 * P * τ + 1) := (min_le_right _ _).trans (min_le_right _ _)
      rw [le_div_iff₀ (by positivity)] at h2
      nlinarith
    · exact (min_le_right _ _).trans (min_le_left _ _)
  obtain ⟨n2, hn2⟩ := fv_differences_consistent hτ h h0 α hθ
  refine ⟨max N 2, fun m hm => ?_⟩
  have hm2 : 2 ≤ m := (le_max_right _ _).trans hm
  obtain ⟨ft, hft⟩ := (DMP.initForcingTerm_isOk_iff (d := d) (m := m) τ).2 ⟨hm2, hτ⟩
  obtain ⟨n1, hn1⟩ := hN m ((le_max_left _ _).trans hm) ft hft
  refine ⟨max (max n1 n2) 1, ?_⟩
  intro n hn s hs hsτ hsα hsβ
  obtain ⟨n, rfl⟩ : ∃ n', n = n' + 1 := ⟨n - 1, by have := (le_max_right _ _).trans hn; omega⟩
  have hna : n1 ≤ n + 1 := (le_max_left _ _).trans ((le_max_left _ _).trans hn)
  have hnb : n2 ≤ n + 1 := (le_max_right _ _).trans ((le_max_left _ _).trans hn)
  have hTlast := linspaceTimes_last τ (n + 1)
  have hT0 := linspaceTimes_zero τ (n + 1)
  have hmem := linspaceTimes_mem hτ.le (n + 1)
  have hd := hn2 (n + 1) hnb
  have hls := hn1 (n + 1) hna
  set T := linspaceTimes τ (n + 1) with hT
  set Y : Fin (n + 1 + 2) → Vec d := fun i => y (T i) with hY
  obtain ⟨F, s', hF, hw, hopt⟩ := C26_fv_imitate hs T Y hreg hT0 (by rw [hTlast, hsτ])
  obtain ⟨w, hw'⟩ := C29_imitate_boundary hs T Y hreg (by rw [hT0, hTlast]; exact hτ)
  have hs' := (Prod.mk.inj (hw.symm.trans hw')).2
  have g1 : s'.startY = y 0 := by rw [hs']; show y (T 0) = _; rw [hT0]
  have g2 : s'.startYd = 0 := by rw [hs']
  have g3 : s'.startYdd = 0 := by rw [hs']
  have g4 : s'.goalY = y τ := by rw [hs']; show y (T (Fin.last _)) = _; rw [hTlast]
  have g5 : s'.goalYd = fvYd T Y (Fin.last _) := by rw [hs']; rfl
  have g6 : s'.goalYdd = fvYdd T Y (Fin.last _) := by rw [hs']; rfl
  have g7 : s'.executionTime = τ := by rw [hs']; exact hsτ
  have g8 : s'.ft = { s.ft with weights := w } := by rw [hs']
  have g9 : s'.alphaY = α ∧ s'.betaY = β ∧ s'.t = s.t ∧ s'.initialized = s.initialized ∧ s'.pGain = s.pGain := by
    rw [hs']; exact ⟨hsα, hsβ, rfl, rfl, rfl⟩
  clear hs' hw'
  obtain ⟨c', -, hc', -⟩ := C29_solve_constraints hτ.ne (y 0) 0 0 (y τ) (fvYd T Y (Fin.last _)) (fvYdd T Y (Fin.last _))
  have hcon : ConnectsStartAndGoal s' c' := by
    refine QuinticBoundary.connects fun k => ?_
    rw [g1, g2, g3, g4, g5, g6, g7]
    exact hc' k
  refine ⟨s', c', hw, g1, g2, g7, g9.1, g9.2.1, g9.2.2.1, g9.2.2.2.1, g9.2.2.2.2, ?_, hcon, ?_⟩
  · intro k
    rw [g5]
    exact (hd k).2.1.trans hθ3
  -- basis functions
  obtain ⟨ft', k1, k2⟩ := hs.valid
  rw [hsτ, hft] at k1
  obtain rfl := Except.ok.inj k1
  have hcall : ∀ (V : Fin d → Fin m → ℝ) t k, ({ s'.ft with weights := V } : ForcingTerm d m).call t k =
      ∑ i, V k i * ft.basis i t := by
    intro V t k
    rw [g8, k2]
    exact ft.call_basis V t k
  have hcall' : ∀ t k, s'.ft.call t k = ∑ i, w k i * ft.basis i t := by
    intro t k
    rw [g8, k2]
    exact ft.call_basis w t k
  -- the demonstrated forces
  have hFe : F = fun i k => τ ^ 2 * fvYdd T Y i k + α k * (β k * Y i k + τ * fvYd T Y i k) -
      fvGoalForce (α k) (β k) τ (fun i => c' i k) (T i) := by
    have := fvDetermineForces_eq hτ hT0 hTlast (fun i => (hmem i).2) Y s.alphaY s.betaY (c := c') (by
      intro k
      have := hc' k
      simp only [hY, hT0, hTlast]
      exact this)
    rw [this, hsα, hsβ] at hF
    exact (Except.ok.inj hF).symm
  have hG : ∀ k, ∀ t ∈ Icc 0 τ, |fvGoalForce (α k) (β k) τ (fun i => c' i k) t -
      fvGoalForce (α k) (β k) τ (fun i => c i k) t| ≤ 2 * P * θ := by
    intro k t ht
    refine (hP k _ _ _ _ _ _ _ _ _ _ (hc k) (hc' k) t ht).trans ?_
    have := mul_le_mul_of_nonneg_left (add_le_add (hd k).2.1 (hd k).2.2) hP0
    linarith
  have hmse : ∀ k, τ / (((n + 1 : ℕ) : ℝ) + 1) * ∑ i, (F i k - fvDemandedForce α β τ c y v a (T i) k) ^ 2 ≤ ζ ^ 2 := by
    intro k
    set s1 := τ / (((n + 1 : ℕ) : ℝ) + 1) with hs1
    have hs0 : 0 < s1 := by positivity
    have hterm : ∀ i ∈ Finset.univ, (F i k - fvDemandedForce α β τ c y v a (T i) k) ^ 2 ≤
        2 * (τ ^ 2 * (fvYdd T Y i k - a (T i) k) + α k * τ * (fvYd T Y i k - v (T i) k)) ^ 2 + 2 * (2 * P * θ) ^ 2 := by
      intro i _
      have e : F i k - fvDemandedForce α β τ c y v a (T i) k =
          (τ ^ 2 * (fvYdd T Y i k - a (T i) k) + α k * τ * (fvYd T Y i k - v (T i) k)) -
            (fvGoalForce (α k) (β k) τ (fun i => c' i k) (T i) - fvGoalForce (α k) (β k) τ (fun i => c i k) (T i)) := by
        rw [hFe]
        simp only [fvDemandedForce, hY]
        ring
      have g : (fvGoalForce (α k) (β k) τ (fun i => c' i k) (T i) - fvGoalForce (α k) (β k) τ (fun i => c i k) (T i)) ^ 2 ≤
          (2 * P * θ) ^ 2 := by
        rw [← sq_abs]
        exact pow_le_pow_left₀ (abs_nonneg _) (hG k _ (hmem i)) 2
      rw [e]
      have g3 : ∀ p q : ℝ, (p - q) ^ 2 ≤ 2 * p ^ 2 + 2 * q ^ 2 := fun p q => by nlinarith [sq_nonneg (p + q)]
      refine (g3 _ _).trans ?_
      linarith
    have hsum := Finset.sum_le_sum hterm
    rw [Finset.sum_add_distrib, ← Finset.mul_sum, Finset.sum_const, Finset.card_univ, Fintype.card_fin, nsmul_eq_mul] at hsum
    have hsn : s1 * ((n + 1 + 2 : ℕ) : ℝ) ≤ 2 * τ := by
      rw [hs1, div_mul_eq_mul_div, div_le_iff₀ (by positivity)]
      push_cast
      have : (0 : ℝ) ≤ n := Nat.cast_nonneg n
      nlinarith
    have h1 := mul_le_mul_of_nonneg_left hsum hs0.le
    have h2 := mul_le_mul_of_nonneg_right hsn (show 0 ≤ 2 * (2 * P * θ) ^ 2 by positivity)
    have h3 := (hd k).1
    calc _ ≤ _ := h1
      _ = 2 * (s1 * ∑ i, (τ ^ 2 * (fvYdd T Y i k - a (T i) k) + α k * τ * (fvYd T Y i k - v (T i) k)) ^ 2) +
          s1 * ((n + 1 + 2 : ℕ) : ℝ) * (2 * (2 * P * θ) ^ 2) := by ring
      _ ≤ 2 * θ + 2 * τ * (2 * (2 * P * θ) ^ 2) := by linarith
      _ ≤ ζ ^ 2 := by linarith
  intro k
  obtain ⟨b, hb0, hb1, hb2⟩ := hls F w hmse (by
    intro V
    have hw8 : s'.ft.weights = w := by rw [g8]
    have h3 : regularizedError F (fun V t => ({ s'.ft with weights := V } : ForcingTerm d m).call (T t)) reg s'.ft.weights ≤
      regularizedError F (fun V t => ({ s'.ft with weights := V } : ForcingTerm d m).call (T t)) reg V := (hopt V).1
    rw [hw8] at h3
    unfold regularizedError at h3 ⊢
    simp only [hcall] at h3
    exact h3) k
  let g : ℝ → ℝ := fun t => fvGoalForce (α k) (β k) τ (fun i => c' i k) t - fvGoalForce (α k) (β k) τ (fun i => c i k) t
  have hgc : Continuous g := (fvGoalForce_continuous _ _ _ _).sub (fvGoalForce_continuous _ _ _ _)
  refine ⟨fun t => b t + ∫ x in (0 : ℝ)..t, g x, ?_, ?_, ?_⟩
  · simp [hb0]
  · intro t ht
    have h4 := intervalIntegral.norm_integral_le_of_norm_le_const (f := g) (C := 2 * P * θ) (a := 0) (b := t) (by
      intro x hx
      rw [uIoc_of_le ht.1] at hx
      exact hG k x ⟨hx.1.le, hx.2.trans ht.2⟩)
    rw [Real.norm_eq_abs, sub_zero, abs_of_nonneg ht.1] at h4
    have h5 := mul_le_mul_of_nonneg_left ht.2 (show 0 ≤ 2 * P * θ by positivity)
    refine (abs_add_le _ _).trans ?_
    linarith [hb1 t ht]
  · intro t ht
    have h3 : HasDerivAt (fun t => ∫ x in (0 : ℝ)..t, g x) (g t) t :=
      intervalIntegral.integral_hasDerivAt_right (hgc.intervalIntegrable _ _)
        hgc.stronglyMeasurable.stronglyMeasurableAtFilter hgc.continuousAt
    refine ((hb2 t ht).add h3.hasDerivWithinAt).congr_deriv ?_
    rw [hcall']
    simp only [fvDemandedForce, g]
    ring

/-- **C111 (differential equation).** A DMP with final velocity that has imitated sufficiently many equidistant samples of a
movement that starts at rest and has enough weights solves a differential equation whose solution is the movement up to an error
of less than `ε`. Its final velocity is that of the movement up to an error of less than `ε`. -/
theorem C111_solution {τ : ℝ} (hτ : 0 < τ) {y v a : ℝ → Vec d} (h : TwiceDifferentiable τ y v a) (h0 : v 0 = 0)
    (α β : Vec d) {reg : ℝ} (hreg : 0 ≤ reg) {ε : ℝ} (hε : 0 < ε) :
    ∃ N, ∀ m : ℕ, N ≤ m → ∃ n0, ∀ n : ℕ, n0 ≤ n → ∀ s : FvDMP d m, FvDMP.Reachable s → s.executionTime = τ → s.alphaY = α →
      s.betaY = β → ∃ s' c,
      (FvDMP.imitate (linspaceTimes τ n) (fun i => y (linspaceTimes τ n i)) reg).exec s = (.ok (), s') ∧
      s'.startY = y 0 ∧ s'.startYd = v 0 ∧ s'.executionTime = τ ∧ s'.t = s.t ∧ s'.initialized = s.initialized ∧
      s'.pGain = s.pGain ∧ (∀ k, |s'.goalYd k - v τ k| < ε) ∧ ConnectsStartAndGoal s' c ∧
      ∀ y' v', SolvesFv s' c 0 (s'.startY, s'.startYd) y' v' →
        ∀ t ∈ Icc 0 τ, ∀ k, |y' t k - y t k| < ε ∧ |v' t k - v t k| < ε := by
  classical
  let K : Fin d → ℝ := fun k => Real.exp ((1 + |α k * β k / τ ^ 2| + |α k / τ|) * τ)
  have hKsum : ∀ k, K k ≤ ∑ k, K k := fun k =>
    Finset.single_le_sum (f := K) (fun _ _ => (Real.exp_pos _).le) (Finset.mem_univ k)
  set C := 1 + ∑ k, K k with hC
  have hC0 : 0 < C := by
    have : 0 ≤ ∑ k, K k := Finset.sum_nonneg fun k _ => (Real.exp_pos _).le
    linarith
  obtain ⟨N, hN⟩ := fv_learned_forces hτ h h0 α β hreg (η := min (ε / 2) (τ ^ 2 * (ε / C))) (by positivity)
  refine ⟨N, fun m hm => ?_⟩
  obtain ⟨n0, hn0⟩ := hN m hm
  refine ⟨n0, fun n hn s hs hsτ hsα hsβ => ?_⟩
  obtain ⟨s', cc, him, e1, e2, e3, e4, e5, e6, e7, e8, e9, hcon, hb⟩ := hn0 n hn s hs hsτ hsα hsβ
  refine ⟨s', cc, him, e1, by rw [e2, h0], e3, e6, e7, e8, fun k => ?_, hcon, ?_⟩
  · have := (e9 k).trans (min_le_left _ _)
    linarith
  intro y' v' hsol t ht k
  obtain ⟨b, hb0, hbη, hb⟩ := hb k
  set κ := α k * β k / τ ^ 2 with hκ
  set c := α k / τ with hc
  let u : ℝ → ℝ := fun t => (fvDemandedForce α β τ cc y v a t k + fvGoalForce (α k) (β k) τ (fun i => cc i k) t) / τ ^ 2
  let w' : ℝ → ℝ := fun t => (s'.ft.call t k + fvGoalForce (α k) (β k) τ (fun i => cc i k) t) / τ ^ 2
  have hx : ∀ t ∈ Icc 0 τ, HasDerivWithinAt (fun t => (y t k, v t k)) (sdField κ c (y t k, v t k) (u t)) (Icc 0 τ) t := by
    intro t ht
    have h1 := (h.velocity t ht k).prodMk (h.acceleration t ht k)
    have e : a t k = -κ * y t k - c * v t k + u t := by
      simp only [u, fvDemandedForce, hκ, hc]
      field_simp
      ring
    rw [e] at h1
    exact h1
  have hx' : ∀ t ∈ Icc 0 τ, HasDerivWithinAt (fun t => (y' t k, v' t k)) (sdField κ c (y' t k, v' t k) (w' t)) (Icc 0 τ) t := by
    intro t ht
    have h1 := ((hsol.velocity t k).prodMk (hsol.acceleration t k)).hasDerivWithinAt (s := Icc 0 τ)
    rw [e3, e4, e5] at h1
    refine h1.congr_deriv ?_
    simp only [sdField, w', fvGoalForce, hκ, hc, Prod.mk.injEq, true_and]
    field_simp
    ring
  have hst : (y 0 k, v 0 k) = (y' 0 k, v' 0 k) := by
    have := hsol.start
    rw [Prod.mk.injEq, e1, e2, ← h0] at this
    rw [this.1, this.2]
  have key := sd_perturbed_integral (η := ε / C) (b := fun t => b t / τ ^ 2) hx hx' hst (by simp [hb0]) (fun t ht => by
      refine ((hb t ht).div_const (τ ^ 2)).congr_deriv ?_
      simp only [w', u]
      ring) (fun t ht => by
      rw [abs_div, abs_of_pos (show (0 : ℝ) < τ ^ 2 by positivity), div_le_iff₀ (by positivity)]
      have := (hbη t ht).trans (min_le_right _ _)
      linarith) t ht
  have hlt : ε / C * Real.exp ((1 + |κ| + |c|) * τ) < ε := by
    have h1 : Real.exp ((1 + |κ| + |c|) * τ) < C := by have := hKsum k; simp only [K] at this; linarith
    rw [div_mul_eq_mul_div, div_lt_iff₀ hC0]
    exact mul_lt_mul_of_pos_left h1 hε
  have h1 := (norm_fst_le _).trans_lt (key.trans_lt hlt)
  have h2 := (norm_snd_le _).trans_lt (key.trans_lt hlt)
  constructor
  · simpa using h1
  · simpa using h2

/-- **C111.** Let `y` be a twice continuously differentiable movement of duration `τ` that starts at rest; its final velocity and
acceleration are arbitrary. For all gains, for every regularisation coefficient that is not negative and every `ε > 0`: a DMP
with final velocity that has enough weights and imitates sufficiently many equidistant samples of the movement reproduces it:
with sufficiently small steps, `open_loop` returns at each time stamp up to `τ` the position of the movement up to an error of
less than `ε`. -/
theorem C111_imitated_movement {τ : ℝ} (hτ : 0 < τ) {y v a : ℝ → Vec d} (h : TwiceDifferentiable τ y v a) (h0 : v 0 = 0)
    (α β : Vec d) {reg : ℝ} (hreg : 0 ≤ reg) {ε : ℝ} (hε : 0 < ε) :
    ∃ N, ∀ m : ℕ, N ≤ m → ∃ n0, ∀ n : ℕ, n0 ≤ n → ∀ s : FvDMP d m, FvDMP.Reachable s → s.executionTime = τ → s.alphaY = α →
      s.betaY = β →
      ∃ s', (FvDMP.imitate (linspaceTimes τ n) (fun i => y (linspaceTimes τ n i)) reg).exec s = (.ok (), s') ∧
      ∃ h > 0, ∀ dt intDt : ℝ, 0 < dt → 0 < intDt → min intDt dt ≤ h →
        (∀ r : ℝ, 0 ≤ r →
          ∃ T Y, ((FvDMP.openLoop (some r) none).exec { s' with dt := dt, intDt := intDt }).1 = .ok (T, Y)) ∧
        ∀ runT T Y, ((FvDMP.openLoop runT none).exec { s' with dt := dt, intDt := intDt }).1 = .ok (T, Y) →
          ∀ i (hT : i < T.length) (hY : i < Y.length), T[i] ≤ τ → ∀ k, |Y[i] k - y T[i] k| < ε := by
  obtain ⟨N, hN⟩ := C111_solution hτ h h0 α β hreg (half_pos hε)
  refine ⟨N, fun m hm => ?_⟩
  obtain ⟨n0, hn0⟩ := hN m hm
  refine ⟨n0, fun n hn s hs hsτ hsα hsβ => ?_⟩
  obtain ⟨s', c, him, e1, e2, e3, -, -, -, -, hcon, hclose⟩ := hn0 n hn s hs hsτ hsα hsβ
  refine ⟨s', him, ?_⟩
  have hs' : FvDMP.Reachable s' := hs.op (.imitate (linspaceTimes τ n) (fun i => y (linspaceTimes τ n i)) reg) him
    (by intro τ h; cases h)
  obtain ⟨y', v', hsol⟩ := C86_solution_exists hs' c 0 (s'.startY, s'.startYd)
  have hclose := hclose y' v' hsol
  obtain ⟨C, hC⟩ := C86_open_loop hs' hcon hsol
  refine ⟨ε / (2 * (|C| + 1)), by positivity, ?_⟩
  intro dt intDt hdt hint hstep
  obtain ⟨hret, hrows⟩ := hC dt intDt hdt hint
  refine ⟨hret, ?_⟩
  intro runT T Y hex i hT hY hi k
  have hpos : 0 ≤ T[i] := by
    unfold FvDMP.openLoop at hex
    simp only [Py.exec_bind, Py.exec_lift, Py.exec_get] at hex
    rw [openLoopWith_times hex i hT]
    show 0 ≤ (0 : ℝ) + i * dt
    positivity
  have h1 := hrows runT T Y hex i hT hY (by rw [e3]; exact hi) k
  have h2 := small_steps hε (by positivity) hstep
  have h3 := (hclose T[i] ⟨hpos, hi⟩ k).1
  calc |Y[i] k - y T[i] k| = |(Y[i] k - y' T[i] k) + (y' T[i] k - y T[i] k)| := by ring_nf
    _ ≤ |Y[i] k - y' T[i] k| + |y' T[i] k - y T[i] k| := abs_add_le _ _
    _ < ε := by linarith

/-- **C111 (step).** The same for positions and velocities returned by calls of `step`. -/
theorem C111_step {τ : ℝ} (hτ : 0 < τ) {y v a : ℝ → Vec d} (h : TwiceDifferentiable τ y v a) (h0 : v 0 = 0)
    (α β : Vec d) {reg : ℝ} (hreg : 0 ≤ reg) {ε : ℝ} (hε : 0 < ε) :
    ∃ N, ∀ m : ℕ, N ≤ m → ∃ n0, ∀ n : ℕ, n0 ≤ n → ∀ s : FvDMP d m, FvDMP.Reachable s → s.executionTime = τ → s.alphaY = α →
      s.betaY = β → s.t = 0 → s.initialized = false →
      ∃ s', (FvDMP.imitate (linspaceTimes τ n) (fun i => y (linspaceTimes τ n i)) reg).exec s = (.ok (), s') ∧
      ∃ h > 0, ∀ dt intDt : ℝ, 0 < dt → 0 < intDt → min intDt dt ≤ h →
        ∀ (obj : ℕ → FvDMP d m) (fb out : ℕ → Vec d × Vec d), obj 0 = { s' with dt := dt, intDt := intDt } →
          Spec.Run (FvDMP.step none) obj fb out →
          (s.pGain = 0 ∨ (fb 0).1 = y 0 ∧ ∀ i, (fb (i + 1)).1 = (out i).1) →
          ∀ i : ℕ, (i + 1) * dt ≤ τ → ∀ k,
            |(out i).1 k - y ((i + 1) * dt) k| < ε ∧ |(out i).2 k - v ((i + 1) * dt) k| < ε := by
  obtain ⟨N, hN⟩ := C111_solution hτ h h0 α β hreg (half_pos hε)
  refine ⟨N, fun m hm => ?_⟩
  obtain ⟨n0, hn0⟩ := hN m hm
  refine ⟨n0, fun n hn s hs hsτ hsα hsβ ht hini => ?_⟩
  obtain ⟨s', c, him, e1, e2, e3, e4, e5, e6, -, hcon, hclose⟩ := hn0 n hn s hs hsτ hsα hsβ
  refine ⟨s', him, ?_⟩
  have hs' : FvDMP.Reachable s' := hs.op (.imitate (linspaceTimes τ n) (fun i => y (linspaceTimes τ n i)) reg) him
    (by intro τ h; cases h)
  obtain ⟨y', v', hsol⟩ := C86_solution_exists hs' c 0 (s'.startY, s'.startYd)
  have hclose := hclose y' v' hsol
  rw [ht] at e4
  rw [hini] at e5
  obtain ⟨C, hC⟩ := C86_step hs' e4.ge hcon (y := y') (v := v') (by rw [e5, e4]; exact hsol)
  refine ⟨ε / (2 * (|C| + 1)), by positivity, ?_⟩
  intro dt intDt hdt hint hstep obj fb out ho hrun hfb i hi k
  have h1 := hC dt intDt hdt hint obj fb out ho hrun (by rw [e5, e6, e1]; simpa using hfb) i
    (by rw [e4, zero_add, e3]; exact hi) k
  rw [e4, zero_add] at h1
  have h2 := small_steps hε (by positivity) hstep
  have h3 := hclose ((i + 1) * dt) ⟨by positivity, hi⟩ k
  constructor
  · calc |(out i).1 k - y ((i + 1) * dt) k|
        = |((out i).1 k - y' ((i + 1) * dt) k) + (y' ((i + 1) * dt) k - y ((i + 1) * dt) k)| := by ring_nf
      _ ≤ _ := abs_add_le _ _
      _ < ε := by linarith [h1.1, h3.1]
  · calc |(out i).2 k - v ((i + 1) * dt) k|
        = |((out i).2 k - v' ((i + 1) * dt) k) + (v' ((i + 1) * dt) k - v ((i + 1) * dt) k)| := by ring_nf
      _ ≤ _ := abs_add_le _ _
      _ < ε := by linarith [h1.2, h3.2]

/-- **C111 (finding).** A movement with an initial velocity is not reproduced, whatever the number of samples and weights:
`imitate` configures the initial velocity 0, so that the velocity of the execution at its start is wrong by the full initial
velocity of the movement. -/
theorem C111_initial_velocity_lost {τ : ℝ} (hτ : 0 < τ) (y v : ℝ → Vec d) {reg : ℝ} (hreg : 0 ≤ reg) (n : ℕ)
    {s : FvDMP d m} (hs : FvDMP.Reachable s) :
    ∃ s' c, (FvDMP.imitate (linspaceTimes τ (n + 1)) (fun i => y (linspaceTimes τ (n + 1) i)) reg).exec s = (.ok (), s') ∧
      ConnectsStartAndGoal s' c ∧ ∀ y' v', SolvesFv s' c 0 (s'.startY, s'.startYd) y' v' →
        ∀ k, |v' 0 k - v 0 k| = |v 0 k| := by
  obtain ⟨w, hw⟩ := C29_imitate_boundary hs (linspaceTimes τ (n + 1)) (fun i => y (linspaceTimes τ (n + 1) i)) hreg
    (by rw [linspaceTimes_zero, linspaceTimes_last]; exact hτ)
  have hs' := hs.op (.imitate (linspaceTimes τ (n + 1)) (fun i => y (linspaceTimes τ (n + 1) i)) reg) hw
    (by intro τ h; cases h)
  obtain ⟨c, hc, -⟩ := C86_polynomial hs'
  refine ⟨_, c, hw, hc, fun y' v' hsol k => ?_⟩
  have h1 : v' 0 = 0 := (Prod.mk.inj hsol.start).2
  rw [h1, Pi.zero_apply, zero_sub, abs_neg]

/-- A movement that starts at rest and ends with velocity 2. -/
example : ∃ v a, TwiceDifferentiable (d := 1) 1 (fun t _ => t ^ 2) v a ∧ v 0 = 0 ∧ v 1 = fun _ => 2 := by
  refine ⟨fun t _ => 2 * t, fun _ _ => 2, ⟨?_, ?_, ?_⟩, ?_, ?_⟩
  · intro t _ k
    exact ((hasDerivAt_pow 2 t).congr_deriv (by norm_num)).hasDerivWithinAt
  · intro t _ k
    exact (((hasDerivAt_id t).const_mul 2).congr_deriv (by norm_num)).hasDerivWithinAt
  · intro k
    fun_prop
  · funext k; simp
  · funext k; simp

end Verif
