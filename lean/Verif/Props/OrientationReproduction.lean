import Verif.Props.OrientationIntegration
import Verif.Lemmas.OrientationSamples

/-! # C109 for orientations of Cartesian DMPs -/

namespace Verif
open Spec Quaternion Set

variable {m n : ℕ}

theorem mean_square_le {τ G η P ζ : ℝ} (hτ : 0 < τ) (hG0 : 0 < G) (hη0 : 0 < η) (hη1 : η ≤ 1) (hP0 : 0 < P) (hζ : 0 < ζ)
    (hηG : 4 * τ * (G * η) ^ 2 ≤ ζ ^ 2 / 4) (hsG : 32 * (τ / ((n : ℝ) + 1)) * G ^ 2 ≤ ζ ^ 2 / 2) {x : Fin (n + 2) → ℝ}
    (herr : ∀ i : Fin (n + 2), |x i| ≤ (G * η + (if i.val < 2 ∨ n ≤ i.val then G else 0)) + G * P) :
    τ / (n + 1) * ∑ i, x i ^ 2 ≤ (ζ + 2 * G * (τ + 1) * P) ^ 2 := by
  classical
  have hpos1 : (0 : ℝ) < n + 1 := by positivity
  set s := τ / ((n : ℝ) + 1) with hs
  have hs0 : 0 < s := by positivity
  have hterm : ∀ i : Fin (n + 2), x i ^ 2 ≤
      (2 * (G * η) ^ 2 + 2 * (G * P) ^ 2) + (if i.val < 2 ∨ n ≤ i.val then 6 * G ^ 2 else 0) := by
    intro i
    rw [← sq_abs]
    refine (pow_le_pow_left₀ (abs_nonneg _) (herr i) 2).trans ?_
    have g3 : ∀ p q : ℝ, (p + q) ^ 2 ≤ 2 * p ^ 2 + 2 * q ^ 2 := fun p q => by nlinarith [sq_nonneg (p - q)]
    refine (g3 _ _).trans ?_
    split_ifs
    · have h1 : (G * η + G) ^ 2 ≤ (G * η) ^ 2 + 3 * G ^ 2 := by
        have : G ^ 2 * η ≤ G ^ 2 * 1 := mul_le_mul_of_nonneg_left hη1 (by positivity)
        nlinarith
      linarith
    · rw [add_zero]; linarith
  have hsum' := Finset.sum_le_sum fun i (_ : i ∈ Finset.univ) => hterm i
  rw [Finset.sum_add_distrib, Finset.sum_const, Finset.card_univ, Fintype.card_fin, nsmul_eq_mul,
    ← Finset.sum_filter, Finset.sum_const, nsmul_eq_mul] at hsum'
  have hc4 : ((Finset.univ.filter fun i : Fin (n + 2) => i.val < 2 ∨ n ≤ i.val).card : ℝ) ≤ 4 := by
    exact_mod_cast card_ends n
  have hsn : s * ((n + 2 : ℕ) : ℝ) ≤ 2 * τ := by
    rw [hs]; push_cast
    rw [div_mul_eq_mul_div, div_le_iff₀ hpos1]
    have : (0 : ℝ) ≤ n := Nat.cast_nonneg n
    nlinarith
  calc _ ≤ s * (((n + 2 : ℕ) : ℝ) * (2 * (G * η) ^ 2 + 2 * (G * P) ^ 2) + 4 * (6 * G ^ 2)) := by
            refine mul_le_mul_of_nonneg_left (hsum'.trans ?_) hs0.le
            have := mul_le_mul_of_nonneg_right hc4 (show 0 ≤ 6 * G ^ 2 by positivity)
            linarith
    _ = (s * ((n + 2 : ℕ) : ℝ)) * (2 * (G * η) ^ 2 + 2 * (G * P) ^ 2) + 24 * s * G ^ 2 := by ring
    _ ≤ (2 * τ) * (2 * (G * η) ^ 2 + 2 * (G * P) ^ 2) + 24 * s * G ^ 2 :=
            add_le_add_left (mul_le_mul_of_nonneg_right hsn (by positivity)) _
    _ = 4 * τ * (G * η) ^ 2 + 24 * s * G ^ 2 + 4 * τ * (G * P) ^ 2 := by ring
    _ ≤ ζ ^ 2 + (2 * G * (τ + 1) * P) ^ 2 := by
            have h1 : 4 * τ * (G * P) ^ 2 ≤ (2 * G * (τ + 1) * P) ^ 2 := by
              have e : (2 * G * (τ + 1) * P) ^ 2 = 4 * (τ + 1) ^ 2 * (G * P) ^ 2 := by ring
              rw [e]
              refine mul_le_mul_of_nonneg_right ?_ (by positivity)
              nlinarith
            have h2 : 0 ≤ s * G ^ 2 := by positivity
            have h3 := sq_nonneg ζ
            linarith
    _ ≤ (ζ + 2 * G * (τ + 1) * P) ^ 2 := by
            have h1 : 0 ≤ ζ * (2 * G * (τ + 1) * P) := by positivity
            have h2 : (ζ + 2 * G * (τ + 1) * P) ^ 2 = ζ ^ 2 + (2 * G * (τ + 1) * P) ^ 2 + 2 * (ζ * (2 * G * (τ + 1) * P)) := by ring
            linarith

set_option maxHeartbeats 800000 in
/-- The mean squared error of the torques determined from samples of a movement. -/
theorem torques_consistent {τ : ℝ} (hτ : 0 < τ) {q : ℝ → Vec 4} {w acc : ℝ → Vec 3} (h : OrientationMovement 0 τ q w acc)
    {afv : Bool} (hend : afv = true ∨ w τ = 0) (α β : Vec 3) (smooth : Bool) {a : ℝ → Vec 3} {c : ℝ} (hc : 0 < c)
    (ha : ∀ t ∈ Icc 0 τ, IsRotationTo (q τ) (q t) (a t)) (hca : ∀ t ∈ Icc 0 τ, c ≤ Real.cos (length (a t) / 2)) :
    ∃ K > 0, ∀ ζ > 0, ∃ n0 : ℕ, ∀ n, n0 ≤ n → ∀ (ops : QuatOps) (eps : ℝ), LawfulQuatOps ops eps → 0 < eps → ∀ k,
      τ / (n + 1) * ∑ i, (determineForcesQuaternion ops (quaternionGradient ops) (linspaceTimes τ n)
        (fun i => q (linspaceTimes τ n i)) α β (-Real.log (1 / 100)) afv smooth i k -
        demandedTorque α β τ smooth (phaseOf τ) (a 0) a w acc (linspaceTimes τ n i) k) ^ 2 ≤
      (ζ + K * ((n + 1) ^ 2 * eps)) ^ 2 := by
  classical
  obtain ⟨D, hD0, hD⟩ := sampled_motion hτ h hend
  have hsum : ∀ (x : Vec 3) k, |x k| ≤ |x 0| + |x 1| + |x 2| := by
    intro x k
    have h0 := abs_nonneg (x 0)
    have h1 := abs_nonneg (x 1)
    have h2 := abs_nonneg (x 2)
    fin_cases k
    · show |x 0| ≤ _; linarith
    · show |x 1| ≤ _; linarith
    · show |x 2| ≤ _; linarith
  set A := |α 0| + |α 1| + |α 2| with hA
  set B := |β 0| + |β 1| + |β 2| with hB
  have hA0 : 0 ≤ A := by positivity
  have hB0 : 0 ≤ B := by positivity
  have hπ := Real.pi_pos
  set G := (τ ^ 2 + A * τ) * (D + 1) + 2 * (A * B * Real.pi) with hG
  have hG0 : 0 < G := by positivity
  clear_value G
  refine ⟨2 * G * (τ + 1), by positivity, fun ζ hζ => ?_⟩
  set η := min 1 (ζ / (4 * G * (τ + 1))) with hη
  have hη0 : 0 < η := lt_min one_pos (by positivity)
  have hη1 : η ≤ 1 := min_le_left _ _
  have hη2 : η ≤ ζ / (4 * G * (τ + 1)) := min_le_right _ _
  clear_value η
  have hηG : 4 * τ * (G * η) ^ 2 ≤ ζ ^ 2 / 4 := by
    rw [le_div_iff₀ (by positivity)] at hη2
    have h2 : 4 * (τ + 1) * (G * η) ≤ ζ := by linarith
    have h3 := pow_le_pow_left₀ (by positivity) h2 2
    have h4 : τ * (G * η) ^ 2 ≤ (τ + 1) ^ 2 * (G * η) ^ 2 := mul_le_mul_of_nonneg_right (by linarith [sq_nonneg τ, show (τ + 1) ^ 2 = τ ^ 2 + 2 * τ + 1 by ring]) (sq_nonneg _)
    have h5 : (4 * (τ + 1) * (G * η)) ^ 2 = 16 * ((τ + 1) ^ 2 * (G * η) ^ 2) := by ring
    linarith
  obtain ⟨n1, hn1⟩ := hD η hη0
  obtain ⟨n2, hn2⟩ := exists_nat_gt (64 * τ * G ^ 2 / ζ ^ 2)
  refine ⟨max n1 n2, fun n hn ops eps hops heps k => ?_⟩
  have hpos1 : (0 : ℝ) < n + 1 := by positivity
  have hmot := hn1 n ((le_max_left _ _).trans hn) ops eps hops heps
  set s := τ / ((n : ℝ) + 1) with hs
  have hs0 : 0 < s := by positivity
  have hsG : 32 * s * G ^ 2 ≤ ζ ^ 2 / 2 := by
    rw [div_lt_iff₀ (by positivity)] at hn2
    have : (n2 : ℝ) ≤ n := by exact_mod_cast (le_max_right _ _).trans hn
    have h1 : 64 * τ * G ^ 2 ≤ (n + 1) * ζ ^ 2 := by nlinarith [sq_nonneg ζ]
    rw [hs]
    have e : 32 * (τ / ((n : ℝ) + 1)) * G ^ 2 = 32 * τ * G ^ 2 / (n + 1) := by ring
    rw [e, div_le_iff₀ hpos1]
    linarith
  set P := ((n : ℝ) + 1) ^ 2 * eps with hP
  have hP0 : 0 < P := by positivity
  have hPe : eps * ((n : ℝ) + 1) ^ 2 = P := by rw [hP]; ring
  have hle : eps ≤ P := by
    have : (1 : ℝ) ≤ (n + 1) ^ 2 := by nlinarith [Nat.cast_nonneg (α := ℝ) n]
    rw [hP]; nlinarith
  rw [hPe] at hmot
  set T := linspaceTimes τ n with hT
  have hmem : ∀ i, T i ∈ Icc 0 τ := by
    intro i
    simp only [hT, linspaceTimes]
    refine ⟨by positivity, ?_⟩
    have h1 : ((i : ℕ) : ℝ) ≤ n + 1 := by exact_mod_cast Nat.lt_succ_iff.1 i.isLt
    calc ((i : ℕ) : ℝ) * (τ / (n + 1)) ≤ (n + 1) * (τ / (n + 1)) := mul_le_mul_of_nonneg_right h1 hs0.le
      _ = τ := by field_simp
  have hTlast : T (Fin.last (n + 1)) = τ := by
    simp only [hT, linspaceTimes, Fin.val_last]; push_cast; field_simp
  have hT0 : T 0 = 0 := by simp [hT, linspaceTimes]
  have h00 : (0 : ℝ) ∈ Icc 0 τ := ⟨le_rfl, hτ.le⟩
  have hττ : τ ∈ Icc 0 τ := ⟨hτ.le, le_rfl⟩
  have hdiff : ∀ t ∈ Icc 0 τ, |QuatStepArgs.diff ops (q τ) (q t) k - a t k| ≤ Real.pi * eps := by
    intro t ht
    have h1 := diff_close hops heps (h.unit τ hττ) (h.unit t ht) (ha t ht) hc (hca t ht)
    rw [sub_self, norm_zero, mul_zero, add_zero] at h1
    exact (abs_le_length _ k).trans h1
  set Yd := demoRotYd (quaternionGradient ops) T (fun i => q (T i)) afv with hYd
  set Ydd := demoRotYdd (quaternionGradient ops) T (fun i => q (T i)) afv with hYdd
  have hαk := hsum α k
  have hβk := hsum β k
  rw [← hA] at hαk
  rw [← hB] at hβk
  have herr : ∀ i : Fin (n + 2), |determineForcesQuaternion ops (quaternionGradient ops) T (fun i => q (T i)) α β
      (-Real.log (1 / 100)) afv smooth i k - demandedTorque α β τ smooth (phaseOf τ) (a 0) a w acc (T i) k| ≤
      (G * η + (if i.val < 2 ∨ n ≤ i.val then G else 0)) + G * P := by
    intro i
    obtain ⟨m1, m2, m3⟩ := hmot i k
    have d1 := hdiff (T i) (hmem i)
    have d0 := hdiff 0 h00
    have hz := phaseOf_le hτ (hmem i).1
    have e : determineForcesQuaternion ops (quaternionGradient ops) T (fun i => q (T i)) α β
        (-Real.log (1 / 100)) afv smooth i k - demandedTorque α β τ smooth (phaseOf τ) (a 0) a w acc (T i) k =
        τ ^ 2 * (Ydd i k - acc (T i) k) + α k * τ * (Yd i k - w (T i) k) -
          α k * β k * (QuatStepArgs.diff ops (q τ) (q (T i)) k - a (T i) k) +
          (if smooth then α k * β k * phaseOf τ (T i) * (QuatStepArgs.diff ops (q τ) (q 0) k - a 0 k) else 0) := by
      have ez : phase (T i) (-Real.log (1 / 100)) τ 0 = phaseOf τ (T i) := by
        simp only [phase, phaseOf, sub_zero, mul_div_assoc]
      simp only [determineForcesQuaternion, demandedTorque, hTlast, hT0, ez, sub_zero]
      rw [← hYd, ← hYdd]
      cases smooth
      · simp only [Bool.false_eq_true, if_false]; ring
      · simp only [if_true]; ring
    rw [e]
    have hαβ : |α k * β k| ≤ A * B := by rw [abs_mul]; exact mul_le_mul hαk hβk (abs_nonneg _) hA0
    have t2 : |α k * τ * (Yd i k - w (T i) k)| ≤ A * τ * (η + D * P) := by
      rw [abs_mul, abs_mul, abs_of_pos hτ]
      exact mul_le_mul (mul_le_mul_of_nonneg_right hαk hτ.le) m1 (abs_nonneg _) (by positivity)
    have hπP : Real.pi * eps ≤ Real.pi * P := mul_le_mul_of_nonneg_left hle hπ.le
    have t3 : |α k * β k * (QuatStepArgs.diff ops (q τ) (q (T i)) k - a (T i) k)| ≤ A * B * (Real.pi * P) := by
      rw [abs_mul]
      exact mul_le_mul hαβ (d1.trans hπP) (abs_nonneg _) (by positivity)
    have t4 : |if smooth then α k * β k * phaseOf τ (T i) * (QuatStepArgs.diff ops (q τ) (q 0) k - a 0 k) else 0| ≤
        A * B * (Real.pi * P) := by
      cases smooth
      · simp only [Bool.false_eq_true, if_false, abs_zero]; positivity
      · simp only [if_true]
        rw [abs_mul, abs_mul]
        refine mul_le_mul ?_ (d0.trans hπP) (abs_nonneg _) (by positivity)
        have := mul_le_mul hαβ hz (abs_nonneg _) (by positivity)
        linarith
    have t1 : |τ ^ 2 * (Ydd i k - acc (T i) k)| ≤ τ ^ 2 * ((η + (if i.val < 2 ∨ n ≤ i.val then D else 0)) + D * P) := by
      rw [abs_mul, abs_of_pos (by positivity)]
      refine mul_le_mul_of_nonneg_left ?_ (by positivity)
      split_ifs with hcase
      · linarith
      · rw [not_or, not_lt, not_le] at hcase
        linarith [m3 hcase.1 hcase.2]
    have s1 := abs_add_le (τ ^ 2 * (Ydd i k - acc (T i) k) + α k * τ * (Yd i k - w (T i) k) -
          α k * β k * (QuatStepArgs.diff ops (q τ) (q (T i)) k - a (T i) k))
          (if smooth then α k * β k * phaseOf τ (T i) * (QuatStepArgs.diff ops (q τ) (q 0) k - a 0 k) else 0)
    have s2 := abs_sub (τ ^ 2 * (Ydd i k - acc (T i) k) + α k * τ * (Yd i k - w (T i) k))
          (α k * β k * (QuatStepArgs.diff ops (q τ) (q (T i)) k - a (T i) k))
    have s3 := abs_add_le (τ ^ 2 * (Ydd i k - acc (T i) k)) (α k * τ * (Yd i k - w (T i) k))
    have hX : 0 ≤ τ ^ 2 + A * τ := by positivity
    have u1 : (τ ^ 2 + A * τ) * η ≤ G * η := by
      refine mul_le_mul_of_nonneg_right ?_ hη0.le
      have h1 : 0 ≤ (τ ^ 2 + A * τ) * D := by positivity
      have h2 : 0 ≤ 2 * (A * B * Real.pi) := by positivity
      rw [hG]; linarith
    have u2 : (τ ^ 2 + A * τ) * (D * P) + 2 * (A * B * (Real.pi * P)) ≤ G * P := by
      have h1 : 0 ≤ (τ ^ 2 + A * τ) * P := by positivity
      have e2 : G * P = (τ ^ 2 + A * τ) * (D * P) + 2 * (A * B * (Real.pi * P)) + (τ ^ 2 + A * τ) * P := by rw [hG]; ring
      linarith
    have u3 : τ ^ 2 * (if i.val < 2 ∨ n ≤ i.val then D else 0) ≤ (if i.val < 2 ∨ n ≤ i.val then G else 0) := by
      split_ifs
      · have h1 : 0 ≤ A * τ * (D + 1) := by positivity
        have h2 : 0 ≤ 2 * (A * B * Real.pi) := by positivity
        have h3 : 0 ≤ τ ^ 2 := by positivity
        rw [hG]; linarith
      · rw [mul_zero]
    linarith
  exact mean_square_le hτ hG0 hη0 hη1 hP0 hζ hηG hsG herr

/-- A bound that grows with the integral of a continuous function. -/
theorem exists_monotone_bound {τ : ℝ} {l : ℝ → ℝ} (hl : Continuous l) (hl0 : ∀ t, 0 ≤ l t) {η : ℝ} (hη : 0 < η) :
    ∃ (Ψ : ℝ → ℝ) (H : ℝ), 0 < H ∧ (∀ s t, 0 ≤ s → s ≤ t → t ≤ τ → Ψ s ≤ Ψ t) ∧
      (∀ s t, 0 ≤ s → s < t → t ≤ τ → t - s ≤ H → (t - s) * l t ≤ Ψ t - Ψ s) ∧
      Ψ τ - Ψ 0 = (∫ x in (0 : ℝ)..τ, l x) + η * τ := by
  obtain ⟨H, hH0, hH⟩ := uniform_small (hl.continuousOn (s := Icc 0 τ)) hη
  have hint : ∀ x y, IntervalIntegrable l MeasureTheory.volume x y := fun x y => hl.intervalIntegrable x y
  have hsub : ∀ s t : ℝ, (∫ x in (0 : ℝ)..t, l x) - ∫ x in (0 : ℝ)..s, l x = ∫ x in s..t, l x := fun s t =>
    intervalIntegral.integral_interval_sub_left (hint _ _) (hint _ _)
  refine ⟨fun t => (∫ x in (0 : ℝ)..t, l x) + η * t, H, hH0, ?_, ?_, ?_⟩
  · intro s t _ hst _
    have h1 : 0 ≤ ∫ x in s..t, l x := intervalIntegral.integral_nonneg hst fun x _ => hl0 x
    have h2 := hsub s t
    have h3 := mul_le_mul_of_nonneg_left hst hη.le
    show (∫ x in (0 : ℝ)..s, l x) + η * s ≤ (∫ x in (0 : ℝ)..t, l x) + η * t
    linarith
  · intro s t hs hst ht hle
    have h1 : ∫ _x in s..t, (l t - η) ≤ ∫ x in s..t, l x := by
      apply intervalIntegral.integral_mono_on hst.le (continuous_const.intervalIntegrable _ _) (hint _ _)
      intro x hx
      have h2 := hH x ⟨hs.trans hx.1, hx.2.trans ht⟩ t ⟨hs.trans hst.le, ht⟩ (by
        rw [abs_of_nonneg (by linarith [hx.2])]; linarith [hx.1])
      rw [Real.norm_eq_abs, abs_le] at h2
      linarith [h2.2]
    rw [intervalIntegral.integral_const, smul_eq_mul] at h1
    have h2 := hsub s t
    show _ ≤ ((∫ x in (0 : ℝ)..t, l x) + η * t) - ((∫ x in (0 : ℝ)..s, l x) + η * s)
    linarith [show (t - s) * (l t - η) = (t - s) * l t - η * t + η * s by ring]
  · simp

/-- Steps with weights that were learned from samples of a movement of an orientation. -/
theorem learned_orientation {τ : ℝ} (hτ : 0 < τ) {q : ℝ → Vec 4} {w acc : ℝ → Vec 3} (h : OrientationMovement 0 τ q w acc)
    {afv : Bool} (hend : afv = true ∨ w τ = 0) (α β : Vec 3) (smooth : Bool)
    (hang : ∀ t ∈ Icc 0 τ, rotationAngle (q τ) (q t) < Real.pi) {reg : ℝ} (hreg : 0 ≤ reg) :
    ∃ C > 0, ∀ ε > 0, ∃ N, ∀ m : ℕ, N ≤ m → ∀ ft : ForcingTerm 3 m, DMP.initForcingTerm 3 m τ = .ok ft →
      ∃ n0, ∀ n : ℕ, n0 ≤ n → ∀ (ops : QuatOps) (eps : ℝ), LawfulQuatOps ops eps → 0 < eps → ∀ wr : Fin 3 → Fin m → ℝ,
      (∀ V, regularizedError (determineForcesQuaternion ops (quaternionGradient ops) (linspaceTimes τ n)
          (fun i => q (linspaceTimes τ n i)) α β (-Real.log (1 / 100)) afv smooth)
          (fun W t => ({ ft with weights := W } : ForcingTerm 3 m).call (linspaceTimes τ n t)) reg wr ≤
        regularizedError (determineForcesQuaternion ops (quaternionGradient ops) (linspaceTimes τ n)
          (fun i => q (linspaceTimes τ n i)) α β (-Real.log (1 / 100)) afv smooth)
          (fun W t => ({ ft with weights := W } : ForcingTerm 3 m).call (linspaceTimes τ n t)) reg V) →
      ∃ H > 0, ∀ args : QuatStepArgs m, FollowArgs args (q τ) (q 0) α β τ τ smooth (phaseOf τ) →
      (∀ t k, args.ft.call t k = ({ ft with weights := wr } : ForcingTerm 3 m).call t k) →
      ∀ (qf : QuatStepFunction) (eps' dt : ℝ), StepThreshold qf eps' → 0 < dt → 0 < args.intDt →
      min args.intDt dt ≤ H → ∀ xs : ℕ → Vec 4 × Vec 3, xs 0 = (q 0, w 0) →
      (∀ i : ℕ, qf.run args (0 + i * dt) (0 + (i + 1) * dt) (xs i) = .ok (xs (i + 1))) → ∀ i : ℕ, i * dt ≤ τ →
      rotationAngle (xs i).1 (q (i * dt)) < ε + C * ((n + 1) ^ 2 * eps + eps') ∧
      (∀ k, |(xs i).1 k - q (i * dt) k| < ε + C * ((n + 1) ^ 2 * eps + eps')) ∧
      ∀ k, |(xs i).2 k - w (i * dt) k| < ε + C * ((n + 1) ^ 2 * eps + eps') := by
  classical
  have hπ := Real.pi_pos
  have hq := h.continuous_quat
  have h00 : (0 : ℝ) ∈ Icc (0 : ℝ) τ := ⟨le_rfl, hτ.le⟩
  have hττ : τ ∈ Icc (0 : ℝ) τ := ⟨hτ.le, le_rfl⟩
  have hg := h.unit τ hττ
  obtain ⟨a, c, hc, ha, hca⟩ := exists_rotationTo h.unit hq hg hang
  have hac := continuous_rotationTo hq hg hc ha hca
  obtain ⟨M, hM0, hM⟩ := h.follow hg (h.unit 0 h00) hc ha hca (ha 0 h00) (hca 0 h00) α β hτ smooth
    (z := phaseOf τ) (fun t ht => phaseOf_le hτ ht.1)
  have hcont : ∀ k, ContinuousOn (fun t => demandedTorque α β τ smooth (phaseOf τ) (a 0) a w acc t k) (Icc 0 τ) := by
    intro k
    have h1 := hac k
    have h2 : ContinuousOn (fun t => w t k) (Icc 0 τ) := fun t ht => (h.acceleration t ht k).continuousWithinAt
    have h3 := h.continuous k
    unfold demandedTorque phaseOf
    cases smooth
    · simp only [Bool.false_eq_true, if_false]; fun_prop
    · simp only [if_true]; fun_prop
  obtain ⟨E, hE0, hE⟩ := least_squares_error hτ hcont hreg
  obtain ⟨K, hK0, hK⟩ := torques_consistent hτ h hend α β smooth hc ha hca
  set M' := (Real.pi + 1) * M with hM'
  have hM'0 : 0 < M' := by positivity
  refine ⟨M' * (1 + 3 * E * K), by positivity, fun ε hε => ?_⟩
  set η := ε / (8 * M') with hη
  have hη0 : 0 < η := by positivity
  obtain ⟨H, hH0, hH⟩ := hM η hη0
  set ζ₀ := η / (3 * E) with hζ₀
  have hζ₀0 : 0 < ζ₀ := by positivity
  obtain ⟨N, hN⟩ := hE ζ₀ hζ₀0
  obtain ⟨n1, hn1⟩ := hK ζ₀ hζ₀0
  refine ⟨N, fun m hm ftr hft => ?_⟩
  obtain ⟨n2, hn2⟩ := hN m hm ftr hft
  refine ⟨max n1 n2, fun n hn ops eps hops heps wr hopt => ?_⟩
  have hforces : ∀ k, ∃ r : ℝ → ℝ, Continuous r ∧
      (∀ t ∈ Icc 0 τ, r t = ({ ftr with weights := wr } : ForcingTerm 3 m).call t k - demandedTorque α β τ smooth (phaseOf τ) (a 0) a w acc t k) ∧
      ∫ x in (0 : ℝ)..τ, |r x| ≤ E * (ζ₀ + K * ((n + 1) ^ 2 * eps)) := by
    intro k
    have hKP : 0 < K * (((n : ℝ) + 1) ^ 2 * eps) := by positivity
    obtain ⟨r, hrc, hr, hri⟩ := hn2 n ((le_max_right _ _).trans hn)
      (determineForcesQuaternion ops (quaternionGradient ops) (linspaceTimes τ n) (fun i => q (linspaceTimes τ n i)) α β
        (-Real.log (1 / 100)) afv smooth) wr (ζ₀ + K * ((n + 1) ^ 2 * eps)) (by linarith)
      (hn1 n ((le_max_left _ _).trans hn) ops eps hops heps) (by
        intro V
        have h3 := hopt V
        unfold regularizedError at h3 ⊢
        simp only [ForcingTerm.call_basis] at h3
        exact h3) k
    refine ⟨r, hrc, fun t ht => ?_, hri⟩
    rw [ForcingTerm.call_basis]
    exact hr t ht
  choose r hrc hr hri using hforces
  obtain ⟨Ψ, H₂, hH₂0, hΨ1, hΨ2, hΨ3⟩ := exists_monotone_bound (τ := τ) (l := fun t => |r 0 t| + |r 1 t| + |r 2 t|)
    (((hrc 0).abs.add (hrc 1).abs).add (hrc 2).abs) (fun t => by positivity) (η := η / τ) (by positivity)
  refine ⟨min H H₂, lt_min hH0 hH₂0, ?_⟩
  intro args hargs hcall qf eps' dt hqf hdt hint hle xs hx0 hx i hi
  have hu0 : UnitQuat (xs 0).1 := by rw [hx0]; exact h.unit 0 h00
  have heps' := (stepThreshold_lawful hqf).1
  have key := hH m _ hargs qf eps' hqf Ψ (min H H₂) (min_le_left _ _) hΨ1
    (fun x t hx hxt ht hxtH => by
      have ht' : t ∈ Icc 0 τ := ⟨by linarith, ht⟩
      refine le_trans (mul_le_mul_of_nonneg_left ?_ (by linarith)) (hΨ2 x t hx hxt ht (hxtH.trans (min_le_right _ _)))
      refine (length_le_sum _).trans (le_of_eq ?_)
      rw [hr 0 t ht', hr 1 t ht', hr 2 t ht', ← hcall, ← hcall, ← hcall]
      rfl) dt hdt hint hle xs hu0 hx i hi
  have e0 : stateError (xs 0) (q 0) (w 0) = 0 := by
    rw [hx0]; unfold stateError; simp [length_eq_zero.2]
  rw [e0, hΨ3] at key
  have hsum : ∫ x in (0 : ℝ)..τ, (|r 0 x| + |r 1 x| + |r 2 x|) ≤ 3 * (E * (ζ₀ + K * ((n + 1) ^ 2 * eps))) := by
    have i0 := (hrc 0).abs.intervalIntegrable (μ := MeasureTheory.volume) 0 τ
    have i1 := (hrc 1).abs.intervalIntegrable (μ := MeasureTheory.volume) 0 τ
    have i2 := (hrc 2).abs.intervalIntegrable (μ := MeasureTheory.volume) 0 τ
    rw [intervalIntegral.integral_add (i0.add i1) i2, intervalIntegral.integral_add i0 i1]
    linarith [hri 0, hri 1, hri 2]
  have hi' : (i : ℝ) * dt ∈ Icc 0 τ := ⟨by positivity, hi⟩
  obtain ⟨k1, k2, k3⟩ := orientation_close key.1 (h.unit _ hi') key.2
  set δ := M * (0 + η + eps' + ((∫ x in (0 : ℝ)..τ, (|r 0 x| + |r 1 x| + |r 2 x|)) + η / τ * τ)) with hδ
  have hητ : η / τ * τ = η := by field_simp
  have hζη : 3 * (E * ζ₀) = η := by rw [hζ₀]; field_simp
  have hMη : M' * η = ε / 8 := by rw [hη]; field_simp
  set P := ((n : ℝ) + 1) ^ 2 * eps with hP
  have hP0 : 0 < P := by positivity
  have hδ1 : (Real.pi + 1) * δ ≤ 3 * (ε / 8) + M' * (1 + 3 * E * K) * (P + eps') := by
    have h3 : (Real.pi + 1) * δ ≤ M' * (0 + η + eps' + (3 * (E * (ζ₀ + K * P)) + η)) := by
      rw [hδ, hM', hητ, mul_assoc]
      refine mul_le_mul_of_nonneg_left (mul_le_mul_of_nonneg_left ?_ hM0.le) (by positivity)
      linarith
    have h4 : M' * (0 + η + eps' + (3 * (E * (ζ₀ + K * P)) + η)) =
        3 * (M' * η) + M' * (3 * (E * ζ₀) - η) + M' * (1 + 3 * E * K) * (P + eps') - M' * P - M' * (3 * E * K) * eps' := by ring
    rw [h4, hMη, hζη, sub_self, mul_zero] at h3
    have h5 : 0 ≤ M' * P := by positivity
    have h6 : 0 ≤ M' * (3 * E * K) * eps' := by positivity
    linarith
  have hint0 : 0 ≤ ∫ x in (0 : ℝ)..τ, (|r 0 x| + |r 1 x| + |r 2 x|) :=
    intervalIntegral.integral_nonneg hτ.le fun x _ => by positivity
  have hδ0 : 0 ≤ δ := by rw [hδ, hητ]; positivity
  have hlt : Real.pi * δ < ε + M' * (1 + 3 * E * K) * (P + eps') := by linarith
  have hlt' : δ < ε + M' * (1 + 3 * E * K) * (P + eps') := by
    have : 0 ≤ Real.pi * δ := by positivity
    linarith
  exact ⟨k1.trans_lt hlt, fun k => (k2 k).trans_lt hlt', fun k => (k3 k).trans_lt hlt'⟩

/-- What a Cartesian DMP does after it has imitated samples of a movement of an orientation. -/
theorem imitated_orientation {τ : ℝ} (hτ : 0 < τ) {q : ℝ → Vec 4} {w acc : ℝ → Vec 3} (h : OrientationMovement 0 τ q w acc)
    {afv : Bool} (hend : afv = true ∨ w τ = 0) (α β : Vec 3) (smooth : Bool)
    (hang : ∀ t ∈ Icc 0 τ, rotationAngle (q τ) (q t) < Real.pi) {reg : ℝ} (hreg : 0 ≤ reg) :
    ∃ C > 0, ∀ ε > 0, ∃ N, ∀ m : ℕ, N ≤ m → ∃ n0, ∀ n : ℕ, n0 ≤ n → ∀ s : CartesianDMP m, TimedCartesian s →
      s.executionTime = τ → angular s.alphaY = α → angular s.betaY = β → s.smooth = smooth →
      ∀ (ops : QuatOps) (eps : ℝ), LawfulQuatOps ops eps → 0 < eps → ∀ Y : Fin (n + 2) → Vec (3 + 4),
      (∀ i, orientation (Y i) = q (linspaceTimes τ n i)) →
      ∃ s', (CartesianDMP.imitate ops (quaternionGradient ops) (linspaceTimes τ n) Y reg afv).exec s = (.ok (), s') ∧
      s'.executionTime = τ ∧ orientation s'.startY = q 0 ∧
      ∃ H > 0, ∀ (qf : QuatStepFunction) (eps' dt intDt : ℝ) (yd : Vec 3), StepThreshold qf eps' → 0 < dt → 0 < intDt →
      min intDt dt ≤ H → ∀ xs : ℕ → Vec 4 × Vec 3, xs 0 = (q 0, w 0) →
      (∀ i : ℕ, qf.run { s'.rotArgs none with startYd := yd, intDt := intDt } (0 + i * dt) (0 + (i + 1) * dt) (xs i) =
        .ok (xs (i + 1))) → ∀ i : ℕ, i * dt ≤ τ →
      rotationAngle (xs i).1 (q (i * dt)) < ε + C * ((n + 1) ^ 2 * eps + eps') ∧
      (∀ k, |(xs i).1 k - q (i * dt) k| < ε + C * ((n + 1) ^ 2 * eps + eps')) ∧
      ∀ k, |(xs i).2 k - w (i * dt) k| < ε + C * ((n + 1) ^ 2 * eps + eps') := by
  obtain ⟨C, hC0, hC⟩ := learned_orientation hτ h hend α β smooth hang hreg
  refine ⟨C, hC0, fun ε hε => ?_⟩
  obtain ⟨N, hN⟩ := hC ε hε
  refine ⟨max N 2, fun m hm => ?_⟩
  obtain ⟨ft, hft⟩ := (DMP.initForcingTerm_isOk_iff (d := 3) (m := m) τ).2 ⟨(le_max_right _ _).trans hm, hτ⟩
  obtain ⟨n0, hn0⟩ := hN m ((le_max_left _ _).trans hm) ft hft
  refine ⟨n0, fun n hn s hs hsτ hsα hsβ hsm ops eps hops heps Y hY => ?_⟩
  have hTlast : linspaceTimes τ n (Fin.last (n + 1)) = τ := by
    simp only [linspaceTimes, Fin.val_last]; push_cast; field_simp
  have hT0 : linspaceTimes τ n 0 = 0 := by simp [linspaceTimes]
  obtain ⟨wp, wr, hs', -, ftr, hftr, hopt⟩ := C28_cartesian_imitate hs.reachable ops (quaternionGradient ops) (linspaceTimes τ n) Y
    hreg (by rw [hT0, hTlast]; exact hτ) afv
  -- forcing terms
  obtain ⟨ft', h1, h2⟩ := hs.rotForcingTerm
  rw [hsτ, hft] at h1
  obtain rfl := Except.ok.inj h1
  have hαz : s.ftRot.alphaZ = -Real.log (1 / 100) := by
    rw [h2]
    rw [DMP.initForcingTerm_ok_iff] at hft
    obtain ⟨-, -, -, rfl⟩ := create_ok hft
    rfl
  have hftr' : ftr = ft := by
    rw [hT0, hTlast, hαz] at hftr
    have h3 := hft
    rw [DMP.initForcingTerm_ok_iff, hftr] at h3
    exact Except.ok.inj h3
  subst hftr'
  set s' : CartesianDMP m := { s with startY := Y 0, goalY := Y (Fin.last _)
                                      ftPos := { s.ftPos with weights := wp }, ftRot := { s.ftRot with weights := wr } } with hs'def
  have hs'T : TimedCartesian s' := by
    have h3 := hs.op (.imitate ops (quaternionGradient ops) (linspaceTimes τ n) Y reg afv) (by intro τ h; cases h)
    simp only [CartesianOp.after] at h3
    rw [hs'] at h3
    exact h3
  have hYf : (fun t => orientation (Y t)) = fun i => q (linspaceTimes τ n i) := funext hY
  have e5 : orientation s'.goalY = q τ := by rw [hs'def]; simp only; rw [hY, hTlast]
  have e6 : orientation s'.startY = q 0 := by rw [hs'def]; simp only; rw [hY, hT0]
  obtain ⟨H, hH0, hH⟩ := hn0 n hn ops eps hops heps wr (fun V => by
    have h3 := (hopt V).1
    rw [hYf, hsα, hsβ, hsm, hαz] at h3
    exact h3)
  refine ⟨s', hs', hsτ, e6, H, hH0, fun qf eps' dt intDt yd hqf hdt hint hle xs hx0 hx => ?_⟩
  have hargs := (hs'T.followArgs τ).congr_args yd intDt
  have e1 : s'.executionTime = τ := hsτ
  have e2 : angular s'.alphaY = α := hsα
  have e3 : angular s'.betaY = β := hsβ
  have e4 : s'.smooth = smooth := hsm
  rw [e1, e2, e3, e4, e5, e6] at hargs
  refine hH _ hargs (fun t k => ?_) qf eps' dt hqf hdt hint hle xs hx0 hx
  show ({ s.ftRot with weights := wr } : ForcingTerm 3 m).call t k = _
  rw [h2]

/-- **C109 (orientations, `open_loop`).** Let `q` be a twice continuously differentiable movement of an orientation that starts at
rest and, unless `allow_final_velocity`, ends at rest, and that always is less than half a turn away from the final orientation. A
Cartesian DMP with enough weights that imitates sufficiently many equidistant samples of it, with any positions, reproduces it: for
all integrators with sufficiently small steps, `open_loop` returns at each time stamp up to `τ` the orientation of the movement up to
`ε` plus an error that is proportional to the thresholds below which the quaternion functions treat a rotation as zero. `imitate`
computes angular accelerations by second differences, which multiply its threshold `eps` with the squared number of samples. -/
theorem C109_orientation_open_loop {τ : ℝ} (hτ : 0 < τ) {q : ℝ → Vec 4} {w acc : ℝ → Vec 3}
    (h : OrientationMovement 0 τ q w acc) {afv : Bool} (hrest : w 0 = 0) (hend : afv = true ∨ w τ = 0) (α β : Vec 3)
    (smooth : Bool) (hang : ∀ t ∈ Icc 0 τ, rotationAngle (q τ) (q t) < Real.pi) {reg : ℝ} (hreg : 0 ≤ reg) :
    ∃ C, ∀ ε > 0, ∃ N, ∀ m : ℕ, N ≤ m → ∃ n0, ∀ n : ℕ, n0 ≤ n → ∀ s : CartesianDMP m, TimedCartesian s →
      s.executionTime = τ → angular s.alphaY = α → angular s.betaY = β → s.smooth = smooth →
      ∀ (ops : QuatOps) (eps : ℝ), LawfulQuatOps ops eps → 0 < eps → ∀ Y : Fin (n + 2) → Vec (3 + 4),
      (∀ i, orientation (Y i) = q (linspaceTimes τ n i)) →
      ∃ s', (CartesianDMP.imitate ops (quaternionGradient ops) (linspaceTimes τ n) Y reg afv).exec s = (.ok (), s') ∧
      ∃ h > 0, ∀ (name : String) (sf : StepFunction) (dt intDt : ℝ), StepFunction.lookup name = .ok sf → 0 < dt →
        0 < intDt → min intDt dt ≤ h → ∀ qname qf eps', QuatStepFunction.lookup ops qname = .ok qf → StepThreshold qf eps' →
        (∀ r : ℝ, 0 ≤ r → ∃ T P,
          ((CartesianDMP.openLoop ops (some r) none name qname).exec { s' with dt := dt, intDt := intDt }).1 = .ok (T, P)) ∧
        ∀ runT T P,
        ((CartesianDMP.openLoop ops runT none name qname).exec { s' with dt := dt, intDt := intDt }).1 = .ok (T, P) →
          ∀ i (hT : i < T.length) (hP : i < P.length), T[i] ≤ τ →
            rotationAngle (orientation P[i]) (q T[i]) < ε + C * ((n + 1) ^ 2 * eps + eps') ∧
            ∀ k, |orientation P[i] k - q T[i] k| < ε + C * ((n + 1) ^ 2 * eps + eps') := by
  obtain ⟨C, -, hC⟩ := imitated_orientation hτ h hend α β smooth hang hreg
  refine ⟨C, fun ε hε => ?_⟩
  obtain ⟨N, hN⟩ := hC ε hε
  refine ⟨N, fun m hm => ?_⟩
  obtain ⟨n0, hn0⟩ := hN m hm
  refine ⟨n0, fun n hn s hs hsτ hsα hsβ hsm ops eps hops heps Y hY => ?_⟩
  obtain ⟨s', him, hτ', hstart, H, hH0, hH⟩ := hn0 n hn s hs hsτ hsα hsβ hsm ops eps hops heps Y hY
  refine ⟨s', him, H, hH0, ?_⟩
  intro name sf dt intDt hname hdt hint hle qname qf eps' hqname hqf
  have hτs : 0 < s'.executionTime := by rw [hτ']; exact hτ
  refine ⟨fun r hr => CartesianDMP.openLoop_returns (s := { s' with dt := dt, intDt := intDt }) hname hqname hdt hτs hint hr, ?_⟩
  intro runT T P hex i hT hP hi
  obtain ⟨xs, hx0, hx, hrows⟩ := CartesianDMP.openLoop_orientations (s := { s' with dt := dt, intDt := intDt }) hname hqname hdt
    hτs hint
  obtain ⟨e1, e2⟩ := hrows runT T P hex i hT hP
  rw [e1] at hi ⊢
  rw [e2]
  have key := hH qf eps' dt intDt 0 hqf hdt hint hle xs (by rw [hx0, hstart, hrest]) hx i hi
  exact ⟨key.1, key.2.1⟩

/-- **C109 (orientations, `step`).** As C109 for `open_loop`, for executions with `step` after `imitate` on an object at time 0 that
start with the orientation and angular velocity of the movement, which need not start at rest: orientations and angular velocities
follow the movement. -/
theorem C109_orientation_step {τ : ℝ} (hτ : 0 < τ) {q : ℝ → Vec 4} {w acc : ℝ → Vec 3}
    (h : OrientationMovement 0 τ q w acc) {afv : Bool} (hend : afv = true ∨ w τ = 0) (α β : Vec 3)
    (smooth : Bool) (hang : ∀ t ∈ Icc 0 τ, rotationAngle (q τ) (q t) < Real.pi) {reg : ℝ} (hreg : 0 ≤ reg) :
    ∃ C, ∀ ε > 0, ∃ N, ∀ m : ℕ, N ≤ m → ∃ n0, ∀ n : ℕ, n0 ≤ n → ∀ s : CartesianDMP m, TimedCartesian s → s.t = 0 →
      s.executionTime = τ → angular s.alphaY = α → angular s.betaY = β → s.smooth = smooth →
      ∀ (ops : QuatOps) (eps : ℝ), LawfulQuatOps ops eps → 0 < eps → ∀ Y : Fin (n + 2) → Vec (3 + 4),
      (∀ i, orientation (Y i) = q (linspaceTimes τ n i)) →
      ∃ s', (CartesianDMP.imitate ops (quaternionGradient ops) (linspaceTimes τ n) Y reg afv).exec s = (.ok (), s') ∧
      ∃ h > 0, ∀ (sf : StepFunction) (qf : QuatStepFunction) (eps' dt intDt : ℝ), StepThreshold qf eps' → 0 < dt →
      0 < intDt → min intDt dt ≤ h →
      ∀ (obj : ℕ → CartesianDMP m) (fb out : ℕ → Vec (3 + 4) × Vec (3 + 3)), obj 0 = { s' with dt := dt, intDt := intDt } →
        Spec.Run (CartesianDMP.step none sf qf) obj fb out → orientation (fb 0).1 = q 0 → angular (fb 0).2 = w 0 →
        (∀ i, fb (i + 1) = out i) → ∀ i : ℕ, (i + 1) * dt ≤ τ →
        rotationAngle (orientation (out i).1) (q ((i + 1) * dt)) < ε + C * ((n + 1) ^ 2 * eps + eps') ∧
        ∀ k, |angular (out i).2 k - w ((i + 1) * dt) k| < ε + C * ((n + 1) ^ 2 * eps + eps') := by
  obtain ⟨C, -, hC⟩ := imitated_orientation hτ h hend α β smooth hang hreg
  refine ⟨C, fun ε hε => ?_⟩
  obtain ⟨N, hN⟩ := hC ε hε
  refine ⟨N, fun m hm => ?_⟩
  obtain ⟨n0, hn0⟩ := hN m hm
  refine ⟨n0, fun n hn s hs hst hsτ hsα hsβ hsm ops eps hops heps Y hY => ?_⟩
  obtain ⟨s', him, hτ', hstart, H, hH0, hH⟩ := hn0 n hn s hs hsτ hsα hsβ hsm ops eps hops heps Y hY
  have ht : s'.t = 0 := by
    have hTlast : linspaceTimes τ n (Fin.last (n + 1)) = τ := by
      simp only [linspaceTimes, Fin.val_last]; push_cast; field_simp
    have hT0 : linspaceTimes τ n 0 = 0 := by simp [linspaceTimes]
    obtain ⟨wp, wr, hs', -⟩ := C28_cartesian_imitate hs.reachable ops (quaternionGradient ops) (linspaceTimes τ n) Y
      hreg (by rw [hT0, hTlast]; exact hτ) afv
    rw [hs'] at him
    rw [← (Prod.mk.inj him).2]
    exact hst
  refine ⟨s', him, H, hH0, ?_⟩
  intro sf qf eps' dt intDt hqf hdt hint hle obj fb out h0 hrun hq0 hw0 hfb i hi
  have hrun' := CartesianDMP.run_objects hrun
  have key := hH qf eps' dt intDt (sliceFrom s'.startYd) hqf hdt hint hle
    (fun i => (orientation (fb i).1, angular (fb i).2)) (by simp only [hq0, hw0]) (fun i => by
      have := (hrun' i).2.2
      rw [h0] at this
      simp only [ht] at this
      rw [hfb]
      exact this) (i + 1) (by push_cast; exact hi)
  simp only [hfb] at key
  push_cast at key
  exact ⟨key.1, key.2.2⟩

/-- A movement that turns by 1 rad about the first axis. -/
theorem exists_orientation_movement : ∃ (q : ℝ → Vec 4) (w acc : ℝ → Vec 3), OrientationMovement 0 1 q w acc ∧ w 0 = 0 ∧
    w 1 = 0 ∧ (∀ t ∈ Icc 0 1, rotationAngle (q 1) (q t) < Real.pi) ∧ rotationAngle (q 1) (q 0) = 1 := by
  have hl : length ![1, 0, 0] = 1 := by simp [length]
  have hp : UnitQuat ![1, 0, 0, 0] := by simp [UnitQuat]
  have hr : quat (turn ![1, 0, 0] ![1, 0, 0, 0] 1) * star (quat ![1, 0, 0, 0]) = rot ![1, 0, 0] := by
    have : quat ![1, 0, 0, 0] = 1 := by ext <;> simp [quat]
    rw [quat_turn, one_smul, this]; simp
  have hi : ∀ x : ℝ, 0 ≤ x → x ≤ 1 → rotationAngle (turn ![1, 0, 0] ![1, 0, 0, 0] 1) (turn ![1, 0, 0] ![1, 0, 0, 0] x) =
      1 - x := by
    intro x h0 h1
    have h2 : length ((1 - x) • ![1, 0, 0]) = 1 - x := by rw [length_smul, hl, abs_of_nonneg (by linarith), mul_one]
    rw [Spec.IsRotationTo.angle (a := (1 - x) • ![1, 0, 0]) ⟨by rw [h2]; linarith [Real.two_le_pi], turn_remaining (.inl hr) x⟩,
      h2]
  refine ⟨_, _, _, turn_movement ![1, 0, 0] hp (φ := fun t => 3 * t ^ 2 - 2 * t ^ 3) (φ' := fun t => 6 * t - 6 * t ^ 2)
    (φ'' := fun t => 6 - 12 * t) (fun t _ => ?_) (fun t _ => ?_) (by fun_prop), ?_, ?_, fun t ht => ?_, ?_⟩
  · have := ((hasDerivAt_pow 2 t).const_mul 3).sub ((hasDerivAt_pow 3 t).const_mul 2)
    refine (this.congr_deriv ?_).hasDerivWithinAt
    norm_num; ring
  · have := ((hasDerivAt_id t).const_mul 6).sub ((hasDerivAt_pow 2 t).const_mul 6)
    refine (this.congr_deriv ?_).hasDerivWithinAt
    norm_num; ring
  · simp
  · norm_num
  · have h1 : (0 : ℝ) ≤ 3 * t ^ 2 - 2 * t ^ 3 := by nlinarith [ht.1, ht.2, mul_nonneg (sq_nonneg t) (sub_nonneg.2 ht.2), sq_nonneg t]
    have h2 : 3 * t ^ 2 - 2 * t ^ 3 ≤ 1 := by
      nlinarith [mul_nonneg (sq_nonneg (1 - t)) (show (0 : ℝ) ≤ 1 + 2 * t by linarith [ht.1])]
    rw [show (3 : ℝ) * 1 ^ 2 - 2 * 1 ^ 3 = 1 by norm_num, hi _ h1 h2]
    linarith [Real.two_le_pi]
  · rw [show (3 : ℝ) * 1 ^ 2 - 2 * 1 ^ 3 = 1 by norm_num, hi _ (by norm_num) (by norm_num)]
    norm_num

/-- A movement that meets the hypotheses of C109 for orientations: it turns by 1 rad about the first axis in 1 s, starts at rest and
ends at rest. There are quaternion operations with each threshold, and Cartesian DMPs with each execution time. -/
example : (∃ (q : ℝ → Vec 4) (w acc : ℝ → Vec 3), OrientationMovement 0 1 q w acc ∧ w 0 = 0 ∧ w 1 = 0 ∧
    (∀ t ∈ Icc 0 1, rotationAngle (q 1) (q t) < Real.pi) ∧ rotationAngle (q 1) (q 0) = 1) ∧
    (∃ (ops : QuatOps), LawfulQuatOps ops (1 / 10 ^ 8)) ∧
    ∃ s : CartesianDMP 10, TimedCartesian s ∧ s.executionTime = 1 ∧ s.t = 0 := by
  refine ⟨exists_orientation_movement, ⟨_, lawful_python (by norm_num)⟩, ?_⟩
  · obtain ⟨s, hs, h1, h2, h3, h4, h5, h6, h7, h8, h9, h10, h11⟩ := CartesianDMP.exists_timed (m := 10) (by norm_num) one_pos
      (1 / 100) (1 / 1000) false (fun _ => 25) (fun _ => 25 / 4) ![0, 0, 0, 1, 0, 0, 0] 0 (fun _ _ => 0) (fun _ _ => 0)
    exact ⟨s, hs, h1, h11⟩

end Verif
