import Verif.Lemmas.Toy
import Verif.Spec.Toy

/-!
# C60: the toy data covariance is well defined
-/

namespace Verif
open Matrix

/-- Row `r` of the finite difference matrix computes the acceleration at sample `r - 1`. -/
theorem C60_second_differences (n : ℕ) (dt : ℝ) (x : Vec n) (r : Fin (n + 2)) :
    (createFiniteDifferencesMatrix1d n dt *ᵥ x) r = Spec.secondDifference x dt ((r.val : ℤ) - 1) := by
  have hsum : ∀ (k : ℤ) (c : ℝ), ∑ j : Fin n, (if (j.val : ℤ) = k then c else 0) * x j = c * Spec.padded x k := by
    intro k c
    unfold Spec.padded
    by_cases h : 0 ≤ k ∧ k < n
    · rw [dif_pos h, Finset.sum_eq_single ⟨k.toNat, by omega⟩]
      · rw [if_pos (by simp; omega)]
      · intro b _ hb
        rw [if_neg, zero_mul]
        intro hbk
        apply hb
        apply Fin.ext
        simp only
        omega
      · intro h0; exact absurd (Finset.mem_univ _) h0
    · rw [dif_neg h, mul_zero]
      refine Finset.sum_eq_zero fun b _ => ?_
      rw [if_neg, zero_mul]
      have := b.isLt
      omega
  have h1 := hsum ((r.val : ℤ)) 1
  have h2 := hsum ((r.val : ℤ) - 1) (-2)
  have h3 := hsum ((r.val : ℤ) - 2) 1
  unfold Spec.secondDifference
  have e1 : (r.val : ℤ) - 1 - 1 = r.val - 2 := by ring
  have e2 : (r.val : ℤ) - 1 + 1 = r.val := by ring
  rw [e1, e2]
  have : Spec.padded x ((r.val : ℤ) - 2) - 2 * Spec.padded x ((r.val : ℤ) - 1) + Spec.padded x (r.val : ℤ) =
      1 * Spec.padded x (r.val : ℤ) + -2 * Spec.padded x ((r.val : ℤ) - 1)
        + 1 * Spec.padded x ((r.val : ℤ) - 2) := by ring
  rw [this, ← h1, ← h2, ← h3, ← Finset.sum_add_distrib, ← Finset.sum_add_distrib, Finset.sum_div]
  simp only [mulVec, dotProduct]
  refine Finset.sum_congr rfl fun j _ => ?_
  rw [createFiniteDifferencesMatrix1d_apply]
  by_cases a1 : r.val = j.val
  · rw [if_pos a1, if_pos (by omega), if_neg (by omega), if_neg (by omega)]; ring
  by_cases a2 : r.val = j.val + 1
  · rw [if_neg a1, if_pos a2, if_neg (by omega), if_pos (by omega), if_neg (by omega)]; ring
  by_cases a3 : r.val = j.val + 2
  · rw [if_neg a1, if_neg a2, if_pos a3, if_neg (by omega), if_neg (by omega), if_pos (by omega)]; ring
  · rw [if_neg a1, if_neg a2, if_neg a3, if_neg (by omega), if_neg (by omega), if_neg (by omega)]; ring

/-- C60: the finite difference matrix has full column rank for every number of steps: only the zero trajectory
has zero accelerations. -/
theorem C60_full_column_rank (n : ℕ) {dt : ℝ} (hdt : dt ≠ 0) :
    Function.Injective (createFiniteDifferencesMatrix1d n dt).mulVec := by
  intro x y hxy
  have h : createFiniteDifferencesMatrix1d n dt *ᵥ (x - y) = 0 := by
    rw [mulVec_sub]; simpa [sub_eq_zero] using hxy
  exact sub_eq_zero.mp (finiteDifferences_injective n hdt _ h)

/-- C60: the matrix that is inverted is invertible, and the covariance is symmetric positive definite and has
exactly one Cholesky factor. -/
theorem C60_covariance (n : ℕ) {dt : ℝ} (hdt : dt ≠ 0) :
    ∃ cov : Matrix (Fin n) (Fin n) ℝ,
      npInv ((createFiniteDifferencesMatrix1d n dt)ᵀ * createFiniteDifferencesMatrix1d n dt) = .ok cov ∧
      (createFiniteDifferencesMatrix1d n dt)ᵀ * createFiniteDifferencesMatrix1d n dt * cov = 1 ∧
      cov.PosDef ∧ ∃ L, npCholesky cov = .ok L ∧ IsCholesky L cov ∧ ∀ M, IsCholesky M cov → M = L := by
  have hP := gram_posDef _ (finiteDifferences_injective n hdt)
  set G := (createFiniteDifferencesMatrix1d n dt)ᵀ * createFiniteDifferencesMatrix1d n dt with hG
  have hdet : G.det ≠ 0 := hP.det_pos.ne'
  have hc : G⁻¹.PosDef := hP.inv
  have hex := exists_isCholesky hc
  refine ⟨G⁻¹, ?_, mul_nonsing_inv _ (isUnit_iff_ne_zero.mpr hdet), hc, hex.choose, ?_, hex.choose_spec,
    fun M hM => hM.unique hex.choose_spec⟩
  · unfold npInv; rw [if_neg hdet]
  · unfold npCholesky; rw [dif_pos hex]

/-- C60: data generation fails exactly for one step (division by zero). Otherwise the times are evenly spaced in
[0, 1] and every demonstration is a cosine plus a line between two random offsets plus smooth noise: `L` is the
Cholesky factor of the inverse Gram matrix of the accelerations, so that the sum of the squared accelerations of
the noise `L z` is the squared norm of the random vector `z`. -/
theorem C60_generate (nDemos n : ℕ) (r0 r1 noise : ℝ) (draws : Fin nDemos → ToyDraws n) :
    (n = 1 → generate1dTrajectoryDistribution nDemos n r0 r1 noise draws = .error .zeroDivisionError) ∧
    (n ≠ 1 → ∃ (Y : Fin nDemos → Vec n) (L : Matrix (Fin n) (Fin n) ℝ),
      generate1dTrajectoryDistribution nDemos n r0 r1 noise draws
        = .ok ((fun k => (k.val : ℝ) / ((n : ℝ) - 1)), Y) ∧
      (∀ i j, i < j → L i j = 0) ∧
      (∀ z, Spec.roughness (L *ᵥ z) (1 / ((n : ℝ) - 1)) = ∑ k, z k ^ 2) ∧
      ∀ demo k, Y demo k = Real.cos (2 * Real.pi * ((k.val : ℝ) / ((n : ℝ) - 1)))
        + ((1 - (k.val : ℝ) / ((n : ℝ) - 1)) * (r0 * ((draws demo).u - 1 / 2))
          + (k.val : ℝ) / ((n : ℝ) - 1) * (r1 * ((draws demo).v - 1 / 2)))
        + noise * (L *ᵥ (draws demo).z) k) := by
  constructor
  · rintro rfl
    unfold generate1dTrajectoryDistribution
    simp; rfl
  · intro hn
    have hn' : (n : ℝ) - 1 ≠ 0 := by
      intro h
      apply hn
      have : (n : ℝ) = 1 := by linarith
      exact_mod_cast this
    have hdt : (1 : ℝ) / ((n : ℝ) - 1) ≠ 0 := one_div_ne_zero hn'
    obtain ⟨cov, hinv, hmul, -, L, hchol, hL, -⟩ := C60_covariance n hdt
    have hlin : linspace 0 1 n = fun k : Fin n => (k.val : ℝ) / ((n : ℝ) - 1) := by
      funext k; simp [linspace, linspace01, hn]
    refine ⟨fun demo k => Real.cos (2 * Real.pi * ((k.val : ℝ) / ((n : ℝ) - 1)))
        + ((1 - (k.val : ℝ) / ((n : ℝ) - 1)) * (r0 * ((draws demo).u - 1 / 2))
          + (k.val : ℝ) / ((n : ℝ) - 1) * (r1 * ((draws demo).v - 1 / 2)))
        + noise * (L *ᵥ (draws demo).z) k, L, ?_, hL.lower, ?_, fun _ _ => rfl⟩
    · unfold generate1dTrajectoryDistribution
      simp only [if_neg hn', hinv, hlin]
      change (npCholesky cov >>= _) = _
      rw [hchol]
      refine congrArg Except.ok (Prod.ext rfl ?_)
      funext demo k
      simp only
      by_cases h0 : r0 ≠ 0 ∨ r1 ≠ 0
      · rw [if_pos h0]
        by_cases hz : noise ≠ 0
        · rw [if_pos hz]
          simp only [linspace, linspace01, if_neg hn]
          norm_num
          ring
        · rw [if_neg hz]
          simp only [linspace, linspace01, if_neg hn, not_not.mp hz]
          norm_num
          ring
      · rw [if_neg h0]
        push Not at h0
        by_cases hz : noise ≠ 0
        · rw [if_pos hz, h0.1, h0.2]; ring
        · rw [if_neg hz, not_not.mp hz, h0.1, h0.2]; ring
    · intro z
      have h1 : Spec.roughness (L *ᵥ z) (1 / ((n : ℝ) - 1)) =
          (createFiniteDifferencesMatrix1d n (1 / ((n : ℝ) - 1)) *ᵥ (L *ᵥ z)) ⬝ᵥ
          (createFiniteDifferencesMatrix1d n (1 / ((n : ℝ) - 1)) *ᵥ (L *ᵥ z)) := by
        unfold Spec.roughness
        simp only [dotProduct, C60_second_differences, sq]
      set A := createFiniteDifferencesMatrix1d n (1 / ((n : ℝ) - 1)) with hA
      have h2 : Lᵀ * (Aᵀ * A) * L = 1 := by
        -- `G (L Lᵀ) = 1`, so `Lᵀ G` is the inverse of `L`
        have hG : (Aᵀ * A * L) * Lᵀ = 1 := by rw [Matrix.mul_assoc, hL.mul_transpose]; exact hmul
        have := mul_eq_one_comm.mp hG
        rw [Matrix.mul_assoc]; exact this
      rw [h1]
      have h3 : (A *ᵥ (L *ᵥ z)) ⬝ᵥ (A *ᵥ (L *ᵥ z)) = z ⬝ᵥ (Lᵀ * (Aᵀ * A) * L) *ᵥ z := by
        rw [mulVec_mulVec, dotProduct_comm, dotProduct_mulVec, ← mulVec_transpose, mulVec_mulVec,
          transpose_mul, dotProduct_comm]
        simp only [Matrix.mul_assoc]
      first
        | rw [h3, h2, one_mulVec]; simp [dotProduct, sq]
        | rw [mulVec_mulVec] at h3; rw [h3, h2, one_mulVec]; simp [dotProduct, sq]

/-- A run with three demonstrations of five steps meets the condition. -/
example : (5 : ℕ) ≠ 1 := by norm_num

/-- Without noise, and with uniform numbers in [0, 1], all demonstrations start within half of the initial
range from the start of the cosine and end within half of the final range from its end. -/
theorem C60_offsets (nDemos n : ℕ) (r0 r1 : ℝ) (h0 : 0 ≤ r0) (h1 : 0 ≤ r1) (draws : Fin nDemos → ToyDraws (n + 2))
    (hu : ∀ i, 0 ≤ (draws i).u ∧ (draws i).u ≤ 1) (hv : ∀ i, 0 ≤ (draws i).v ∧ (draws i).v ≤ 1) :
    ∃ T Y, generate1dTrajectoryDistribution nDemos (n + 2) r0 r1 0 draws = .ok (T, Y) ∧
      T 0 = 0 ∧ T (Fin.last _) = 1 ∧
      ∀ demo, |Y demo 0 - 1| ≤ r0 / 2 ∧ |Y demo (Fin.last _) - 1| ≤ r1 / 2 := by
  obtain ⟨Y, L, hgen, -, -, hY⟩ := (C60_generate nDemos (n + 2) r0 r1 0 draws).2 (by omega)
  have hne : ((n + 2 : ℕ) : ℝ) - 1 ≠ 0 := by
    have : (0 : ℝ) ≤ n := Nat.cast_nonneg n
    push_cast; linarith
  have hlast : (((Fin.last (n + 1)).val : ℕ) : ℝ) / (((n + 2 : ℕ) : ℝ) - 1) = 1 := by
    rw [div_eq_one_iff_eq hne]; simp; ring
  refine ⟨_, Y, hgen, by simp, hlast, fun demo => ⟨?_, ?_⟩⟩
  · rw [hY demo 0]
    obtain ⟨a, b⟩ := hu demo
    simp only [Fin.val_zero, Nat.cast_zero, zero_div, mul_zero, Real.cos_zero]
    rw [abs_le]; constructor <;> nlinarith
  · rw [hY demo (Fin.last _), hlast, mul_one, Real.cos_two_pi]
    obtain ⟨a, b⟩ := hv demo
    rw [abs_le]; constructor <;> nlinarith

example : ∃ draws : Fin 3 → ToyDraws (3 + 2), (∀ i, 0 ≤ (draws i).u ∧ (draws i).u ≤ 1) ∧
    (∀ i, 0 ≤ (draws i).v ∧ (draws i).v ≤ 1) ∧ ∃ i, (draws i).u ≠ 0 :=
  ⟨fun _ => ⟨1 / 4, 1 / 2, fun _ => 1⟩, fun _ => by norm_num, fun _ => by norm_num, 0, by norm_num⟩

end Verif
