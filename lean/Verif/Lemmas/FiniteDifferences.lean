import Mathlib.Analysis.Calculus.Deriv.MeanValue
import Mathlib.Analysis.Calculus.Deriv.Pow
import Verif.Spec.Imitate

/-!
# Finite differences of equidistant samples of a movement
-/

namespace Verif
open Set Spec

/-- Mean value theorem for a function that is differentiable on an interval. -/
theorem mean_value {τ : ℝ} {y v : ℝ → ℝ} (h : ∀ t ∈ Icc 0 τ, HasDerivWithinAt y (v t) (Icc 0 τ) t) {p q : ℝ} (hp : 0 ≤ p)
    (hpq : p < q) (hq : q ≤ τ) : ∃ ξ ∈ Ioo p q, y q - y p = v ξ * (q - p) := by
  have hsub : Icc p q ⊆ Icc 0 τ := Icc_subset_Icc hp hq
  obtain ⟨ξ, hξ, e⟩ := exists_hasDerivAt_eq_slope y v hpq
    (fun x hx => ((h x (hsub hx)).continuousWithinAt).mono hsub)
    (fun x hx => (h x (hsub (Ioo_subset_Icc_self hx))).hasDerivAt
      (Icc_mem_nhds (hp.trans_lt hx.1) (hx.2.trans_le hq)))
  refine ⟨ξ, hξ, ?_⟩
  rw [e, div_mul_cancel₀]
  linarith [hξ.1, hξ.2]

/-- A bound on the derivative is a Lipschitz constant. -/
theorem mean_value_le {τ M : ℝ} {v a : ℝ → ℝ} (h : ∀ t ∈ Icc 0 τ, HasDerivWithinAt v (a t) (Icc 0 τ) t) {p q : ℝ}
    (hp : p ∈ Icc 0 τ) (hq : q ∈ Icc 0 τ) (hM : ∀ x ∈ Icc 0 τ, x ∈ uIcc p q → |a x| ≤ M) : |v q - v p| ≤ M * |q - p| := by
  rcases lt_trichotomy p q with hpq | hpq | hpq
  · obtain ⟨ξ, hξ, e⟩ := mean_value h hp.1 hpq hq.2
    rw [e, abs_mul]
    exact mul_le_mul_of_nonneg_right (hM ξ ⟨hp.1.trans hξ.1.le, hξ.2.le.trans hq.2⟩
      (by rw [uIcc_of_le hpq.le]; exact Ioo_subset_Icc_self hξ)) (abs_nonneg _)
  · simp [hpq]
  · obtain ⟨ξ, hξ, e⟩ := mean_value h hq.1 hpq hp.2
    rw [abs_sub_comm, e, abs_mul, abs_sub_comm q p]
    exact mul_le_mul_of_nonneg_right (hM ξ ⟨hq.1.trans hξ.1.le, hξ.2.le.trans hp.2⟩
      (by rw [uIcc_of_ge hpq.le]; exact Ioo_subset_Icc_self hξ)) (abs_nonneg _)

/-- Second difference of a twice differentiable function. -/
theorem second_difference {τ : ℝ} {y v a : ℝ → ℝ} (hy : ∀ t ∈ Icc 0 τ, HasDerivWithinAt y (v t) (Icc 0 τ) t)
    (hv : ∀ t ∈ Icc 0 τ, HasDerivWithinAt v (a t) (Icc 0 τ) t) {t s ω : ℝ} (hs : 0 < s) (h0 : 0 ≤ t - s) (h1 : t + s ≤ τ)
    (hω : ∀ x ∈ Icc 0 τ, |x - t| ≤ s → |a x - a t| ≤ ω) :
    |y (t + s) - 2 * y t + y (t - s) - s ^ 2 * a t| ≤ 2 * s ^ 2 * ω := by
  have hω0 : 0 ≤ ω := (abs_nonneg _).trans (hω t ⟨by linarith, by linarith⟩ (by simpa using hs.le))
  let q : ℝ → ℝ := fun x => y x - a t * (x - t) ^ 2 / 2
  let q' : ℝ → ℝ := fun x => v x - a t * (x - t)
  have hq : ∀ x ∈ Icc 0 τ, HasDerivWithinAt q (q' x) (Icc 0 τ) x := by
    intro x hx
    have h2 := (((hasDerivAt_id x).sub_const t).pow 2).const_mul (a t)
    have h3 := (h2.div_const 2).hasDerivWithinAt (s := Icc 0 τ)
    have := (hy x hx).sub h3
    refine this.congr_deriv ?_
    simp only [q', id]
    norm_num
    ring
  have hq' : ∀ x ∈ Icc 0 τ, HasDerivWithinAt q' (a x - a t) (Icc 0 τ) x := by
    intro x hx
    have h3 := (((hasDerivAt_id x).sub_const t).const_mul (a t)).hasDerivWithinAt (s := Icc 0 τ)
    have := (hv x hx).sub h3
    refine this.congr_deriv ?_
    ring
  obtain ⟨ξ1, hξ1, e1⟩ := mean_value hq (p := t) (q := t + s) (by linarith) (by linarith) h1
  obtain ⟨ξ2, hξ2, e2⟩ := mean_value hq (p := t - s) (q := t) h0 (by linarith) (by linarith)
  have hlip := mean_value_le hq' (p := ξ2) (q := ξ1) (M := ω) ⟨by linarith [hξ2.1], by linarith [hξ2.2]⟩
    ⟨by linarith [hξ1.1], by linarith [hξ1.2]⟩ (by
      intro x hx hx'
      rw [uIcc_of_le (by linarith [hξ1.1, hξ2.2])] at hx'
      refine hω x hx (abs_le.2 ⟨?_, ?_⟩)
      · linarith [hx'.1, hξ2.1]
      · linarith [hx'.2, hξ1.2])
  have e : y (t + s) - 2 * y t + y (t - s) - s ^ 2 * a t = s * (q' ξ1 - q' ξ2) := by
    have h3 : q (t + s) - q t - (q t - q (t - s)) = s * (q' ξ1 - q' ξ2) := by rw [e1, e2]; ring
    rw [← h3]
    simp only [q]
    ring
  rw [e, abs_mul, abs_of_pos hs]
  have h4 : |ξ1 - ξ2| ≤ 2 * s := by
    rw [abs_of_nonneg (by linarith [hξ1.1, hξ2.2])]
    linarith [hξ1.2, hξ2.1]
  calc s * |q' ξ1 - q' ξ2| ≤ s * (ω * (2 * s)) :=
        mul_le_mul_of_nonneg_left (hlip.trans (mul_le_mul_of_nonneg_left h4 hω0)) hs.le
    _ = _ := by ring

/-- Finite differences of equidistant samples, in terms of the movement. -/
theorem finite_differences {τ : ℝ} (hτ : 0 < τ) {y v a : ℝ → ℝ}
    (hy : ∀ t ∈ Icc 0 τ, HasDerivWithinAt y (v t) (Icc 0 τ) t)
    (hv : ∀ t ∈ Icc 0 τ, HasDerivWithinAt v (a t) (Icc 0 τ) t) {M : ℝ} (hM : ∀ t ∈ Icc 0 τ, |a t| ≤ M) {n : ℕ}
    {T Yd Ydd : Fin (n + 2) → ℝ} (hT : ∀ i, T i = i * (τ / (n + 1)))
    (hYd : ∀ i, Yd i = finiteDifference T (fun i => y (T i)) i ∨ (i = Fin.last (n + 1) ∧ Yd i = 0 ∧ v τ = 0))
    (hYdd : ∀ i, i ≠ Fin.last (n + 1) → Ydd i = finiteDifference T Yd i) (hlast : Ydd (Fin.last (n + 1)) = 0) :
    (∀ i, |Yd i - v (T i)| ≤ M * (τ / (n + 1))) ∧ (∀ i, |Ydd i - a (T i)| ≤ 4 * M) ∧
    ∀ i : Fin (n + 2), 2 ≤ i.val → i.val + 2 ≤ n + 1 → ∀ ω,
      (∀ x ∈ Icc 0 τ, ∀ x' ∈ Icc 0 τ, |x - x'| ≤ 2 * (τ / (n + 1)) → |a x - a x'| ≤ ω) → |Ydd i - a (T i)| ≤ 2 * ω := by
  set h := τ / (n + 1) with hh
  have hpos : 0 < h := by positivity
  have hend : ((n : ℝ) + 1) * h = τ := by rw [hh]; field_simp
  have hmem : ∀ i, T i ∈ Icc 0 τ := by
    intro i
    rw [hT]
    refine ⟨by positivity, ?_⟩
    rw [← hend]
    have : ((i : ℕ) : ℝ) ≤ n + 1 := by exact_mod_cast Nat.lt_succ_iff.1 i.isLt
    exact mul_le_mul_of_nonneg_right this hpos.le
  have hTlast : T (Fin.last (n + 1)) = τ := by rw [hT, ← hend]; push_cast [Fin.val_last]; ring
  have hM0 : 0 ≤ M := (abs_nonneg _).trans (hM 0 ⟨le_rfl, hτ.le⟩)
  have hlip : ∀ p ∈ Icc 0 τ, ∀ q ∈ Icc 0 τ, |v q - v p| ≤ M * |q - p| := fun p hp q hq =>
    mean_value_le hv hp hq fun x hx _ => hM x hx
  -- neighbours
  have hnb : ∀ (x : Fin (n + 2) → ℝ) (i : Fin (n + 2)), ∃ p q : Fin (n + 2), finiteDifference T x i = (x q - x p) / (T q - T p) ∧
      |T p - T i| ≤ h ∧ |T q - T i| ≤ h ∧ h ≤ T q - T p ∧ T p ≤ T i ∧ T i ≤ T q := by
    intro x i
    refine ⟨⟨i.val - 1, by omega⟩, if h : i.val + 1 < n + 2 then ⟨i.val + 1, h⟩ else i, rfl, ?_⟩
    have hi := i.isLt
    rcases Nat.eq_zero_or_pos i.val with h0 | h0
    · rw [dif_pos (by omega)]
      simp only [hT, h0]
      norm_num
      exact ⟨hpos.le, (abs_of_pos hpos).le, hpos.le⟩
    · have e : ((i.val - 1 : ℕ) : ℝ) = (i.val : ℝ) - 1 := by rw [Nat.cast_sub h0]; simp
      have e1 : ((i : ℕ) : ℝ) * h - (i.val - 1) * h = h := by ring
      split_ifs with hc
      · simp only [hT, e]
        push_cast
        refine ⟨?_, ?_, by linarith, by linarith, by linarith⟩
        · rw [abs_le]; constructor <;> linarith
        · rw [abs_le]; constructor <;> linarith
      · simp only [hT, e]
        refine ⟨?_, by simpa using hpos.le, by linarith, by linarith, le_rfl⟩
        rw [abs_le]; constructor <;> linarith
  -- velocities
  have hξ : ∀ i, ∃ ξ ∈ Icc 0 τ, |ξ - T i| ≤ h ∧ Yd i = v ξ := by
    intro i
    rcases hYd i with hi | ⟨hi, h1, h2⟩
    · obtain ⟨p, q, e, h1, h2, h3, h4, h5⟩ := hnb (fun i => y (T i)) i
      obtain ⟨ξ, hξ, e'⟩ := mean_value hy (hmem p).1 (show T p < T q by linarith) (hmem q).2
      refine ⟨ξ, ⟨(hmem p).1.trans hξ.1.le, hξ.2.le.trans (hmem q).2⟩, ?_, ?_⟩
      · rw [abs_le] at h1 h2 ⊢
        constructor <;> linarith [hξ.1, hξ.2]
      · rw [hi, e, e', mul_div_cancel_right₀]
        linarith
    · exact ⟨τ, ⟨hτ.le, le_rfl⟩, by rw [hi, hTlast]; simpa using hpos.le, by rw [h1, h2]⟩
  refine ⟨?_, ?_, ?_⟩
  · intro i
    obtain ⟨ξ, h1, h2, e⟩ := hξ i
    rw [e]
    exact (hlip _ (hmem i) _ h1).trans (mul_le_mul_of_nonneg_left h2 hM0)
  · intro i
    have h1 : |Ydd i| ≤ 3 * M := by
      by_cases hi : i = Fin.last (n + 1)
      · rw [hi, hlast, abs_zero]; positivity
      · rw [hYdd i hi]
        obtain ⟨p, q, e, h1, h2, h3, h4, h5⟩ := hnb Yd i
        obtain ⟨ξ1, hm1, hd1, e1⟩ := hξ p
        obtain ⟨ξ2, hm2, hd2, e2⟩ := hξ q
        have hgap : 0 < T q - T p := by linarith
        rw [e, e1, e2, abs_div, abs_of_pos hgap, div_le_iff₀ hgap]
        refine (hlip _ hm1 _ hm2).trans ?_
        have : |ξ2 - ξ1| ≤ 3 * (T q - T p) := by
          rw [abs_le] at hd1 hd2 ⊢
          constructor <;> linarith
        calc M * |ξ2 - ξ1| ≤ M * (3 * (T q - T p)) := mul_le_mul_of_nonneg_left this hM0
          _ = _ := by ring
    have := abs_sub (Ydd i) (a (T i))
    linarith [hM _ (hmem i)]
  · intro i h2 hn ω hω
    have hne : ∀ j : ℕ, j < n + 1 → ∀ hj : j < n + 2, (⟨j, hj⟩ : Fin (n + 2)) ≠ Fin.last (n + 1) := by
      intro j hj hj' e
      have := congrArg Fin.val e
      simp at this
      omega
    have hi := i.isLt
    have hcent : ∀ (x : Fin (n + 2) → ℝ) (j : ℕ) (h1 : 1 ≤ j) (h2 : j + 1 < n + 2),
        finiteDifference T x ⟨j, by omega⟩ = (x ⟨j + 1, h2⟩ - x ⟨j - 1, by omega⟩) / (2 * h) := by
      intro x j h1 h2
      unfold finiteDifference
      simp only
      rw [dif_pos h2]
      congr 1
      simp only [hT]
      rw [Nat.cast_sub h1]
      push_cast
      ring
    have hyd : ∀ (j : ℕ) (h1 : 1 ≤ j) (h2 : j + 1 < n + 2),
        Yd ⟨j, by omega⟩ = (y (T ⟨j + 1, h2⟩) - y (T ⟨j - 1, by omega⟩)) / (2 * h) := by
      intro j h1 h2
      rcases hYd ⟨j, by omega⟩ with hj | ⟨hj, -⟩
      · rw [hj, hcent _ j h1 h2]
      · exact absurd hj (hne j (by omega) _)
    have e1 : Ydd i = (Yd ⟨i + 1, by omega⟩ - Yd ⟨i - 1, by omega⟩) / (2 * h) := by
      rw [hYdd i (by intro e; have := congrArg Fin.val e; simp at this; omega)]
      exact hcent Yd i.val (by omega) (by omega)
    rw [hyd (i + 1) (by omega) (by omega), hyd (i - 1) (by omega) (by omega)] at e1
    have t1 : T ⟨i + 1 + 1, by omega⟩ = T i + 2 * h := by simp only [hT]; push_cast; ring
    have t2 : T ⟨i + 1 - 1, by omega⟩ = T i := by simp only [hT]; simp
    have t3 : T ⟨i - 1 + 1, by omega⟩ = T i := by
      simp only [hT]
      rw [Nat.sub_add_cancel (by omega)]
    have t4 : T ⟨i - 1 - 1, by omega⟩ = T i - 2 * h := by
      simp only [hT]
      rw [show i.val - 1 - 1 = i.val - 2 by omega, Nat.cast_sub h2]
      push_cast
      ring
    rw [t1, t2, t3, t4] at e1
    have hlo : 0 ≤ T i - 2 * h := by
      rw [hT]
      have : (2 : ℝ) ≤ (i : ℕ) := by exact_mod_cast h2
      nlinarith
    have hhi : T i + 2 * h ≤ τ := by
      rw [hT, ← hend]
      have : ((i : ℕ) : ℝ) + 2 ≤ n + 1 := by exact_mod_cast hn
      nlinarith
    have key := second_difference hy hv (t := T i) (s := 2 * h) (ω := ω) (by linarith) hlo hhi
      (fun x hx hx' => hω x hx (T i) (hmem i) hx')
    have e2 : Ydd i - a (T i) = (y (T i + 2 * h) - 2 * y (T i) + y (T i - 2 * h) - (2 * h) ^ 2 * a (T i)) / (2 * h) ^ 2 := by
      rw [e1]
      field_simp
      ring
    rw [e2, abs_div, abs_of_pos (show 0 < (2 * h) ^ 2 by positivity), div_le_iff₀ (by positivity)]
    linarith

end Verif
