import Mathlib.Analysis.ODE.Gronwall
import Mathlib.Tactic.IntervalCases
import Verif.Lemmas.LinearOde

/-! # Order of the Runge-Kutta method -/

namespace Verif

/-- Taylor polynomial with a bound of the remainder. -/
theorem taylor_bound {M : ℝ} : ∀ (n : ℕ) (f : ℕ → ℝ → ℝ), (∀ j < n, ∀ s, HasDerivAt (f j) (f (j + 1) s) s) →
    ∀ t h : ℝ, 0 ≤ h → (∀ s ∈ Set.Icc t (t + h), |f n s| ≤ M) →
    |f 0 (t + h) - ∑ i ∈ Finset.range n, f i t * (h ^ i / i.factorial)| ≤ M * h ^ n := by
  intro n
  induction n with
  | zero =>
    intro f _ t h hh hM
    simpa using hM (t + h) ⟨by linarith, le_rfl⟩
  | succ n ih =>
    intro f hf t h hh hM
    have hM0 : 0 ≤ M := (abs_nonneg _).trans (hM t ⟨le_rfl, by linarith⟩)
    set F : ℝ → ℝ := fun s => f 0 s - ∑ i ∈ Finset.range (n + 1), f i t * ((s - t) ^ i / i.factorial) with hF
    set F' : ℝ → ℝ := fun s => f 1 s - ∑ i ∈ Finset.range n, f (i + 1) t * ((s - t) ^ i / i.factorial) with hF'
    have hd : ∀ s, HasDerivAt F (F' s) s := by
      intro s
      refine (hf 0 (by omega) s).sub ?_
      have e : (fun s : ℝ => ∑ i ∈ Finset.range (n + 1), f i t * ((s - t) ^ i / i.factorial)) =
          fun s => ∑ i ∈ Finset.range n, f (i + 1) t * ((s - t) ^ (i + 1) / (i + 1).factorial) + f 0 t := by
        funext s
        rw [Finset.sum_range_succ']
        simp
      rw [e]
      apply HasDerivAt.add_const
      refine HasDerivAt.fun_sum fun i _ => ?_
      have h1 : HasDerivAt (fun s : ℝ => (s - t) ^ (i + 1)) (((i + 1 : ℕ) : ℝ) * (s - t) ^ i * 1) s := by
        have := ((hasDerivAt_id s).sub_const t).fun_pow (i + 1)
        simpa using this
      have h2 := (h1.div_const ((i + 1).factorial : ℝ)).const_mul (f (i + 1) t)
      refine h2.congr_deriv ?_
      have h3 : ((i.factorial : ℕ) : ℝ) ≠ 0 := by exact_mod_cast i.factorial_ne_zero
      have h4 : ((i : ℝ) + 1) ≠ 0 := by positivity
      rw [Nat.factorial_succ]
      push_cast
      field_simp
    have hb : ∀ s ∈ Set.Icc t (t + h), ‖F' s‖ ≤ M * h ^ n := by
      intro s hs
      have := ih (fun j => f (j + 1)) (fun j hj r => hf (j + 1) (by omega) r) t (s - t) (by linarith [hs.1])
        (fun r hr => hM r ⟨hr.1, by linarith [hr.2, hs.2]⟩)
      rw [add_sub_cancel] at this
      refine this.trans ?_
      apply mul_le_mul_of_nonneg_left _ hM0
      exact pow_le_pow_left₀ (by linarith [hs.1]) (by linarith [hs.2]) n
    have h1 := Convex.norm_image_sub_le_of_norm_hasDerivWithin_le (f := F) (fun s _ => (hd s).hasDerivWithinAt) hb
      (convex_Icc t (t + h)) (Set.left_mem_Icc.2 (by linarith)) (Set.right_mem_Icc.2 (by linarith))
    have h0 : F t = 0 := by
      simp only [hF, sub_self]
      rw [Finset.sum_range_succ']
      simp
    rw [h0, sub_zero, add_sub_cancel_left, Real.norm_of_nonneg hh] at h1
    simp only [hF, add_sub_cancel_left, Real.norm_eq_abs] at h1
    rw [pow_succ, ← mul_assoc]
    exact h1

/-- Derivatives of a solution, as functions of the derivatives of the input. -/
def sdJet (k c : ℝ) (u : ℕ → ℝ → ℝ) (x : ℝ → ℝ × ℝ) : ℕ → ℝ → ℝ
  | 0 => fun t => (x t).1
  | 1 => fun t => (x t).2
  | j + 2 => fun t => -k * sdJet k c u x j t - c * sdJet k c u x (j + 1) t + u j t

section
variable {k c : ℝ} {u : ℕ → ℝ → ℝ} {x : ℝ → ℝ × ℝ}

theorem sdJet_hasDerivAt (hu : ∀ j t, HasDerivAt (u j) (u (j + 1) t) t)
    (hx : ∀ t, HasDerivAt x (sdField k c (x t) (u 0 t)) t) :
    ∀ j t, HasDerivAt (sdJet k c u x j) (sdJet k c u x (j + 1) t) t := by
  have h0 : ∀ t, HasDerivAt (sdJet k c u x 0) (sdJet k c u x 1 t) t := fun t => (hx t).fst
  have h1 : ∀ t, HasDerivAt (sdJet k c u x 1) (sdJet k c u x 2 t) t := fun t => (hx t).snd
  intro j
  induction j using Nat.strong_induction_on with
  | _ j ih =>
    match j with
    | 0 => exact h0
    | 1 => exact h1
    | j + 2 =>
      intro t
      exact ((((ih j (by omega) t).const_mul (-k)).sub ((ih (j + 1) (by omega) t).const_mul c)).add (hu j t))

theorem sdJet_bound {B U : ℝ} {t : ℝ} (hB : 0 ≤ B) (hU : 0 ≤ U) (n : ℕ) (hu : ∀ j ≤ n, |u j t| ≤ U) (hx : ‖x t‖ ≤ B) :
    ∀ j ≤ n + 2, |sdJet k c u x j t| ≤ (2 * (1 + |k| + |c|)) ^ j * (B + U) := by
  set L := 1 + |k| + |c| with hL
  have hk := abs_nonneg k
  have hc := abs_nonneg c
  have hL1 : 1 ≤ 2 * L := by linarith
  intro j
  induction j using Nat.strong_induction_on with
  | _ j ih =>
    intro hj
    match j with
    | 0 =>
      have : |(x t).1| ≤ ‖x t‖ := norm_fst_le (x t)
      simp only [sdJet, pow_zero, one_mul]
      linarith
    | 1 =>
      have : |(x t).2| ≤ ‖x t‖ := norm_snd_le (x t)
      simp only [sdJet, pow_one]
      nlinarith
    | j + 2 =>
      have i0 := ih j (by omega) (by omega)
      have i1 := ih (j + 1) (by omega) (by omega)
      have i2 := hu j (by omega)
      simp only [sdJet]
      set P := (2 * L) ^ (j + 1) * (B + U) with hP
      have hBU : 0 ≤ B + U := by linarith
      have q0 : (2 * L) ^ j * (B + U) ≤ P :=
        mul_le_mul_of_nonneg_right (pow_le_pow_right₀ hL1 (by omega)) hBU
      have q1 : B + U ≤ P := by
        have := mul_le_mul_of_nonneg_right (one_le_pow₀ hL1 (n := j + 1)) hBU
        rwa [one_mul] at this
      have e : (2 * L) ^ (j + 2) * (B + U) = 2 * L * P := by rw [hP]; ring
      rw [e]
      have h3 : |-k * sdJet k c u x j t - c * sdJet k c u x (j + 1) t + u j t| ≤
          |k| * |sdJet k c u x j t| + |c| * |sdJet k c u x (j + 1) t| + |u j t| := by
        have e : -k * sdJet k c u x j t - c * sdJet k c u x (j + 1) t + u j t =
          -(k * sdJet k c u x j t) + -(c * sdJet k c u x (j + 1) t) + u j t := by ring
        rw [e]
        refine (abs_add_three _ _ _).trans ?_
        rw [abs_neg, abs_neg, abs_mul, abs_mul]
      have h4 := mul_le_mul_of_nonneg_left (i0.trans q0) hk
      have h5 := mul_le_mul_of_nonneg_left i1 hc
      have h6 : 0 ≤ P := hBU.trans q1
      have h7 : 0 ≤ |k| * P := mul_nonneg hk h6
      have h8 : 0 ≤ |c| * P := mul_nonneg hc h6
      rw [hL]
      nlinarith

/-- Bound of a solution that depends only on the initial state and a bound of the input. -/
theorem sd_norm_le {t0 R U X : ℝ} {v : ℝ → ℝ} (hx : ∀ t, HasDerivAt x (sdField k c (x t) (v t)) t)
    (hU : 0 ≤ U) (hX : ‖x t0‖ ≤ X) (hv : ∀ t, t0 ≤ t → t ≤ R → |v t| ≤ U) :
    ∀ t, t0 ≤ t → t ≤ R → ‖x t‖ ≤ gronwallBound X (1 + |k| + |c|) U |R - t0| := by
  intro t h1 h2
  have h := norm_le_gronwallBound_of_norm_deriv_right_le (f := x) (f' := fun t => sdField k c (x t) (v t)) (δ := X)
    (K := 1 + |k| + |c|) (ε := U) (a := t0) (b := R) (fun t _ => (hx t).continuousAt.continuousWithinAt)
    (fun t _ => (hx t).hasDerivWithinAt) hX (fun t ht => by
      have := sdField_lip k c (x t) 0 (v t) 0
      have e : sdField k c 0 0 = 0 := by ext <;> simp [sdField]
      rw [e, sub_zero, sub_zero, sub_zero] at this
      have := hv t ht.1 ht.2.le
      linarith) t ⟨h1, h2⟩
  refine h.trans (gronwallBound_mono ((norm_nonneg _).trans hX) hU (by positivity) ?_)
  exact le_trans (by linarith) (le_abs_self _)

/-- Local error of the Runge-Kutta step for exact Taylor polynomials of the input. -/
theorem rkStep_taylor (k c h e v a0 a1 a2 a3 : ℝ) :
    let f2 := -k * e - c * v + a0
    let f3 := -k * v - c * f2 + a1
    let f4 := -k * f2 - c * f3 + a2
    let f5 := -k * f3 - c * f4 + a3
    rkStep k c h a0 (a0 + h / 2 * a1 + h ^ 2 / 8 * a2 + h ^ 3 / 48 * a3)
        (a0 + h * a1 + h ^ 2 / 2 * a2 + h ^ 3 / 6 * a3) (e, v) =
      (e + h * v + h ^ 2 / 2 * f2 + h ^ 3 / 6 * f3 + h ^ 4 / 24 * f4 +
        h ^ 5 * (a3 / 144 - c * a2 / 96 - h * c * a3 / 576),
       v + h * f2 + h ^ 2 / 2 * f3 + h ^ 3 / 6 * f4 + h ^ 4 / 24 * f5 +
        h ^ 5 * (-c * a3 / 144 + (c ^ 2 - k) * a2 / 96 + h * (c ^ 2 - k) * a3 / 576)) := by
  simp only [rkStep]
  ext
  · simp only; ring
  · simp only; ring

/-- Effect of errors of the input on the Runge-Kutta step. -/
theorem rkStep_perturb (k c h u0 u1 u2 r1 r2 : ℝ) (x : ℝ × ℝ) :
    rkStep k c h u0 (u1 + r1) (u2 + r2) x = rkStep k c h u0 u1 u2 x +
      (h * (h / 6 * (2 - c * h / 2) * r1),
       h * ((2 + 2 * (1 - c * h / 2) - k * h * h / 2 - c * h * (1 - c * h / 2)) / 6 * r1 + r2 / 6)) := by
  simp only [rkStep]
  ext
  · simp only [Prod.fst_add]; ring
  · simp only [Prod.snd_add]; ring

section Bounds
variable {H U h a2 a3 ρ ρ' P : ℝ}

theorem rk4_q1 (hh : 0 < h) (hhH : h ≤ H) (b2 : |a2| ≤ U) (b3 : |a3| ≤ U) :
    |a3 / 144 - c * a2 / 96 - h * c * a3 / 576| ≤ U * (1 + |c| + H * |c|) := by
  have hc := abs_nonneg c
  refine (abs_sub _ _).trans ?_
  refine (add_le_add (abs_sub _ _) le_rfl).trans ?_
  simp only [abs_div, abs_mul, abs_of_pos hh]
  norm_num
  have i1 := mul_le_mul_of_nonneg_left b2 hc
  have i2 : h * |c| * |a3| ≤ H * |c| * U :=
    mul_le_mul (mul_le_mul_of_nonneg_right hhH hc) b3 (abs_nonneg _) (mul_nonneg (by linarith) hc)
  have i3 : 0 ≤ |c| * |a2| := by positivity
  have i4 : 0 ≤ h * |c| * |a3| := by positivity
  have i5 : 0 ≤ |a3| := abs_nonneg _
  have e : U * (1 + |c| + H * |c|) = U + |c| * U + H * |c| * U := by ring
  rw [e]
  linarith

theorem rk4_hch (hh : 0 < h) (hhH : h ≤ H) : |c * h / 2| ≤ |c| * H := by
  have hc := abs_nonneg c
  rw [abs_div, abs_mul, abs_of_pos hh, abs_two]
  have i1 := mul_le_mul_of_nonneg_left hhH hc
  have i2 := mul_nonneg hc hh.le
  linarith

theorem rk4_w1 (hh : 0 < h) (hhH : h ≤ H) (h1 : |ρ| ≤ P) :
    |h / 6 * (2 - c * h / 2) * ρ| ≤ H * (2 + |c| * H) * P := by
  have hc := abs_nonneg c
  have hH : 0 ≤ H := by linarith
  rw [abs_mul, abs_mul]
  refine mul_le_mul (mul_le_mul ?_ ?_ (abs_nonneg _) hH) h1 (abs_nonneg _) (by positivity)
  · rw [abs_of_pos (by linarith)]; linarith
  · refine (abs_sub _ _).trans ?_
    rw [abs_two]
    have := rk4_hch (c := c) hh hhH
    linarith

theorem rk4_q2 (hh : 0 < h) (hhH : h ≤ H) (b2 : |a2| ≤ U) (b3 : |a3| ≤ U) :
    |-c * a3 / 144 + (c ^ 2 - k) * a2 / 96 + h * (c ^ 2 - k) * a3 / 576| ≤
      U * (|c| + (|c| ^ 2 + |k|) + H * (|c| ^ 2 + |k|)) := by
  have hc := abs_nonneg c
  have hH : 0 ≤ H := by linarith
  have c2 : |c ^ 2 - k| ≤ |c| ^ 2 + |k| := by
    refine (abs_sub _ _).trans ?_
    rw [abs_pow]
  refine (abs_add_three _ _ _).trans ?_
  set G := |c| ^ 2 + |k| with hG
  have hG0 : 0 ≤ G := by positivity
  simp only [abs_div, abs_mul, abs_of_pos hh, abs_neg]
  norm_num
  have i1 : |c| * |a3| ≤ |c| * U := mul_le_mul_of_nonneg_left b3 hc
  have i2 : |c ^ 2 - k| * |a2| ≤ G * U := mul_le_mul c2 b2 (abs_nonneg _) hG0
  have i3 : h * |c ^ 2 - k| * |a3| ≤ H * G * U :=
    mul_le_mul (mul_le_mul hhH c2 (abs_nonneg _) hH) b3 (abs_nonneg _) (by positivity)
  have i4 : 0 ≤ |c| * |a3| := by positivity
  have i5 : 0 ≤ |c ^ 2 - k| * |a2| := by positivity
  have i6 : 0 ≤ h * |c ^ 2 - k| * |a3| := by positivity
  have e : U * (|c| + G + H * G) = |c| * U + G * U + H * G * U := by ring
  rw [e]
  linarith

theorem rk4_w2 (hh : 0 < h) (hhH : h ≤ H) (h1 : |ρ| ≤ P) (h2 : |ρ'| ≤ P) :
    |(2 + 2 * (1 - c * h / 2) - k * h * h / 2 - c * h * (1 - c * h / 2)) / 6 * ρ + ρ' / 6| ≤
      (2 + 2 * (1 + |c| * H) + |k| * H * H + |c| * H * (1 + |c| * H) + 1) * P := by
  have hc := abs_nonneg c
  have hk := abs_nonneg k
  have hH : 0 ≤ H := by linarith
  have hP : 0 ≤ P := (abs_nonneg _).trans h1
  have hkh : |k * h * h / 2| ≤ |k| * H * H := by
    rw [abs_div, abs_mul, abs_mul, abs_of_pos hh, abs_two]
    have : |k| * h * h ≤ |k| * H * H :=
      mul_le_mul (mul_le_mul_of_nonneg_left hhH hk) hhH hh.le (by positivity)
    have : 0 ≤ |k| * h * h := by positivity
    linarith
  have h1c : |1 - c * h / 2| ≤ 1 + |c| * H := by
    refine (abs_sub _ _).trans ?_
    have := rk4_hch (c := c) hh hhH
    rw [abs_one]; linarith
  have hcc : |c * h * (1 - c * h / 2)| ≤ |c| * H * (1 + |c| * H) := by
    rw [abs_mul, abs_mul, abs_of_pos hh]
    exact mul_le_mul (mul_le_mul_of_nonneg_left hhH hc) h1c (abs_nonneg _) (by positivity)
  have i4 : |(6 : ℝ)| = 6 := abs_of_pos (by norm_num)
  have w1 : |(2 + 2 * (1 - c * h / 2) - k * h * h / 2 - c * h * (1 - c * h / 2)) / 6| ≤
      2 + 2 * (1 + |c| * H) + |k| * H * H + |c| * H * (1 + |c| * H) := by
    rw [abs_div, i4]
    have i1 := abs_sub (2 + 2 * (1 - c * h / 2) - k * h * h / 2) (c * h * (1 - c * h / 2))
    have i2 := abs_sub (2 + 2 * (1 - c * h / 2)) (k * h * h / 2)
    have i3 := abs_add_le (2 : ℝ) (2 * (1 - c * h / 2))
    rw [abs_mul, abs_two] at i3
    have i5 := abs_nonneg (2 + 2 * (1 - c * h / 2) - k * h * h / 2 - c * h * (1 - c * h / 2))
    linarith
  refine (abs_add_le _ _).trans ?_
  rw [abs_mul, abs_div ρ' 6, i4]
  have i1 := mul_le_mul w1 h1 (abs_nonneg _) (by positivity)
  have := abs_nonneg ρ'
  linarith

end Bounds

theorem rk4_local {H U B : ℝ} (hH : 0 ≤ H) (hU : 0 ≤ U) (hB : 0 ≤ B) :
    ∃ K, 0 ≤ K ∧ ∀ (u : ℕ → ℝ → ℝ) (x : ℝ → ℝ × ℝ), (∀ j t, HasDerivAt (u j) (u (j + 1) t) t) →
      (∀ t, HasDerivAt x (sdField k c (x t) (u 0 t)) t) → ∀ t h, 0 < h → h ≤ H →
      (∀ j ≤ 4, ∀ s, t ≤ s → s ≤ t + h → |u j s| ≤ U) → (∀ s, t ≤ s → s ≤ t + h → ‖x s‖ ≤ B) →
      ‖rkStep k c h (u 0 t) (u 0 (t + h / 2)) (u 0 (t + h)) (x t) - x (t + h)‖ ≤ K * h ^ 5 := by
  set L := 1 + |k| + |c| with hL
  set N := (2 * L) ^ 6 * (B + U) with hN
  have hk := abs_nonneg k
  have hc := abs_nonneg c
  have hN0 : 0 ≤ N := by positivity
  set K1 := U * (1 + |c| + H * |c|) + H * (2 + |c| * H) * U + N with hK1
  set K2 := U * (|c| + (|c| ^ 2 + |k|) + H * (|c| ^ 2 + |k|)) +
    (2 + 2 * (1 + |c| * H) + |k| * H * H + |c| * H * (1 + |c| * H) + 1) * U + N with hK2
  have h10 : 0 ≤ K1 := by positivity
  have h20 : 0 ≤ K2 := by positivity
  refine ⟨K1 + K2, by positivity, ?_⟩
  intro u x hu hx t h hh hhH hub hxb
  have hJ := sdJet_hasDerivAt hu hx
  have hJb : ∀ s ∈ Set.Icc t (t + h), ∀ j ≤ 6, |sdJet k c u x j s| ≤ N := by
    intro s hs j hj
    refine (sdJet_bound hB hU 4 (fun i hi => hub i hi s hs.1 hs.2) (hxb s hs.1 hs.2) j hj).trans ?_
    apply mul_le_mul_of_nonneg_right _ (by linarith)
    exact pow_le_pow_right₀ (by linarith) hj
  have t0 := taylor_bound 5 (sdJet k c u x) (fun j _ s => hJ j s) t h hh.le (fun s hs => hJb s hs 5 (by norm_num))
  have t1 := taylor_bound 5 (fun j => sdJet k c u x (j + 1)) (fun j _ s => hJ (j + 1) s) t h hh.le
    (fun s hs => hJb s hs 6 le_rfl)
  have r1 := taylor_bound 4 u (fun j _ s => hu j s) t (h / 2) (by linarith)
    (fun s hs => hub 4 le_rfl s hs.1 (by linarith [hs.2]))
  have r2 := taylor_bound 4 u (fun j _ s => hu j s) t h hh.le (fun s hs => hub 4 le_rfl s hs.1 hs.2)
  have b2 := hub 2 (by norm_num) t le_rfl (by linarith)
  have b3 := hub 3 (by norm_num) t le_rfl (by linarith)
  simp only [Finset.sum_range_succ, Finset.sum_range_zero, Nat.factorial, Nat.cast_one, zero_add,
    sdJet] at t0 t1 r1 r2
  norm_num at t0 t1 r1 r2
  simp only [← neg_mul] at t0 t1
  set e := (x t).1 with he
  set v := (x t).2 with hv
  set a0 := u 0 t
  set a1 := u 1 t
  set a2 := u 2 t
  set a3 := u 3 t
  have hT := rkStep_taylor k c h e v a0 a1 a2 a3
  set T1 := a0 + h / 2 * a1 + h ^ 2 / 8 * a2 + h ^ 3 / 48 * a3 with hT1
  set T2 := a0 + h * a1 + h ^ 2 / 2 * a2 + h ^ 3 / 6 * a3 with hT2
  have hp := rkStep_perturb k c h a0 T1 T2 (u 0 (t + h / 2) - T1) (u 0 (t + h) - T2) (e, v)
  rw [add_sub_cancel, add_sub_cancel, hT] at hp
  have ρ1 : |u 0 (t + h / 2) - T1| ≤ U * h ^ 4 := by
    have e1 : u 0 (t + h / 2) - T1 = u 0 (t + h / 2) - (a0 + a1 * (h / 2) + a2 * ((h / 2) ^ 2 / 2) + a3 * ((h / 2) ^ 3 / 6)) := by
      rw [hT1]; ring
    rw [e1]
    refine r1.trans (mul_le_mul_of_nonneg_left ?_ hU)
    exact pow_le_pow_left₀ (by linarith) (by linarith) 4
  have ρ2 : |u 0 (t + h) - T2| ≤ U * h ^ 4 := by
    have e1 : u 0 (t + h) - T2 = u 0 (t + h) - (a0 + a1 * h + a2 * (h ^ 2 / 2) + a3 * (h ^ 3 / 6)) := by
      rw [hT2]; ring
    rw [e1]
    exact r2
  have hxe : x t = (e, v) := rfl
  rw [hxe, hp]
  set ρ := u 0 (t + h / 2) - T1
  set ρ' := u 0 (t + h) - T2
  clear_value T1 T2 ρ ρ' a0 a1 a2 a3
  have hh5 : 0 < h ^ 5 := by positivity
  have hh4 : 0 < h ^ 4 := by positivity
  rw [Prod.norm_def, max_le_iff]
  constructor
  · rw [Real.norm_eq_abs]
    simp only [Prod.fst_sub, Prod.fst_add]
    have q := rk4_q1 (c := c) hh hhH b2 b3
    have w := rk4_w1 (c := c) hh hhH ρ1
    have e1 : ∀ f2 f3 f4 Q W Z : ℝ, e + h * v + h ^ 2 / 2 * f2 + h ^ 3 / 6 * f3 + h ^ 4 / 24 * f4 + h ^ 5 * Q + h * W - Z =
        h ^ 5 * Q + h * W + -(Z - (e + v * h + f2 * (h ^ 2 / 2) + f3 * (h ^ 3 / 6) + f4 * (h ^ 4 / 24))) := by
      intros; ring
    rw [e1]
    refine (abs_add_three _ _ _).trans ?_
    rw [abs_neg, abs_mul, abs_mul, abs_of_pos hh5, abs_of_pos hh]
    have j1 := mul_le_mul_of_nonneg_left q hh5.le
    have j2 := mul_le_mul_of_nonneg_left w hh.le
    have j3 : (K1 + K2) * h ^ 5 = K2 * h ^ 5 + (h ^ 5 * (U * (1 + |c| + H * |c|)) + h * (H * (2 + |c| * H) * (U * h ^ 4)) + N * h ^ 5) := by
      rw [hK1]; ring
    have j4 : 0 ≤ K2 * h ^ 5 := by positivity
    rw [j3]
    exact le_add_of_nonneg_of_le j4 (add_le_add (add_le_add j1 j2) t0)
  · rw [Real.norm_eq_abs]
    simp only [Prod.snd_sub, Prod.snd_add]
    have q := rk4_q2 (c := c) (k := k) hh hhH b2 b3
    have w := rk4_w2 (c := c) (k := k) hh hhH ρ1 ρ2
    have e1 : ∀ f2 f3 f4 f5 Q W Z : ℝ, v + h * f2 + h ^ 2 / 2 * f3 + h ^ 3 / 6 * f4 + h ^ 4 / 24 * f5 + h ^ 5 * Q + h * W - Z =
        h ^ 5 * Q + h * W + -(Z - (v + f2 * h + f3 * (h ^ 2 / 2) + f4 * (h ^ 3 / 6) + f5 * (h ^ 4 / 24))) := by
      intros; ring
    rw [e1]
    refine (abs_add_three _ _ _).trans ?_
    rw [abs_neg, abs_mul, abs_mul, abs_of_pos hh5, abs_of_pos hh]
    have j1 := mul_le_mul_of_nonneg_left q hh5.le
    have j2 := mul_le_mul_of_nonneg_left w hh.le
    have j3 : (K1 + K2) * h ^ 5 = K1 * h ^ 5 + (h ^ 5 * (U * (|c| + (|c| ^ 2 + |k|) + H * (|c| ^ 2 + |k|))) +
        h * ((2 + 2 * (1 + |c| * H) + |k| * H * H + |c| * H * (1 + |c| * H) + 1) * (U * h ^ 4)) + N * h ^ 5) := by
      rw [hK2]; ring
    have j4 : 0 ≤ K1 * h ^ 5 := by positivity
    rw [j3]
    exact le_add_of_nonneg_of_le j4 (add_le_add (add_le_add j1 j2) t1)

/-- Global error of the Runge-Kutta method. The constant depends only on the gains, the time interval, a bound of the input
and its first four derivatives, and a bound of the initial state. -/
theorem rk4_grid_error (k c t0 R : ℝ) {U X : ℝ} (hU : 0 ≤ U) (hX : 0 ≤ X) :
    ∃ C, 0 ≤ C ∧ ∀ (u : ℕ → ℝ → ℝ) (x : ℝ → ℝ × ℝ), (∀ j t, HasDerivAt (u j) (u (j + 1) t) t) →
      (∀ t, HasDerivAt x (sdField k c (x t) (u 0 t)) t) →
      (∀ j ≤ 4, ∀ t, t0 ≤ t → t ≤ R → |u j t| ≤ U) → ‖x t0‖ ≤ X →
      ∀ D : ℝ, 0 < D → ∀ xs : ℕ → ℝ × ℝ, xs 0 = x t0 →
      (∀ i : ℕ, t0 + (i + 1) * D ≤ R → xs (i + 1) = rkStep k c D (u 0 (t0 + i * D))
        (u 0 (t0 + i * D + D / 2)) (u 0 (t0 + i * D + D)) (xs i)) →
      ∀ i : ℕ, t0 + i * D ≤ R → ‖xs i - x (t0 + i * D)‖ ≤ C * D ^ 4 := by
  set cap := |R - t0| with hcap
  have hcap0 : 0 ≤ cap := abs_nonneg _
  set B := gronwallBound X (1 + |k| + |c|) U cap with hB
  have hB0 : 0 ≤ B := by
    have := gronwallBound_mono hX hU (by positivity : 0 ≤ 1 + |k| + |c|) hcap0
    rw [gronwallBound_x0] at this
    linarith
  obtain ⟨K, hK0, hK⟩ := rk4_local (k := k) (c := c) hcap0 hU hB0
  set L := (1 + |k| + |c|) * (1 + cap * (1 + |k| + |c|)) ^ 3 with hL
  have hL0 : 0 < L := by positivity
  refine ⟨Real.exp (L * cap) * (K / L), by positivity, ?_⟩
  intro u x hu hx hub hx0 D hD xs h0 hxs i hi
  rcases Nat.eq_zero_or_pos i with rfl | hpos
  · rw [h0]; simp only [Nat.cast_zero, zero_mul, add_zero, sub_self, norm_zero]; positivity
  have hDcap : D ≤ cap := by
    have h1 : (1 : ℝ) ≤ i := by exact_mod_cast hpos
    have h2 : D ≤ i * D := by nlinarith
    exact le_trans (by linarith) (le_abs_self _)
  have hxb := sd_norm_le hx hU hx0 (hub 0 (by norm_num))
  have hg := grid_error (g := fun i => ‖xs i - x (t0 + i * D)‖ + K * D ^ 4 / L) (t0 := t0) (R := R) (L := L) (D := D)
    (fun i hi' => by
      have hiD : (0 : ℝ) ≤ i * D := by positivity
      have h1 := rkStep_lip (k := k) (c := c) hD.le hDcap (u 0 (t0 + i * D)) (u 0 (t0 + i * D + D / 2))
        (u 0 (t0 + i * D + D)) (xs i) (x (t0 + i * D))
      rw [← hL] at h1
      have h2 := hK u x hu hx (t0 + i * D) D hD hDcap
        (fun j hj s h1 h2 => hub j hj s (by linarith) (by linarith))
        (fun s h1 h2 => hxb s (by linarith) (by linarith))
      have e : t0 + i * D + D = t0 + (i + 1) * D := by ring
      rw [← hxs i hi'] at h1
      rw [e] at h1 h2
      push_cast
      have h3 : ‖xs (i + 1) - x (t0 + (i + 1) * D)‖ ≤ (1 + L * D) * ‖xs i - x (t0 + i * D)‖ + K * D ^ 5 := by
        have := norm_add_le (xs (i + 1) - rkStep k c D (u 0 (t0 + i * D)) (u 0 (t0 + i * D + D / 2))
          (u 0 (t0 + (i + 1) * D)) (x (t0 + i * D)))
          (rkStep k c D (u 0 (t0 + i * D)) (u 0 (t0 + i * D + D / 2)) (u 0 (t0 + (i + 1) * D)) (x (t0 + i * D)) -
            x (t0 + (i + 1) * D))
        rw [sub_add_sub_cancel] at this
        linarith
      have h4 : (1 + L * D) * (K * D ^ 4 / L) = K * D ^ 4 / L + K * D ^ 5 := by field_simp
      have h5 : (1 + L * D) * (‖xs i - x (t0 + i * D)‖ + K * D ^ 4 / L) ≤
          Real.exp (L * D) * (‖xs i - x (t0 + i * D)‖ + K * D ^ 4 / L) := by
        apply mul_le_mul_of_nonneg_right _ (by positivity)
        have := Real.add_one_le_exp (L * D)
        linarith
      rw [mul_add, h4] at h5
      linarith) hD.le i hi
  simp only [Nat.cast_zero, zero_mul, add_zero, h0, sub_self, norm_zero, zero_add] at hg
  have h3 : 0 ≤ K * D ^ 4 / L := by positivity
  have h4 : Real.exp (L * (i * D)) ≤ Real.exp (L * cap) := by
    apply Real.exp_le_exp.2
    apply mul_le_mul_of_nonneg_left _ hL0.le
    exact le_trans (by linarith) (le_abs_self _)
  have h5 := mul_le_mul_of_nonneg_right h4 h3
  have e : Real.exp (L * cap) * (K / L) * D ^ 4 = Real.exp (L * cap) * (K * D ^ 4 / L) := by ring
  rw [e]
  linarith

/-- The Runge-Kutta method with input that is evaluated one step late: error to the solution for the late input. -/
theorem rk4_late_error (k c t0 R : ℝ) {u : ℕ → ℝ → ℝ} (hu : ∀ j t, HasDerivAt (u j) (u (j + 1) t) t) (x0 : ℝ × ℝ) :
    ∃ C, 0 ≤ C ∧ ∀ (D : ℝ) (x : ℝ → ℝ × ℝ), 0 < D → x t0 = x0 →
      (∀ t, HasDerivAt x (sdField k c (x t) (u 0 (t + D))) t) → ∀ xs : ℕ → ℝ × ℝ, xs 0 = x0 →
      (∀ i : ℕ, t0 + (i + 1) * D ≤ R → xs (i + 1) = rkStep k c D (u 0 (t0 + (i + 1) * D))
        (u 0 (t0 + (i + 1) * D + D / 2)) (u 0 (t0 + (i + 1) * D + D)) (xs i)) →
      ∀ i : ℕ, t0 + i * D ≤ R → ‖xs i - x (t0 + i * D)‖ ≤ C * D ^ 4 := by
  set cap := |R - t0| with hcap
  have hcap0 : 0 ≤ cap := abs_nonneg _
  have huc : ∀ j, Continuous (u j) := fun j => continuous_iff_continuousAt.2 fun t => (hu j t).continuousAt
  have hb := fun j => isCompact_Icc.exists_bound_of_continuousOn (s := Set.Icc t0 (R + cap)) (huc j).continuousOn
  choose b hb using hb
  set U := |b 0| + |b 1| + |b 2| + |b 3| + |b 4| with hU
  have hU0 : 0 ≤ U := by positivity
  have hub : ∀ j ≤ 4, ∀ t, t0 ≤ t → t ≤ R + cap → |u j t| ≤ U := by
    intro j hj t h1 h2
    have h3 := hb j t ⟨h1, h2⟩
    rw [Real.norm_eq_abs] at h3
    have h4 := le_abs_self (b j)
    have p0 := abs_nonneg (b 0)
    have p1 := abs_nonneg (b 1)
    have p2 := abs_nonneg (b 2)
    have p3 := abs_nonneg (b 3)
    have p4 := abs_nonneg (b 4)
    interval_cases j <;> linarith
  obtain ⟨C, hC0, hC⟩ := rk4_grid_error k c t0 R hU0 (norm_nonneg x0)
  refine ⟨C, hC0, ?_⟩
  intro D x hD h0 hx xs hxs0 hxs i hi
  rcases Nat.eq_zero_or_pos i with rfl | hpos
  · rw [hxs0]; simp only [Nat.cast_zero, zero_mul, add_zero, h0, sub_self, norm_zero]; positivity
  have hDcap : D ≤ cap := by
    have h1 : (1 : ℝ) ≤ i := by exact_mod_cast hpos
    have h2 : D ≤ i * D := by nlinarith
    exact le_trans (by linarith) (le_abs_self _)
  refine hC (fun j t => u j (t + D)) x (fun j t => (hu j (t + D)).comp_add_const t D) hx
    (fun j hj t h1 h2 => hub j hj _ (by linarith) (by linarith)) (by rw [h0]) D hD xs (by rw [hxs0, h0]) ?_ i hi
  intro i hi
  rw [hxs i hi]
  have e : t0 + (i + 1) * D = t0 + i * D + D := by ring
  rw [e]
  congr 2
  ring

/-- First term of the error of the Runge-Kutta method with input that is evaluated one step late. -/
theorem rk4_late_expansion (t0 R : ℝ) {u : ℕ → ℝ → ℝ} (hu : ∀ j t, HasDerivAt (u j) (u (j + 1) t) t) {x w : ℝ → ℝ × ℝ}
    (hx : ∀ t, HasDerivAt x (sdField k c (x t) (u 0 t)) t) (hw : ∀ t, HasDerivAt w (sdField k c (w t) (u 1 t)) t)
    (hw0 : w t0 = 0) :
    ∃ C, 0 ≤ C ∧ ∀ D : ℝ, 0 < D → ∀ xs : ℕ → ℝ × ℝ, xs 0 = x t0 →
      (∀ i : ℕ, t0 + (i + 1) * D ≤ R → xs (i + 1) = rkStep k c D (u 0 (t0 + (i + 1) * D))
        (u 0 (t0 + (i + 1) * D + D / 2)) (u 0 (t0 + (i + 1) * D + D)) (xs i)) →
      ∀ i : ℕ, t0 + i * D ≤ R → ‖xs i - x (t0 + i * D) - D • w (t0 + i * D)‖ ≤ C * D ^ 2 := by
  set cap := |R - t0| with hcap
  have hcap0 : 0 ≤ cap := abs_nonneg _
  obtain ⟨C, hC0, hC⟩ := rk4_late_error k c t0 R hu (x t0)
  have huc : ∀ j, Continuous (u j) := fun j => continuous_iff_continuousAt.2 fun t => (hu j t).continuousAt
  obtain ⟨b, hb⟩ := isCompact_Icc.exists_bound_of_continuousOn (s := Set.Icc t0 (R + cap)) (huc 2).continuousOn
  set U := max b 0 with hU
  have hU0 : 0 ≤ U := le_max_right _ _
  set L := 1 + |k| + |c| with hL
  have hL0 : 0 < L := by positivity
  have hE : 0 ≤ Real.exp (L * cap) - 1 := by
    have := Real.one_le_exp (mul_nonneg hL0.le hcap0)
    linarith
  refine ⟨C * cap ^ 2 + U / L * (Real.exp (L * cap) - 1), by positivity, ?_⟩
  intro D hD xs hxs0 hxs i hi
  rcases Nat.eq_zero_or_pos i with rfl | hpos
  · rw [hxs0]
    simp only [Nat.cast_zero, zero_mul, add_zero, sub_self, hw0, smul_zero, norm_zero]
    positivity
  have hDcap : D ≤ cap := by
    have h1 : (1 : ℝ) ≤ i := by exact_mod_cast hpos
    have h2 : D ≤ i * D := by nlinarith
    exact le_trans (by linarith) (le_abs_self _)
  obtain ⟨z, hz0, hz⟩ := sd_solution_exists k c ((huc 0).comp (continuous_add_const D)) t0 (x t0)
  have h1 := hC D z hD hz0 hz xs hxs0 hxs i hi
  have hdiff : ∀ t, HasDerivAt (fun t => z t - x t - D • w t)
      (sdField k c (z t - x t - D • w t) (u 0 (t + D) - u 0 t - D * u 1 t)) t := by
    intro t
    refine (((hz t).sub (hx t)).sub ((hw t).const_smul D)).congr_deriv ?_
    ext
    · simp [sdField]
    · simp [sdField]; ring
  have h2 := sd_norm_le (x := fun t => z t - x t - D • w t) (R := R) (t0 := t0) (X := 0) (U := U * D ^ 2) hdiff
    (by positivity) (by simp [hz0, hw0]) (fun t ht1 ht2 => by
      have h3 := taylor_bound 2 u (fun j _ s => hu j s) t D hD.le (M := U) (fun s hs =>
        (hb s ⟨by linarith [hs.1], by linarith [hs.2]⟩).trans (le_max_left _ _))
      simp only [Finset.sum_range_succ, Finset.sum_range_zero] at h3
      norm_num at h3
      have e : u 0 (t + D) - u 0 t - D * u 1 t = u 0 (t + D) - (u 0 t + u 1 t * D) := by ring
      rw [e]; exact h3) (t0 + i * D) (by
        have : (0 : ℝ) ≤ i * D := by positivity
        linarith) hi
  rw [← hcap, ← hL, gronwallBound_of_K_ne_0 hL0.ne'] at h2
  have e : xs i - x (t0 + i * D) - D • w (t0 + i * D) =
      (xs i - z (t0 + i * D)) + (z (t0 + i * D) - x (t0 + i * D) - D • w (t0 + i * D)) := by abel
  rw [e]
  refine (norm_add_le _ _).trans ?_
  have h4 : C * D ^ 4 ≤ C * cap ^ 2 * D ^ 2 := by
    have : D ^ 2 ≤ cap ^ 2 := pow_le_pow_left₀ hD.le hDcap 2
    have := mul_le_mul_of_nonneg_left (mul_le_mul_of_nonneg_right this (by positivity : 0 ≤ D ^ 2)) hC0
    nlinarith
  have h5 : 0 * Real.exp (L * cap) + U * D ^ 2 / L * (Real.exp (L * cap) - 1) =
      U / L * (Real.exp (L * cap) - 1) * D ^ 2 := by ring
  beta_reduce at h2
  rw [h5] at h2
  rw [add_mul]
  exact add_le_add (h1.trans h4) h2

end

end Verif
