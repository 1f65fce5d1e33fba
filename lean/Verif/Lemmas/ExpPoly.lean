import Mathlib.Analysis.SpecialFunctions.ExpDeriv
import Mathlib.Analysis.Calculus.Deriv.Polynomial
import Mathlib.Analysis.Calculus.LocalExtr.Rolle
import Mathlib.Data.Finset.Sort
import Mathlib.Algebra.Polynomial.Derivative
import Mathlib.Algebra.Polynomial.Roots

/-! # Zeros of sums of Gaussian functions

A sum of `m` different Gaussian functions with coefficients that are not all 0 has fewer than `2 ^ m - 1` zeros. The proof
divides by one exponential and differentiates until its coefficient has vanished (Rolle's theorem). -/

namespace Verif.ExpPoly
open Polynomial

/-- Polynomial times exponential of a polynomial. -/
noncomputable def term (p : ℝ[X] × ℝ[X]) (x : ℝ) : ℝ := p.1.eval x * Real.exp (p.2.eval x)

/-- A sum of such terms. -/
noncomputable def total (L : List (ℝ[X] × ℝ[X])) (x : ℝ) : ℝ := (L.map (fun p => term p x)).sum

/-- The coefficient of the derivative. -/
noncomputable def dcoef (p : ℝ[X] × ℝ[X]) : ℝ[X] × ℝ[X] := (derivative p.1 + derivative p.2 * p.1, p.2)

theorem hasDerivAt_term (p : ℝ[X] × ℝ[X]) (x : ℝ) : HasDerivAt (term p) (term (dcoef p) x) x := by
  have h1 := p.1.hasDerivAt x
  have h2 := (p.2.hasDerivAt x).exp
  have h := h1.mul h2
  refine h.congr_deriv ?_
  simp only [term, dcoef, eval_add, eval_mul]
  ring

theorem hasDerivAt_total (L : List (ℝ[X] × ℝ[X])) (x : ℝ) : HasDerivAt (total L) (total (L.map dcoef) x) x := by
  induction L with
  | nil => exact hasDerivAt_const x 0
  | cons p L ih =>
    have h := (hasDerivAt_term p x).add ih
    exact h

theorem rolle_finset {f f' : ℝ → ℝ} (hf : ∀ x, HasDerivAt f (f' x) x) {S : Finset ℝ} (hS : ∀ x ∈ S, f x = 0) {k : ℕ}
    (hk : S.card = k + 1) : ∃ S' : Finset ℝ, (∀ x ∈ S', f' x = 0) ∧ S'.card = k := by
  let e := S.orderEmbOfFin hk
  have he : ∀ i, f (e i) = 0 := fun i => hS _ (S.orderEmbOfFin_mem hk i)
  have hc : ∀ i : Fin k, ∃ c, e i.castSucc < c ∧ c < e i.succ ∧ f' c = 0 := by
    intro i
    have hlt : e i.castSucc < e i.succ := e.strictMono (Fin.castSucc_lt_succ)
    obtain ⟨c, hc, hz⟩ := exists_hasDerivAt_eq_zero (f := f) (f' := f') hlt
      (fun x _ => (hf x).continuousAt.continuousWithinAt) (by rw [he, he]) (fun x _ => hf x)
    exact ⟨c, hc.1, hc.2, hz⟩
  choose c h1 h2 h3 using hc
  have hmono : StrictMono c := by
    intro i j hij
    have : e i.succ ≤ e j.castSucc := e.monotone (by
      rw [Fin.le_def]; simp only [Fin.val_succ, Fin.val_castSucc]; exact hij)
    exact (h2 i).trans_le (this.trans (h1 j).le)
  refine ⟨Finset.univ.image c, ?_, ?_⟩
  · intro x hx
    obtain ⟨i, -, rfl⟩ := Finset.mem_image.1 hx
    exact h3 i
  · rw [Finset.card_image_of_injective _ hmono.injective]; simp

theorem rolle_iterate (n : ℕ) : ∀ (P : ℝ[X]) (L : List (ℝ[X] × ℝ[X])) (S : Finset ℝ),
    (∀ x ∈ S, P.eval x + total L x = 0) →
    ∃ S' : Finset ℝ, (∀ x ∈ S', (derivative^[n] P).eval x + total (L.map dcoef^[n]) x = 0) ∧ S.card ≤ S'.card + n := by
  induction n with
  | zero => intro P L S h; exact ⟨S, by simpa using h, le_refl _⟩
  | succ n ih =>
    intro P L S h
    rcases Nat.eq_zero_or_pos S.card with h0 | h0
    · exact ⟨∅, by simp, by omega⟩
    · obtain ⟨k, hk⟩ : ∃ k, S.card = k + 1 := ⟨S.card - 1, by omega⟩
      obtain ⟨S1, h1, h2⟩ := rolle_finset (f := fun x => P.eval x + total L x)
        (f' := fun x => (derivative P).eval x + total (L.map dcoef) x)
        (fun x => (P.hasDerivAt x).add (hasDerivAt_total L x)) h hk
      obtain ⟨S2, h3, h4⟩ := ih (derivative P) (L.map dcoef) S1 h1
      refine ⟨S2, ?_, by omega⟩
      intro x hx
      have := h3 x hx
      rw [List.map_map] at this
      simpa [Function.iterate_succ] using this

theorem dcoef_snd (p : ℝ[X] × ℝ[X]) (n : ℕ) : (dcoef^[n] p).2 = p.2 := by
  induction n with
  | zero => rfl
  | succ n ih => rw [Function.iterate_succ_apply']; exact ih

theorem dcoef_ne {p : ℝ[X] × ℝ[X]} (h1 : p.1 ≠ 0) (h2 : derivative p.2 ≠ 0) : (dcoef p).1 ≠ 0 := by
  intro h
  have h3 : derivative p.2 * p.1 = -derivative p.1 := by
    rw [eq_neg_iff_add_eq_zero, add_comm]; exact h
  have h4 : p.1.degree ≤ (derivative p.2 * p.1).degree := by
    rw [degree_mul]
    exact le_add_of_nonneg_left (zero_le_degree_iff.2 h2)
  rw [h3, degree_neg] at h4
  exact absurd (degree_derivative_lt h1) (not_lt.2 h4)

theorem dcoef_iterate {p : ℝ[X] × ℝ[X]} (h1 : p.1 ≠ 0) (h2 : derivative p.2 ≠ 0) (h3 : p.2.natDegree ≤ 2) (n : ℕ) :
    (dcoef^[n] p).1 ≠ 0 ∧ (dcoef^[n] p).1.natDegree ≤ p.1.natDegree + n := by
  induction n with
  | zero => exact ⟨h1, le_refl _⟩
  | succ n ih =>
    rw [Function.iterate_succ_apply']
    have hs := dcoef_snd p n
    refine ⟨dcoef_ne ih.1 (by rw [hs]; exact h2), ?_⟩
    have hd : (derivative p.2).natDegree ≤ 1 := (natDegree_derivative_le _).trans (by omega)
    refine (natDegree_add_le _ _).trans (max_le ?_ ?_)
    · exact (natDegree_derivative_le _).trans (by omega)
    · rw [hs]
      exact natDegree_mul_le.trans (by omega)

/-- Terms whose exponents differ by more than a constant. -/
def Different (L : List (ℝ[X] × ℝ[X])) : Prop := L.Pairwise (fun p q => derivative (p.2 - q.2) ≠ 0)

theorem zeros_lt : ∀ (L : List (ℝ[X] × ℝ[X])) (D : ℕ) (S : Finset ℝ), L ≠ [] →
    (∀ p ∈ L, p.1 ≠ 0 ∧ p.1.natDegree ≤ D ∧ p.2.natDegree ≤ 2) → Different L → (∀ x ∈ S, total L x = 0) →
    S.card < (2 ^ L.length - 1) * (D + 1)
  | [], _, _, h, _, _, _ => absurd rfl h
  | [p], D, S, _, hp, _, hS => by
    have hp := hp p (by simp)
    have hz : ∀ x ∈ S, x ∈ p.1.roots.toFinset := by
      intro x hx
      have h := hS x hx
      simp only [total, term, List.map_cons, List.map_nil, List.sum_cons, List.sum_nil, add_zero, mul_eq_zero,
        (Real.exp_pos _).ne', or_false] at h
      simp [hp.1, h]
    have h1 := Finset.card_le_card (show S ⊆ p.1.roots.toFinset from hz)
    have h2 := (p.1.roots.toFinset_card_le).trans (card_roots' p.1)
    simp only [List.length_cons, List.length_nil]
    have := hp.2.1
    omega
  | p :: q :: L, D, S, _, hp, hd, hS => by
    set M := q :: L with hM
    have hd' := List.pairwise_cons.1 hd
    have h0 := hp p (by simp)
    have hsub : ∀ r ∈ M, r ∈ p :: M := fun r hr => List.mem_cons_of_mem _ hr
    have hS1 : ∀ x ∈ S, p.1.eval x + total (M.map (fun r => (r.1, r.2 - p.2))) x = 0 := by
      intro x hx
      have h := hS x hx
      have e : total (p :: M) x = Real.exp (p.2.eval x) * (p.1.eval x + total (M.map (fun r => (r.1, r.2 - p.2))) x) := by
        simp only [total, List.map_cons, List.sum_cons, List.map_map, mul_add]
        congr 1
        · simp only [term]; ring
        · rw [← List.sum_map_mul_left]
          congr 1
          refine List.map_congr_left fun r _ => ?_
          simp only [term, Function.comp_apply, eval_sub, Real.exp_sub]
          field_simp
      rw [e, mul_eq_zero] at h
      exact h.resolve_left (Real.exp_pos _).ne'
    obtain ⟨S', h1, h2⟩ := rolle_iterate (D + 1) p.1 _ S hS1
    have hz : derivative^[D + 1] p.1 = 0 := iterate_derivative_eq_zero (by omega)
    simp only [hz, eval_zero, zero_add] at h1
    have ih := zeros_lt ((M.map (fun r => (r.1, r.2 - p.2))).map dcoef^[D + 1]) (2 * D + 1) S' (by simp [hM]) ?_ ?_ h1
    · simp only [List.length_map] at ih
      rw [List.length_cons, pow_succ]
      have h3 : 1 ≤ 2 ^ M.length := Nat.one_le_two_pow
      obtain ⟨a, ha⟩ : ∃ a, 2 ^ M.length = a + 1 := ⟨2 ^ M.length - 1, by omega⟩
      rw [ha] at ih ⊢
      simp only [Nat.add_sub_cancel] at ih
      rw [show (a + 1) * 2 - 1 = 2 * a + 1 by omega]
      nlinarith
    · intro r hr
      simp only [List.map_map, List.mem_map, Function.comp_apply] at hr
      obtain ⟨r0, hr0, rfl⟩ := hr
      have hr1 := hp r0 (hsub r0 hr0)
      have hne : derivative (r0.2 - p.2) ≠ 0 := by
        have := hd'.1 r0 hr0
        rw [← neg_sub, derivative_neg, neg_ne_zero]
        exact this
      have hdeg : (r0.2 - p.2).natDegree ≤ 2 := (natDegree_sub_le _ _).trans (max_le hr1.2.2 h0.2.2)
      have h := dcoef_iterate (p := (r0.1, r0.2 - p.2)) hr1.1 hne hdeg (D + 1)
      refine ⟨h.1, h.2.trans ?_, ?_⟩
      · have := hr1.2.1
        simp only
        omega
      · rw [dcoef_snd]; exact hdeg
    · unfold Different
      rw [List.pairwise_map, List.pairwise_map]
      refine hd'.2.imp ?_
      intro a b hab
      simp only [dcoef_snd]
      rw [sub_sub_sub_cancel_right]
      exact hab
termination_by L => L.length
decreasing_by simp

/-- A sum of Gaussian functions that vanishes at `2 ^ m - 1` different points has no coefficients but 0. -/
theorem gaussians_independent {m : ℕ} {c h w : Fin m → ℝ} (hc : Function.Injective c) (hh : ∀ i, h i ≠ 0) {S : Finset ℝ}
    (hS : 2 ^ m - 1 ≤ S.card) (hz : ∀ x ∈ S, ∑ i, w i * Real.exp (-h i * (x - c i) ^ 2) = 0) : w = 0 := by
  by_contra hw
  obtain ⟨i0, hi0⟩ : ∃ i, w i ≠ 0 := by
    by_contra hall
    push Not at hall
    exact hw (funext hall)
  let q : Fin m → ℝ[X] := fun i => C (-h i) * (X - C (c i)) ^ 2
  let A : Finset (Fin m) := Finset.univ.filter (fun i => w i ≠ 0)
  let L : List (ℝ[X] × ℝ[X]) := A.toList.map (fun i => (C (w i), q i))
  have hq2 : ∀ i, (q i).natDegree ≤ 2 := by
    intro i
    refine natDegree_mul_le.trans ?_
    rw [natDegree_C, zero_add]
    refine natDegree_pow_le.trans ?_
    have := natDegree_X_sub_C_le (c i)
    omega
  have hlen : L.length ≤ m := by
    simp only [L, List.length_map, Finset.length_toList]
    exact (Finset.card_le_univ A).trans (by simp)
  have hne : L ≠ [] := by
    intro h
    have : i0 ∈ A.toList := by simp [A, hi0]
    simp only [L, List.map_eq_nil_iff] at h
    rw [h] at this
    cases this
  have hdiff : Different L := by
    unfold Different
    simp only [L, List.pairwise_map]
    refine A.nodup_toList.imp ?_
    intro a b hab hd
    have h1 : ∀ x : ℝ, -h a * (2 * (x - c a)) + h b * (2 * (x - c b)) = 0 := by
      intro x
      have := congrArg (eval x) hd
      simp only [q, derivative_sub, derivative_mul, derivative_C, derivative_pow, derivative_X, eval_sub, eval_mul,
        eval_add, eval_C, eval_pow, eval_X, eval_zero, eval_one, Nat.cast_ofNat] at this
      norm_num at this
      linarith
    have e0 := h1 0
    have e1 := h1 1
    have e2 : h a = h b := by linarith
    rw [e2] at e0
    have e3 : h b * (c a - c b) = 0 := by linarith
    rcases mul_eq_zero.1 e3 with h' | h'
    · exact hh b h'
    · exact hab (hc (sub_eq_zero.1 h'))
  have hzero : ∀ x ∈ S, total L x = 0 := by
    intro x hx
    rw [← hz x hx]
    have e : total L x = ∑ i ∈ A, w i * Real.exp (-h i * (x - c i) ^ 2) := by
      simp only [total, L, List.map_map]
      rw [← Finset.sum_map_toList]
      congr 1
      refine List.map_congr_left fun i _ => ?_
      simp [term, q]
    rw [e]
    refine Finset.sum_subset (Finset.subset_univ _) fun i _ hi => ?_
    have : w i = 0 := by
      by_contra h
      exact hi (by simp [A, h])
    rw [this, zero_mul]
  have h := zeros_lt L 0 S hne ?_ hdiff hzero
  · have h1 : 2 ^ L.length ≤ 2 ^ m := Nat.pow_le_pow_right (by norm_num) hlen
    omega
  · intro p hp
    simp only [L, List.mem_map, Finset.mem_toList] at hp
    obtain ⟨i, hi, rfl⟩ := hp
    refine ⟨?_, by simp, hq2 i⟩
    simp only [A, Finset.mem_filter] at hi
    simpa using hi.2

/-! ## Exponents of degree 1 -/

theorem dcoef_iterate_linear {p : ℝ[X] × ℝ[X]} (h1 : p.1 ≠ 0) (h2 : derivative p.2 ≠ 0) (h3 : p.2.natDegree ≤ 1) (n : ℕ) :
    (dcoef^[n] p).1 ≠ 0 ∧ (dcoef^[n] p).1.natDegree ≤ p.1.natDegree := by
  induction n with
  | zero => exact ⟨h1, le_refl _⟩
  | succ n ih =>
    rw [Function.iterate_succ_apply']
    have hs := dcoef_snd p n
    refine ⟨dcoef_ne ih.1 (by rw [hs]; exact h2), ?_⟩
    have hd : (derivative p.2).natDegree ≤ 0 := (natDegree_derivative_le _).trans (by omega)
    refine (natDegree_add_le _ _).trans (max_le ?_ ?_)
    · exact (natDegree_derivative_le _).trans (by omega)
    · rw [hs]
      exact natDegree_mul_le.trans (by omega)

theorem total_cons_sub (p : ℝ[X] × ℝ[X]) (M : List (ℝ[X] × ℝ[X])) (x : ℝ) :
    total (p :: M) x = Real.exp (p.2.eval x) * (p.1.eval x + total (M.map (fun r => (r.1, r.2 - p.2))) x) := by
  simp only [total, List.map_cons, List.sum_cons, List.map_map, mul_add]
  congr 1
  · simp only [term]; ring
  · rw [← List.sum_map_mul_left]
    congr 1
    refine List.map_congr_left fun r _ => ?_
    simp only [term, Function.comp_apply, eval_sub, Real.exp_sub]
    field_simp

theorem zeros_lt_linear : ∀ (L : List (ℝ[X] × ℝ[X])) (D : ℕ) (S : Finset ℝ), L ≠ [] →
    (∀ p ∈ L, p.1 ≠ 0 ∧ p.1.natDegree ≤ D ∧ p.2.natDegree ≤ 1) → Different L → (∀ x ∈ S, total L x = 0) →
    S.card < L.length * (D + 1)
  | [], _, _, h, _, _, _ => absurd rfl h
  | [p], D, S, hne, hp, hd, hS => by
    have h := zeros_lt [p] D S hne (fun q hq => ⟨(hp q hq).1, (hp q hq).2.1, (hp q hq).2.2.trans (by norm_num)⟩) hd hS
    simpa using h
  | p :: q :: L, D, S, _, hp, hd, hS => by
    set M := q :: L with hM
    have hd' := List.pairwise_cons.1 hd
    have h0 := hp p (by simp)
    have hsub : ∀ r ∈ M, r ∈ p :: M := fun r hr => List.mem_cons_of_mem _ hr
    have hS1 : ∀ x ∈ S, p.1.eval x + total (M.map (fun r => (r.1, r.2 - p.2))) x = 0 := by
      intro x hx
      have h := hS x hx
      rw [total_cons_sub, mul_eq_zero] at h
      exact h.resolve_left (Real.exp_pos _).ne'
    obtain ⟨S', h1, h2⟩ := rolle_iterate (D + 1) p.1 _ S hS1
    have hz : derivative^[D + 1] p.1 = 0 := iterate_derivative_eq_zero (by omega)
    simp only [hz, eval_zero, zero_add] at h1
    have ih := zeros_lt_linear ((M.map (fun r => (r.1, r.2 - p.2))).map dcoef^[D + 1]) D S' (by simp [hM]) ?_ ?_ h1
    · simp only [List.length_map] at ih
      rw [List.length_cons]
      nlinarith
    · intro r hr
      simp only [List.map_map, List.mem_map, Function.comp_apply] at hr
      obtain ⟨r0, hr0, rfl⟩ := hr
      have hr1 := hp r0 (hsub r0 hr0)
      have hne : derivative (r0.2 - p.2) ≠ 0 := by
        have := hd'.1 r0 hr0
        rw [← neg_sub, derivative_neg, neg_ne_zero]
        exact this
      have hdeg : (r0.2 - p.2).natDegree ≤ 1 := (natDegree_sub_le _ _).trans (max_le hr1.2.2 h0.2.2)
      have h := dcoef_iterate_linear (p := (r0.1, r0.2 - p.2)) hr1.1 hne hdeg (D + 1)
      refine ⟨h.1, h.2.trans hr1.2.1, ?_⟩
      rw [dcoef_snd]; exact hdeg
    · unfold Different
      rw [List.pairwise_map, List.pairwise_map]
      refine hd'.2.imp ?_
      intro a b hab
      simp only [dcoef_snd]
      rw [sub_sub_sub_cancel_right]
      exact hab
termination_by L => L.length
decreasing_by simp

/-- A sum of `m` exponentials with different rates that vanishes at `m` different points has no coefficients but 0. -/
theorem exponentials_independent {ι : Type} [Fintype ι] {r w : ι → ℝ} (hr : Function.Injective r) {S : Finset ℝ}
    (hS : Fintype.card ι ≤ S.card) (hz : ∀ x ∈ S, ∑ i, w i * Real.exp (r i * x) = 0) : w = 0 := by
  by_contra hw
  obtain ⟨i0, hi0⟩ : ∃ i, w i ≠ 0 := by
    by_contra hall
    push Not at hall
    exact hw (funext hall)
  classical
  let A : Finset ι := Finset.univ.filter (fun i => w i ≠ 0)
  let L : List (ℝ[X] × ℝ[X]) := A.toList.map (fun i => (C (w i), C (r i) * X))
  have hlen : L.length ≤ Fintype.card ι := by
    simp only [L, List.length_map, Finset.length_toList]
    exact Finset.card_le_univ A
  have hne : L ≠ [] := by
    intro h
    have : i0 ∈ A.toList := by simp [A, hi0]
    simp only [L, List.map_eq_nil_iff] at h
    rw [h] at this
    cases this
  have hdiff : Different L := by
    unfold Different
    simp only [L, List.pairwise_map]
    refine A.nodup_toList.imp ?_
    intro a b hab hd
    have h1 := congrArg (eval 0) hd
    simp only [derivative_sub, derivative_mul, derivative_C, derivative_X, eval_sub, eval_mul, eval_add, eval_C, eval_X,
      eval_zero, eval_one] at h1
    exact hab (hr (by linarith))
  have hzero : ∀ x ∈ S, total L x = 0 := by
    intro x hx
    rw [← hz x hx]
    have e : total L x = ∑ i ∈ A, w i * Real.exp (r i * x) := by
      simp only [total, L, List.map_map]
      rw [← Finset.sum_map_toList]
      congr 1
      refine List.map_congr_left fun i _ => ?_
      simp [term]
    rw [e]
    refine Finset.sum_subset (Finset.subset_univ _) fun i _ hi => ?_
    have : w i = 0 := by
      by_contra h
      exact hi (by simp [A, h])
    rw [this, zero_mul]
  have h := zeros_lt_linear L 0 S hne ?_ hdiff hzero
  · omega
  · intro p hp
    simp only [L, List.mem_map, Finset.mem_toList] at hp
    obtain ⟨i, hi, rfl⟩ := hp
    refine ⟨?_, by simp, ?_⟩
    · simp only [A, Finset.mem_filter] at hi
      simpa using hi.2
    · exact natDegree_C_mul_le _ _ |>.trans natDegree_X_le

/-- A sum of `m` Gaussian functions of the same width that vanishes at `m` different points has no coefficients but 0. -/
theorem equal_gaussians_independent {ι : Type} [Fintype ι] {c w : ι → ℝ} {h : ℝ} (hc : Function.Injective c) (hh : h ≠ 0)
    {S : Finset ℝ} (hS : Fintype.card ι ≤ S.card) (hz : ∀ x ∈ S, ∑ i, w i * Real.exp (-h * (x - c i) ^ 2) = 0) : w = 0 := by
  have h1 := exponentials_independent (r := fun i => 2 * h * c i) (w := fun i => w i * Real.exp (-h * c i ^ 2)) (S := S)
    (fun a b hab => hc (mul_left_cancel₀ (mul_ne_zero two_ne_zero hh) hab)) hS ?_
  · funext i
    have := congrFun h1 i
    simpa [(Real.exp_pos _).ne'] using this
  · intro x hx
    have e : ∑ i, w i * Real.exp (-h * (x - c i) ^ 2) =
        Real.exp (-h * x ^ 2) * ∑ i, w i * Real.exp (-h * c i ^ 2) * Real.exp (2 * h * c i * x) := by
      rw [Finset.mul_sum]
      refine Finset.sum_congr rfl fun i _ => ?_
      rw [mul_assoc, ← Real.exp_add, mul_left_comm, ← Real.exp_add]
      congr 2
      ring
    have h2 := hz x hx
    rw [e, mul_eq_zero] at h2
    exact h2.resolve_left (Real.exp_pos _).ne'

end Verif.ExpPoly
