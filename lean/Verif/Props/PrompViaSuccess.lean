import Verif.Props.PrompVia
import Mathlib.LinearAlgebra.Vandermonde
import Mathlib.LinearAlgebra.FiniteDimensional.Lemmas
import Mathlib.Analysis.SpecialFunctions.Exp

/-! # When conditioning on via points succeeds (C43) -/

namespace Verif
open Matrix ProMP

variable {d w n : ℕ}

/-- Activations at distinct times are linearly independent: up to factors that depend only on the time or only
on the basis function they are powers of distinct numbers (Vandermonde). -/
theorem activation_independent {m : ℕ} (hm : m ≤ w) {ts : Fin m → ℝ} (hts : Function.Injective ts) :
    LinearIndependent ℝ fun j => Spec.activation w (ts j) := by
  rw [Fintype.linearIndependent_iff]
  intro c hc
  rcases Nat.eq_zero_or_pos m with h0 | hpos
  · subst h0
    exact fun i => i.elim0
  have hw : 0 < w := lt_of_lt_of_le hpos hm
  set K : ℝ := 4 * (w : ℝ) ^ 2 * Real.log (10 / 7) with hK
  have hKpos : 0 < K := by
    have : 0 < Real.log (10 / 7) := Real.log_pos (by norm_num)
    have : (0 : ℝ) < w := by exact_mod_cast hw
    positivity
  set δ : ℝ := if w = 1 then 1 else 1 / ((w : ℝ) - 1) with hδ
  have hδpos : 0 < δ := by
    rw [hδ]
    split
    · exact one_pos
    · have : (1 : ℝ) < w := by exact_mod_cast (by omega : 1 < w)
      apply one_div_pos.2
      linarith
  have hcentre : ∀ a : Fin w, Spec.centre w a = (a : ℝ) * δ := by
    intro a
    unfold Spec.centre
    rw [hδ]
    by_cases h1 : w = 1
    · have ha : a.val = 0 := by omega
      rw [if_pos h1, ha]
      simp
    · rw [if_neg h1, if_neg h1]
      ring
  have hrbf : ∀ (s : ℝ) (a : Fin w), Spec.rbf w s a =
      Real.exp (-K * s ^ 2) * Real.exp (-K * ((a : ℝ) * δ) ^ 2) * Real.exp (2 * K * δ * s) ^ (a : ℕ) := by
    intro s a
    unfold Spec.rbf
    rw [← Real.exp_nat_mul, ← Real.exp_add, ← Real.exp_add, hcentre]
    congr 1
    rw [← hK]
    ring
  have hinj : Function.Injective fun j => Real.exp (2 * K * δ * ts j) := by
    intro i j hij
    have h1 := Real.exp_injective hij
    have h2 : 2 * K * δ ≠ 0 := by positivity
    exact hts (mul_left_cancel₀ h2 h1)
  have hsum : ∀ a : Fin m,
      ∑ j, (c j * (Real.exp (-K * ts j ^ 2) / ∑ b, Spec.rbf w (ts j) b)) * Real.exp (2 * K * δ * ts j) ^ (a : ℕ) = 0 := by
    intro a
    have h := congrFun hc ⟨a.val, by omega⟩
    rw [Finset.sum_apply] at h
    have h3 : (Real.exp (-K * (((a : ℕ) : ℝ) * δ) ^ 2)) ≠ 0 := (Real.exp_pos _).ne'
    apply mul_left_cancel₀ h3
    rw [mul_zero, ← (show (0 : Fin w → ℝ) _ = 0 from rfl), ← h, Finset.mul_sum]
    apply Finset.sum_congr rfl
    intro j _
    rw [Pi.smul_apply, smul_eq_mul]
    unfold Spec.activation
    rw [hrbf (ts j) ⟨a.val, by omega⟩]
    simp only
    ring
  have hz := eq_zero_of_forall_pow_sum_mul_pow_eq_zero hinj hsum
  intro j
  have := congrFun hz j
  rcases mul_eq_zero.1 this with h | h
  · exact h
  · exfalso
    exact (div_pos (Real.exp_pos _) (rbf_sum_pos hw _)).ne' h

/-- Span of the activations at a list of times. -/
noncomputable def actSpan (w : ℕ) (prev : List ℝ) : Submodule ℝ (Vec w) :=
  Submodule.span ℝ (Set.range fun i : Fin prev.length => Spec.activation w (prev.get i))

theorem mem_actSpan {prev : List ℝ} {t : ℝ} (h : t ∈ prev) : Spec.activation w t ∈ actSpan w prev := by
  obtain ⟨i, rfl⟩ := List.get_of_mem h
  exact Submodule.subset_span ⟨i, rfl⟩

theorem notMem_actSpan_iff {prev : List ℝ} (hn : prev.Nodup) (hl : prev.length ≤ w) (t : ℝ) :
    Spec.activation w t ∉ actSpan w prev ↔ t ∉ prev ∧ prev.length + 1 ≤ w := by
  have hinj : Function.Injective prev.get := List.nodup_iff_injective_get.1 hn
  constructor
  · intro h
    refine ⟨fun ht => h (mem_actSpan ht), ?_⟩
    by_contra hlt
    have hli := activation_independent hl hinj
    have htop := hli.span_eq_top_of_card_eq_finrank' (by rw [Fintype.card_fin, Module.finrank_fin_fun]; omega)
    apply h
    show _ ∈ Submodule.span ℝ _
    rw [htop]
    exact Submodule.mem_top
  · rintro ⟨ht, hlen⟩
    have hinj' : Function.Injective (Fin.cons t prev.get : Fin (prev.length + 1) → ℝ) := by
      rw [Fin.cons_injective_iff]
      refine ⟨?_, hinj⟩
      rintro ⟨i, hi⟩
      exact ht (hi ▸ List.get_mem prev i)
    have hli := activation_independent hlen hinj'
    have e : (fun j => Spec.activation w ((Fin.cons t prev.get : Fin (prev.length + 1) → ℝ) j)) =
        Fin.cons (Spec.activation w t) (fun i => Spec.activation w (prev.get i)) := by
      funext j
      refine Fin.cases rfl (fun i => rfl) j
    rw [e, linearIndependent_finCons] at hli
    exact hli.2

/-- Every direction constrained at the previous times has, in each dimension, weights in the span of the
activations. -/
theorem constrained_block {prev : List ℝ} {s : Vec (d * w)} (hs : s ∈ constrained d w {t | t ∈ prev}) (k : Fin d) :
    (fun a => s (finProdFinEquiv (k, a))) ∈ actSpan w prev := by
  unfold constrained at hs
  induction hs using Submodule.span_induction with
  | mem z hz =>
    obtain ⟨t, ht, x, rfl⟩ := hz
    have e : (fun a => (psi d w t *ᵥ x) (finProdFinEquiv (k, a))) = x k • Spec.activation w t := by
      funext a
      rw [psi_mulVec_flat, Pi.smul_apply, smul_eq_mul, mul_comm]
    rw [e]
    exact Submodule.smul_mem _ _ (mem_actSpan ht)
  | zero => exact Submodule.zero_mem _
  | add a b _ _ ha hb => exact Submodule.add_mem _ ha hb
  | smul c a _ ha => exact Submodule.smul_mem _ c ha

theorem along_posSemidef_step {p r : ProMP d w} (hC : p.weightCov.PosDef) (hr : r.weightCov.PosSemidef)
    {prev : List ℝ} (ha : Along p r {t | t ∈ prev}) {t : ℝ} (ht : Spec.activation w t ∉ actSpan w prev) :
    ((psi d w t)ᵀ * r.weightCov * psi d w t).det ≠ 0 := by
  intro hdet
  obtain ⟨x, hx, hx0⟩ := Matrix.exists_mulVec_eq_zero_iff.2 hdet
  have h1 : (psi d w t *ᵥ x) ⬝ᵥ (r.weightCov *ᵥ (psi d w t *ᵥ x)) = 0 := by
    have : x ⬝ᵥ (((psi d w t)ᵀ * r.weightCov * psi d w t) *ᵥ x) = 0 := by rw [hx0, dotProduct_zero]
    rw [← mulVec_mulVec, ← mulVec_mulVec, dotProduct_mulVec, vecMul_transpose] at this
    exact this
  have h2 := mulVec_eq_zero_of_form hr h1
  obtain ⟨s, hs, hs2⟩ := ha.2 (psi d w t *ᵥ x)
  rw [h2, ← mulVec_add] at hs2
  have h3 : psi d w t *ᵥ x + s = 0 := by
    by_contra hne
    have := hC.dotProduct_mulVec_pos hne
    rw [← hs2, dotProduct_zero] at this
    exact lt_irrefl _ this
  obtain ⟨k, hk⟩ : ∃ k, x k ≠ 0 := by
    by_contra hall
    push Not at hall
    exact hx (funext hall)
  apply ht
  have h4 := constrained_block hs k
  have e : Spec.activation w t = -(x k)⁻¹ • (fun a => s (finProdFinEquiv (k, a))) := by
    funext a
    have := congrFun h3 (finProdFinEquiv (k, a))
    rw [Pi.add_apply, psi_mulVec_flat, Pi.zero_apply] at this
    rw [Pi.smul_apply, smul_eq_mul]
    have hs' : s (finProdFinEquiv (k, a)) = -(Spec.activation w t a * x k) := by linarith
    rw [hs']
    field_simp
  rw [e]
  exact Submodule.smul_mem _ _ h4

theorem fixed_span {r : ProMP d w} {prev : List ℝ} (hf : ∀ t ∈ prev, ∃ y, Fixed r t y) {u : Vec w}
    (hu : u ∈ actSpan w prev) (x : Fin (d * w)) (k : Fin d) :
    ∑ a, u a * r.weightCov (finProdFinEquiv (k, a)) x = 0 := by
  unfold actSpan at hu
  induction hu using Submodule.span_induction with
  | mem z hz =>
    obtain ⟨i, rfl⟩ := hz
    obtain ⟨y, hy⟩ := hf (prev.get i) (List.get_mem prev i)
    have h := congrFun (psi_transpose_mulVec (prev.get i) (fun z => r.weightCov z x)) k
    unfold Spec.prompPosition at h
    refine h.symm.trans ?_
    have h2 := congrFun (congrFun hy.2.1 k) x
    exact h2
  | zero => simp
  | add a b _ _ ha hb => simp only [Pi.add_apply, add_mul, Finset.sum_add_distrib, ha, hb, add_zero]
  | smul c a _ ha => simp only [Pi.smul_apply, smul_eq_mul, mul_assoc, ← Finset.mul_sum, ha, mul_zero]

theorem fixed_step {r : ProMP d w} (hd : 0 < d) {prev : List ℝ} (hf : ∀ t ∈ prev, ∃ y, Fixed r t y) {t : ℝ}
    (ht : Spec.activation w t ∈ actSpan w prev) : ((psi d w t)ᵀ * r.weightCov * psi d w t).det = 0 := by
  have e : (psi d w t)ᵀ * r.weightCov = 0 := by
    ext k x
    have h := congrFun (psi_transpose_mulVec t (fun z => r.weightCov z x)) k
    exact h.trans (fixed_span hf ht x k)
  rw [e, Matrix.zero_mul]
  have : Nonempty (Fin d) := ⟨⟨0, hd⟩⟩
  exact det_zero

theorem viaPoints_succeeds_aux (hd : 0 < d) {p : ProMP d w} (hC : p.weightCov.PosDef) :
    ∀ (points : List (ℝ × Vec d)) (prev : List ℝ) {r : ProMP d w}, Spec.Reachable r → r.weightCov.PosSemidef →
      Along p r {t | t ∈ prev} → (∀ t ∈ prev, ∃ y, Fixed r t y) → prev.Nodup → prev.length ≤ w →
      ((∃ q, r.viaPoints points = .ok q) ↔
        (prev ++ points.map Prod.fst).Nodup ∧ (prev ++ points.map Prod.fst).length ≤ w)
  | [], prev, r, hr, hpsd, ha, hf, hn, hl => by
    simp only [List.map_nil, List.append_nil]
    exact ⟨fun _ => ⟨hn, hl⟩, fun _ => ⟨r, rfl⟩⟩
  | (t, y) :: rest, prev, r, hr, hpsd, ha, hf, hn, hl => by
    have hc := exec_condition hr.centers y (.row 0) (t := t) (one_ne_zero (α := ℝ))
    rw [div_one, broadcast_row_zero, zero_add] at hc
    have hperm : (prev ++ ((t, y) :: rest).map Prod.fst).Perm ((t :: prev) ++ rest.map Prod.fst) := by
      rw [List.map_cons, List.cons_append]
      exact List.perm_middle
    rw [hperm.nodup_iff, hperm.length_eq, viaPoints_cons]
    by_cases hmem : Spec.activation w t ∈ actSpan w prev
    · rw [hc, if_pos (fixed_step hd hf hmem)]
      have hno : ¬ (t ∉ prev ∧ prev.length + 1 ≤ w) := fun h => (notMem_actSpan_iff hn hl t).2 h hmem
      constructor
      · rintro ⟨q, hq⟩
        cases hq
      · rintro ⟨h1, h2⟩
        exfalso
        apply hno
        rw [List.cons_append, List.nodup_cons] at h1
        refine ⟨fun hmem => h1.1 (List.mem_append_left _ hmem), ?_⟩
        simp only [List.length_append, List.length_cons] at h2
        omega
    · have hdet := along_posSemidef_step hC hpsd ha hmem
      rw [if_neg hdet] at hc
      obtain ⟨ht, hlen⟩ := (notMem_actSpan_iff hn hl t).1 hmem
      rw [hc]
      have hu : IsUnit ((0 : Matrix (Fin d) (Fin d) ℝ) + (psi d w t)ᵀ * r.weightCov * psi d w t).det := by
        rw [zero_add]
        exact isUnit_iff_ne_zero.2 hdet
      have hreach : Spec.Reachable (r.conditioned y 0 t) := .condition hr hc
      have hfix : Fixed (r.conditioned y 0 t) t y := by
        rw [zero_add] at hu
        exact ⟨conditioned_mean hu y, conditioned_cov hu y, conditioned_cov_right hu y⟩
      have hmono : Along p r {s | s ∈ t :: prev} := by
        have hle : constrained d w {s | s ∈ prev} ≤ constrained d w {s | s ∈ t :: prev} := by
          apply Submodule.span_mono
          rintro z ⟨s, hs, x, rfl⟩
          exact ⟨s, List.mem_cons_of_mem _ hs, x, rfl⟩
        obtain ⟨⟨s, hs, h1⟩, h2⟩ := ha
        refine ⟨⟨s, hle hs, h1⟩, fun v => ?_⟩
        obtain ⟨s', hs', h'⟩ := h2 v
        exact ⟨s', hle hs', h'⟩
      refine viaPoints_succeeds_aux hd hC rest (t :: prev) hreach
        (conditioned_posSemidef hpsd PosSemidef.zero hu y) (hmono.step List.mem_cons_self y 0) ?_
        (List.nodup_cons.2 ⟨ht, hn⟩) (by simpa using hlen)
      intro s hs
      rcases List.mem_cons.1 hs with rfl | hs
      · exact ⟨y, hfix⟩
      · obtain ⟨y', hy'⟩ := hf s hs
        exact ⟨y', hy'.conditioned _ _ _⟩

/-- **C43.** When noise-free via points can be met: for a ProMP with positive definite covariance of the weights
`via_points` succeeds exactly if the times are pairwise distinct and there are at most as many via points as
weights per dimension. Otherwise it raises LinAlgError. -/
theorem C43_succeeds_iff {p : ProMP d w} (hp : Spec.Reachable p) (hd : 0 < d) (hC : p.weightCov.PosDef)
    (points : List (ℝ × Vec d)) :
    ((∃ q, p.viaPoints points = .ok q) ↔ (points.map Prod.fst).Nodup ∧ points.length ≤ w) ∧
      (¬ ((points.map Prod.fst).Nodup ∧ points.length ≤ w) → p.viaPoints points = .error .linAlgError) := by
  have h := viaPoints_succeeds_aux hd hC points [] hp hC.posSemidef (Along.refl p _)
    (fun t ht => absurd ht List.not_mem_nil) List.nodup_nil (Nat.zero_le _)
  simp only [List.nil_append, List.length_map] at h
  refine ⟨h, fun hno => ?_⟩
  cases hv : p.viaPoints points with
  | ok q => exact absurd (h.1 ⟨q, hv⟩) hno
  | error e => rw [viaPoints_error points hp hv]

/-- Three via points of a new two-dimensional ProMP: the hypotheses of C43 can be met. -/
example : ∃ q, (ProMP.init 2 5).viaPoints [(0, ![1, 2]), (1 / 2, ![3, 4]), (1, ![-1, 0])] = .ok q := by
  rw [(C43_succeeds_iff .init (by norm_num) PosDef.one _).1]
  constructor
  · simp only [List.map_cons, List.map_nil, List.nodup_cons, List.mem_cons, List.not_mem_nil, or_false]
    norm_num
  · norm_num

end Verif
